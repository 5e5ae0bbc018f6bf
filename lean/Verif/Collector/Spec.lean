import Verif.Collector.Enrichment
/-!
# What the enrichment cache should hold and return, said of the history of operations

Nothing here refers to the maps of the cache.
-/
namespace Verif.Collector.Hist
variable {A F I : Type} [DecidableEq F] [DecidableEq I] [HasIe F I] [FieldOrd F I]

/-- the occurrence `n`, from 0, of an element in a list of fields -/
def nth (fs : List F) (i : I) (n : Nat) : Option F := (fs.filter fun f => ie f = i)[n]?

/-- what a value is held for: an occurrence of an element, for a peer, a domain (0 for all) and the fields of a scope -/
structure Place (A F I : Type) where
  ip : A
  domain : UInt32
  scope : List F
  ie : I
  index : Nat

/-- the scope of an operation is that of the place -/
def At (p : Place A F I) (ip : A) (s : Scope F) : Prop := ip = p.ip ∧ s.domain = p.domain ∧ s.fields.getD [] = p.scope

/-- the operation brings this value for the place, with this weight -/
def Puts (o : Op A F I) (p : Place A F I) (w : UInt8) (f : F) : Prop :=
  ∃ ip s fs, o = .upsert ip s w fs ∧ At p ip s ∧ nth fs p.ie p.index = some f

/-- the operation deletes from the place, up to this weight -/
def Drops (o : Op A F I) (p : Place A F I) (w : UInt8) : Prop :=
  (∃ ip s ies, o = .delete ip s w ies ∧ At p ip s ∧ p.ie ∈ ies) ∨ (∃ ip s, o = .deleteAll ip s w ∧ At p ip s)

/-- the operation ends what was brought with weight `w` -/
def Ends (o : Op A F I) (p : Place A F I) (w : UInt8) : Prop := ∃ w', w ≤ w' ∧ ((∃ f, Puts o p w' f) ∨ Drops o p w')

/-- the value was brought and nothing later ended it -/
def Survives (ops : List (Op A F I)) (p : Place A F I) (w : UInt8) (f : F) : Prop :=
  ∃ pre o post, ops = pre ++ o :: post ∧ Puts o p w f ∧ ∀ o' ∈ post, ¬ Ends o' p w

/-- the surviving value of the highest weight -/
def Held (ops : List (Op A F I)) (p : Place A F I) (w : UInt8) (f : F) : Prop :=
  Survives ops p w f ∧ ∀ w' f', Survives ops p w' f' → w' ≤ w

/-- a scope of a domain applies to a record of domain `dom` that has all of its fields -/
def Applies (dom : UInt32) (record : List F) (d : UInt32) (s : List F) : Prop :=
  (d = 0 ∨ d = dom) ∧ ∀ (i : I) (n : Nat) (f : F), nth s i n = some f → nth record i n = some f

/-- the reference of a field that follows others -/
def occ (before : List F) (f : F) : FieldRef I := ⟨ie f, (before.filter fun g => ie g = ie f).length⟩

/-- lists of fields in lexicographic order -/
def LexBefore (s t : List F) : Prop :=
  ∃ c x y, s = c ++ x ∧ t = c ++ y ∧
    ((x = [] ∧ y ≠ []) ∨ ∃ f x' g y', x = f :: x' ∧ y = g :: y' ∧ FieldOrd.lt (occ c f, f) (occ c g, g) = true)

/-- the order in which scopes of equal weight override each other: those for all domains first, then the order of the lists of fields -/
def Before (a b : UInt32 × List F) : Prop := (a.1 = 0 ∧ b.1 ≠ 0) ∨ (a.1 = b.1 ∧ LexBefore a.2 b.2)

/-- the value that a record gets for an occurrence of an element comes from this scope, with this weight -/
def Wins (ops : List (Op A F I)) (ip : A) (dom : UInt32) (record : List F) (r : FieldRef I) (d : UInt32) (s : List F) (w : UInt8) (f : F) : Prop :=
  Applies dom record d s ∧ Held ops ⟨ip, d, s, r.ie, r.index⟩ w f ∧
    ∀ d' s' w' f', Applies dom record d' s' → Held ops ⟨ip, d', s', r.ie, r.index⟩ w' f' →
      w' < w ∨ (w' = w ∧ ((d', s') = (d, s) ∨ Before (d', s') (d, s)))

/-- the value that a record gets for an occurrence of an element -/
def Best (ops : List (Op A F I)) (ip : A) (dom : UInt32) (record : List F) (r : FieldRef I) (f : F) : Prop :=
  ∃ d s w, Wins ops ip dom record r d s w f

/-- what is returned, in any order: one value for each reference for which there is one, and nothing if there is none -/
def Answers (chosen : FieldRef I → F → Prop) (res : Option (List F)) : Prop :=
  ∃ m : List (FieldRef I × F), (m.map (·.1)).Nodup ∧ (∀ r f, (r, f) ∈ m ↔ chosen r f) ∧ res = if m = [] then none else some (m.map (·.2))

/-- the peer of an operation -/
def peer : Op A F I → A
  | .upsert ip _ _ _ => ip
  | .delete ip _ _ _ => ip
  | .deleteAll ip _ _ => ip

/-- the domain of an operation -/
def domain : Op A F I → UInt32
  | .upsert _ s _ _ => s.domain
  | .delete _ s _ _ => s.domain
  | .deleteAll _ s _ => s.domain

end Verif.Collector.Hist
