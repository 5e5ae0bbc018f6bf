import Verif.NetconfXml.SubBack
/-!
# Filters by subtree: what is copied, and which namespaces are kept

The files of the code are named as in `Subscription.lean`.
-/
namespace Verif.Xml
open Verif.Collector (Text trim trimStart isSpace parseNat)

/-- the attributes of an event -/
def Raw.attrs : Raw → List Attr
  | .start _ as => as
  | .empty _ as => as
  | _ => []

/-- the prefixes that an event uses: that of its name, and those of its attributes that are no declarations -/
def Raw.uses : Raw → List String
  | .start q as => q.pfx.getD "" :: as.filterMap (fun a => if a.key.pfx = some "xmlns" then none else a.key.pfx)
  | .empty q as => q.pfx.getD "" :: as.filterMap (fun a => if a.key.pfx = some "xmlns" then none else a.key.pfx)
  | _ => []

/-- each of some prefixes once, in order of their first uses -/
def firstOf (l : List String) : List String := l.foldl (fun u p => if p ∈ u then u else u ++ [p]) []

/-- content of elements that declare nothing -/
def Undeclared (c : List Raw) : Prop := ∀ r ∈ c, declared r.attrs = []

/-- no white space at the ends: the content begins and ends with elements, if there is any -/
def Edged (c : List Raw) : Prop := ∀ r, c.head? = some r ∨ c.getLast? = some r → ∀ t, r ≠ .text t

theorem annotate_plain {c : List Raw} (h : Bal c) : Undeclared c → ∀ (st : Stack) (R : List Raw), annotate st (c ++ R) = c.map (fun r => ⟨r, st.scope⟩) ++ annotate st R := by
  induction h with
  | nil => intro _ st R; rfl
  | @single r c hr _ ih =>
    intro hu st R
    have hrest := ih (fun x hx => hu x (List.mem_cons_of_mem _ hx)) st R
    have hr0 := hu r List.mem_cons_self
    cases r <;> simp [Raw.single] at hr
    case empty q as =>
      show annotate st (.empty q as :: (c ++ R)) = _
      rw [annotate_empty, hrest, show declared as = [] from hr0]
      rfl
    all_goals
      rw [List.map_cons, List.cons_append, List.cons_append, ← hrest]
      cases st <;> rfl
  | @tag q as a b _ _ iha ihb =>
    intro hu st R
    have h0 : declared as = [] := hu (.start q as) List.mem_cons_self
    have ha := iha (fun x hx => hu x (by simp [hx])) ((q, declared as ++ st.scope) :: st) (.close q :: (b ++ R))
    have hb := ihb (fun x hx => hu x (by simp [hx])) st R
    rw [List.cons_append, annotate_start, List.append_assoc, List.cons_append, ha, annotate_close, hb, h0]
    show _ :: (List.map (fun r => (⟨r, st.scope⟩ : Ev)) a ++ _) = _
    simp

/-- the namespaces that are noted of content whose events have the same bindings -/
def notes (sc : Scope) (c : List Raw) (u : List (String × Text)) : List (String × Text) := c.foldl (fun u r => noteElement ⟨r, sc⟩ u) u

theorem copyUsedL_all {tag : String} {q : QName} (hq : q.loc = tag) {sc sc' : Scope} {rest : List Ev} : ∀ (c : List Raw) (u : List (String × Text)), (∀ r ∈ c, r ≠ .bad) → (∀ q, Raw.close q ∈ c → q.loc ≠ tag) →
    copyUsedL tag u (c.map (fun r => ⟨r, sc⟩) ++ ⟨.close q, sc'⟩ :: rest) = (.ok (c, notes sc c u), ⟨.close q, sc'⟩ :: rest) := by
  intro c
  induction c with
  | nil => intro u _ _; simp [copyUsedL, hq, notes]
  | cons r c ih =>
    intro u h1 h2
    have hi := ih (noteElement ⟨r, sc⟩ u) (fun x hx => h1 x (List.mem_cons_of_mem _ hx)) (fun q hq => h2 q (List.mem_cons_of_mem _ hq))
    have hb : headBad (c.map (fun r => (⟨r, sc⟩ : Ev)) ++ ⟨.close q, sc'⟩ :: rest) = false := by
      apply headBad_append
      · intro e he; obtain ⟨x, hx, rfl⟩ := List.mem_map.mp he; exact h1 x (List.mem_cons_of_mem _ hx)
      · simp
    have hgo : copyUsedL tag u ((r :: c).map (fun r => ⟨r, sc⟩) ++ ⟨.close q, sc'⟩ :: rest) =
        ((copyUsedL tag (noteElement ⟨r, sc⟩ u) (c.map (fun r => (⟨r, sc⟩ : Ev)) ++ ⟨.close q, sc'⟩ :: rest)).1.map fun x => (r :: x.1, x.2), (copyUsedL tag (noteElement ⟨r, sc⟩ u) (c.map (fun r => (⟨r, sc⟩ : Ev)) ++ ⟨.close q, sc'⟩ :: rest)).2) := by
      rw [List.map_cons, List.cons_append, copyUsedL]
      simp only [hb]
      cases r with
      | close q' => simp only [if_neg (h2 q' List.mem_cons_self)]; rfl
      | _ => rfl
    rw [hgo, hi]
    rfl

theorem trimRawsStart_edge {f : Text → Text} {c : List Raw} (h : ∀ r, c.head? = some r → ∀ t, r ≠ .text t) : trimRawsStart f c = c := by
  cases c with
  | nil => rfl
  | cons r c =>
    cases r with
    | text t => exact absurd rfl (h _ rfl t)
    | _ => rfl

theorem trimRaws_edged {c : List Raw} (h : Edged c) : trimRaws c = c := by
  unfold trimRaws
  rw [trimRawsStart_edge (fun r hr => h r (.inl hr)), trimRawsStart_edge, List.reverse_reverse]
  intro r hr
  rw [List.head?_reverse] at hr
  exact h r (.inr hr)

/-- content that can be in a filter by subtree of a name -/
structure SubtreeContent (key : String) (c : List Raw) : Prop where
  bal : Bal c
  names : ∀ q, Raw.close q ∈ c → q.loc ≠ key
  utf8 : ∀ r ∈ c, r.utf8 = true
  edged : Edged c
  plain : Undeclared c

/-- reading a filter by subtree -/
theorem reads_subtree {st : Stack} {ns : Text} {px : Option String} {key : String} {as : List Attr} (hr : (declared as ++ st.scope).resolve ⟨px, key⟩ = .bound ns) {c : List Raw} (hc : SubtreeContent key c) :
    Reads (readSubtree ns key) st (tagRaws ⟨px, key⟩ as c) ⟨notes (declared as ++ st.scope) c [], c⟩ := by
  intro R ps hR
  have hev := annotate_plain hc.bal hc.plain ((⟨px, key⟩, declared as ++ st.scope) :: st) (.close ⟨px, key⟩ :: R)
  have hfine : headBad (annotate ((⟨px, key⟩, declared as ++ st.scope) :: st) (c ++ .close ⟨px, key⟩ :: R)) = false := by
    rw [hev, annotate_close]
    apply headBad_append
    · intro e he; obtain ⟨x, hx, rfl⟩ := List.mem_map.mp he; exact bal_good hc.bal x hx
    · simp
  have hexp : expectTag ns key ⟨annotate st (tagRaws ⟨px, key⟩ as c ++ R), ps⟩ =
      (.ok as, ⟨annotate ((⟨px, key⟩, declared as ++ st.scope) :: st) (c ++ .close ⟨px, key⟩ :: R), true :: ps⟩) := by
    refine (bind_ok (skipText_next (next_tagRaws _ _ _ _ _))).trans ?_
    refine (bind_ok (isTag_run (b := true) (by rw [tagRaws_append, isTagL_start, hr]; simp))).trans ?_
    rw [if_pos rfl, tagRaws_append]
    exact open_start hr hfine
  refine (bind_ok hexp).trans ?_
  have hcopy : copyUsed key ⟨annotate ((⟨px, key⟩, declared as ++ st.scope) :: st) (c ++ .close ⟨px, key⟩ :: R), true :: ps⟩ =
      (.ok (c, notes (declared as ++ st.scope) c []), ⟨annotate ((⟨px, key⟩, declared as ++ st.scope) :: st) (.close ⟨px, key⟩ :: R), true :: ps⟩) := by
    unfold copyUsed
    simp only [hev, annotate_close]
    rw [copyUsedL_all (tag := key) (q := ⟨px, key⟩) rfl c [] (bal_good hc.bal) hc.names]
    simp only
    rw [if_pos (List.all_eq_true.mpr hc.utf8)]
    rfl
  refine (bind_ok hcopy).trans ?_
  refine (bind_ok (close_here (next_fine hR))).trans ?_
  rw [trimRaws_edged hc.edged]
  rfl

theorem reads_specSubtree {k : FilterKind} {st : Stack} {px : Option String} {as : List Attr} (hr : (declared as ++ st.scope).resolve ⟨px, k.subtree⟩ = .bound k.ns) {c : List Raw} (hc : SubtreeContent k.subtree c) :
    Reads (readSpec k) st (tagRaws ⟨px, k.subtree⟩ as c) (.subtree ⟨notes (declared as ++ st.scope) c [], c⟩) := by
  intro R ps hR
  refine (bind_ok (skipText_next (next_tagRaws _ _ _ _ _))).trans ?_
  refine (bind_ok (isTag_run (b := true) (by rw [tagRaws_append, isTagL_start, hr]; simp))).trans ?_
  rw [if_pos rfl]
  exact (bind_ok (reads_subtree hr hc R ps hR)).trans rfl

/-! ## The namespaces that are noted -/

/-- one use of a prefix, with its namespace -/
def noteUse (n : String → Option Text) (u : List (String × Text)) (p : String) : List (String × Text) := if u.any fun b => b.1 = p then u else match n p with | some t => u ++ [(p, t)] | none => u

/-- the namespace of a prefix -/
def nsOf (sc : Scope) (p : String) : Option Text := match sc.resolve ⟨if p = "" then none else some p, ""⟩ with | .bound n => some n | _ => none

theorem resolve_loc (sc : Scope) (p : Option String) (l l' : String) : sc.resolve ⟨p, l⟩ = sc.resolve ⟨p, l'⟩ := rfl

/-- no name has a prefix without a letter -/
def Raw.sound : Raw → Prop
  | .start q as => q.pfx ≠ some "" ∧ ∀ a ∈ as, a.key.pfx ≠ some ""
  | .empty q as => q.pfx ≠ some "" ∧ ∀ a ∈ as, a.key.pfx ≠ some ""
  | _ => True

theorem noteName_use (sc : Scope) {q : QName} (h : q.pfx ≠ some "") (u : List (String × Text)) : noteName sc q u = noteUse (nsOf sc) u (q.pfx.getD "") := by
  obtain ⟨p, l⟩ := q
  unfold noteName noteUse nsOf
  cases p with
  | none =>
    simp only [Option.getD_none, if_true]
    rw [resolve_loc sc none l ""]
    cases sc.resolve ⟨none, ""⟩ <;> rfl
  | some p =>
    have hp : p ≠ "" := fun e => h (by rw [e])
    simp only [Option.getD_some, if_neg hp]
    rw [resolve_loc sc (some p) l ""]
    cases sc.resolve ⟨some p, ""⟩ <;> rfl

theorem noteAttrs (sc : Scope) {as : List Attr} (h : ∀ a ∈ as, a.key.pfx ≠ some "") (u : List (String × Text)) :
    as.foldl (fun u a => if a.key.pfx = none ∨ a.key.pfx = some "xmlns" then u else noteName sc a.key u) u = (as.filterMap (fun a => if a.key.pfx = some "xmlns" then none else a.key.pfx)).foldl (noteUse (nsOf sc)) u := by
  induction as generalizing u with
  | nil => rfl
  | cons a as ih =>
    rw [List.foldl_cons, ih fun x hx => h x (List.mem_cons_of_mem _ hx)]
    have ha := h a List.mem_cons_self
    cases hp : a.key.pfx with
    | none => rw [if_pos (.inl rfl), List.filterMap_cons_none (by rw [hp]; simp)]
    | some p =>
      by_cases hx : p = "xmlns"
      · subst hx
        rw [if_pos (.inr rfl), List.filterMap_cons_none (by rw [hp]; simp)]
      · rw [if_neg (by simp [hx]), List.filterMap_cons_some (b := p) (by rw [hp]; simp [hx]), List.foldl_cons, noteName_use sc ha, hp]
        rfl

theorem noteElement_uses (sc : Scope) {r : Raw} (h : r.sound) (u : List (String × Text)) : noteElement ⟨r, sc⟩ u = r.uses.foldl (noteUse (nsOf sc)) u := by
  cases r with
  | start q as => show List.foldl _ (noteName sc q u) as = _; rw [noteAttrs sc h.2, noteName_use sc h.1]; rfl
  | empty q as => show List.foldl _ (noteName sc q u) as = _; rw [noteAttrs sc h.2, noteName_use sc h.1]; rfl
  | _ => rfl

theorem notes_uses (sc : Scope) {c : List Raw} (h : ∀ r ∈ c, r.sound) (u : List (String × Text)) : notes sc c u = (c.flatMap Raw.uses).foldl (noteUse (nsOf sc)) u := by
  induction c generalizing u with
  | nil => rfl
  | cons r c ih =>
    show notes sc c (noteElement ⟨r, sc⟩ u) = _
    rw [ih (fun x hx => h x (List.mem_cons_of_mem _ hx)), noteElement_uses sc (h r List.mem_cons_self), List.flatMap_cons, List.foldl_append]

/-- prefixes that all have a namespace are noted in order of their first uses -/
theorem noted {n : String → Option Text} {l : List String} {ns : List (String × Text)} (hn : ∀ p ∈ l, ∃ t, n p = some t ∧ (p, t) ∈ ns) :
    ∀ (u : List (String × Text)), (∀ b ∈ u, b ∈ ns) → (l.foldl (noteUse n) u).map Prod.fst = l.foldl (fun u p => if p ∈ u then u else u ++ [p]) (u.map Prod.fst) ∧ ∀ b ∈ l.foldl (noteUse n) u, b ∈ ns := by
  induction l with
  | nil => intro u hu; exact ⟨rfl, hu⟩
  | cons p l ih =>
    intro u hu
    obtain ⟨t, ht, hm⟩ := hn p List.mem_cons_self
    have hl : ∀ p ∈ l, ∃ t, n p = some t ∧ (p, t) ∈ ns := fun q hq => hn q (List.mem_cons_of_mem _ hq)
    rw [List.foldl_cons, List.foldl_cons]
    by_cases e : p ∈ u.map Prod.fst
    · have ea : (u.any fun b => decide (b.1 = p)) = true := by
        obtain ⟨b, hb, he⟩ := List.mem_map.mp e
        exact List.any_eq_true.mpr ⟨b, hb, by simp [he]⟩
      have : noteUse n u p = u := by unfold noteUse; rw [if_pos ea]
      rw [this, if_pos e]
      exact ih hl u hu
    · have ea : ¬ (u.any fun b => decide (b.1 = p)) = true := by
        intro h
        obtain ⟨b, hb, he⟩ := List.any_eq_true.mp h
        exact e (List.mem_map.mpr ⟨b, hb, by simpa using he⟩)
      have : noteUse n u p = u ++ [(p, t)] := by unfold noteUse; rw [if_neg ea, ht]
      rw [this, if_neg e]
      have := ih hl (u ++ [(p, t)]) (by
        intro b hb
        rcases List.mem_append.mp hb with hb | hb
        · exact hu b hb
        · simp at hb; subst hb; exact hm)
      rw [List.map_append] at this
      exact this

/-- lists of bindings with the same prefixes, one part of the other -/
theorem same_bindings {u ns : List (String × Text)} (hd : Distinct Prod.fst ns) (h : u.map Prod.fst = ns.map Prod.fst) (hs : ∀ b ∈ u, b ∈ ns) : u = ns := by
  have hg : ∀ b ∈ ns, Scope.find ns b.1 = some b.2 := by
    intro b hb
    have := find_append_mem hd (p := b.1) (n := b.2) hb []
    rwa [List.append_nil] at this
  have e : ∀ l : List (String × Text), (∀ b ∈ l, b ∈ ns) → l = (l.map Prod.fst).map fun p => (p, (Scope.find ns p).getD []) := by
    intro l hl
    rw [List.map_map]
    conv => lhs; rw [← List.map_id l]
    apply List.map_congr_left
    intro b hb
    simp [hg b (hl b hb)]
  rw [e u hs, h, ← e ns fun _ h => h]

/-- a filter by subtree whose namespaces are those of its prefixes, in order -/
structure SubtreeFilter.Ok (key : String) (f : SubtreeFilter) : Prop where
  content : SubtreeContent key f.xml
  ns : NsOk f.namespaces
  sound : ∀ r ∈ f.xml, r.sound
  used : firstOf (f.xml.flatMap Raw.uses) = f.namespaces.map Prod.fst

theorem mem_firstOf {l : List String} {p : String} (h : p ∈ l) : p ∈ firstOf l := by
  have keep : ∀ (l : List String) (u : List String), p ∈ u → p ∈ l.foldl (fun u p => if p ∈ u then u else u ++ [p]) u := by
    intro l
    induction l with
    | nil => intro u h; exact h
    | cons x l ih =>
      intro u h
      apply ih
      by_cases e : x ∈ u
      · simp only [if_pos e]; exact h
      · simp only [if_neg e]; exact List.mem_append_left _ h
  have : ∀ (l : List String) (u : List String), p ∈ l → p ∈ l.foldl (fun u p => if p ∈ u then u else u ++ [p]) u := by
    intro l
    induction l with
    | nil => intro u h; cases h
    | cons x l ih =>
      intro u h
      rcases List.mem_cons.mp h with rfl | h
      · rw [List.foldl_cons]
        apply keep l
        by_cases e : p ∈ u
        · show p ∈ if p ∈ u then u else u ++ [p]
          rw [if_pos e]; exact e
        · show p ∈ if p ∈ u then u else u ++ [p]
          rw [if_neg e]; simp
      · exact ih _ h
  exact this l [] h

/-- the namespaces of a filter by subtree that was written are those that it had -/
theorem notes_written {ns : Text} {key : String} {f : SubtreeFilter} (h : f.Ok key) (bound : Bool) (sc : Scope) : notes (declared (declarations (newBindings ns f.namespaces bound)) ++ sc) f.xml [] = f.namespaces := by
  have hd := newBindings_distinct' (ns := ns) h.ns bound
  have hd' : Distinct Prod.fst ((newBindings ns f.namespaces bound).map fun b => (b.2, b.1)).reverse := by
    unfold Distinct at hd ⊢
    rw [List.pairwise_reverse, List.pairwise_map]
    exact hd.imp fun e => fun x => e x.symm
  have hmem : ∀ b ∈ f.namespaces, (b.2, b.1) ∈ newBindings ns f.namespaces bound := by
    intro b hb
    rcases newBindings_cases ns h.ns.uris bound with ⟨e, _⟩ | ⟨e, _⟩ <;> rw [e]
    · exact List.mem_map.mpr ⟨b, hb, rfl⟩
    · exact List.mem_append_left _ (List.mem_map.mpr ⟨b, hb, rfl⟩)
  rw [notes_uses _ h.sound, declared_declarations]
  have hn : ∀ p ∈ f.xml.flatMap Raw.uses, ∃ t, nsOf (((newBindings ns f.namespaces bound).map fun b => (b.2, b.1)).reverse ++ sc) p = some t ∧ (p, t) ∈ f.namespaces := by
    intro p hp
    have := mem_firstOf hp
    rw [h.used] at this
    obtain ⟨b, hb, rfl⟩ := List.mem_map.mp this
    refine ⟨b.2, ?_, hb⟩
    obtain ⟨h1, h2, h3⟩ := h.ns.named b hb
    have hf := find_append_mem hd' (p := b.1) (n := b.2) (List.mem_reverse.mpr (List.mem_map.mpr ⟨_, hmem b hb, rfl⟩)) sc
    unfold nsOf
    rw [if_neg h1, resolve_some hf h3 h2]
  obtain ⟨e1, e2⟩ := noted hn [] (by simp)
  exact same_bindings h.ns.prefixes (e1.trans h.used) e2

end Verif.Xml
