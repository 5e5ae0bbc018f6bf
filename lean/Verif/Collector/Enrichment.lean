import Verif.Collector.Types
/-!
# The enrichment cache of the flow collector

`E` stands for `crates/collector/src/flow/enrichment/mod.rs`, `K` for `cache.rs` in the same directory. Messages to the log are left out.
Addresses are any type.
-/
namespace Verif.Collector

/-- `Scope`, `E:191-197` -/
structure Scope (F : Type) where
  domain : UInt32
  fields : Option (List F)
  deriving DecidableEq, Repr

/-- `EnrichmentOperation` and its payloads, `E:58-70`, `E:109-163`; a weight is a `u8` -/
inductive Op (A F I : Type) where
  | upsert (ip : A) (scope : Scope F) (weight : UInt8) (fields : List F)
  | delete (ip : A) (scope : Scope F) (weight : UInt8) (ies : List I)
  | deleteAll (ip : A) (scope : Scope F) (weight : UInt8)
  deriving DecidableEq, Repr

/-- `From<UpsertPayload> for DeletePayload`, `E:176-185`, on operations -/
def Op.undo {A F I : Type} [HasIe F I] : Op A F I → Op A F I
  | .upsert ip scope weight fields => .delete ip scope weight (fields.map ie)
  | op => op

/-- `WeightedField`, `K:381-395` -/
structure Weighted (F : Type) where
  weight : UInt8
  field : F
  deriving DecidableEq, Repr

/-- `IndexedScopeFields`, `K:340` -/
abbrev ScopeKey (F I : Type) := List (FieldRef I × F)

/-- `IndexedMetadata`, `K:399` -/
abbrev Metadata (F I : Type) := List (FieldRef I × Weighted F)

/-- the maps of `PeerMetadata` from scopes, `K:408-409` -/
abbrev Scopes (F I : Type) := List (ScopeKey F I × Metadata F I)

/-- `PeerMetadata`, `K:407-410` -/
structure PeerMetadata (F I : Type) where
  global : Scopes F I
  domains : List (UInt32 × Scopes F I)

/-- `EnrichmentCache`, `K:62` -/
abbrev Cache (A F I : Type) := List (A × PeerMetadata F I)

variable {A F I : Type} [DecidableEq A] [DecidableEq F] [DecidableEq I] [HasIe F I] [FieldOrd F I]

/-- the derived order of boxed slices: lexicographic, `K:339` -/
def ScopeKey.lt : ScopeKey F I → ScopeKey F I → Bool
  | [], [] => false
  | [], _ :: _ => true
  | _ :: _, [] => false
  | a :: as, b :: bs => FieldOrd.lt a b || (a = b && ScopeKey.lt as bs)

/-- `IndexedScopeFields::from`, `K:363-373` -/
def Scope.key (s : Scope F) : ScopeKey F I := mapFields (s.fields.getD [])

/-- the loop over `indexed_incoming` in `upsert`, `K:183-216`: a field is replaced unless its weight is higher -/
def merge (weight : UInt8) (inc : Metadata F I) (cur : Metadata F I) : Metadata F I :=
  inc.foldl (fun cur x =>
    match cur.look x.1 with
    | some c => if c.weight ≤ weight then put cur x.1 x.2 else cur
    | none => put cur x.1 x.2) cur

/-- the change of the target map in `upsert`, `K:179-227` -/
def upsertScopes (key : ScopeKey F I) (weight : UInt8) (inc : Metadata F I) (target : Scopes F I) : Scopes F I :=
  match target.look key with
  | some cur => putOrd ScopeKey.lt target key (merge weight inc cur)
  | none => putOrd ScopeKey.lt target key inc

/-- `EnrichmentCache::upsert`, `K:128-230` -/
def Cache.upsert (c : Cache A F I) (ip : A) (scope : Scope F) (weight : UInt8) (fields : List F) : Cache A F I :=
  if fields = [] then c
  else
    let inc : Metadata F I := (mapFields fields).map fun x => (x.1, ⟨weight, x.2⟩)
    let peer := (c.look ip).getD ⟨[], []⟩
    let peer' : PeerMetadata F I :=
      if scope.domain = 0 then { peer with global := upsertScopes scope.key weight inc peer.global }
      else { peer with domains := put peer.domains scope.domain (upsertScopes scope.key weight inc ((peer.domains.look scope.domain).getD [])) }
    put c ip peer'

/-- the fields that `retain` keeps, `K:278-290`; no elements stands for all -/
def keep (weight : UInt8) (ies : Option (List I)) (m : Metadata F I) : Metadata F I :=
  m.filter fun x => !(x.2.weight ≤ weight && (match ies with | none => true | some l => l.contains x.1.ie))

/-- `EnrichmentCache::delete`, `K:239-327` -/
def Cache.delete (c : Cache A F I) (ip : A) (scope : Scope F) (weight : UInt8) (ies : Option (List I)) : Cache A F I :=
  if ies = some [] then c
  else
    match c.look ip with
    | none => c
    | some peer =>
      match if scope.domain = 0 then some peer.global else peer.domains.look scope.domain with
      | none => c
      | some target =>
        match target.look scope.key with
        | none => c
        | some cur =>
          let kept := keep weight ies cur
          if kept = [] then
            let target' := del target scope.key
            let peer' : PeerMetadata F I :=
              if scope.domain = 0 then { peer with global := target' }
              else if target' = [] then { peer with domains := del peer.domains scope.domain }
              else { peer with domains := put peer.domains scope.domain target' }
            if peer'.global = [] ∧ peer'.domains = [] then del c ip else put c ip peer'
          else
            let target' := putOrd ScopeKey.lt target scope.key kept
            put c ip (if scope.domain = 0 then { peer with global := target' } else { peer with domains := put peer.domains scope.domain target' })

/-- `EnrichmentCache::apply_enrichment`, `K:96-120` -/
def Cache.apply (c : Cache A F I) : Op A F I → Cache A F I
  | .upsert ip scope weight fields => c.upsert ip scope weight fields
  | .delete ip scope weight ies => c.delete ip scope weight (some ies)
  | .deleteAll ip scope weight => c.delete ip scope weight none

/-- a cache after operations, from `EnrichmentCache::new` on -/
def Cache.run (ops : List (Op A F I)) : Cache A F I := ops.foldl Cache.apply []

/-- `EnrichmentCache::peer_count`, `K:78-80` -/
def Cache.peerCount (c : Cache A F I) : Nat := c.length

/-- `IndexedScopeFields::matches`, `K:345-351` -/
def ScopeKey.matches (k : ScopeKey F I) (record : List (FieldRef I × F)) : Bool := k.all fun x => record.look x.1 = some x.2

/-- `PeerMetadata::merge_fields`, `K:500-529` -/
def mergeFields (best : Metadata F I) (m : Metadata F I) : Metadata F I :=
  m.foldl (fun best x =>
    match best.look x.1 with
    | some c => if c.weight ≤ x.2.weight then put best x.1 x.2 else best
    | none => put best x.1 x.2) best

/-- a loop over scopes of `get_enrichment_fields`, `K:461-466` and `K:469-479` -/
def mergeScopes (record : List (FieldRef I × F)) (best : Metadata F I) (s : Scopes F I) : Metadata F I :=
  s.foldl (fun best x => if x.1.matches record then mergeFields best x.2 else best) best

/-- `PeerMetadata::get_enrichment_fields`, `K:437-497`: the map of which the values are returned, in the order of the hash table. The test whether there are
no scopes at all changes nothing. -/
def PeerMetadata.enrichment (p : PeerMetadata F I) (domain : UInt32) (fields : List F) : Metadata F I :=
  let record := mapFields fields
  let best := mergeScopes record [] p.global
  match p.domains.look domain with
  | none => best
  | some s => mergeScopes record best s

/-- `EnrichmentCache::get_enrichment_fields`, `K:84-93`: `r` is what it may return; the order of the values is that of a hash table -/
def Cache.Returns (c : Cache A F I) (ip : A) (domain : UInt32) (fields : List F) (r : Option (List F)) : Prop :=
  let m := match c.look ip with
    | none => []
    | some p => p.enrichment domain fields
  (m = [] ∧ r = none) ∨ (m ≠ [] ∧ ∃ l, r = some l ∧ l.Perm (m.map fun x => x.2.field))

end Verif.Collector
