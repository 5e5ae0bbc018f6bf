import Verif.Collector.Lemmas
/-! # What an operation does to the enrichment cache -/
namespace Verif.Collector
variable {A F I : Type} [DecidableEq A] [DecidableEq F] [DecidableEq I] [HasIe F I] [FieldOrd F I]

/-- the scopes of a domain; 0 stands for all domains -/
def PeerMetadata.scopes (p : PeerMetadata F I) (d : UInt32) : Scopes F I := if d = 0 then p.global else (p.domains.look d).getD []

def Cache.scopes (c : Cache A F I) (ip : A) (d : UInt32) : Scopes F I :=
  match c.look ip with
  | none => []
  | some p => p.scopes d

/-- what is held for a field of a scope -/
def Cache.content (c : Cache A F I) (ip : A) (d : UInt32) (k : ScopeKey F I) (r : FieldRef I) : Option (Weighted F) :=
  ((c.scopes ip d).look k).bind (·.look r)

/-- the fields of an upsert, with its weight -/
def incoming (weight : UInt8) (fs : List F) : Metadata F I := (mapFields fs).map fun x => (x.1, ⟨weight, x.2⟩)

theorem lookup_map_snd {κ α β : Type} [DecidableEq κ] (g : α → β) (m : List (κ × α)) (k : κ) : (m.map fun x => (x.1, g x.2)).look k = (m.look k).map g := by
  induction m with
  | nil => rfl
  | cons x m ih =>
    rw [List.map_cons, lookup_cons', show x = (x.1, x.2) from rfl, lookup_cons', ih]
    split <;> rfl

theorem incoming_lookup (weight : UInt8) (fs : List F) (r : FieldRef I) :
    (incoming weight fs).look r = ((fs.filter fun f => ie f = r.ie)[r.index]?).map (⟨weight, ·⟩) := by
  unfold incoming
  rw [lookup_map_snd, mapFields_lookup]

theorem incoming_uniq (weight : UInt8) (fs : List F) : Uniq (incoming weight fs : Metadata F I) := by
  unfold incoming Uniq
  rw [List.pairwise_map]
  exact mapFields_uniq fs

theorem incoming_weight {weight : UInt8} {fs : List F} {x : FieldRef I × Weighted F} (h : x ∈ (incoming weight fs : Metadata F I)) : x.2.weight = weight := by
  obtain ⟨y, -, rfl⟩ := List.mem_map.mp h
  rfl

theorem incoming_ne_nil {weight : UInt8} {fs : List F} (h : fs ≠ []) : (incoming weight fs : Metadata F I) ≠ [] := by
  unfold incoming
  simpa using mapFields_ne_nil h

theorem scopes_upsert (c : Cache A F I) (ip : A) (s : Scope F) (w : UInt8) {fs : List F} (h : fs ≠ []) (ip' : A) (d : UInt32) :
    (c.upsert ip s w fs).scopes ip' d =
      if ip = ip' ∧ s.domain = d then upsertScopes s.key w (incoming w fs) (c.scopes ip d) else c.scopes ip' d := by
  unfold Cache.upsert Cache.scopes
  rw [if_neg h]
  simp only [lookup_put]
  by_cases hi : ip = ip'
  · subst hi
    rw [if_pos rfl]
    simp only [true_and]
    unfold PeerMetadata.scopes incoming
    by_cases h0 : s.domain = 0
    · rw [if_pos h0]
      by_cases hd : d = 0
      · rw [if_pos (h0.trans hd.symm)]
        cases c.look ip <;> simp [hd]
      · have hne : ¬ s.domain = d := fun e => hd (by rw [← e, h0])
        rw [if_neg hne]
        cases c.look ip <;> simp [hd]
    · rw [if_neg h0]
      by_cases hd : s.domain = d
      · subst hd
        simp only [if_neg h0, if_pos]
        rw [lookup_put, if_pos rfl]
        cases c.look ip <;> simp
      · simp only [if_neg hd]
        by_cases hd0 : d = 0
        · cases c.look ip <;> simp [hd0]
        · simp only [if_neg hd0, lookup_put, if_neg hd]
          cases c.look ip <;> simp
  · rw [if_neg hi, if_neg (fun e => hi e.1)]

/-- what a deletion does to the scopes of a domain -/
def deleteScopes (key : ScopeKey F I) (w : UInt8) (ies : Option (List I)) (t : Scopes F I) : Scopes F I :=
  match t.look key with
  | none => t
  | some cur => if keep w ies cur = [] then del t key else putOrd ScopeKey.lt t key (keep w ies cur)

theorem scopes_put (c : Cache A F I) (ip ip' : A) (p : PeerMetadata F I) (d : UInt32) :
    Cache.scopes (put c ip p) ip' d = if ip = ip' then p.scopes d else c.scopes ip' d := by
  unfold Cache.scopes
  rw [lookup_put]
  by_cases h : ip = ip'
  · rw [if_pos h, if_pos h]
  · rw [if_neg h, if_neg h]

theorem scopes_del (c : Cache A F I) (ip ip' : A) (d : UInt32) :
    Cache.scopes (del c ip) ip' d = if ip = ip' then [] else c.scopes ip' d := by
  unfold Cache.scopes
  rw [lookup_del]
  by_cases h : ip = ip'
  · rw [if_pos h, if_pos h]
  · rw [if_neg h, if_neg h]

theorem scopes_delete (c : Cache A F I) (ip : A) (s : Scope F) (w : UInt8) {ies : Option (List I)} (h : ies ≠ some []) (ip' : A) (d : UInt32) :
    (c.delete ip s w ies).scopes ip' d =
      if ip = ip' ∧ s.domain = d then deleteScopes s.key w ies (c.scopes ip d) else c.scopes ip' d := by
  unfold Cache.delete
  rw [if_neg h]
  cases hc : c.look ip with
  | none =>
    simp only
    split
    · rename_i e
      obtain ⟨rfl, rfl⟩ := e
      simp [Cache.scopes, hc, deleteScopes]
    · rfl
  | some peer =>
    simp only
    have hcd : ∀ d, c.scopes ip d = peer.scopes d := fun d => by simp [Cache.scopes, hc]
    cases ht : (if s.domain = 0 then some peer.global else peer.domains.look s.domain) with
    | none =>
      simp only
      split
      · rename_i e
        obtain ⟨rfl, rfl⟩ := e
        rw [hcd]
        have : peer.scopes s.domain = [] := by
          unfold PeerMetadata.scopes
          split at ht
          · simp at ht
          · rename_i h0
            rw [if_neg h0, ht]; rfl
        rw [this]; rfl
      · rfl
    | some target =>
      simp only
      have hps : peer.scopes s.domain = target := by
        unfold PeerMetadata.scopes
        split at ht
        · rename_i h0
          simp only [Option.some.injEq] at ht
          rw [if_pos h0, ht]
        · rename_i h0
          rw [if_neg h0, ht]; rfl
      have key : ∀ (t : Scopes F I) (p' : PeerMetadata F I), (∀ d, p'.scopes d = if s.domain = d then t else peer.scopes d) →
          deleteScopes s.key w ies target = t → p'.scopes d = if ip = ip ∧ s.domain = d then deleteScopes s.key w ies (c.scopes ip d) else c.scopes ip d := by
        intro t p' h1 h2
        rw [h1, hcd]
        by_cases hd : s.domain = d
        · subst hd; simp [hps, h2]
        · simp [hd]
      cases hk : target.look s.key with
      | none =>
        simp only
        split
        · rename_i e
          obtain ⟨rfl, rfl⟩ := e
          rw [hcd, hps]
          unfold deleteScopes
          rw [hk]
        · rfl
      | some cur =>
        simp only
        have hput : ∀ t (d : UInt32), PeerMetadata.scopes (if s.domain = 0 then { peer with global := t } else { peer with domains := put peer.domains s.domain t }) d =
            if s.domain = d then t else peer.scopes d := by
          intro t d
          unfold PeerMetadata.scopes
          by_cases h0 : s.domain = 0
          · rw [if_pos h0]
            by_cases hd : d = 0
            · rw [if_pos hd, if_pos (by rw [h0, hd])]
            · rw [if_neg hd, if_neg (by rw [h0]; exact fun e => hd e.symm), if_neg hd]
          · rw [if_neg h0]
            by_cases hd : s.domain = d
            · subst hd
              rw [if_neg h0, lookup_put, if_pos rfl, if_pos rfl]
              rfl
            · by_cases hd0 : d = 0
              · simp only [if_pos hd0, if_neg hd]
              · simp only [if_neg hd0, if_neg hd, lookup_put]
        by_cases hn : keep w ies cur = []
        · rw [if_pos hn]
          have hds : deleteScopes s.key w ies target = del target s.key := by
            unfold deleteScopes; rw [hk]; simp only [if_pos hn]
          generalize hp' : (if s.domain = 0 then { peer with global := del target s.key }
            else if del target s.key = [] then { peer with domains := del peer.domains s.domain }
            else { peer with domains := put peer.domains s.domain (del target s.key) } : PeerMetadata F I) = p'
          have hsc : ∀ d, p'.scopes d = if s.domain = d then del target s.key else peer.scopes d := by
            intro d
            rw [← hp', ← hput]
            by_cases h0 : s.domain = 0
            · simp [h0]
            · simp only [if_neg h0]
              by_cases hdn : del target s.key = []
              · simp only [if_pos hdn]
                unfold PeerMetadata.scopes
                by_cases hd0 : d = 0
                · simp [hd0]
                · simp only [if_neg hd0, lookup_del, lookup_put]
                  by_cases hd : s.domain = d
                  · rw [if_pos hd, if_pos hd, hdn]; rfl
                  · rw [if_neg hd, if_neg hd]
              · simp only [if_neg hdn]
          split
          · rename_i he
            rw [scopes_del]
            by_cases hi : ip = ip'
            · subst hi
              rw [if_pos rfl, ← key _ _ hsc hds]
              unfold PeerMetadata.scopes
              rw [he.1, he.2]
              split <;> rfl
            · rw [if_neg hi, if_neg fun e => hi e.1]
          · rw [scopes_put]
            by_cases hi : ip = ip'
            · subst hi
              rw [if_pos rfl, ← key _ _ hsc hds]
            · rw [if_neg hi, if_neg fun e => hi e.1]
        · rw [if_neg hn]
          have hds : deleteScopes s.key w ies target = putOrd ScopeKey.lt target s.key (keep w ies cur) := by
            unfold deleteScopes; rw [hk]; simp only [if_neg hn]
          rw [scopes_put]
          by_cases hi : ip = ip'
          · subst hi
            rw [if_pos rfl, ← key _ _ (hput _) hds]
          · rw [if_neg hi, if_neg fun e => hi e.1]

/-! ## The shape of a cache -/

def MetaWF (m : Metadata F I) : Prop := Uniq m ∧ m ≠ []
def ScopesWF (t : Scopes F I) : Prop := Incr ScopeKey.lt t ∧ ∀ x ∈ t, MetaWF x.2 ∧ ∃ fs, x.1 = mapFields fs
def PeerWF (p : PeerMetadata F I) : Prop :=
  ScopesWF p.global ∧ Uniq p.domains ∧ (∀ x ∈ p.domains, x.1 ≠ 0 ∧ x.2 ≠ [] ∧ ScopesWF x.2) ∧ ¬ (p.global = [] ∧ p.domains = [])
def CacheWF (c : Cache A F I) : Prop := Uniq c ∧ ∀ x ∈ c, PeerWF x.2

theorem ScopesWF.nil : ScopesWF ([] : Scopes F I) := ⟨List.Pairwise.nil, by simp⟩

theorem ScopesWF.put {t : Scopes F I} (h : ScopesWF t) (fs : List F) {m : Metadata F I} (hm : MetaWF m) : ScopesWF (putOrd ScopeKey.lt t (mapFields fs) m) := by
  refine ⟨Incr.putOrd (lt := ScopeKey.lt) (fun h1 h2 => ScopeKey.lt_trans h1 h2) (fun h1 h2 => ScopeKey.lt_total h1 h2) h.1 _ _, fun x hx => ?_⟩
  rcases mem_putOrd hx with rfl | hx
  · exact ⟨hm, fs, rfl⟩
  · exact h.2 x hx

theorem ScopesWF.del {t : Scopes F I} (h : ScopesWF t) (k : ScopeKey F I) : ScopesWF (del t k) :=
  ⟨Incr.del h.1 k, fun x hx => h.2 x ((List.mem_filter.mp hx).1)⟩

theorem ScopesWF.meta {t : Scopes F I} (h : ScopesWF t) {k : ScopeKey F I} {m : Metadata F I} (hk : t.look k = some m) : MetaWF m :=
  (h.2 _ (mem_of_lookup hk)).1

theorem ScopesWF.upsert {t : Scopes F I} (h : ScopesWF t) (s : Scope F) (w : UInt8) {fs : List F} (hf : fs ≠ []) :
    ScopesWF (upsertScopes s.key w (incoming w fs) t) := by
  unfold upsertScopes Scope.key
  split
  · rename_i cur hc
    refine h.put _ ?_
    rw [merge_eq fun x hx => incoming_weight hx]
    exact ⟨mergeFields_uniq (h.meta hc).1, mergeFields_ne_nil (.inr (incoming_ne_nil hf))⟩
  · exact h.put _ ⟨incoming_uniq _ _, incoming_ne_nil hf⟩

theorem upsertScopes_ne_nil (k : ScopeKey F I) (w : UInt8) (inc : Metadata F I) (t : Scopes F I) : upsertScopes k w inc t ≠ [] := by
  unfold upsertScopes
  split <;> exact putOrd_ne_nil _ _ _ _

theorem PeerWF.domain {p : PeerMetadata F I} (h : ScopesWF p.global ∧ ∀ x ∈ p.domains, x.1 ≠ 0 ∧ x.2 ≠ [] ∧ ScopesWF x.2) (d : UInt32) :
    ScopesWF ((p.domains.look d).getD []) := by
  cases hl : p.domains.look d with
  | none => exact ScopesWF.nil
  | some t => exact (h.2 _ (mem_of_lookup hl)).2.2

theorem CacheWF.upsert {c : Cache A F I} (h : CacheWF c) (ip : A) (s : Scope F) (w : UInt8) (fs : List F) : CacheWF (c.upsert ip s w fs) := by
  unfold Cache.upsert
  by_cases hf : fs = []
  · rw [if_pos hf]; exact h
  · rw [if_neg hf]
    refine ⟨h.1.put _ _, fun x hx => ?_⟩
    rcases mem_put hx with rfl | hx
    · simp only
      have hp : ScopesWF ((c.look ip).getD ⟨[], []⟩).global ∧ Uniq ((c.look ip).getD ⟨[], []⟩).domains ∧
          (∀ x ∈ ((c.look ip).getD ⟨[], []⟩).domains, x.1 ≠ 0 ∧ x.2 ≠ [] ∧ ScopesWF x.2) := by
        cases hl : c.look ip with
        | none => exact ⟨ScopesWF.nil, List.Pairwise.nil, by simp⟩
        | some p => have := h.2 _ (mem_of_lookup hl); exact ⟨this.1, this.2.1, this.2.2.1⟩
      generalize (c.look ip).getD ⟨[], []⟩ = p at hp
      split
      · exact ⟨hp.1.upsert s w hf, hp.2.1, hp.2.2, fun e => upsertScopes_ne_nil _ _ _ _ e.1⟩
      · rename_i h0
        refine ⟨hp.1, hp.2.1.put _ _, fun x hx => ?_, fun e => put_ne_nil _ _ _ e.2⟩
        rcases mem_put hx with rfl | hx
        · exact ⟨h0, upsertScopes_ne_nil _ _ _ _, (PeerWF.domain ⟨hp.1, hp.2.2⟩ _).upsert s w hf⟩
        · exact hp.2.2 x hx
    · exact h.2 x hx

theorem CacheWF.delete {c : Cache A F I} (h : CacheWF c) (ip : A) (s : Scope F) (w : UInt8) (ies : Option (List I)) : CacheWF (c.delete ip s w ies) := by
  unfold Cache.delete
  split
  · exact h
  split
  · exact h
  rename_i peer hc
  have hp := h.2 _ (mem_of_lookup hc)
  split
  · exact h
  rename_i target ht
  have htw : ScopesWF target := by
    split at ht
    · simp only [Option.some.injEq] at ht; rw [← ht]; exact hp.1
    · exact (hp.2.2.1 _ (mem_of_lookup ht)).2.2
  split
  · exact h
  rename_i cur hk
  by_cases hn : keep w ies cur = []
  · simp only [if_pos hn]
    generalize hp' : (if s.domain = 0 then { peer with global := del target s.key }
      else if del target s.key = [] then { peer with domains := del peer.domains s.domain }
      else { peer with domains := put peer.domains s.domain (del target s.key) } : PeerMetadata F I) = p'
    split
    · exact ⟨h.1.del _, fun x hx => h.2 x ((List.mem_filter.mp hx).1)⟩
    · rename_i he
      refine ⟨h.1.put _ _, fun x hx => ?_⟩
      rcases mem_put hx with rfl | hx
      · simp only
        subst hp'
        refine ⟨?_, ?_, ?_, he⟩
        · split
          · exact htw.del _
          · split <;> exact hp.1
        · split
          · exact hp.2.1
          · split
            · exact hp.2.1.del _
            · exact hp.2.1.put _ _
        · intro x hx
          split at hx
          · exact hp.2.2.1 x hx
          · rename_i h0
            split at hx
            · exact hp.2.2.1 x ((List.mem_filter.mp hx).1)
            · rename_i hdn
              rcases mem_put hx with rfl | hx
              · exact ⟨h0, hdn, htw.del _⟩
              · exact hp.2.2.1 x hx
      · exact h.2 x hx
  · simp only [if_neg hn]
    have hk' : ScopesWF (putOrd ScopeKey.lt target s.key (keep w ies cur)) :=
      htw.put _ ⟨Uniq.filter (htw.meta hk).1 _, hn⟩
    refine ⟨h.1.put _ _, fun x hx => ?_⟩
    rcases mem_put hx with rfl | hx
    · simp only
      split
      · exact ⟨hk', hp.2.1, hp.2.2.1, fun e => putOrd_ne_nil _ _ _ _ e.1⟩
      · rename_i h0
        refine ⟨hp.1, hp.2.1.put _ _, fun x hx => ?_, fun e => put_ne_nil _ _ _ e.2⟩
        rcases mem_put hx with rfl | hx
        · exact ⟨h0, putOrd_ne_nil _ _ _ _, hk'⟩
        · exact hp.2.2.1 x hx
    · exact h.2 x hx

theorem CacheWF.apply {c : Cache A F I} (h : CacheWF c) (op : Op A F I) : CacheWF (c.apply op) := by
  cases op with
  | upsert ip s w fs => exact h.upsert _ _ _ _
  | delete ip s w ies => exact h.delete _ _ _ _
  | deleteAll ip s w => exact h.delete _ _ _ _

theorem run_snoc (ops : List (Op A F I)) (op : Op A F I) : Cache.run (ops ++ [op]) = (Cache.run ops).apply op := by
  simp [Cache.run]

theorem run_wf (ops : List (Op A F I)) : CacheWF (Cache.run ops) := by
  induction ops using snoc_induction with
  | nil => exact ⟨List.Pairwise.nil, by simp [Cache.run]⟩
  | append_singleton ops op ih => rw [run_snoc]; exact ih.apply op

theorem CacheWF.scopes {c : Cache A F I} (h : CacheWF c) (ip : A) (d : UInt32) : ScopesWF (c.scopes ip d) := by
  unfold Cache.scopes
  split
  · exact ScopesWF.nil
  · rename_i p hp
    have := h.2 _ (mem_of_lookup hp)
    unfold PeerMetadata.scopes
    split
    · exact this.1
    · exact PeerWF.domain ⟨this.1, this.2.2.1⟩ d

/-! ## What an operation does to what is held -/

theorem content_upsert {c : Cache A F I} (ip : A) (s : Scope F) (w : UInt8) (fs : List F) (ip' : A) (d : UInt32) (k : ScopeKey F I) (r : FieldRef I) :
    (c.upsert ip s w fs).content ip' d k r =
      if ip = ip' ∧ s.domain = d ∧ s.key = k then join (c.content ip' d k r) ((incoming w fs).look r) else c.content ip' d k r := by
  by_cases hf : fs = []
  · subst hf
    have : (incoming w [] : Metadata F I).look r = none := rfl
    rw [this]
    simp [Cache.upsert, join]
  · unfold Cache.content
    rw [scopes_upsert _ _ _ _ hf]
    by_cases hi : ip = ip' ∧ s.domain = d
    · obtain ⟨rfl, rfl⟩ := hi
      rw [if_pos ⟨rfl, rfl⟩]
      simp only [true_and]
      unfold upsertScopes
      by_cases hk : s.key = k
      · subst hk
        rw [if_pos rfl]
        cases hc : (c.scopes ip s.domain).look s.key with
        | none =>
          simp only [lookup_putOrd, if_pos, Option.bind_some, Option.bind_none]
          cases (incoming w fs : Metadata F I).look r <;> rfl
        | some cur =>
          simp only [lookup_putOrd, if_pos, Option.bind_some]
          rw [merge_eq fun x hx => incoming_weight hx, mergeFields_lookup (incoming_uniq _ _)]
      · rw [if_neg hk]
        cases (c.scopes ip s.domain).look s.key <;> simp only [lookup_putOrd, if_neg hk]
    · rw [if_neg hi, if_neg fun e => hi ⟨e.1, e.2.1⟩]

theorem content_delete {c : Cache A F I} (hw : CacheWF c) (ip : A) (s : Scope F) (w : UInt8) {ies : Option (List I)} (h : ies ≠ some []) (ip' : A) (d : UInt32)
    (k : ScopeKey F I) (r : FieldRef I) :
    (c.delete ip s w ies).content ip' d k r =
      if ip = ip' ∧ s.domain = d ∧ s.key = k ∧ (∀ l, ies = some l → r.ie ∈ l) then (c.content ip' d k r).bind fun x => if x.weight ≤ w then none else some x
      else c.content ip' d k r := by
  unfold Cache.content
  rw [scopes_delete _ _ _ _ h]
  by_cases hi : ip = ip' ∧ s.domain = d
  · obtain ⟨rfl, rfl⟩ := hi
    rw [if_pos ⟨rfl, rfl⟩]
    simp only [true_and]
    have hsw := hw.scopes ip s.domain
    unfold deleteScopes
    by_cases hk : s.key = k
    · subst hk
      cases hc : (c.scopes ip s.domain).look s.key with
      | none => simp [hc]
      | some cur =>
        simp only [true_and]
        have hl : (keep w ies cur).look r = (cur.look r).bind fun x => if x.weight ≤ w ∧ (∀ l, ies = some l → r.ie ∈ l) then none else some x := by
          unfold keep
          rw [lookup_filter (hsw.meta hc).1]
          congr 1
          funext x
          cases ies with
          | none => by_cases hx : x.weight ≤ w <;> simp [hx]
          | some l => by_cases hx : x.weight ≤ w <;> by_cases hr : r.ie ∈ l <;> simp [hx, hr]
        have e : ((if keep w ies cur = [] then del (c.scopes ip s.domain) s.key else putOrd ScopeKey.lt (c.scopes ip s.domain) s.key (keep w ies cur)).look s.key).bind
            (·.look r) = (keep w ies cur).look r := by
          split
          · rename_i hn
            rw [lookup_del, if_pos rfl, hn]; rfl
          · rw [lookup_putOrd, if_pos rfl]; rfl
        rw [e, hl]
        by_cases hr : ∀ l, ies = some l → r.ie ∈ l
        · rw [if_pos hr]
          simp only [Option.bind_some]
          congr 1
          funext x
          by_cases hx : x.weight ≤ w
          · rw [if_pos ⟨hx, hr⟩, if_pos hx]
          · rw [if_neg fun e => hx e.1, if_neg hx]
        · rw [if_neg hr]
          simp only [Option.bind_some]
          cases cur.look r with
          | none => rfl
          | some x => simp only [Option.bind_some]; rw [if_neg fun e => hr e.2]
    · rw [if_neg fun e => hk e.1]
      split
      · rfl
      · split
        · rw [lookup_del, if_neg hk]
        · rw [lookup_putOrd, if_neg hk]
  · rw [if_neg hi, if_neg fun e => hi ⟨e.1, e.2.1⟩]

/-! ## Looking up -/

theorem join_none_left (x : Option (Weighted F)) : join none x = x := by cases x <;> rfl

/-- the maps of the scopes that match, in the order of the loops -/
def applicable (record : List F) (t : Scopes F I) : Scopes F I := t.filter fun x => x.1.matches (mapFields record)

theorem mergeScopes_eq (record : List F) (best : Metadata F I) (t : Scopes F I) :
    mergeScopes (mapFields record) best t = ((applicable record t).map (·.2)).foldl mergeFields best := by
  unfold mergeScopes applicable
  induction t generalizing best with
  | nil => rfl
  | cons x t ih =>
    rw [List.foldl_cons, ih, List.filter_cons]
    split <;> rfl

theorem enrichment_eq {p : PeerMetadata F I} (h : PeerWF p) (d : UInt32) (record : List F) :
    p.enrichment d record = (((applicable record p.global) ++ (applicable record (if d = 0 then [] else p.scopes d))).map (·.2)).foldl mergeFields [] := by
  unfold PeerMetadata.enrichment
  simp only
  rw [List.map_append, List.foldl_append]
  by_cases h0 : d = 0
  · subst h0
    have : p.domains.look 0 = none := by
      cases hl : p.domains.look 0 with
      | none => rfl
      | some t => exact absurd rfl (h.2.2.1 _ (mem_of_lookup hl)).1
    rw [this]
    simp only [if_pos, mergeScopes_eq]
    rfl
  · rw [if_neg h0]
    unfold PeerMetadata.scopes
    rw [if_neg h0]
    cases hl : p.domains.look d with
    | none => simp only [mergeScopes_eq]; rfl
    | some t => simp only [mergeScopes_eq]; rfl

theorem foldl_mergeFields_lookup {ms : List (Metadata F I)} (hm : ∀ m ∈ ms, Uniq m) (best : Metadata F I) (r : FieldRef I) :
    (ms.foldl mergeFields best).look r = (ms.map fun m => m.look r).foldl join (best.look r) := by
  induction ms generalizing best with
  | nil => rfl
  | cons m ms ih =>
    rw [List.foldl_cons, ih (fun m h => hm m (by simp [h])), mergeFields_lookup (hm m (by simp)), List.map_cons, List.foldl_cons]

theorem foldl_mergeFields_uniq {ms : List (Metadata F I)} (best : Metadata F I) (hb : Uniq best) : Uniq (ms.foldl mergeFields best) := by
  induction ms generalizing best with
  | nil => exact hb
  | cons m ms ih => exact ih _ (mergeFields_uniq hb)

/-- the last of those with the highest weight -/
theorem foldl_join_iff (xs : List (Option (Weighted F))) (x : Weighted F) :
    xs.foldl join none = some x ↔ ∃ a b, xs = a ++ some x :: b ∧ (∀ y, some y ∈ a → y.weight ≤ x.weight) ∧ (∀ y, some y ∈ b → y.weight < x.weight) := by
  induction xs using snoc_induction generalizing x with
  | nil => simp
  | append_singleton xs o ih =>
    rw [List.foldl_append, List.foldl_cons, List.foldl_nil]
    cases o with
    | none =>
      have : join (xs.foldl join none) none = xs.foldl join none := by cases xs.foldl join none <;> rfl
      rw [this, ih]
      constructor
      · rintro ⟨a, b, rfl, h1, h2⟩
        exact ⟨a, b ++ [none], by simp, h1, by simpa using h2⟩
      · rintro ⟨a, b, h, h1, h2⟩
        rcases List.eq_nil_or_concat b with rfl | ⟨b', y, rfl⟩
        · have := (List.append_inj' h rfl).2
          simp at this
        · rw [List.concat_eq_append, ← List.cons_append, ← List.append_assoc] at h
          obtain ⟨e1, e2⟩ := List.append_inj' h rfl
          exact ⟨a, b', e1, h1, fun y hy => h2 y (by simp [hy])⟩
    | some z =>
      have hmax : ∀ c, xs.foldl join none = some c → ∀ y, some y ∈ xs → y.weight ≤ c.weight := by
        intro c hc y hy
        obtain ⟨a, b, rfl, h1, h2⟩ := (ih c).mp hc
        rcases List.mem_append.mp hy with hy | hy
        · exact h1 y hy
        · rcases List.mem_cons.mp hy with e | hy
          · simp only [Option.some.injEq] at e; rw [e]; exact UInt8.le_refl _
          · exact UInt8.le_of_lt (h2 y hy)
      cases hc : xs.foldl join none with
      | none =>
        have hnone : ∀ y, some y ∉ xs := by
          intro y hy
          obtain ⟨n, hn⟩ : ∃ n, (xs.filterMap id).length = n := ⟨_, rfl⟩
          have hall : ∀ l : List (Option (Weighted F)), ∀ b, (some y ∈ l ∨ b ≠ none) → l.foldl join b ≠ none := by
            intro l
            induction l with
            | nil => intro b h; simpa using h
            | cons o l ih =>
              intro b h
              rw [List.foldl_cons]
              refine ih _ ?_
              rcases h with h | h
              · rcases List.mem_cons.mp h with e | h
                · right
                  rw [← e]
                  cases b with
                  | none => simp [join]
                  | some c => simp only [join]; split <;> simp
                · exact .inl h
              · right
                cases b with
                | none => exact absurd rfl h
                | some c =>
                  cases o with
                  | none => simp [join]
                  | some w => simp only [join]; split <;> simp
          exact hall xs none (.inl hy) hc
        simp only [join, Option.some.injEq]
        constructor
        · rintro rfl
          exact ⟨xs, [], rfl, fun y hy => absurd hy (hnone y), by simp⟩
        · rintro ⟨a, b, h, h1, h2⟩
          rcases List.eq_nil_or_concat b with rfl | ⟨b', y, rfl⟩
          · have := (List.append_inj' h rfl).2
            simpa using this
          · rw [List.concat_eq_append, ← List.cons_append, ← List.append_assoc] at h
            obtain ⟨e1, e2⟩ := List.append_inj' h rfl
            exact absurd (by rw [e1]; simp) (hnone x)
      | some c =>
        simp only [join]
        by_cases hcz : c.weight ≤ z.weight
        · rw [if_pos hcz]
          simp only [Option.some.injEq]
          constructor
          · rintro rfl
            exact ⟨xs, [], rfl, fun y hy => UInt8.le_trans (hmax c hc y hy) hcz, by simp⟩
          · rintro ⟨a, b, h, h1, h2⟩
            rcases List.eq_nil_or_concat b with rfl | ⟨b', y, rfl⟩
            · have := (List.append_inj' h rfl).2
              simpa using this
            · rw [List.concat_eq_append, ← List.cons_append, ← List.append_assoc] at h
              obtain ⟨e1, e2⟩ := List.append_inj' h rfl
              simp only [List.cons.injEq, and_true] at e2
              have h3 := h2 z (by rw [e2]; simp)
              have h4 := hmax c hc x (by rw [e1]; simp)
              exact absurd (UInt8.lt_of_lt_of_le h3 (UInt8.le_trans h4 hcz)) (UInt8.lt_irrefl _)
        · rw [if_neg hcz, ← hc, ih]
          have hzc : z.weight < c.weight := UInt8.not_le.mp hcz
          constructor
          · intro hx
            have e := (ih x).mpr hx
            rw [hc, Option.some.injEq] at e
            subst e
            obtain ⟨a, b, rfl, h1, h2⟩ := hx
            refine ⟨a, b ++ [some z], by simp, h1, fun y hy => ?_⟩
            rcases List.mem_append.mp hy with hy | hy
            · exact h2 y hy
            · simp only [List.mem_cons, Option.some.injEq, List.not_mem_nil, or_false] at hy
              rw [hy]; exact hzc
          · rintro ⟨a, b, h, h1, h2⟩
            rcases List.eq_nil_or_concat b with rfl | ⟨b', y, rfl⟩
            · obtain ⟨e1, e2⟩ := List.append_inj' h rfl
              simp only [List.cons.injEq, Option.some.injEq, and_true] at e2
              subst e1; subst e2
              obtain ⟨a', b', e, -, -⟩ := (ih c).mp hc
              exact absurd (h1 c (by rw [e]; simp)) hcz
            · rw [List.concat_eq_append, ← List.cons_append, ← List.append_assoc] at h
              obtain ⟨e1, e2⟩ := List.append_inj' h rfl
              exact ⟨a, b', e1, h1, fun y hy => h2 y (by simp [hy])⟩

end Verif.Collector
