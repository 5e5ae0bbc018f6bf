import Verif.YangPush.StorageReach
/-! # The cache of YANG libraries when descriptions keep their libraries -/
namespace Verif.YangPush
open Collector

variable {A X : Type} [DecidableEq A] [DecidableEq X]

theorem assigned_snoc (h : List (StoreOp A X)) (o : StoreOp A X) (k : Ident A X) : assigned (h ++ [o]) k = assign k (assigned h k) o := by
  unfold assigned
  rw [List.foldl_append]
  rfl

theorem Settled.init {h : List (StoreOp A X)} {o : StoreOp A X} (hs : Settled (h ++ [o])) : Settled h :=
  fun h1 h2 i l s e => hs h1 (h2 ++ [o]) i l s (by rw [e]; simp)

theorem Settled.last {h : List (StoreOp A X)} {i : SubInfo A X} {l : Library} {s : List (String × String)} (hs : Settled (h ++ [.put i l s])) :
    assigned h i.ident = none ∨ assigned h i.ident = some l.contentId := hs h [] i l s rfl

/-- what holds when descriptions keep their libraries: they are listed with the library that they are found with, and that is the one put last -/
structure SetInv (h : List (StoreOp A X)) (c : LibCache A X) (d : Disk A X) : Prop where
  listed : ∀ k e i, d.look k = some e → i ∈ e.subs → c.byInfo.look i.ident = some ⟨k, k⟩
  has : ∀ k, (c.byInfo.look k).map (·.contentId) = assigned h k

theorem SetInv.put {h : List (StoreOp A X)} {c : LibCache A X} {d : Disk A X} (hi : StoreInv h c d) (hs : SetInv h c d) {i : SubInfo A X} {l : Library}
    {s : List (String × String)} (ha : assigned h i.ident = none ∨ assigned h i.ident = some l.contentId) :
    SetInv (h ++ [.put i l s]) (putLibrary c d i l s).1 (putLibrary c d i l s).2.1 := by
  unfold putLibrary
  cases hc : c.byContent.look l.contentId with
  | some r =>
    simp only
    have hc' := hc
    rw [hi.content] at hc'
    obtain ⟨e, he, rfl⟩ := Option.map_eq_some_iff.mp hc'
    split
    · rename_i hsome
      obtain ⟨r, hr⟩ := Option.isSome_iff_exists.mp hsome
      refine ⟨hs.listed, fun k => ?_⟩
      rw [assigned_snoc]
      simp only [assign]
      split
      · rename_i e0
        subst e0
        have := hs.has i.ident
        rw [hr] at this
        rw [hr]
        rcases ha with ha | ha
        · rw [ha] at this; simp at this
        · rw [ha] at this; exact this
      · exact hs.has k
    · rename_i hnone
      have hn : c.byInfo.look i.ident = none := by simpa using hnone
      have hap : appendSub d ⟨l.contentId, l.contentId⟩ i = Collector.put d l.contentId { e with subs := addSub e.subs i } := by
        unfold appendSub; simp only [he]
      simp only [hap]
      refine ⟨fun k e' j hk hj => ?_, fun k => ?_⟩
      · have hold : ∀ k e' j, d.look k = some e' → j ∈ e'.subs → (Collector.put c.byInfo i.ident ⟨l.contentId, l.contentId⟩).look j.ident = some ⟨k, k⟩ := by
          intro k e' j hk hj
          have := hs.listed k e' j hk hj
          rw [lookup_put, if_neg]
          · exact this
          · intro e0; rw [← e0, hn] at this; cases this
        rw [lookup_put] at hk
        split at hk
        · rename_i e0
          subst e0
          cases hk
          rcases mem_addSub hj with hj | rfl
          · exact hold _ e j he hj
          · rw [lookup_put, if_pos rfl]
        · exact hold k e' j hk hj
      · rw [assigned_snoc]
        simp only [assign, lookup_put]
        split
        · rfl
        · exact hs.has k
  | none =>
    have hd : d.look l.contentId = none := by
      have := hi.content l.contentId
      rw [hc] at this
      simpa using this.symm
    have hn : c.byInfo.look i.ident = none := by
      cases hn : c.byInfo.look i.ident with
      | none => rfl
      | some r =>
        have := hs.has i.ident
        rw [hn] at this
        obtain ⟨_, e, he, _⟩ := hi.info _ r hn
        rcases ha with ha | ha
        · rw [ha] at this; simp at this
        · rw [ha] at this
          simp only [Option.map_some, Option.some.injEq] at this
          rw [this, hd] at he
          cases he
    simp only [hd, saveToDisk]
    refine ⟨fun k e' j hk hj => ?_, fun k => ?_⟩
    · rw [lookup_put] at hk
      simp only
      split at hk
      · rename_i e0
        subst e0
        cases hk
        simp only [List.mem_singleton] at hj
        subst hj
        rw [lookup_put, if_pos rfl]
      · have := hs.listed k e' j hk hj
        rw [lookup_put, if_neg]
        · exact this
        · intro e0; rw [← e0, hn] at this; cases this
    · rw [assigned_snoc]
      simp only [assign, lookup_put]
      split
      · rfl
      · exact hs.has k

theorem SetInv.dropContent {h : List (StoreOp A X)} {c : LibCache A X} {d : Disk A X} (hi : StoreInv h c d) (hs : SetInv h c d) (cid : String) :
    SetInv (h ++ [.dropContent cid]) (removeContent c d cid).1 (removeContent c d cid).2 := by
  unfold removeContent
  cases hc : c.byContent.look cid with
  | none =>
    refine ⟨hs.listed, fun k => ?_⟩
    rw [assigned_snoc]
    simp only [assign]
    split
    · rename_i e0
      rw [← hs.has k] at e0
      obtain ⟨r, hr, e1⟩ := Option.map_eq_some_iff.mp e0
      obtain ⟨_, e, he, _⟩ := hi.info _ r hr
      rw [hi.content, ← e1, he] at hc
      simp at hc
    · exact hs.has k
  | some r =>
    refine ⟨fun k e' j hk hj => ?_, fun k => ?_⟩
    · have hc' := hc
      rw [hi.content] at hc'
      obtain ⟨e, he, rfl⟩ := Option.map_eq_some_iff.mp hc'
      simp only [lookup_del] at hk
      split at hk
      · cases hk
      · rename_i e0
        simp only
        rw [lookup_filter hi.uniqI, hs.listed k e' j hk hj]
        simp [Ne.symm e0]
    · rw [assigned_snoc]
      simp only [assign]
      rw [lookup_filter hi.uniqI, ← hs.has k]
      cases hk : c.byInfo.look k with
      | none => simp
      | some r =>
        simp only [Option.bind_some, Option.map_some, Option.some.injEq]
        by_cases e0 : r.contentId = cid
        · simp [e0]
        · simp [e0]

theorem SetInv.dropInfo {h : List (StoreOp A X)} {c : LibCache A X} {d : Disk A X} (hi : StoreInv h c d) (hs : SetInv h c d) (i : SubInfo A X) :
    SetInv (h ++ [.dropInfo i]) (removeInfo c d i).1 (removeInfo c d i).2 := by
  unfold removeInfo
  cases hk0 : c.byInfo.look i.ident with
  | none =>
    refine ⟨hs.listed, fun k => ?_⟩
    rw [assigned_snoc]
    simp only [assign]
    split
    · rename_i e0; subst e0; rw [hk0]; rfl
    · exact hs.has k
  | some r =>
    obtain ⟨hdir, e, he, j0, hj0, ej0⟩ := hi.info _ r hk0
    have hc : c.byContent.look r.contentId = some ⟨r.contentId, r.contentId⟩ := by rw [hi.content, he]; rfl
    have hhas : ∀ k, ((del c.byInfo i.ident).look k).map (·.contentId) = assigned (h ++ [.dropInfo i]) k := by
      intro k
      rw [assigned_snoc]
      simp only [assign, lookup_del]
      split
      · rfl
      · exact hs.has k
    have hdel : ∀ k e' j, d.look k = some e' → j ∈ e'.subs → j.ident ≠ i.ident → (del c.byInfo i.ident).look j.ident = some ⟨k, k⟩ := by
      intro k e' j hk hj hne
      rw [lookup_del, if_neg (Ne.symm hne)]
      exact hs.listed k e' j hk hj
    have hother : ∀ k e' j, d.look k = some e' → j ∈ e'.subs → k ≠ r.contentId → j.ident ≠ i.ident := by
      intro k e' j hk hj hne e0
      have := hs.listed k e' j hk hj
      rw [e0, hk0] at this
      simp only [Option.some.injEq] at this
      exact hne (by rw [this])
    simp only
    split
    · have ha : removeSub d ⟨r.contentId, r.contentId⟩ i = Collector.put d r.contentId { e with subs := e.subs.filter fun j => j.ident ≠ i.ident } := by
        unfold removeSub; simp only [he]
      simp only [hc, ha]
      refine ⟨fun k e' j hk hj => ?_, hhas⟩
      rw [lookup_put] at hk
      split at hk
      · rename_i e0
        subst e0
        cases hk
        have := List.mem_filter.mp hj
        exact hdel _ e j he this.1 (by simpa using this.2)
      · rename_i e0
        exact hdel k e' j hk hj (hother k e' j hk hj (Ne.symm e0))
    · simp only [hc, Option.isSome_some, if_true]
      refine ⟨fun k e' j hk hj => ?_, hhas⟩
      rw [lookup_del] at hk
      split at hk
      · cases hk
      · rename_i e0
        exact hdel k e' j hk hj (hother k e' j hk hj (Ne.symm e0))

/-- descriptions are found again after a restart -/
theorem restart_info {h : List (StoreOp A X)} {c c' : LibCache A X} {d d' : Disk A X} (hi : StoreInv h c d) (hs : SetInv h c d) (hp : d'.Perm d)
    (hf : fromDisk .empty d' = some c') (k : Ident A X) : c'.byInfo.look k = c.byInfo.look k := by
  have hmem : ∀ dir e, (dir, e) ∈ d' → d.look dir = some e := fun dir e hm => lookup_of_mem hi.uniqD (hp.mem_iff.mp hm)
  have key : Fits (fun k => c.byInfo.look k) c' ∧ ∀ x ∈ d', ∀ i ∈ x.2.subs, (c'.byInfo.look i.ident).isSome := by
    refine fromDisk_ind (P := fun c1 d => Fits (fun k => c.byInfo.look k) c1 ∧ ∀ x ∈ d, ∀ i ∈ x.2.subs, (c1.byInfo.look i.ident).isSome) hf
      ⟨⟨List.Pairwise.nil, fun k r h => by simp [LibCache.empty] at h⟩, by simp⟩ ?_
    intro c1 pre dir e post hd ⟨h1, h2⟩
    have hd1 : d.look dir = some e := hmem dir e (by rw [hd]; simp)
    have hdir : e.library.contentId = dir := (hi.entry dir e hd1).1
    refine ⟨loadSubs_fits ⟨h1.uniq, h1.info⟩ fun i hi' => ?_, fun x hx i hi' => loadSubs_some ?_⟩
    · rw [hdir]; exact hs.listed dir e i hd1 hi'
    · rcases List.mem_append.mp hx with hx | hx
      · exact .inl (h2 x hx i hi')
      · simp only [List.mem_singleton] at hx
        subst hx
        exact .inr ⟨i, hi', rfl⟩
  cases hk : c.byInfo.look k with
  | none =>
    cases hk' : c'.byInfo.look k with
    | none => rfl
    | some r => have := key.1.info k r hk'; simp only [hk] at this; cases this
  | some r =>
    obtain ⟨_, e, he, j, hj, ej⟩ := hi.info k r hk
    have hm : (r.contentId, e) ∈ d' := hp.mem_iff.mpr (mem_of_lookup he)
    have := key.2 _ hm j hj
    rw [ej] at this
    obtain ⟨r', hr'⟩ := Option.isSome_iff_exists.mp this
    have h2 := key.1.info k r' hr'
    simp only [hk] at h2
    rw [hr', h2]

theorem SetInv.restart {h : List (StoreOp A X)} {c c' : LibCache A X} {d d' : Disk A X} (hi : StoreInv h c d) (hs : SetInv h c d) (hp : d'.Perm d)
    (hf : fromDisk .empty d' = some c') : SetInv (h ++ [.restart]) c' d' := by
  refine ⟨fun k e i hk hm => ?_, fun k => ?_⟩
  · rw [look_perm hi.uniqD hp] at hk
    rw [restart_info hi hs hp hf]
    exact hs.listed k e i hk hm
  · rw [restart_info hi hs hp hf, assigned_snoc]
    exact hs.has k

theorem Reach.settled {h : List (StoreOp A X)} {c : LibCache A X} {d : Disk A X} (hr : Reach h c d) (hs : Settled h) : SetInv h c d := by
  induction hr with
  | nil => exact ⟨fun _ _ _ h => (by cases h), fun _ => rfl⟩
  | put i l s hr ih => exact SetInv.put hr.inv (ih hs.init) hs.last
  | dropContent cid hr ih => exact SetInv.dropContent hr.inv (ih hs.init) cid
  | dropInfo i hr ih => exact SetInv.dropInfo hr.inv (ih hs.init) i
  | restart hr hp hf ih => exact SetInv.restart hr.inv (ih hs.init) hp hf

theorem number_delId (c : LibCache A X) (i : SubInfo A X) (x : List (String × Ref)) (y : List (Ident A X × Ref)) (ip : A) (id : UInt32) :
    LibCache.number ⟨x, y, c.delId i⟩ ip id = if i.peer.ip = ip ∧ i.id = id then none else c.number ip id := by
  unfold LibCache.number LibCache.delId
  simp only
  cases hl : c.byId.look i.peer.ip with
  | none =>
    simp only
    split
    · rename_i e; rw [← e.1, hl]; rfl
    · rfl
  | some subs =>
    simp only
    split
    · rename_i he
      have hnil : del subs i.id = [] := by simpa using he
      rw [lookup_del]
      by_cases e : i.peer.ip = ip
      · subst e
        rw [if_pos rfl]
        by_cases e2 : i.id = id
        · simp [e2]
        · rw [if_neg (by simp [e2]), hl, Option.bind_some]
          have : (del subs i.id).look id = subs.look id := by rw [lookup_del, if_neg e2]
          rw [hnil] at this
          rw [← this]; rfl
      · rw [if_neg e, if_neg (by simp [e])]
    · rw [lookup_put]
      by_cases e : i.peer.ip = ip
      · subst e
        rw [if_pos rfl, Option.bind_some, lookup_del, hl]
        by_cases e2 : i.id = id
        · simp [e2]
        · simp [e2]
      · rw [if_neg e, if_neg (by simp [e])]

/-- the subscriptions that are found by number are those that are listed -/
def NumInv (c : LibCache A X) (d : Disk A X) : Prop :=
  ∀ ip id i, c.number ip id = some i ↔ i.peer.ip = ip ∧ i.id = id ∧ ∃ k e, d.look k = some e ∧ i ∈ e.subs

theorem NumInv.put {h : List (StoreOp A X)} {c : LibCache A X} {d : Disk A X} (hi : StoreInv h c d) (hs : SetInv h c d) (hn : NumInv c d) {i : SubInfo A X} {l : Library}
    {s : List (String × String)} (hst : assigned h i.ident = none ∨ assigned h i.ident = some l.contentId) (ho : OneEach (h ++ [.put i l s])) :
    NumInv (putLibrary c d i l s).1 (putLibrary c d i l s).2.1 := by
  have hone : c.byInfo.look i.ident = none → ∀ k e j, d.look k = some e → j ∈ e.subs → ¬ (i.peer.ip = j.peer.ip ∧ i.id = j.id) := by
    intro hnone k e j hk hj ⟨e1, e2⟩
    obtain ⟨l', s', hm, _⟩ := hi.subs k e j hk hj
    have := ho i l s j l' s' (by simp) (by simp [hm]) e1 e2
    have h2 := hs.listed k e j hk hj
    rw [← this, hnone] at h2
    cases h2
  unfold putLibrary
  cases hc : c.byContent.look l.contentId with
  | some r =>
    simp only
    have hc' := hc
    rw [hi.content] at hc'
    obtain ⟨e, he, rfl⟩ := Option.map_eq_some_iff.mp hc'
    split
    · exact hn
    · rename_i hnone
      have hnn : c.byInfo.look i.ident = none := by simpa using hnone
      have hap : appendSub d ⟨l.contentId, l.contentId⟩ i = Collector.put d l.contentId { e with subs := addSub e.subs i } := by
        unfold appendSub; simp only [he]
      simp only [hap]
      intro ip id j
      rw [number_setId]
      have hnew : i ∈ addSub e.subs i := mem_addSub_new fun x hx e0 => by
        have := hs.listed _ e x he hx
        rw [e0, hnn] at this
        cases this
      split
      · rename_i e0
        constructor
        · intro h; cases h
          exact ⟨e0.1, e0.2, l.contentId, _, by rw [lookup_put, if_pos rfl], hnew⟩
        · rintro ⟨e1, e2, k, e', hk, hj⟩
          rw [lookup_put] at hk
          split at hk
          · cases hk
            rcases mem_addSub hj with hj | rfl
            · exact absurd ⟨e0.1.trans e1.symm, e0.2.trans e2.symm⟩ (hone hnn _ e j he hj)
            · rfl
          · exact absurd ⟨e0.1.trans e1.symm, e0.2.trans e2.symm⟩ (hone hnn k e' j hk hj)
      · rename_i e0
        rw [hn]
        refine and_congr_right fun e1 => and_congr_right fun e2 => ?_
        constructor
        · rintro ⟨k, e', hk, hj⟩
          by_cases ek : l.contentId = k
          · subst ek
            rw [he] at hk
            cases hk
            exact ⟨l.contentId, _, by rw [lookup_put, if_pos rfl], addSub_mono hj⟩
          · exact ⟨k, e', by rw [lookup_put, if_neg ek]; exact hk, hj⟩
        · rintro ⟨k, e', hk, hj⟩
          rw [lookup_put] at hk
          split at hk
          · cases hk
            rcases mem_addSub hj with hj | rfl
            · exact ⟨_, e, he, hj⟩
            · exact absurd ⟨e1, e2⟩ e0
          · exact ⟨k, e', hk, hj⟩
  | none =>
    have hd : d.look l.contentId = none := by
      have := hi.content l.contentId
      rw [hc] at this
      simpa using this.symm
    have hnn : c.byInfo.look i.ident = none := by
      cases hn : c.byInfo.look i.ident with
      | none => rfl
      | some r =>
        have := hs.has i.ident
        rw [hn] at this
        obtain ⟨_, e, he, _⟩ := hi.info _ r hn
        rcases hst with ha | ha
        · rw [ha] at this; simp at this
        · rw [ha] at this
          simp only [Option.map_some, Option.some.injEq] at this
          rw [this, hd] at he
          cases he
    simp only [hd, saveToDisk]
    intro ip id j
    rw [number_setId]
    split
    · rename_i e0
      constructor
      · intro h; cases h
        exact ⟨e0.1, e0.2, l.contentId, _, by rw [lookup_put, if_pos rfl], by simp⟩
      · rintro ⟨e1, e2, k, e', hk, hj⟩
        rw [lookup_put] at hk
        split at hk
        · cases hk
          simp only [List.mem_singleton] at hj
          subst hj
          rfl
        · exact absurd ⟨e0.1.trans e1.symm, e0.2.trans e2.symm⟩ (hone hnn k e' j hk hj)
    · rename_i e0
      rw [hn]
      refine and_congr_right fun e1 => and_congr_right fun e2 => ?_
      constructor
      · rintro ⟨k, e', hk, hj⟩
        refine ⟨k, e', ?_, hj⟩
        rw [lookup_put, if_neg]
        · exact hk
        · intro ek; rw [← ek, hd] at hk; cases hk
      · rintro ⟨k, e', hk, hj⟩
        rw [lookup_put] at hk
        split at hk
        · cases hk
          simp only [List.mem_singleton] at hj
          subst hj
          exact absurd ⟨e1, e2⟩ e0
        · exact ⟨k, e', hk, hj⟩

theorem NumInv.dropInfo {h : List (StoreOp A X)} {c : LibCache A X} {d : Disk A X} (hi : StoreInv h c d) (hs : SetInv h c d) (hn : NumInv c d) (i : SubInfo A X)
    (ho : OneEach h) : NumInv (removeInfo c d i).1 (removeInfo c d i).2 := by
  unfold removeInfo
  cases hk0 : c.byInfo.look i.ident with
  | none => exact hn
  | some r =>
    obtain ⟨hdir, e, he, j0, hj0, ej0⟩ := hi.info _ r hk0
    have hc : c.byContent.look r.contentId = some ⟨r.contentId, r.contentId⟩ := by rw [hi.content, he]; rfl
    -- what is listed elsewhere is not of this description
    have hother : ∀ k e' j, d.look k = some e' → j ∈ e'.subs → k ≠ r.contentId → j.ident ≠ i.ident := by
      intro k e' j hk hj hne e0
      have := hs.listed k e' j hk hj
      rw [e0, hk0] at this
      simp only [Option.some.injEq] at this
      exact hne (by rw [this])
    -- what is of this number is of this description
    have hsame : ∀ k e' j, d.look k = some e' → j ∈ e'.subs → i.peer.ip = j.peer.ip → i.id = j.id → j.ident = i.ident := by
      intro k e' j hk hj e1 e2
      obtain ⟨l', s', hm, _⟩ := hi.subs k e' j hk hj
      obtain ⟨l0, s0, hm0, _⟩ := hi.subs _ e j0 he hj0
      have a1 : j0.peer.ip = i.peer.ip := congrArg Ident.ip ej0
      have a2 : j0.id = i.id := congrArg Ident.id ej0
      rw [← ej0]
      exact ho j l' s' j0 l0 s0 hm hm0 (by rw [a1, e1]) (by rw [a2, e2])
    have hdiff : ∀ j : SubInfo A X, ¬ (i.peer.ip = j.peer.ip ∧ i.id = j.id) → j.ident ≠ i.ident := fun j hne e0 =>
      hne ⟨(congrArg Ident.ip e0).symm, (congrArg Ident.id e0).symm⟩
    simp only
    split
    · have ha : removeSub d ⟨r.contentId, r.contentId⟩ i = Collector.put d r.contentId { e with subs := e.subs.filter fun j => j.ident ≠ i.ident } := by
        unfold removeSub; simp only [he]
      simp only [hc, ha]
      intro ip id j
      rw [number_delId]
      split
      · rename_i e0
        constructor
        · intro h; cases h
        · rintro ⟨e1, e2, k, e', hk, hj⟩
          rw [lookup_put] at hk
          split at hk
          · cases hk
            have hj' := List.mem_filter.mp hj
            exact absurd (hsame _ e j he hj'.1 (e0.1.trans e1.symm) (e0.2.trans e2.symm)) (by simpa using hj'.2)
          · rename_i ek
            exact absurd (hsame k e' j hk hj (e0.1.trans e1.symm) (e0.2.trans e2.symm)) (hother k e' j hk hj (Ne.symm ek))
      · rename_i e0
        rw [hn]
        refine and_congr_right fun e1 => and_congr_right fun e2 => ?_
        constructor
        · rintro ⟨k, e', hk, hj⟩
          by_cases ek : r.contentId = k
          · subst ek
            rw [he] at hk
            cases hk
            refine ⟨r.contentId, _, by rw [lookup_put, if_pos rfl], List.mem_filter.mpr ⟨hj, ?_⟩⟩
            simp only [decide_eq_true_eq]
            exact hdiff j (by rw [e1, e2]; exact e0)
          · exact ⟨k, e', by rw [lookup_put, if_neg ek]; exact hk, hj⟩
        · rintro ⟨k, e', hk, hj⟩
          rw [lookup_put] at hk
          split at hk
          · cases hk
            exact ⟨_, e, he, (List.mem_filter.mp hj).1⟩
          · exact ⟨k, e', hk, hj⟩
    · rename_i hused
      simp only [hc, Option.isSome_some, if_true]
      intro ip id j
      rw [number_delId]
      split
      · rename_i e0
        constructor
        · intro h; cases h
        · rintro ⟨e1, e2, k, e', hk, hj⟩
          rw [lookup_del] at hk
          split at hk
          · cases hk
          · rename_i ek
            exact absurd (hsame k e' j hk hj (e0.1.trans e1.symm) (e0.2.trans e2.symm)) (hother k e' j hk hj (Ne.symm ek))
      · rename_i e0
        rw [hn]
        refine and_congr_right fun e1 => and_congr_right fun e2 => ?_
        constructor
        · rintro ⟨k, e', hk, hj⟩
          refine ⟨k, e', ?_, hj⟩
          rw [lookup_del, if_neg]
          · exact hk
          · intro ek
            subst ek
            have hl := hs.listed _ e' j hk hj
            apply hused
            refine List.any_eq_true.mpr ⟨(j.ident, ⟨r.contentId, r.contentId⟩), mem_of_lookup (m := del c.byInfo i.ident) ?_, ?_⟩
            · rw [lookup_del, if_neg (Ne.symm (hdiff j (by rw [e1, e2]; exact e0)))]; exact hl
            · simp
        · rintro ⟨k, e', hk, hj⟩
          rw [lookup_del] at hk
          split at hk
          · cases hk
          · exact ⟨k, e', hk, hj⟩

theorem restart_number {h : List (StoreOp A X)} {c c' : LibCache A X} {d d' : Disk A X} (hi : StoreInv h c d) (hn : NumInv c d) (hp : d'.Perm d)
    (hf : fromDisk .empty d' = some c') (ip : A) (id : UInt32) : c'.number ip id = c.number ip id := by
  have hmem : ∀ dir e, (dir, e) ∈ d' → d.look dir = some e := fun dir e hm => lookup_of_mem hi.uniqD (hp.mem_iff.mp hm)
  have key : (∀ ip id i, c'.number ip id = some i → c.number ip id = some i) ∧ ∀ x ∈ d', ∀ i ∈ x.2.subs, (c'.number i.peer.ip i.id).isSome := by
    refine fromDisk_ind (P := fun c1 d => (∀ ip id i, c1.number ip id = some i → c.number ip id = some i) ∧
      ∀ x ∈ d, ∀ i ∈ x.2.subs, (c1.number i.peer.ip i.id).isSome) hf ⟨fun ip id i h => by simp [LibCache.empty, LibCache.number] at h, by simp⟩ ?_
    intro c1 pre dir e post hd ⟨h1, h2⟩
    have hd1 : d.look dir = some e := hmem dir e (by rw [hd]; simp)
    have hl := fun ip id => loadSubs_number (r := ⟨e.library.contentId, dir⟩)
      (c := { c1 with byContent := Collector.put c1.byContent e.library.contentId ⟨e.library.contentId, dir⟩ })
      (subs := e.subs) (g := c.number) h1 (fun i hi' => (hn _ _ i).mpr ⟨rfl, rfl, dir, e, hd1, hi'⟩) ip id
    refine ⟨fun ip id => (hl ip id).1, fun x hx i hi' => (hl _ _).2 ?_⟩
    rcases List.mem_append.mp hx with hx | hx
    · exact .inl (h2 x hx i hi')
    · simp only [List.mem_singleton] at hx
      subst hx
      exact .inr ⟨i, hi', rfl, rfl⟩
  cases hk : c.number ip id with
  | none =>
    cases hk' : c'.number ip id with
    | none => rfl
    | some i => have := key.1 ip id i hk'; rw [hk] at this; cases this
  | some i =>
    obtain ⟨rfl, rfl, k, e, he, hm⟩ := (hn _ _ i).mp hk
    have := key.2 (k, e) (hp.mem_iff.mpr (mem_of_lookup he)) i hm
    obtain ⟨j, hj⟩ := Option.isSome_iff_exists.mp this
    have h2 := key.1 _ _ j hj
    rw [hk] at h2
    rw [hj, h2]

theorem OneEach.init {h : List (StoreOp A X)} {o : StoreOp A X} (ho : OneEach (h ++ [o])) : OneEach h :=
  fun i l s i' l' s' a b => ho i l s i' l' s' (by simp [a]) (by simp [b])

theorem Reach.numbers {h : List (StoreOp A X)} {c : LibCache A X} {d : Disk A X} (hr : Reach h c d) (hs : Settled h) (ho : OneEach h) (hc : NoContentDrop h) : NumInv c d := by
  induction hr with
  | nil => intro ip id i; simp [LibCache.empty, LibCache.number]
  | put i l s hr ih =>
    exact NumInv.put hr.inv (hr.settled hs.init) (ih hs.init ho.init fun cid hm => hc cid (by simp [hm])) hs.last ho
  | dropContent cid hr ih => exact absurd (by simp) (hc cid)
  | dropInfo i hr ih => exact NumInv.dropInfo hr.inv (hr.settled hs.init) (ih hs.init ho.init fun cid hm => hc cid (by simp [hm])) i ho.init
  | restart hr hp hf ih =>
    have hn := ih hs.init ho.init fun cid hm => hc cid (by simp [hm])
    intro ip id i
    rw [restart_number hr.inv hn hp hf, hn]
    simp only [look_perm hr.inv.uniqD hp]

end Verif.YangPush
