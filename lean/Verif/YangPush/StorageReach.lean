import Verif.YangPush.StorageInv
/-! # What holds of the cache of YANG libraries at all times -/
namespace Verif.YangPush
open Collector

variable {A X : Type} [DecidableEq A] [DecidableEq X]

/-- what holds after all histories: directories are those of libraries, with what was put for them, and every description that is found is listed with its library -/
structure StoreInv (h : List (StoreOp A X)) (c : LibCache A X) (d : Disk A X) : Prop where
  uniqD : Uniq d
  uniqI : Uniq c.byInfo
  content : ∀ k, c.byContent.look k = (d.look k).map fun _ => ⟨k, k⟩
  entry : ∀ k e, d.look k = some e → e.library.contentId = k ∧ ∃ i s, StoreOp.put i e.library s ∈ h ∧ e.files = e.library.saveSchemas s []
  info : ∀ k r, c.byInfo.look k = some r → r.dir = r.contentId ∧ ∃ e, d.look r.contentId = some e ∧ ∃ i ∈ e.subs, i.ident = k
  subs : ∀ k e i, d.look k = some e → i ∈ e.subs → ∃ l s, StoreOp.put i l s ∈ h ∧ l.contentId = k

theorem StoreInv.nil : StoreInv (A := A) (X := X) [] .empty [] :=
  ⟨List.Pairwise.nil, List.Pairwise.nil, fun _ => rfl, fun _ _ h => (by cases h), fun _ _ h => (by cases h), fun _ _ _ h => (by cases h)⟩

theorem StoreInv.put {h : List (StoreOp A X)} {c : LibCache A X} {d : Disk A X} (hi : StoreInv h c d) (i : SubInfo A X) (l : Library) (s : List (String × String)) :
    StoreInv (h ++ [.put i l s]) (putLibrary c d i l s).1 (putLibrary c d i l s).2.1 := by
  have hmono : ∀ o, o ∈ h → o ∈ h ++ [.put i l s] := fun o ho => by simp [ho]
  have entry' : ∀ k e, d.look k = some e → e.library.contentId = k ∧ ∃ j s', StoreOp.put j e.library s' ∈ h ++ [.put i l s] ∧ e.files = e.library.saveSchemas s' [] :=
    fun k e hk => ⟨(hi.entry k e hk).1, let ⟨j, s', a, b⟩ := (hi.entry k e hk).2; ⟨j, s', hmono _ a, b⟩⟩
  have subs' : ∀ k e j, d.look k = some e → j ∈ e.subs → ∃ l' s', StoreOp.put j l' s' ∈ h ++ [.put i l s] ∧ l'.contentId = k :=
    fun k e j hk hj => let ⟨l', s', a, b⟩ := hi.subs k e j hk hj; ⟨l', s', hmono _ a, b⟩
  unfold putLibrary
  cases hc : c.byContent.look l.contentId with
  | some r =>
    simp only
    have hc' := hc
    rw [hi.content] at hc'
    obtain ⟨e, he, rfl⟩ := Option.map_eq_some_iff.mp hc'
    split
    · exact ⟨hi.uniqD, hi.uniqI, hi.content, entry', hi.info, subs'⟩
    · have ha : appendSub d ⟨l.contentId, l.contentId⟩ i = Collector.put d l.contentId { e with subs := addSub e.subs i } := by
        unfold appendSub; simp only [he]
      simp only [ha]
      refine ⟨hi.uniqD.put _ _, hi.uniqI.put _ _, fun k => ?_, fun k e' hk => ?_, fun k r hk => ?_, fun k e' j hk hj => ?_⟩
      · simp only
        rw [hi.content, lookup_put]
        split
        · rename_i e0; subst e0; rw [he]; rfl
        · rfl
      · rw [lookup_put] at hk
        split at hk
        · rename_i e0
          subst e0
          cases hk
          exact entry' _ e he
        · exact entry' k e' hk
      · simp only [lookup_put] at hk
        split at hk
        · rename_i e0
          subst e0
          cases hk
          exact ⟨rfl, { e with subs := addSub e.subs i }, by rw [lookup_put, if_pos rfl], addSub_has _ _⟩
        · obtain ⟨a, e', b, j, hj, ej⟩ := hi.info k r hk
          refine ⟨a, ?_⟩
          rw [lookup_put]
          split
          · rename_i e0
            rw [← e0, he] at b
            cases b
            exact ⟨_, rfl, j, addSub_mono hj, ej⟩
          · exact ⟨e', b, j, hj, ej⟩
      · rw [lookup_put] at hk
        split at hk
        · rename_i e0
          subst e0
          cases hk
          rcases mem_addSub hj with hj | rfl
          · exact subs' _ e j he hj
          · exact ⟨l, s, by simp, rfl⟩
        · exact subs' k e' j hk hj
  | none =>
    have hd : d.look l.contentId = none := by
      have := hi.content l.contentId
      rw [hc] at this
      simpa using this.symm
    simp only [hd, saveToDisk]
    refine ⟨hi.uniqD.put _ _, hi.uniqI.put _ _, fun k => ?_, fun k e' hk => ?_, fun k r hk => ?_, fun k e' j hk hj => ?_⟩
    · simp only [lookup_put]
      split
      · rename_i e0; subst e0; rfl
      · exact hi.content k
    · rw [lookup_put] at hk
      split at hk
      · rename_i e0
        subst e0
        cases hk
        exact ⟨rfl, i, s, by simp, rfl⟩
      · exact entry' k e' hk
    · simp only [lookup_put] at hk
      split at hk
      · rename_i e0
        subst e0
        cases hk
        exact ⟨rfl, _, by rw [lookup_put, if_pos rfl], i, by simp, rfl⟩
      · obtain ⟨a, e', b, j, hj, ej⟩ := hi.info k r hk
        refine ⟨a, e', ?_, j, hj, ej⟩
        rw [lookup_put, if_neg]
        · exact b
        · intro e0
          rw [← e0, hd] at b
          cases b
    · rw [lookup_put] at hk
      split at hk
      · rename_i e0
        subst e0
        cases hk
        simp only [List.mem_singleton] at hj
        subst hj
        exact ⟨l, s, by simp, rfl⟩
      · exact subs' k e' j hk hj

/-- a library can be put at all times -/
theorem StoreInv.put_some {h : List (StoreOp A X)} {c : LibCache A X} {d : Disk A X} (hi : StoreInv h c d) (i : SubInfo A X) (l : Library) (s : List (String × String)) :
    (putLibrary c d i l s).2.2 = some ⟨l.contentId, l.contentId⟩ := by
  unfold putLibrary
  cases hc : c.byContent.look l.contentId with
  | some r =>
    have hc' := hc
    rw [hi.content] at hc'
    obtain ⟨e, he, rfl⟩ := Option.map_eq_some_iff.mp hc'
    simp only
    split <;> rfl
  | none =>
    have hd : d.look l.contentId = none := by
      have := hi.content l.contentId
      rw [hc] at this
      simpa using this.symm
    simp only [hd, saveToDisk]

theorem StoreInv.dropContent {h : List (StoreOp A X)} {c : LibCache A X} {d : Disk A X} (hi : StoreInv h c d) (cid : String) :
    StoreInv (h ++ [.dropContent cid]) (removeContent c d cid).1 (removeContent c d cid).2 := by
  have hmono : ∀ o, o ∈ h → o ∈ h ++ [.dropContent cid] := fun o ho => by simp [ho]
  have entry' : ∀ k e, d.look k = some e → e.library.contentId = k ∧ ∃ j s', StoreOp.put j e.library s' ∈ h ++ [.dropContent cid] ∧ e.files = e.library.saveSchemas s' [] :=
    fun k e hk => ⟨(hi.entry k e hk).1, let ⟨j, s', a, b⟩ := (hi.entry k e hk).2; ⟨j, s', hmono _ a, b⟩⟩
  have subs' : ∀ k e j, d.look k = some e → j ∈ e.subs → ∃ l' s', StoreOp.put j l' s' ∈ h ++ [.dropContent cid] ∧ l'.contentId = k :=
    fun k e j hk hj => let ⟨l', s', a, b⟩ := hi.subs k e j hk hj; ⟨l', s', hmono _ a, b⟩
  unfold removeContent
  cases hc : c.byContent.look cid with
  | none => exact ⟨hi.uniqD, hi.uniqI, hi.content, entry', hi.info, subs'⟩
  | some r =>
    have hc' := hc
    rw [hi.content] at hc'
    obtain ⟨e, he, rfl⟩ := Option.map_eq_some_iff.mp hc'
    simp only
    refine ⟨hi.uniqD.del _, hi.uniqI.filter _, fun k => ?_, fun k e' hk => ?_, fun k r hk => ?_, fun k e' j hk hj => ?_⟩
    · simp only [lookup_del]
      split
      · rfl
      · exact hi.content k
    · rw [lookup_del] at hk
      split at hk
      · cases hk
      · exact entry' k e' hk
    · rw [lookup_filter hi.uniqI] at hk
      obtain ⟨r', h1, h2⟩ := Option.bind_eq_some_iff.mp hk
      simp only at h2
      split at h2
      · rename_i hne
        cases h2
        obtain ⟨a, e', b, j, hj, ej⟩ := hi.info k r h1
        refine ⟨a, e', ?_, j, hj, ej⟩
        rw [lookup_del, if_neg fun e0 => by simp [← e0] at hne]
        exact b
      · cases h2
    · rw [lookup_del] at hk
      split at hk
      · cases hk
      · exact subs' k e' j hk hj

theorem StoreInv.dropInfo {h : List (StoreOp A X)} {c : LibCache A X} {d : Disk A X} (hi : StoreInv h c d) (i : SubInfo A X) :
    StoreInv (h ++ [.dropInfo i]) (removeInfo c d i).1 (removeInfo c d i).2 := by
  have hmono : ∀ o, o ∈ h → o ∈ h ++ [.dropInfo i] := fun o ho => by simp [ho]
  have entry' : ∀ k e, d.look k = some e → e.library.contentId = k ∧ ∃ j s', StoreOp.put j e.library s' ∈ h ++ [.dropInfo i] ∧ e.files = e.library.saveSchemas s' [] :=
    fun k e hk => ⟨(hi.entry k e hk).1, let ⟨j, s', a, b⟩ := (hi.entry k e hk).2; ⟨j, s', hmono _ a, b⟩⟩
  have subs' : ∀ k e j, d.look k = some e → j ∈ e.subs → ∃ l' s', StoreOp.put j l' s' ∈ h ++ [.dropInfo i] ∧ l'.contentId = k :=
    fun k e j hk hj => let ⟨l', s', a, b⟩ := hi.subs k e j hk hj; ⟨l', s', hmono _ a, b⟩
  unfold removeInfo
  cases hk0 : c.byInfo.look i.ident with
  | none => exact ⟨hi.uniqD, hi.uniqI, hi.content, entry', hi.info, subs'⟩
  | some r =>
    obtain ⟨hdir, e, he, j0, hj0, ej0⟩ := hi.info _ r hk0
    have hc : c.byContent.look r.contentId = some ⟨r.contentId, r.contentId⟩ := by rw [hi.content, he]; rfl
    simp only
    split
    · have ha : removeSub d ⟨r.contentId, r.contentId⟩ i = Collector.put d r.contentId { e with subs := e.subs.filter fun j => j.ident ≠ i.ident } := by
        unfold removeSub; simp only [he]
      simp only [hc, ha]
      refine ⟨hi.uniqD.put _ _, hi.uniqI.del _, fun k => ?_, fun k e' hk => ?_, fun k r' hk => ?_, fun k e' j hk hj => ?_⟩
      · simp only
        rw [hi.content, lookup_put]
        split
        · rename_i e0; subst e0; rw [he]; rfl
        · rfl
      · rw [lookup_put] at hk
        split at hk
        · rename_i e0
          subst e0
          cases hk
          exact entry' _ e he
        · exact entry' k e' hk
      · simp only [lookup_del] at hk
        split at hk
        · cases hk
        · rename_i hne
          obtain ⟨a, e', b, j, hj, ej⟩ := hi.info k r' hk
          refine ⟨a, ?_⟩
          rw [lookup_put]
          split
          · rename_i e0
            rw [← e0, he] at b
            cases b
            exact ⟨_, rfl, j, by simp [hj, ej, Ne.symm hne], ej⟩
          · exact ⟨e', b, j, hj, ej⟩
      · rw [lookup_put] at hk
        split at hk
        · rename_i e0
          subst e0
          cases hk
          exact subs' _ e j he (List.mem_filter.mp hj |>.1)
        · exact subs' k e' j hk hj
    · rename_i hused
      simp only [hc, Option.isSome_some, if_true]
      refine ⟨hi.uniqD.del _, hi.uniqI.del _, fun k => ?_, fun k e' hk => ?_, fun k r' hk => ?_, fun k e' j hk hj => ?_⟩
      · simp only [lookup_del]
        split
        · rfl
        · exact hi.content k
      · rw [lookup_del] at hk
        split at hk
        · cases hk
        · exact entry' k e' hk
      · have hm := mem_of_lookup hk
        simp only [lookup_del] at hk
        split at hk
        · cases hk
        · obtain ⟨a, e', b, j, hj, ej⟩ := hi.info k r' hk
          refine ⟨a, e', ?_, j, hj, ej⟩
          rw [lookup_del, if_neg]
          · exact b
          · intro e0
            apply hused
            exact List.any_eq_true.mpr ⟨_, hm, by simp [e0]⟩
      · rw [lookup_del] at hk
        split at hk
        · cases hk
        · exact subs' k e' j hk hj

theorem StoreInv.restart {h : List (StoreOp A X)} {c c' : LibCache A X} {d d' : Disk A X} (hi : StoreInv h c d) (hp : d'.Perm d) (hf : fromDisk .empty d' = some c') :
    StoreInv (h ++ [.restart]) c' d' := by
  have hmono : ∀ o, o ∈ h → o ∈ h ++ [.restart] := fun o ho => by simp [ho]
  have hu : Uniq d' := Uniq.perm hi.uniqD hp
  have hl : ∀ k, d'.look k = d.look k := look_perm hi.uniqD hp
  have hid : ∀ dir e, (dir, e) ∈ d' → e.library.contentId = dir := fun dir e hm =>
    (hi.entry dir e (lookup_of_mem hi.uniqD (hp.mem_iff.mp hm))).1
  have key : Uniq c'.byInfo ∧ (∀ k r, c'.byContent.look k = some r ↔ r = ⟨k, k⟩ ∧ ∃ e, (k, e) ∈ d') ∧
      ∀ k r, c'.byInfo.look k = some r → r.dir = r.contentId ∧ ∃ e, (r.contentId, e) ∈ d' ∧ ∃ i ∈ e.subs, i.ident = k := by
    refine fromDisk_ind (P := fun c d => Uniq c.byInfo ∧ (∀ k r, c.byContent.look k = some r ↔ r = ⟨k, k⟩ ∧ ∃ e, (k, e) ∈ d) ∧
      ∀ k r, c.byInfo.look k = some r → r.dir = r.contentId ∧ ∃ e, (r.contentId, e) ∈ d ∧ ∃ i ∈ e.subs, i.ident = k) hf
      ⟨List.Pairwise.nil, fun k r => by simp [LibCache.empty], fun k r h => by simp [LibCache.empty] at h⟩ ?_
    intro c pre dir e post hd ⟨h1, h2, h3⟩
    have hdir : e.library.contentId = dir := hid dir e (by rw [hd]; simp)
    refine ⟨loadSubs_uniq h1, fun k r => ?_, fun k r hk => ?_⟩
    · rw [loadSubs_content]
      simp only [lookup_put, hdir]
      split
      · rename_i e0
        subst e0
        constructor
        · intro h; cases h; exact ⟨rfl, e, by simp⟩
        · rintro ⟨rfl, _⟩; rfl
      · rename_i e0
        rw [h2]
        simp [Ne.symm e0]
    · rcases loadSubs_mem hk with hk | ⟨rfl, j, hj, ej⟩
      · obtain ⟨a, e', b, x⟩ := h3 k r hk
        exact ⟨a, e', by simp [b], x⟩
      · exact ⟨hdir.symm, e, by simp [hdir], j, hj, ej⟩
  obtain ⟨k1, k2, k3⟩ := key
  refine ⟨hu, k1, fun k => ?_, fun k e hk => ?_, fun k r hk => ?_, fun k e j hk hj => ?_⟩
  · cases hk : d'.look k with
    | some e => exact (k2 k _).mpr ⟨rfl, e, mem_of_lookup hk⟩
    | none =>
      cases hc : c'.byContent.look k with
      | none => rfl
      | some r =>
        obtain ⟨_, e, hm⟩ := (k2 k r).mp hc
        rw [lookup_of_mem hu hm] at hk
        cases hk
  · rw [hl] at hk
    exact ⟨(hi.entry k e hk).1, let ⟨j, s', a, b⟩ := (hi.entry k e hk).2; ⟨j, s', hmono _ a, b⟩⟩
  · obtain ⟨a, e, b, x⟩ := k3 k r hk
    exact ⟨a, e, lookup_of_mem hu b, x⟩
  · rw [hl] at hk
    exact let ⟨l', s', a, b⟩ := hi.subs k e j hk hj; ⟨l', s', hmono _ a, b⟩

theorem Reach.inv {h : List (StoreOp A X)} {c : LibCache A X} {d : Disk A X} (hr : Reach h c d) : StoreInv h c d := by
  induction hr with
  | nil => exact .nil
  | put i l s _ ih => exact ih.put i l s
  | dropContent cid _ ih => exact ih.dropContent cid
  | dropInfo i _ ih => exact ih.dropInfo i
  | restart _ hp hf ih => exact ih.restart hp hf

end Verif.YangPush
