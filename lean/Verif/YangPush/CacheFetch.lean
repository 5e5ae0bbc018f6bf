import Verif.YangPush.CacheCounts
/-! # What the actor of the cache fetches and answers -/
namespace Verif.YangPush.Cache
open Collector Notif

variable {A X S : Type} [DecidableEq A] [DecidableEq X] [DecidableEq S]

/-! ## Numbers and descriptions of caches that nothing is removed from -/

/-- numbers and descriptions go together -/
structure Paired (c : LibCache A X) : Prop where
  number : ∀ ip id i, c.number ip id = some i → i.peer.ip = ip ∧ i.id = id ∧ (c.byInfo.look i.ident).isSome
  info : ∀ k, (c.byInfo.look k).isSome → (c.number k.ip k.id).isSome

omit [DecidableEq S] in
theorem Paired.set {c : LibCache A X} (h : Paired c) (x : List (String × Ref)) (i : SubInfo A X) (r : Ref) : Paired ⟨x, put c.byInfo i.ident r, c.setId i⟩ := by
  refine ⟨fun ip id j hj => ?_, fun k hk => ?_⟩
  · rw [number_setId] at hj
    simp only [lookup_put]
    split at hj
    · rename_i e
      cases hj
      exact ⟨e.1, e.2, by simp⟩
    · obtain ⟨a, b, d⟩ := h.number ip id j hj
      refine ⟨a, b, ?_⟩
      split
      · rfl
      · exact d
  · rw [number_setId]
    simp only [lookup_put] at hk
    split
    · rfl
    · rename_i hne
      rw [if_neg (by rintro rfl; exact hne ⟨rfl, rfl⟩)] at hk
      exact h.info k hk

omit [DecidableEq S] in
theorem Paired.load {c : LibCache A X} (h : Paired c) (x : List (String × Ref)) (r : Ref) (subs : List (SubInfo A X)) : Paired (loadSubs r { c with byContent := x } subs) := by
  have h' : Paired { c with byContent := x } := ⟨h.number, h.info⟩
  unfold loadSubs
  generalize { c with byContent := x } = c' at h'
  clear h
  induction subs generalizing c' with
  | nil => exact h'
  | cons i subs ih => exact ih _ (h'.set _ i r)

omit [DecidableEq S] in
theorem Paired.put {c : LibCache A X} (h : Paired c) (d : Disk A X) (i : SubInfo A X) (l : Library) (s : List (String × String)) : Paired (putLibrary c d i l s).1 := by
  unfold putLibrary
  split
  · split
    · exact h
    · exact h.set _ i _
  · split
    · exact h
    · exact h.set _ i _

omit [DecidableEq S] in
theorem NoDrops.init {h : List (StoreOp A X)} {o : StoreOp A X} (hn : NoDrops (h ++ [o])) : NoDrops h :=
  ⟨fun cid hm => hn.1 cid (by simp [hm]), fun i hm => hn.2 i (by simp [hm])⟩

omit [DecidableEq S] in
theorem Reach.paired {h : List (StoreOp A X)} {c : LibCache A X} {d : Disk A X} (hr : Reach h c d) (hn : NoDrops h) : Paired c := by
  induction hr with
  | nil => exact ⟨fun ip id i hi => by simp [LibCache.empty, LibCache.number] at hi, fun k hk => by simp [LibCache.empty] at hk⟩
  | put i l s _ ih => exact (ih hn.init).put _ i l s
  | dropContent cid _ _ => exact absurd (by simp) (hn.1 cid)
  | dropInfo i _ _ => exact absurd (by simp) (hn.2 i)
  | restart _ hp hf _ =>
    refine fromDisk_ind (P := fun c _ => Paired c) hf ⟨fun ip id i hi => by simp [LibCache.empty, LibCache.number] at hi, fun k hk => by simp [LibCache.empty] at hk⟩ ?_
    intro c pre dir e post _ hc
    exact hc.load _ _ _

omit [DecidableEq S] in
/-- a library that is put does not take away what is found, and is found -/
theorem put_grows (c : LibCache A X) (d : Disk A X) (i : SubInfo A X) (l : Library) (s : List (String × String)) :
    (∀ k, (c.byInfo.look k).isSome → ((putLibrary c d i l s).1.byInfo.look k).isSome) ∧
    (∀ ip id, (c.number ip id).isSome → ((putLibrary c d i l s).1.number ip id).isSome) := by
  have hset : ∀ (x : List (String × Ref)) (r : Ref), (∀ k, (c.byInfo.look k).isSome → ((Collector.put c.byInfo i.ident r).look k).isSome) ∧
      ∀ ip id, (c.number ip id).isSome → (LibCache.number ⟨x, Collector.put c.byInfo i.ident r, c.setId i⟩ ip id).isSome := by
    intro x r
    refine ⟨fun k hk => ?_, fun ip id hk => ?_⟩
    · rw [lookup_put]; split
      · rfl
      · exact hk
    · rw [number_setId]; split
      · rfl
      · exact hk
  unfold putLibrary
  split
  · split
    · exact ⟨fun _ h => h, fun _ _ h => h⟩
    · exact hset _ _
  · split
    · exact ⟨fun _ h => h, fun _ _ h => h⟩
    · exact hset _ _

omit [DecidableEq S] in
theorem put_found {h : List (StoreOp A X)} {c : LibCache A X} {d : Disk A X} (hi : StoreInv h c d) (i : SubInfo A X) (l : Library) (s : List (String × String)) :
    ((putLibrary c d i l s).1.byInfo.look i.ident).isSome := by
  unfold putLibrary
  cases hc : c.byContent.look l.contentId with
  | some r =>
    simp only
    split
    · rename_i h; exact h
    · simp only [lookup_put, if_true, Option.isSome_some]
  | none =>
    have hd : d.look l.contentId = none := by
      have := hi.content l.contentId
      rw [hc] at this
      simpa using this.symm
    simp only [hd, saveToDisk, lookup_put, if_true, Option.isSome_some]

/-! ## One worker at a time -/

/-- what a worker is to bring is there -/
def Have (c : LibCache A X) : Job A X → Prop
  | .info i => (c.byInfo.look i.ident).isSome
  | .id _ _ p n => (c.number p.ip n).isSome

/-- each worker has somebody who waits for it or is late; there is one for each subscription -/
structure OneAtATime (c : State A X S) : Prop where
  store : ∃ h, Reach h c.store c.disk ∧ NoDrops h
  named : ∀ i, Job.info i ∈ c.workers → i.contentId ≠ "EMPTY"
  waited : ∀ job ∈ c.workers, (c.pending.look job.key).getD [] ≠ [] ∨ Have c.store job
  single : ∀ k, c.workers.countP (fun j => j.key = k) ≤ 1

omit [DecidableEq S] [DecidableEq A] [DecidableEq X] in
theorem empty_ident (c : Sock A) (f : Option String) (p : Sock A) (n : UInt32) : (SubInfo.empty c f p n : SubInfo A X).ident.ip = p.ip ∧
    (SubInfo.empty c f p n : SubInfo A X).ident.id = n ∧ (SubInfo.empty c f p n : SubInfo A X).ident.contentId = "EMPTY" := ⟨rfl, rfl, rfl⟩

theorem enqueue_one {c : State A X S} (h : OneAtATime c) (job : Job A X) (s : S) (b : Bool) (hne : ¬ Have c.store job) (hname : ∀ i, job = .info i → i.contentId ≠ "EMPTY") :
    OneAtATime (enqueue c job s b).1 := by
  unfold enqueue
  simp only
  split
  · rename_i he
    have hnil : (c.pending.look job.key).getD [] = [] := by simpa using he
    split
    · have hno : ∀ j ∈ c.workers, j.key ≠ job.key := by
        intro j hj e
        rcases h.waited j hj with hw | hw
        · rw [e] at hw; exact hw hnil
        · apply hne
          cases j with
          | info i =>
            cases job with
            | info i' =>
              simp only [Job.key] at e
              simp only [Have] at hw ⊢
              rw [← e]; exact hw
            | id co f p n =>
              have := congrArg Ident.contentId e
              exact absurd this (h.named i hj)
          | id co f p n =>
            cases job with
            | info i' =>
              have := congrArg Ident.contentId e
              exact absurd this.symm (hname i' rfl)
            | id co' f' p' n' =>
              have h1 : p.ip = p'.ip := congrArg Ident.ip e
              have h2 : n = n' := congrArg Ident.id e
              simp only [Have] at hw ⊢
              rw [← h1, ← h2]; exact hw
      refine ⟨h.store, fun i hi => ?_, fun j hj => ?_, fun k => ?_⟩
      · rcases List.mem_append.mp hi with hi | hi
        · exact h.named i hi
        · simp only [List.mem_singleton] at hi
          exact hname i hi.symm
      · simp only [lookup_put]
        rcases List.mem_append.mp hj with hj | hj
        · rw [if_neg (Ne.symm (hno j hj))]
          exact h.waited j hj
        · simp only [List.mem_singleton] at hj
          subst hj
          rw [if_pos rfl]
          exact .inl (by simp)
      · rw [List.countP_append]
        by_cases e : job.key = k
        · have : c.workers.countP (fun j => j.key = k) = 0 := by
            rw [List.countP_eq_zero]
            intro j hj
            simp only [decide_eq_true_eq]
            rw [← e]; exact hno j hj
          rw [this]
          simp [e]
        · have := h.single k
          simp [e]
          exact this
    · refine ⟨h.store, h.named, fun j hj => ?_, h.single⟩
      simp only [lookup_put]
      split
      · rename_i e
        rcases h.waited j hj with hw | hw
        · rw [← e, hnil] at hw; exact absurd rfl hw
        · exact .inr hw
      · exact h.waited j hj
  · refine ⟨h.store, h.named, fun j hj => ?_, h.single⟩
    simp only [lookup_put]
    split
    · exact .inl (by simp)
    · exact h.waited j hj

omit [DecidableEq S] in
theorem Have.mono {c c' : LibCache A X} (h1 : ∀ k, (c.byInfo.look k).isSome → (c'.byInfo.look k).isSome) (h2 : ∀ ip id, (c.number ip id).isSome → (c'.number ip id).isSome)
    {job : Job A X} (h : Have c job) : Have c' job := by
  cases job with
  | info i => exact h1 _ h
  | id co f p n => exact h2 _ _ h

/-- the end of a worker that brought a library -/
theorem fetched_one {c : State A X S} (h : OneAtATime c) (i : SubInfo A X) (l : Library) (sch : List (String × String)) : OneAtATime (finish c (.fetched i l sch)).1 := by
  obtain ⟨hist, hr, hn⟩ := h.store
  have hr' := Reach.put i l sch hr
  have hn' : NoDrops (hist ++ [.put i l sch]) := ⟨fun cid hm => hn.1 cid (by simpa using hm), fun j hm => hn.2 j (by simpa using hm)⟩
  have hp := Reach.paired hr' hn'
  have hf := put_found hr.inv i l sch
  obtain ⟨g1, g2⟩ := put_grows c.store c.disk i l sch
  have hnum := hp.info _ hf
  refine ⟨⟨_, hr', hn'⟩, h.named, fun j hj => ?_, h.single⟩
  simp only [finish, lookup_del]
  split
  · rename_i e
    right
    cases j with
    | info i' =>
      have := congrArg Ident.contentId e
      exact absurd this.symm (h.named i' hj)
    | id co f p n =>
      have h1 : i.peer.ip = p.ip := congrArg Ident.ip e
      have h2 : i.id = n := congrArg Ident.id e
      simp only [Have]
      rw [← h1, ← h2]
      exact hnum
  · split
    · rename_i e
      right
      cases j with
      | info i' =>
        simp only [Have]
        simp only [Job.key] at e
        rw [← e]; exact hf
      | id co f p n =>
        have h1 : i.peer.ip = p.ip := congrArg Ident.ip e
        have h2 : i.id = n := congrArg Ident.id e
        simp only [Have]
        rw [← h1, ← h2]
        exact hnum
    · rcases h.waited j hj with hw | hw
      · exact .inl hw
      · exact .inr (hw.mono g1 g2)

theorem getId_none {c : LibCache A X} {ip : A} {id : UInt32} (h : c.getId ip id = none) : ¬ (c.number ip id).isSome := by
  unfold LibCache.getId at h
  unfold LibCache.number
  simp only [Option.map_eq_none_iff] at h
  rw [h]
  simp

theorem step_one {c : State A X S} (h : OneAtATime c) {e : Event A X S} (ho : Orderly e) (hh : HonestEvent e) : OneAtATime (step c e).1 := by
  cases e with
  | lookupInfo i s b =>
    simp only [step]
    split
    · exact h
    · rename_i hn
      refine enqueue_one h _ s b ?_ fun j hj => ?_
      · simp only [Have]
        unfold LibCache.getInfo at hn
        rw [hn]; simp
      · cases hj; exact ho
  | lookupInfoOnce i s r =>
    simp only [step]
    split
    · exact h
    · cases r with
      | failed j => exact absurd ho (by simp [Orderly])
      | fetched j l sch => exact fetched_one h j l sch
  | lookupId co f p n s b =>
    simp only [step]
    split
    · exact h
    · rename_i hn
      exact enqueue_one h _ s b (getId_none hn) fun j hj => by cases hj
  | lookupIdOnce co f p n s r =>
    simp only [step]
    split
    · exact h
    · cases r with
      | failed j => exact absurd ho (by simp [Orderly])
      | fetched j l sch => exact fetched_one h j l sch
  | lookupContent cid s => exact h
  | ended job r =>
    simp only [step]
    split
    · rename_i hm
      have herase : OneAtATime { c with workers := c.workers.erase job } := by
        refine ⟨h.store, fun i hi => h.named i (List.mem_of_mem_erase hi), fun j hj => h.waited j (List.mem_of_mem_erase hj), fun k => ?_⟩
        exact Nat.le_trans (List.Sublist.countP_le (List.erase_sublist)) (h.single k)
      cases r with
      | none => exact herase
      | some r =>
        cases r with
        | fetched i l sch => exact fetched_one herase i l sch
        | failed i =>
          have hkey : i.ident = job.key := (honest_key hh).1 i rfl
          refine ⟨herase.store, herase.named, fun j hj => ?_, herase.single⟩
          simp only [finish, lookup_del] at hj ⊢
          rw [if_neg]
          · exact herase.waited j hj
          · rw [hkey]
            intro e
            have h1 := h.single job.key
            have hp : c.workers.countP (fun j => j.key = job.key) = (c.workers.erase job).countP (fun j => j.key = job.key) + 1 := by
              rw [(List.perm_cons_erase hm).countP_eq]
              simp
            have hpos : 0 < (c.workers.erase job).countP (fun j => j.key = job.key) := List.countP_pos_iff.mpr ⟨j, hj, by simp [e]⟩
            omega
    · exact h
  | cleanup closed => exact absurd ho (by simp [Orderly])

theorem run_one {c : State A X S} (h : OneAtATime c) {es : List (Event A X S)} (ho : ∀ e ∈ es, Orderly e) (hh : ∀ e ∈ es, HonestEvent e) : OneAtATime (run c es).1 := by
  induction es generalizing c with
  | nil => exact h
  | cons e es ih => exact ih (step_one h (ho e (by simp)) (hh e (by simp))) (fun e' he' => ho e' (by simp [he'])) fun e' he' => hh e' (by simp [he'])

/-! ## Answers -/

omit [DecidableEq S] [DecidableEq A] [DecidableEq X] in
theorem alike_ident (a b : SubInfo A X) : Alike a b ↔ a.ident = b.ident := by
  constructor
  · rintro ⟨h1, h2, h3, h4, h5, h6, h7, h8, h9, h10⟩
    simp only [SubInfo.ident, h1, h2, h3, h4, h5, h6, h7, h8, h9, h10]
  · intro h
    simp only [SubInfo.ident, Ident.mk.injEq] at h
    exact h

/-- those who wait asked for it -/
def Asker (es : List (Event A X S)) (k : Ident A X) (s : S) : Prop :=
  (∃ i b, .lookupInfo i s b ∈ es ∧ i.ident = k) ∨ ∃ c f p n b, .lookupId c f p n s b ∈ es ∧ (SubInfo.empty c f p n : SubInfo A X).ident = k

/-- what holds of answers to come: the store has what was put into it, and those who wait asked -/
structure Answers (h : List (StoreOp A X)) (es : List (Event A X S)) (c : State A X S) : Prop where
  store : ∃ hist, Reach hist c.store c.disk ∧ NoDrops hist ∧ ∀ i l s, StoreOp.put i l s ∈ hist → Brought h es i l s
  waiting : ∀ k s, s ∈ (c.pending.look k).getD [] → Asker es k s

omit [DecidableEq S] [DecidableEq A] [DecidableEq X] in
theorem Brought.mono {h : List (StoreOp A X)} {es es' : List (Event A X S)} (hs : ∀ e ∈ es, e ∈ es') {i : SubInfo A X} {l : Library} {s : List (String × String)}
    (hb : Brought h es i l s) : Brought h es' i l s := by
  rcases hb with hb | ⟨j, hb⟩ | ⟨j, t, hb⟩ | ⟨c, f, p, n, t, hb⟩
  · exact .inl hb
  · exact .inr (.inl ⟨j, hs _ hb⟩)
  · exact .inr (.inr (.inl ⟨j, t, hs _ hb⟩))
  · exact .inr (.inr (.inr ⟨c, f, p, n, t, hs _ hb⟩))

omit [DecidableEq S] [DecidableEq A] [DecidableEq X] in
theorem Asker.mono {es es' : List (Event A X S)} (hs : ∀ e ∈ es, e ∈ es') {k : Ident A X} {s : S} (h : Asker es k s) : Asker es' k s := by
  rcases h with ⟨i, b, h, e⟩ | ⟨c, f, p, n, b, h, e⟩
  · exact .inl ⟨i, b, hs _ h, e⟩
  · exact .inr ⟨c, f, p, n, b, hs _ h, e⟩

theorem Answers.mono {h : List (StoreOp A X)} {es es' : List (Event A X S)} {c : State A X S} (hs : ∀ e ∈ es, e ∈ es') (ha : Answers h es c) : Answers h es' c :=
  ⟨let ⟨hist, a, b, d⟩ := ha.store; ⟨hist, a, b, fun i l s hm => (d i l s hm).mono hs⟩, fun k s hk => (ha.waiting k s hk).mono hs⟩

omit [DecidableEq S] [DecidableEq A] [DecidableEq X] in
theorem Asker.wanted {es : List (Event A X S)} {k : Ident A X} {s : S} (h : Asker es k s) {info : SubInfo A X} (hk : info.ident = k) : Wanted es s info := by
  rcases h with ⟨i, b, h, e⟩ | ⟨c, f, p, n, b, h, e⟩
  · exact .inl ⟨i, b, h, .inl ((alike_ident _ _).mpr (hk.trans e.symm))⟩
  · refine .inr (.inr (.inl ⟨c, f, p, n, b, h, ?_, ?_⟩))
    · exact congrArg Ident.ip (hk.trans e.symm)
    · exact congrArg Ident.id (hk.trans e.symm)

omit [DecidableEq S] [DecidableEq A] [DecidableEq X] in
theorem Asker.wanted_empty {es : List (Event A X S)} {s : S} {info : SubInfo A X}
    (h : Asker es (SubInfo.empty info.collector info.interface info.peer info.id : SubInfo A X).ident s) : Wanted es s info := by
  rcases h with ⟨i, b, h, e⟩ | ⟨c, f, p, n, b, h, e⟩
  · refine .inl ⟨i, b, h, .inr ⟨?_, ?_, ?_⟩⟩
    · exact congrArg Ident.contentId e
    · exact (congrArg Ident.ip e).symm
    · exact (congrArg Ident.id e).symm
  · refine .inr (.inr (.inl ⟨c, f, p, n, b, h, ?_, ?_⟩))
    · exact (congrArg Ident.ip e).symm
    · exact (congrArg Ident.id e).symm

omit [DecidableEq S] in
/-- what the store finds for a description was put for one that is alike -/
theorem found_put {hist : List (StoreOp A X)} {c : LibCache A X} {d : Disk A X} (hr : Reach hist c d) {k : Ident A X} {r : Ref} (hk : c.byInfo.look k = some r) :
    ∃ i l s, StoreOp.put i l s ∈ hist ∧ i.ident = k ∧ l.contentId = r.contentId := by
  obtain ⟨_, e, he, i, hi, ei⟩ := hr.inv.info k r hk
  obtain ⟨l, s, hm, hl⟩ := hr.inv.subs _ e i he hi
  exact ⟨i, l, s, hm, ei, hl⟩

/-- the end of a worker -/
theorem finish_answers {h : List (StoreOp A X)} {es : List (Event A X S)} {c : State A X S} (ha : Answers h es c) (r : FetchResult A X)
    (hb : ∀ i l s, r = .fetched i l s → Brought h es i l s) (hf : ∀ i, r = .failed i → Failed es i) :
    Answers h es (finish c r).1 ∧ ∀ o ∈ (finish c r).2, Fitting h es o := by
  have hwait : ∀ k s, s ∈ ((finish c r).1.pending.look k).getD [] → Asker es k s := by
    intro k s hk
    rcases finish_pending c r k with e | e
    · rw [e] at hk; exact ha.waiting k s hk
    · rw [e] at hk; simp at hk
  cases r with
  | failed i =>
    refine ⟨⟨ha.store, hwait⟩, fun o ho => ?_⟩
    simp only [finish, List.mem_map] at ho
    obtain ⟨s, hs, rfl⟩ := ho
    exact ⟨(ha.waiting _ s hs).wanted rfl, rfl, fun _ => hf i rfl, fun r hr => by cases hr⟩
  | fetched i l sch =>
    obtain ⟨hist, hr, hn, hp⟩ := ha.store
    have hr' := Reach.put i l sch hr
    refine ⟨⟨⟨_, hr', ⟨fun cid hm => hn.1 cid (by simpa using hm), fun j hm => hn.2 j (by simpa using hm)⟩, fun i' l' s' hm => ?_⟩, hwait⟩, fun o ho => ?_⟩
    · rcases List.mem_append.mp hm with hm | hm
      · exact hp i' l' s' hm
      · simp only [List.mem_singleton, StoreOp.put.injEq] at hm
        obtain ⟨rfl, rfl, rfl⟩ := hm
        exact hb _ _ _ rfl
    · simp only [finish, List.mem_map] at ho
      obtain ⟨s, hs, rfl⟩ := ho
      have hsome := hr.inv.put_some i l sch
      refine ⟨?_, rfl, fun hnone => ?_, fun r hr => ?_⟩
      · simp only [respond]
        rcases List.mem_append.mp hs with hs | hs
        · exact (ha.waiting _ s hs).wanted rfl
        · rw [lookup_del] at hs
          split at hs
          · simp at hs
          · exact (ha.waiting _ s hs).wanted_empty
      · simp only [respond] at hnone; rw [hsome] at hnone; cases hnone
      · simp only [respond] at hr
        rw [hsome] at hr
        cases hr
        exact ⟨i, l, sch, hb i l sch rfl, (alike_ident _ _).mpr rfl, rfl⟩

theorem enqueue_answers {h : List (StoreOp A X)} {es : List (Event A X S)} {c : State A X S} (ha : Answers h es c) (job : Job A X) (s : S) (b : Bool)
    (hask : Asker es job.key s) (hjob : Fitting h es (.fetch job)) : Answers h es (enqueue c job s b).1 ∧ ∀ o ∈ (enqueue c job s b).2, Fitting h es o := by
  unfold enqueue
  simp only
  split
  · split
    · refine ⟨⟨ha.store, fun k t ht => ?_⟩, fun o ho => ?_⟩
      · simp only [lookup_put] at ht
        split at ht
        · rename_i e
          simp only [Option.getD_some, List.mem_singleton] at ht
          subst ht; subst e
          exact hask
        · exact ha.waiting k t ht
      · simp only [List.mem_singleton] at ho
        subst ho
        exact hjob
    · refine ⟨⟨ha.store, fun k t ht => ?_⟩, fun o ho => by simp at ho⟩
      simp only [lookup_put] at ht
      split at ht
      · simp at ht
      · exact ha.waiting k t ht
  · refine ⟨⟨ha.store, fun k t ht => ?_⟩, fun o ho => by simp at ho⟩
    simp only [lookup_put] at ht
    split at ht
    · rename_i e
      subst e
      simp only [Option.getD_some, List.mem_append, List.mem_singleton] at ht
      rcases ht with ht | rfl
      · exact ha.waiting _ t ht
      · exact hask
    · exact ha.waiting k t ht

theorem step_answers {h : List (StoreOp A X)} {es : List (Event A X S)} {c : State A X S} (hu : Uniq c.pending) (ha : Answers h es c) {e : Event A X S} (hh : HonestEvent e) :
    Answers h (es ++ [e]) (step c e).1 ∧ ∀ o ∈ (step c e).2, Fitting h (es ++ [e]) o := by
  have hlast : e ∈ es ++ [e] := by simp
  have ha' : Answers h (es ++ [e]) c := ha.mono fun x hx => by simp [hx]
  obtain ⟨hist, hr, hn, hp⟩ := ha'.store
  have hpair := Reach.paired hr hn
  have hget : ∀ info r, c.store.getInfo info = some r → ∃ i l sch, Brought h (es ++ [e]) i l sch ∧ Alike i info ∧ l.contentId = r.contentId := by
    intro info r hk
    obtain ⟨i, l, s, hm, ei, hl⟩ := found_put hr hk
    exact ⟨i, l, s, hp i l s hm, (alike_ident _ _).mpr ei, hl⟩
  have hid : ∀ ip id info r, c.store.getId ip id = some (info, r) → info.peer.ip = ip ∧ info.id = id ∧ ∃ q, r = some q ∧ c.store.getInfo info = some q := by
    intro ip id info r hk
    unfold LibCache.getId at hk
    obtain ⟨i, h1, h2⟩ := Option.map_eq_some_iff.mp hk
    simp only [Prod.mk.injEq] at h2
    obtain ⟨rfl, h2⟩ := h2
    obtain ⟨a, b, d⟩ := hpair.number ip id i h1
    obtain ⟨q, hq⟩ := Option.isSome_iff_exists.mp d
    exact ⟨a, b, q, by rw [← h2, hq], hq⟩
  cases e with
  | lookupInfo i s b =>
    simp only [step]
    split
    · rename_i r hk
      refine ⟨ha', fun o ho => ?_⟩
      simp only [List.mem_singleton] at ho
      subst ho
      refine ⟨.inl ⟨i, b, hlast, .inl ((alike_ident _ _).mpr rfl)⟩, rfl, fun hc => (by cases hc), fun q hq => ?_⟩
      simp only [respond, Option.some.injEq] at hq
      subst hq
      exact hget i r hk
    · exact enqueue_answers ha' (.info i) s b (.inl ⟨i, b, hlast, rfl⟩) (.inl ⟨i, s, b, hlast, rfl⟩)
  | lookupInfoOnce i s r =>
    simp only [step]
    split
    · rename_i r' hk
      refine ⟨ha', fun o ho => ?_⟩
      simp only [List.mem_singleton] at ho
      subst ho
      refine ⟨.inr (.inl ⟨i, r, hlast, (alike_ident _ _).mpr rfl⟩), rfl, fun hc => (by cases hc), fun q hq => ?_⟩
      simp only [respond, Option.some.injEq] at hq
      subst hq
      exact hget i r' hk
    · rename_i hk
      obtain ⟨h1, h2⟩ := finish_answers ha' r (fun i' l' s' e => .inr (.inr (.inl ⟨i, s, by rw [← e]; exact hlast⟩)))
        (fun i' e => .inr (.inl ⟨i, s, by rw [← e]; exact hlast⟩))
      refine ⟨h1, fun o ho => ?_⟩
      simp only [List.cons_append, List.mem_cons, List.mem_append, List.mem_singleton, List.not_mem_nil, or_false] at ho
      rcases ho with rfl | ho | rfl
      · exact .inr (.inl ⟨i, s, r, hlast, rfl⟩)
      · exact h2 o ho
      · refine ⟨.inr (.inl ⟨i, r, hlast, (alike_ident _ _).mpr rfl⟩), rfl, fun hc => ?_, fun q hq => ?_⟩
        · simp only [respond] at hc ⊢
          cases r with
          | failed j =>
            simp only [HonestEvent, Honest] at hh
            subst hh
            exact .inr (.inl ⟨j, s, hlast⟩)
          | fetched j l sch =>
            simp only [HonestEvent, Honest] at hh
            subst hh
            have := put_found hr.inv j l sch
            simp only [finish, LibCache.getInfo] at hc
            rw [hc] at this
            cases this
        · simp only [respond] at hq ⊢
          obtain ⟨hist', hr', _, hp'⟩ := h1.store
          obtain ⟨i', l', s', hm, ei, hl⟩ := found_put hr' hq
          exact ⟨i', l', s', hp' i' l' s' hm, (alike_ident _ _).mpr ei, hl⟩
  | lookupId co f p n s b =>
    simp only [step]
    split
    · rename_i info r hk
      refine ⟨ha', fun o ho => ?_⟩
      simp only [List.mem_singleton] at ho
      subst ho
      obtain ⟨e1, e2, q, rfl, hq⟩ := hid _ _ _ _ hk
      refine ⟨.inr (.inr (.inl ⟨co, f, p, n, b, hlast, e1, e2⟩)), rfl, fun hc => (by cases hc), fun q' hq' => ?_⟩
      simp only [respond, Option.some.injEq] at hq'
      subst hq'
      exact hget info q hq
    · exact enqueue_answers ha' (.id co f p n) s b (.inr ⟨co, f, p, n, b, hlast, rfl⟩) (.inr (.inr (.inl ⟨co, f, p, n, s, b, hlast, rfl⟩)))
  | lookupIdOnce co f p n s r =>
    simp only [step]
    split
    · rename_i info r' hk
      refine ⟨ha', fun o ho => ?_⟩
      simp only [List.mem_singleton] at ho
      subst ho
      obtain ⟨e1, e2, q, rfl, hq⟩ := hid _ _ _ _ hk
      refine ⟨.inr (.inr (.inr ⟨co, f, p, n, r, hlast, e1, e2⟩)), rfl, fun hc => (by cases hc), fun q' hq' => ?_⟩
      simp only [respond, Option.some.injEq] at hq'
      subst hq'
      exact hget info q hq
    · obtain ⟨h1, h2⟩ := finish_answers ha' r (fun i' l' s' e => .inr (.inr (.inr ⟨co, f, p, n, s, by rw [← e]; exact hlast⟩)))
        (fun i' e => .inr (.inr ⟨co, f, p, n, s, by rw [← e]; exact hlast⟩))
      refine ⟨h1, fun o ho => ?_⟩
      rcases List.mem_cons.mp ho with rfl | ho
      · exact .inr (.inr (.inr ⟨co, f, p, n, s, r, hlast, rfl⟩))
      · exact h2 o ho
  | lookupContent cid s =>
    refine ⟨ha', fun o ho => ?_⟩
    simp only [step, List.mem_singleton] at ho
    subst ho
    refine ⟨hlast, fun r hr' => ?_⟩
    unfold LibCache.getContent at hr'
    rw [hr.inv.content] at hr'
    obtain ⟨en, he, rfl⟩ := Option.map_eq_some_iff.mp hr'
    obtain ⟨e1, i, sch, hm, _⟩ := hr.inv.entry _ en he
    exact ⟨rfl, i, en.library, sch, hp _ _ _ hm, e1⟩
  | ended job r =>
    simp only [step]
    split
    · cases r with
      | none => exact ⟨⟨ha'.store, ha'.waiting⟩, fun o ho => by simp at ho⟩
      | some r =>
        exact finish_answers (c := { c with workers := c.workers.erase job }) ⟨ha'.store, ha'.waiting⟩ r
          (fun i' l' s' e => .inr (.inl ⟨job, by rw [← e]; exact hlast⟩)) (fun i' e => .inl ⟨job, by rw [← e]; exact hlast⟩)
    · exact ⟨ha', fun o ho => by simp at ho⟩
  | cleanup closed =>
    refine ⟨⟨ha'.store, fun k s hk => ?_⟩, fun o ho => by simp [step] at ho⟩
    apply ha'.waiting k s
    simp only [step] at hk
    rw [lookup_filter (by
      unfold Uniq at hu ⊢
      rw [List.pairwise_map]
      exact hu)] at hk
    have hl : ∀ p : List (Ident A X × List S), (p.map fun x => (x.1, x.2.filter fun t => t ∉ closed)).look k = (p.look k).map fun l => l.filter fun t => t ∉ closed := by
      intro p
      induction p with
      | nil => rfl
      | cons x p ih =>
        rw [List.map_cons, lookup_cons', ih, show x = (x.1, x.2) from rfl, lookup_cons']
        split <;> rfl
    rw [hl] at hk
    cases hp : c.pending.look k with
    | none => rw [hp] at hk; simp at hk
    | some l =>
      rw [hp] at hk
      simp only [Option.map_some, Option.bind_some, Option.getD_some] at hk ⊢
      split at hk
      · exact (List.mem_filter.mp hk).1
      · simp at hk

theorem run_answers {h : List (StoreOp A X)} {before es : List (Event A X S)} {c : State A X S} (hu : Uniq c.pending) (ha : Answers h before c) (hh : ∀ e ∈ es, HonestEvent e) :
    Answers h (before ++ es) (run c es).1 ∧ ∀ o ∈ (run c es).2, Fitting h (before ++ es) o := by
  induction es generalizing c before with
  | nil => exact ⟨by simpa [run] using ha, fun o ho => by simp [run] at ho⟩
  | cons e es ih =>
    obtain ⟨h1, h2⟩ := step_answers hu ha (hh e (by simp))
    obtain ⟨h3, h4⟩ := ih (step_uniq hu e) h1 fun e' he' => hh e' (by simp [he'])
    rw [show before ++ e :: es = before ++ [e] ++ es by simp]
    refine ⟨h3, fun o ho => ?_⟩
    simp only [run, List.mem_append] at ho
    rcases ho with ho | ho
    · have hm : ∀ x ∈ before ++ [e], x ∈ before ++ [e] ++ es := fun x hx => List.mem_append_left _ hx
      have := h2 o ho
      cases o with
      | answer s resp =>
        obtain ⟨a, b, d, f⟩ := this
        refine ⟨?_, b, fun hn => ?_, fun r hr => ?_⟩
        · rcases a with ⟨i, b, x, y⟩ | ⟨i, r, x, y⟩ | ⟨c, f, p, n, b, x, y⟩ | ⟨c, f, p, n, r, x, y⟩
          · exact .inl ⟨i, b, hm _ x, y⟩
          · exact .inr (.inl ⟨i, r, hm _ x, y⟩)
          · exact .inr (.inr (.inl ⟨c, f, p, n, b, hm _ x, y⟩))
          · exact .inr (.inr (.inr ⟨c, f, p, n, r, hm _ x, y⟩))
        · rcases d hn with ⟨j, x⟩ | ⟨j, t, x⟩ | ⟨c, f, p, n, t, x⟩
          · exact .inl ⟨j, hm _ x⟩
          · exact .inr (.inl ⟨j, t, hm _ x⟩)
          · exact .inr (.inr ⟨c, f, p, n, t, hm _ x⟩)
        · obtain ⟨i, l, sch, x, y⟩ := f r hr
          exact ⟨i, l, sch, x.mono hm, y⟩
      | content s cid r =>
        obtain ⟨a, b⟩ := this
        refine ⟨hm _ a, fun r' hr' => ?_⟩
        obtain ⟨x, i, l, sch, y, z⟩ := b r' hr'
        exact ⟨x, i, l, sch, y.mono hm, z⟩
      | fetch job =>
        rcases this with ⟨i, s, b, x, y⟩ | ⟨i, s, b, x, y⟩ | ⟨c, f, p, n, s, b, x, y⟩ | ⟨c, f, p, n, s, r, x, y⟩
        · exact .inl ⟨i, s, b, hm _ x, y⟩
        · exact .inr (.inl ⟨i, s, b, hm _ x, y⟩)
        · exact .inr (.inr (.inl ⟨c, f, p, n, s, b, hm _ x, y⟩))
        · exact .inr (.inr (.inr ⟨c, f, p, n, s, r, hm _ x, y⟩))
    · exact h4 o ho

/-! ## What was fetched is not fetched again -/

theorem step_keeps (c : State A X S) (e : Event A X S) (k : Ident A X) (h : (c.store.byInfo.look k).isSome) :
    ((step c e).1.store.byInfo.look k).isSome ∧ ∀ i, i.ident = k → Out.fetch (.info i) ∉ (step c e).2 := by
  have hfin : ∀ (c : State A X S) r, (c.store.byInfo.look k).isSome → ((finish c r).1.store.byInfo.look k).isSome ∧ ∀ job, Out.fetch job ∉ (finish c r).2 := by
    intro c r h
    cases r with
    | failed i => exact ⟨h, fun job hm => by simp [finish] at hm⟩
    | fetched i l sch => exact ⟨(put_grows c.store c.disk i l sch).1 k h, fun job hm => by simp [finish] at hm⟩
  have henq : ∀ job s b, (∀ i, i.ident = k → job ≠ .info i) → ((enqueue c job s b).1.store.byInfo.look k).isSome ∧ ∀ i, i.ident = k → Out.fetch (.info i) ∉ (enqueue c job s b).2 := by
    intro job s b hj
    unfold enqueue
    simp only
    split
    · split
      · exact ⟨h, fun i hi hm => hj i hi (by simp only [List.mem_singleton, Out.fetch.injEq] at hm; exact hm.symm)⟩
      · exact ⟨h, fun i _ hm => by simp at hm⟩
    · exact ⟨h, fun i _ hm => by simp at hm⟩
  cases e with
  | lookupInfo i s b =>
    simp only [step]
    split
    · exact ⟨h, fun i _ hm => by simp at hm⟩
    · rename_i hn
      refine henq _ s b fun j hj e => ?_
      cases e
      unfold LibCache.getInfo at hn
      rw [hj] at hn
      rw [hn] at h
      cases h
  | lookupInfoOnce i s r =>
    simp only [step]
    split
    · exact ⟨h, fun i _ hm => by simp at hm⟩
    · rename_i hn
      refine ⟨(hfin c r h).1, fun j hj hm => ?_⟩
      simp only [List.cons_append, List.mem_cons, Out.fetch.injEq, Job.info.injEq, List.mem_append, reduceCtorEq, List.not_mem_nil, or_false] at hm
      rcases hm with rfl | hm
      · unfold LibCache.getInfo at hn
        rw [hj] at hn
        rw [hn] at h
        cases h
      · exact (hfin c r h).2 _ hm
  | lookupId co f p n s b =>
    simp only [step]
    split
    · exact ⟨h, fun i _ hm => by simp at hm⟩
    · exact henq _ s b fun i _ e => by cases e
  | lookupIdOnce co f p n s r =>
    simp only [step]
    split
    · exact ⟨h, fun i _ hm => by simp at hm⟩
    · refine ⟨(hfin c r h).1, fun j hj hm => ?_⟩
      simp only [List.mem_cons, Out.fetch.injEq, reduceCtorEq, false_or] at hm
      exact (hfin c r h).2 _ hm
  | lookupContent cid s => exact ⟨h, fun i _ hm => by simp [step] at hm⟩
  | ended job r =>
    simp only [step]
    split
    · cases r with
      | none => exact ⟨h, fun i _ hm => by simp at hm⟩
      | some r => exact ⟨(hfin { c with workers := c.workers.erase job } r h).1, fun i _ => (hfin { c with workers := c.workers.erase job } r h).2 _⟩
    · exact ⟨h, fun i _ hm => by simp at hm⟩
  | cleanup closed => exact ⟨h, fun i _ hm => by simp [step] at hm⟩

theorem run_keeps {c : State A X S} (es : List (Event A X S)) {k : Ident A X} (h : (c.store.byInfo.look k).isSome) :
    ((run c es).1.store.byInfo.look k).isSome ∧ ∀ i, i.ident = k → Out.fetch (.info i) ∉ (run c es).2 := by
  induction es generalizing c with
  | nil => exact ⟨h, fun i _ hm => by simp [run] at hm⟩
  | cons e es ih =>
    obtain ⟨h1, h2⟩ := step_keeps c e k h
    obtain ⟨h3, h4⟩ := ih h1
    refine ⟨h3, fun i hi hm => ?_⟩
    simp only [run, List.mem_append] at hm
    rcases hm with hm | hm
    · exact h2 i hi hm
    · exact h4 i hi hm

/-- what was answered with a library is in the store -/
theorem step_stored {c : State A X S} (hs : ∃ h, Reach h c.store c.disk) (e : Event A X S) :
    (∃ h, Reach h (step c e).1.store (step c e).1.disk) ∧
    ∀ s resp, Out.answer s resp ∈ (step c e).2 → resp.library.isSome → ((step c e).1.store.byInfo.look resp.info.ident).isSome := by
  have hfin : ∀ (c : State A X S) r, (∃ h, Reach h c.store c.disk) → (∃ h, Reach h (finish c r).1.store (finish c r).1.disk) ∧
      ∀ s resp, Out.answer s resp ∈ (finish c r).2 → resp.library.isSome → ((finish c r).1.store.byInfo.look resp.info.ident).isSome := by
    rintro c r ⟨h, hr⟩
    cases r with
    | failed i =>
      refine ⟨⟨h, hr⟩, fun s resp hm hl => ?_⟩
      simp only [finish, List.mem_map, Out.answer.injEq] at hm
      obtain ⟨_, _, _, rfl⟩ := hm
      cases hl
    | fetched i l sch =>
      refine ⟨⟨_, Reach.put i l sch hr⟩, fun s resp hm hl => ?_⟩
      simp only [finish, List.mem_map, Out.answer.injEq] at hm
      obtain ⟨_, _, _, rfl⟩ := hm
      exact put_found hr.inv i l sch
  have henq : ∀ job s b, (∃ h, Reach h (enqueue c job s b).1.store (enqueue c job s b).1.disk) ∧ ∀ s' resp, Out.answer s' resp ∉ (enqueue c job s b).2 := by
    intro job s b
    unfold enqueue
    simp only
    split
    · split
      · exact ⟨hs, fun s' resp hm => by simp at hm⟩
      · exact ⟨hs, fun s' resp hm => by simp at hm⟩
    · exact ⟨hs, fun s' resp hm => by simp at hm⟩
  cases e with
  | lookupInfo i s b =>
    simp only [step]
    split
    · rename_i r hk
      refine ⟨hs, fun s' resp hm hl => ?_⟩
      simp only [List.mem_singleton, Out.answer.injEq] at hm
      obtain ⟨rfl, rfl⟩ := hm
      exact Option.isSome_iff_exists.mpr ⟨r, hk⟩
    · exact ⟨(henq _ s b).1, fun s' resp hm => absurd hm ((henq _ s b).2 s' resp)⟩
  | lookupInfoOnce i s r =>
    simp only [step]
    split
    · rename_i r hk
      refine ⟨hs, fun s' resp hm hl => ?_⟩
      simp only [List.mem_singleton, Out.answer.injEq] at hm
      obtain ⟨rfl, rfl⟩ := hm
      exact Option.isSome_iff_exists.mpr ⟨r, hk⟩
    · refine ⟨(hfin c r hs).1, fun s' resp hm hl => ?_⟩
      simp only [List.cons_append, List.mem_cons, List.mem_append, reduceCtorEq, false_or, List.not_mem_nil, or_false, Out.answer.injEq] at hm
      rcases hm with hm | ⟨rfl, rfl⟩
      · exact (hfin c r hs).2 s' resp hm hl
      · exact hl
  | lookupId co f p n s b =>
    simp only [step]
    split
    · rename_i info r hk
      refine ⟨hs, fun s' resp hm hl => ?_⟩
      simp only [List.mem_singleton, Out.answer.injEq] at hm
      obtain ⟨rfl, rfl⟩ := hm
      unfold LibCache.getId at hk
      obtain ⟨i, _, h2⟩ := Option.map_eq_some_iff.mp hk
      simp only [Prod.mk.injEq] at h2
      obtain ⟨rfl, rfl⟩ := h2
      exact hl
    · exact ⟨(henq _ s b).1, fun s' resp hm => absurd hm ((henq _ s b).2 s' resp)⟩
  | lookupIdOnce co f p n s r =>
    simp only [step]
    split
    · rename_i info r hk
      refine ⟨hs, fun s' resp hm hl => ?_⟩
      simp only [List.mem_singleton, Out.answer.injEq] at hm
      obtain ⟨rfl, rfl⟩ := hm
      unfold LibCache.getId at hk
      obtain ⟨i, _, h2⟩ := Option.map_eq_some_iff.mp hk
      simp only [Prod.mk.injEq] at h2
      obtain ⟨rfl, rfl⟩ := h2
      exact hl
    · refine ⟨(hfin c r hs).1, fun s' resp hm hl => ?_⟩
      simp only [List.mem_cons, reduceCtorEq, false_or] at hm
      exact (hfin c r hs).2 s' resp hm hl
  | lookupContent cid s => exact ⟨hs, fun s' resp hm => by simp [step] at hm⟩
  | ended job r =>
    simp only [step]
    split
    · cases r with
      | none => exact ⟨hs, fun s' resp hm => by simp at hm⟩
      | some r => exact hfin { c with workers := c.workers.erase job } r hs
    · exact ⟨hs, fun s' resp hm => by simp at hm⟩
  | cleanup closed => exact ⟨hs, fun s' resp hm => by simp [step] at hm⟩

theorem run_stored {c : State A X S} (hs : ∃ h, Reach h c.store c.disk) (es : List (Event A X S)) :
    ∀ s resp, Out.answer s resp ∈ (run c es).2 → resp.library.isSome → ((run c es).1.store.byInfo.look resp.info.ident).isSome := by
  induction es generalizing c with
  | nil => intro s resp hm; simp [run] at hm
  | cons e es ih =>
    intro s resp hm hl
    obtain ⟨h1, h2⟩ := step_stored hs e
    simp only [run, List.mem_append] at hm
    rcases hm with hm | hm
    · exact (run_keeps es (h2 s resp hm hl)).1
    · exact ih h1 s resp hm hl

theorem step_starts {c : State A X S} {e : Event A X S} (hq : Queued e) {job : Job A X} (h : Out.fetch job ∈ (step c e).2) : (step c e).1.workers = c.workers ++ [job] := by
  have henq : ∀ job' s b, Out.fetch job ∈ (enqueue c job' s b).2 → (enqueue c job' s b).1.workers = c.workers ++ [job] := by
    intro job' s b
    unfold enqueue
    simp only
    split
    · split
      · intro hm
        simp only [List.mem_singleton, Out.fetch.injEq] at hm
        subst hm; rfl
      · intro hm; simp at hm
    · intro hm; simp at hm
  cases e with
  | lookupInfo i s b =>
    simp only [step] at h ⊢
    split at h
    · simp at h
    · exact henq _ _ _ h
  | lookupInfoOnce i s r => exact absurd hq (by simp [Queued])
  | lookupId co f p n s b =>
    simp only [step] at h ⊢
    split at h
    · simp at h
    · exact henq _ _ _ h
  | lookupIdOnce co f p n s r => exact absurd hq (by simp [Queued])
  | lookupContent cid s => simp [step] at h
  | ended j r =>
    simp only [step] at h
    split at h
    · cases r with
      | none => simp at h
      | some r => cases r <;> simp [finish] at h
    · simp at h
  | cleanup closed => simp [step] at h

end Verif.YangPush.Cache
