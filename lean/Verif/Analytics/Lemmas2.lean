import Verif.Analytics.Lemmas
import Verif.Analytics.Spec
/-! # Runs of the adaptors, and the windowing invariant -/
namespace Verif.Analytics
variable {κ ι σ ο : Type} [DecidableEq κ]

def outsOf (late : List ι) (res : List ((Nat × Nat) × ο)) : List (Out ι ο) :=
  late.map .late ++ res.map (fun w => .win w.1 w.2)

/-- everything the adaptor will yield, as one list -/
def allOuts (A : Agg κ ι σ ο) (ordOf : HMap κ (BMap σ) → List (κ × BMap σ)) :
    WinAgg κ σ → List ι → Option (List (Out ι ο))
  | st, [] => do
    let (res, _) ← flushAll A (ordOf st.active) st
    return outsOf [] res
  | st, x :: rest => do
    let (res, late, st') ← processItem A st x
    let outs ← allOuts A ordOf st' rest
    return outsOf late res ++ outs

variable {A : Agg κ ι σ ο} {ordOf : HMap κ (BMap σ) → List (κ × BMap σ)}

theorem ord_empty (ho : IsOrder ordOf) : ordOf HMap.empty = [] := by
  have h := ho HMap.empty [] ⟨by simp, by simp⟩
  cases hl : ordOf HMap.empty with
  | nil => rfl
  | cons p l =>
    have := (h.mem p.1 p.2).mp (by rw [hl]; simp)
    simp at this

theorem flush_empty (ho : IsOrder ordOf) (st : WinAgg κ σ) (h : st.active = HMap.empty) :
    flushAll A (ordOf st.active) st = some ([], { st with active := HMap.empty, current := HMap.empty }) := by
  rw [h, ord_empty ho]; simp [flushAll]

theorem flushAll_active {st st' : WinAgg κ σ} {ord res} (h : flushAll A ord st = some (res, st')) :
    st'.active = HMap.empty := by
  simp only [flushAll, Option.bind_eq_bind, Option.bind_eq_some_iff, Option.pure_def, Option.some.injEq,
    Prod.mk.injEq] at h
  obtain ⟨_, _, _, rfl⟩ := h
  rfl

theorem getNext_none {a a' : Adaptor κ ι σ ο} (h : a.getNext = (none, a')) :
    a.lateBuffer = [] ∧ a.buffer = [] := by
  obtain ⟨s, g, b, l⟩ := a
  cases l <;> cases b <;> simp_all [Adaptor.getNext]

theorem getNext_some {a a' : Adaptor κ ι σ ο} {o} (h : a.getNext = (some o, a')) :
    outsOf a.lateBuffer a.buffer = o :: outsOf a'.lateBuffer a'.buffer ∧ a'.source = a.source ∧
      a'.agg = a.agg := by
  obtain ⟨s, g, b, l⟩ := a
  cases l <;> cases b <;> simp_all [Adaptor.getNext, outsOf] <;>
    (obtain ⟨rfl, rfl⟩ := h; simp)

theorem outsOf_nil : outsOf ([] : List ι) ([] : List ((Nat × Nat) × ο)) = [] := rfl

theorem nextLoop_some (ho : IsOrder ordOf) : ∀ {items : List ι} {st : WinAgg κ σ} {o a'},
    nextLoop A ordOf items st = some (some o, a') →
    ∀ {rest}, allOuts A ordOf a'.agg a'.source = some rest →
    allOuts A ordOf st items = some (o :: (outsOf a'.lateBuffer a'.buffer ++ rest))
  | [], st, o, a', h, rest, hr => by
    simp only [nextLoop, Option.bind_eq_bind, Option.bind_eq_some_iff, Option.pure_def, Option.some.injEq] at h
    obtain ⟨⟨res, st'⟩, hf, hg⟩ := h
    obtain ⟨h1, h2, h3⟩ := getNext_some hg
    simp only at h1 h2 h3
    rw [h2, h3] at hr
    simp only [allOuts, flush_empty ho _ (flushAll_active hf), Option.bind_eq_bind, Option.bind_some,
      Option.pure_def, Option.some.injEq] at hr
    subst hr
    simp only [allOuts, hf, Option.bind_eq_bind, Option.bind_some, Option.pure_def, h1, outsOf_nil,
      List.append_nil]
  | x :: items, st, o, a', h, rest, hr => by
    simp only [nextLoop, Option.bind_eq_bind, Option.bind_eq_some_iff] at h
    obtain ⟨⟨res, late, st'⟩, hp, hg⟩ := h
    simp only at hg
    split at hg
    · rename_i o' a'' hn
      simp only [Option.pure_def, Option.some.injEq, Prod.mk.injEq] at hg
      obtain ⟨rfl, rfl⟩ := hg
      obtain ⟨h1, h2, h3⟩ := getNext_some hn
      simp only at h1 h2 h3
      rw [h2, h3] at hr
      simp only [allOuts, hp, hr, Option.bind_eq_bind, Option.bind_some, Option.pure_def, h1, List.cons_append]
    · rename_i a'' hn
      obtain ⟨rfl, rfl⟩ := getNext_none hn
      have := nextLoop_some ho hg hr
      simp only [allOuts, hp, this, Option.bind_eq_bind, Option.bind_some, Option.pure_def, outsOf_nil,
        List.nil_append]

theorem nextLoop_none : ∀ {items : List ι} {st : WinAgg κ σ} {a'},
    nextLoop A ordOf items st = some (none, a') → allOuts A ordOf st items = some []
  | [], st, a', h => by
    simp only [nextLoop, Option.bind_eq_bind, Option.bind_eq_some_iff, Option.pure_def, Option.some.injEq] at h
    obtain ⟨⟨res, st'⟩, hf, hg⟩ := h
    obtain ⟨-, rfl⟩ := getNext_none hg
    simp only [allOuts, hf, Option.bind_eq_bind, Option.bind_some, Option.pure_def, outsOf_nil]
  | x :: items, st, a', h => by
    simp only [nextLoop, Option.bind_eq_bind, Option.bind_eq_some_iff] at h
    obtain ⟨⟨res, late, st'⟩, hp, hg⟩ := h
    simp only at hg
    split at hg
    · simp at hg
    · rename_i a'' hn
      obtain ⟨rfl, rfl⟩ := getNext_none hn
      have := nextLoop_none hg
      simp only [allOuts, hp, this, Option.bind_eq_bind, Option.bind_some, Option.pure_def, outsOf_nil,
        List.nil_append]

theorem collects_allOuts (ho : IsOrder ordOf) {a : Adaptor κ ι σ ο} {outs} (h : Collects A ordOf a outs) :
    ∃ rest, allOuts A ordOf a.agg a.source = some rest ∧ outs = outsOf a.lateBuffer a.buffer ++ rest := by
  induction h with
  | @done a a' h =>
    unfold Adaptor.next at h
    split at h
    · simp at h
    · rename_i hn
      obtain ⟨h1, h2⟩ := getNext_none hn
      exact ⟨[], nextLoop_none h, by rw [h1, h2]; rfl⟩
  | @step a a' o outs h hc ih =>
    obtain ⟨rest, hr, rfl⟩ := ih
    unfold Adaptor.next at h
    split at h
    · rename_i o' a'' hn
      simp only [Option.some.injEq, Prod.mk.injEq] at h
      obtain ⟨rfl, rfl⟩ := h
      obtain ⟨h1, h2, h3⟩ := getNext_some hn
      rw [h2, h3] at hr
      exact ⟨rest, hr, by rw [h1]; rfl⟩
    · rename_i hn
      obtain ⟨h1, h2⟩ := getNext_none hn
      exact ⟨_, nextLoop_some ho h hr, by rw [h1, h2]; rfl⟩

/-- draining the buffers -/
theorem collects_buffers {src : List ι} {st : WinAgg κ σ} {rest}
    (h : Collects A ordOf ⟨src, st, [], []⟩ rest) : ∀ (late : List ι) (buf : List ((Nat × Nat) × ο)),
    Collects A ordOf ⟨src, st, buf, late⟩ (outsOf late buf ++ rest)
  | [], [] => h
  | [], w :: buf => .step (a' := ⟨src, st, buf, []⟩) rfl (collects_buffers h [] buf)
  | x :: late, buf => .step (a' := ⟨src, st, buf, late⟩) rfl (collects_buffers h late buf)

/-- running depends only on what `next` answers -/
theorem collects_congr {a b : Adaptor κ ι σ ο} {outs} (h : a.next A ordOf = b.next A ordOf)
    (hc : Collects A ordOf b outs) : Collects A ordOf a outs := by
  cases hc with
  | done h' => exact .done (h.trans h')
  | step h' hc' => exact .step (h.trans h') hc'

theorem allOuts_collects (ho : IsOrder ordOf) : ∀ {items : List ι} {st : WinAgg κ σ} {rest},
    allOuts A ordOf st items = some rest → Collects A ordOf ⟨items, st, [], []⟩ rest
  | [], st, rest, h => by
    simp only [allOuts, Option.bind_eq_bind, Option.bind_eq_some_iff, Option.pure_def, Option.some.injEq] at h
    obtain ⟨⟨res, st'⟩, hf, rfl⟩ := h
    have hend : Collects A ordOf (⟨[], st', [], []⟩ : Adaptor κ ι σ ο) [] := by
      refine .done (a' := ⟨[], { st' with active := HMap.empty, current := HMap.empty }, [], []⟩) ?_
      simp [Adaptor.next, Adaptor.getNext, nextLoop, flush_empty ho _ (flushAll_active hf)]
    cases res with
    | nil =>
      refine .done (a' := ⟨[], st', [], []⟩) ?_
      simp [Adaptor.next, Adaptor.getNext, nextLoop, hf]
    | cons w res =>
      have := collects_buffers hend [] res
      rw [List.append_nil] at this
      refine .step (a' := ⟨[], st', res, []⟩) ?_ this
      simp [Adaptor.next, Adaptor.getNext, nextLoop, hf]
  | x :: items, st, rest, h => by
    simp only [allOuts, Option.bind_eq_bind, Option.bind_eq_some_iff, Option.pure_def, Option.some.injEq] at h
    obtain ⟨⟨res, late, st'⟩, hp, outs, ho', rfl⟩ := h
    have ih := allOuts_collects ho ho'
    simp only
    cases late with
    | cons y late =>
      refine .step (a' := ⟨items, st', res, late⟩) ?_ (collects_buffers ih late res)
      simp [Adaptor.next, Adaptor.getNext, nextLoop, hp]
    | nil =>
      cases res with
      | cons w res =>
        refine .step (a' := ⟨items, st', res, []⟩) ?_ (collects_buffers ih [] res)
        simp [Adaptor.next, Adaptor.getNext, nextLoop, hp]
      | nil =>
        refine collects_congr ?_ ih
        simp [Adaptor.next, Adaptor.getNext, nextLoop, hp]

/-! ### the stream adaptor -/

theorem pollLoop_ready (ho : IsOrder ordOf) : ∀ {src : Polls ι} {st : WinAgg κ σ} {o src' a'},
    pollLoop A ordOf src st = some (.ready (some o), src', a') →
    ∀ {rest}, allOuts A ordOf a'.agg (src'.filterMap id) = some rest →
    allOuts A ordOf st (src.filterMap id) = some (o :: (outsOf a'.lateBuffer a'.buffer ++ rest))
  | [], st, o, src', a', h, rest, hr => by
    simp only [pollLoop, Option.bind_eq_bind, Option.bind_eq_some_iff, Option.pure_def, Option.some.injEq,
      Prod.mk.injEq] at h
    obtain ⟨⟨res, st'⟩, hf, hg1, rfl, hg3⟩ := h
    have hg : Adaptor.getNext (⟨[], st', res, []⟩ : Adaptor κ ι σ ο) = (some o, a') :=
      Prod.ext (by injection hg1) hg3
    obtain ⟨h1, h2, h3⟩ := getNext_some hg
    simp only at h1 h2 h3
    rw [h3] at hr
    simp only [List.filterMap_nil, allOuts, flush_empty ho _ (flushAll_active hf), Option.bind_eq_bind,
      Option.bind_some, Option.pure_def, Option.some.injEq] at hr
    subst hr
    simp only [List.filterMap_nil, allOuts, hf, Option.bind_eq_bind, Option.bind_some, Option.pure_def, h1,
      outsOf_nil, List.append_nil]
  | none :: src, st, o, src', a', h, rest, hr => by simp [pollLoop] at h
  | some x :: src, st, o, src', a', h, rest, hr => by
    simp only [pollLoop, Option.bind_eq_bind, Option.bind_eq_some_iff] at h
    obtain ⟨⟨res, late, st'⟩, hp, hg⟩ := h
    simp only at hg
    split at hg
    · rename_i o' a'' hn
      simp only [Option.pure_def, Option.some.injEq, Prod.mk.injEq, Poll.ready.injEq] at hg
      obtain ⟨rfl, rfl, rfl⟩ := hg
      obtain ⟨h1, h2, h3⟩ := getNext_some hn
      simp only at h1 h2 h3
      rw [h3] at hr
      simp only [List.filterMap_cons, id, allOuts, hp, hr, Option.bind_eq_bind, Option.bind_some,
        Option.pure_def, h1, List.cons_append]
    · rename_i a'' hn
      obtain ⟨rfl, rfl⟩ := getNext_none hn
      have := pollLoop_ready ho hg hr
      simp only [List.filterMap_cons, id, allOuts, hp, this, Option.bind_eq_bind, Option.bind_some,
        Option.pure_def, outsOf_nil, List.nil_append]

theorem pollLoop_pending (ho : IsOrder ordOf) : ∀ {src : Polls ι} {st : WinAgg κ σ} {src' a'},
    pollLoop A ordOf src st = some (.pending, src', a') →
    ∀ {rest}, allOuts A ordOf a'.agg (src'.filterMap id) = some rest →
    a'.lateBuffer = [] ∧ a'.buffer = [] ∧ allOuts A ordOf st (src.filterMap id) = some rest
  | [], st, src', a', h, rest, hr => by
    simp only [pollLoop, Option.bind_eq_bind, Option.bind_eq_some_iff, Option.pure_def, Option.some.injEq,
      Prod.mk.injEq] at h
    obtain ⟨⟨res, st'⟩, hf, hg1, rfl, hg3⟩ := h
    cases hg1
  | none :: src, st, src', a', h, rest, hr => by
    simp only [pollLoop, Option.some.injEq, Prod.mk.injEq, true_and] at h
    obtain ⟨rfl, rfl⟩ := h
    exact ⟨rfl, rfl, by simpa using hr⟩
  | some x :: src, st, src', a', h, rest, hr => by
    simp only [pollLoop, Option.bind_eq_bind, Option.bind_eq_some_iff] at h
    obtain ⟨⟨res, late, st'⟩, hp, hg⟩ := h
    simp only at hg
    split at hg
    · simp at hg
    · rename_i a'' hn
      obtain ⟨rfl, rfl⟩ := getNext_none hn
      obtain ⟨h1, h2, this⟩ := pollLoop_pending ho hg hr
      refine ⟨h1, h2, ?_⟩
      simp only [List.filterMap_cons, id, allOuts, hp, this, Option.bind_eq_bind, Option.bind_some,
        Option.pure_def, outsOf_nil, List.nil_append]

theorem pollLoop_end : ∀ {src : Polls ι} {st : WinAgg κ σ} {src' a'},
    pollLoop A ordOf src st = some (.ready none, src', a') →
    allOuts A ordOf st (src.filterMap id) = some []
  | [], st, src', a', h => by
    simp only [pollLoop, Option.bind_eq_bind, Option.bind_eq_some_iff, Option.pure_def, Option.some.injEq,
      Prod.mk.injEq] at h
    obtain ⟨⟨res, st'⟩, hf, hg1, -, hg3⟩ := h
    have hg : Adaptor.getNext (⟨[], st', res, []⟩ : Adaptor κ ι σ ο) = (none, a') :=
      Prod.ext (by injection hg1) hg3
    obtain ⟨-, rfl⟩ := getNext_none hg
    simp only [List.filterMap_nil, allOuts, hf, Option.bind_eq_bind, Option.bind_some, Option.pure_def,
      outsOf_nil]
  | none :: src, st, src', a', h => by simp [pollLoop] at h
  | some x :: src, st, src', a', h => by
    simp only [pollLoop, Option.bind_eq_bind, Option.bind_eq_some_iff] at h
    obtain ⟨⟨res, late, st'⟩, hp, hg⟩ := h
    simp only at hg
    split at hg
    · simp at hg
    · rename_i a'' hn
      obtain ⟨rfl, rfl⟩ := getNext_none hn
      have := pollLoop_end hg
      simp only [List.filterMap_cons, id, allOuts, hp, this, Option.bind_eq_bind, Option.bind_some,
        Option.pure_def, outsOf_nil, List.nil_append]

theorem streamCollects_allOuts (ho : IsOrder ordOf) {src : Polls ι} {a : Adaptor κ ι σ ο} {outs}
    (h : StreamCollects A ordOf src a outs) :
    ∃ rest, allOuts A ordOf a.agg (src.filterMap id) = some rest ∧
      outs = outsOf a.lateBuffer a.buffer ++ rest := by
  induction h with
  | @done src a src' a' h =>
    unfold pollNext at h
    split at h
    · simp at h
    · rename_i hn
      obtain ⟨h1, h2⟩ := getNext_none hn
      exact ⟨[], pollLoop_end h, by rw [h1, h2]; rfl⟩
  | @pend src a src' a' outs h hc ih =>
    obtain ⟨rest, hr, rfl⟩ := ih
    unfold pollNext at h
    split at h
    · simp at h
    · rename_i hn
      obtain ⟨h1, h2⟩ := getNext_none hn
      obtain ⟨h3, h4, h5⟩ := pollLoop_pending ho h hr
      exact ⟨rest, h5, by rw [h1, h2, h3, h4]⟩
  | @step src a src' a' o outs h hc ih =>
    obtain ⟨rest, hr, rfl⟩ := ih
    unfold pollNext at h
    split at h
    · rename_i o' a'' hn
      simp only [Option.some.injEq, Prod.mk.injEq, Poll.ready.injEq] at h
      obtain ⟨rfl, rfl, rfl⟩ := h
      obtain ⟨h1, h2, h3⟩ := getNext_some hn
      rw [h3] at hr
      exact ⟨rest, hr, by rw [h1]; rfl⟩
    · rename_i hn
      obtain ⟨h1, h2⟩ := getNext_none hn
      exact ⟨_, pollLoop_ready ho h hr, by rw [h1, h2]; rfl⟩

end Verif.Analytics
