import Verif.Analytics.Lemmas4
/-! # The stream adaptor: runs exist -/
namespace Verif.Analytics
variable {κ ι σ ο : Type} [DecidableEq κ] {A : Agg κ ι σ ο} {ordOf : HMap κ (BMap σ) → List (κ × BMap σ)}

theorem streamCollects_buffers {src : Polls ι} {st : WinAgg κ σ} {rest}
    (h : StreamCollects A ordOf src ⟨[], st, [], []⟩ rest) : ∀ (late : List ι) (buf : List ((Nat × Nat) × ο)),
    StreamCollects A ordOf src ⟨[], st, buf, late⟩ (outsOf late buf ++ rest)
  | [], [] => h
  | [], w :: buf => .step (src' := src) (a' := ⟨[], st, buf, []⟩) rfl (streamCollects_buffers h [] buf)
  | x :: late, buf => .step (src' := src) (a' := ⟨[], st, buf, late⟩) rfl (streamCollects_buffers h late buf)

theorem streamCollects_congr {src src' : Polls ι} {a b : Adaptor κ ι σ ο} {outs} (h : pollNext A ordOf src a = pollNext A ordOf src' b)
    (hc : StreamCollects A ordOf src' b outs) : StreamCollects A ordOf src a outs := by
  cases hc with
  | done h' => exact .done (h.trans h')
  | pend h' hc' => exact .pend (h.trans h') hc'
  | step h' hc' => exact .step (h.trans h') hc'

theorem allOuts_streamCollects (ho : IsOrder ordOf) : ∀ {src : Polls ι} {st : WinAgg κ σ} {rest},
    allOuts A ordOf st (src.filterMap id) = some rest → StreamCollects A ordOf src ⟨[], st, [], []⟩ rest
  | [], st, rest, h => by
    simp only [List.filterMap_nil, allOuts, Option.bind_eq_bind, Option.bind_eq_some_iff, Option.pure_def, Option.some.injEq] at h
    obtain ⟨⟨res, st'⟩, hf, rfl⟩ := h
    have hend : StreamCollects A ordOf [] (⟨[], st', [], []⟩ : Adaptor κ ι σ ο) [] := by
      refine .done (src' := []) (a' := ⟨[], { st' with active := HMap.empty, current := HMap.empty }, [], []⟩) ?_
      simp [pollNext, Adaptor.getNext, pollLoop, flush_empty ho _ (flushAll_active hf)]
    cases res with
    | nil =>
      refine .done (src' := []) (a' := ⟨[], st', [], []⟩) ?_
      simp [pollNext, Adaptor.getNext, pollLoop, hf]
    | cons w res =>
      have := streamCollects_buffers hend [] res
      rw [List.append_nil] at this
      refine .step (src' := []) (a' := ⟨[], st', res, []⟩) ?_ this
      simp [pollNext, Adaptor.getNext, pollLoop, hf]
  | none :: src, st, rest, h => by
    refine .pend (src' := src) (a' := ⟨[], st, [], []⟩) ?_ (allOuts_streamCollects ho (by simpa using h))
    simp [pollNext, Adaptor.getNext, pollLoop]
  | some x :: src, st, rest, h => by
    simp only [List.filterMap_cons, id, allOuts, Option.bind_eq_bind, Option.bind_eq_some_iff, Option.pure_def, Option.some.injEq] at h
    obtain ⟨⟨res, late, st'⟩, hp, outs, ho', rfl⟩ := h
    have ih := allOuts_streamCollects ho ho'
    simp only
    cases late with
    | cons y late =>
      refine .step (src' := src) (a' := ⟨[], st', res, late⟩) ?_ (streamCollects_buffers ih late res)
      simp [pollNext, Adaptor.getNext, pollLoop, hp]
    | nil =>
      cases res with
      | cons w res =>
        refine .step (src' := src) (a' := ⟨[], st', res, []⟩) ?_ (streamCollects_buffers ih [] res)
        simp [pollNext, Adaptor.getNext, pollLoop, hp]
      | nil =>
        refine streamCollects_congr ?_ ih
        simp [pollNext, Adaptor.getNext, pollLoop, hp]

/-- a run exists if the times stay inside the range of chrono -/
theorem streamCollects_exists (ho : IsOrder ordOf) (dur lat : Nat) (src : Polls ι)
    (h : ∀ x ∈ src.filterMap id, lat + dur + minuteNs ≤ A.ts x ∧ A.ts x + dur ≤ maxTime) :
    ∃ outs, StreamCollects A ordOf src (Adaptor.new [] dur lat) outs := by
  obtain ⟨outs, ho'⟩ := allOuts_some ho (Inv.new A dur lat) (items := src.filterMap id) (by simpa using h)
  exact ⟨outs, allOuts_streamCollects ho ho'⟩

end Verif.Analytics
