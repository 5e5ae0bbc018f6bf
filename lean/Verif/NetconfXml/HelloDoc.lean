import Verif.NetconfXml.RoundTripReply
/-!
# A hello of another program
-/
namespace Verif.Xml
open Verif.Collector (Text trim parseNat)

theorem reads_capabilityText {D : Type} (dates : Dates D) {st : Stack} (h : InNs st nsNetconf) {t : Text} {c : Cap D} (hc : Cap.read dates t = some c) :
    Reads (readCapability dates) st (elem "capability" (written t)) c := by
  intro R ps hR
  rw [elem_append]
  refine (bind_ok (open_elem h (fine_flat (flat_written _) _ (next_fine (next_close _ _ _ _))))).trans ?_
  refine (bind_ok (tagString_flat (flat_written _))).trans ?_
  rw [plain_written, hc]
  refine (bind_ok (lift_some _ _ _)).trans ?_
  exact (bind_ok (close_here (next_fine hR))).trans rfl

/-- the loop of `collect_xml_sequence` over elements -/
theorem collectF_maps {α β : Type} {p : P β} {st : Stack} {q : QName} {sc : Scope} {f : α → List Raw} {g : α → β} {R : List Raw}
    (hend : ∀ ps, ∃ e, (e = .recoverable ∨ ∃ x, e = .wrongToken x) ∧ p ⟨annotate ((q, sc) :: st) (.close q :: R), ps⟩ = (.err e, ⟨annotate ((q, sc) :: st) (.close q :: R), ps⟩)) :
    ∀ (l : List α) (n : Nat) (ps : List Bool), l.length < n → (∀ a ∈ l, ∀ R, Next (annotate ((q, sc) :: st) (f a ++ R))) →
      (∀ pre a l', l = pre ++ a :: l' → ∀ ps, p ⟨annotate ((q, sc) :: st) (f a ++ (l'.flatMap f ++ .close q :: R)), ps⟩ = (.ok (g a), ⟨annotate ((q, sc) :: st) (l'.flatMap f ++ .close q :: R), ps⟩)) →
      collectF p n ⟨annotate ((q, sc) :: st) (l.flatMap f ++ .close q :: R), ps⟩ = (.ok (l.map g), ⟨annotate ((q, sc) :: st) (.close q :: R), ps⟩) := by
  intro l
  induction l with
  | nil =>
    intro n ps hn _ _
    obtain ⟨n, rfl⟩ : ∃ m, n = m + 1 := ⟨n - 1, by simp at hn; omega⟩
    simp only [List.flatMap_nil, List.nil_append]
    refine (bind_ok (skipText_next (next_close _ _ _ _))).trans ?_
    obtain ⟨e, he, hp⟩ := hend ps
    simp only [hp]
    rw [annotate_close]
    rcases he with rfl | ⟨x, rfl⟩ <;> rfl
  | cons a l ih =>
    intro n ps hn hx hp
    obtain ⟨n, rfl⟩ : ∃ m, n = m + 1 := ⟨n - 1, by simp at hn; omega⟩
    simp only [List.flatMap_cons, List.append_assoc]
    refine (bind_ok (skipText_next (hx a List.mem_cons_self _))).trans ?_
    simp only [hp [] a l rfl ps]
    have := ih n ps (by simp at hn; omega) (fun b hb => hx b (List.mem_cons_of_mem _ hb)) (fun pre b l' hl => hp (a :: pre) b l' (by rw [hl]; rfl))
    exact (bind_ok this).trans rfl

/-- a hello with certain texts for its capabilities; what they are read as is beside them -/
def helloDoc {D : Type} (h : List (Text × Cap D)) (id : Option UInt32) : List Raw :=
  .start ⟨none, "hello"⟩ [⟨⟨none, "xmlns"⟩, some nsNetconf⟩] :: (elem "capabilities" (h.flatMap fun c => elem "capability" (written c.1)) ++
    (optRaws (fun n : UInt32 => elem "session-id" (written (decimal n.toNat))) id ++ [.close ⟨none, "hello"⟩]))

theorem read_helloDoc {D Y : Type} (dates : Dates D) (lib : Library Y) {h : List (Text × Cap D)} (id : Option UInt32) (hh : ∀ c ∈ h, Cap.read dates c.1 = some c.2) :
    run (readMessage dates lib) (annotate [] (helloDoc h id)) = .ok (.hello ⟨id, h.map (·.2)⟩) := by
  unfold helloDoc
  rw [readMessage_start]
  simp only [if_true]
  suffices H : ∃ s, readHello dates ⟨annotate [] (helloDoc h id), []⟩ = (.ok ⟨id, h.map (·.2)⟩, s) by
    obtain ⟨s, hs⟩ := H
    unfold helloDoc at hs
    rw [map_ok hs]
  unfold helloDoc
  refine ⟨⟨[], []⟩, ?_⟩
  refine (bind_ok (a := ()) (s' := ⟨annotate [] (helloDoc h id), []⟩) (by unfold helloDoc; rw [annotate_start]; rfl)).trans ?_
  unfold helloDoc
  refine (bind_ok (skipText_next (next_start _ _ _ _))).trans ?_
  refine (bind_ok (open_start (by rfl) (next_fine (next_elem _ _ _ _)))).trans ?_
  have hns : InNs [(⟨none, "hello"⟩, declared [⟨⟨none, "xmlns"⟩, some nsNetconf⟩] ++ Stack.scope [])] nsNetconf := rfl
  generalize declared [⟨⟨none, "xmlns"⟩, some nsNetconf⟩] ++ Stack.scope [] = sc at hns ⊢
  refine (bind_ok (skipText_next (next_elem _ _ _ _))).trans ?_
  rw [elem_append]
  have hb : Bal (h.flatMap fun c : Text × Cap D => elem "capability" (written c.1)) := bal_flatMap _ fun c _ => bal_elem (bal_flat (flat_written _))
  refine (bind_ok (open_elem hns (fine_bal hb))).trans ?_
  have n1 := next_opt (f := fun n : UInt32 => elem "session-id" (written (decimal n.toNat))) (st := [(⟨none, "hello"⟩, sc)]) (fun _ _ => next_elem _ _ _ _) id (next_close [] ⟨none, "hello"⟩ sc [])
  have hcol : collect (readCapability dates) ⟨annotate ((⟨none, "capabilities"⟩, sc) :: [(⟨none, "hello"⟩, sc)]) ((h.flatMap fun c : Text × Cap D => elem "capability" (written c.1)) ++
      .close ⟨none, "capabilities"⟩ :: (optRaws (fun n : UInt32 => elem "session-id" (written (decimal n.toNat))) id ++ [.close ⟨none, "hello"⟩])), [true, true]⟩ =
      (.ok (h.map (·.2)), ⟨annotate ((⟨none, "capabilities"⟩, sc) :: [(⟨none, "hello"⟩, sc)]) (.close ⟨none, "capabilities"⟩ :: (optRaws (fun n : UInt32 => elem "session-id" (written (decimal n.toNat))) id ++ [.close ⟨none, "hello"⟩])), [true, true]⟩) := by
    unfold collect
    simp only [hasChild, if_true]
    apply collectF_maps (g := fun c : Text × Cap D => c.2)
    · intro ps
      refine ⟨.wrongToken "<capability>", .inr ⟨_, rfl⟩, ?_⟩
      exact bind_err (openTag_wrong (by rw [isTagL_close]; simp))
    · have := bal_length hb ((⟨none, "capabilities"⟩, sc) :: [(⟨none, "hello"⟩, sc)]) (.close ⟨none, "capabilities"⟩ :: (optRaws (fun n : UInt32 => elem "session-id" (written (decimal n.toNat))) id ++ [.close ⟨none, "hello"⟩]))
      have h2 := flatMap_length (f := fun c : Text × Cap D => elem "capability" (written c.1)) h (fun _ _ => by simp [elem])
      exact Nat.lt_succ_of_le (Nat.le_trans h2 this)
    · intro a _ R; exact next_elem _ _ _ _
    · intro pre a l' hl ps
      refine reads_capabilityText dates (inNs_push hns _) (hh a (by rw [hl]; simp)) _ _ ?_
      cases l' with
      | nil => exact next_close _ _ _ _
      | cons b l' => simp only [List.flatMap_cons, List.append_assoc]; exact next_elem _ _ _ _
  refine (bind_ok hcol).trans ?_
  refine (bind_ok (close_here (next_fine n1))).trans ?_
  cases id with
  | some n =>
    simp only [optRaws, elem_append "session-id"]
    refine (bind_ok (maybeOpen_ok (s := ⟨_, _⟩) (next_start _ _ _ _) (open_elem hns (fine_flat (flat_written _) _ (next_fine (next_close _ _ _ _)))))).trans ?_
    refine (bind_ok (tagString_flat (flat_written _))).trans ?_
    rw [plain_written, readU32_decimal]
    refine (bind_ok (lift_some _ _ _)).trans ?_
    refine (bind_ok (close_here (next_fine (next_close _ _ _ _)))).trans ?_
    refine (bind_ok (p := pure _) rfl).trans ?_
    exact (bind_ok (close_here rfl)).trans rfl
  | none =>
    refine (bind_ok (maybeOpen_none (key := "session-id") (s := ⟨annotate [(⟨none, "hello"⟩, sc)] [Raw.close ⟨none, "hello"⟩], [true]⟩) (next_close [] ⟨none, "hello"⟩ sc [])
      (by rw [isTagL_close]; simp))).trans ?_
    refine (bind_ok (p := pure _) rfl).trans ?_
    exact (bind_ok (close_here rfl)).trans rfl

end Verif.Xml
