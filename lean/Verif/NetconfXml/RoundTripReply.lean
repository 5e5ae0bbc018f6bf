import Verif.NetconfXml.RoundTripRpc
import Verif.Collector.MapTextLemmas
/-!
# What is written is read back: `rpc-reply` and `hello`
-/
namespace Verif.Xml
open Verif.Collector (Text trim parseNat)
open Verif.Collector.MapFile (worth Decimal)

theorem worth_toDigits (n : Nat) : worth (Nat.toDigits 10 n) = n := by
  induction n using Nat.strongRecOn with
  | _ n ih =>
    by_cases h : n < 10
    · rw [Nat.toDigits_of_lt_base h]
      have : ∀ m, m < 10 → worth [m.digitChar] = m := by decide
      exact this n h
    · rw [Nat.toDigits_of_base_le (by omega) (by omega), Verif.Collector.worth_append, ih _ (by omega)]
      have : ∀ m, m < 10 → worth [m.digitChar] = m := by decide
      rw [this _ (by omega)]
      simp; omega

theorem toDigits_ne (n : Nat) : Nat.toDigits 10 n ≠ [] := by
  by_cases h : n < 10
  · rw [Nat.toDigits_of_lt_base h]; simp
  · rw [Nat.toDigits_of_base_le (by omega) (by omega)]; simp

/-- a number that is written is read back -/
theorem readU32_decimal (n : UInt32) : readU32 (decimal n.toNat) = some n := by
  have hd : decimal n.toNat = Nat.toDigits 10 n.toNat := by
    unfold decimal; rw [Nat.toString_eq_ofList_toDigits]; simp
  have : parseNat (2 ^ 32) (decimal n.toNat) = some n.toNat := by
    rw [hd, Verif.Collector.parseNat_iff _ (by decide)]
    exact ⟨⟨_, toDigits_ne _, fun c hc => Verif.Collector.digits_mem hc, .inl rfl, (worth_toDigits _).symm⟩, n.toNat_lt⟩
  unfold readU32
  rw [this]; simp

/-- a sequence of elements up to a closing tag is collected -/
theorem collectF_reads {α : Type} {p : P α} {st : Stack} {q : QName} {sc : Scope} {f : α → List Raw} {R : List Raw}
    (hend : ∀ ps, ∃ e, (e = .recoverable ∨ ∃ x, e = .wrongToken x) ∧ p ⟨annotate ((q, sc) :: st) (.close q :: R), ps⟩ = (.err e, ⟨annotate ((q, sc) :: st) (.close q :: R), ps⟩)) :
    ∀ (l : List α) (n : Nat) (ps : List Bool), l.length < n → (∀ a ∈ l, ∀ R, Next (annotate ((q, sc) :: st) (f a ++ R))) →
      (∀ pre a l', l = pre ++ a :: l' → ∀ ps, p ⟨annotate ((q, sc) :: st) (f a ++ (l'.flatMap f ++ .close q :: R)), ps⟩ = (.ok a, ⟨annotate ((q, sc) :: st) (l'.flatMap f ++ .close q :: R), ps⟩)) →
      collectF p n ⟨annotate ((q, sc) :: st) (l.flatMap f ++ .close q :: R), ps⟩ = (.ok l, ⟨annotate ((q, sc) :: st) (.close q :: R), ps⟩) := by
  intro l
  induction l with
  | nil =>
    intro n ps hn _ _
    obtain ⟨n, rfl⟩ : ∃ m, n = m + 1 := ⟨n - 1, by simp at hn; omega⟩
    simp only [List.flatMap_nil, List.nil_append]
    refine (bind_ok (skipText_next (next_close _ _ _ _))).trans ?_
    obtain ⟨e, he, hp⟩ := hend ps
    simp only [hp]
    rw [annotate_close]
    rcases he with rfl | ⟨x, rfl⟩ <;> rfl
  | cons a l ih =>
    intro n ps hn hx hp
    obtain ⟨n, rfl⟩ : ∃ m, n = m + 1 := ⟨n - 1, by simp at hn; omega⟩
    simp only [List.flatMap_cons, List.append_assoc]
    refine (bind_ok (skipText_next (hx a List.mem_cons_self _))).trans ?_
    simp only [hp [] a l rfl ps]
    have := ih n ps (by simp at hn; omega) (fun b hb => hx b (List.mem_cons_of_mem _ hb)) (fun pre b l' hl => hp (a :: pre) b l' (by rw [hl]; rfl))
    exact (bind_ok this).trans rfl

/-- elements of which every one has an event -/
theorem flatMap_length {α : Type} {f : α → List Raw} (l : List α) (h : ∀ a ∈ l, f a ≠ []) : l.length ≤ (l.flatMap f).length := by
  induction l with
  | nil => simp
  | cons a l ih =>
    have h1 := h a List.mem_cons_self
    have h2 := ih fun b hb => h b (List.mem_cons_of_mem _ hb)
    have h3 : 0 < (f a).length := List.length_pos_iff.2 h1
    simp only [List.flatMap_cons, List.length_append, List.length_cons]; omega

/-- what is to be read is as long as what was written -/
theorem bal_length {c : List Raw} (h : Bal c) (st : Stack) (R : List Raw) : c.length ≤ (annotate st (c ++ R)).length := by
  obtain ⟨es, h1, h2⟩ := annotate_bal h st
  rw [h2, List.length_append, ← h1, List.length_map]; omega

theorem bal_append {a b : List Raw} (ha : Bal a) (hb : Bal b) : Bal (a ++ b) := by
  induction ha with
  | nil => exact hb
  | single hr _ ih => exact .single hr ih
  | tag q as hx _ _ ih => simpa using Bal.tag q as hx ih

theorem bal_flat {l : List Raw} (h : Flat l) : Bal l := by
  induction l with
  | nil => exact .nil
  | cons r l ih =>
    obtain ⟨hr, hl⟩ := flat_cons h
    rcases hr with ⟨t, rfl⟩ | ⟨t, rfl⟩ | ⟨t, rfl⟩ <;> exact .single rfl (ih hl)

theorem bal_elem {n : String} {c : List Raw} (h : Bal c) : Bal (elem n c) := Bal.tag _ _ h .nil

theorem bal_flatMap {α : Type} {f : α → List Raw} (l : List α) (h : ∀ a ∈ l, Bal (f a)) : Bal (l.flatMap f) := by
  induction l with
  | nil => exact .nil
  | cons a l ih => exact bal_append (h a List.mem_cons_self) (ih fun b hb => h b (List.mem_cons_of_mem _ hb))

/-! ## Hello -/

/-- a hello that is read back: the capabilities are what their text says -/
def HelloOk {D : Type} (dates : Dates D) (h : Hello D) : Prop := ∀ c ∈ h.capabilities, Cap.read dates (c.show' dates) = some c

theorem reads_capability {D : Type} (dates : Dates D) {st : Stack} (h : InNs st nsNetconf) {c : Cap D} (hc : Cap.read dates (c.show' dates) = some c) :
    Reads (readCapability dates) st (elem "capability" (written (c.show' dates))) c := by
  intro R ps hR
  rw [elem_append]
  refine (bind_ok (open_elem h (fine_flat (flat_written _) _ (next_fine (next_close _ _ _ _))))).trans ?_
  refine (bind_ok (tagString_flat (flat_written _))).trans ?_
  rw [plain_written, hc]
  refine (bind_ok (lift_some _ _ _)).trans ?_
  exact (bind_ok (close_here (next_fine hR))).trans rfl

def helloRaws {D : Type} (dates : Dates D) (h : Hello D) : List Raw :=
  .start ⟨none, "hello"⟩ [⟨⟨none, "xmlns"⟩, some nsNetconf⟩] :: (elem "capabilities" (h.capabilities.flatMap fun c => elem "capability" (written (c.show' dates))) ++
    (optRaws (fun n : UInt32 => elem "session-id" (written (decimal n.toNat))) h.sessionId ++ [.close ⟨none, "hello"⟩]))

theorem writes_all {α : Type} {f : α → W Unit} {g : α → List Raw} {bs : List (List (Text × String))} (h : ∀ a, Writes (f a) bs (g a)) (l : List α) : Writes (writeAll f l) bs (l.flatMap g) := by
  induction l with
  | nil => intro out; simp [writeAll, pure]
  | cons a l ih => exact writes_seq (h a) ih

theorem output_hello {D : Type} (dates : Dates D) (h : Hello D) : ∃ rs, output (writeHello dates h) .new = some rs ∧ rs = helloRaws dates h := by
  refine ⟨_, ?_, rfl⟩
  unfold output
  have e : writeHello dates h .new = some ((), ⟨helloRaws dates h, plainBindings, true⟩) := by
    refine (wbind (a := (⟨none, "hello"⟩, [⟨⟨none, "xmlns"⟩, some nsNetconf⟩])) (w' := ⟨[], plainBindings, true⟩) rfl).trans ?_
    refine (wbind (a := (⟨none, "capabilities"⟩, [])) (w' := ⟨[], plainBindings, true⟩) rfl).trans ?_
    refine (wbind (a := ()) (w' := ⟨[.start ⟨none, "hello"⟩ [⟨⟨none, "xmlns"⟩, some nsNetconf⟩]], plainBindings, true⟩) rfl).trans ?_
    refine (wbind (a := ()) (w' := ⟨[.start ⟨none, "hello"⟩ [⟨⟨none, "xmlns"⟩, some nsNetconf⟩], .start ⟨none, "capabilities"⟩ []], plainBindings, true⟩) rfl).trans ?_
    refine (wbind (writes_all (fun c => writes_leaf _ _ _) _ _)).trans ?_
    obtain ⟨id, caps⟩ := h
    cases id with
    | some n =>
      refine (wbind (a := ()) rfl).trans ?_
      refine (wbind (writes_leaf _ _ _ _)).trans ?_
      simp [write, helloRaws, elem, optRaws]
    | none => simp [write, bind, pure, helloRaws, elem, optRaws]
  rw [e]; rfl

theorem again_hello {D Y : Type} (dates : Dates D) (lib : Library Y) {h : Hello D} (hh : HelloOk dates h) : again dates lib (.hello h) = some (.ok (.hello h)) := by
  unfold again
  show ((output (writeHello dates h) .new).map _) = _
  obtain ⟨rs, h1, rfl⟩ := output_hello dates h
  rw [h1, Option.map_some]
  unfold helloRaws
  rw [readMessage_start]
  simp only [if_true]
  suffices H : ∃ s, readHello dates ⟨annotate [] (helloRaws dates h), []⟩ = (.ok h, s) by
    obtain ⟨s, hs⟩ := H
    unfold helloRaws at hs
    rw [map_ok hs]
  unfold helloRaws
  refine ⟨⟨[], []⟩, ?_⟩
  refine (bind_ok (a := ()) (s' := ⟨annotate [] (helloRaws dates h), []⟩) (by unfold helloRaws; rw [annotate_start]; rfl)).trans ?_
  unfold helloRaws
  refine (bind_ok (skipText_next (next_start _ _ _ _))).trans ?_
  refine (bind_ok (open_start (by rfl) (next_fine (next_elem _ _ _ _)))).trans ?_
  have hns : InNs [(⟨none, "hello"⟩, declared [⟨⟨none, "xmlns"⟩, some nsNetconf⟩] ++ Stack.scope [])] nsNetconf := rfl
  generalize declared [⟨⟨none, "xmlns"⟩, some nsNetconf⟩] ++ Stack.scope [] = sc at hns ⊢
  refine (bind_ok (skipText_next (next_elem _ _ _ _))).trans ?_
  rw [elem_append]
  have hb : Bal (h.capabilities.flatMap fun c => elem "capability" (written (c.show' dates))) := bal_flatMap _ fun c _ => bal_elem (bal_flat (flat_written _))
  refine (bind_ok (open_elem hns (fine_bal hb))).trans ?_
  have n1 := next_opt (f := fun n : UInt32 => elem "session-id" (written (decimal n.toNat))) (st := [(⟨none, "hello"⟩, sc)]) (fun _ _ => next_elem _ _ _ _) h.sessionId (next_close [] ⟨none, "hello"⟩ sc [])
  have hcol : collect (readCapability dates) ⟨annotate ((⟨none, "capabilities"⟩, sc) :: [(⟨none, "hello"⟩, sc)]) ((h.capabilities.flatMap fun c => elem "capability" (written (c.show' dates))) ++
      .close ⟨none, "capabilities"⟩ :: (optRaws (fun n : UInt32 => elem "session-id" (written (decimal n.toNat))) h.sessionId ++ [.close ⟨none, "hello"⟩])), [true, true]⟩ =
      (.ok h.capabilities, ⟨annotate ((⟨none, "capabilities"⟩, sc) :: [(⟨none, "hello"⟩, sc)]) (.close ⟨none, "capabilities"⟩ :: (optRaws (fun n : UInt32 => elem "session-id" (written (decimal n.toNat))) h.sessionId ++ [.close ⟨none, "hello"⟩])), [true, true]⟩) := by
    unfold collect
    simp only [hasChild, if_true]
    apply collectF_reads
    · intro ps
      refine ⟨.wrongToken "<capability>", .inr ⟨_, rfl⟩, ?_⟩
      exact bind_err (openTag_wrong (by rw [isTagL_close]; simp))
    · have := bal_length hb ((⟨none, "capabilities"⟩, sc) :: [(⟨none, "hello"⟩, sc)]) (.close ⟨none, "capabilities"⟩ :: (optRaws (fun n : UInt32 => elem "session-id" (written (decimal n.toNat))) h.sessionId ++ [.close ⟨none, "hello"⟩]))
      have h2 := flatMap_length (f := fun c => elem "capability" (written (Cap.show' dates c))) h.capabilities (fun _ _ => by simp [elem])
      exact Nat.lt_succ_of_le (Nat.le_trans h2 this)
    · intro a _ R; exact next_elem _ _ _ _
    · intro pre a l' hl ps
      refine reads_capability dates (inNs_push hns _) (hh a (by rw [hl]; simp)) _ _ ?_
      cases l' with
      | nil => exact next_close _ _ _ _
      | cons b l' => simp only [List.flatMap_cons, List.append_assoc]; exact next_elem _ _ _ _
  refine (bind_ok hcol).trans ?_
  refine (bind_ok (close_here (next_fine n1))).trans ?_
  obtain ⟨id, caps⟩ := h
  cases id with
  | some n =>
    simp only [optRaws, elem_append "session-id"]
    refine (bind_ok (maybeOpen_ok (s := ⟨_, _⟩) (next_start _ _ _ _) (open_elem hns (fine_flat (flat_written _) _ (next_fine (next_close _ _ _ _)))))).trans ?_
    refine (bind_ok (tagString_flat (flat_written _))).trans ?_
    rw [plain_written, readU32_decimal]
    refine (bind_ok (lift_some _ _ _)).trans ?_
    refine (bind_ok (close_here (next_fine (next_close _ _ _ _)))).trans ?_
    refine (bind_ok (p := pure _) rfl).trans ?_
    exact (bind_ok (close_here rfl)).trans rfl
  | none =>
    refine (bind_ok (maybeOpen_none (key := "session-id") (s := ⟨annotate [(⟨none, "hello"⟩, sc)] [Raw.close ⟨none, "hello"⟩], [true]⟩) (next_close [] ⟨none, "hello"⟩ sc [])
      (by rw [isTagL_close]; simp))).trans ?_
    refine (bind_ok (p := pure _) rfl).trans ?_
    exact (bind_ok (close_here rfl)).trans rfl

end Verif.Xml
