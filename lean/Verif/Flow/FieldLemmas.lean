import Verif.Core.Exact
import Verif.Flow.SafeLemmas
/-!
# A field depends on its own octets only
-/
namespace Verif.Flow
open Parser
variable {β : Type}

theorem exact_readUnsigned32 (len : Nat) : Exact (readUnsigned32 len) := by
  unfold readUnsigned32
  repeat' first
    | exact exact_pure _
    | exact exact_map _ (exact_readArray _)
    | exact exact_err fun r => ⟨_, rfl⟩
    | refine exact_ite (fun _ => ?_) (fun _ => ?_)

theorem exact_readUnsigned64 (len : Nat) : Exact (readUnsigned64 len) := by
  unfold readUnsigned64
  repeat' first
    | exact exact_pure _
    | exact exact_map _ (exact_readArray _)
    | exact exact_err fun r => ⟨_, rfl⟩
    | refine exact_ite (fun _ => ?_) (fun _ => ?_)

theorem exact_readSigned32 (len : Nat) : Exact (readSigned32 len) :=
  exact_bind (exact_readUnsigned32 len) fun _ => exact_pure _

theorem exact_readPadded (n len : Nat) : Exact (readPadded n len) := by
  have : readPadded n len = if len > n then (fun r => (.err (.invalidPaddingLength r.offset len n), r)) else
      (do let src ← readBytes len; pure (src ++ List.replicate (n - len) 0) : Parser _ _) := by
    funext r; unfold readPadded; split <;> rfl
  rw [this]
  exact exact_ite (fun _ => exact_err fun r => ⟨_, rfl⟩) fun _ => exact_bind (exact_readArray _) fun _ => exact_pure _

theorem exact_exactly (n : Nat) (length : UInt16) : Exact (exactly n length) :=
  exact_ite (fun _ => exact_getOffset (exactF_fail _)) fun _ => exact_pure _

theorem exact_atMost (n : Nat) (length : UInt16) : Exact (atMost n length) :=
  exact_ite (fun _ => exact_getOffset (exactF_fail _)) fun _ => exact_pure _

theorem exact_readVarLen : Exact readVarLen :=
  exact_bind exact_readU8 fun _ => exact_ite (fun _ => exact_bind (exact_readUnsigned32 3) fun _ => exact_pure _)
    fun _ => exact_pure _

theorem exact_readOctets (length : UInt16) : Exact (readOctets length) := by
  unfold readOctets
  split
  · exact exact_bind exact_readVarLen fun _ => exact_readArray _
  · exact exact_bind (exact_pure _) fun _ => exact_readArray _

theorem exact_readString (length : UInt16) : Exact (readString length) :=
  exact_ite (fun _ => exact_bind (exact_mapErr _ exact_readVarLen) fun _ => exact_getOffset
      (exactF_bind (exact_mapErr _ (exact_readArray _)).fam fun _ => exactF_ofOption _ _))
    fun _ => exact_getOffset (exactF_bind (exact_mapErr _ (exact_readArray _)).fam fun _ => exactF_ofOption _ _)

theorem exact_readFraction (length : UInt16) : Exact (readFraction length) :=
  exact_bind (exact_exactly _ _) fun _ => exact_getOffset (exactF_bind (exact_mapErr _ exact_readU32).fam fun s =>
    exactF_bind (exact_mapErr _ exact_readU32).fam fun f => exactF_ofOption (fun o => FieldErr.timestampFraction o s f) _)

theorem exact_readShort (length : UInt16) : Exact (readShort length) :=
  exact_ite (fun _ => exact_bind (exact_mapErr _ exact_readU8) fun _ => exact_pure _) fun _ =>
    exact_ite (fun _ => exact_mapErr _ exact_readU16) fun _ => exact_getOffset (exactF_fail _)

theorem exact_value (k : Kind) (length : UInt16) : Exact (Value.parse k length) := by
  cases k <;> unfold Value.parse <;> simp only
  · exact exact_bind (exact_mapErr _ (exact_readOctets _)) fun _ => exact_pure _
  · exact exact_bind (exact_exactly _ _) fun _ => exact_bind (exact_mapErr _ (exact_readArray _)) fun _ => exact_pure _
  · exact exact_bind (exact_exactly _ _) fun _ => exact_bind (exact_mapErr _ exact_readU8) fun _ => exact_pure _
  · exact exact_bind (exact_readShort _) fun _ => exact_pure _
  · exact exact_bind (exact_readShort _) fun _ => exact_pure _
  · exact exact_bind (exact_atMost _ _) fun _ => exact_bind (exact_mapErr _ (exact_readUnsigned32 _)) fun _ => exact_pure _
  · exact exact_bind (exact_atMost _ _) fun _ => exact_bind (exact_mapErr _ (exact_readUnsigned64 _)) fun _ => exact_pure _
  · exact exact_bind (exact_atMost _ _) fun _ => exact_bind (exact_mapErr _ (exact_readPadded _ _)) fun _ => exact_pure _
  · exact exact_bind (exact_atMost _ _) fun _ => exact_bind (exact_mapErr _ (exact_readSigned32 _)) fun _ => exact_pure _
  · exact exact_bind (exact_exactly _ _) fun _ => exact_bind (exact_mapErr _ exact_readU64) fun _ => exact_pure _
  · exact exact_bind (exact_exactly _ _) fun _ => exact_bind (exact_mapErr _ exact_readU8) fun _ => exact_pure _
  · exact exact_bind (exact_exactly _ _) fun _ => exact_bind (exact_mapErr _ (exact_readArray _)) fun _ => exact_pure _
  · exact exact_bind (exact_readString _) fun _ => exact_pure _
  · exact exact_bind (exact_exactly _ _) fun _ => exact_getOffset (exactF_bind (exact_mapErr _ exact_readU32).fam fun s =>
      exactF_bind (exactF_ofOption (fun o => FieldErr.timestamp o s) _) fun _ => (exact_pure _).fam)
  · exact exact_bind (exact_exactly _ _) fun _ => exact_getOffset (exactF_bind (exact_mapErr _ exact_readU64).fam fun s =>
      exactF_bind (exactF_ofOption (fun o => FieldErr.timestampMillis o s) _) fun _ => (exact_pure _).fam)
  · exact exact_bind (exact_readFraction _) fun _ => exact_pure _
  · exact exact_bind (exact_readFraction _) fun _ => exact_pure _
  · exact exact_bind (exact_exactly _ _) fun _ => exact_bind (exact_mapErr _ exact_readU32) fun _ => exact_pure _
  · exact exact_bind (exact_exactly _ _) fun _ => exact_bind (exact_mapErr _ exact_readU128) fun _ => exact_pure _
  · exact exact_bind (exact_mapErr _ (exact_readOctets _)) fun _ => exact_pure _
  · exact exact_bind (exact_mapErr _ (exact_readOctets _)) fun _ => exact_pure _
  · exact exact_bind (exact_mapErr _ (exact_readOctets _)) fun _ => exact_pure _

theorem exact_field (ie : Ie) (length : UInt16) : Exact (Field.parse ie length) := by
  cases ie <;> unfold Field.parse <;> simp only
  · exact exact_bind (exact_value _ _) fun _ => exact_pure _
  · exact exact_bind (exact_mapErr _ (exact_readOctets _)) fun _ => exact_pure _
  · exact exact_bind (exact_mapErr _ (exact_readArray _)) fun _ => exact_pure _

theorem exact_readReduced (length : UInt16) : Exact (readReduced length) :=
  exact_bind (exact_atMost _ _) fun _ => exact_bind (exact_mapErr _ (exact_readUnsigned64 _)) fun _ => exact_pure _

theorem exact_scopeField (ie : ScopeIe) (length : UInt16) : Exact (ScopeField.parse ie length) := by
  cases ie <;> unfold ScopeField.parse <;> simp only
  case unknown => exact exact_bind (exact_mapErr _ (exact_readArray _)) fun _ => exact_pure _
  case system => exact exact_bind (exact_readReduced _) fun _ => exact_pure _
  case interface => exact exact_bind (exact_readReduced _) fun _ => exact_pure _
  case lineCard => exact exact_bind (exact_readReduced _) fun _ => exact_pure _
  case cache => exact exact_bind (exact_mapErr _ (exact_readArray _)) fun _ => exact_pure _
  case template => exact exact_bind (exact_mapErr _ (exact_readArray _)) fun _ => exact_pure _

/-! ## The element of a field is the one asked for -/

theorem value_kind {k : Kind} {length : UInt16} {r r' : Reader} {v : Value} (h : Value.parse k length r = (.ok v, r')) :
    v.kind = k := by
  cases k <;> unfold Value.parse at h <;>
    simp only [bind_eq_ok, mapErr_eq_ok, pure_eq_ok, getOffset_eq_ok, ofOption_eq_ok] at h
  all_goals
    first
    | (obtain ⟨_, _, _, rfl, _⟩ := h; rfl)
    | (obtain ⟨_, _, _, _, _, _, rfl, _⟩ := h; rfl)
    | (obtain ⟨_, _, _, _, _, _, _, _, _, _, _, _, rfl, _⟩ := h; rfl)

theorem field_ie {ie : Ie} {length : UInt16} {r r' : Reader} {f : Field} (h : Field.parse ie length r = (.ok f, r')) :
    f.ie = ie := by
  cases ie <;> unfold Field.parse at h <;> simp only [bind_eq_ok, mapErr_eq_ok, pure_eq_ok] at h <;>
    obtain ⟨v, r1, h1, rfl, rfl⟩ := h
  · show Ie.known _ _ v.kind = _; rw [value_kind h1]
  · rfl
  · rfl

end Verif.Flow
