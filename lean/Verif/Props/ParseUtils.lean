import Verif.Core.Reader
/-!
# C01, C02 — the byte cursor (`crates/parse-utils/src/reader.rs`)
-/
namespace Verif.Props
open Verif

/-! ## C01: specification of one cursor operation -/

/-- The public operations of `SliceReader` (names as in `reader.rs`). -/
inductive Op where
  | readU8 | readArray (n : Nat) | readU16 | readU32 | readU64 | readU128
  | readBytes (n : Nat) | takeSlice (n : Nat)
  | peekU8 | peekArray (n : Nat) | peekU16 | peekU32
  | readPadded (cap len : Nat)
  | readUnsigned32 (len : Nat) | readUnsigned64 (len : Nat)
  | readSigned32 (len : Nat) | readSigned64 (len : Nat)

/-- Forget the value of a parser run: the error, if any, and the cursor afterwards. -/
def forget {α : Type} : Res ParseError α × Reader → Res ParseError Unit × Reader
  | (.ok _, r) => (.ok (), r)
  | (.err e, r) => (.err e, r)
  | (.fault f, r) => (.fault f, r)

/-- Run one operation. -/
def Op.run (o : Op) (r : Reader) : Res ParseError Unit × Reader :=
  match o with
  | .readU8 => forget (Verif.readU8 r)
  | .readArray n => forget (Verif.readArray n r)
  | .readU16 => forget (Verif.readU16 r)
  | .readU32 => forget (Verif.readU32 r)
  | .readU64 => forget (Verif.readU64 r)
  | .readU128 => forget (Verif.readU128 r)
  | .readBytes n => forget (Verif.readBytes n r)
  | .takeSlice n => forget (Verif.takeSlice n r)
  | .peekU8 => forget (Verif.peekU8 r)
  | .peekArray n => forget (Verif.peekArray n r)
  | .peekU16 => forget (Verif.peekU16 r)
  | .peekU32 => forget (Verif.peekU32 r)
  | .readPadded c l => forget (Verif.readPadded c l r)
  | .readUnsigned32 l => forget (Verif.readUnsigned32 l r)
  | .readUnsigned64 l => forget (Verif.readUnsigned64 l r)
  | .readSigned32 l => forget (Verif.readSigned32 l r)
  | .readSigned64 l => forget (Verif.readSigned64 l r)

/-- How many octets the operation needs to see in the buffer. -/
def Op.needs : Op → Nat
  | .readU8 | .peekU8 => 1
  | .readU16 | .peekU16 => 2
  | .readU32 | .peekU32 => 4
  | .readU64 => 8
  | .readU128 => 16
  | .readArray n | .readBytes n | .takeSlice n | .peekArray n => n
  | .readPadded _ l | .readUnsigned32 l | .readUnsigned64 l | .readSigned32 l | .readSigned64 l => l

/-- How many octets it removes. -/
def Op.takes : Op → Nat
  | .peekU8 | .peekU16 | .peekU32 | .peekArray _ => 0
  | o => o.needs

/-- Capacity of the destination, when the operation has one. -/
def Op.capacity : Op → Option Nat
  | .readPadded c _ => some c
  | .readUnsigned32 _ | .readSigned32 _ => some 4
  | .readUnsigned64 _ | .readSigned64 _ => some 8
  | _ => none

/-- What a cursor operation is specified to do, in terms of the bytes only. -/
def Op.spec (o : Op) (r : Reader) : Res ParseError Unit × Reader :=
  match o.capacity with
  | some c =>
    if o.needs > c then (.err (.invalidPaddingLength r.offset o.needs c), r)
    else if o.needs ≤ r.buf.length then (.ok (), ⟨r.buf.drop o.takes, r.offset + o.takes⟩)
    else (.err (.eof r.offset o.needs r.buf.length), r)
  | none =>
    if o.needs ≤ r.buf.length then (.ok (), ⟨r.buf.drop o.takes, r.offset + o.takes⟩)
    else (.err (.eof r.offset o.needs r.buf.length), r)

theorem forget_map {α β : Type} (f : α → β) (x : Res ParseError α × Reader) :
    forget (x.1.map f, x.2) = forget x := by
  rcases x with ⟨(_ | _ | _), _⟩ <;> rfl

theorem forget_readArray (n : Nat) (r : Reader) :
    forget (Verif.readArray n r) =
      if n ≤ r.buf.length then (.ok (), ⟨r.buf.drop n, r.offset + n⟩)
      else (.err (.eof r.offset n r.buf.length), r) := by
  unfold Verif.readArray; split <;> rfl

theorem forget_readUnsigned32 (l : Nat) (r : Reader) :
    forget (Verif.readUnsigned32 l r) = (Op.readUnsigned32 l).spec r := by
  rcases l with _ | _ | _ | _ | _ | n
  · simp [readUnsigned32, forget, Op.spec, Op.capacity, Op.needs, Op.takes]
  iterate 4
    · simp [readUnsigned32, forget_map, forget_readArray, Op.spec, Op.capacity, Op.needs, Op.takes]
  · simp [readUnsigned32, forget, Op.spec, Op.capacity, Op.needs]

theorem forget_readUnsigned64 (l : Nat) (r : Reader) :
    forget (Verif.readUnsigned64 l r) = (Op.readUnsigned64 l).spec r := by
  rcases l with _ | _ | _ | _ | _ | _ | _ | _ | _ | n
  · simp [readUnsigned64, forget, Op.spec, Op.capacity, Op.needs, Op.takes]
  iterate 8
    · simp [readUnsigned64, forget_map, forget_readArray, Op.spec, Op.capacity, Op.needs, Op.takes]
  · simp [readUnsigned64, forget, Op.spec, Op.capacity, Op.needs]

theorem forget_bind_pure {α β : Type} (p : Parser ParseError α) (f : α → β) (r : Reader) :
    forget ((p >>= fun a => pure (f a)) r) = forget (p r) := by
  rw [Parser.bind_run]
  rcases p r with ⟨(_ | _ | _), _⟩ <;> rfl

/-- **C01 (one step).** Every operation of the byte cursor does exactly what its specification says:
it consumes exactly the octets it returns, a failing operation leaves the cursor alone and reports the
current offset, the octets needed and the octets available, peeks do not move. No operation panics, for
any length argument. -/
theorem c01_op_meets_spec (o : Op) (r : Reader) : o.run r = o.spec r := by
  cases o with
  | readU8 =>
    rcases r with ⟨_ | ⟨b, bs⟩, off⟩ <;>
      simp [Op.run, Op.spec, Op.capacity, Op.needs, Op.takes, forget, Verif.readU8]
  | peekU8 =>
    rcases r with ⟨_ | ⟨b, bs⟩, off⟩ <;>
      simp [Op.run, Op.spec, Op.capacity, Op.needs, Op.takes, forget, Verif.peekU8]
  | readArray n => exact forget_readArray n r
  | readU16 | readU32 | readU64 | readU128 =>
    simp only [Op.run, readU16, readU32, readU64, readU128, Parser.map_run, forget_map,
      forget_readArray]; rfl
  | readBytes n => exact forget_readArray n r
  | takeSlice n =>
    by_cases h : n ≤ r.buf.length <;>
      simp [Op.run, takeSlice, readBytes, Op.spec, Op.capacity, Op.needs, Op.takes, h, forget]
  | peekArray n =>
    by_cases h : n ≤ r.buf.length <;>
      simp [Op.run, peekArray, Op.spec, Op.capacity, Op.needs, Op.takes, h, forget]
  | peekU16 =>
    by_cases h : 2 ≤ r.buf.length <;>
      simp [Op.run, peekU16, peekArray, Op.spec, Op.capacity, Op.needs, Op.takes, h, forget]
  | peekU32 =>
    by_cases h : 4 ≤ r.buf.length <;>
      simp [Op.run, peekU32, peekArray, Op.spec, Op.capacity, Op.needs, Op.takes, h, forget]
  | readPadded c l =>
    by_cases hc : l > c
    · simp [Op.run, readPadded, Op.spec, Op.capacity, Op.needs, hc, forget]
    · by_cases h : l ≤ r.buf.length <;>
        simp [Op.run, readPadded, readBytes, Op.spec, Op.capacity, Op.needs, Op.takes, hc, h, forget]
  | readUnsigned32 l => exact forget_readUnsigned32 l r
  | readUnsigned64 l => exact forget_readUnsigned64 l r
  | readSigned32 l =>
    simp only [Op.run, readSigned32]
    rw [forget_bind_pure, forget_readUnsigned32]; rfl
  | readSigned64 l =>
    simp only [Op.run, readSigned64]
    rw [forget_bind_pure, forget_readUnsigned64]; rfl

/-- The value returned by `read_bytes`/`read_array`/`peek_array`/`take_slice`/`read_padded` are the next
octets of the input (left-aligned and zero-padded for `read_padded`), and a sub-reader starts at the
absolute position of its first octet. -/
theorem c01_values (n cap : Nat) (pre rest : Bytes) (o : Nat) (hn : pre.length = n) (hc : n ≤ cap) :
    Verif.readBytes n ⟨pre ++ rest, o⟩ = (.ok pre, ⟨rest, o + n⟩) ∧
    Verif.readArray n ⟨pre ++ rest, o⟩ = (.ok pre, ⟨rest, o + n⟩) ∧
    Verif.peekArray n ⟨pre ++ rest, o⟩ = (.ok pre, ⟨pre ++ rest, o⟩) ∧
    Verif.takeSlice n ⟨pre ++ rest, o⟩ = (.ok ⟨pre, o⟩, ⟨rest, o + n⟩) ∧
    Verif.readPadded cap n ⟨pre ++ rest, o⟩ =
      (.ok (pre ++ List.replicate (cap - n) 0), ⟨rest, o + n⟩) := by
  subst hn
  have h : ¬ (pre.length > cap) := by omega
  refine ⟨readBytes_append rfl, readArray_append rfl, ?_, takeSlice_append rfl, ?_⟩
  · simp [peekArray]
  · simp [readPadded, h, readBytes_append]

/-- The fixed-width readers return the big-endian value of the octets they consume. -/
theorem c01_int_values (pre rest : Bytes) (b : UInt8) (o : Nat) :
    (Verif.readU8 ⟨b :: rest, o⟩ = (.ok b, ⟨rest, o + 1⟩)) ∧
    (pre.length = 2 → ∃ v, Verif.readU16 ⟨pre ++ rest, o⟩ = (.ok v, ⟨rest, o + 2⟩) ∧
      v.toNat = beVal pre ∧ Verif.peekU16 ⟨pre ++ rest, o⟩ = (.ok v, ⟨pre ++ rest, o⟩)) ∧
    (pre.length = 4 → ∃ v, Verif.readU32 ⟨pre ++ rest, o⟩ = (.ok v, ⟨rest, o + 4⟩) ∧
      v.toNat = beVal pre ∧ Verif.peekU32 ⟨pre ++ rest, o⟩ = (.ok v, ⟨pre ++ rest, o⟩)) ∧
    (pre.length = 8 → ∃ v, Verif.readU64 ⟨pre ++ rest, o⟩ = (.ok v, ⟨rest, o + 8⟩) ∧
      v.toNat = beVal pre) ∧
    (pre.length = 16 → ∃ v, Verif.readU128 ⟨pre ++ rest, o⟩ = (.ok v, ⟨rest, o + 16⟩) ∧
      v.toNat = beVal pre) := by
  refine ⟨rfl, fun h => ⟨u16of pre, ?_, u16of_toNat h, ?_⟩, fun h => ⟨u32of pre, ?_, u32of_toNat h, ?_⟩,
    fun h => ⟨u64of pre, ?_, u64of_toNat h⟩, fun h => ⟨u128of pre, ?_, u128of_toNat h⟩⟩
  · simp [readU16, readArray_append h]
  · simp [peekU16, peekArray, h]
  · simp [readU32, readArray_append h]
  · simp [peekU32, peekArray, h]
  · simp [readU64, readArray_append h]
  · simp [readU128, readArray_append h]

example : Verif.readU16 ⟨[1, 2, 3], 0⟩ = (.ok 258, ⟨[3], 2⟩) := by decide
example : Verif.readPadded 4 2 ⟨[0xAA, 0xBB, 0xCC], 7⟩ = (.ok [0xAA, 0xBB, 0, 0], ⟨[0xCC], 9⟩) := by
  decide

/-- A reader is a view of `orig` if its unread octets are found in `orig` at its absolute offset. -/
def IsView (orig : Bytes) (r : Reader) : Prop :=
  r.offset + r.buf.length ≤ orig.length ∧ (orig.drop r.offset).take r.buf.length = r.buf

/-- Run a list of operations, ignoring failures (a caller may continue after an error). -/
def runOps : List Op → Reader → Reader
  | [], r => r
  | o :: os, r => runOps os (o.run r).2

/-- **C01 (histories).** After any sequence of operations, successful or failing, the octets consumed so
far and the unread octets partition the original unread input and the offset has advanced by exactly the
number of octets consumed. -/
theorem c01_history (ops : List Op) (r : Reader) :
    ∃ pre, r.buf = pre ++ (runOps ops r).buf ∧ (runOps ops r).offset = r.offset + pre.length := by
  induction ops generalizing r with
  | nil => exact ⟨[], rfl, rfl⟩
  | cons o os ih =>
    obtain ⟨pre, h1, h2⟩ := ih (o.run r).2
    have key : ∃ p, r.buf = p ++ (o.run r).2.buf ∧ (o.run r).2.offset = r.offset + p.length := by
      rw [c01_op_meets_spec]
      have hle : o.takes ≤ o.needs := by cases o <;> simp [Op.takes, Op.needs]
      have good : o.needs ≤ r.buf.length →
          ∃ p, r.buf = p ++ (r.buf.drop o.takes) ∧ r.offset + o.takes = r.offset + p.length := by
        intro h
        exact ⟨r.buf.take o.takes, (List.take_append_drop _ _).symm, by simp; omega⟩
      unfold Op.spec
      split
      · split
        · exact ⟨[], rfl, rfl⟩
        · split
          · rename_i h; exact good h
          · exact ⟨[], rfl, rfl⟩
      · split
        · rename_i h; exact good h
        · exact ⟨[], rfl, rfl⟩
    obtain ⟨p, k1, k2⟩ := key
    refine ⟨p ++ pre, ?_, ?_⟩
    · simp only [runOps, List.append_assoc]; rw [← h1]; exact k1
    · simp only [runOps]; rw [h2, k2]; simp [Nat.add_assoc]

/-- `offset() + remaining()` is constant along any sequence of operations. -/
theorem c01_conservation (ops : List Op) (r : Reader) :
    (runOps ops r).offset + (runOps ops r).buf.length = r.offset + r.buf.length := by
  obtain ⟨pre, h1, h2⟩ := c01_history ops r
  rw [h2, h1, List.length_append]; omega

/-- A reader stays a view of the original buffer forever: absolute offsets keep meaning positions of the
original buffer. -/
theorem c01_view (orig : Bytes) (ops : List Op) (r : Reader) (h : IsView orig r) :
    IsView orig (runOps ops r) := by
  obtain ⟨pre, h1, h2⟩ := c01_history ops r
  obtain ⟨hl, hv⟩ := h
  rw [IsView, h2]
  rw [h1] at hl hv
  simp only [List.length_append] at hl hv
  refine ⟨by omega, ?_⟩
  have := congrArg (List.drop pre.length) hv
  rw [List.drop_take, List.drop_drop] at this
  simpa [Nat.add_sub_cancel_left] using this

/-- Sub-readers of a view are views of the same original buffer. -/
theorem c01_subview (orig : Bytes) (r s r' : Reader) (n : Nat) (h : IsView orig r)
    (hs : takeSlice n r = (.ok s, r')) : IsView orig s ∧ IsView orig r' ∧ s.buf.length = n := by
  have hr' : r' = (Op.run (.takeSlice n) r).2 := by
    simp [Op.run, hs, forget]
  have hv := c01_view orig [.takeSlice n] r h
  simp only [runOps] at hv
  rw [← hr'] at hv
  refine ⟨?_, hv, ?_⟩
  all_goals
    simp only [takeSlice, Parser.bind_run, Parser.getOffset_run, readBytes] at hs
    by_cases hn : n ≤ r.buf.length
    · simp [hn] at hs
      obtain ⟨rfl, _⟩ := hs
      first
      | simp [hn]; done
      | (obtain ⟨hl, hv⟩ := h
         refine ⟨by simp; omega, ?_⟩
         simp only [List.length_take]
         rw [← hv]
         simp [List.take_take])
    · simp [hn] at hs

example : IsView [1, 2, 3, 4, 5] (Reader.new [1, 2, 3, 4, 5]) := by
  constructor <;> decide
example : runOps [.readU16, .readU32, .takeSlice 2] (Reader.new [1, 2, 3, 4, 5]) = ⟨[5], 4⟩ := by
  decide

/-! ## C02: reduced-size integers -/

/-- Two's-complement value of a byte string: the first octet's top bit is the sign. -/
def signedVal : Bytes → Int
  | [] => 0
  | b :: bs =>
    if b.toNat < 128 then (beVal (b :: bs) : Int)
    else (beVal (b :: bs) : Int) - (256 : Int) ^ (b :: bs).length

theorem beVal_zero_cons (l : Bytes) : beVal (0 :: l) = beVal l := by simp [beVal]

/-- **C02 (unsigned, 32 bit).** -/
theorem c02_unsigned32 (pre rest : Bytes) (o : Nat) (h : pre.length ≤ 4) :
    ∃ v : UInt32, readUnsigned32 pre.length ⟨pre ++ rest, o⟩ = (.ok v, ⟨rest, o + pre.length⟩) ∧
      v.toNat = beVal pre := by
  have key : ∀ n, n = pre.length → n ≤ 4 →
      ∃ v : UInt32, readUnsigned32 n ⟨pre ++ rest, o⟩ = (.ok v, ⟨rest, o + n⟩) ∧
        v.toNat = beVal pre := by
    intro n hn hle
    match n, hn, hle with
    | 0, hn, _ =>
      have : pre = [] := List.length_eq_zero_iff.mp hn.symm
      subst this; exact ⟨0, rfl, rfl⟩
    | 1, hn, _ =>
      simp only [readUnsigned32, Nat.reduceEqDiff, ↓reduceIte, Parser.map_run,
        readArray_append hn.symm, Res.map_ok]
      refine ⟨_, rfl, ?_⟩
      rw [u32of_toNat (by simp [← hn])]; simp [beVal_zero_cons]
    | 2, hn, _ =>
      simp only [readUnsigned32, Nat.reduceEqDiff, ↓reduceIte, Parser.map_run,
        readArray_append hn.symm, Res.map_ok]
      refine ⟨_, rfl, ?_⟩
      rw [UInt16.toNat_toUInt32, u16of_toNat hn.symm]
    | 3, hn, _ =>
      simp only [readUnsigned32, Nat.reduceEqDiff, ↓reduceIte, Parser.map_run,
        readArray_append hn.symm, Res.map_ok]
      refine ⟨_, rfl, ?_⟩
      rw [u32of_toNat (by simp [← hn])]; simp [beVal_zero_cons]
    | 4, hn, _ =>
      simp only [readUnsigned32, Nat.reduceEqDiff, ↓reduceIte, Parser.map_run,
        readArray_append hn.symm, Res.map_ok]
      refine ⟨_, rfl, ?_⟩
      rw [u32of_toNat hn.symm]
  exact key _ rfl h

/-- **C02 (unsigned, 64 bit).** -/
theorem c02_unsigned64 (pre rest : Bytes) (o : Nat) (h : pre.length ≤ 8) :
    ∃ v : UInt64, readUnsigned64 pre.length ⟨pre ++ rest, o⟩ = (.ok v, ⟨rest, o + pre.length⟩) ∧
      v.toNat = beVal pre := by
  have key : ∀ n, n = pre.length → n ≤ 8 →
      ∃ v : UInt64, readUnsigned64 n ⟨pre ++ rest, o⟩ = (.ok v, ⟨rest, o + n⟩) ∧
        v.toNat = beVal pre := by
    intro n hn hle
    match n, hn, hle with
    | 0, hn, _ =>
      have : pre = [] := List.length_eq_zero_iff.mp hn.symm
      subst this; exact ⟨0, rfl, rfl⟩
    | 1, hn, _ =>
      simp only [readUnsigned64, Nat.reduceEqDiff, ↓reduceIte, Parser.map_run,
        readArray_append hn.symm, Res.map_ok]
      refine ⟨_, rfl, ?_⟩
      rw [u64of_toNat (by simp [← hn])]; simp [beVal_zero_cons]
    | 2, hn, _ =>
      simp only [readUnsigned64, Nat.reduceEqDiff, ↓reduceIte, Parser.map_run,
        readArray_append hn.symm, Res.map_ok]
      refine ⟨_, rfl, ?_⟩
      rw [UInt16.toNat_toUInt64, u16of_toNat hn.symm]
    | 3, hn, _ =>
      simp only [readUnsigned64, Nat.reduceEqDiff, ↓reduceIte, Parser.map_run,
        readArray_append hn.symm, Res.map_ok]
      refine ⟨_, rfl, ?_⟩
      rw [UInt32.toNat_toUInt64, u32of_toNat (by simp [← hn])]; simp [beVal_zero_cons]
    | 4, hn, _ =>
      simp only [readUnsigned64, Nat.reduceEqDiff, ↓reduceIte, Parser.map_run,
        readArray_append hn.symm, Res.map_ok]
      refine ⟨_, rfl, ?_⟩
      rw [UInt32.toNat_toUInt64, u32of_toNat hn.symm]
    | 5, hn, _ =>
      simp only [readUnsigned64, Nat.reduceEqDiff, ↓reduceIte, Parser.map_run,
        readArray_append hn.symm, Res.map_ok]
      refine ⟨_, rfl, ?_⟩
      rw [u64of_toNat (by simp [← hn])]; simp [beVal_zero_cons]
    | 6, hn, _ =>
      simp only [readUnsigned64, Nat.reduceEqDiff, ↓reduceIte, Parser.map_run,
        readArray_append hn.symm, Res.map_ok]
      refine ⟨_, rfl, ?_⟩
      rw [u64of_toNat (by simp [← hn])]; simp [beVal_zero_cons]
    | 7, hn, _ =>
      simp only [readUnsigned64, Nat.reduceEqDiff, ↓reduceIte, Parser.map_run,
        readArray_append hn.symm, Res.map_ok]
      refine ⟨_, rfl, ?_⟩
      rw [u64of_toNat (by simp [← hn])]; simp [beVal_zero_cons]
    | 8, hn, _ =>
      simp only [readUnsigned64, Nat.reduceEqDiff, ↓reduceIte, Parser.map_run,
        readArray_append hn.symm, Res.map_ok]
      refine ⟨_, rfl, ?_⟩
      rw [u64of_toNat hn.symm]
  exact key _ rfl h

/-- sign extension by shifting, on bit vectors -/
theorem signExtend_shift (w k : Nat) (x : BitVec w) (hk : k < w) (hx : x.toNat < 2 ^ k)
    (hk0 : 0 < k) :
    (((x <<< (w - k)).sshiftRight (w - k)).toInt : Int) =
      if x.toNat < 2 ^ (k - 1) then (x.toNat : Int) else (x.toNat : Int) - 2 ^ k := by
  have hpow : (2 : Nat) ^ w = 2 ^ k * 2 ^ (w - k) := by rw [← Nat.pow_add]; congr 1; omega
  have hpow' : (2 : Nat) ^ (w - 1) = 2 ^ (k - 1) * 2 ^ (w - k) := by
    rw [← Nat.pow_add]; congr 1; omega
  have hkk : (2 : Nat) ^ k = 2 * 2 ^ (k - 1) := by
    rw [← Nat.pow_succ']; congr 1; omega
  have hs : 0 < 2 ^ (w - k) := Nat.pow_pos (by decide)
  have hsh : (x <<< (w - k)).toNat = x.toNat * 2 ^ (w - k) := by
    rw [BitVec.toNat_shiftLeft, Nat.shiftLeft_eq, Nat.mod_eq_of_lt]
    rw [hpow]; exact Nat.mul_lt_mul_of_pos_right hx hs
  rw [BitVec.toInt_sshiftRight, Int.shiftRight_eq_div_pow]
  rw [BitVec.toInt_eq_toNat_cond, hsh]
  have hcond : (2 * (x.toNat * 2 ^ (w - k)) < 2 ^ w) ↔ x.toNat < 2 ^ (k - 1) := by
    rw [hpow, hkk, Nat.mul_assoc]
    constructor
    · intro h
      exact Nat.lt_of_mul_lt_mul_right (Nat.lt_of_mul_lt_mul_left h)
    · intro h
      exact Nat.mul_lt_mul_of_pos_left (Nat.mul_lt_mul_of_pos_right h hs) (by decide)
  by_cases hc : x.toNat < 2 ^ (k - 1)
  · rw [if_pos (hcond.mpr hc), if_pos hc]
    push_cast
    rw [Int.mul_ediv_cancel]
    have : (0 : Int) < 2 ^ (w - k) := by exact_mod_cast hs
    omega
  · rw [if_neg (fun h => hc (hcond.mp h)), if_neg hc]
    push_cast
    have e : ((2 : Int) ^ w) = 2 ^ k * 2 ^ (w - k) := by exact_mod_cast hpow
    rw [e, ← Int.sub_mul, Int.mul_ediv_cancel]
    have : (0 : Int) < 2 ^ (w - k) := by exact_mod_cast hs
    omega

theorem beVal_cons_lt_iff (b : UInt8) (bs : Bytes) :
    beVal (b :: bs) < 2 ^ (8 * (bs.length + 1) - 1) ↔ b.toNat < 128 := by
  have e : (2 : Nat) ^ (8 * (bs.length + 1) - 1) = 128 * 256 ^ bs.length := by
    have : 8 * (bs.length + 1) - 1 = 7 + 8 * bs.length := by omega
    rw [this, Nat.pow_add, Nat.pow_mul]
  rw [e, beVal]
  have h := beVal_lt bs
  constructor
  · intro hlt
    by_cases hb : b.toNat < 128
    · exact hb
    · have : 128 * 256 ^ bs.length ≤ b.toNat * 256 ^ bs.length := Nat.mul_le_mul_right _ (by omega)
      omega
  · intro hb
    have : b.toNat * 256 ^ bs.length ≤ 127 * 256 ^ bs.length := Nat.mul_le_mul_right _ (by omega)
    omega

theorem pow_256 (n : Nat) : (2 : Nat) ^ (8 * n) = 256 ^ n := by rw [Nat.pow_mul]

/-- common part of the two signed readers -/
theorem signed_core (w : Nat) (x : BitVec w) (pre : Bytes) (hw : 0 < w) (hl : 8 * pre.length ≤ w)
    (hx : x.toNat = beVal pre) :
    ((x <<< ((w - 8 * pre.length) % w)).sshiftRight ((w - 8 * pre.length) % w)).toInt
      = signedVal pre := by
  match pre with
  | [] =>
    simp only [List.length_nil, Nat.mul_zero, Nat.sub_zero, Nat.mod_self]
    have : x = 0#w := by apply BitVec.eq_of_toNat_eq; rw [hx]; simp [beVal]
    subst this; simp [signedVal]
  | b :: bs =>
    have hx' : x.toNat < 2 ^ (8 * (b :: bs).length) := by
      rw [hx, pow_256]; exact beVal_lt _
    simp only [List.length_cons] at *
    rw [Nat.mod_eq_of_lt (by omega)]
    have hsv : signedVal (b :: bs) = if x.toNat < 2 ^ (8 * (bs.length + 1) - 1) then (x.toNat : Int)
        else (x.toNat : Int) - 2 ^ (8 * (bs.length + 1)) := by
      rw [signedVal, hx]
      by_cases hb : b.toNat < 128
      · rw [if_pos hb, if_pos ((beVal_cons_lt_iff b bs).mpr hb)]
      · rw [if_neg hb, if_neg (fun h => hb ((beVal_cons_lt_iff b bs).mp h))]
        congr 1
        have := pow_256 (bs.length + 1)
        simp only [List.length_cons]
        rw [show (2:Int) = ((2:Nat):Int) from rfl, show (256:Int) = ((256:Nat):Int) from rfl,
          ← Int.natCast_pow, ← Int.natCast_pow, this]
    rcases Nat.lt_or_ge (8 * (bs.length + 1)) w with h | h
    · rw [signExtend_shift w (8 * (bs.length + 1)) x h hx' (by omega), hsv]
    · have hw' : w = 8 * (bs.length + 1) := by omega
      rw [hsv, BitVec.toInt_sshiftRight]
      subst hw'
      simp only [Nat.sub_self, BitVec.shiftLeft_zero, Int.shiftRight_zero]
      rw [BitVec.toInt_eq_toNat_cond]
      have : (2 * x.toNat < 2 ^ (8 * (bs.length + 1))) ↔ x.toNat < 2 ^ (8 * (bs.length + 1) - 1) := by
        have e : (2 : Nat) ^ (8 * (bs.length + 1)) = 2 * 2 ^ (8 * (bs.length + 1) - 1) := by
          rw [← Nat.pow_succ']; congr 1
        omega
      simp only [this]
      push_cast
      rfl

/-- **C02 (signed, 32 bit).** -/
theorem c02_signed32 (pre rest : Bytes) (o : Nat) (h : pre.length ≤ 4) :
    ∃ v : Int32, readSigned32 pre.length ⟨pre ++ rest, o⟩ = (.ok v, ⟨rest, o + pre.length⟩) ∧
      v.toInt = signedVal pre := by
  obtain ⟨v, h1, h2⟩ := c02_unsigned32 pre rest o h
  refine ⟨Int32.ofBitVec ((v.toBitVec <<< (((4 - pre.length) * 8) % 32)).sshiftRight
    (((4 - pre.length) * 8) % 32)), ?_, ?_⟩
  · simp [readSigned32, h1]
  · rw [Int32.toInt_ofBitVec]
    have e : (4 - pre.length) * 8 = 32 - 8 * pre.length := by omega
    rw [e]
    exact signed_core 32 v.toBitVec pre (by decide) (by omega) h2

/-- **C02 (signed, 64 bit).** -/
theorem c02_signed64 (pre rest : Bytes) (o : Nat) (h : pre.length ≤ 8) :
    ∃ v : Int64, readSigned64 pre.length ⟨pre ++ rest, o⟩ = (.ok v, ⟨rest, o + pre.length⟩) ∧
      v.toInt = signedVal pre := by
  obtain ⟨v, h1, h2⟩ := c02_unsigned64 pre rest o h
  refine ⟨Int64.ofBitVec ((v.toBitVec <<< (((8 - pre.length) * 8) % 64)).sshiftRight
    (((8 - pre.length) * 8) % 64)), ?_, ?_⟩
  · simp [readSigned64, h1]
  · rw [Int64.toInt_ofBitVec]
    have e : (8 - pre.length) * 8 = 64 - 8 * pre.length := by omega
    rw [e]
    exact signed_core 64 v.toBitVec pre (by decide) (by omega) h2

/-- **C02 (rejection).** A length beyond the width is rejected without consuming anything, whatever the
buffer. -/
theorem c02_reject (len : Nat) (r : Reader) :
    (4 < len → readUnsigned32 len r = (.err (.invalidPaddingLength r.offset len 4), r) ∧
      readSigned32 len r = (.err (.invalidPaddingLength r.offset len 4), r)) ∧
    (8 < len → readUnsigned64 len r = (.err (.invalidPaddingLength r.offset len 8), r) ∧
      readSigned64 len r = (.err (.invalidPaddingLength r.offset len 8), r)) := by
  have h32 : 4 < len → readUnsigned32 len r = (.err (.invalidPaddingLength r.offset len 4), r) := by
    intro h
    simp only [readUnsigned32, show len ≠ 0 by omega, show len ≠ 1 by omega, show len ≠ 2 by omega,
      show len ≠ 3 by omega, show len ≠ 4 by omega, ↓reduceIte]
  have h64 : 8 < len → readUnsigned64 len r = (.err (.invalidPaddingLength r.offset len 8), r) := by
    intro h
    simp only [readUnsigned64, show len ≠ 0 by omega, show len ≠ 1 by omega, show len ≠ 2 by omega,
      show len ≠ 3 by omega, show len ≠ 4 by omega, show len ≠ 5 by omega, show len ≠ 6 by omega,
      show len ≠ 7 by omega, show len ≠ 8 by omega, ↓reduceIte]
  refine ⟨fun h => ⟨h32 h, ?_⟩, fun h => ⟨h64 h, ?_⟩⟩
  · simp [readSigned32, h32 h]
  · simp [readSigned64, h64 h]

example : (readSigned32 3 ⟨[0xFF, 0xFF, 0xFE, 9], 0⟩).1.toOption.map Int32.toInt = some (-2) := by
  decide
example : signedVal [0xFF, 0xFF, 0xFE] = -2 := by decide

end Verif.Props
