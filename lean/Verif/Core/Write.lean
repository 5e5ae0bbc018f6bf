import Verif.Core.Reads
import Verif.Core.Safe
/-!
# Writers that may fail, and type-length-value elements

A writer of the code appends to an output and may return an error or panic. It is modelled by
`Res ε Bytes`: the octets appended, the error, or the fault. What was already written before an error is
not kept: an error aborts the whole message in every caller.
-/
namespace Verif
open Parser

namespace Res
variable {ε : Type}

/-- writing `a` and then `b` -/
def cat (a b : Res ε Bytes) : Res ε Bytes :=
  match a with
  | ok x => b.map (x ++ ·)
  | err e => err e
  | fault f => fault f

/-- writing the elements of a list in turn, `for x in .. { x.write(writer)?; }` -/
def catAll : List (Res ε Bytes) → Res ε Bytes
  | [] => ok []
  | a :: l => cat a (catAll l)

@[simp] theorem cat_ok (x y : Bytes) : cat (ok x : Res ε Bytes) (ok y) = ok (x ++ y) := rfl

theorem catAll_ok {α : Type} {f : α → Res ε Bytes} {g : α → Bytes} {l : List α}
    (h : ∀ a ∈ l, f a = ok (g a)) : catAll (l.map f) = ok (l.map g).flatten := by
  induction l with
  | nil => rfl
  | cons a l ih =>
    rw [List.map_cons, catAll, h a (List.mem_cons_self ..), ih fun b hb => h b (List.mem_cons_of_mem _ hb)]
    rfl

/-- a writer that cannot fail -/
theorem catAll_pure {α : Type} (g : α → Bytes) (l : List α) :
    catAll (l.map fun a => (ok (g a) : Res ε Bytes)) = ok (l.map g).flatten :=
  catAll_ok fun _ _ => rfl

theorem cat_eq_ok {a b : Res ε Bytes} {w : Bytes} (h : cat a b = ok w) :
    ∃ x y, a = ok x ∧ b = ok y ∧ w = x ++ y := by
  cases a with
  | ok x =>
    cases b with
    | ok y => exact ⟨x, y, rfl, rfl, by injection h with h; exact h.symm⟩
    | err => cases h
    | fault => cases h
  | err => cases h
  | fault => cases h

/-- nothing written faults -/
theorem cat_noFault {a b : Res ε Bytes} (ha : a.isFault = false) (hb : b.isFault = false) :
    (cat a b).isFault = false := by
  cases a <;> cases b <;> simp_all [cat]
end Res

/-! ## Type-length-value elements -/

section
variable {ε α : Type}

/-- `data.read_bytes(data.remaining())` -/
def restBytes (g : ParseError → ε) : Parser ε Bytes := do
  let n ← getRemaining
  mapErr g (readBytes n)

/-- `read_tlv_header_t16_l16`, `crates/bgp-pkt/src/wire/deserializer/mod.rs:448-458`, followed by what the
callers do with the slice: `body offset type length` runs on the slice; `offset` is the position of the
element. Octets of the slice left unread by `body` are dropped. -/
def tlv16 (g : ParseError → ε) (body : Nat → UInt16 → UInt16 → Parser ε α) : Parser ε α := do
  let o ← getOffset
  let t ← mapErr g readU16
  let l ← mapErr g readU16
  let d ← mapErr g (takeSlice l.toNat)
  let x ← onSub d (body o t l)
  pure x.1

/-- `read_tlv_header_t8_l16`, `crates/bgp-pkt/src/wire/deserializer/mod.rs:460-472` -/
def tlv8 (g : ParseError → ε) (body : Nat → UInt8 → UInt16 → Parser ε α) : Parser ε α := do
  let o ← getOffset
  let t ← mapErr g readU8
  let l ← mapErr g readU16
  let d ← mapErr g (takeSlice l.toNat)
  let x ← onSub d (body o t l)
  pure x.1

/-- `write_tlv_header_t16_l16(writer, type, len as u16)`,
`crates/bgp-pkt/src/wire/serializer/mod.rs:175-187`: `len` counts the header, the subtraction is in `u16` -/
def tlvHead16 (t : UInt16) (len : Nat) : Res ε Bytes :=
  if UInt16.ofNat len < 4 then .fault .panic else .ok (u16be t ++ u16be (UInt16.ofNat len - 4))

/-- `write_tlv_header_t8_l16(writer, type, len as u16)`,
`crates/bgp-pkt/src/wire/serializer/mod.rs:206-218` -/
def tlvHead8 (t : UInt8) (len : Nat) : Res ε Bytes :=
  if UInt16.ofNat len < 3 then .fault .panic else .ok (t :: u16be (UInt16.ofNat len - 3))

/-- the octets of a well formed element -/
def tlvBytes16 (t : UInt16) (v : Bytes) : Bytes := u16be t ++ (u16be (UInt16.ofNat v.length) ++ v)
def tlvBytes8 (t : UInt8) (v : Bytes) : Bytes := t :: (u16be (UInt16.ofNat v.length) ++ v)

@[simp] theorem length_tlvBytes16 (t : UInt16) (v : Bytes) : (tlvBytes16 t v).length = 4 + v.length := by
  simp [tlvBytes16]; omega
@[simp] theorem length_tlvBytes8 (t : UInt8) (v : Bytes) : (tlvBytes8 t v).length = 3 + v.length := by
  simp [tlvBytes8]; omega

theorem tlvHead16_ok {t : UInt16} {len : Nat} (h : len + 4 ≤ 65535) :
    (tlvHead16 t (4 + len) : Res ε Bytes) = .ok (u16be t ++ u16be (UInt16.ofNat len)) := by
  have e : (UInt16.ofNat (4 + len)).toNat = 4 + len := UInt16.toNat_ofNat_le (by omega)
  have e' : UInt16.ofNat (4 + len) - 4 = UInt16.ofNat len := by
    apply UInt16.toNat.inj
    rw [UInt16.toNat_sub_of_le _ _ (by rw [UInt16.le_iff_toNat_le, e]; show 4 ≤ 4 + len; omega), e,
      UInt16.toNat_ofNat_le (by omega)]
    show 4 + len - 4 = len; omega
  rw [tlvHead16, if_neg, e']
  rw [UInt16.lt_iff_toNat_lt, e]; show ¬ 4 + len < 4; omega

theorem tlvHead8_ok {t : UInt8} {len : Nat} (h : len + 3 ≤ 65535) :
    (tlvHead8 t (3 + len) : Res ε Bytes) = .ok (t :: u16be (UInt16.ofNat len)) := by
  have e : (UInt16.ofNat (3 + len)).toNat = 3 + len := UInt16.toNat_ofNat_le (by omega)
  have e' : UInt16.ofNat (3 + len) - 3 = UInt16.ofNat len := by
    apply UInt16.toNat.inj
    rw [UInt16.toNat_sub_of_le _ _ (by rw [UInt16.le_iff_toNat_le, e]; show 3 ≤ 3 + len; omega), e,
      UInt16.toNat_ofNat_le (by omega)]
    show 3 + len - 3 = len; omega
  rw [tlvHead8, if_neg, e']
  rw [UInt16.lt_iff_toNat_lt, e]; show ¬ 3 + len < 3; omega

/-- header and value of an element whose length function is right -/
theorem tlvWrite16_ok {t : UInt16} {len : Nat} {w : Res ε Bytes} {v : Bytes} (hw : w = .ok v)
    (hv : v.length = len) (h : len + 4 ≤ 65535) :
    Res.cat (tlvHead16 t (4 + len)) w = .ok (tlvBytes16 t v) := by
  subst hv hw; rw [tlvHead16_ok h]; simp [tlvBytes16]

theorem tlvWrite8_ok {t : UInt8} {len : Nat} {w : Res ε Bytes} {v : Bytes} (hw : w = .ok v)
    (hv : v.length = len) (h : len + 3 ≤ 65535) :
    Res.cat (tlvHead8 t (3 + len)) w = .ok (tlvBytes8 t v) := by
  subst hv hw; rw [tlvHead8_ok h]; simp [tlvBytes8]

theorem reads_tlv16 {g : ParseError → ε} {body : Nat → UInt16 → UInt16 → Parser ε α} {t : UInt16} {v : Bytes}
    {a : α} (hl : v.length ≤ 65535) (h : ∀ o, ReadsAll (body o t (UInt16.ofNat v.length)) a v) :
    Reads (tlv16 g body) a (tlvBytes16 t v) := by
  unfold tlv16 tlvBytes16
  refine Reads.getOffset fun o => ?_
  refine Reads.bind ((reads_u16 _).mapErr _) ?_
  refine Reads.bind ((reads_u16 _).mapErr _) ?_
  rw [← List.append_nil v]
  refine Reads.takeSlice (by rw [List.append_nil]; exact (UInt16.toNat_ofNat_le hl).symm) fun o' => ?_
  rw [List.append_nil]
  exact ReadsAll.onSub (h o) fun s' _ => Reads.pure a

theorem reads_tlv8 {g : ParseError → ε} {body : Nat → UInt8 → UInt16 → Parser ε α} {t : UInt8} {v : Bytes}
    {a : α} (hl : v.length ≤ 65535) (h : ∀ o, ReadsAll (body o t (UInt16.ofNat v.length)) a v) :
    Reads (tlv8 g body) a (tlvBytes8 t v) := by
  unfold tlv8 tlvBytes8
  refine Reads.getOffset fun o => ?_
  refine Reads.u8_cons ?_
  refine Reads.bind ((reads_u16 _).mapErr _) ?_
  rw [← List.append_nil v]
  refine Reads.takeSlice (by rw [List.append_nil]; exact (UInt16.toNat_ofNat_le hl).symm) fun o' => ?_
  rw [List.append_nil]
  exact ReadsAll.onSub (h o) fun s' _ => Reads.pure a

theorem readsAll_rest {g : ParseError → ε} (v : Bytes) : ReadsAll (restBytes g) v v := by
  unfold restBytes
  exact ReadsAll.getRemaining ((reads_bytes rfl).mapErr _).all

/-- `f <$> p` -/
theorem ReadsAll.map {β : Type} {p : Parser ε α} {a : α} {w : Bytes} (f : α → β) (h : ReadsAll p a w) :
    ReadsAll (f <$> p) (f a) w := ⟨fun o => by rw [Parser.map_run, h.run]; rfl⟩

theorem safe_restBytes (g : ParseError → ε) : Safe 0 (restBytes g) := by
  unfold restBytes
  exact safe_bind_r safe_getRemaining fun n => (safe_mapErr _ (safe_readBytes n)).zero

theorem safe_tlv16 {g : ParseError → ε} {body : Nat → UInt16 → UInt16 → Parser ε α}
    (h : ∀ o t l, Safe 0 (body o t l)) : Safe 4 (tlv16 g body) := by
  unfold tlv16
  refine safe_bind_r safe_getOffset fun o => ?_
  refine safe_bind (j := 2) (safe_mapErr _ safe_readU16) (k := 2) fun t => ?_
  refine safe_bind_l (safe_mapErr _ safe_readU16) fun l => ?_
  refine safe_bind_r (safe_mapErr _ (safe_takeSlice _)).zero fun d => ?_
  exact safe_bind_r (safe_onSub _ (h o t l)) fun x => safe_pure _

theorem safe_tlv8 {g : ParseError → ε} {body : Nat → UInt8 → UInt16 → Parser ε α}
    (h : ∀ o t l, Safe 0 (body o t l)) : Safe 3 (tlv8 g body) := by
  unfold tlv8
  refine safe_bind_r safe_getOffset fun o => ?_
  refine safe_bind (j := 1) (safe_mapErr _ safe_readU8) (k := 2) fun t => ?_
  refine safe_bind_l (safe_mapErr _ safe_readU16) fun l => ?_
  refine safe_bind_r (safe_mapErr _ (safe_takeSlice _)).zero fun d => ?_
  exact safe_bind_r (safe_onSub _ (h o t l)) fun x => safe_pure _

end
end Verif
