import Verif.Core.Reader
/-!
# Compositional round-trip reasoning

`Reads p a w`: whatever follows and wherever it starts, `p` reads the octets `w` as the value `a` and stops
right after them.
-/
namespace Verif
open Parser
variable {ε ε' α β : Type}

structure Reads (p : Parser ε α) (a : α) (w : Bytes) : Prop where
  run : ∀ bs o, p ⟨w ++ bs, o⟩ = (.ok a, ⟨bs, o + w.length⟩)

namespace Reads

theorem pure (a : α) : Reads (Pure.pure a : Parser ε α) a [] := ⟨fun bs o => by simp⟩

theorem bind {p : Parser ε α} {f : α → Parser ε β} {a : α} {b : β} {v w : Bytes}
    (hp : Reads p a v) (hf : Reads (f a) b w) : Reads (p >>= f) b (v ++ w) := by
  refine ⟨fun bs o => ?_⟩
  rw [List.append_assoc, Parser.bind_ok (hp.run _ _), hf.run]
  simp [Nat.add_assoc]

theorem mapErr {p : Parser ε α} {a : α} {w : Bytes} (g : ε → ε') (h : Reads p a w) :
    Reads (Parser.mapErr g p) a w := ⟨fun bs o => Parser.mapErr_ok (h.run bs o) g⟩

theorem map {p : Parser ε α} {a : α} {w : Bytes} (g : α → β) (h : Reads p a w) :
    Reads (g <$> p) (g a) w := ⟨fun bs o => by rw [Parser.map_run, h.run]; rfl⟩

theorem map' {p : Parser ε α} {a : α} {b : β} {w : Bytes} {g : α → β} (h : Reads p a w)
    (e : g a = b) : Reads (g <$> p) b w := e ▸ h.map g

theorem congr {p : Parser ε α} {a b : α} {v w : Bytes} (h : Reads p a v) (ha : a = b) (hw : v = w) :
    Reads p b w := ha ▸ hw ▸ h

theorem ite_pos {c : Prop} [Decidable c] {p q : Parser ε α} {a : α} {w : Bytes} (hc : c)
    (h : Reads p a w) : Reads (if c then p else q) a w := by rw [if_pos hc]; exact h

theorem ite_neg {c : Prop} [Decidable c] {p q : Parser ε α} {a : α} {w : Bytes} (hc : ¬ c)
    (h : Reads q a w) : Reads (if c then p else q) a w := by rw [if_neg hc]; exact h

theorem ofOption {e : ε} {o : Option α} {a : α} (h : o = some a) : Reads (Parser.ofOption e o) a [] := by
  rw [h]; exact Reads.pure a

theorem getOffset {f : Nat → Parser ε β} {b : β} {w : Bytes} (h : ∀ o, Reads (f o) b w) :
    Reads (Parser.getOffset >>= f) b w :=
  ⟨fun bs o => by rw [Parser.bind_ok (Parser.getOffset_run _)]; exact (h o).run bs o⟩

theorem getRemaining {f : Nat → Parser ε β} {b : β} {w : Bytes}
    (h : ∀ n, w.length ≤ n → Reads (f n) b w) : Reads (Parser.getRemaining >>= f) b w :=
  ⟨fun bs o => by
    rw [Parser.bind_ok (Parser.getRemaining_run _)]
    exact (h _ (by simp)).run bs o⟩

theorem onSub {s s' : Reader} {p : Parser ε α} {f : α × Reader → Parser ε β} {a : α} {b : β} {w : Bytes}
    (hs : p s = (.ok a, s')) (h : Reads (f (a, s')) b w) : Reads (Parser.onSub s p >>= f) b w :=
  ⟨fun bs o => by rw [Parser.bind_ok (Parser.onSub_ok hs _)]; exact h.run bs o⟩

/-- the whole slice is read: it is an encoding with nothing behind it -/
theorem runSub {p : Parser ε α} {a : α} {w : Bytes} (h : Reads p a w) (o : Nat) :
    p ⟨w, o⟩ = (.ok a, ⟨[], o + w.length⟩) := by
  have := h.run [] o; rwa [List.append_nil] at this

/-- running on a sub-reader holding exactly the encoding -/
theorem onSub' {o : Nat} {v : Bytes} {p : Parser ε α} {f : α × Reader → Parser ε β} {a : α} {b : β}
    {w : Bytes} (hs : Reads p a v) (h : ∀ s', s'.buf = [] → Reads (f (a, s')) b w) :
    Reads (Parser.onSub ⟨v, o⟩ p >>= f) b w :=
  onSub (hs.runSub o) (h _ rfl)

/-- the error conversion applied around a sub-reader -/
theorem onSub'' {o : Nat} {v : Bytes} {p : Parser ε α} {f : α × Reader → Parser ε' β} {g : ε → ε'}
    {a : α} {b : β} {w : Bytes} (hs : Reads p a v) (h : ∀ s', s'.buf = [] → Reads (f (a, s')) b w) :
    Reads (Parser.mapErr g (Parser.onSub ⟨v, o⟩ p) >>= f) b w :=
  ⟨fun bs o' => by
    rw [Parser.bind_ok (Parser.mapErr_ok (Parser.onSub_ok (hs.runSub o) _) g)]
    exact (h _ rfl).run bs o'⟩

end Reads

theorem reads_u8 (x : UInt8) : Reads readU8 x [x] := ⟨fun bs o => by simp⟩
theorem reads_u16 (x : UInt16) : Reads readU16 x (u16be x) := ⟨fun bs o => by simp⟩
theorem reads_u32 (x : UInt32) : Reads readU32 x (u32be x) := ⟨fun bs o => by simp⟩
theorem reads_u64 (x : UInt64) : Reads readU64 x (u64be x) := ⟨fun bs o => by simp⟩
theorem reads_u128 (x : BitVec 128) : Reads readU128 x (u128be x) := ⟨fun bs o => by simp⟩
theorem reads_bytes {b : Bytes} {n : Nat} (h : b.length = n) : Reads (readBytes n) b b :=
  ⟨fun bs o => by rw [readBytes_append h, h]⟩
theorem reads_array {b : Bytes} {n : Nat} (h : b.length = n) : Reads (readArray n) b b :=
  ⟨fun bs o => by rw [readArray_append h, h]⟩

/-- `read_u8` in front, with the octet split off the encoding -/
theorem Reads.u8_cons {f : UInt8 → Parser ε β} {g : ParseError → ε} {x : UInt8} {b : β} {w : Bytes}
    (h : Reads (f x) b w) : Reads (Parser.mapErr g readU8 >>= f) b (x :: w) :=
  ((reads_u8 x).mapErr g).bind h

theorem Reads.peekU8 {f : UInt8 → Parser ε β} {g : ParseError → ε} {x : UInt8} {b : β} {w : Bytes}
    (h : Reads (f x) b (x :: w)) : Reads (Parser.mapErr g Verif.peekU8 >>= f) b (x :: w) :=
  ⟨fun bs o => by
    rw [List.cons_append, Parser.bind_ok (Parser.mapErr_ok (peekU8_cons x) g)]
    exact h.run bs o⟩

theorem peekArray_append {b bs : Bytes} {n o : Nat} (h : b.length = n) :
    peekArray n ⟨b ++ bs, o⟩ = (.ok b, ⟨b ++ bs, o⟩) := by
  subst h; simp [peekArray]

theorem Reads.peekU16 {f : UInt16 → Parser ε β} {g : ParseError → ε} {x : UInt16} {b : β} {w : Bytes}
    (h : Reads (f x) b (u16be x ++ w)) :
    Reads (Parser.mapErr g Verif.peekU16 >>= f) b (u16be x ++ w) :=
  ⟨fun bs o => by
    have hp : Verif.peekU16 ⟨u16be x ++ w ++ bs, o⟩ = (.ok x, ⟨u16be x ++ w ++ bs, o⟩) := by
      rw [List.append_assoc, Verif.peekU16, Parser.map_run, peekArray_append (length_u16be x)]; simp
    rw [Parser.bind_ok (Parser.mapErr_ok hp g)]
    exact h.run bs o⟩

theorem Reads.peekU32 {f : UInt32 → Parser ε β} {g : ParseError → ε} {x : UInt32} {b : β} {w : Bytes}
    (h : Reads (f x) b (u32be x ++ w)) :
    Reads (Parser.mapErr g Verif.peekU32 >>= f) b (u32be x ++ w) :=
  ⟨fun bs o => by
    have hp : Verif.peekU32 ⟨u32be x ++ w ++ bs, o⟩ = (.ok x, ⟨u32be x ++ w ++ bs, o⟩) := by
      rw [List.append_assoc, Verif.peekU32, Parser.map_run, peekArray_append (length_u32be x)]; simp
    rw [Parser.bind_ok (Parser.mapErr_ok hp g)]
    exact h.run bs o⟩

theorem Reads.takeSlice {f : Reader → Parser ε β} {g : ParseError → ε} {v w : Bytes} {b : β} {n : Nat}
    (hn : v.length = n) (h : ∀ o, Reads (f ⟨v, o⟩) b w) :
    Reads (Parser.mapErr g (Verif.takeSlice n) >>= f) b (v ++ w) :=
  ⟨fun bs o => by
    rw [List.append_assoc, Parser.bind_ok (Parser.mapErr_ok (takeSlice_append hn) g)]
    rw [(h o).run]; simp [← hn, Nat.add_assoc]⟩

/-- the collection loop over a sub-reader -/
theorem parseAll_reads (p : Parser ε α) (w : α → Bytes) (l : List α)
    (hp : ∀ a ∈ l, Reads p a (w a)) (hne : ∀ a ∈ l, w a ≠ []) (o : Nat) :
    parseAll p ⟨(l.map w).flatten, o⟩ = (.ok l, ⟨[], o + (l.map w).flatten.length⟩) :=
  parseAll_flatten p w l (fun a h => (hp a h).run) hne o

theorem length_flatten_const {α : Type} (w : α → Bytes) (n : Nat) (l : List α)
    (h : ∀ a ∈ l, (w a).length = n) : (l.map w).flatten.length = n * l.length := by
  induction l with
  | nil => simp
  | cons a l ih =>
    simp only [List.map_cons, List.flatten_cons, List.length_append, h a (by simp),
      ih (fun x hx => h x (by simp [hx])), List.length_cons, Nat.mul_succ]
    omega

theorem length_flatten_sum {α : Type} (w : α → Bytes) (len : α → Nat) (l : List α)
    (h : ∀ a ∈ l, (w a).length = len a) : (l.map w).flatten.length = (l.map len).sum := by
  induction l with
  | nil => simp
  | cons a l ih =>
    simp only [List.map_cons, List.flatten_cons, List.length_append, h a (by simp),
      ih (fun x hx => h x (by simp [hx])), List.sum_cons]

theorem UInt8.toNat_ofNat_le {n : Nat} (h : n ≤ 255) : (UInt8.ofNat n).toNat = n := by
  rw [UInt8.toNat_ofNat']; omega
theorem UInt16.toNat_ofNat_le {n : Nat} (h : n ≤ 65535) : (UInt16.ofNat n).toNat = n := by
  rw [UInt16.toNat_ofNat']; omega

end Verif
