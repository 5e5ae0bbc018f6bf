import Verif.Core.Bytes
/-!
# Model of `netgauze_parse_utils::reader::SliceReader` and of parsers over it
-/
namespace Verif

/-- Abnormal outcomes of Rust code. `panic` is a Rust panic (index out of bounds, integer
underflow, `unwrap` on `None`, `unreachable!`), `hang` a loop that stops making progress. -/
inductive Fault | panic | hang
  deriving DecidableEq, Repr

/-- Outcome of a Rust function returning `Result<α, ε>`. -/
inductive Res (ε α : Type) where
  | ok (a : α)
  | err (e : ε)
  | fault (f : Fault)
  deriving DecidableEq, Repr

namespace Res
variable {ε ε' α β : Type}

def isOk : Res ε α → Bool | ok _ => true | _ => false
def isErr : Res ε α → Bool | err _ => true | _ => false
def isFault : Res ε α → Bool | fault _ => true | _ => false
def map (f : α → β) : Res ε α → Res ε β
  | ok a => ok (f a) | err e => err e | fault x => fault x
def mapErr (f : ε → ε') : Res ε α → Res ε' α
  | ok a => ok a | err e => err (f e) | fault x => fault x
def toOption : Res ε α → Option α | ok a => some a | _ => none

@[simp] theorem isOk_ok (a : α) : (ok a : Res ε α).isOk = true := rfl
@[simp] theorem isOk_err (e : ε) : (err e : Res ε α).isOk = false := rfl
@[simp] theorem isOk_fault (e) : (fault e : Res ε α).isOk = false := rfl
@[simp] theorem isErr_ok (a : α) : (ok a : Res ε α).isErr = false := rfl
@[simp] theorem isErr_err (e : ε) : (err e : Res ε α).isErr = true := rfl
@[simp] theorem isErr_fault (e) : (fault e : Res ε α).isErr = false := rfl
@[simp] theorem isFault_ok (a : α) : (ok a : Res ε α).isFault = false := rfl
@[simp] theorem isFault_err (e : ε) : (err e : Res ε α).isFault = false := rfl
@[simp] theorem isFault_fault (e) : (fault e : Res ε α).isFault = true := rfl
@[simp] theorem map_ok (f : α → β) (a : α) : (ok a : Res ε α).map f = ok (f a) := rfl
@[simp] theorem map_err (f : α → β) (e : ε) : (err e : Res ε α).map f = err e := rfl
@[simp] theorem map_fault (f : α → β) (e) : (fault e : Res ε α).map f = fault e := rfl
@[simp] theorem mapErr_ok (f : ε → ε') (a : α) : (ok a : Res ε α).mapErr f = ok a := rfl
@[simp] theorem mapErr_err (f : ε → ε') (e : ε) : (err e : Res ε α).mapErr f = err (f e) := rfl
@[simp] theorem mapErr_fault (f : ε → ε') (e) : (fault e : Res ε α).mapErr f = fault e := rfl
end Res

/-- `crates/parse-utils/src/reader.rs:33-37` `SliceReader { buf, offset }`: the bytes not yet read
and the absolute position of the first of them in the original buffer. -/
structure Reader where
  buf : Bytes
  offset : Nat
  deriving DecidableEq, Repr

/-- `crates/parse-utils/src/error.rs:21-40` -/
inductive ParseError where
  | eof (offset needed available : Nat)
  | invalidPaddingLength (offset requested retLen : Nat)
  deriving DecidableEq, Repr

/-- `crates/parse-utils/src/error.rs:62-69` -/
def ParseError.offset : ParseError → Nat
  | eof o _ _ => o
  | invalidPaddingLength o _ _ => o

/-- A Rust parser `fn parse(cur: &mut SliceReader) -> Result<α, ε>`; the cursor it leaves behind is
part of the result also when it fails. -/
abbrev Parser (ε α : Type) : Type := Reader → Res ε α × Reader

namespace Parser
variable {ε ε' α β : Type}

protected def pure (a : α) : Parser ε α := fun r => (.ok a, r)
protected def bind (p : Parser ε α) (f : α → Parser ε β) : Parser ε β := fun r =>
  match p r with
  | (.ok a, r') => f a r'
  | (.err e, r') => (.err e, r')
  | (.fault x, r') => (.fault x, r')

instance : Monad (Parser ε) where
  pure := Parser.pure
  bind := Parser.bind

/-- `return Err(e)` -/
def fail (e : ε) : Parser ε α := fun r => (.err e, r)
/-- `opt.ok_or(e)?` -/
def ofOption (e : ε) : Option α → Parser ε α
  | some a => fun r => (.ok a, r)
  | none => fun r => (.err e, r)
/-- a Rust panic -/
def panic : Parser ε α := fun r => (.fault .panic, r)
/-- `?` with a `From` conversion of the error -/
def mapErr (f : ε → ε') (p : Parser ε α) : Parser ε' α := fun r =>
  let x := p r; (x.1.mapErr f, x.2)
/-- `cur.offset()` -/
def getOffset : Parser ε Nat := fun r => (.ok r.offset, r)
/-- `cur.remaining()`, `crates/parse-utils/src/reader.rs:56-58` -/
def getRemaining : Parser ε Nat := fun r => (.ok r.buf.length, r)
/-- `cur.is_empty()`, `crates/parse-utils/src/reader.rs:61-63` -/
def isEmpty : Parser ε Bool := fun r => (.ok r.buf.isEmpty, r)
/-- `*cur` (the reader is `Copy`) -/
def get : Parser ε Reader := fun r => (.ok r, r)
/-- `*cur = save` -/
def set (s : Reader) : Parser ε Unit := fun _ => (.ok (), s)
/-- Run `p` on a separate reader `s` (a sub-reader obtained by `take_slice`); the current cursor is
not touched. Returns the value and the sub-reader afterwards. -/
def onSub (s : Reader) (p : Parser ε α) : Parser ε (α × Reader) := fun r =>
  match p s with
  | (.ok a, s') => (.ok (a, s'), r)
  | (.err e, _) => (.err e, r)
  | (.fault x, _) => (.fault x, r)

@[simp] theorem pure_run (a : α) (r : Reader) : (pure a : Parser ε α) r = (.ok a, r) := rfl
@[simp] theorem bind_run (p : Parser ε α) (f : α → Parser ε β) (r : Reader) :
    (p >>= f) r = match p r with
      | (.ok a, r') => f a r'
      | (.err e, r') => (.err e, r')
      | (.fault x, r') => (.fault x, r') := rfl
@[simp] theorem fail_run (e : ε) (r : Reader) : (fail e : Parser ε α) r = (.err e, r) := rfl
@[simp] theorem ofOption_some (e : ε) (a : α) : ofOption e (some a) = (pure a : Parser ε α) := rfl
@[simp] theorem ofOption_none (e : ε) : ofOption e none = (fail e : Parser ε α) := rfl
@[simp] theorem panic_run (r : Reader) : (panic : Parser ε α) r = (.fault .panic, r) := rfl
@[simp] theorem mapErr_run (f : ε → ε') (p : Parser ε α) (r : Reader) :
    (mapErr f p) r = ((p r).1.mapErr f, (p r).2) := rfl
@[simp] theorem getOffset_run (r : Reader) : (getOffset : Parser ε Nat) r = (.ok r.offset, r) := rfl
@[simp] theorem getRemaining_run (r : Reader) :
    (getRemaining : Parser ε Nat) r = (.ok r.buf.length, r) := rfl
@[simp] theorem isEmpty_run (r : Reader) :
    (isEmpty : Parser ε Bool) r = (.ok r.buf.isEmpty, r) := rfl
@[simp] theorem get_run (r : Reader) : (get : Parser ε Reader) r = (.ok r, r) := rfl
@[simp] theorem set_run (s r : Reader) : (set s : Parser ε Unit) r = (.ok (), s) := rfl
@[simp] theorem onSub_run (s : Reader) (p : Parser ε α) (r : Reader) :
    (onSub s p) r = match p s with
      | (.ok a, s') => (.ok (a, s'), r)
      | (.err e, _) => (.err e, r)
      | (.fault x, _) => (.fault x, r) := rfl
@[simp] theorem map_run (f : α → β) (p : Parser ε α) (r : Reader) :
    (f <$> p) r = ((p r).1.map f, (p r).2) := by
  show (p >>= fun a => pure (f a)) r = _
  rw [bind_run]
  rcases p r with ⟨(_ | _ | _), _⟩ <;> rfl
theorem ite_run (c : Prop) [Decidable c] (p q : Parser ε α) (r : Reader) :
    (if c then p else q) r = if c then p r else q r := by split <;> rfl
theorem bind_ok {p : Parser ε α} {r r' : Reader} {a : α} (h : p r = (.ok a, r'))
    (f : α → Parser ε β) : (p >>= f) r = f a r' := by rw [bind_run, h]
theorem bind_err {p : Parser ε α} {r r' : Reader} {e : ε} (h : p r = (.err e, r'))
    (f : α → Parser ε β) : (p >>= f) r = (.err e, r') := by rw [bind_run, h]
theorem mapErr_ok {p : Parser ε α} {r r' : Reader} {a : α} (h : p r = (.ok a, r'))
    (f : ε → ε') : mapErr f p r = (.ok a, r') := by rw [mapErr_run, h]; rfl
theorem mapErr_err {p : Parser ε α} {r r' : Reader} {e : ε} (h : p r = (.err e, r'))
    (f : ε → ε') : mapErr f p r = (.err (f e), r') := by rw [mapErr_run, h]; rfl
theorem onSub_ok {p : Parser ε α} {s s' : Reader} {a : α} (h : p s = (.ok a, s')) (r : Reader) :
    onSub s p r = (.ok (a, s'), r) := by rw [onSub_run, h]
end Parser

/-! ## `SliceReader` operations -/
namespace Reader

/-- `crates/parse-utils/src/reader.rs:41-43` -/
def new (b : Bytes) : Reader := ⟨b, 0⟩
end Reader

/-- `crates/parse-utils/src/reader.rs:72-81` `read_u8` -/
def readU8 : Parser ParseError UInt8 := fun r =>
  match r.buf with
  | v :: rest => (.ok v, ⟨rest, r.offset + 1⟩)
  | [] => (.err (.eof r.offset 1 0), r)

/-- `crates/parse-utils/src/reader.rs:85-94` `read_array::<N>`; the `[u8; N]` result is a list (its
length is `N` on success, see `readArray_ok_length`). `split_first_chunk` is take/drop. -/
def readArray (n : Nat) : Parser ParseError Bytes := fun r =>
  if n ≤ r.buf.length then (.ok (r.buf.take n), ⟨r.buf.drop n, r.offset + n⟩)
  else (.err (.eof r.offset n r.buf.length), r)

/-- `crates/parse-utils/src/reader.rs:97-99` -/
def readU16 : Parser ParseError UInt16 := u16of <$> readArray 2
/-- `crates/parse-utils/src/reader.rs:102-104` -/
def readU32 : Parser ParseError UInt32 := u32of <$> readArray 4
/-- `crates/parse-utils/src/reader.rs:107-109` -/
def readU64 : Parser ParseError UInt64 := u64of <$> readArray 8
/-- `crates/parse-utils/src/reader.rs:112-114` -/
def readU128 : Parser ParseError (BitVec 128) := u128of <$> readArray 16

/-- `crates/parse-utils/src/reader.rs:143-152` `read_bytes(len)` (`split_at_checked`). -/
def readBytes (n : Nat) : Parser ParseError Bytes := fun r =>
  if n ≤ r.buf.length then (.ok (r.buf.take n), ⟨r.buf.drop n, r.offset + n⟩)
  else (.err (.eof r.offset n r.buf.length), r)

/-- `crates/parse-utils/src/reader.rs:157-161` `take_slice(len)`. -/
def takeSlice (n : Nat) : Parser ParseError Reader := do
  let start ← Parser.getOffset
  let b ← readBytes n
  pure ⟨b, start⟩

/-- `crates/parse-utils/src/reader.rs:164-169` -/
def peekU8 : Parser ParseError UInt8 := fun r =>
  match r.buf with
  | v :: _ => (.ok v, r)
  | [] => (.err (.eof r.offset 1 0), r)

/-- `crates/parse-utils/src/reader.rs:183-188` -/
def peekArray (n : Nat) : Parser ParseError Bytes := fun r =>
  if n ≤ r.buf.length then (.ok (r.buf.take n), r)
  else (.err (.eof r.offset n r.buf.length), r)

/-- `crates/parse-utils/src/reader.rs:172-174` -/
def peekU16 : Parser ParseError UInt16 := u16of <$> peekArray 2
/-- `crates/parse-utils/src/reader.rs:177-179` -/
def peekU32 : Parser ParseError UInt32 := u32of <$> peekArray 4

/-- `crates/parse-utils/src/reader.rs:192-200` `read_padded::<N>(len)` -/
def readPadded (n len : Nat) : Parser ParseError Bytes := fun r =>
  if len > n then (.err (.invalidPaddingLength r.offset len n), r)
  else (do let src ← readBytes len; pure (src ++ List.replicate (n - len) 0) : Parser _ _) r

/-- `crates/parse-utils/src/reader.rs:214-226` `read_unsigned32_be(len)`, arm by arm. -/
def readUnsigned32 (len : Nat) : Parser ParseError UInt32 :=
  if len = 0 then pure 0
  else if len = 1 then (fun b => u32of ([0, 0, 0] ++ b)) <$> readArray 1
  else if len = 2 then (fun b => (u16of b).toUInt32) <$> readArray 2
  else if len = 3 then (fun b => u32of (0 :: b)) <$> readArray 3
  else if len = 4 then u32of <$> readArray 4
  else fun r => (.err (.invalidPaddingLength r.offset len 4), r)

/-- `crates/parse-utils/src/reader.rs:239-264` `read_unsigned64_be(len)`, arm by arm. -/
def readUnsigned64 (len : Nat) : Parser ParseError UInt64 :=
  if len = 0 then pure 0
  else if len = 1 then (fun b => u64of ([0, 0, 0, 0, 0, 0, 0] ++ b)) <$> readArray 1
  else if len = 2 then (fun b => (u16of b).toUInt64) <$> readArray 2
  else if len = 3 then (fun b => (u32of (0 :: b)).toUInt64) <$> readArray 3
  else if len = 4 then (fun b => (u32of b).toUInt64) <$> readArray 4
  else if len = 5 then (fun b => u64of ([0, 0, 0] ++ b)) <$> readArray 5
  else if len = 6 then (fun b => u64of ([0, 0] ++ b)) <$> readArray 6
  else if len = 7 then (fun b => u64of ([0] ++ b)) <$> readArray 7
  else if len = 8 then u64of <$> readArray 8
  else fun r => (.err (.invalidPaddingLength r.offset len 8), r)

/-- `crates/parse-utils/src/reader.rs:272-279` `read_signed32_be(len)`: `(v << shift) >> shift` on
`i32` with `shift = ((4 - len) * 8) & 31` (`4 - len` cannot underflow: a larger `len` has already
failed in `read_unsigned32_be`). -/
def readSigned32 (len : Nat) : Parser ParseError Int32 := do
  let v ← readUnsigned32 len
  let shift := ((4 - len) * 8) % 32
  pure (Int32.ofBitVec ((v.toBitVec <<< shift).sshiftRight shift))

/-- `crates/parse-utils/src/reader.rs:288-295` `read_signed64_be(len)` -/
def readSigned64 (len : Nat) : Parser ParseError Int64 := do
  let v ← readUnsigned64 len
  let shift := ((8 - len) * 8) % 64
  pure (Int64.ofBitVec ((v.toBitVec <<< shift).sshiftRight shift))

/-- `parseAll` below with an explicit bound on the number of iterations. -/
def parseAllF {ε α : Type} (p : Parser ε α) : Nat → Reader → Res ε (List α) × Reader
  | 0, r => (.ok [], r)
  | n + 1, r =>
    if r.buf = [] then (.ok [], r)
    else
      match p r with
      | (.ok a, r') =>
        if r'.buf.length < r.buf.length then
          match parseAllF p n r' with
          | (.ok as, r'') => (.ok (a :: as), r'')
          | (.err e, r'') => (.err e, r'')
          | (.fault x, r'') => (.fault x, r'')
        else (.fault .hang, r')
      | (.err e, r') => (.err e, r')
      | (.fault x, r') => (.fault x, r')

/-- `while !cur.is_empty() { out.push(p(cur)?) }`, the collection loop used throughout the
deserializers. An iteration that consumes nothing would be repeated forever by the Rust loop, so it is
reported as `hang`; hence the number of octets bounds the number of iterations and `parseAll` satisfies the
loop equation `parseAll_eq`. -/
def parseAll {ε α : Type} (p : Parser ε α) (r : Reader) : Res ε (List α) × Reader :=
  parseAllF p r.buf.length r

theorem parseAllF_ge {ε α : Type} (p : Parser ε α) (n : Nat) (r : Reader) (h : r.buf.length ≤ n) :
    parseAllF p n r = parseAll p r := by
  suffices ∀ n m r, r.buf.length ≤ n → r.buf.length ≤ m → parseAllF p n r = parseAllF p m r from
    this n r.buf.length r h (Nat.le_refl _)
  clear h r n
  intro n
  induction n with
  | zero =>
    intro m r h1 h2
    have hb : r.buf = [] := List.length_eq_zero_iff.mp (by omega)
    cases m <;> simp [parseAllF, hb]
  | succ n ih =>
    intro m r h1 h2
    cases m with
    | zero =>
      have hb : r.buf = [] := List.length_eq_zero_iff.mp (by omega)
      simp [parseAllF, hb]
    | succ m =>
      unfold parseAllF
      split
      · rfl
      · rcases p r with ⟨a | e | x, r'⟩
        · simp only
          split
          · rw [ih m r' (by omega) (by omega)]
          · rfl
        · rfl
        · rfl

/-- the loop equation -/
theorem parseAll_eq {ε α : Type} (p : Parser ε α) (r : Reader) :
    parseAll p r = if r.buf = [] then (.ok [], r)
      else
        match p r with
        | (.ok a, r') =>
          if r'.buf.length < r.buf.length then
            match parseAll p r' with
            | (.ok as, r'') => (.ok (a :: as), r'')
            | (.err e, r'') => (.err e, r'')
            | (.fault x, r'') => (.fault x, r'')
          else (.fault .hang, r')
        | (.err e, r') => (.err e, r')
        | (.fault x, r') => (.fault x, r') := by
  rw [← parseAllF_ge p (r.buf.length + 1) r (by omega)]
  unfold parseAllF
  split
  · rfl
  · rcases p r with ⟨a | e | x, r'⟩
    · simp only
      split
      · rw [parseAllF_ge p _ r' (by omega)]
      · rfl
    · rfl
    · rfl

/-- induction over a successful run of the loop -/
theorem parseAll_ok_induction {ε α : Type} {p : Parser ε α} {Q : Reader → List α → Reader → Prop}
    (nil : ∀ r, r.buf = [] → Q r [] r)
    (cons : ∀ r a r1 as r2, p r = (.ok a, r1) → r1.buf.length < r.buf.length →
      parseAll p r1 = (.ok as, r2) → Q r1 as r2 → Q r (a :: as) r2)
    {r r' : Reader} {l : List α} (h : parseAll p r = (.ok l, r')) : Q r l r' := by
  suffices ∀ n (r r' : Reader) (l : List α), r.buf.length = n → parseAll p r = (.ok l, r') → Q r l r' from
    this _ r r' l rfl h
  intro n
  induction n using Nat.strongRecOn with
  | ind n ih =>
    intro r r' l hn h
    rw [parseAll_eq] at h
    by_cases hb : r.buf = []
    · rw [if_pos hb] at h
      simp only [Prod.mk.injEq, Res.ok.injEq] at h
      obtain ⟨rfl, rfl⟩ := h
      exact nil _ hb
    · rw [if_neg hb] at h
      rcases hp : p r with ⟨a | e | x, r1⟩ <;> rw [hp] at h
      · simp only at h
        by_cases hlt : r1.buf.length < r.buf.length
        · rw [if_pos hlt] at h
          rcases hp2 : parseAll p r1 with ⟨as | e | x, r2⟩ <;> rw [hp2] at h
          · simp only [Prod.mk.injEq, Res.ok.injEq] at h
            obtain ⟨rfl, rfl⟩ := h
            exact cons r a r1 as r2 hp hlt hp2 (ih _ (by omega) r1 r2 as rfl hp2)
          · simp at h
          · simp at h
        · rw [if_neg hlt] at h; simp at h
      · simp at h
      · simp at h

/-- `parseAll` at the type of parsers. -/
def many {ε α : Type} (p : Parser ε α) : Parser ε (List α) := fun r => parseAll p r

@[simp] theorem many_run {ε α : Type} (p : Parser ε α) (r : Reader) : many p r = parseAll p r := rfl

/-- a loop that parses a concatenation of encodings -/
theorem parseAll_flatten {ε α : Type} (p : Parser ε α) (w : α → Bytes) (l : List α)
    (hp : ∀ a ∈ l, ∀ bs o, p ⟨w a ++ bs, o⟩ = (.ok a, ⟨bs, o + (w a).length⟩))
    (hne : ∀ a ∈ l, w a ≠ []) (o : Nat) :
    parseAll p ⟨(l.map w).flatten, o⟩ = (.ok l, ⟨[], o + (l.map w).flatten.length⟩) := by
  induction l generalizing o with
  | nil => rw [parseAll_eq]; simp
  | cons a l ih =>
    have ha := hp a (by simp)
    have hna := hne a (by simp)
    rw [parseAll_eq]
    simp only [List.map_cons, List.flatten_cons]
    rw [if_neg (by simp [hna]), ha]
    have hlen : 0 < (w a).length := List.length_pos_iff.mpr hna
    simp only [List.length_append]
    rw [if_pos (by omega)]
    rw [ih (fun a h => hp a (by simp [h])) (fun a h => hne a (by simp [h]))]
    simp only [Prod.mk.injEq, true_and]
    congr 1; omega

/-! ## Evaluation lemmas -/
section eval
variable {bs : Bytes} {o : Nat}

@[simp] theorem readU8_cons (b : UInt8) : readU8 ⟨b :: bs, o⟩ = (.ok b, ⟨bs, o + 1⟩) := rfl
@[simp] theorem readU8_nil : readU8 ⟨[], o⟩ = (.err (.eof o 1 0), ⟨[], o⟩) := rfl
@[simp] theorem peekU8_cons (b : UInt8) : peekU8 ⟨b :: bs, o⟩ = (.ok b, ⟨b :: bs, o⟩) := rfl

theorem readArray_append {a : Bytes} {n : Nat} (h : a.length = n) :
    readArray n ⟨a ++ bs, o⟩ = (.ok a, ⟨bs, o + n⟩) := by
  subst h; simp [readArray]
theorem readBytes_append {a : Bytes} {n : Nat} (h : a.length = n) :
    readBytes n ⟨a ++ bs, o⟩ = (.ok a, ⟨bs, o + n⟩) := by
  subst h; simp [readBytes]
theorem takeSlice_append {a : Bytes} {n : Nat} (h : a.length = n) :
    takeSlice n ⟨a ++ bs, o⟩ = (.ok ⟨a, o⟩, ⟨bs, o + n⟩) := by
  simp [takeSlice, readBytes_append h]
@[simp] theorem readU16_u16be (x) : readU16 ⟨u16be x ++ bs, o⟩ = (.ok x, ⟨bs, o + 2⟩) := by
  simp [readU16, readArray_append (length_u16be x)]
@[simp] theorem readU32_u32be (x) : readU32 ⟨u32be x ++ bs, o⟩ = (.ok x, ⟨bs, o + 4⟩) := by
  simp [readU32, readArray_append (length_u32be x)]
@[simp] theorem readU64_u64be (x) : readU64 ⟨u64be x ++ bs, o⟩ = (.ok x, ⟨bs, o + 8⟩) := by
  simp [readU64, readArray_append (length_u64be x)]
@[simp] theorem readU128_u128be (x) : readU128 ⟨u128be x ++ bs, o⟩ = (.ok x, ⟨bs, o + 16⟩) := by
  simp [readU128, readArray_append (length_u128be x)]
end eval

end Verif
