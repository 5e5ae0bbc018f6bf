import Verif.Core.RoundTrip
/-!
# A structural tactic for round-trip proofs

`preads` walks a parser and the octets it should read in lock step. The octets must be a right-nested
concatenation of the pieces the parser reads.
-/
namespace Verif
open Parser
variable {ε ε' α β : Type}

namespace Reads

/-- the last read of a parser: nothing is left for the continuation -/
theorem bind_last {p : Parser ε α} {f : α → Parser ε β} {a : α} {b : β} {v : Bytes}
    (hp : Reads p a v) (hf : Reads (f a) b []) : Reads (p >>= f) b v :=
  (hp.bind hf).congr rfl (by simp)

/-- a step that consumes nothing -/
theorem bind_nil {p : Parser ε α} {f : α → Parser ε β} {a : α} {b : β} {w : Bytes}
    (hp : Reads p a []) (hf : Reads (f a) b w) : Reads (p >>= f) b w :=
  (hp.bind hf).congr rfl (by simp)

/-- `read_u8` in front, without an error conversion -/
theorem u8_cons' {f : UInt8 → Parser ParseError β} {x : UInt8} {b : β} {w : Bytes}
    (h : Reads (f x) b w) : Reads (readU8 >>= f) b (x :: w) :=
  (reads_u8 x).bind h

theorem takeSlice' {f : Reader → Parser ParseError β} {v w : Bytes} {b : β} {n : Nat}
    (hn : v.length = n) (h : ∀ o, Reads (f ⟨v, o⟩) b w) :
    Reads (Verif.takeSlice n >>= f) b (v ++ w) :=
  ⟨fun bs o => by
    rw [List.append_assoc, Parser.bind_ok (takeSlice_append hn)]
    rw [(h o).run]; simp [← hn, Nat.add_assoc]⟩

/-- `let mut buf = cur.take_slice(n)?; while !buf.is_empty() { .. }`: a slice holding exactly a list of elements -/
theorem sliceMany {p : Parser ε α} {w : α → Bytes} {l : List α} {o : Nat}
    {f : List α × Reader → Parser ε β} {b : β} {v : Bytes}
    (hp : ∀ a ∈ l, Reads p a (w a)) (hne : ∀ a ∈ l, w a ≠ [])
    (h : ∀ s', s'.buf = [] → Reads (f (l, s')) b v) :
    Reads (Parser.onSub ⟨(l.map w).flatten, o⟩ (many p) >>= f) b v :=
  onSub (by rw [many_run]; exact parseAll_reads p w l hp hne o) (h _ rfl)

end Reads

/-! ## Reading a whole sub-reader -/

/-- `p` reads exactly the octets `w` when nothing follows them (parsers that look at how much is left) -/
structure ReadsAll (p : Parser ε α) (a : α) (w : Bytes) : Prop where
  run : ∀ o, p ⟨w, o⟩ = (.ok a, ⟨[], o + w.length⟩)

theorem Reads.all {p : Parser ε α} {a : α} {w : Bytes} (h : Reads p a w) : ReadsAll p a w :=
  ⟨fun o => h.runSub o⟩

namespace ReadsAll

theorem bind {p : Parser ε α} {f : α → Parser ε β} {a : α} {b : β} {v w : Bytes}
    (hp : Reads p a v) (hf : ReadsAll (f a) b w) : ReadsAll (p >>= f) b (v ++ w) := by
  refine ⟨fun o => ?_⟩
  rw [Parser.bind_ok (hp.run _ _), hf.run]
  simp [Nat.add_assoc]

theorem bind_nil {p : Parser ε α} {f : α → Parser ε β} {a : α} {b : β} {w : Bytes}
    (hp : Reads p a []) (hf : ReadsAll (f a) b w) : ReadsAll (p >>= f) b w := bind hp hf

theorem cons {p : Parser ε UInt8} {f : UInt8 → Parser ε β} {x : UInt8} {b : β} {w : Bytes}
    (hp : Reads p x [x]) (hf : ReadsAll (f x) b w) : ReadsAll (p >>= f) b (x :: w) := bind hp hf

/-- the last reader of the sub-reader -/
theorem bind_all {p : Parser ε α} {f : α → Parser ε β} {a : α} {b : β} {w : Bytes}
    (hp : ReadsAll p a w) (hf : Reads (f a) b []) : ReadsAll (p >>= f) b w := by
  refine ⟨fun o => ?_⟩
  rw [Parser.bind_ok (hp.run _)]
  have := hf.run [] (o + w.length)
  simpa using this

theorem mapErr {p : Parser ε α} {a : α} {w : Bytes} (g : ε → ε') (h : ReadsAll p a w) :
    ReadsAll (Parser.mapErr g p) a w := ⟨fun o => Parser.mapErr_ok (h.run o) g⟩

theorem congr {p : Parser ε α} {a b : α} {v w : Bytes} (h : ReadsAll p a v) (ha : a = b) (hw : v = w) :
    ReadsAll p b w := ha ▸ hw ▸ h

theorem getOffset {f : Nat → Parser ε β} {b : β} {w : Bytes} (h : ∀ o, ReadsAll (f o) b w) :
    ReadsAll (Parser.getOffset >>= f) b w :=
  ⟨fun o => by rw [Parser.bind_ok (Parser.getOffset_run _)]; exact (h o).run o⟩

theorem getRemaining {f : Nat → Parser ε β} {b : β} {w : Bytes} (h : ReadsAll (f w.length) b w) :
    ReadsAll (Parser.getRemaining >>= f) b w :=
  ⟨fun o => by rw [Parser.bind_ok (Parser.getRemaining_run _)]; exact h.run o⟩

theorem isEmpty {f : Bool → Parser ε β} {b : β} {w : Bytes} (h : ReadsAll (f w.isEmpty) b w) :
    ReadsAll (Parser.isEmpty >>= f) b w :=
  ⟨fun o => by rw [Parser.bind_ok (Parser.isEmpty_run _)]; exact h.run o⟩

theorem ite_pos {c : Prop} [Decidable c] {p q : Parser ε α} {a : α} {w : Bytes} (hc : c)
    (h : ReadsAll p a w) : ReadsAll (if c then p else q) a w := by rw [if_pos hc]; exact h

theorem ite_neg {c : Prop} [Decidable c] {p q : Parser ε α} {a : α} {w : Bytes} (hc : ¬ c)
    (h : ReadsAll q a w) : ReadsAll (if c then p else q) a w := by rw [if_neg hc]; exact h

/-- running on a sub-reader holding exactly the encoding -/
theorem onSub {o : Nat} {v : Bytes} {p : Parser ε α} {f : α × Reader → Parser ε β} {a : α} {b : β}
    {w : Bytes} (hs : ReadsAll p a v) (h : ∀ s', s'.buf = [] → Reads (f (a, s')) b w) :
    Reads (Parser.onSub ⟨v, o⟩ p >>= f) b w :=
  Reads.onSub (hs.run o) (h _ rfl)

/-- a loop over the whole input -/
theorem many {p : Parser ε α} {w : α → Bytes} {l : List α}
    (hp : ∀ a ∈ l, Reads p a (w a)) (hne : ∀ a ∈ l, w a ≠ []) :
    ReadsAll (Verif.many p) l (l.map w).flatten :=
  ⟨fun o => by rw [many_run]; exact parseAll_reads p w l hp hne o⟩

end ReadsAll

/-- one step of `preads` -/
macro "preads_step" : tactic => `(tactic| first
  | exact Reads.pure _
  | refine Reads.getOffset fun _ => ?_
  | refine Reads.u8_cons ?_
  | refine Reads.u8_cons' ?_
  | refine Reads.bind ((reads_u16 _).mapErr _) ?_
  | refine Reads.bind ((reads_u32 _).mapErr _) ?_
  | refine Reads.bind ((reads_u64 _).mapErr _) ?_
  | refine Reads.bind ((reads_u128 _).mapErr _) ?_
  | refine Reads.bind (reads_u16 _) ?_
  | refine Reads.bind (reads_u32 _) ?_
  | refine Reads.bind (reads_u64 _) ?_
  | refine Reads.bind (reads_u128 _) ?_
  | refine Reads.bind ((reads_array (by first | assumption | simp | simp_all)).mapErr _) ?_
  | refine Reads.bind (reads_array (by first | assumption | simp | simp_all)) ?_
  | refine Reads.bind ((reads_bytes (by first | assumption | simp | simp_all)).mapErr _) ?_
  | refine Reads.bind (reads_bytes (by first | assumption | simp | simp_all)) ?_
  | refine Reads.bind_last ((reads_u16 _).mapErr _) ?_
  | refine Reads.bind_last ((reads_u32 _).mapErr _) ?_
  | refine Reads.bind_last ((reads_u64 _).mapErr _) ?_
  | refine Reads.bind_last ((reads_u128 _).mapErr _) ?_
  | refine Reads.bind_last (reads_u16 _) ?_
  | refine Reads.bind_last (reads_u32 _) ?_
  | refine Reads.bind_last (reads_u64 _) ?_
  | refine Reads.bind_last (reads_u128 _) ?_
  | refine Reads.bind_last ((reads_array (by first | assumption | simp | simp_all)).mapErr _) ?_
  | refine Reads.bind_last (reads_array (by first | assumption | simp | simp_all)) ?_
  | refine Reads.bind_last ((reads_bytes (by first | assumption | simp | simp_all)).mapErr _) ?_
  | refine Reads.bind_last (reads_bytes (by first | assumption | simp | simp_all)) ?_)

/-- `preads [h₁, …]` proves `Reads p a w` structurally; the facts are `Reads` lemmas for sub-parsers. -/
syntax "preads" ("[" term,* "]")? : tactic
macro_rules
  | `(tactic| preads) => `(tactic| repeat preads_step)
  | `(tactic| preads [$t,*]) => do
    let ts := t.getElems
    let mut tac ← `(tactic| preads_step)
    for x in ts do
      tac ← `(tactic| first
        | exact $x | exact Reads.mapErr _ $x
        | refine Reads.bind (Reads.mapErr _ $x) ?_ | refine Reads.bind $x ?_
        | refine Reads.bind_last (Reads.mapErr _ $x) ?_ | refine Reads.bind_last $x ?_ | ($tac:tactic))
    `(tactic| repeat ($tac:tactic))

end Verif
