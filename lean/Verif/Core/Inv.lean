import Verif.Core.Reader
/-!
# Inversion: what a successful parse says about the input
-/
namespace Verif
namespace Parser
variable {ε ε' α β : Type} {r r' : Reader}

theorem bind_eq_ok {p : Parser ε α} {f : α → Parser ε β} {b : β} :
    (p >>= f) r = (.ok b, r') ↔ ∃ a r1, p r = (.ok a, r1) ∧ f a r1 = (.ok b, r') := by
  rw [bind_run]
  rcases h : p r with ⟨a | e | x, r1⟩
  · constructor
    · intro h2; exact ⟨a, r1, rfl, h2⟩
    · rintro ⟨a', r2, h1, h2⟩
      simp only [Prod.mk.injEq, Res.ok.injEq] at h1
      rw [← h1.1, ← h1.2] at h2; exact h2
  · simp
  · simp

theorem mapErr_eq_ok {p : Parser ε α} {g : ε → ε'} {a : α} :
    mapErr g p r = (.ok a, r') ↔ p r = (.ok a, r') := by
  rw [mapErr_run]
  rcases h : p r with ⟨a | e | x, r1⟩ <;> simp

theorem map_eq_ok {p : Parser ε α} {g : α → β} {b : β} :
    (g <$> p) r = (.ok b, r') ↔ ∃ a, p r = (.ok a, r') ∧ g a = b := by
  rw [map_run]
  rcases h : p r with ⟨a | e | x, r1⟩
  · simp only [Res.map_ok, Prod.mk.injEq, Res.ok.injEq]
    constructor
    · rintro ⟨h1, h2⟩; exact ⟨a, ⟨rfl, h2⟩, h1⟩
    · rintro ⟨a', ⟨h1, h2⟩, h3⟩; exact ⟨by rw [h1]; exact h3, h2⟩
  · simp
  · simp

theorem pure_eq_ok {a b : α} : (pure a : Parser ε α) r = (.ok b, r') ↔ a = b ∧ r = r' := by
  rw [pure_run]; simp

theorem fail_eq_ok {e : ε} {a : α} : (fail e : Parser ε α) r = (.ok a, r') ↔ False := by
  rw [fail_run]; simp

theorem ofOption_eq_ok {e : ε} {o : Option α} {a : α} :
    ofOption e o r = (.ok a, r') ↔ o = some a ∧ r = r' := by
  cases o <;> simp

theorem panic_eq_ok {a : α} : (panic : Parser ε α) r = (.ok a, r') ↔ False := by
  rw [panic_run]; simp

theorem ite_eq_ok {c : Prop} [Decidable c] {p q : Parser ε α} {a : α} :
    (if c then p else q) r = (.ok a, r') ↔ (c ∧ p r = (.ok a, r')) ∨ (¬ c ∧ q r = (.ok a, r')) := by
  split <;> simp [*]

theorem onSub_eq_ok {p : Parser ε α} {s s' : Reader} {a : α} :
    onSub s p r = (.ok (a, s'), r') ↔ p s = (.ok a, s') ∧ r = r' := by
  rw [onSub_run]
  rcases h : p s with ⟨a | e | x, r1⟩ <;> simp [and_assoc]

theorem onSub_eq_ok' {p : Parser ε α} {s : Reader} {x : α × Reader} :
    onSub s p r = (.ok x, r') ↔ p s = (.ok x.1, x.2) ∧ r = r' := by
  obtain ⟨a, s'⟩ := x; exact onSub_eq_ok

theorem getOffset_eq_ok {n : Nat} : (getOffset : Parser ε Nat) r = (.ok n, r') ↔ r.offset = n ∧ r = r' := by
  rw [getOffset_run]; simp
theorem getRemaining_eq_ok {n : Nat} :
    (getRemaining : Parser ε Nat) r = (.ok n, r') ↔ r.buf.length = n ∧ r = r' := by
  rw [getRemaining_run]; simp
theorem isEmpty_eq_ok {n : Bool} :
    (isEmpty : Parser ε Bool) r = (.ok n, r') ↔ r.buf.isEmpty = n ∧ r = r' := by
  rw [isEmpty_run]; simp
theorem get_eq_ok {n : Reader} : (get : Parser ε Reader) r = (.ok n, r') ↔ r = n ∧ r = r' := by
  rw [get_run]; simp

end Parser

variable {r r' : Reader}

theorem Reader.ext_iff' : r = r' ↔ r.buf = r'.buf ∧ r.offset = r'.offset := by
  cases r; cases r'; simp

theorem readU8_eq_ok {b : UInt8} :
    readU8 r = (.ok b, r') ↔ r.buf = b :: r'.buf ∧ r'.offset = r.offset + 1 := by
  obtain ⟨_ | ⟨c, bs⟩, o⟩ := r <;> obtain ⟨b', o'⟩ := r'
  · simp
  · simp only [readU8_cons, Prod.mk.injEq, Res.ok.injEq, Reader.mk.injEq, List.cons.injEq]
    constructor
    · rintro ⟨rfl, rfl, rfl⟩; simp
    · rintro ⟨⟨rfl, rfl⟩, rfl⟩; simp

theorem readArray_eq_ok {n : Nat} {b : Bytes} :
    readArray n r = (.ok b, r') ↔ r.buf = b ++ r'.buf ∧ b.length = n ∧ r'.offset = r.offset + n := by
  obtain ⟨bs, o⟩ := r; obtain ⟨bs', o'⟩ := r'
  unfold readArray
  simp only
  by_cases h : n ≤ bs.length
  · rw [if_pos h]
    simp only [Prod.mk.injEq, Res.ok.injEq, Reader.mk.injEq]
    constructor
    · rintro ⟨rfl, rfl, rfl⟩; simp [h]
    · rintro ⟨rfl, rfl, rfl⟩; simp
  · rw [if_neg h]
    simp only [Prod.mk.injEq, reduceCtorEq, false_and, false_iff, not_and]
    rintro rfl rfl; simp at h

theorem readBytes_eq_ok {n : Nat} {b : Bytes} :
    readBytes n r = (.ok b, r') ↔ r.buf = b ++ r'.buf ∧ b.length = n ∧ r'.offset = r.offset + n :=
  readArray_eq_ok

theorem takeSlice_eq_ok {n : Nat} {s : Reader} :
    takeSlice n r = (.ok s, r') ↔
      r.buf = s.buf ++ r'.buf ∧ s.buf.length = n ∧ s.offset = r.offset ∧ r'.offset = r.offset + n := by
  simp only [takeSlice, Parser.bind_eq_ok, Parser.getOffset_eq_ok, readBytes_eq_ok, Parser.pure_eq_ok]
  constructor
  · rintro ⟨_, _, ⟨rfl, rfl⟩, b, r1, ⟨h1, h2, h3⟩, rfl, rfl⟩
    exact ⟨h1, h2, rfl, h3⟩
  · rintro ⟨h1, h2, h3, h4⟩
    exact ⟨_, _, ⟨rfl, rfl⟩, s.buf, r', ⟨h1, h2, h4⟩, by cases s; simp_all, rfl⟩

theorem readU16_eq_ok {x : UInt16} :
    readU16 r = (.ok x, r') ↔ r.buf = u16be x ++ r'.buf ∧ r'.offset = r.offset + 2 := by
  simp only [readU16, Parser.map_eq_ok, readArray_eq_ok]
  constructor
  · rintro ⟨b, ⟨h1, h2, h3⟩, rfl⟩; exact ⟨by rw [u16be_u16of h2]; exact h1, h3⟩
  · rintro ⟨h1, h2⟩; exact ⟨u16be x, ⟨h1, by simp, h2⟩, by simp⟩
theorem readU32_eq_ok {x : UInt32} :
    readU32 r = (.ok x, r') ↔ r.buf = u32be x ++ r'.buf ∧ r'.offset = r.offset + 4 := by
  simp only [readU32, Parser.map_eq_ok, readArray_eq_ok]
  constructor
  · rintro ⟨b, ⟨h1, h2, h3⟩, rfl⟩; exact ⟨by rw [u32be_u32of h2]; exact h1, h3⟩
  · rintro ⟨h1, h2⟩; exact ⟨u32be x, ⟨h1, by simp, h2⟩, by simp⟩
theorem readU64_eq_ok {x : UInt64} :
    readU64 r = (.ok x, r') ↔ r.buf = u64be x ++ r'.buf ∧ r'.offset = r.offset + 8 := by
  simp only [readU64, Parser.map_eq_ok, readArray_eq_ok]
  constructor
  · rintro ⟨b, ⟨h1, h2, h3⟩, rfl⟩; exact ⟨by rw [u64be_u64of h2]; exact h1, h3⟩
  · rintro ⟨h1, h2⟩; exact ⟨u64be x, ⟨h1, by simp, h2⟩, by simp⟩
theorem readU128_eq_ok {x : BitVec 128} :
    readU128 r = (.ok x, r') ↔ r.buf = u128be x ++ r'.buf ∧ r'.offset = r.offset + 16 := by
  simp only [readU128, Parser.map_eq_ok, readArray_eq_ok]
  constructor
  · rintro ⟨b, ⟨h1, h2, h3⟩, rfl⟩; exact ⟨by rw [u128be_u128of h2]; exact h1, h3⟩
  · rintro ⟨h1, h2⟩; exact ⟨u128be x, ⟨h1, by simp, h2⟩, by simp⟩

theorem peekU32_eq_ok {x : UInt32} :
    peekU32 r = (.ok x, r') ↔ (∃ t, r.buf = u32be x ++ t) ∧ r = r' := by
  simp only [peekU32, Parser.map_eq_ok, peekArray]
  by_cases h : 4 ≤ r.buf.length
  · simp only [h, ↓reduceIte, Prod.mk.injEq, Res.ok.injEq]
    constructor
    · rintro ⟨b, ⟨rfl, rfl⟩, rfl⟩
      refine ⟨⟨r.buf.drop 4, ?_⟩, rfl⟩
      rw [u32be_u32of (by simp [h])]; simp
    · rintro ⟨⟨t, ht⟩, rfl⟩
      refine ⟨_, ⟨rfl, rfl⟩, ?_⟩
      rw [ht, List.take_left' (by simp)]; simp
  · simp only [h, ↓reduceIte, Prod.mk.injEq, reduceCtorEq, false_and, exists_false, false_iff, not_and]
    rintro ⟨t, ht⟩; rw [ht] at h; simp at h

theorem peekU16_eq_ok {x : UInt16} :
    peekU16 r = (.ok x, r') ↔ (∃ t, r.buf = u16be x ++ t) ∧ r = r' := by
  simp only [peekU16, Parser.map_eq_ok, peekArray]
  by_cases h : 2 ≤ r.buf.length
  · simp only [h, ↓reduceIte, Prod.mk.injEq, Res.ok.injEq]
    constructor
    · rintro ⟨b, ⟨rfl, rfl⟩, rfl⟩
      refine ⟨⟨r.buf.drop 2, ?_⟩, rfl⟩
      rw [u16be_u16of (by simp [h])]; simp
    · rintro ⟨⟨t, ht⟩, rfl⟩
      refine ⟨_, ⟨rfl, rfl⟩, ?_⟩
      rw [ht, List.take_left' (by simp)]; simp
  · simp only [h, ↓reduceIte, Prod.mk.injEq, reduceCtorEq, false_and, exists_false, false_iff, not_and]
    rintro ⟨t, ht⟩; rw [ht] at h; simp at h

/-- elements collected by the loop were each returned by the element parser -/
theorem parseAll_forall {ε α : Type} {p : Parser ε α} {Q : α → Prop}
    (hQ : ∀ r a r', p r = (.ok a, r') → Q a) {r r' : Reader} {l : List α}
    (h : parseAll p r = (.ok l, r')) : ∀ a ∈ l, Q a := by
  refine parseAll_ok_induction (Q := fun _ l _ => ∀ a ∈ l, Q a) (fun _ _ => by simp) ?_ h
  intro r a r1 as r2 hp _ _ ih x hx
  rcases List.mem_cons.mp hx with rfl | hx
  · exact hQ _ _ _ hp
  · exact ih x hx

end Verif
