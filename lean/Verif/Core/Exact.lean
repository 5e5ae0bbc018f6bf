import Verif.Core.Reads
import Verif.Core.Inv
/-!
# Parsers whose success depends on the octets they consume only

`ExactF p`: when `p i` succeeds, it read some octets `w`, and on the same octets every `p j` returns the same value,
whatever follows and wherever they are. The index is there for offsets, which only occur in errors.
-/
namespace Verif
namespace Parser
variable {ι ε ε' α β : Type}

/-- the success of `p i` depends on the octets consumed only, and is the same for all `i` -/
def ExactF (p : ι → Parser ε α) : Prop :=
  ∀ i r a r', p i r = (.ok a, r') →
    ∃ w, r.buf = w ++ r'.buf ∧ r'.offset = r.offset + w.length ∧ ∀ j, Reads (p j) a w

/-- the same for a single parser -/
def Exact (p : Parser ε α) : Prop :=
  ∀ r a r', p r = (.ok a, r') → ∃ w, r.buf = w ++ r'.buf ∧ r'.offset = r.offset + w.length ∧ Reads p a w

theorem ExactF.exact {p : ι → Parser ε α} (h : ExactF p) (i : ι) : Exact (p i) := fun r a r' he => by
  obtain ⟨w, h1, h2, h3⟩ := h i r a r' he
  exact ⟨w, h1, h2, h3 i⟩

theorem Exact.fam {p : Parser ε α} (h : Exact p) : ExactF fun _ : ι => p := fun _ r a r' he => by
  obtain ⟨w, h1, h2, h3⟩ := h r a r' he
  exact ⟨w, h1, h2, fun _ => h3⟩

theorem exact_pure (a : α) : Exact (pure a : Parser ε α) := fun r b r' h => by
  obtain ⟨rfl, rfl⟩ := pure_eq_ok.mp h
  exact ⟨[], rfl, rfl, Reads.pure a⟩
theorem exactF_fail (e : ι → ε) : ExactF fun i => (fail (e i) : Parser ε α) := fun i r b r' h => (fail_eq_ok.mp h).elim
theorem exactF_ofOption (e : ι → ε) (x : Option α) : ExactF fun i => ofOption (e i) x := fun i r b r' h => by
  obtain ⟨h1, rfl⟩ := ofOption_eq_ok.mp h
  exact ⟨[], rfl, rfl, fun _ => Reads.ofOption h1⟩
theorem exactF_bind {p : ι → Parser ε α} {f : ι → α → Parser ε β} (hp : ExactF p) (hf : ∀ a, ExactF fun i => f i a) :
    ExactF fun i => p i >>= f i := fun i r b r' h => by
  obtain ⟨a, r1, h1, h2⟩ := bind_eq_ok.mp h
  obtain ⟨v, e1, o1, k1⟩ := hp i r a r1 h1
  obtain ⟨w, e2, o2, k2⟩ := hf a i r1 b r' h2
  exact ⟨v ++ w, by rw [e1, e2, List.append_assoc], by rw [o2, o1, List.length_append, Nat.add_assoc],
    fun j => (k1 j).bind (k2 j)⟩
theorem exactF_getOffset {f : ι → Nat → Parser ε β} (h : ExactF fun x : ι × Nat => f x.1 x.2) :
    ExactF fun i => getOffset >>= f i := fun i r b r' hb => by
  obtain ⟨o, r1, h1, h2⟩ := bind_eq_ok.mp hb
  obtain ⟨rfl, rfl⟩ := getOffset_eq_ok.mp h1
  obtain ⟨w, e2, o2, k2⟩ := h (i, r.offset) r b r' h2
  exact ⟨w, e2, o2, fun j => Reads.getOffset fun o => k2 (j, o)⟩
theorem exactF_mapErr (g : ε → ε') {p : ι → Parser ε α} (h : ExactF p) : ExactF fun i => mapErr g (p i) :=
  fun i r a r' he => by
    obtain ⟨w, h1, h2, h3⟩ := h i r a r' (mapErr_eq_ok.mp he)
    exact ⟨w, h1, h2, fun j => (h3 j).mapErr g⟩
theorem exactF_map (g : α → β) {p : ι → Parser ε α} (h : ExactF p) : ExactF fun i => g <$> p i := fun i r b r' he => by
  obtain ⟨a, h0, rfl⟩ := map_eq_ok.mp he
  obtain ⟨w, h1, h2, h3⟩ := h i r a r' h0
  exact ⟨w, h1, h2, fun j => (h3 j).map g⟩
theorem exactF_ite {c : Prop} [Decidable c] {p q : ι → Parser ε α} (hp : c → ExactF p) (hq : ¬ c → ExactF q) :
    ExactF fun i => if c then p i else q i := by
  by_cases h : c
  · simp only [if_pos h]; exact hp h
  · simp only [if_neg h]; exact hq h
theorem exact_readArray (n : Nat) : Exact (readArray n) := fun r b r' h => by
  obtain ⟨h1, h2, h3⟩ := readArray_eq_ok.mp h
  exact ⟨b, h1, by rw [h3, h2], reads_array h2⟩
theorem exact_readU8 : Exact readU8 := fun r b r' h => by
  obtain ⟨h1, h2⟩ := readU8_eq_ok.mp h
  exact ⟨[b], h1, h2, reads_u8 b⟩
theorem exact_readU16 : Exact readU16 := fun r b r' h => by
  obtain ⟨h1, h2⟩ := readU16_eq_ok.mp h
  exact ⟨u16be b, h1, by simpa using h2, reads_u16 b⟩
theorem exact_readU32 : Exact readU32 := fun r b r' h => by
  obtain ⟨h1, h2⟩ := readU32_eq_ok.mp h
  exact ⟨u32be b, h1, by simpa using h2, reads_u32 b⟩
theorem exact_readU64 : Exact readU64 := fun r b r' h => by
  obtain ⟨h1, h2⟩ := readU64_eq_ok.mp h
  exact ⟨u64be b, h1, by simpa using h2, reads_u64 b⟩
theorem exact_readU128 : Exact readU128 := fun r b r' h => by
  obtain ⟨h1, h2⟩ := readU128_eq_ok.mp h
  exact ⟨u128be b, h1, by simpa using h2, reads_u128 b⟩
theorem exactF_err {p : ι → Parser ε α} (h : ∀ i r, ∃ e, (p i r).1 = .err e) : ExactF p := fun i r b r' he => by
  obtain ⟨e, h1⟩ := h i r
  rw [he] at h1; simp at h1

theorem exact_bind {p : Parser ε α} {f : α → Parser ε β} (hp : Exact p) (hf : ∀ a, Exact (f a)) : Exact (p >>= f) :=
  (exactF_bind (ι := Unit) hp.fam fun a => (hf a).fam).exact ()
theorem exact_mapErr (g : ε → ε') {p : Parser ε α} (h : Exact p) : Exact (mapErr g p) :=
  (exactF_mapErr (ι := Unit) g h.fam).exact ()
theorem exact_map (g : α → β) {p : Parser ε α} (h : Exact p) : Exact (g <$> p) :=
  (exactF_map (ι := Unit) g h.fam).exact ()
theorem exact_fail (e : ε) : Exact (fail e : Parser ε α) := (exactF_fail (ι := Unit) fun _ => e).exact ()
theorem exact_ofOption (e : ε) (x : Option α) : Exact (ofOption e x) := (exactF_ofOption (ι := Unit) (fun _ => e) x).exact ()
theorem exact_getOffset {f : Nat → Parser ε β} (h : ExactF f) : Exact (getOffset >>= f) := fun r b r' hb => by
  obtain ⟨o, r1, h1, h2⟩ := bind_eq_ok.mp hb
  obtain ⟨rfl, rfl⟩ := getOffset_eq_ok.mp h1
  obtain ⟨w, e2, o2, k2⟩ := h _ r b r' h2
  exact ⟨w, e2, o2, Reads.getOffset fun o => k2 o⟩
theorem exact_ite {c : Prop} [Decidable c] {p q : Parser ε α} (hp : c → Exact p) (hq : ¬ c → Exact q) :
    Exact (if c then p else q) := by
  by_cases h : c
  · rw [if_pos h]; exact hp h
  · rw [if_neg h]; exact hq h
theorem exact_err {p : Parser ε α} (h : ∀ r, ∃ e, (p r).1 = .err e) : Exact p := fun r b r' he => by
  obtain ⟨e, h1⟩ := h r
  rw [he] at h1; simp at h1

end Parser
end Verif
