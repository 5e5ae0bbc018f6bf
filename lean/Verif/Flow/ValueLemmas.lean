import Verif.Flow.FieldLemmas
import Verif.Props.ParseUtils
/-!
# Which values survive being written and read back
-/
namespace Verif.Flow
open Parser Props

/-- A value which can be sent with the length `l` and read back: an integer has to fit in as many octets, octets have to be
as many (or fewer than `2 ^ 24` when the length is variable), a text of fixed length must not contain NUL nor be longer, a time must not
be finer than its type. -/
def Fits (l : UInt16) : Value → Prop
  | .octetArray v => if l = 65535 then v.length < 2 ^ 24 else v.length = l.toNat
  | .mpls _ => l = 3
  | .unsigned8 _ => l = 1
  | .unsigned16 v => l = 1 ∧ v.toNat < 256 ∨ l = 2
  | .tcpControlBits _ => l = 1 ∨ l = 2
  | .unsigned32 v => l.toNat ≤ 4 ∧ v.toNat < 256 ^ l.toNat
  | .unsigned64 v => l.toNat ≤ 8 ∧ v.toNat < 256 ^ l.toNat
  | .unsigned256 v => l.toNat ≤ 32 ∧ 256 ^ (32 - l.toNat) ∣ v.toNat
  | .signed32 v => (1 ≤ l.toNat ∧ l.toNat ≤ 4) ∧ -(128 * 256 ^ (l.toNat - 1) : Int) ≤ v.toInt ∧ v.toInt < 128 * 256 ^ (l.toNat - 1)
  | .float64 _ => l = 8
  | .boolean _ => l = 1
  | .macAddress _ => l = 6
  | .string v => if l = 65535 then (Bgp.utf8 v).length < 2 ^ 24 else (Bgp.utf8 v).length ≤ l.toNat ∧ 0 ∉ Bgp.utf8 v
  | .seconds t => l = 4 ∧ 0 ≤ t.secs ∧ t.secs < 2 ^ 32 ∧ t.nanos = 0
  | .millis t => l = 8 ∧ -8334601228800 ≤ t.secs ∧ t.secs ≤ 8210266876799 ∧ t.nanos < 1000000000 ∧ t.nanos % 1000000 = 0
  | .micros t | .nanos t => l = 8 ∧ 0 ≤ t.secs ∧ t.secs < 2 ^ 32 ∧ t.nanos = 0
  | .ipv4 _ => l = 4
  | .ipv6 _ => l = 16
  | .basicList v | .subTemplateList v | .subTemplateMultiList v => l ≠ 65535 ∧ v.length = l.toNat

theorem drop_beBytes {w l : Nat} (h : l ≤ w) (n : Nat) : (beBytes w n).drop (w - l) = beBytes l n := by
  have e := beVal_append ((beBytes w n).take (w - l)) ((beBytes w n).drop (w - l))
  have hl : ((beBytes w n).drop (w - l)).length = l := by rw [List.length_drop, length_beBytes]; omega
  rw [List.take_append_drop, beVal_beBytes, hl] at e
  refine beVal_inj (by rw [hl, length_beBytes]) ?_
  rw [beVal_beBytes]
  have h2 := beVal_lt ((beBytes w n).drop (w - l))
  rw [hl] at h2
  have h3 : n % 256 ^ w % 256 ^ l = n % 256 ^ l := Nat.mod_mod_of_dvd _ (Nat.pow_dvd_pow _ h)
  rw [← h3, e, Nat.mul_comm, Nat.mul_add_mod, Nat.mod_eq_of_lt h2]

theorem take_beBytes {w l : Nat} (h : l ≤ w) {n : Nat} (hn : n < 256 ^ w) (hd : 256 ^ (w - l) ∣ n) :
    (beBytes w n).take l ++ List.replicate (w - l) 0 = beBytes w n := by
  conv => rhs; rw [← List.take_append_drop l (beBytes w n)]
  congr 1
  have hz := drop_beBytes (w := w) (l := w - l) (by omega) n
  rw [show w - (w - l) = l by omega] at hz
  rw [hz]
  refine (beVal_inj (by simp) ?_)
  rw [beVal_beBytes, Nat.mod_eq_zero_of_dvd hd]
  generalize w - l = k
  induction k with
  | zero => rfl
  | succ k ih => rw [List.replicate_succ]; simp [beVal] at ih ⊢; exact ih

theorem reads_unsigned32 {l : Nat} {v : UInt32} (h : l ≤ 4) (hv : v.toNat < 256 ^ l) :
    Reads (readUnsigned32 l) v (beBytes l v.toNat) := ⟨fun rest o => by
  obtain ⟨x, hx, he⟩ := c02_unsigned32 (beBytes l v.toNat) rest o (by rw [length_beBytes]; exact h)
  rw [length_beBytes] at hx
  rw [hx, length_beBytes, UInt32.toNat.inj (he.trans (beVal_beBytes_of_lt hv))]⟩

theorem reads_unsigned64 {l : Nat} {v : UInt64} (h : l ≤ 8) (hv : v.toNat < 256 ^ l) :
    Reads (readUnsigned64 l) v (beBytes l v.toNat) := ⟨fun rest o => by
  obtain ⟨x, hx, he⟩ := c02_unsigned64 (beBytes l v.toNat) rest o (by rw [length_beBytes]; exact h)
  rw [length_beBytes] at hx
  rw [hx, length_beBytes, UInt64.toNat.inj (he.trans (beVal_beBytes_of_lt hv))]⟩

theorem signedVal_eq {b : Bytes} {n : Nat} (h : b.length = n + 1) :
    signedVal b = if beVal b < 128 * 256 ^ n then (beVal b : Int) else (beVal b : Int) - 256 ^ (n + 1) := by
  match b, h with
  | c :: bs, h =>
    have hl : bs.length = n := by simpa using h
    have hlt := beVal_lt bs
    have e : beVal (c :: bs) = c.toNat * 256 ^ n + beVal bs := by
      have := beVal_append [c] bs
      rw [hl] at this
      simpa [beVal] using this
    rw [hl] at hlt
    unfold signedVal
    simp only [h]
    by_cases hc : c.toNat < 128
    · rw [if_pos hc, if_pos]
      rw [e]
      calc c.toNat * 256 ^ n + beVal bs < c.toNat * 256 ^ n + 256 ^ n := by omega
        _ = (c.toNat + 1) * 256 ^ n := by rw [Nat.add_mul, Nat.one_mul]
        _ ≤ 128 * 256 ^ n := Nat.mul_le_mul_right _ hc
    · rw [if_neg hc, if_neg]
      rw [e]
      have : 128 * 256 ^ n ≤ c.toNat * 256 ^ n := Nat.mul_le_mul_right _ (by omega)
      omega

theorem reads_signed32 {l : Nat} {v : Int32} (h : 1 ≤ l ∧ l ≤ 4) (h1 : -(128 * 256 ^ (l - 1) : Int) ≤ v.toInt)
    (h2 : v.toInt < 128 * 256 ^ (l - 1)) : Reads (readSigned32 l) v (beBytes l v.toBitVec.toNat) := ⟨fun rest o => by
  obtain ⟨x, hx, he⟩ := c02_signed32 (beBytes l v.toBitVec.toNat) rest o (by rw [length_beBytes]; exact h.2)
  rw [length_beBytes] at hx
  rw [hx, length_beBytes]
  congr 2
  refine Int32.toInt.inj (he.trans ?_)
  obtain ⟨k, rfl⟩ : ∃ k, l = k + 1 := ⟨l - 1, by omega⟩
  rw [signedVal_eq (length_beBytes _ _), beVal_beBytes]
  have hv : v.toInt = if 2 * v.toBitVec.toNat < 4294967296 then (v.toBitVec.toNat : Int) else (v.toBitVec.toNat : Int) - 4294967296 := by
    rw [show v.toInt = v.toBitVec.toInt from rfl, BitVec.toInt_eq_toNat_cond]
    rfl
  have hb := v.toBitVec.isLt
  generalize v.toBitVec.toNat = n at *
  simp only [Nat.add_sub_cancel] at h1 h2
  have : k = 0 ∨ k = 1 ∨ k = 2 ∨ k = 3 := by omega
  rcases this with rfl | rfl | rfl | rfl <;> simp only [Nat.reducePow, Nat.reduceAdd] at * <;> split at hv <;> split <;> omega⟩

theorem reads_lenPrefix {n : Nat} (h : n < 2 ^ 24) : Reads readVarLen n (lenPrefix n) := by
  unfold lenPrefix readVarLen
  by_cases hc : n < 255
  · rw [if_pos hc]
    have hn : (UInt8.ofNat n).toNat = n := UInt8.toNat_ofNat_of_lt' (by simp only [UInt8.size]; omega)
    refine (reads_u8 _).bind_last ?_
    rw [if_neg (by intro he; rw [he] at hn; have : (255 : UInt8).toNat = 255 := rfl; omega), hn]
    exact Reads.pure _
  · rw [if_neg hc]
    refine Reads.u8_cons' ?_
    rw [if_pos rfl]
    have hn : (UInt32.ofNat n).toNat = n := UInt32.toNat_ofNat_of_lt' (by simp only [UInt32.size]; omega)
    have := reads_unsigned32 (l := 3) (v := UInt32.ofNat n) (by omega) (by rw [hn]; omega)
    rw [hn] at this
    refine this.bind_last ?_
    rw [hn]
    exact Reads.pure _

theorem length_lenPrefix (n : Nat) : (lenPrefix n).length = lenPrefixLen n := by
  unfold lenPrefix lenPrefixLen; split <;> simp

theorem reads_octets {l : UInt16} {v : Bytes} (h : if l = 65535 then v.length < 2 ^ 24 else v.length = l.toNat) (bare : Bool) :
    Reads (readOctets l) v (writeOctets bare v (some l)) ∧ (writeOctets bare v (some l)).length = octetsLen bare v.length (some l) := by
  unfold readOctets writeOctets octetsLen
  by_cases hc : l = 65535
  · rw [if_pos hc] at h
    simp only [if_pos hc]
    exact ⟨(reads_lenPrefix h).bind (reads_bytes rfl), by rw [List.length_append, length_lenPrefix]⟩
  · rw [if_neg hc] at h
    simp only [if_neg hc]
    refine ⟨(Reads.pure _).bind_nil ?_, ?_⟩
    · unfold zeroFill
      rw [h, Nat.sub_self, List.replicate_zero, List.append_nil]
      exact reads_bytes h
    · rw [zeroFill, List.length_append, List.length_replicate]; omega

theorem takeWhile_nul {v : Bytes} (h : 0 ∉ v) (n : Nat) : untilNul (v ++ List.replicate n 0) = v := by
  unfold untilNul
  rw [List.takeWhile_append_of_pos (fun x hx => by simp; rintro rfl; exact h hx)]
  cases n <;> simp [List.replicate_succ]

theorem reads_string {l : UInt16} {v : String}
    (h : if l = 65535 then (Bgp.utf8 v).length < 2 ^ 24 else (Bgp.utf8 v).length ≤ l.toNat ∧ 0 ∉ Bgp.utf8 v) :
    Reads (readString l) v (writeOctets false (Bgp.utf8 v) (some l)) ∧
      (writeOctets false (Bgp.utf8 v) (some l)).length = octetsLen false (Bgp.utf8 v).length (some l) := by
  unfold readString writeOctets octetsLen
  by_cases hc : l = 65535
  · rw [if_pos hc] at h
    simp only [if_pos hc]
    refine ⟨((reads_lenPrefix h).mapErr _).bind (Reads.getOffset fun o => ?_), by rw [List.length_append, length_lenPrefix]⟩
    exact ((reads_bytes rfl).mapErr _).bind_last (Reads.ofOption (Bgp.ofUtf8_utf8 v))
  · rw [if_neg hc] at h
    simp only [if_neg hc]
    have hl : (zeroFill (Bgp.utf8 v) l).length = l.toNat := by
      rw [zeroFill, List.length_append, List.length_replicate]; omega
    refine ⟨Reads.getOffset fun o => ?_, hl⟩
    refine ((reads_bytes hl).mapErr _).bind_last (Reads.ofOption ?_)
    rw [zeroFill, takeWhile_nul h.2]
    exact Bgp.ofUtf8_utf8 v

theorem reads_exactly {n : Nat} {l : UInt16} (h : l.toNat = n) : Reads (exactly n l) () [] := by
  unfold exactly; rw [if_neg (by omega)]; exact Reads.pure _

theorem reads_atMost {n : Nat} {l : UInt16} (h : l.toNat ≤ n) : Reads (atMost n l) () [] := by
  unfold atMost; rw [if_neg (by omega)]; exact Reads.pure _

theorem writeInt_eq {w n : Nat} {l : UInt16} (h : l.toNat ≤ w) : writeInt w n (some l) = .ok (beBytes l.toNat n) := by
  unfold writeInt; simp only; rw [if_neg (by omega), drop_beBytes h]

theorem reads_short {l : UInt16} {v : UInt16} (h : l = 1 ∧ v.toNat < 256 ∨ l = 2) :
    Reads (readShort l) v (beBytes l.toNat v.toNat) := by
  unfold readShort
  rcases h with ⟨rfl, h⟩ | rfl
  · rw [if_pos rfl]
    have : beBytes (1 : UInt16).toNat v.toNat = [v.toUInt8] := by
      refine beVal_inj (by simp) ?_
      rw [beVal_beBytes]; simp [beVal, UInt16.toNat_toUInt8]
    rw [this]
    refine ((reads_u8 _).mapErr _).bind_last ?_
    rw [show v.toUInt8.toUInt16 = v from UInt16.toNat.inj (by simp [UInt16.toNat_toUInt8]; omega)]
    exact Reads.pure _
  · rw [if_neg (by decide), if_pos rfl]
    exact (reads_u16 v).mapErr _

theorem reads_fraction {t : Time} (h : 0 ≤ t.secs ∧ t.secs < 2 ^ 32 ∧ t.nanos = 0) :
    Reads (readFraction 8) t (writeFraction t) := by
  obtain ⟨s, n⟩ := t
  obtain ⟨h1, h2, rfl⟩ := h
  simp only at h1 h2
  unfold readFraction writeFraction
  refine (reads_exactly rfl).bind_nil (Reads.getOffset fun o => ((reads_u32 _).mapErr _).bind (((reads_u32 _).mapErr _).bind_last (Reads.ofOption ?_)))
  have hs : ((UInt32.ofNat (s % 4294967296).toNat).toNat : Int) = s := by
    rw [UInt32.toNat_ofNat_of_lt' (by simp only [UInt32.size]; omega)]; omega
  simp only [hs, Nat.zero_mul, Nat.zero_div]
  show Time.make s (fractionNanos 0) = _
  unfold Time.make fractionNanos
  rw [if_pos rfl, if_pos (by omega)]

theorem toNat_mod (l : UInt16) (n : Nat) (h : l.toNat = n) (hn : n < 65536) : l = UInt16.ofNat n := by
  subst h; simp

/-- a value that fits is written in as many octets as `len` says, and read back -/
theorem value_write {l : UInt16} {v : Value} (h : Fits l v) :
    ∃ w, v.write (some l) = .ok w ∧ Reads (Value.parse v.kind l) v w ∧ w.length = v.len (some l) := by
  cases v <;> simp only [Fits] at h <;> simp only [Value.write, Value.kind, Value.parse, Value.len]
  case octetArray v =>
    exact ⟨_, rfl, ((reads_octets h true).1.mapErr _).bind_last (Reads.pure _), (reads_octets h true).2⟩
  case mpls v =>
    subst h
    have hl : (beBytes 3 v.toNat).length = (3 : UInt16).toNat := by simp
    refine ⟨_, rfl, (reads_exactly rfl).bind_nil ?_, (reads_octets (by simpa using hl) true).2.trans (by simp)⟩
    have : writeOctets true (beBytes 3 v.toNat) (some 3) = beBytes 3 v.toNat := by
      simp [writeOctets, zeroFill]
    rw [this]
    refine ((reads_bytes (length_beBytes 3 _)).mapErr _).bind_last ?_
    rw [beVal_beBytes_of_lt v.isLt, BitVec.ofNat_toNat, BitVec.setWidth_eq]
    exact Reads.pure _
  case unsigned8 v => subst h; exact ⟨_, rfl, (reads_exactly rfl).bind_nil (((reads_u8 v).mapErr _).bind_last (Reads.pure _)), rfl⟩
  case unsigned16 v =>
    have hl : l.toNat ≤ 2 := by rcases h with ⟨rfl, _⟩ | rfl <;> decide
    exact ⟨_, writeInt_eq hl, (reads_short h).bind_last (Reads.pure _), by simp⟩
  case tcpControlBits v =>
    have hl : l.toNat ≤ 2 := by rcases h with rfl | rfl <;> decide
    have hs := reads_short (l := l) (v := v.toUInt16) (by
      rcases h with rfl | rfl
      · exact .inl ⟨rfl, by have := v.toNat_lt; rw [UInt8.toNat_toUInt16]; omega⟩
      · exact .inr rfl)
    rw [UInt8.toNat_toUInt16] at hs
    refine ⟨_, writeInt_eq hl, hs.bind_last ?_, by simp⟩
    rw [show v.toUInt16.toUInt8 = v by simp]
    exact Reads.pure _
  case unsigned32 v =>
    exact ⟨_, writeInt_eq h.1, (reads_atMost h.1).bind_nil (((reads_unsigned32 h.1 h.2).mapErr _).bind_last (Reads.pure _)), by simp⟩
  case unsigned64 v =>
    exact ⟨_, writeInt_eq h.1, (reads_atMost h.1).bind_nil (((reads_unsigned64 h.1 h.2).mapErr _).bind_last (Reads.pure _)), by simp⟩
  case unsigned256 v =>
    obtain ⟨h, hd⟩ := h
    refine ⟨(beBytes 32 v.toNat).take l.toNat, by rw [if_neg (by omega)], (reads_atMost h).bind_nil ?_, by simp; omega⟩
    have hp : Reads (readPadded 32 l.toNat) (beBytes 32 v.toNat) ((beBytes 32 v.toNat).take l.toNat) := ⟨fun rest o => by
      have hb : (List.take l.toNat (beBytes 32 v.toNat)).length = l.toNat := by simp; omega
      unfold readPadded
      rw [if_neg (by omega)]
      have := ((reads_bytes hb).bind_last (f := fun src => (pure (src ++ List.replicate (32 - l.toNat) 0) : Parser ParseError Bytes))
        (Reads.pure _)).run rest o
      rw [take_beBytes h v.isLt hd] at this
      exact this⟩
    refine (hp.mapErr _).bind_last ?_
    rw [beVal_beBytes_of_lt v.isLt, BitVec.ofNat_toNat, BitVec.setWidth_eq]
    exact Reads.pure _
  case signed32 v =>
    obtain ⟨hl, h1, h2⟩ := h
    exact ⟨_, writeInt_eq hl.2, (reads_atMost (by omega)).bind_nil (((reads_signed32 hl h1 h2).mapErr _).bind_last (Reads.pure _)), by simp⟩
  case float64 v =>
    subst h
    exact ⟨_, writeInt_eq (by decide), (reads_exactly rfl).bind_nil (((reads_u64 v).mapErr _).bind_last (Reads.pure _)), by simp⟩
  case boolean v =>
    subst h
    refine ⟨_, rfl, (reads_exactly rfl).bind_nil (((reads_u8 _).mapErr _).bind_last ?_), rfl⟩
    cases v <;> exact Reads.pure _
  case macAddress v =>
    subst h
    refine ⟨_, rfl, (reads_exactly rfl).bind_nil (((reads_bytes (length_beBytes 6 _)).mapErr _).bind_last ?_), by simp⟩
    rw [beVal_beBytes_of_lt v.isLt, BitVec.ofNat_toNat, BitVec.setWidth_eq]
    exact Reads.pure _
  case string v =>
    exact ⟨_, rfl, (reads_string h).1.bind_last (Reads.pure _), (reads_string h).2⟩
  case seconds t =>
    obtain ⟨s, n⟩ := t
    obtain ⟨rfl, h1, h2, h3⟩ := h
    simp only at h1 h2 h3
    subst h3
    refine ⟨_, rfl, (reads_exactly rfl).bind_nil (Reads.getOffset fun o => ((reads_u32 _).mapErr _).bind_last
      ((Reads.ofOption (a := ⟨s, 0⟩) ?_).bind_nil (Reads.pure _))), by simp⟩
    have hs : ((UInt32.ofNat (s % 4294967296).toNat).toNat : Int) = s := by
      rw [UInt32.toNat_ofNat_of_lt' (by simp only [UInt32.size]; omega)]; omega
    rw [hs]
    unfold Time.make
    rw [if_pos (by omega)]
  case millis t =>
    obtain ⟨s, n⟩ := t
    obtain ⟨rfl, h1, h2, h3, h4⟩ := h
    simp only at h1 h2 h3 h4
    refine ⟨_, rfl, (reads_exactly rfl).bind_nil (Reads.getOffset fun o => ((reads_u64 _).mapErr _).bind_last
      ((Reads.ofOption (a := ⟨s, n⟩) ?_).bind_nil (Reads.pure _))), by simp⟩
    have hi : (UInt64.ofNat ((s * 1000 + (n / 1000000 : Nat)) % 18446744073709551616).toNat).toBitVec.toInt =
        s * 1000 + (n / 1000000 : Nat) := by
      rw [BitVec.toInt_eq_toNat_cond]
      have : (UInt64.ofNat ((s * 1000 + (n / 1000000 : Nat)) % 18446744073709551616).toNat).toBitVec.toNat =
          ((s * 1000 + (n / 1000000 : Nat)) % 18446744073709551616).toNat :=
        UInt64.toNat_ofNat_of_lt' (by simp only [UInt64.size]; omega)
      rw [this]
      split <;> omega
    simp only [hi]
    rw [show (s * 1000 + (n / 1000000 : Nat)) / 1000 = s by omega,
      show ((s * 1000 + (n / 1000000 : Nat)) % 1000).toNat * 1000000 = n by omega]
    unfold Time.make
    rw [if_pos (by omega)]
  case micros t =>
    obtain ⟨rfl, h⟩ := h
    exact ⟨_, rfl, (reads_fraction h).bind_last (Reads.pure _), by simp [writeFraction]⟩
  case nanos t =>
    obtain ⟨rfl, h⟩ := h
    exact ⟨_, rfl, (reads_fraction h).bind_last (Reads.pure _), by simp [writeFraction]⟩
  case ipv4 v => subst h; exact ⟨_, rfl, (reads_exactly rfl).bind_nil (((reads_u32 v).mapErr _).bind_last (Reads.pure _)), by simp⟩
  case ipv6 v => subst h; exact ⟨_, rfl, (reads_exactly rfl).bind_nil (((reads_u128 v).mapErr _).bind_last (Reads.pure _)), by simp⟩
  all_goals
    rename_i v
    have hw : writeOctets true v (some l) = v := by
      simp [writeOctets, zeroFill, if_neg h.1, h.2]
    have hr := (reads_octets (l := l) (v := v) (by rw [if_neg h.1]; exact h.2) true).1
    rw [hw] at hr
    exact ⟨_, rfl, (hr.mapErr _).bind_last (Reads.pure _), rfl⟩

/-- the same for a field -/
def Field.Fits (l : UInt16) : Field → Prop
  | known _ _ v => Flow.Fits l v
  | vendorUnknown _ _ v => if l = 65535 then v.length < 2 ^ 24 else v.length = l.toNat
  | unknown _ _ v => l ≠ 65535 ∧ v.length = l.toNat

theorem field_write {l : UInt16} {f : Field} (h : f.Fits l) :
    ∃ w, f.write (some l) = .ok w ∧ Reads (Field.parse f.ie l) f w ∧ w.length = f.len (some l) := by
  cases f <;> simp only [Field.Fits] at h <;> simp only [Field.write, Field.ie, Field.parse, Field.len]
  case known p i v =>
    obtain ⟨w, h1, h2, h3⟩ := value_write h
    exact ⟨w, h1, h2.bind_last (Reads.pure _), h3⟩
  case vendorUnknown p i v =>
    exact ⟨_, rfl, ((reads_octets h false).1.mapErr _).bind_last (Reads.pure _), (reads_octets h false).2⟩
  case unknown p i v =>
    have hw : writeOctets false v (some l) = v := by
      simp [writeOctets, zeroFill, if_neg h.1, h.2]
    rw [hw]
    exact ⟨_, rfl, ((reads_bytes h.2).mapErr _).bind_last (Reads.pure _), by simp [octetsLen, if_neg h.1, h.2]⟩

end Verif.Flow
