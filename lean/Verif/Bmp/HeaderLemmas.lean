import Verif.Core.CRd
import Verif.Bmp.Header
import Verif.Bgp.MsgSafe
/-!
# Lemmas about the per-peer header
-/
namespace Verif.Bmp
open Verif Bgp Parser

theorem ofExp8_exp8 (n : Fin 4) : ofExp8 (exp8 n) = some n := by revert n; decide
theorem ofExp16_exp16 (n : Fin 4) : ofExp16 (exp16 n) = some n := by revert n; decide
theorem exp8_ofExp8 {c : UInt8} {n : Fin 4} (h : ofExp8 c = some n) : exp8 n = c := by
  unfold ofExp8 at h
  split at h
  · obtain rfl := Option.some.inj h; simp [*]; rfl
  split at h
  · obtain rfl := Option.some.inj h; simp [*]; rfl
  split at h
  · obtain rfl := Option.some.inj h; simp [*]; rfl
  split at h
  · obtain rfl := Option.some.inj h; simp [*]; rfl
  · simp at h
theorem exp16_ofExp16 {c : UInt16} {n : Fin 4} (h : ofExp16 c = some n) : exp16 n = c := by
  unfold ofExp16 at h
  split at h
  · obtain rfl := Option.some.inj h; simp [*]; rfl
  split at h
  · obtain rfl := Option.some.inj h; simp [*]; rfl
  split at h
  · obtain rfl := Option.some.inj h; simp [*]; rfl
  split at h
  · obtain rfl := Option.some.inj h; simp [*]; rfl
  · simp at h

theorem PeerKind.ofCode_code (k : PeerKind) : PeerKind.ofCode k.code = some k := by
  cases k with
  | session i => cases i <;> rfl
  | locRib => rfl
  | experimental n => revert n; decide

theorem PeerType.make_flags (t : PeerType) : PeerType.make t.kind t.flags = t := by
  cases t with
  | session k a b c d => cases k <;> cases a <;> cases b <;> cases c <;> cases d <;> decide
  | locRib f => cases f <;> decide
  | experimental n f => rfl

theorem reads_peerType (t : PeerType) : Reads parsePeerType t t.write := by
  unfold parsePeerType PeerType.write
  refine Reads.u8_cons (Reads.getOffset fun o => ?_)
  rw [PeerKind.ofCode_code]
  refine Reads.bind_nil (Reads.pure _) (Reads.u8_cons ?_)
  rw [PeerType.make_flags]
  exact Reads.pure _

theorem safe_peerType : Safe 2 parsePeerType := by
  unfold parsePeerType
  refine safe_bind (j := 1) (k := 1) (safe_mapErr _ safe_readU8) fun c => ?_
  refine safe_bind_r safe_getOffset fun o => safe_bind_r (safe_ofOption _ _) fun k => ?_
  exact safe_bind_l (safe_mapErr _ safe_readU8) fun f => safe_pure _

/-- an address that is written as it is: not zero, and of the family that the flags say -/
def AddrOk (ipv6 : Bool) : Option IpAddr → Prop
  | some (.v4 a) => ipv6 = false ∧ a ≠ 0
  | some (.v6 a) => ipv6 = true ∧ a ≠ 0
  | none => True

/-- a time that the header can carry: 32 bits of seconds, whole microseconds, not 1970-01-01T00:00:00, and a time of day
that exists -/
def TimeOk : Option Time → Prop
  | some t => 0 ≤ t.secs ∧ t.secs < 4294967296 ∧ t.nanos % 1000 = 0 ∧
      (t.nanos < 1000000000 ∨ (t.nanos < 2000000000 ∧ t.secs % 60 = 59)) ∧ ¬ (t.secs = 0 ∧ t.nanos = 0)
  | none => True

/-- a header whose fields all have a place on the wire -/
structure PeerHeader.WF (h : PeerHeader) : Prop where
  rd : h.rd ≠ some zeroRd
  address : AddrOk h.type.ipv6 h.address
  time : TimeOk h.time

/-- an address as 128 bits -/
def addrBits : Option IpAddr → BitVec 128
  | some (.v4 a) => BitVec.ofNat 128 a.toNat
  | some (.v6 a) => a
  | none => 0

theorem addressBytes_eq (a : Option IpAddr) : addressBytes a = u128be (addrBits a) := by
  match a with
  | none => rfl
  | some (.v6 a) => rfl
  | some (.v4 a) =>
    have ha := a.toNat_lt
    refine beVal_inj (by simp [addrBits, addressBytes]) ?_
    rw [show addrBits (some (.v4 a)) = BitVec.ofNat 128 a.toNat from rfl, u128be, beVal_beBytes_of_lt (BitVec.isLt _)]
    rw [show addressBytes (some (.v4 a)) = List.replicate 12 0 ++ u32be a from rfl, beVal_append, u32be,
      beVal_beBytes_of_lt (by simpa using ha)]
    have : beVal (List.replicate 12 0) = 0 := by decide
    rw [this, BitVec.toNat_ofNat, Nat.mod_eq_of_lt (by omega)]; simp

theorem addressOf_bits {v : Bool} {a : Option IpAddr} (h : AddrOk v a) : addressOf v (addrBits a) = a := by
  match a, h with
  | none, _ => rfl
  | some (.v6 a), ⟨hv, ha⟩ => unfold addressOf addrBits; rw [if_neg ha, hv, if_pos rfl]
  | some (.v4 a), ⟨hv, ha⟩ =>
    have hlt := a.toNat_lt
    have ht : (BitVec.ofNat 128 a.toNat).toNat = a.toNat := by
      rw [BitVec.toNat_ofNat, Nat.mod_eq_of_lt (by omega)]
    have h1 : BitVec.ofNat 128 a.toNat ≠ 0 := by
      intro h
      have h := congrArg BitVec.toNat h
      rw [ht] at h
      exact ha (UInt32.toNat.inj h)
    unfold addressOf addrBits
    rw [if_neg h1, hv, if_neg (by decide), ht, UInt32.ofNat_toNat]

/-- the octets of the distinguisher -/
def rdBytes : Option Rd → Bytes
  | some r => r.write
  | none => u64be 0

theorem reads_rdOpt {r : Option Rd} (h : r ≠ some zeroRd) : ∃ d, Reads parseRd d (rdBytes r) ∧
    (if d = zeroRd then none else some d) = r := by
  cases r with
  | none => exact ⟨zeroRd, reads_rd zeroRd, rfl⟩
  | some r => exact ⟨r, reads_rd r, if_neg fun hr => h (by rw [hr])⟩

theorem time_micros {t : Time} (h : TimeOk (some t)) (o : Nat) :
    parseTime o t.secs32 t.micros = some <$> (Pure.pure t : Parser HeaderErr Time) := by
  obtain ⟨h1, h2, h3, h4, h5⟩ := h
  have hs : t.secs32.toNat = t.secs.toNat := by
    unfold Time.secs32
    rw [UInt32.toNat_ofNat_of_lt' (by show _ < 4294967296; omega)]; omega
  have hm : t.micros.toNat = t.nanos / 1000 := by
    unfold Time.micros
    rw [UInt32.toNat_ofNat_of_lt' (by show _ < 4294967296; omega)]
  have hz : t.secs32 ≠ 0 ∨ t.micros ≠ 0 := by
    by_cases hs0 : t.secs32 = 0
    · right
      intro hm0
      rw [hs0] at hs
      rw [hm0] at hm
      have e0 : (0 : UInt32).toNat = 0 := rfl
      rw [e0] at hs hm
      exact h5 ⟨by omega, by omega⟩
    · exact .inl hs0
  unfold parseTime
  rw [if_pos hz]
  have hsat : satMul1000 t.micros = t.nanos := by
    unfold satMul1000
    rw [hm]; omega
  have hmk : Time.make t.secs32.toNat (satMul1000 t.micros) = some t := by
    unfold Time.make
    rw [hsat, hs, if_pos (by omega)]
    obtain ⟨s, n⟩ := t
    simp only [Option.some.injEq, Time.mk.injEq, and_true]
    simp only at h1; omega
  rw [hmk]; rfl

theorem reads_bmpHeader {h : PeerHeader} (hw : h.WF) : Reads Bmp.parseHeader h h.write := by
  have e : h.write = h.type.write ++ (rdBytes h.rd ++ (addressBytes h.address ++
      (u32be h.peerAs ++ (u32be h.bgpId ++ timeBytes h.time)))) := by
    unfold PeerHeader.write; cases h.rd <;> rfl
  rw [e]
  unfold Bmp.parseHeader
  obtain ⟨d, hd, hd'⟩ := reads_rdOpt hw.rd
  refine Reads.bind ((reads_peerType _).mapErr _) (Reads.bind (hd.mapErr _) ?_)
  rw [addressBytes_eq]
  refine Reads.bind ((reads_u128 _).mapErr _) (Reads.bind ((reads_u32 _).mapErr _) (Reads.bind ((reads_u32 _).mapErr _) ?_))
  have key : ∀ (s m : UInt32), (∀ o, parseTime o s m = some <$> (Pure.pure (h.time.getD ⟨0, 0⟩) : Parser HeaderErr Time) ∧ h.time.isSome ∨
      parseTime o s m = Pure.pure none ∧ h.time = none) → Reads (do
        let secs ← mapErr HeaderErr.parse readU32
        let micros ← mapErr HeaderErr.parse readU32
        let o ← getOffset
        let time ← parseTime o secs micros
        Pure.pure (⟨h.type, if d = zeroRd then none else some d, addressOf h.type.ipv6 (addrBits h.address), h.peerAs, h.bgpId, time⟩ : PeerHeader)) h
        (u32be s ++ u32be m) := by
    intro s m hp
    refine Reads.bind ((reads_u32 _).mapErr _) (Reads.bind_last ((reads_u32 _).mapErr _) (Reads.getOffset fun o => ?_))
    have hfin : (⟨h.type, if d = zeroRd then none else some d, addressOf h.type.ipv6 (addrBits h.address), h.peerAs, h.bgpId, h.time⟩ : PeerHeader) = h := by
      rw [hd', addressOf_bits hw.address]
    rcases hp o with ⟨h1, h2⟩ | ⟨h1, h2⟩
    · rw [h1]
      obtain ⟨t, ht⟩ := Option.isSome_iff_exists.1 h2
      refine ⟨fun rest o => ?_⟩
      show (Res.ok _, _) = _
      rw [ht, Option.getD_some, ← ht, hfin]; simp
    · rw [h1]
      refine ⟨fun rest o => ?_⟩
      show (Res.ok _, _) = _
      rw [← h2, hfin]; simp
  cases ht : h.time with
  | none =>
    rw [show timeBytes none = u32be 0 ++ u32be 0 from rfl]
    exact key 0 0 fun o => .inr ⟨rfl, ht⟩
  | some t =>
    have h1 := hw.time
    rw [ht] at h1
    exact key _ _ fun o => .inl ⟨by rw [ht]; exact time_micros h1 o, by rw [ht]; rfl⟩

@[simp] theorem length_bmpHeader (h : PeerHeader) : h.write.length = 42 := by
  unfold PeerHeader.write
  rw [addressBytes_eq]
  cases h.rd <;> cases h.time <;> simp [PeerType.write, timeBytes]

theorem safe_bmpHeader : Safe 2 Bmp.parseHeader := by
  unfold Bmp.parseHeader
  refine safe_bind_l (safe_mapErr _ safe_peerType) fun t => ?_
  refine safe_bind_r (safe_mapErr _ safe_parseRd).zero fun d => safe_bind_r (safe_mapErr _ safe_readU128).zero fun a =>
    safe_bind_r (safe_mapErr _ safe_readU32).zero fun x => safe_bind_r (safe_mapErr _ safe_readU32).zero fun i =>
    safe_bind_r (safe_mapErr _ safe_readU32).zero fun s => safe_bind_r (safe_mapErr _ safe_readU32).zero fun m =>
    safe_bind_r safe_getOffset fun o => safe_bind_r ?_ fun t => safe_pure _
  unfold parseTime
  split
  · psafe
  · exact safe_pure _

end Verif.Bmp
