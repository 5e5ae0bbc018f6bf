import Verif.Bgp.Nlri
import Verif.Core.Reads
import Verif.Core.Safe
import Verif.Core.Inv
import Verif.Props.Prefix
/-!
# NLRI: encodings are read back, `len()` counts the octets, and when the parsers cannot fault
-/
namespace Verif.Bgp
open Verif Parser

/-! ## Route distinguishers -/

theorem beBytes_split (a b n : Nat) : beBytes (a + b) n = beBytes a (n / 256 ^ b) ++ beBytes b n := by
  induction a with
  | zero => simp [beBytes]
  | succ a ih =>
    rw [show a + 1 + b = (a + b) + 1 by omega]
    simp only [beBytes, ih, List.cons_append]
    rw [Nat.div_div_eq_div_mul, ← Nat.pow_add, Nat.add_comm b a]

theorem u64be_244 (x : UInt64) (t : UInt16) (a : UInt32) (n : UInt16)
    (h : x.toNat = (t.toNat * 2 ^ 32 + a.toNat) * 2 ^ 16 + n.toNat) :
    u64be x = u16be t ++ (u32be a ++ u16be n) := by
  have hn := n.toNat_lt
  have ha := a.toNat_lt
  unfold u64be u16be u32be
  rw [h, show (8 : Nat) = 2 + (4 + 2) from rfl, beBytes_split 2, beBytes_split 4]
  congr 1
  · congr 1; omega
  · congr 1
    · rw [show (256 : Nat) ^ 2 = 2 ^ 16 from rfl, Nat.mul_comm, Nat.mul_add_div (by decide),
        Nat.div_eq_of_lt hn, Nat.add_zero, show (2 : Nat) ^ 32 = 256 ^ 4 from rfl, beBytes_add_mul]
    · rw [show (2 : Nat) ^ 16 = 256 ^ 2 from rfl, beBytes_add_mul]

theorem u64be_224 (x : UInt64) (t a : UInt16) (n : UInt32)
    (h : x.toNat = (t.toNat * 2 ^ 16 + a.toNat) * 2 ^ 32 + n.toNat) :
    u64be x = u16be t ++ (u16be a ++ u32be n) := by
  have hn := n.toNat_lt
  have ha := a.toNat_lt
  unfold u64be u16be u32be
  rw [h, show (8 : Nat) = 2 + (2 + 4) from rfl, beBytes_split 2, beBytes_split 2]
  congr 1
  · congr 1; omega
  · congr 1
    · rw [show (256 : Nat) ^ 4 = 2 ^ 32 from rfl, Nat.mul_comm, Nat.mul_add_div (by decide),
        Nat.div_eq_of_lt hn, Nat.add_zero, show (2 : Nat) ^ 16 = 256 ^ 2 from rfl, beBytes_add_mul]
    · rw [show (2 : Nat) ^ 32 = 256 ^ 4 from rfl, beBytes_add_mul]

theorem or_shift (a b n : Nat) (h : b < 2 ^ n) : a <<< n ||| b = a * 2 ^ n + b := by
  rw [← Nat.shiftLeft_add_eq_or_of_lt h, Nat.shiftLeft_eq]

theorem rd_as2 (a : UInt16) (n : UInt32) :
    (Rd.as2 a n).write = u16be 0 ++ (u16be a ++ u32be n) := by
  refine u64be_224 _ _ _ _ ?_
  have ha := a.toNat_lt
  have hn := n.toNat_lt
  simp only [Rd.toU64, UInt64.toNat_or, UInt64.toNat_shiftLeft, UInt16.toNat_toUInt64, UInt32.toNat_toUInt64]
  show (0 : Nat) <<< 48 % 2 ^ 64 ||| a.toNat <<< 32 % 2 ^ 64 ||| n.toNat = (0 * 2 ^ 16 + a.toNat) * 2 ^ 32 + n.toNat
  rw [Nat.mod_eq_of_lt (a := a.toNat <<< 32) (by rw [Nat.shiftLeft_eq]; omega), Nat.zero_shiftLeft, Nat.zero_mod,
    Nat.zero_or, or_shift _ _ _ hn]
  omega

theorem rd_four (t : Nat) (ht : t < 2 ^ 16) (a : UInt32) (n : UInt16) :
    t <<< 48 % 2 ^ 64 ||| a.toNat <<< 16 % 2 ^ 64 ||| n.toNat = (t * 2 ^ 32 + a.toNat) * 2 ^ 16 + n.toNat := by
  have ha := a.toNat_lt
  have hn := n.toNat_lt
  rw [Nat.mod_eq_of_lt (a := a.toNat <<< 16) (by rw [Nat.shiftLeft_eq]; omega),
    Nat.mod_eq_of_lt (a := t <<< 48) (by rw [Nat.shiftLeft_eq]; omega),
    or_shift t _ 48 (by rw [Nat.shiftLeft_eq]; omega), Nat.shiftLeft_eq,
    show t * 2 ^ 48 + a.toNat * 2 ^ 16 = (t * 2 ^ 32 + a.toNat) <<< 16 by rw [Nat.shiftLeft_eq]; omega,
    or_shift _ _ _ hn]

theorem rd_ipv4 (a : UInt32) (n : UInt16) : (Rd.ipv4 a n).write = u16be 1 ++ (u32be a ++ u16be n) := by
  refine u64be_244 _ _ _ _ ?_
  simp only [Rd.toU64, UInt64.toNat_or, UInt64.toNat_shiftLeft, UInt16.toNat_toUInt64, UInt32.toNat_toUInt64]
  exact rd_four 1 (by decide) a n

theorem rd_as4 (a : UInt32) (n : UInt16) : (Rd.as4 a n).write = u16be 2 ++ (u32be a ++ u16be n) := by
  refine u64be_244 _ _ _ _ ?_
  simp only [Rd.toU64, UInt64.toNat_or, UInt64.toNat_shiftLeft, UInt16.toNat_toUInt64, UInt32.toNat_toUInt64]
  exact rd_four 2 (by decide) a n

theorem rd_leafAd : Rd.leafAd.write = u16be 65535 ++ (u16be 65535 ++ u32be 4294967295) := by decide

theorem reads_rd (r : Rd) : Reads parseRd r r.write := by
  unfold parseRd
  refine Reads.getOffset fun o => ?_
  cases r with
  | as2 a n =>
    rw [rd_as2]; refine Reads.bind ((reads_u16 _).mapErr _) ?_
    unfold rdBody; rw [if_pos rfl]; preads
  | ipv4 a n =>
    rw [rd_ipv4]; refine Reads.bind ((reads_u16 _).mapErr _) ?_
    unfold rdBody; rw [if_neg (by decide), if_pos rfl]; preads
  | as4 a n =>
    rw [rd_as4]; refine Reads.bind ((reads_u16 _).mapErr _) ?_
    unfold rdBody; rw [if_neg (by decide), if_neg (by decide), if_pos rfl]; preads
  | leafAd =>
    rw [rd_leafAd]; refine Reads.bind ((reads_u16 _).mapErr _) ?_
    unfold rdBody; rw [if_neg (by decide), if_neg (by decide), if_neg (by decide), if_pos rfl]
    refine Reads.bind ((reads_u16 _).mapErr _) (Reads.bind_last ((reads_u32 _).mapErr _) ?_)
    exact Reads.ite_neg (by decide) (Reads.pure _)

@[simp] theorem length_rd (r : Rd) : r.write.length = 8 := by simp [Rd.write]

theorem safe_parseRd : Safe 2 parseRd := by
  unfold parseRd
  refine safe_bind_r safe_getOffset fun o => safe_bind_l (safe_mapErr _ safe_readU16) fun t => ?_
  unfold rdBody; psafe

/-! ## Label stacks -/

/-- the label stacks the parser reads back under a limit: it stops after the first label marked as last, or when the
limit is used up -/
def LabelsOk (un : Bool) : UInt8 → List Bytes → Prop
  | lim, [] => lim = 0
  | lim, l :: ls => lim ≠ 0 ∧ l.length = 3 ∧
      if labelStop un l then ls = [] else LabelsOk un (labelDec lim) ls

theorem reads_labelLoop (un : Bool) : ∀ (n : Nat) (lim : UInt8) (ls : List Bytes), LabelsOk un lim ls →
    ls.length < n → Reads (labelLoop un n lim) ls ls.flatten
  | 0, _, _, _, hn => by omega
  | n + 1, lim, [], h, _ => by
    have h0 : lim = 0 := h
    unfold labelLoop; rw [if_pos h0]; exact Reads.pure _
  | n + 1, lim, l :: ls, h, hn => by
    obtain ⟨h0, h3, h⟩ := h
    unfold labelLoop; rw [if_neg h0, List.flatten_cons]
    refine Reads.bind (reads_array h3) ?_
    by_cases hs : labelStop un l
    · rw [if_pos hs] at h; subst h
      exact Reads.ite_pos hs (Reads.pure _)
    · rw [if_neg hs] at h
      refine Reads.ite_neg hs ?_
      simp only [List.length_cons] at hn
      exact Reads.bind_last (reads_labelLoop un n _ ls h (by omega)) (Reads.pure _)

theorem LabelsOk.len3 {un : Bool} : ∀ {lim : UInt8} {ls : List Bytes}, LabelsOk un lim ls → ∀ l ∈ ls, l.length = 3
  | _, [], _ => by simp
  | lim, l :: ls, h => by
    obtain ⟨_, h3, h⟩ := h
    intro x hx
    rcases List.mem_cons.mp hx with rfl | hx
    · exact h3
    · by_cases hs : labelStop un l
      · rw [if_pos hs] at h; subst h; cases hx
      · rw [if_neg hs] at h; exact LabelsOk.len3 h x hx

theorem length_labels {ls : List Bytes} (h : ∀ l ∈ ls, l.length = 3) : ls.flatten.length = 3 * ls.length := by
  have := length_flatten_const id 3 ls h
  simpa using this

theorem sum_labels (ls : List Bytes) : (ls.map fun _ => 3).sum = 3 * ls.length := by
  induction ls with
  | nil => rfl
  | cons l ls ih => simp only [List.map_cons, List.sum_cons, ih, List.length_cons]; omega

theorem reads_labels {un : Bool} {lim : UInt8} {ls : List Bytes} (h : LabelsOk un lim ls) :
    Reads (parseLabels un lim) ls ls.flatten := by
  unfold parseLabels
  refine Reads.getRemaining fun n hn => ?_
  rw [length_labels h.len3] at hn
  exact reads_labelLoop un _ _ _ h (by omega)

/-- the loop's iteration bound is never reached, and the limit bounds the stack -/
theorem out_labelLoop (un : Bool) : ∀ (n : Nat) (lim : UInt8) (r : Reader), r.buf.length < n →
    Out 0 r (labelLoop un n lim r) ∧
    ∀ ls r', labelLoop un n lim r = (.ok ls, r') → lim ≠ 255 → ls.length ≤ lim.toNat
  | 0, _, _, hn => by omega
  | n + 1, lim, r, hn => by
    unfold labelLoop
    by_cases h0 : lim = 0
    · rw [if_pos h0]
      refine ⟨Adv.refl r, fun ls r' h _ => ?_⟩
      simp only [pure_run, Prod.mk.injEq, Res.ok.injEq] at h
      rw [← h.1]; simp
    · rw [if_neg h0, bind_run]
      have hlim : 0 < lim.toNat := by
        rcases Nat.eq_zero_or_pos lim.toNat with h | h
        · exact absurd (UInt8.toNat_inj.mp h) h0
        · exact h
      have h1 := (safe_readArray 3).out r
      rcases he : readArray 3 r with ⟨l | e | x, r1⟩ <;> rw [he] at h1
      · simp only
        by_cases hs : labelStop un l
        · rw [if_pos hs]
          refine ⟨h1.mono (by omega), fun ls r' h _ => ?_⟩
          simp only [pure_run, Prod.mk.injEq, Res.ok.injEq] at h
          rw [← h.1]; exact hlim
        · rw [if_neg hs, bind_run]
          have hl := h1.length
          obtain ⟨h2, h2'⟩ := out_labelLoop un n (labelDec lim) r1 (by omega)
          rcases he2 : labelLoop un n (labelDec lim) r1 with ⟨ls | e | x, r2⟩ <;> rw [he2] at h2
          · refine ⟨(h1.trans h2).mono (by omega), fun ls' r' h hne => ?_⟩
            simp only [pure_run, Prod.mk.injEq, Res.ok.injEq] at h
            have hd : labelDec lim = lim - 1 := if_neg hne
            have h1le : (1 : UInt8) ≤ lim := by rw [UInt8.le_iff_toNat_le]; exact hlim
            have hdn : (labelDec lim).toNat = lim.toNat - 1 := by
              rw [hd, UInt8.toNat_sub_of_le _ _ h1le]; rfl
            have := h2' ls r2 he2 (by
              intro h; rw [h] at hdn
              have := lim.toNat_lt
              simp at hdn; omega)
            rw [← h.1, List.length_cons]; omega
          · exact ⟨trivial, fun _ _ h => by simp at h⟩
          · exact h2.elim
      · exact ⟨trivial, fun _ _ h => by simp at h⟩
      · exact h1.elim

theorem safe_parseLabels (un : Bool) (lim : UInt8) : Safe 0 (parseLabels un lim) :=
  ⟨fun r => by
    unfold parseLabels; rw [bind_ok (getRemaining_run r)]
    exact (out_labelLoop un _ lim r (by omega)).1⟩

theorem parseLabels_le {un : Bool} {lim : UInt8} {r r' : Reader} {ls : List Bytes}
    (h : parseLabels un lim r = (.ok ls, r')) (hl : lim ≠ 255) : ls.length ≤ lim.toNat := by
  unfold parseLabels at h; rw [bind_ok (getRemaining_run r)] at h
  exact (out_labelLoop un _ lim r (by omega)).2 ls r' h hl

/-! ## Plain prefixes -/

theorem reads_pathId {p : Option UInt32} {ap : Bool} (h : p.isSome = ap) :
    Reads (parsePathId ap) p (writePathId p) := by
  subst h
  cases p with
  | none => exact Reads.pure _
  | some i => exact ((reads_u32 i).mapErr _).map _

theorem length_pathId (p : Option UInt32) : (writePathId p).length = lenPathId p := by
  cases p <;> simp [writePathId, lenPathId]

theorem safe_parsePathId (ap : Bool) : Safe 0 (parsePathId ap) := by unfold parsePathId; psafe

/-- a prefix value without host bits -/
structure Net.Canon (w : Nat) (n : Net) : Prop where
  wf : n.WF w
  masked : n.network = n.octets

theorem reads_net {w : Nat} (hw : w = 4 ∨ w = 16) {n : Net} (h : Net.Canon w n) : Reads (parseNet w) n (writeNet n) :=
  ⟨fun bs o => by
    rw [Props.c03_roundtrip_canonical w hw n h.wf h.masked, (Props.c03_roundtrip w hw n h.wf bs o).2]⟩

theorem length_netOctets {w : Nat} {n : Net} (h : n.WF w) :
    (n.network.take (roundLen n.plen)).length = roundLen n.plen := by
  have := roundLen_le w n.plen h.plen
  simp [Net.network, h.len, this]

theorem length_writeNet {w : Nat} {n : Net} (h : n.WF w) : (writeNet n).length = lenNet n := by
  simp [writeNet, lenNet, length_netOctets h]; omega

theorem reads_netBody {w : Nat} (hw : w = 4 ∨ w = 16) {n : Net} (h : Net.Canon w n) (off : Nat) :
    Reads (parseNetBody w n.plen off) n (n.network.take (roundLen n.plen)) := by
  have hw16 : w ≤ 16 := by omega
  unfold parseNetBody
  rw [prefixSize_eq w n.plen hw16 h.wf.plen]
  refine Reads.bind_last ((reads_bytes (length_netOctets h.wf)).mapErr _) ?_
  refine Reads.ite_pos h.wf.plen ((Reads.pure _).congr ?_ rfl)
  rw [length_netOctets h.wf, ← network_split w n h.wf, h.masked]

theorem safe_parseNetBody (w : Nat) (p : UInt8) (off : Nat) : Safe 0 (parseNetBody w p off) := by
  unfold parseNetBody; psafe
theorem safe_parseNet (w : Nat) : Safe 1 (parseNet w) := by
  unfold parseNet
  refine safe_bind_r safe_getOffset fun o => safe_bind_l (safe_mapErr _ safe_readU8) fun p => ?_
  exact safe_parseNetBody _ _ _

theorem reads_checkedNet {w : Nat} (hw : w = 4 ∨ w = 16) {n : Net} (h : Net.Canon w n) {ok : Net → Bool}
    (hok : ok n = true) : Reads (parseCheckedNet w ok) n (writeNet n) := by
  unfold parseCheckedNet
  refine Reads.getOffset fun o => Reads.bind_last ((reads_net hw h).mapErr _) ?_
  exact Reads.ite_pos hok (Reads.pure _)

/-- the prefix values a peer can be sent and read back -/
structure NetAddr.WF (w : Nat) (ok : Net → Bool) (ap : Bool) (a : NetAddr) : Prop where
  canon : Net.Canon w a.net
  ok : ok a.net = true
  path : a.pathId.isSome = ap

theorem reads_netAddr {w : Nat} (hw : w = 4 ∨ w = 16) {ok : Net → Bool} {ap : Bool} {a : NetAddr}
    (h : a.WF w ok ap) : Reads (parseNetAddr w ok ap) a a.write := by
  unfold parseNetAddr NetAddr.write
  exact Reads.bind (reads_pathId h.path) (Reads.bind_last (reads_checkedNet hw h.canon h.ok) (Reads.pure _))

theorem length_netAddr {w : Nat} {a : NetAddr} (h : a.net.WF w) : a.write.length = a.len := by
  simp [NetAddr.write, NetAddr.len, length_pathId, length_writeNet h]

theorem safe_parseNetAddr (w : Nat) (ok : Net → Bool) (ap : Bool) : Safe 1 (parseNetAddr w ok ap) := by
  unfold parseNetAddr
  refine safe_bind_r (safe_parsePathId ap) fun p => safe_bind_l ?_ fun _ => safe_pure _
  unfold parseCheckedNet
  refine safe_bind_r safe_getOffset fun o => safe_bind_l (safe_mapErr _ (safe_parseNet w)) fun n => ?_
  psafe

/-! ## MPLS VPN -/

structure VpnAddr.WF (w : Nat) (ok : Net → Bool) (ap un : Bool) (lim : UInt8) (a : VpnAddr) : Prop where
  canon : Net.Canon w a.net
  ok : ok a.net = true
  path : a.pathId.isSome = ap
  labels : LabelsOk un lim a.labels
  bits : 64 + 24 * a.labels.length + a.net.plen.toNat ≤ 248

theorem labeledOctets_eq (p : UInt8) (h : p.toNat ≤ 248) : labeledOctets p = (p.toNat + 7) / 8 := by
  unfold labeledOctets; rw [if_neg (by omega)]; rfl

theorem sub_toNat {n k : Nat} (p : UInt8) (h : n = k + p.toNat) (hn : n ≤ 255) : UInt8.ofNat n - UInt8.ofNat k = p := by
  apply UInt8.toNat_inj.mp
  rw [UInt8.toNat_sub_of_le]
  · rw [UInt8.toNat_ofNat_le hn, UInt8.toNat_ofNat_le (by omega)]; omega
  · rw [UInt8.le_iff_toNat_le, UInt8.toNat_ofNat_le hn, UInt8.toNat_ofNat_le (by omega)]; omega

theorem reads_checkedNetBody {w : Nat} (hw : w = 4 ∨ w = 16) {n : Net} (h : Net.Canon w n) {ok : Net → Bool}
    (hok : ok n = true) (off : Nat) :
    Reads (parseCheckedNetBody w ok n.plen off) n (n.network.take (roundLen n.plen)) := by
  unfold parseCheckedNetBody
  exact Reads.bind_last ((reads_netBody hw h off).mapErr _) (Reads.ite_pos hok (Reads.pure _))

theorem reads_vpnBody {w : Nat} (hw : w = 4 ∨ w = 16) {ok : Net → Bool} {ap un : Bool} {lim : UInt8} {a : VpnAddr}
    (h : a.WF w ok ap un lim) (off : Nat) :
    ReadsAll (vpnBody w ok un lim off (UInt8.ofNat (8 * 8 + a.labels.length * 3 * 8 + a.net.plen.toNat)))
      (a.rd, a.labels, a.net) (a.labels.flatten ++ (a.rd.write ++ a.net.network.take (lenNet a.net - 1))) := by
  have hb := h.bits
  have hmod : a.labels.length % 256 = a.labels.length := Nat.mod_eq_of_lt (by omega)
  unfold vpnBody
  refine ReadsAll.bind ((reads_labels h.labels).mapErr _) (ReadsAll.bind (reads_rd _) ?_)
  rw [hmod]
  refine ReadsAll.ite_neg (by omega) (ReadsAll.ite_neg ?_ ?_)
  · rw [UInt8.toNat_ofNat_le (by omega)]; omega
  · rw [sub_toNat a.net.plen (by omega) (by omega), show lenNet a.net - 1 = roundLen a.net.plen by unfold lenNet; omega]
    rw [← List.append_nil (a.net.network.take _)]
    refine ReadsAll.bind (reads_checkedNetBody hw h.canon h.ok off) (ReadsAll.isEmpty ?_)
    exact ReadsAll.ite_pos rfl (Reads.pure _).all

theorem reads_vpnAddr {w : Nat} (hw : w = 4 ∨ w = 16) {ok : Net → Bool} {ap un : Bool} {lim : UInt8} {a : VpnAddr}
    (h : a.WF w ok ap un lim) : Reads (parseVpnAddr w ok ap un lim) a a.write := by
  have hb := h.bits
  unfold parseVpnAddr VpnAddr.write
  refine Reads.bind (reads_pathId h.path) (Reads.getOffset fun o => Reads.u8_cons ?_)
  rw [← List.append_nil (a.labels.flatten ++ _)]
  refine Reads.takeSlice ?_ fun o' => ReadsAll.onSub (reads_vpnBody hw h o) fun s' _ => Reads.pure _
  rw [labeledOctets_eq _ (by rw [UInt8.toNat_ofNat_le (by omega)]; omega), UInt8.toNat_ofNat_le (by omega)]
  simp only [List.length_append, length_labels h.labels.len3, length_rd, lenNet, Nat.add_sub_cancel_left,
    length_netOctets h.canon.wf]
  unfold roundLen; omega

theorem length_vpnAddr {w : Nat} {a : VpnAddr} (h : a.net.WF w) (hl : ∀ l ∈ a.labels, l.length = 3) :
    a.write.length = a.len := by
  simp only [VpnAddr.write, VpnAddr.len, List.length_append, List.length_cons, length_labels hl, length_rd, lenNet,
    Nat.add_sub_cancel_left, length_netOctets h, length_pathId, sum_labels]
  omega

/-- with at most seven labels allowed the bit count cannot overflow its octet -/
theorem safe_parseVpnAddr (w : Nat) (ok : Net → Bool) (ap un : Bool) (lim : UInt8) (hl : lim.toNat ≤ 7) :
    Safe 1 (parseVpnAddr w ok ap un lim) := by
  unfold parseVpnAddr
  refine safe_bind_r (safe_parsePathId ap) fun p => safe_bind_r safe_getOffset fun o =>
    safe_bind_l (safe_mapErr _ safe_readU8) fun plen => safe_bind_r (safe_mapErr _ (safe_takeSlice _).zero) fun s =>
    safe_bind_r (safe_onSub (k := 0) s ?_) fun _ => safe_pure _
  unfold vpnBody
  refine (safe_bind' (j := 0) (k := 0) (safe_mapErr _ (safe_parseLabels un lim)) fun r ls r' h => ?_)
  rw [mapErr_eq_ok] at h
  have hle := parseLabels_le h (by rintro rfl; simp at hl)
  refine safe_bind_r safe_parseRd.zero fun rd => ?_
  rw [if_neg (by rw [Nat.mod_eq_of_lt (by omega)]; omega)]
  unfold parseCheckedNetBody
  psafe [safe_parseNetBody _ _ _]

/-! ## Labeled unicast -/

structure LabeledAddr.WF (w : Nat) (un : Bool) (lim : UInt8) (a : LabeledAddr) : Prop where
  canon : Net.Canon w a.net
  path : a.pathId = none
  labels : LabelsOk un lim a.labels
  bits : 24 * a.labels.length + a.net.plen.toNat ≤ 248

theorem reads_labeledBody {w : Nat} (hw : w = 4 ∨ w = 16) {un : Bool} {lim : UInt8} {a : LabeledAddr}
    (h : a.WF w un lim) (off off2 : Nat) :
    Reads (labeledBody w un lim off off2 (UInt8.ofNat (a.labels.length * 24 + a.net.plen.toNat)))
      (a.labels, a.net) (a.labels.flatten ++ a.net.network.take (roundLen a.net.plen)) := by
  have hb := h.bits
  have hmod : a.labels.length % 256 = a.labels.length := Nat.mod_eq_of_lt (by omega)
  unfold labeledBody
  refine Reads.bind ((reads_labels h.labels).mapErr _) ?_
  rw [hmod]
  refine Reads.ite_neg (by omega) (Reads.ite_neg ?_ ?_)
  · rw [UInt8.toNat_ofNat_le (by omega)]; omega
  · rw [sub_toNat a.net.plen (by omega) (by omega)]
    refine Reads.bind_last ((reads_netBody hw h.canon off2).mapErr _) ?_
    exact Reads.ite_neg (by omega) (Reads.pure _)

theorem reads_labeledAddr {w : Nat} (hw : w = 4 ∨ w = 16) {un : Bool} {lim : UInt8} {a : LabeledAddr}
    (h : a.WF w un lim) : Reads (parseLabeledAddr w false un lim) a a.write := by
  have hb := h.bits
  unfold parseLabeledAddr LabeledAddr.write
  refine Reads.bind_nil (reads_pathId (p := none) rfl) (Reads.getOffset fun o => Reads.u8_cons ?_)
  rw [← List.append_nil (a.labels.flatten ++ _)]
  refine Reads.takeSlice ?_ fun o' => Reads.getOffset fun o2 => Reads.onSub' (reads_labeledBody hw h o _) fun s' _ => ?_
  · rw [labeledOctets_eq _ (by rw [UInt8.toNat_ofNat_le (by omega)]; omega), UInt8.toNat_ofNat_le (by omega)]
    simp only [List.length_append, length_labels h.labels.len3, length_netOctets h.canon.wf]
    unfold roundLen; omega
  · refine (Reads.pure _).congr ?_ rfl
    obtain ⟨p, l, n⟩ := a
    have : p = none := h.path
    subst this; rfl

theorem length_labeledAddr {w : Nat} {a : LabeledAddr} (h : a.net.WF w) (hl : ∀ l ∈ a.labels, l.length = 3) :
    a.write.length = a.len := by
  simp only [LabeledAddr.write, LabeledAddr.len, List.length_append, List.length_cons, length_labels hl,
    length_netOctets h, sum_labels]
  omega

theorem safe_parseLabeledAddr (w : Nat) (ap un : Bool) (lim : UInt8) (hl : lim.toNat ≤ 10) :
    Safe 1 (parseLabeledAddr w ap un lim) := by
  unfold parseLabeledAddr
  refine safe_bind_r (safe_parsePathId ap) fun p => safe_bind_r safe_getOffset fun o =>
    safe_bind_l (safe_mapErr _ safe_readU8) fun plen => safe_bind_r (safe_mapErr _ (safe_takeSlice _).zero) fun s =>
    safe_bind_r safe_getOffset fun o2 => safe_bind_r (safe_onSub (k := 0) s ?_) fun _ => safe_pure _
  unfold labeledBody
  refine (safe_bind' (j := 0) (k := 0) (safe_mapErr _ (safe_parseLabels un lim)) fun r ls r' h => ?_)
  rw [mapErr_eq_ok] at h
  have hle := parseLabels_le h (by rintro rfl; simp at hl)
  rw [if_neg (by rw [Nat.mod_eq_of_lt (by omega)]; omega)]
  psafe [safe_parseNetBody _ _ _]

/-! ## Labeled next hops -/

/-- a next hop without the link-local address, which is never written nor read -/
def LabeledNextHop.WF : LabeledNextHop → Prop
  | .v4 .. => True
  | .v6 _ _ l => l = none

theorem reads_labeledNextHop {n : LabeledNextHop} (h : n.WF) : Reads parseLabeledNextHop n n.write := by
  unfold parseLabeledNextHop
  refine Reads.getOffset fun o => ?_
  cases n with
  | v4 rd a =>
    unfold LabeledNextHop.write
    refine Reads.u8_cons ?_
    rw [← List.append_nil (rd.write ++ _)]
    refine Reads.takeSlice (by simp) fun o' => Reads.onSub' (a := .v4 rd a) ?_ fun s' _ => Reads.pure _
    unfold labeledNextHopBody; rw [if_pos rfl]
    preads [reads_rd rd]
  | v6 rd a l =>
    have : l = none := h
    subst this
    unfold LabeledNextHop.write
    refine Reads.u8_cons ?_
    rw [← List.append_nil (rd.write ++ _)]
    refine Reads.takeSlice (by simp) fun o' => ReadsAll.onSub (a := .v6 rd a none) ?_ fun s' _ => Reads.pure _
    unfold labeledNextHopBody; rw [if_neg (by decide), if_pos rfl]
    rw [← List.append_nil (u128be a)]
    refine ReadsAll.bind (reads_rd rd) (ReadsAll.bind ((reads_u128 a).mapErr _) (ReadsAll.getRemaining ?_))
    exact ReadsAll.ite_neg (by simp) (Reads.pure _).all

theorem length_labeledNextHop (n : LabeledNextHop) : n.write.length = n.len := by
  cases n <;> simp [LabeledNextHop.write, LabeledNextHop.len]

theorem safe_parseLabeledNextHop : Safe 1 parseLabeledNextHop := by
  unfold parseLabeledNextHop
  refine safe_bind_r safe_getOffset fun o => safe_bind_l (safe_mapErr _ safe_readU8) fun l => ?_
  unfold labeledNextHopBody
  psafe [safe_parseRd.zero]

/-! ## EVPN -/

def EvpnRoute.WF : EvpnRoute → Prop
  | .autoDiscovery _ esi _ l => esi.length = 10 ∧ l.length = 3
  | .macIp _ esi _ mac _ l1 l2 => esi.length = 10 ∧ mac.length = 6 ∧ l1.length = 3 ∧ ∀ l ∈ l2, l.length = 3
  | .inclusiveMulticast .. => True
  | .ethernetSegment _ esi _ => esi.length = 10
  | .ipPrefix4 _ esi _ n _ l => esi.length = 10 ∧ l.length = 3 ∧ Net.Canon 4 n
  | .ipPrefix6 _ esi _ n _ l => esi.length = 10 ∧ l.length = 3 ∧ Net.Canon 16 n
  | .unknown c v => (c = 0 ∨ 5 < c.toNat) ∧ v.length ≤ 255

theorem reads_ipBits (a : IpAddr) : Reads parseIpBits a (writeIpBits a) := by
  unfold parseIpBits
  refine Reads.getOffset fun o => ?_
  cases a with
  | v4 a => exact Reads.u8_cons (Reads.ite_pos rfl (Reads.bind_last ((reads_u32 a).mapErr _) (Reads.pure _)))
  | v6 a =>
    exact Reads.u8_cons (Reads.ite_neg (by decide)
      (Reads.ite_pos rfl (Reads.bind_last ((reads_u128 a).mapErr _) (Reads.pure _))))

theorem reads_ipBitsOpt (a : Option IpAddr) : Reads parseIpBitsOpt a (writeIpBitsOpt a) := by
  unfold parseIpBitsOpt
  refine Reads.getOffset fun o => ?_
  cases a with
  | none => exact Reads.u8_cons (Reads.ite_pos rfl (Reads.pure _))
  | some a =>
    cases a with
    | v4 a =>
      exact Reads.u8_cons (Reads.ite_neg (by decide)
        (Reads.ite_pos rfl (Reads.bind_last ((reads_u32 a).mapErr _) (Reads.pure _))))
    | v6 a =>
      exact Reads.u8_cons (Reads.ite_neg (by decide) (Reads.ite_neg (by decide)
        (Reads.ite_pos rfl (Reads.bind_last ((reads_u128 a).mapErr _) (Reads.pure _)))))

theorem length_ipBits (a : IpAddr) : (writeIpBits a).length = 1 + lenIpBits a := by
  cases a <;> simp [writeIpBits, lenIpBits]

theorem reads_optLabel {l : Option Bytes} (h : ∀ x ∈ l, x.length = 3) : ReadsAll parseOptLabel l (l.getD []) := by
  unfold parseOptLabel
  refine ReadsAll.isEmpty ?_
  cases l with
  | none => exact ReadsAll.ite_pos rfl (Reads.pure _).all
  | some x =>
    have hx : x.length = 3 := h x rfl
    refine ReadsAll.ite_neg ?_ (((reads_array hx).mapErr _).map some).all
    cases x with
    | nil => simp at hx
    | cons b bs => simp

theorem length_evpnBody {r : EvpnRoute} (h : r.WF) : r.body.length = r.bodyLen := by
  cases r with
  | autoDiscovery rd esi tag l => obtain ⟨h1, h2⟩ := h; simp [EvpnRoute.body, EvpnRoute.bodyLen, h1, h2]
  | macIp rd esi tag mac ip l1 l2 =>
    obtain ⟨h1, h2, h3, h4⟩ := h
    cases ip <;> cases l2 <;>
      simp [EvpnRoute.body, EvpnRoute.bodyLen, writeIpBitsOpt, length_ipBits, h1, h2, h3] <;>
      first
        | omega
        | (have := h4 _ rfl; omega)
  | inclusiveMulticast rd tag ip => simp [EvpnRoute.body, EvpnRoute.bodyLen, length_ipBits]; omega
  | ethernetSegment rd esi ip =>
    have h1 : esi.length = 10 := h
    simp [EvpnRoute.body, EvpnRoute.bodyLen, length_ipBits, h1]; omega
  | ipPrefix4 rd esi tag n g l =>
    obtain ⟨h1, h2, h3⟩ := h
    simp [EvpnRoute.body, EvpnRoute.bodyLen, h1, h2, Net.network, h3.wf.len]
  | ipPrefix6 rd esi tag n g l =>
    obtain ⟨h1, h2, h3⟩ := h
    simp [EvpnRoute.body, EvpnRoute.bodyLen, h1, h2, Net.network, h3.wf.len]
  | unknown c v => rfl

theorem EvpnRoute.bodyLen_le {r : EvpnRoute} (h : r.WF) : r.bodyLen ≤ 255 := by
  cases r with
  | macIp rd esi tag mac ip l1 l2 =>
    rcases ip with _ | (_ | _) <;> cases l2 <;> simp [EvpnRoute.bodyLen, lenIpBits]
  | inclusiveMulticast rd tag ip => cases ip <;> simp [EvpnRoute.bodyLen, lenIpBits]
  | ethernetSegment rd esi ip => cases ip <;> simp [EvpnRoute.bodyLen, lenIpBits]
  | unknown c v => exact h.2
  | _ => simp [EvpnRoute.bodyLen]

theorem reads_evpnBody {r : EvpnRoute} (h : r.WF) : ReadsAll (evpnBody r.code) r r.body := by
  unfold evpnBody
  cases r with
  | autoDiscovery rd esi tag l =>
    obtain ⟨h1, h2⟩ := h
    refine ReadsAll.ite_pos rfl (Reads.all ?_)
    unfold parseAutoDiscovery EvpnRoute.body
    exact Reads.bind (reads_rd _) (Reads.bind ((reads_array h1).mapErr _) (Reads.bind ((reads_u32 _).mapErr _)
      (Reads.bind_last ((reads_array h2).mapErr _) (Reads.pure _))))
  | macIp rd esi tag mac ip l1 l2 =>
    obtain ⟨h1, h2, h3, h4⟩ := h
    refine ReadsAll.ite_neg (show ¬ (2 : UInt8) = 1 by decide) (ReadsAll.ite_pos rfl ?_)
    unfold parseMacIp EvpnRoute.body
    refine ReadsAll.bind (reads_rd _) (ReadsAll.bind ((reads_array h1).mapErr _)
      (ReadsAll.bind ((reads_u32 _).mapErr _) (ReadsAll.getOffset fun o => ReadsAll.cons ((reads_u8 _).mapErr _) ?_)))
    refine ReadsAll.ite_neg (by decide) (ReadsAll.bind ((reads_array h2).mapErr _) (ReadsAll.bind (reads_ipBitsOpt _)
      (ReadsAll.bind ((reads_array h3).mapErr _) (ReadsAll.bind_all (reads_optLabel h4) (Reads.pure _)))))
  | inclusiveMulticast rd tag ip =>
    refine ReadsAll.ite_neg (show ¬ (3 : UInt8) = 1 by decide) (ReadsAll.ite_neg (show ¬ (3 : UInt8) = 2 by decide)
      (ReadsAll.ite_pos rfl (Reads.all ?_)))
    unfold parseInclusiveMulticast EvpnRoute.body
    exact Reads.bind (reads_rd _) (Reads.bind ((reads_u32 _).mapErr _)
      (Reads.bind_last (reads_ipBits _) (Reads.pure _)))
  | ethernetSegment rd esi ip =>
    have h1 : esi.length = 10 := h
    refine ReadsAll.ite_neg (show ¬ (4 : UInt8) = 1 by decide) (ReadsAll.ite_neg (show ¬ (4 : UInt8) = 2 by decide)
      (ReadsAll.ite_neg (show ¬ (4 : UInt8) = 3 by decide) (ReadsAll.ite_pos rfl (Reads.all ?_))))
    unfold parseEthernetSegment EvpnRoute.body
    exact Reads.bind (reads_rd _) (Reads.bind ((reads_array h1).mapErr _)
      (Reads.bind_last (reads_ipBits _) (Reads.pure _)))
  | ipPrefix4 rd esi tag n g l =>
    have hlen := length_evpnBody h
    obtain ⟨h1, h2, h3⟩ := h
    refine ReadsAll.ite_neg (show ¬ (5 : UInt8) = 1 by decide) (ReadsAll.ite_neg (show ¬ (5 : UInt8) = 2 by decide)
      (ReadsAll.ite_neg (show ¬ (5 : UInt8) = 3 by decide) (ReadsAll.ite_neg (show ¬ (5 : UInt8) = 4 by decide)
      (ReadsAll.ite_pos rfl ?_))))
    unfold parseIpPrefixRoute
    refine ReadsAll.getOffset fun o => ReadsAll.getRemaining (ReadsAll.ite_pos hlen (Reads.all ?_))
    unfold parseIpPrefix4 EvpnRoute.body
    refine Reads.bind (reads_rd _) (Reads.bind ((reads_array h1).mapErr _) (Reads.bind ((reads_u32 _).mapErr _)
      (Reads.getOffset fun o => Reads.u8_cons (Reads.bind ((reads_array ?_).mapErr _) (Reads.ite_neg ?_
      (Reads.bind ((reads_u32 _).mapErr _) (Reads.bind_last ((reads_array h2).mapErr _) ((Reads.pure _).congr ?_ rfl))))))))
    · simp [Net.network, h3.wf.len]
    · have := h3.wf.plen; omega
    · rw [h3.masked]
  | ipPrefix6 rd esi tag n g l =>
    have hlen := length_evpnBody h
    obtain ⟨h1, h2, h3⟩ := h
    refine ReadsAll.ite_neg (show ¬ (5 : UInt8) = 1 by decide) (ReadsAll.ite_neg (show ¬ (5 : UInt8) = 2 by decide)
      (ReadsAll.ite_neg (show ¬ (5 : UInt8) = 3 by decide) (ReadsAll.ite_neg (show ¬ (5 : UInt8) = 4 by decide)
      (ReadsAll.ite_pos rfl ?_))))
    unfold parseIpPrefixRoute
    refine ReadsAll.getOffset fun o => ReadsAll.getRemaining (ReadsAll.ite_neg (by rw [hlen]; simp [EvpnRoute.bodyLen])
      (ReadsAll.ite_pos hlen (Reads.all ?_)))
    unfold parseIpPrefix6 EvpnRoute.body
    refine Reads.bind (reads_rd _) (Reads.bind ((reads_array h1).mapErr _) (Reads.bind ((reads_u32 _).mapErr _)
      (Reads.getOffset fun o => Reads.u8_cons (Reads.bind ((reads_array ?_).mapErr _) (Reads.ite_neg ?_
      (Reads.bind ((reads_u128 _).mapErr _) (Reads.bind_last ((reads_array h2).mapErr _) ((Reads.pure _).congr ?_ rfl))))))))
    · simp [Net.network, h3.wf.len]
    · have := h3.wf.plen; omega
    · rw [h3.masked]
  | unknown c v =>
    obtain ⟨hc, -⟩ := h
    have hne : ∀ k : UInt8, 1 ≤ k.toNat → k.toNat ≤ 5 → ¬ c = k := by
      rintro k h1 h5 rfl
      rcases hc with rfl | hc
      · simp at h1
      · omega
    refine ReadsAll.ite_neg (hne 1 (by decide) (by decide)) (ReadsAll.ite_neg (hne 2 (by decide) (by decide))
      (ReadsAll.ite_neg (hne 3 (by decide) (by decide)) (ReadsAll.ite_neg (hne 4 (by decide) (by decide))
      (ReadsAll.ite_neg (hne 5 (by decide) (by decide)) (ReadsAll.getRemaining (Reads.all ?_))))))
    exact Reads.bind_last ((reads_bytes rfl).mapErr _) (Reads.pure _)

theorem reads_evpnRoute {r : EvpnRoute} (h : r.WF) : Reads parseEvpnRoute r r.write := by
  unfold parseEvpnRoute EvpnRoute.write
  refine Reads.u8_cons (Reads.u8_cons ?_)
  rw [← List.append_nil r.body]
  refine Reads.takeSlice ?_ fun o => ReadsAll.onSub (reads_evpnBody h) fun s' _ => Reads.pure _
  have := r.bodyLen_le h
  rw [Nat.add_sub_cancel_left, UInt8.toNat_ofNat_le this, length_evpnBody h]

theorem reads_evpnAddr {a : EvpnAddr} {ap : Bool} (h : a.route.WF) (hp : a.pathId.isSome = ap) :
    Reads (parseEvpnAddr ap) a a.write := by
  unfold parseEvpnAddr EvpnAddr.write
  exact Reads.bind (reads_pathId hp) (Reads.bind_last (reads_evpnRoute h) (Reads.pure _))

theorem length_evpnAddr {a : EvpnAddr} (h : a.route.WF) : a.write.length = a.len := by
  simp only [EvpnAddr.write, EvpnAddr.len, EvpnRoute.write, EvpnRoute.len, List.length_append, List.length_cons,
    length_pathId, length_evpnBody h]
  omega

theorem safe_evpnBody (c : UInt8) : Safe 0 (evpnBody c) := by
  unfold evpnBody parseAutoDiscovery parseMacIp parseInclusiveMulticast parseEthernetSegment parseIpPrefixRoute
    parseIpPrefix4 parseIpPrefix6 parseIpBits parseIpBitsOpt parseOptLabel
  psafe [safe_parseRd.zero]

theorem safe_parseEvpnAddr (ap : Bool) : Safe 1 (parseEvpnAddr ap) := by
  unfold parseEvpnAddr parseEvpnRoute
  refine safe_bind_r (safe_parsePathId ap) fun p => safe_bind_l ?_ fun _ => safe_pure _
  refine safe_bind_l (safe_mapErr _ safe_readU8) fun l => ?_
  psafe [safe_evpnBody _]

/-! ## Route target membership -/

def RtmAddr.WF (ap : Bool) (a : RtmAddr) : Prop :=
  a.pathId.isSome = ap ∧ ∀ m ∈ a.membership, m.2.length ≤ 8

theorem reads_rtmAddr {a : RtmAddr} {ap : Bool} (h : a.WF ap) : Reads (parseRtmAddr ap) a a.write := by
  obtain ⟨p, m⟩ := a
  unfold parseRtmAddr RtmAddr.write
  refine Reads.bind (reads_pathId h.1) (Reads.getOffset fun o => ?_)
  cases m with
  | none => exact Reads.u8_cons (Reads.ite_pos rfl (Reads.pure _))
  | some m =>
    obtain ⟨asn, rt⟩ := m
    have hl : rt.length ≤ 8 := h.2 _ rfl
    have hn : (UInt8.ofNat ((4 + rt.length) * 8)).toNat = (4 + rt.length) * 8 := UInt8.toNat_ofNat_le (by omega)
    refine Reads.u8_cons (Reads.ite_neg ?_ (Reads.ite_neg ?_ ?_))
    · intro h0; rw [h0] at hn; simp at hn; omega
    · rw [hn]; omega
    · refine Reads.bind ((reads_u32 _).mapErr _) (Reads.bind_last ((reads_bytes ?_).mapErr _) (Reads.pure _))
      rw [hn]; omega

theorem length_rtmAddr (a : RtmAddr) : a.write.length = a.len := by
  obtain ⟨p, _ | ⟨asn, rt⟩⟩ := a <;> simp [RtmAddr.write, RtmAddr.len, length_pathId] <;> omega

theorem safe_parseRtmAddr (ap : Bool) : Safe 1 (parseRtmAddr ap) := by
  unfold parseRtmAddr
  refine safe_bind_r (safe_parsePathId ap) fun p => safe_bind_r safe_getOffset fun o =>
    safe_bind_l (safe_mapErr _ safe_readU8) fun l => ?_
  psafe

end Verif.Bgp
