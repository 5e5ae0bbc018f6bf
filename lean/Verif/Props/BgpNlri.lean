import Verif.Bgp.NlriLemmas
import Verif.Bgp.Community
/-!
# C42, C43, C44, C45 — NLRI and extended communities
-/
namespace Verif.Props
open Verif Verif.Bgp Parser

/-- Specification of a label stack as sent: one to `max` three-octet labels, the bottom-of-stack bit set on the last
one only. -/
structure StackSpec (max : Nat) (ls : List Bytes) : Prop where
  nonempty : ls ≠ []
  count : ls.length ≤ max
  width : ∀ l ∈ ls, l.length = 3
  bottom : ∀ l ∈ ls.getLast?, (l.getD 2 0).toNat % 2 = 1
  inner : ∀ l ∈ ls.dropLast, (l.getD 2 0).toNat % 2 = 0

theorem labelBottom_iff (l : Bytes) : labelBottom l = true ↔ (l.getD 2 0).toNat % 2 = 1 := by
  unfold labelBottom
  rw [beq_iff_eq, ← UInt8.toNat_inj, UInt8.toNat_and]
  show (l.getD 2 0).toNat &&& 1 = 1 ↔ _
  rw [Nat.and_one_is_mod]

/-- in a withdrawal the label `0x800000` ends the stack on its own (RFC 8277 compatibility), so it may only come last -/
def NoInnerWithdraw (un : Bool) (ls : List Bytes) : Prop := un = true → ∀ l ∈ ls.dropLast, l ≠ [0x80, 0, 0]

theorem labelUnreach_iff {l : Bytes} (h : l.length = 3) : labelUnreach l = true ↔ l = [0x80, 0, 0] := by
  match l, h with
  | [a, b, c], _ => simp [labelUnreach, and_assoc]

theorem stack_labelsOk (un : Bool) : ∀ (ls : List Bytes) (lim : UInt8), lim ≠ 255 → StackSpec lim.toNat ls →
    NoInnerWithdraw un ls → LabelsOk un lim ls
  | [], _, _, h, _ => absurd rfl h.nonempty
  | [l], lim, _, h, _ => by
    have hb := (labelBottom_iff l).mpr (h.bottom l rfl)
    refine ⟨?_, h.width l (by simp), ?_⟩
    · rintro rfl; exact absurd h.count (by simp)
    · rw [if_pos (by simp [labelStop, hb])]
  | l :: l' :: ls, lim, hlim, h, hu => by
    have hc := h.count
    have hi := h.inner l (by simp)
    have hb : labelBottom l = false := by
      rw [Bool.eq_false_iff]; intro hb; rw [labelBottom_iff] at hb; omega
    have h1le : (1 : UInt8) ≤ lim := by
      rw [UInt8.le_iff_toNat_le]; simp only [List.length_cons] at hc; show 1 ≤ _; omega
    have hd : (labelDec lim).toNat = lim.toNat - 1 := by
      rw [labelDec, if_neg hlim, UInt8.toNat_sub_of_le _ _ h1le]; rfl
    refine ⟨?_, h.width l (by simp), ?_⟩
    · rintro rfl; simp at hc
    · have hs : labelStop un l = false := by
        unfold labelStop
        cases un
        · simp [hb]
        · have h1 : labelUnreach l = false := by
            rw [Bool.eq_false_iff]; intro hx
            exact hu rfl l (by simp) ((labelUnreach_iff (h.width l (by simp))).mp hx)
          simp [hb, h1]
      rw [if_neg (by simp [hs])]
      refine stack_labelsOk un (l' :: ls) (labelDec lim) ?_ ⟨by simp, ?_, ?_, ?_, ?_⟩
        (fun hun x hx => hu hun x (by simp [List.dropLast, hx]))
      · intro h255; rw [h255] at hd; have := lim.toNat_lt; simp at hd; omega
      · rw [hd]; simp only [List.length_cons] at hc ⊢; omega
      · intro x hx; exact h.width x (by simp [List.mem_cons.mp hx])
      · intro x hx; exact h.bottom x (by simpa [List.getLast?_cons_cons] using hx)
      · intro x hx; exact h.inner x (by simp [List.dropLast, hx])

/-- What a well-formed encoding must satisfy: whatever octets follow, it is decoded to the same value, the following
octets are left, and the announced size is the number of octets written. -/
def RoundTrips {ε α : Type} (p : Parser ε α) (a : α) (w : Bytes) (len : Nat) : Prop :=
  w.length = len ∧ ∀ rest o, p ⟨w ++ rest, o⟩ = (.ok a, ⟨rest, o + len⟩)

theorem RoundTrips.of {ε α : Type} {p : Parser ε α} {a : α} {w : Bytes} {len : Nat} (h : Reads p a w)
    (hl : w.length = len) : RoundTrips p a w len := ⟨hl, fun rest o => by rw [h.run, hl]⟩

/-- **C42 (IPv4/IPv6 unicast and multicast).** -/
theorem c42_unicast (w : Nat) (hw : w = 4 ∨ w = 16) (ok : Net → Bool) (ap : Bool) (a : NetAddr)
    (h : a.net.WF w) (hc : a.net.network = a.net.octets) (hok : ok a.net = true) (hp : a.pathId.isSome = ap) :
    RoundTrips (parseNetAddr w ok ap) a a.write a.len :=
  .of (reads_netAddr hw ⟨⟨h, hc⟩, hok, hp⟩) (length_netAddr h)

/-- **C42 (MPLS VPN unicast, received under a label limit below 255).** -/
theorem c42_vpn_partial (w : Nat) (hw : w = 4 ∨ w = 16) (ok : Net → Bool) (ap : Bool) (lim : UInt8) (hlim : lim ≠ 255)
    (a : VpnAddr) (h : a.net.WF w) (hc : a.net.network = a.net.octets) (hok : ok a.net = true)
    (hp : a.pathId.isSome = ap) (hs : StackSpec lim.toNat a.labels)
    (un : Bool) (hu : NoInnerWithdraw un a.labels) (hb : 64 + 24 * a.labels.length + a.net.plen.toNat ≤ 248) :
    RoundTrips (parseVpnAddr w ok ap un lim) a a.write a.len :=
  .of (reads_vpnAddr hw ⟨⟨h, hc⟩, hok, hp, stack_labelsOk un _ _ hlim hs hu, hb⟩) (length_vpnAddr h hs.width)

/-- **C42 (labeled unicast)**: only without a path identifier. -/
theorem c42_labeled_partial (w : Nat) (hw : w = 4 ∨ w = 16) (lim : UInt8) (hlim : lim ≠ 255) (a : LabeledAddr)
    (h : a.net.WF w) (hc : a.net.network = a.net.octets) (hp : a.pathId = none) (hs : StackSpec lim.toNat a.labels)
    (un : Bool) (hu : NoInnerWithdraw un a.labels) (hb : 24 * a.labels.length + a.net.plen.toNat ≤ 248) :
    RoundTrips (parseLabeledAddr w false un lim) a a.write a.len :=
  .of (reads_labeledAddr hw ⟨⟨h, hc⟩, hp, stack_labelsOk un _ _ hlim hs hu, hb⟩) (length_labeledAddr h hs.width)

/-- **C42 (EVPN).** -/
theorem c42_evpn (ap : Bool) (a : EvpnAddr) (h : a.route.WF) (hp : a.pathId.isSome = ap) :
    RoundTrips (parseEvpnAddr ap) a a.write a.len :=
  .of (reads_evpnAddr h hp) (length_evpnAddr h)

/-- **C42 (route target membership).** -/
theorem c42_rtm (ap : Bool) (a : RtmAddr) (hp : a.pathId.isSome = ap) (hm : ∀ m ∈ a.membership, m.2.length ≤ 8) :
    RoundTrips (parseRtmAddr ap) a a.write a.len :=
  .of (reads_rtmAddr ⟨hp, hm⟩) (length_rtmAddr a)

/-- **C42 is false of labeled unicast with a path identifier**: the identifier is not written, so a peer that
negotiated ADD-PATH does not read the value back. -/
theorem c42_labeled_path_disproved :
    ¬ ∀ a : LabeledAddr, a.net.WF 4 → a.net.network = a.net.octets → StackSpec 1 a.labels →
      24 * a.labels.length + a.net.plen.toNat ≤ 248 →
      RoundTrips (parseLabeledAddr 4 a.pathId.isSome false 1) a a.write a.len := by
  intro h
  have := (h ⟨some 7, [[0, 1, 1]], ⟨[10, 0, 0, 0], 8⟩⟩ ⟨by decide, by decide⟩ (by decide)
    ⟨by simp, by simp, by simp, by simp, by simp⟩ (by decide)).2 [] 0
  revert this; decide

/-- **C42 is false of VPN prefixes of 249 to 255 bits**: the parser takes 255 octets for them. -/
theorem c42_vpn_long_disproved :
    ¬ ∀ a : VpnAddr, a.net.WF 16 → a.net.network = a.net.octets → uni6Ok a.net = true → StackSpec 7 a.labels →
      64 + 24 * a.labels.length + a.net.plen.toNat ≤ 255 →
      RoundTrips (parseVpnAddr 16 uni6Ok a.pathId.isSome false 7) a a.write a.len := by
  intro h
  have := (h ⟨none, .as2 1 1, [[0, 1, 0], [0, 2, 0], [0, 3, 1]],
      ⟨[32, 1, 13, 184, 0, 0, 0, 0, 0, 0, 0, 0, 0, 0, 0, 0], 119⟩⟩
    ⟨by decide, by decide⟩ (by decide) (by decide) ⟨by simp, by simp, by simp, by simp, by simp⟩ (by decide)).2 [] 0
  revert this; decide

/-- **C43 (no panic, terminates).** Whatever the octets: every NLRI parser returns a value or an error when the
negotiated label count is at most seven (VPN) or ten (labeled unicast), and consumes at least one octet on success. -/
theorem c43_no_fault_partial (w : Nat) (ok : Net → Bool) (ap un : Bool) (lim : UInt8) (r : Reader) :
    (parseNetAddr w ok ap r).1.isFault = false ∧
    (lim.toNat ≤ 7 → (parseVpnAddr w ok ap un lim r).1.isFault = false) ∧
    (lim.toNat ≤ 10 → (parseLabeledAddr w ap un lim r).1.isFault = false) ∧
    (parseEvpnAddr ap r).1.isFault = false ∧ (parseRtmAddr ap r).1.isFault = false ∧
    (parseLabeledNextHop r).1.isFault = false :=
  ⟨(safe_parseNetAddr w ok ap).noFault r, fun h => (safe_parseVpnAddr w ok ap un lim h).noFault r,
    fun h => (safe_parseLabeledAddr w ap un lim h).noFault r, (safe_parseEvpnAddr ap).noFault r,
    (safe_parseRtmAddr ap).noFault r, safe_parseLabeledNextHop.noFault r⟩

/-- **C43 is false with eight labels**: their bit count with the route distinguisher does not fit the `u8` it is
computed in. -/
theorem c43_vpn_disproved : ∃ r, (parseVpnAddr 4 uni4Ok false false 8 r).1 = .fault .panic :=
  ⟨⟨255 :: ((List.replicate 7 [0, 1, 0]).flatten ++ [0, 1, 1] ++ List.replicate 231 0), 0⟩, by decide +kernel⟩

/-- **C43 is false with eleven labels** for labeled unicast. -/
theorem c43_labeled_disproved : ∃ r, (parseLabeledAddr 4 false false 11 r).1 = .fault .panic :=
  ⟨⟨255 :: ((List.replicate 10 [0, 1, 0]).flatten ++ [0, 1, 1] ++ List.replicate 222 0), 0⟩, by decide +kernel⟩

example : RoundTrips (parseVpnAddr 4 uni4Ok true false 2)
    ⟨some 7, .as4 65536 9, [[0, 1, 0], [0, 2, 1]], ⟨[10, 1, 0, 0], 16⟩⟩
    [0, 0, 0, 7, 128, 0, 1, 0, 0, 2, 1, 0, 2, 0, 1, 0, 0, 0, 9, 10, 1] 21 :=
  c42_vpn_partial 4 (.inl rfl) uni4Ok true 2 (by decide) ⟨some 7, .as4 65536 9, [[0, 1, 0], [0, 2, 1]], ⟨[10, 1, 0, 0], 16⟩⟩
    ⟨by decide, by decide⟩ (by decide) (by decide) rfl ⟨by simp, by simp, by simp, by simp, by simp⟩ false (by simp [NoInnerWithdraw]) (by decide)
example : (⟨none, .macIp (.ipv4 1 2) (List.replicate 10 0) 5 [1, 2, 3, 4, 5, 6] (some (.v4 3)) [0, 0, 1] none⟩ : EvpnAddr).route.WF := by
  simp [EvpnRoute.WF]

/-! ## Extended communities -/

/-- RFC 4360 §2: the second-highest bit of the type octet is clear exactly when the community is transitive. -/
def WireTransitive (w : Bytes) : Prop := ∃ t rest, w = t :: rest ∧ t.toNat / 64 % 2 = 0

theorem and40_iff (c : UInt8) : (c &&& 0x40 == 0) = true ↔ c.toNat / 64 % 2 = 0 := by
  rw [beq_iff_eq]
  have : ∀ x : Fin 256, (UInt8.ofNat x.val &&& 0x40 = 0) ↔ x.val / 64 % 2 = 0 := by decide +kernel
  have h := this ⟨c.toNat, c.toNat_lt⟩
  simpa using h

theorem wireTransitive_cons (t : UInt8) (r : Bytes) : WireTransitive (t :: r) ↔ t.toNat / 64 % 2 = 0 := by
  constructor
  · rintro ⟨_, _, h, h'⟩; cases h; exact h'
  · intro h; exact ⟨t, r, rfl, h⟩

/-- **C44.** Except for the two classes shown wrong below, `transitive()` answers what the type octet sent to the peer
says. -/
theorem c44_transitive_partial (c : ExtComm) (h1 : ∀ st g l, c ≠ .nonTransFourOctet st g l)
    (h2 : ∀ v, c ≠ .transOpaque v) : c.transitive = true ↔ WireTransitive c.write := by
  cases c <;> simp only [ExtComm.transitive, ExtComm.write, wireTransitive_cons, and40_iff]
  case nonTransFourOctet st g l => exact absurd rfl (h1 st g l)
  case transOpaque v => exact absurd rfl (h2 v)
  all_goals decide

/-- **C44 (IPv6 specific).** -/
theorem c44_transitive6 (c : ExtComm6) : c.transitive = true ↔ WireTransitive c.write := by
  cases c <;> simp only [ExtComm6.transitive, ExtComm6.write, wireTransitive_cons, and40_iff]
  all_goals decide

/-- **C44 is false**, in both directions: every non-transitive four-octet-AS community answers `true`, every transitive
opaque one answers `false`. -/
theorem c44_disproved :
    (∀ st g l, (ExtComm.nonTransFourOctet st g l).transitive = true ∧
      ¬ WireTransitive (ExtComm.nonTransFourOctet st g l).write) ∧
    (∀ v, (ExtComm.transOpaque v).transitive = false ∧ WireTransitive (ExtComm.transOpaque v).write) := by
  constructor
  · intro st g l; simp only [ExtComm.transitive, ExtComm.write, wireTransitive_cons]; decide
  · intro v; simp only [ExtComm.transitive, ExtComm.write, wireTransitive_cons]; decide

example : (ExtComm.unknown 0x4a 0 [1, 2, 3, 4, 5, 6]).transitive = false := by decide

/-- **C45.** Communities read back as written, in exactly eight, twenty and twelve octets. -/
theorem c45_roundtrip_partial (c : ExtComm) (h : c.WF) : RoundTrips parseExtComm c c.write c.len :=
  .of (reads_extComm h) (length_extComm h)
theorem c45_roundtrip6 (c : ExtComm6) (h : c.WF) : RoundTrips parseExtComm6 c c.write c.len :=
  .of (reads_extComm6 h) (length_extComm6 h)
theorem c45_large (c : LargeComm) : RoundTrips parseLargeComm c c.write 12 :=
  .of (reads_largeComm c) (length_largeComm c)

/-- **C45 is false of the Source AS communities**: they read back as Route Target communities. -/
theorem c45_sourceAs_disproved (g : UInt16) (l : UInt32) (g4 : UInt32) (l2 : UInt16) (rest : Bytes) (o : Nat) :
    (parseExtComm ⟨(ExtComm.transTwoOctet .sourceAs g l).write ++ rest, o⟩).1 = .ok (.transTwoOctet .routeTarget g l) ∧
    (parseExtComm ⟨(ExtComm.transFourOctet .sourceAs g4 l2).write ++ rest, o⟩).1 =
      .ok (.transFourOctet .routeTarget g4 l2) := by
  constructor
  · have h := (reads_extComm (c := .transTwoOctet .routeTarget g l) trivial).run rest o
    show (parseExtComm ⟨(ExtComm.transTwoOctet .routeTarget g l).write ++ rest, o⟩).1 = _
    rw [h]
  · have h := (reads_extComm (c := .transFourOctet .routeTarget g4 l2) trivial).run rest o
    show (parseExtComm ⟨(ExtComm.transFourOctet .routeTarget g4 l2).write ++ rest, o⟩).1 = _
    rw [h]

/-- **C45**: whatever the octets, the community parsers neither panic nor loop. -/
theorem c45_no_fault (r : Reader) : (parseExtComm r).1.isFault = false ∧ (parseExtComm6 r).1.isFault = false ∧
    (parseLargeComm r).1.isFault = false :=
  ⟨safe_parseExtComm.noFault r, safe_parseExtComm6.noFault r, safe_parseLargeComm.noFault r⟩

example : (ExtComm.evpn (.esiLabel 1 [0, 0, 16])).WF := by simp [ExtComm.WF, EvpnComm.WF]

end Verif.Props
