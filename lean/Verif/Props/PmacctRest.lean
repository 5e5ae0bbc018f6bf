import Verif.Props.PmacctRoutes
/-!
# Messages of pmacct that are not routes

Statistics, tables and their flags, times, route distinguishers, communities and information elements.
-/
namespace Verif.Props
open Verif Verif.Bgp Verif.Bmp Verif.Pmacct
open Verif.Collector (Text)
open Verif.Collector.MapFile (worth)
open Verif.Xml (joined)

/-! ## C248: statistics -/

/-- what is published of a counter: its type, its value, and its family -/
def statOf : PMsg → Option (UInt16 × Int × Option (UInt16 × UInt8))
  | .stats _ _ t _ v (some a) (some s) => some (t, v, some (a, s))
  | .stats _ _ t _ v none none => some (t, v, none)
  | _ => none

/-- what is to be published of a counter, with what is published of one whose value has no number -/
def wantStat (other : Bytes → Int) : Counter → UInt16 × Int × Option (UInt16 × UInt8)
  | .u32 c v => (c.1, v.toNat, none)
  | .u64 c v => (c.1, ((min v.toNat 9223372036854775807 : Nat) : Int), none)
  | .family c t v => (c.1, ((min v.toNat 9223372036854775807 : Nat) : Int), some (t.afi, t.safi))
  | .experimental n b => (exp16 n, other b, none)
  | .unknown c b => (c, other b, none)

/-- the number that octets are -/
def octetsValue (b : Bytes) : Int := b.foldl (fun n o => n * 256 + o.toNat) 0

/-- C248: of each counter of a report of statistics there is one message, in order, with the type of the counter, its value, at most the largest signed number of 64 bits, and its family. Counters that are experimental or not known
are published with the value 0. -/
theorem c248_statistics (sh : Shown) (x : Ctx) (m : Stats) (t : Time) (ht : m.header.time = some t) :
    (∃ l, convert sh x (.v3 (.stats m)) = .ok l ∧ l.map statOf = m.counters.map fun c => some (wantStat (fun _ => 0) c)) ∧ convert sh x (.v4 (.stats m)) = convert sh x (.v3 (.stats m)) := by
  refine ⟨⟨m.counters.map (convCounter sh x m.header (timeText t)), ?_, ?_⟩, rfl⟩
  · show convStats sh x m = _
    unfold convStats headerTime
    rw [ht]
  · rw [List.map_map]
    refine List.map_congr_left fun c _ => ?_
    cases c with
    | u32 c v => rfl
    | u64 c v =>
      show some (_, clamp v, none) = _
      exact congrArg (fun z => some (c.1, z, (none : Option (UInt16 × UInt8)))) (clamp_min v)
    | family c t v =>
      show some (_, clamp v, some (t.afi, t.safi)) = _
      exact congrArg (fun z => some (c.1, z, some (t.afi, t.safi))) (clamp_min v)
    | experimental n v => rfl
    | unknown c v => rfl

/-- a context for examples -/
def someCtx : Ctx := ⟨"w".toList, "log".toList, "1.000000".toList, .v4 1, 179⟩

example : (match convert plainShown someCtx (.v3 (.stats ⟨sessionHeader, [.u32 ⟨1, by decide⟩ 7, .u64 ⟨7, by decide⟩ 18446744073709551615, .family ⟨9, by decide⟩ .ipv6Unicast 3, .unknown 99 [1, 2]]⟩)) with
    | .ok l => l.map statOf | _ => []) = [some (1, 7, none), some (7, 9223372036854775807, none), some (9, 3, some (2, 1)), some (99, 0, none)] := by decide +kernel

/-- C248: the value of a counter that is not known is not published -/
theorem c248_unknown_disproved : ¬ ∀ (sh : Shown) (x : Ctx) (m : Stats) (l : List PMsg), convert sh x (.v3 (.stats m)) = .ok l → l.map statOf = m.counters.map fun c => some (wantStat octetsValue c) := by
  intro h
  have := h plainShown someCtx ⟨sessionHeader, [.unknown 99 [0, 0, 0, 5]]⟩ _ rfl
  exact absurd this (by decide +kernel)

/-! ## C249: tables -/

theorem flag_bit (f m : UInt8) (k : Nat) (h : ∀ n : Fin 256, ((UInt8.ofNat n.val &&& m == m) : Bool) = decide (n.val / k % 2 = 1)) : (f &&& m == m) = decide (f.toNat / k % 2 = 1) := by
  have := h ⟨f.toNat, f.toNat_lt⟩
  simpa using this

/-- C249: the table that a message of a peer is of follows the type of the peer and the octet of flags as they are on the wire (RFC 7854, 8671 and 9069). Type 3 is Loc-RIB, and its flag 0x80 says that it is filtered; for types 0 to 2
flag 0x10 says that it is Adj-RIB-Out, and flag 0x40 that it is after policy. For the types of experiments no table is named. -/
theorem c249_tables (sh : Shown) (h : PeerHeader) (k : PeerKind) (f : UInt8) (hk : h.type = PeerType.make k f) :
    (peerPart sh h).type = k.code ∧
    (k.code = 3 → (peerPart sh h).flags = ⟨.loc, f.toNat / 128 % 2 = 1, false, true, false, false⟩) ∧
    (k.code.toNat ≤ 2 → (peerPart sh h).flags.isOut = decide (f.toNat / 16 % 2 = 1) ∧ (peerPart sh h).flags.isIn = !decide (f.toNat / 16 % 2 = 1) ∧ (peerPart sh h).flags.isPost = decide (f.toNat / 64 % 2 = 1) ∧
      (peerPart sh h).flags.isLoc = false ∧ (peerPart sh h).flags.filtered = false ∧
      (peerPart sh h).flags.rib = (if f.toNat / 16 % 2 = 1 then if f.toNat / 64 % 2 = 1 then .outPost else .outPre else if f.toNat / 64 % 2 = 1 then .inPost else .inPre)) ∧
    (3 < k.code.toNat → (peerPart sh h).flags = ⟨.unknown, false, false, false, false, false⟩) := by
  have b128 := flag_bit f 0x80 128 (by decide +kernel)
  have b64 := flag_bit f 0x40 64 (by decide +kernel)
  have b16 := flag_bit f 0x10 16 (by decide +kernel)
  cases k with
  | session k =>
    have e : (peerPart sh h).flags = ribFlags (.session k (f &&& 0x80 == 0x80) (f &&& 0x40 == 0x40) (f &&& 0x20 == 0x20) (f &&& 0x10 == 0x10)) := by
      show ribFlags h.type = _
      rw [hk]; rfl
    have e0 : (peerPart sh h).type = (PeerKind.session k).code := by
      show h.type.kind.code = _
      rw [hk]; rfl
    refine ⟨e0, fun h3 => ?_, fun _ => ?_, fun h3 => ?_⟩
    · cases k <;> exact absurd h3 (by decide)
    · rw [e, b64, b16]
      by_cases p : f.toNat / 16 % 2 = 1 <;> by_cases q : f.toNat / 64 % 2 = 1 <;> simp [p, q, ribFlags]
    · cases k <;> exact absurd h3 (by decide)
  | locRib =>
    have e : (peerPart sh h).flags = ribFlags (.locRib (f &&& 0x80 == 0x80)) := by
      show ribFlags h.type = _
      rw [hk]; rfl
    have e0 : (peerPart sh h).type = PeerKind.locRib.code := by
      show h.type.kind.code = _
      rw [hk]; rfl
    refine ⟨e0, fun _ => ?_, fun h3 => absurd h3 (by decide), fun h3 => absurd h3 (by decide)⟩
    rw [e, b128]; rfl
  | experimental n =>
    have e : (peerPart sh h).flags = ribFlags (.experimental n f) := by
      show ribFlags h.type = _
      rw [hk]; rfl
    have e0 : (peerPart sh h).type = (PeerKind.experimental n).code := by
      show h.type.kind.code = _
      rw [hk]; rfl
    have big : ∀ n : Fin 4, 3 < (PeerKind.experimental n).code.toNat := by decide
    have bn := big n
    refine ⟨e0, fun h3 => ?_, fun h3 => ?_, fun _ => by rw [e]; rfl⟩
    · rw [h3] at bn; exact absurd bn (by decide)
    · omega

example : (peerPart plainShown { sessionHeader with type := PeerType.make (.session .rd) 0x50 }).flags = ⟨.outPost, false, false, false, true, true⟩ := by decide +kernel
example : (peerPart plainShown { sessionHeader with type := PeerType.make .locRib 0x80 }).flags = ⟨.loc, true, false, true, false, false⟩ := by decide +kernel

/-! ## C250: which messages are converted -/

/-- the header of a message of routes, if it has an update -/
def updateHeader (h : PeerHeader) : Msg → Option PeerHeader
  | .update _ => some h
  | _ => none

/-- the header of the peer of a message that is converted by its time -/
def timedHeader : BmpMsg → Option PeerHeader
  | .v3 (.routeMonitoring m) => updateHeader m.header m.msg
  | .v4 (.routeMonitoring m) => updateHeader m.header m.pdu
  | .v3 (.peerDown m) => some m.header
  | .v4 (.peerDown m) => some m.header
  | .v3 (.stats m) | .v4 (.stats m) => some m.header
  | .v3 (.peerUp m) | .v4 (.peerUp m) => some m.header
  | _ => none

/-- messages that pmacct has no records of -/
def NoRecord : BmpMsg → Prop
  | .v3 (.mirroring _) | .v4 (.mirroring _) | .v3 (.experimental ..) | .v4 (.experimental ..) => True
  | _ => False

theorem routes_fail (sh : Shown) (x : Ctx) (h : PeerHeader) (m : Msg) :
    (∀ u, m = .update u → (convRoutes sh x h m = .error .missingTimestamp ↔ h.time = none) ∧ convRoutes sh x h m ≠ .error .unsupported) ∧ ((∀ u, m ≠ .update u) → convRoutes sh x h m = .ok []) := by
  constructor
  · rintro u rfl
    unfold convRoutes headerTime
    cases h.time <;> simp
  · intro hn
    cases m with
    | update u => exact absurd rfl (hn u)
    | _ => rfl

/-- C250: a message of BMP is refused in two cases only: it is of route mirroring or of an experiment, or it is of a peer and its header has no time -/
theorem c250_refused (sh : Shown) (x : Ctx) (m : BmpMsg) :
    (convert sh x m = .error .unsupported ↔ NoRecord m) ∧ (convert sh x m = .error .missingTimestamp ↔ ∃ h, timedHeader m = some h ∧ h.time = none) := by
  have route : ∀ (h : PeerHeader) (m : Msg), (convRoutes sh x h m = .error .unsupported ↔ False) ∧
      (convRoutes sh x h m = .error .missingTimestamp ↔ ∃ h', (updateHeader h m) = some h' ∧ h'.time = none) := by
    intro h m
    cases m with
    | update u =>
      have := (routes_fail sh x h (.update u)).1 u rfl
      exact ⟨⟨fun e => this.2 e, False.elim⟩, by simpa [updateHeader] using this.1⟩
    | _ => exact ⟨⟨nofun, False.elim⟩, ⟨nofun, fun ⟨_, e, _⟩ => nomatch e⟩⟩
  have stats : ∀ (m : Stats), (convStats sh x m = .error .unsupported ↔ False) ∧ (convStats sh x m = .error .missingTimestamp ↔ ∃ h, some m.header = some h ∧ h.time = none) := by
    intro m; unfold convStats headerTime; cases e : m.header.time <;> simp [e]
  have up : ∀ (m : PeerUp), ((convUp sh x m).map (fun m => [m]) = .error .unsupported ↔ False) ∧ ((convUp sh x m).map (fun m => [m]) = .error .missingTimestamp ↔ ∃ h, some m.header = some h ∧ h.time = none) := by
    intro m; unfold convUp headerTime; cases e : m.header.time <;> simp [e, Except.map]
  have down : ∀ (h : PeerHeader) (r : Reason), ((convDown sh x h r).map (fun m => [m]) = .error .unsupported ↔ False) ∧ ((convDown sh x h r).map (fun m => [m]) = .error .missingTimestamp ↔ ∃ h', some h = some h' ∧ h'.time = none) := by
    intro h r; unfold convDown headerTime; cases e : h.time <;> simp [e, Except.map]
  have no : ∀ (l : List PMsg), ((Except.ok l : Except ConvErr (List PMsg)) = .error .unsupported ↔ False) ∧ ((Except.ok l : Except ConvErr (List PMsg)) = .error .missingTimestamp ↔ ∃ h : PeerHeader, none = some h ∧ h.time = none) :=
    fun l => ⟨⟨nofun, False.elim⟩, ⟨nofun, fun ⟨_, e, _⟩ => nomatch e⟩⟩
  have refuse : ((Except.error .unsupported : Except ConvErr (List PMsg)) = .error .unsupported ↔ True) ∧ ((Except.error .unsupported : Except ConvErr (List PMsg)) = .error .missingTimestamp ↔ ∃ h : PeerHeader, none = some h ∧ h.time = none) :=
    ⟨⟨fun _ => trivial, fun _ => rfl⟩, ⟨nofun, fun ⟨_, e, _⟩ => nomatch e⟩⟩
  cases m with
  | v3 v =>
    cases v with
    | routeMonitoring m => exact route m.header m.msg
    | stats m => exact stats m
    | peerDown m => exact down m.header m.reason
    | peerUp m => exact up m
    | initiation l => exact no _
    | termination l => exact no _
    | mirroring m => exact refuse
    | experimental n b => exact refuse
  | v4 v =>
    cases v with
    | routeMonitoring m => exact route m.header m.pdu
    | stats m => exact stats m
    | peerDown m => exact down m.header m.reason
    | peerUp m => exact up m
    | initiation l => exact no _
    | termination l => exact no _
    | mirroring m => exact refuse
    | experimental n b => exact refuse

example : convert plainShown someCtx (.v3 (.experimental 1 [])) = .error .unsupported := (c250_refused _ _ _).1.2 trivial

/-- the octets of a header whose time is zero, which by RFC 7854, 4.2 says that the time is not available -/
def timelessOctets : Bytes := ({ sessionHeader with time := none } : PeerHeader).write

/-- C250: a message with a header that is well formed and that has been read is refused, when the router has sent no time -/
theorem c250_no_time_disproved : ¬ ∀ (sh : Shown) (x : Ctx) (b : Bytes) (h : PeerHeader) (rest : Reader), Bmp.parseHeader ⟨b, 0⟩ = (.ok h, rest) → ∃ l, convert sh x (.v3 (.stats ⟨h, []⟩)) = .ok l := by
  intro h
  obtain ⟨l, e⟩ := h plainShown someCtx timelessOctets _ _ rfl
  exact absurd e (nofun)

/-! ## C251: times -/

theorem worth_zeros (n : Nat) (t : Text) : worth (List.replicate n '0' ++ t) = worth t := by
  induction n with
  | zero => rfl
  | succ n ih =>
    show ('0'.toNat - '0'.toNat) * 10 ^ (List.replicate n '0' ++ t).length + worth (List.replicate n '0' ++ t) = _
    rw [ih]; simp

theorem num_len {n : Nat} (h : n < 1000000) : (num n).length ≤ 6 := by
  unfold num
  have := (Nat.length_toDigits_le_iff (b := 10) (n := n) (k := 6) (by omega) (by omega)).2 (by omega)
  exact this

/-- C251: the time of a message is its seconds, a dot, and six digits of microseconds, and says what the header of the peer says, but for leap seconds -/
theorem c251_time (h : PeerHeader) (t : Time) (ht : h.time = some t) (hs : 0 ≤ t.secs) (hn : t.nanos < 1000000000) :
    ∃ a b, headerTime h = .ok (a ++ '.' :: b) ∧ (∀ c ∈ a ++ b, '0' ≤ c ∧ c ≤ '9') ∧ a ≠ [] ∧ b.length = 6 ∧ (worth a : Int) = t.secs ∧ worth b = t.nanos / 1000 := by
  have hm : t.nanos / 1000 < 1000000 := by omega
  have hl := num_len hm
  refine ⟨num t.secs.natAbs, pad6 (t.nanos / 1000), ?_, ?_, num_ne _, ?_, ?_, ?_⟩
  · unfold headerTime
    rw [ht]
    show Except.ok (timeText t) = _
    unfold timeText signed
    rw [if_neg (by omega)]
  · intro c hc
    rcases List.mem_append.1 hc with hc | hc
    · exact num_dig _ c hc
    · unfold pad6 at hc
      rcases List.mem_append.1 hc with hc | hc
      · rw [List.eq_of_mem_replicate hc]; decide
      · exact num_dig _ c hc
  · unfold pad6
    rw [List.length_append, List.length_replicate]; omega
  · rw [num_worth]; omega
  · unfold pad6
    rw [worth_zeros, num_worth]

example : headerTime sessionHeader = .ok "100.000005".toList := by rfl

/-- C251: of times with the same text seconds and microseconds are the same -/
theorem c251_read_back (t u : Time) (h : timeText t = timeText u) (ht : 0 ≤ t.secs) (hu : 0 ≤ u.secs) (mt : t.nanos < 1000000000) (mu : u.nanos < 1000000000) : t.secs = u.secs ∧ t.nanos / 1000 = u.nanos / 1000 := by
  unfold timeText signed at h
  rw [if_neg (by omega), if_neg (by omega)] at h
  obtain ⟨e1, e2⟩ := num_cut (stops_cons (by unfold Dig; decide)) (stops_cons (by unfold Dig; decide)) h
  have e3 := congrArg worth (List.cons.inj e2).2
  unfold pad6 at e3
  rw [worth_zeros, worth_zeros, num_worth, num_worth] at e3
  exact ⟨by omega, e3⟩

/-- C251: in a leap second there are seven digits -/
theorem c251_leap_disproved : ¬ ∀ (secs micros : UInt32) (t : Time) (rest : Reader), parseTime 42 secs micros ⟨[], 42⟩ = (.ok (some t), rest) →
    ∃ a b, timeText t = a ++ '.' :: b ∧ b.length = 6 ∧ worth b = t.nanos / 1000 := by
  intro h
  have hp : parseTime 42 59 1500000 ⟨[], 42⟩ = (.ok (some ⟨59, 1500000000⟩), ⟨[], 42⟩) := by
    unfold parseTime
    rw [if_pos (by decide), show Time.make (59 : UInt32).toNat (satMul1000 1500000) = some ⟨59, 1500000000⟩ by decide +kernel]
    rfl
  obtain ⟨a, b, e, h6, _⟩ := h 59 1500000 ⟨59, 1500000000⟩ _ hp
  have e' : timeText ⟨59, 1500000000⟩ = "59".toList ++ '.' :: "1500000".toList := by decide +kernel
  rw [e'] at e
  have := congrArg List.length e
  have hb := congrArg (List.drop 3) e
  have la : a.length = 3 := by simp [h6] at this; omega
  have ha : a = "59.".toList := by
    have := congrArg (List.take 3) e
    rw [List.take_left' la] at this
    exact this.symm
  rw [ha] at e
  exact absurd e (by simp)

/-! ## C252: route distinguishers -/

/-- C252: two peers, or two routes of virtual private networks, are published with the same route distinguisher only if it is the same; that it is from the header or from the route is said with it -/
theorem c252_distinguishers (sh : Shown) :
    (∀ h g : PeerHeader, (peerPart sh h).rd = (peerPart sh g).rd → h.rd = g.rd) ∧ (∀ h : PeerHeader, (peerPart sh h).rdOrigin = h.rd.map fun _ => .bmp) ∧
    (∀ log f hop log' f' hop' (e g : VpnAddr), (vpnRoute sh log f hop e).rd = (vpnRoute sh log' f' hop' g).rd → e.rd = g.rd) ∧ (∀ log f hop (e : VpnAddr), (vpnRoute sh log f hop e).rdOrigin = some .bgp) := by
  refine ⟨fun h g e => ?_, fun h => ?_, fun log f hop log' f' hop' e g h => ?_, fun _ _ _ _ => rfl⟩
  · have e' : (rdAndOrigin h.rd .bmp).1 = (rdAndOrigin g.rd .bmp).1 := e
    rw [rd_peer, rd_peer] at e'
    cases h1 : h.rd with
    | none =>
      cases h2 : g.rd with
      | none => rfl
      | some b => rw [h1, h2] at e'; cases e'
    | some a =>
      cases h2 : g.rd with
      | none => rw [h1, h2] at e'; cases e'
      | some b =>
        rw [h1, h2] at e'
        exact congrArg some (rdText_inj (Option.some.inj e'))
  · show (rdAndOrigin h.rd .bmp).2 = _
    rw [rd_peer]
  · exact rdText_inj (Option.some.inj h)

example : (peerPart plainShown sessionHeader).rd = some "0:5:6".toList := by decide +kernel

/-! ## C253: communities -/

/-- C253: of two lists of communities with the same text all communities are the same, and so for large communities -/
theorem c253_communities : (∀ l r : List UInt32, commsText l = commsText r → l = r) ∧ (∀ l r : List LargeComm, lcommsText l = lcommsText r → l = r) := by
  constructor
  · intro l r h
    refine map_inj commText_inj (joined_inj ?_ ?_ h)
    all_goals intro t ht; obtain ⟨c, _, rfl⟩ := List.mem_map.1 ht; exact commText_facts c
  · intro l r h
    refine map_inj largeText_inj (joined_inj ?_ ?_ h)
    all_goals intro t ht; obtain ⟨c, _, rfl⟩ := List.mem_map.1 ht; exact largeText_facts c

example : commsText [0x00640001, 0xFFFFFF01] = "100:1 NoExport".toList := by decide +kernel
example : lcommsText [⟨1, 2, 3⟩, ⟨4, 5, 6⟩] = "1:2:3 4:5:6".toList := by decide +kernel

/-- C253: extended communities that differ are published alike: the route target 64497:1 of two octets and that of four octets -/
theorem c253_extended_disproved : ¬ ∀ (sh : Shown) (l r : List ExtComm), ecommsText sh l = ecommsText sh r → l = r := by
  intro h
  have := h plainShown [.transTwoOctet .routeTarget 64497 1] [.transFourOctet .routeTarget 64497 1] (by decide +kernel)
  simp at this

/-- C253: the text of one extended community has blanks in it, with which communities are set apart -/
theorem c253_blanks_disproved : ¬ ∀ (sh : Shown) (c : ExtComm), ' ' ∉ ecommsText sh [c] := by
  intro h
  exact absurd (by decide +kernel) (h plainShown (.unknown 1 2 [3, 4, 5, 6, 7, 8]))

/-- C253: well-known communities are published by their names, not by their numbers -/
theorem c253_numbers_disproved : ¬ ∀ c : UInt32, commsText [c] = num (c.toNat / 65536) ++ ':' :: num (c.toNat % 65536) := by
  intro h
  exact absurd (h 0xFFFFFF01) (by decide +kernel)

/-! ## C254: information elements -/

/-- the texts of a kind, in order -/
def textsOf (k : TextKind) (l : List Info) : List Text := l.filterMap fun i => match i with | .text k' s => if k' = k then some s.toList else none | _ => none

/-- the elements that have no field of their own -/
def othersOf (own : List TextKind) (l : List Info) : List Info := l.filter fun i => match i with | .text k _ => !own.contains k | _ => true

/-- the text of those elements -/
def othersText (sh : Shown) (l : List Info) : Option Text := if l = [] then none else some (joined [' '] (l.map sh.info))

theorem add_others (sh : Shown) (hs : ∀ i, sh.info i ≠ []) (l : List Info) (i : Info) : addReserved sh (othersText sh l) i = othersText sh (l ++ [i]) := by
  unfold addReserved othersText
  cases l with
  | nil => simp [joined_one]
  | cons a l =>
    have hne : joined [' '] ((a :: l).map sh.info) ≠ [] := joined_ne (by simp) (fun t ht => by obtain ⟨i, _, rfl⟩ := List.mem_map.1 ht; exact hs i)
    simp only [List.cons_ne_nil, if_false, Option.getD_some, if_neg hne, List.cons_append]
    rw [← List.cons_append, List.map_append, joined_append _ _ _ (by simp) (by simp)]
    simp [joined_one]

theorem fold_snoc {σ α : Type} (f : σ → α → σ) (s : σ) (l : List α) (a : α) : (l ++ [a]).foldl f s = f (l.foldl f s) a := by rw [List.foldl_append]; rfl

theorem elements_fold (sh : Shown) (hs : ∀ i, sh.info i ≠ []) (l : List Info) :
    l.foldl (initStep sh) (none, none, none, none) = ((textsOf .string l).getLast?, (textsOf .sysDescr l).getLast?, (textsOf .sysName l).getLast?, othersText sh (othersOf [.string, .sysDescr, .sysName] l)) ∧
    l.foldl (upStep sh) (none, none, none, none) = ((textsOf .string l).getLast?, (textsOf .vrfTableName l).getLast?, (textsOf .adminLabel l).getLast?, othersText sh (othersOf [.string, .vrfTableName, .adminLabel] l)) := by
  have rev : ∀ r : List Info, let l := r.reverse
      l.foldl (initStep sh) (none, none, none, none) = ((textsOf .string l).getLast?, (textsOf .sysDescr l).getLast?, (textsOf .sysName l).getLast?, othersText sh (othersOf [.string, .sysDescr, .sysName] l)) ∧
      l.foldl (upStep sh) (none, none, none, none) = ((textsOf .string l).getLast?, (textsOf .vrfTableName l).getLast?, (textsOf .adminLabel l).getLast?, othersText sh (othersOf [.string, .vrfTableName, .adminLabel] l)) := by
    intro r
    induction r with
    | nil => exact ⟨rfl, rfl⟩
    | cons i r ih =>
      simp only [List.reverse_cons] at ih ⊢
      obtain ⟨i1, i2⟩ := ih
      rw [fold_snoc, fold_snoc, i1, i2]
      cases i with
      | text k s => cases k <;> simp [initStep, upStep, textsOf, othersOf, List.filterMap_append, List.filter_append, add_others sh hs]
      | experimental n v => simp [initStep, upStep, textsOf, othersOf, List.filterMap_append, List.filter_append, add_others sh hs]
  have := rev l.reverse
  rwa [List.reverse_reverse] at this

/-- the strings of a termination message -/
def termStrings (l : List TermInfo) : List Text := l.filterMap fun i => match i with | .string s => some s.toList | _ => none
/-- the reasons of a termination message -/
def termReasons (l : List TermInfo) : List TermReason := l.filterMap fun i => match i with | .reason r => some r | _ => none

theorem term_fold (sh : Shown) (r : List TermInfo) : r.reverse.foldl (termStep sh) (none, none) = ((termStrings r.reverse).getLast?, (termReasons r.reverse).getLast?.map sh.termination) := by
  induction r with
  | nil => rfl
  | cons i r ih =>
    rw [List.reverse_cons, fold_snoc, ih]
    cases i <;> simp [termStep, termStrings, termReasons, List.filterMap_append]

/-- C254: an initiation message is published with the last of its strings, the last description and the last name, and with the text of all other elements in order; a peer up message with the last string, the last name of a table
and the last label, and with the text of all others in order; a termination message with the last string and the last reason. What is missing is that no element is lost. -/
theorem c254_elements_partial (sh : Shown) (hs : ∀ i, sh.info i ≠ []) (x : Ctx) :
    (∀ l, ∃ m c, convert sh x (.v3 (.initiation l)) = .ok [m] ∧ convert sh x (.v4 (.initiation l)) = .ok [m] ∧
      m = .init c (textsOf .string l).getLast? (textsOf .sysDescr l).getLast? (textsOf .sysName l).getLast? (othersText sh (othersOf [.string, .sysDescr, .sysName] l))) ∧
    (∀ u l, convert sh x (.v3 (.peerUp u)) = .ok l → convert sh x (.v4 (.peerUp u)) = .ok l ∧ ∃ c p a b ip, l = [.up c p a b ip (textsOf .string u.infos).getLast? (textsOf .vrfTableName u.infos).getLast?
      (textsOf .adminLabel u.infos).getLast? (othersText sh (othersOf [.string, .vrfTableName, .adminLabel] u.infos))]) ∧
    (∀ l, ∃ c, convert sh x (.v3 (.termination l)) = .ok [.term c (termStrings l).getLast? ((termReasons l).getLast?.map sh.termination)] ∧
      convert sh x (.v4 (.termination l)) = convert sh x (.v3 (.termination l))) := by
  refine ⟨fun l => ⟨convInit sh x l, commonOf sh x .init x.arrival none, rfl, rfl, ?_⟩, fun u l h => ⟨h, ?_⟩, fun l => ⟨commonOf sh x .term x.arrival none, ?_, rfl⟩⟩
  · unfold convInit
    simp only [(elements_fold sh hs l).1]
  · have h' : (convUp sh x u).map (fun m => [m]) = .ok l := h
    unfold convUp at h'
    cases ht : headerTime u.header with
    | error e => rw [ht] at h'; cases h'
    | ok t =>
      rw [ht] at h'
      simp only [(elements_fold sh hs u.infos).2] at h'
      injection h' with h'
      exact ⟨_, _, _, _, _, h'.symm⟩
  · show Except.ok [convTerm sh x l] = _
    unfold convTerm
    have := term_fold sh l.reverse
    rw [List.reverse_reverse] at this
    simp only [this]

example : convInit plainShown someCtx [.text .string "a", .text .sysName "r", .experimental 0 [1], .text .string "b"] =
    .init ⟨0, "1.000000".toList, none, some "1.000000".toList, "log".toList, "0.0.0.1".toList, some 179, .init, "w".toList⟩ (some "b".toList) none (some "r".toList) (some "?".toList) := by decide +kernel

/-- C254: of two strings, whose order is to be kept (RFC 7854, 4.4), the first is lost -/
theorem c254_strings_disproved : ¬ ∀ (sh : Shown) (x : Ctx) (l : List Info) (c : Common) (s d n r : Option Text), convInit sh x l = .init c s d n r → ∀ t ∈ textsOf .string l, ∃ u, s = some u ∧ t <:+: u := by
  intro h
  obtain ⟨u, e, hu⟩ := h plainShown someCtx [.text .string "a", .text .string "b"] _ _ _ _ _ rfl ['a'] (by decide +kernel)
  injection e with e
  subst e
  exact absurd hu (by decide +kernel)

/-! ## C255: records and their numbers -/

/-- the name of the record that is of a type of message -/
def recordOf : PMsg → String
  | .route .. => "bmp_msglog_rm" | .stats .. => "bmp_stats" | .down .. => "bmp_peer_down" | .up .. => "bmp_peer_up" | .init .. => "bmp_init" | .term .. => "bmp_term"

/-- the fields that all messages have -/
def commonFields : PMsg → Common
  | .route c .. => c | .stats c .. => c | .down c .. => c | .up c .. => c | .init c .. => c | .term c .. => c

/-- the record that a message of BMP is published as -/
def wantRecord : BmpMsg → Option String
  | .v3 (.routeMonitoring _) | .v4 (.routeMonitoring _) => some "bmp_msglog_rm"
  | .v3 (.stats _) | .v4 (.stats _) => some "bmp_stats"
  | .v3 (.peerDown _) | .v4 (.peerDown _) => some "bmp_peer_down"
  | .v3 (.peerUp _) | .v4 (.peerUp _) => some "bmp_peer_up"
  | .v3 (.initiation _) | .v4 (.initiation _) => some "bmp_init"
  | .v3 (.termination _) | .v4 (.termination _) => some "bmp_term"
  | _ => none

/-- C255: what is published of a message has the record of the type of the message, and the index that it is published with is the place of that record in the union of the schema. It has the address and port of the router, the
identifier of the writer, the event and the time of arrival. -/
theorem c255_records (sh : Shown) (x : Ctx) (m : BmpMsg) (l : List PMsg) (h : convert sh x m = .ok l) :
    ∀ p ∈ l, schemaNames[p.index]? = wantRecord m ∧ (commonFields p).router = sh.ip x.router ∧ (commonFields p).port = some x.port ∧ (commonFields p).writer = x.writer ∧ (commonFields p).event = x.event ∧
      (commonFields p).arrival = some x.arrival := by
  have route : ∀ (h : PeerHeader) (m : Msg), convRoutes sh x h m = .ok l → ∀ p ∈ l, ∃ t q r s, p = .route (commonOf sh x .routeMonitor t none) q r s := by
    intro h m e p hp
    cases m with
    | update u =>
      unfold convRoutes at e
      cases ht : headerTime h with
      | error e' => rw [ht] at e; cases e
      | ok t =>
        rw [ht] at e
        injection e with e
        subst e
        obtain ⟨r, _, rfl⟩ := List.mem_map.1 hp
        exact ⟨_, _, _, _, rfl⟩
    | _ => injection e with e; subst e; cases hp
  have stats : ∀ (m : Stats), convStats sh x m = .ok l → ∀ p ∈ l, ∃ t q a b c d e, p = .stats (commonOf sh x .stats t (some t)) q a b c d e := by
    intro m e p hp
    unfold convStats at e
    cases ht : headerTime m.header with
    | error e' => rw [ht] at e; cases e
    | ok t =>
      rw [ht] at e
      injection e with e
      subst e
      obtain ⟨r, _, rfl⟩ := List.mem_map.1 hp
      exact ⟨_, _, _, _, _, _, _, rfl⟩
  have down : ∀ (h : PeerHeader) (r : Reason), (convDown sh x h r).map (fun m => [m]) = .ok l → ∀ p ∈ l, ∃ t q a b c, p = .down (commonOf sh x .peerDown t (some t)) q a b c := by
    intro h r e p hp
    unfold convDown at e
    cases ht : headerTime h with
    | error e' => rw [ht] at e; cases e
    | ok t =>
      rw [ht] at e
      injection e with e
      subst e
      simp only [List.mem_singleton] at hp
      exact ⟨_, _, _, _, _, hp⟩
  have up : ∀ (m : PeerUp), (convUp sh x m).map (fun m => [m]) = .ok l → ∀ p ∈ l, ∃ t q a b c d e f g, p = .up (commonOf sh x .peerUp t (some t)) q a b c d e f g := by
    intro m e p hp
    unfold convUp at e
    cases ht : headerTime m.header with
    | error e' => rw [ht] at e; cases e
    | ok t =>
      rw [ht] at e
      injection e with e
      subst e
      simp only [List.mem_singleton] at hp
      exact ⟨_, _, _, _, _, _, _, _, _, hp⟩
  intro p hp
  cases m with
  | v3 v =>
    cases v with
    | routeMonitoring m => obtain ⟨_, _, _, _, rfl⟩ := route _ _ h p hp; exact ⟨rfl, rfl, rfl, rfl, rfl, rfl⟩
    | stats m => obtain ⟨_, _, _, _, _, _, _, rfl⟩ := stats _ h p hp; exact ⟨rfl, rfl, rfl, rfl, rfl, rfl⟩
    | peerDown m => obtain ⟨_, _, _, _, _, rfl⟩ := down _ _ h p hp; exact ⟨rfl, rfl, rfl, rfl, rfl, rfl⟩
    | peerUp m => obtain ⟨_, _, _, _, _, _, _, _, _, rfl⟩ := up _ h p hp; exact ⟨rfl, rfl, rfl, rfl, rfl, rfl⟩
    | initiation i => injection h with h; subst h; simp only [List.mem_singleton] at hp; subst hp; exact ⟨rfl, rfl, rfl, rfl, rfl, rfl⟩
    | termination i => injection h with h; subst h; simp only [List.mem_singleton] at hp; subst hp; exact ⟨rfl, rfl, rfl, rfl, rfl, rfl⟩
    | mirroring m => cases h
    | experimental n b => cases h
  | v4 v =>
    cases v with
    | routeMonitoring m => obtain ⟨_, _, _, _, rfl⟩ := route _ _ h p hp; exact ⟨rfl, rfl, rfl, rfl, rfl, rfl⟩
    | stats m => obtain ⟨_, _, _, _, _, _, _, rfl⟩ := stats _ h p hp; exact ⟨rfl, rfl, rfl, rfl, rfl, rfl⟩
    | peerDown m => obtain ⟨_, _, _, _, _, rfl⟩ := down _ _ h p hp; exact ⟨rfl, rfl, rfl, rfl, rfl, rfl⟩
    | peerUp m => obtain ⟨_, _, _, _, _, _, _, _, _, rfl⟩ := up _ h p hp; exact ⟨rfl, rfl, rfl, rfl, rfl, rfl⟩
    | initiation i => injection h with h; subst h; simp only [List.mem_singleton] at hp; subst hp; exact ⟨rfl, rfl, rfl, rfl, rfl, rfl⟩
    | termination i => injection h with h; subst h; simp only [List.mem_singleton] at hp; subst hp; exact ⟨rfl, rfl, rfl, rfl, rfl, rfl⟩
    | mirroring m => cases h
    | experimental n b => cases h

example : ∃ l, convert plainShown someCtx (.v4 (.termination [.string "x"])) = .ok l ∧ l.map PMsg.index = [5] := ⟨_, rfl, rfl⟩

/-- C255: messages are not numbered: the second message of a report has the number of the first -/
theorem c255_numbers_disproved : ¬ ∀ (sh : Shown) (x : Ctx) (m : BmpMsg) (l : List PMsg), convert sh x m = .ok l → (l.map fun p => (commonFields p).seq).Nodup := by
  intro h
  have := h plainShown someCtx (.v3 (.stats ⟨sessionHeader, [.u32 ⟨1, by decide⟩ 7, .u32 ⟨2, by decide⟩ 7]⟩)) _ rfl
  exact absurd this (by decide +kernel)

/-! ## C256: peers -/

/-- C256: a message that a peer is up is published with both ports and the address of the router, or zeros if they are not known; one that it is down with the code of the reason and, for an event of the state machine of the router,
that event. Both have the address, AS number and identifier of the peer, and the time of the header also as that of the event. -/
theorem c256_peers (sh : Shown) (x : Ctx) (t : Time) :
    (∀ u : PeerUp, u.header.time = some t → ∃ c p a b d e, convert sh x (.v3 (.peerUp u)) = .ok [.up c p (u.localPort.getD 0) (u.remotePort.getD 0) (((u.address.map sh.ip)).getD "0.0.0.0".toList) a b d e] ∧
      c.timestamp = timeText t ∧ c.timestampEvent = some (timeText t) ∧ p.asn = u.header.peerAs ∧ p.bgpId = ip4Text u.header.bgpId ∧ p.ip = (u.header.address.map sh.ip).getD "0.0.0.0".toList) ∧
    (∀ d : Down3, d.header.time = some t → ∃ c p, convert sh x (.v3 (.peerDown d)) = .ok [.down c p d.reason.code (some (sh.reason d.reason.code)) (match d.reason with | .localFsm e => some e | _ => none)] ∧
      c.timestamp = timeText t ∧ c.timestampEvent = some (timeText t) ∧ p.asn = d.header.peerAs ∧ p.bgpId = ip4Text d.header.bgpId ∧ p.ip = (d.header.address.map sh.ip).getD "0.0.0.0".toList) ∧
    (∀ d : Down4, d.header.time = some t → ∃ c p, convert sh x (.v4 (.peerDown d)) = .ok [.down c p d.reason.code (some (sh.reason d.reason.code)) (match d.reason with | .localFsm e => some e | _ => none)] ∧
      c.timestamp = timeText t ∧ c.timestampEvent = some (timeText t) ∧ p.asn = d.header.peerAs ∧ p.bgpId = ip4Text d.header.bgpId ∧ p.ip = (d.header.address.map sh.ip).getD "0.0.0.0".toList) := by
  have pip : ∀ h : PeerHeader, (peerPart sh h).ip = (h.address.map sh.ip).getD "0.0.0.0".toList := by
    intro h
    unfold peerPart
    cases h.address <;> rfl
  refine ⟨fun u hu => ?_, fun d hd => ?_, fun d hd => ?_⟩
  · have e : convert sh x (.v3 (.peerUp u)) = (convUp sh x u).map fun m => [m] := rfl
    rw [e]
    unfold convUp headerTime
    rw [hu]
    refine ⟨commonOf sh x .peerUp (timeText t) (some (timeText t)), peerPart sh u.header, ?a, ?b, ?c, ?d, ?e, rfl, rfl, rfl, rfl, pip _⟩
    case e => cases u.address <;> rfl
  · have e : convert sh x (.v3 (.peerDown d)) = (convDown sh x d.header d.reason).map fun m => [m] := rfl
    rw [e]
    unfold convDown headerTime
    rw [hd]
    exact ⟨_, _, rfl, rfl, rfl, rfl, rfl, pip _⟩
  · have e : convert sh x (.v4 (.peerDown d)) = (convDown sh x d.header d.reason).map fun m => [m] := rfl
    rw [e]
    unfold convDown headerTime
    rw [hd]
    exact ⟨_, _, rfl, rfl, rfl, rfl, rfl, pip _⟩

example : ∃ c p, convert plainShown someCtx (.v3 (.peerDown ⟨sessionHeader, .localFsm 24⟩)) = .ok [.down c p 2 (some (plainShown.reason 2)) (some 24)] ∧ c.timestamp = "100.000005".toList :=
  ⟨_, _, rfl, by decide +kernel⟩

end Verif.Props
