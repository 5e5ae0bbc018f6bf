import Verif.Props.SpeakerPeer
import Verif.Speaker.PeerOpens
/-!
# Properties of the connections of a BGP peer

C35 (hold timer), C36 (valid UPDATE messages), C37 (treatment of malformed UPDATE messages), C61 (the OPEN that is sent),
C62 (NOTIFICATION for malformed messages), C63 (expiry of the hold timer), C64 (KEEPALIVE messages), C65 (messages of the
user).
-/
namespace Verif.Props
open Verif Verif.Bgp Verif.Speaker SP

/-! ## C35 and C64 -/

/-- the OPEN messages received on a connection -/
def opensReceived (tr : List Act) : List Open := tr.filterMap fun
  | .received (.open o) => some o
  | _ => none

/-- C35, the part that holds: on a connection of the peer in OpenConfirm or Established an OPEN was received such that,
with `h` the smaller one of the configured hold time and the one in that OPEN, if `h` is not zero the hold timer runs with
a period of `h` seconds, and it is due in at most `h` seconds from now. -/
theorem c35_hold_partial {props cfg pol tr s} (h : Sys.Exec (Sys.init props cfg pol) tr s) {c : Conn}
    (hc : s.peer.conn = some c ∨ s.peer.tracked = some c)
    (hs : c.state = .openConfirm ∨ c.state = .established) :
    ∃ o ∈ opensReceived c.trace, min cfg.hold.toNat o.hold.toNat ≠ 0 →
      ∃ T, c.hold = some T ∧ T.period = min cfg.hold.toNat o.hold.toNat * 1000000000 ∧ T.next ≤ s.now + T.period := by
  have hg : Good cfg props s.now s.peer := good_exec h
  have hl : Life cfg.conn props.asn s.now c := by
    rcases hc with hc | hc
    · exact hg.conn c hc
    · exact hg.tracked c hc
  have hi := hl.inv.st
  have hmem : ∀ {asn : Option UInt32} {tr : List Act} {o}, Confirmed asn tr o → o ∈ opensReceived tr := by
    rintro asn tr o ⟨-, a, b, k, e, -⟩
    rw [e, opensReceived, List.filterMap_append]
    exact List.mem_append_right _ (List.mem_cons_self ..)
  unfold StateInv at hi
  rcases hs with hs | hs
  · rw [hs] at hi
    obtain ⟨o, h1, h2⟩ := hi
    exact ⟨o, hmem h1, fun hne => h2.hold hne⟩
  · rw [hs] at hi
    obtain ⟨o, pre, post, e, h1, h2⟩ := hi
    refine ⟨o, ?_, fun hne => h2.hold hne⟩
    rw [e, opensReceived, List.filterMap_append]
    exact List.mem_append_left _ (hmem h1)

/-- C35, the part on KEEPALIVE: one received in OpenConfirm or Established sets the hold timer, if it runs, to its full
period. -/
theorem c35_keepalive {c : Conn} {op net now T} (hs : c.state = .openConfirm ∨ c.state = .established)
    (hT : c.hold = some T) :
    ∃ c1 c2 ev, c.poll now (.message .keepAlive .none) = some (ev, c1) ∧
      c1.handle op net now ev = (.ok ev, c2) ∧ c2.hold = some ⟨T.period, now + T.period⟩ ∧ c2.state = .established := by
  refine ⟨c.receive .keepAlive, (Conn.handle op net now .keepAlive (c.receive .keepAlive)).2, .keepAlive, rfl, ?_⟩
  have h : (c.receive .keepAlive).state = c.state := rfl
  have hT' : (c.receive .keepAlive).hold = some T := hT
  unfold Conn.handle
  rcases hs with hs | hs
  all_goals
    rw [h, hs]
    dsimp only [Conn.handleOpenConfirm, Conn.handleEstablished]
    rw [hT']
    first | exact ⟨rfl, rfl, rfl⟩ | exact ⟨rfl, rfl, hs⟩

example : ∃ tr s c T, Sys.Exec (Sys.init props0 cfg0 pol0) tr s ∧ s.peer.conn = some c ∧ c.state = .established ∧
    c.hold = some T ∧ T.period = 90 * sec := by
  obtain ⟨s, rs, hr, hp⟩ := runs_find (s := Sys.init props0 cfg0 pol0) (ls := toEst)
    (fun s _ => match s.peer.conn with
      | some c => c.state == .established && match c.hold with | some T => T.period == 90 * sec | none => false
      | none => false) (by decide +kernel)
  split at hp
  · next c hc =>
    simp only [Bool.and_eq_true, beq_iff_eq] at hp
    obtain ⟨h1, h2⟩ := hp
    split at h2
    · next T hT => exact ⟨_, s, c, T, runs_exec hr, hc, h1, hT, by simpa using h2⟩
    · cases h2
  · cases hp

namespace SP
/-- an OPEN that proposes no hold time -/
def open0 : Msg := .open ⟨65002, 0, 0x0A000002, []⟩
end SP

/-- C35 fails for UPDATE: the agreed hold time is 90 seconds; an UPDATE is received 60 seconds after the last KEEPALIVE;
30 seconds later the hold timer expires and the session is closed. -/
theorem c35_update_disproved : ∃ u rs, runs (Sys.init props0 cfg0 pol0)
    (toEst ++ [.time (60 * sec), .call okNet, .main (rx upd) okNet, .time (30 * sec), .call okNet, .main .holdTick okNet])
      = some (u, rs) ∧ rs.getLast? = some (some (.event .idle (.conn .holdTimerExpires))) := by
  obtain ⟨u, rs, hr, hp⟩ := runs_find (s := Sys.init props0 cfg0 pol0)
    (ls := toEst ++ [.time (60 * sec), .call okNet, .main (rx upd) okNet, .time (30 * sec), .call okNet,
      .main .holdTick okNet])
    (fun _ rs => rs.getLast? == some (some (.event .idle (.conn .holdTimerExpires)))) (by decide +kernel)
  exact ⟨u, rs, hr, by simpa using hp⟩

/-- C35 fails for a hold time of zero: the OPEN received proposes none, the session is established, and 240 seconds (the
large hold time used while waiting for the OPEN) later the hold timer expires and the session is closed. -/
theorem c35_zero_disproved : ∃ u rs, runs (Sys.init props0 cfg0 pol0)
    (toSent ++ [.call okNet, .main (rx open0) okNet, .call okNet, .main (rx .keepAlive) okNet,
      .time (240 * sec), .call okNet, .main .holdTick okNet])
      = some (u, rs) ∧ rs.getLast? = some (some (.event .idle (.conn .holdTimerExpires))) := by
  obtain ⟨u, rs, hr, hp⟩ := runs_find (s := Sys.init props0 cfg0 pol0)
    (ls := toSent ++ [.call okNet, .main (rx open0) okNet, .call okNet, .main (rx .keepAlive) okNet,
      .time (240 * sec), .call okNet, .main .holdTick okNet])
    (fun _ rs => rs.getLast? == some (some (.event .idle (.conn .holdTimerExpires)))) (by decide +kernel)
  exact ⟨u, rs, hr, by simpa using hp⟩

/-- C64: on a connection of the peer in OpenConfirm or Established, whenever the hold timer has an agreed period, the
keepalive timer runs, its period is at most a third of the agreed hold time, and it is due in at most one period. The
jitter is a fraction of at most one, in units of 2⁻²⁴. -/
theorem c64_period {props cfg pol tr s} (h : Sys.Exec (Sys.init props cfg pol) tr s) {c : Conn}
    (hc : s.peer.conn = some c ∨ s.peer.tracked = some c)
    (hs : c.state = .openConfirm ∨ c.state = .established) (hj : c.jitter ≤ 2 ^ 24) :
    ∃ o ∈ opensReceived c.trace, min cfg.hold.toNat o.hold.toNat ≠ 0 →
      ∃ K, c.keepAlive = some K ∧ 3 * K.period ≤ min cfg.hold.toNat o.hold.toNat * 1000000000 ∧
        K.next ≤ s.now + K.period := by
  have hg : Good cfg props s.now s.peer := good_exec h
  have hl : Life cfg.conn props.asn s.now c := by
    rcases hc with hc | hc
    · exact hg.conn c hc
    · exact hg.tracked c hc
  have hi := hl.inv.st
  have hmem : ∀ {asn : Option UInt32} {tr : List Act} {o}, Confirmed asn tr o → o ∈ opensReceived tr := by
    rintro asn tr o ⟨-, a, b, k, e, -⟩
    rw [e, opensReceived, List.filterMap_append]
    exact List.mem_append_right _ (List.mem_cons_self ..)
  have fin : ∀ {o}, Timers cfg.conn s.now o c → min cfg.hold.toNat o.hold.toNat ≠ 0 →
      ∃ K, c.keepAlive = some K ∧ 3 * K.period ≤ min cfg.hold.toNat o.hold.toNat * 1000000000 ∧
        K.next ≤ s.now + K.period := by
    intro o hT hne
    obtain ⟨K, h1, h2, h3⟩ := hT.keepAlive hne
    refine ⟨K, h1, ?_, h3⟩
    have ha : agreedHold cfg.conn o = min cfg.hold.toNat o.hold.toNat := rfl
    rw [h2, ha]
    generalize min cfg.hold.toNat o.hold.toNat = m
    have h4 : m * sec / 3 * c.jitter / 2 ^ 24 ≤ m * sec / 3 := by
      apply Nat.div_le_of_le_mul
      rw [Nat.mul_comm (2 ^ 24)]
      exact Nat.mul_le_mul_left _ hj
    have h5 : 3 * (m * sec / 3) ≤ m * sec := Nat.mul_div_le ..
    calc _ ≤ 3 * (m * sec / 3) := Nat.mul_le_mul_left _ h4
      _ ≤ _ := h5
  unfold StateInv at hi
  rcases hs with hs | hs
  · rw [hs] at hi
    obtain ⟨o, h1, h2⟩ := hi
    exact ⟨o, hmem h1, fin h2⟩
  · rw [hs] at hi
    obtain ⟨o, pre, post, e, h1, h2⟩ := hi
    refine ⟨o, ?_, fin h2⟩
    rw [e, opensReceived, List.filterMap_append]
    exact List.mem_append_left _ (hmem h1)

/-- C64: when the keepalive timer is due in OpenConfirm or Established, a KEEPALIVE is given to the transport, the state
stays and the timer starts anew. -/
theorem c64_tick {c : Conn} {op net now K} (hs : c.state = .openConfirm ∨ c.state = .established)
    (hK : c.keepAlive = some K) (hd : K.next ≤ now) (hn : net 0 = .ok) :
    ∃ c1 c2 ev, c.poll now .keepAliveTick = some (ev, c1) ∧ c1.handle op net now ev = (.ok ev, c2) ∧
      c2.trace = c.trace ++ [.sent .keepAlive] ∧ c2.state = c.state ∧
      c2.keepAlive = some ⟨K.period, now + K.period⟩ := by
  have hp : c.poll now .keepAliveTick = some (.keepAliveTimerExpires, { c with keepAlive := some K.tick }) := by
    unfold Conn.poll; dsimp only; rw [hK]; dsimp only; rw [if_pos hd]
  refine ⟨_, (Conn.handle op net now .keepAliveTimerExpires { c with keepAlive := some K.tick }).2, _, hp, ?_⟩
  rcases hs with hs | hs
  all_goals
    unfold Conn.handle
    dsimp only
    rw [hs]
    dsimp only [Conn.handleOpenConfirm, Conn.handleEstablished, Conn.sendThen]
    simp only [hn]
    exact ⟨trivial, rfl, hs.symm ▸ rfl, rfl⟩

example : ∃ tr s c K, Sys.Exec (Sys.init props0 cfg0 pol0) tr s ∧ s.peer.conn = some c ∧ c.state = .established ∧
    c.keepAlive = some K ∧ K.next ≤ s.now ∧ c.jitter ≤ 2 ^ 24 := by
  obtain ⟨s, rs, hr, hp⟩ := runs_find (s := Sys.init props0 cfg0 pol0) (ls := toEst ++ [.time (30 * sec)])
    (fun s _ => match s.peer.conn with
      | some c => c.state == .established && decide (c.jitter ≤ 2 ^ 24) &&
        match c.keepAlive with | some T => decide (T.next ≤ s.now) | none => false
      | none => false) (by decide +kernel)
  split at hp
  · next c hc =>
    simp only [Bool.and_eq_true, beq_iff_eq, decide_eq_true_eq] at hp
    obtain ⟨⟨h1, h3⟩, h2⟩ := hp
    split at h2
    · next T hT => exact ⟨_, s, c, T, runs_exec hr, hc, h1, hT, by simpa using h2, h3⟩
    · cases h2
  · cases hp

/-! ## C36 -/

/-- the kinds of path attributes this property is about -/
def isOrigin (a : PathAttr) : Bool := match a.value with | .origin _ => true | _ => false
def isAsPath (a : PathAttr) : Bool := match a.value with | .asPath _ | .as4Path _ => true | _ => false
def isNextHop (a : PathAttr) : Bool := match a.value with | .nextHop _ => true | _ => false
def isMpReach (a : PathAttr) : Bool := match a.value with | .mpReach _ => true | _ => false
def isMpUnreach (a : PathAttr) : Bool := match a.value with | .mpUnreach _ => true | _ => false

theorem SP.seen_step (s : Seen) (a : PathAttr) (l : List PathAttr) (h : (s.origin && s.asPath) = false) :
    ∃ t, seenLoop s (a :: l) = seenLoop t l ∧ t.origin = (s.origin || isOrigin a) ∧
      t.asPath = (s.asPath || isAsPath a) ∧ t.nextHop = (s.nextHop || isNextHop a) ∧
      t.mpReach = s.mpReach + (if isMpReach a then 1 else 0) ∧
      t.mpUnreach = s.mpUnreach + (if isMpUnreach a then 1 else 0) := by
  rw [seenLoop, h]
  unfold isOrigin isAsPath isNextHop isMpReach isMpUnreach
  cases a.value <;> exact ⟨_, rfl, by simp, by simp, by simp, by simp, by simp⟩

theorem SP.seen_both (l : List PathAttr) (s : Seen) (h1 : s.origin = true ∨ l.any isOrigin = true)
    (h2 : s.asPath = true ∨ l.any isAsPath = true) : (seenLoop s l).origin = true ∧ (seenLoop s l).asPath = true := by
  induction l generalizing s with
  | nil => exact ⟨by simpa [seenLoop] using h1, by simpa [seenLoop] using h2⟩
  | cons a l ih =>
    cases h : s.origin && s.asPath with
    | true => rw [seenLoop, h]; simpa using h
    | false =>
      obtain ⟨t, e, t1, t2, -⟩ := SP.seen_step s a l h
      rw [e]
      refine ih t ?_ ?_
      · rw [t1]; simp only [List.any_cons, Bool.or_eq_true] at *; grind
      · rw [t2]; simp only [List.any_cons, Bool.or_eq_true] at *; grind

theorem SP.seen_mp (l : List PathAttr) (s : Seen) : (seenLoop s l).mpReach ≤ s.mpReach + l.countP isMpReach ∧
    (seenLoop s l).mpUnreach ≤ s.mpUnreach + l.countP isMpUnreach := by
  induction l generalizing s with
  | nil => simp [seenLoop]
  | cons a l ih =>
    cases h : s.origin && s.asPath with
    | true => rw [seenLoop, h]; simp
    | false =>
      obtain ⟨t, e, -, -, -, t4, t5⟩ := SP.seen_step s a l h
      rw [e, List.countP_cons, List.countP_cons]
      have := ih t
      rw [t4, t5] at this
      omega

theorem SP.seen_nextHop_keep (l : List PathAttr) (s : Seen) (h : s.nextHop = true) : (seenLoop s l).nextHop = true := by
  induction l generalizing s with
  | nil => exact h
  | cons a l ih =>
    cases h' : s.origin && s.asPath with
    | true => rw [seenLoop, h']; exact h
    | false =>
      obtain ⟨t, e, -, -, t3, -⟩ := SP.seen_step s a l h'
      rw [e]; exact ih t (by rw [t3, h]; rfl)

theorem SP.seen_nextHop (a b : List PathAttr) (x : PathAttr) (s : Seen) (hx : isNextHop x = true)
    (h : ((s.origin || a.any isOrigin) && (s.asPath || a.any isAsPath)) = false) :
    (seenLoop s (a ++ x :: b)).nextHop = true := by
  induction a generalizing s with
  | nil =>
    obtain ⟨t, e, -, -, t3, -⟩ := SP.seen_step s x b (by simpa using h)
    rw [List.nil_append, e]; exact SP.seen_nextHop_keep b t (by rw [t3, hx]; simp)
  | cons y a ih =>
    have h' : (s.origin && s.asPath) = false := by
      cases h1 : s.origin <;> cases h2 : s.asPath <;> simp_all
    obtain ⟨t, e, t1, t2, -⟩ := SP.seen_step s y (a ++ x :: b) h'
    rw [List.cons_append, e]
    refine ih t ?_
    rw [t1, t2]
    rw [List.any_cons, List.any_cons, ← Bool.or_assoc, ← Bool.or_assoc] at h
    exact h

/-- C36, the part that holds. An UPDATE with ORIGIN and AS_PATH, and at most one MP_REACH_NLRI and one MP_UNREACH_NLRI,
is delivered if it announces no IPv4 route in its NLRI field, or if a NEXT_HOP comes before ORIGIN and AS_PATH have both
come. -/
theorem c36_accepted_partial {u : Update} {g} (h1 : u.attrs.any isOrigin = true) (h2 : u.attrs.any isAsPath = true)
    (h3 : u.attrs.countP isMpReach ≤ 1) (h4 : u.attrs.countP isMpUnreach ≤ 1)
    (h5 : u.nlri = [] ∨ ∃ a x b, u.attrs = a ++ x :: b ∧ isNextHop x = true ∧
      (a.any isOrigin && a.any isAsPath) = false) :
    ∃ t, updateEvent u g = .update u t := by
  obtain ⟨s1, s2⟩ := SP.seen_both u.attrs {} (.inr h1) (.inr h2)
  obtain ⟨s3, s4⟩ := SP.seen_mp u.attrs {}
  have s3 : (seenLoop {} u.attrs).mpReach ≤ 1 := Nat.le_trans s3 (by simpa using h3)
  have s4 : (seenLoop {} u.attrs).mpUnreach ≤ 1 := Nat.le_trans s4 (by simpa using h4)
  unfold updateEvent
  dsimp only
  rw [if_neg (by simp [s1]), if_neg (by simp [s2]), if_neg, if_neg]
  · exact ⟨_, rfl⟩
  · simp; omega
  · rcases h5 with h5 | ⟨a, x, b, e, hx, hab⟩
    · simp [h5]
    · have := SP.seen_nextHop a b x {} hx (by simpa using hab)
      rw [← e] at this
      simp [this]

/-- and the session stays up: what C59 says of it -/
theorem c36_session_partial {props cfg pol tr s} {c : Conn} {h k u g net}
    (he : ExecIf Calm (Sys.init props cfg pol) tr s) (hph : s.phase = .select h false k)
    (hc : s.peer.conn = some c) (hs : c.state = .established) (ht : s.peer.tracked = none)
    (h1 : u.attrs.any isOrigin = true) (h2 : u.attrs.any isAsPath = true)
    (h3 : u.attrs.countP isMpReach ≤ 1) (h4 : u.attrs.countP isMpUnreach ≤ 1)
    (h5 : u.nlri = [] ∨ ∃ a x b, u.attrs = a ++ x :: b ∧ isNextHop x = true ∧
      (a.any isOrigin && a.any isAsPath) = false) :
    ∃ s' t f d, s.step (.main (.message (.update u) g) net) = some (s', some (.event f (.conn (.update u t)))) ∧
      f = .established ∧ s'.peer.conn = some d ∧ d.state = .established := by
  obtain ⟨t, hu⟩ := c36_accepted_partial (g := g) h1 h2 h3 h4 h5
  have hco : Coh s.peer := (coh_exec he).resolve_left (by rw [hph]; simp)
  have hf : s.peer.fsm = .established := by have := (hco.up c hc).1; rw [hs] at this; exact this
  have hstep := SP.main_step (net := net) hph hc ht
    (show c.poll s.now (.message (.update u) g) = some (updateEvent u g, c.receive (.update u)) from rfl)
  have hst : (c.receive (.update u)).state = .established := hs
  rw [hu] at hstep
  have hh : ∀ op, (c.receive (.update u)).handle op net s.now (.update u t) =
      (.ok (.update u t), c.receive (.update u)) := by
    intro op; unfold Conn.handle; rw [hst]; rfl
  unfold Peer.handleConnEvent at hstep
  dsimp only at hstep
  rw [hh] at hstep
  dsimp only at hstep
  rw [hst] at hstep
  exact ⟨_, t, _, _, hstep, hf, rfl, hst⟩

/-- the End-of-RIB markers of RFC 4724: an UPDATE with nothing, or one with an empty MP_UNREACH_NLRI and nothing else, is
delivered. -/
theorem c36_end_of_rib {u : Update} {g} (h1 : u.withdrawn = []) (h2 : u.nlri = [])
    (h3 : u.attrs = [] ∨ ∃ a l, u.attrs = [a] ∧ a.value = .mpUnreach (.known l) ∧ nlriEmpty l = true) :
    ∃ t, updateEvent u g = .update u t := by
  obtain ⟨w, at', n⟩ := u
  obtain rfl : w = [] := h1
  obtain rfl : n = [] := h2
  rcases h3 with h | ⟨a, l, h, ha, hl⟩
  · obtain rfl : at' = [] := h
    exact ⟨_, rfl⟩
  · obtain rfl : at' = [a] := h
    refine ⟨updateTreatment g, ?_⟩
    simp [updateEvent, endOfRib, eorLoop, seenLoop, ha, hl]

example : ∃ a l, (⟨[], [⟨true, false, false, false, .mpUnreach (.known (.uni6 []))⟩], []⟩ : Update).attrs = [a] ∧
    a.value = .mpUnreach (.known l) ∧ nlriEmpty l = true := ⟨_, _, rfl, rfl, rfl⟩

namespace SP
def aOrigin : PathAttr := ⟨false, true, false, false, .origin .igp⟩
def aPath : PathAttr := ⟨false, true, false, false, .asPath (.as4 [])⟩
def aHop : PathAttr := ⟨false, true, false, false, .nextHop 0x0A000002⟩
def route : NetAddr := ⟨none, ⟨[10, 1, 0, 0], 16⟩⟩
/-- the usual order of the attributes -/
def updUsual : Update := ⟨[], [aOrigin, aPath, aHop], [route]⟩
def updHopFirst : Update := ⟨[], [aHop, aOrigin, aPath], [route]⟩
def updWithdraw : Update := ⟨[route], [], []⟩
end SP

example : SP.updHopFirst.attrs.any isOrigin = true ∧ SP.updHopFirst.attrs.any isAsPath = true ∧
    (∃ a x b, SP.updHopFirst.attrs = a ++ x :: b ∧ isNextHop x = true ∧ (a.any isOrigin && a.any isAsPath) = false) :=
  ⟨rfl, rfl, [], aHop, [aOrigin, aPath], rfl, rfl, rfl⟩

/-- C36 fails for the usual order of attributes: ORIGIN, AS_PATH, NEXT_HOP. The session is closed since NEXT_HOP is said
to be missing. -/
theorem c36_order_disproved : ∃ u rs, runs (Sys.init props0 cfg0 pol0)
    (toEst ++ [.call okNet, .main (rx (.update updUsual)) okNet]) = some (u, rs) ∧ u.peer.fsm = .idle ∧
    u.peer.conn = none ∧
    rs.getLast? = some (some (.event .idle (.conn (.updateErr ⟨.updateMsg, 3, [3], rfl⟩)))) := by
  obtain ⟨u, rs, hr, hp⟩ := runs_find (s := Sys.init props0 cfg0 pol0)
    (ls := toEst ++ [.call okNet, .main (rx (.update updUsual)) okNet])
    (fun u rs => u.peer.fsm == .idle && u.peer.conn.isNone &&
      rs.getLast? == some (some (.event .idle (.conn (.updateErr ⟨.updateMsg, 3, [3], rfl⟩))))) (by decide +kernel)
  simp only [Bool.and_eq_true, beq_iff_eq, Option.isNone_iff_eq_none] at hp
  exact ⟨u, rs, hr, hp.1.1, hp.1.2, hp.2⟩

/-- C36 fails for an UPDATE that only withdraws a route: the session is closed since ORIGIN is said to be missing -/
theorem c36_withdraw_disproved : ∃ u rs, runs (Sys.init props0 cfg0 pol0)
    (toEst ++ [.call okNet, .main (rx (.update updWithdraw)) okNet]) = some (u, rs) ∧ u.peer.fsm = .idle ∧
    u.peer.conn = none ∧
    rs.getLast? = some (some (.event .idle (.conn (.updateErr ⟨.updateMsg, 3, [1], rfl⟩)))) := by
  obtain ⟨u, rs, hr, hp⟩ := runs_find (s := Sys.init props0 cfg0 pol0)
    (ls := toEst ++ [.call okNet, .main (rx (.update updWithdraw)) okNet])
    (fun u rs => u.peer.fsm == .idle && u.peer.conn.isNone &&
      rs.getLast? == some (some (.event .idle (.conn (.updateErr ⟨.updateMsg, 3, [1], rfl⟩))))) (by decide +kernel)
  simp only [Bool.and_eq_true, beq_iff_eq, Option.isNone_iff_eq_none] at hp
  exact ⟨u, rs, hr, hp.1.1, hp.1.2, hp.2⟩

/-! ## C37 -/

/-- what an error of a path attribute requires: RFC 7606 sections 3, 4, 5 and 7, RFC 7311 (AIGP), RFC 8092 (large
communities), RFC 8669 (prefix SID), RFC 9234 (only to customer), RFC 9552 (BGP-LS). An error in the NLRI of a family
resets that family. -/
def rfc7606 : AttrErr → Treatment
  | .atomicAggregate _ | .aggregator _ | .aigp _ | .bgpLs _ | .prefixSid _ => .attributeDiscard
  | .mpReach (.parse _) | .mpReach (.undefAfi ..) | .mpReach (.undefSafi ..) => .sessionReset
  | .mpUnreach (.parse _) | .mpUnreach (.undefAfi ..) | .mpUnreach (.undefSafi ..) => .sessionReset
  | .mpReach (.ipAddr t _) | .mpReach (.labeledNextHop t _) | .mpReach (.nlri t _) => .resetFamily t.afi t.safi
  | .mpUnreach (.ipAddr t _) | .mpUnreach (.labeledNextHop t _) | .mpUnreach (.nlri t _) => .resetFamily t.afi t.safi
  | .mpReach (.ls _) | .mpUnreach (.ls _) => .resetFamily 16388 71
  | .invalid _ (.partialBit _) .. => .normal
  | .parse _ | .origin _ | .asPath _ | .nextHop _ | .med _ | .localPref _ | .communities _ | .extCommunities _
  | .extCommunities6 _ | .largeCommunities _ | .originator _ | .clusterList _ | .onlyToCustomer _ | .unknown _
  | .invalid .. => .treatAsWithdraw

/-- from the weakest treatment to the strongest -/
def severity : Treatment → Nat
  | .normal => 0
  | .attributeDiscard => 1
  | .treatAsWithdraw => 2
  | .resetFamily .. => 3
  | .sessionReset => 4

/-- the errors the code treats as required: all but those of ONLY_TO_CUSTOMER, of attributes it does not know, and of the
NLRI of BGP-LS -/
def treatedAsRequired : AttrErr → Bool
  | .onlyToCustomer _ | .unknown _ | .mpReach (.ls _) | .mpUnreach (.ls _) => false
  | _ => true

theorem SP.raise_sev (t u : Treatment) : severity (t.raise u) = max (severity t) (severity u) ∧
    (t.raise u = t ∨ t.raise u = u) := by
  cases t <;> cases u <;> simp [Treatment.raise, Treatment.cmp, severity]

theorem SP.required_eq {e : AttrErr} (h : treatedAsRequired e = true) (t : Treatment) :
    (match errTreatment e with | some t' => t.raise t' | none => t) = t.raise (rfc7606 e) := by
  have hn : t.raise .normal = t := by cases t <;> rfl
  cases e with
  | mpReach e => cases e <;> first | rfl | cases h
  | mpUnreach e => cases e <;> first | rfl | cases h
  | invalid o f k c => cases f <;> first | rfl | exact hn.symm
  | onlyToCustomer _ => cases h
  | unknown _ => cases h
  | _ => rfl

theorem SP.treat_fold (l : List AttrErr) (h : ∀ e ∈ l, treatedAsRequired e = true) (t : Treatment) :
    let r := l.foldl (fun t e => match errTreatment e with | some t' => t.raise t' | none => t) t
    (r = t ∨ ∃ e ∈ l, r = rfc7606 e) ∧ severity t ≤ severity r ∧ ∀ e ∈ l, severity (rfc7606 e) ≤ severity r := by
  induction l generalizing t with
  | nil => exact ⟨.inl rfl, Nat.le_refl _, fun _ h => by cases h⟩
  | cons e l ih =>
    have he := h e (by simp)
    have ih := ih (fun e he => h e (by simp [he])) (t.raise (rfc7606 e))
    rw [List.foldl_cons, SP.required_eq he]
    dsimp only at ih ⊢
    obtain ⟨i1, i2, i3⟩ := ih
    obtain ⟨r1, r2⟩ := SP.raise_sev t (rfc7606 e)
    refine ⟨?_, by omega, ?_⟩
    · rcases i1 with i1 | ⟨x, hx, i1⟩
      · rcases r2 with r2 | r2
        · exact .inl (i1.trans r2)
        · exact .inr ⟨e, by simp, i1.trans r2⟩
      · exact .inr ⟨x, by simp [hx], i1⟩
    · intro x hx
      rcases List.mem_cons.mp hx with rfl | hx
      · omega
      · exact i3 x hx

/-- C37, the part that holds: without errors of ONLY_TO_CUSTOMER, of unknown attributes and of the NLRI of BGP-LS, the
treatment is that required by one of the errors (or Normal if there is none), and no error requires a more severe
one. -/
theorem c37_strongest_partial {g : Ignored} (h : ∀ e ∈ g.attrs, treatedAsRequired e = true) :
    ((g.attrs = [] ∧ updateTreatment g = .normal) ∨ ∃ e ∈ g.attrs, updateTreatment g = rfc7606 e) ∧
    ∀ e ∈ g.attrs, severity (rfc7606 e) ≤ severity (updateTreatment g) := by
  obtain ⟨h1, h2, h3⟩ := SP.treat_fold g.attrs h .normal
  refine ⟨?_, h3⟩
  rcases h1 with h1 | h1
  · cases hl : g.attrs with
    | nil => exact .inl ⟨rfl, by unfold updateTreatment; rw [hl]; rfl⟩
    | cons e l =>
      refine .inr ⟨e, by simp, ?_⟩
      have h4 := h3 e (by simp [hl])
      have h1 : updateTreatment g = .normal := h1
      rw [h1]
      replace h4 : severity (rfc7606 e) ≤ severity (updateTreatment g) := h4
      rw [h1] at h4
      cases hr : rfc7606 e with
      | normal => rfl
      | _ => rw [hr] at h4; exact absurd h4 (by simp [severity])
  · exact .inr h1

/-- C37: how severe the treatment is does not depend on the order of the errors. -/
theorem c37_order_partial {g g' : Ignored} (h : ∀ e ∈ g.attrs, treatedAsRequired e = true)
    (hp : g.attrs.Perm g'.attrs) : severity (updateTreatment g) = severity (updateTreatment g') := by
  have key : ∀ {a b : Ignored}, a.attrs.Perm b.attrs → (∀ e ∈ a.attrs, treatedAsRequired e = true) →
      severity (updateTreatment a) ≤ severity (updateTreatment b) := by
    intro a b hp ha
    have hb : ∀ e ∈ b.attrs, treatedAsRequired e = true := fun e he => ha e (hp.mem_iff.mpr he)
    rcases (c37_strongest_partial ha).1 with ⟨-, h1⟩ | ⟨e, he, h1⟩
    · rw [h1]; exact Nat.zero_le _
    · rw [h1]; exact (c37_strongest_partial hb).2 e (hp.mem_iff.mp he)
  exact Nat.le_antisymm (key hp h) (key hp.symm fun e he => h e (hp.mem_iff.mpr he))

/-- C37: the treatment is Normal exactly when no error requires anything. -/
theorem c37_normal_partial {g : Ignored} (h : ∀ e ∈ g.attrs, treatedAsRequired e = true) :
    updateTreatment g = .normal ↔ ∀ e ∈ g.attrs, rfc7606 e = .normal := by
  obtain ⟨h1, h2⟩ := c37_strongest_partial h
  constructor
  · intro hn e he
    have := h2 e he
    rw [hn] at this
    cases hr : rfc7606 e with
    | normal => rfl
    | _ => rw [hr] at this; exact absurd this (by simp [severity])
  · intro hall
    rcases h1 with ⟨-, h1⟩ | ⟨e, he, h1⟩
    · exact h1
    · rw [h1]; exact hall e he

namespace SP
def errFam (t : AddressType) : AttrErr := .mpReach (.ipAddr t (.parse (.eof 0 4 1)))
def ign (l : List AttrErr) : Ignored := ⟨[], [], [], l⟩
end SP

example : (∀ e ∈ (ign [.med (.parse (.eof 3 4 1)), errFam .ipv6Unicast, .aigp (.parse (.eof 9 1 0))]).attrs,
    treatedAsRequired e = true) ∧
    updateTreatment (ign [.med (.parse (.eof 3 4 1)), errFam .ipv6Unicast, .aigp (.parse (.eof 9 1 0))]) = .resetFamily 2 1 := by
  decide

/-- C37 fails: which family is reset depends on the order of the errors. -/
theorem c37_family_disproved : ∃ g g' : Ignored, g.attrs.Perm g'.attrs ∧ updateTreatment g ≠ updateTreatment g' :=
  ⟨ign [errFam .ipv6Unicast, errFam .ipv4Multicast], ign [errFam .ipv4Multicast, errFam .ipv6Unicast],
    .swap .., by decide⟩

/-- C37 fails for BGP-LS: an error in its NLRI is reported as one of route target constrains (AFI 1, SAFI 132). -/
theorem c37_ls_disproved (e : LsError) : updateTreatment (ign [.mpReach (.ls e)]) = .resetFamily 1 132 ∧
    rfc7606 (.mpReach (.ls e)) = .resetFamily 16388 71 := ⟨rfl, rfl⟩

/-- C37 fails for ONLY_TO_CUSTOMER: RFC 9234 requires treat-as-withdraw. -/
theorem c37_otc_disproved (e : ParseError) : updateTreatment (ign [.onlyToCustomer e]) = .attributeDiscard ∧
    rfc7606 (.onlyToCustomer e) = .treatAsWithdraw := ⟨rfl, rfl⟩

/-- C37 fails for an attribute of unknown type whose length exceeds the attributes: RFC 7606 section 4 requires
treat-as-withdraw, the UPDATE is reported as Normal. -/
theorem c37_unknown_disproved (o n m : Nat) : updateTreatment (ign [.unknown (.invalidLength o n m)]) = .normal ∧
    rfc7606 (.unknown (.invalidLength o n m)) = .treatAsWithdraw := ⟨rfl, rfl⟩

/-! ## C61 -/

/-- C61, the part that holds: an OPEN sent on any connection the peer ever had carries the configured identifier, hold
time and AS number (AS_TRANS, 23456, if that needs four octets), and all configured capabilities; with a four-octet AS
number or if so configured it carries the four-octet AS capability; every other capability is not a rejected one and
not one for four-octet AS numbers. -/
theorem c61_open_partial {props cfg pol tr s} {c : Conn} {o : Open}
    (h : ExecIf NoUserOpen (Sys.init props cfg pol) tr s)
    (hc : s.peer.conn = some c ∨ s.peer.tracked = some c ∨ c ∈ s.peer.closed)
    (ho : Act.sent (.open o) ∈ c.trace) (hp : ∀ x ∈ pol.peerCaps, x.code ≠ 65) :
    o.bgpId = pol.myBgpId ∧ o.hold = pol.hold ∧
    o.myAs.toNat = (if pol.myAsn.toNat ≤ 65535 then pol.myAsn.toNat else 23456) ∧
    (∀ x ∈ pol.caps, x ∈ o.caps) ∧
    (pol.asn4Default = true ∨ 65535 < pol.myAsn.toNat → Cap.fourOctetAs pol.myAsn ∈ o.caps) ∧
    (∀ x ∈ o.caps, x ∈ pol.caps ∨ x = .fourOctetAs pol.myAsn ∨ (x ∉ pol.reject ∧ x.code ≠ 65)) := by
  have hO := opens_exec h
  have hT : OT pol c := by
    rcases hc with hc | hc | hc
    · exact hO.conn c hc
    · exact hO.tracked c hc
    · exact hO.closed c hc
  obtain ⟨q, hq, rfl⟩ := hT o ho
  obtain ⟨e1, e2, e3, e4, e5, e6, e7⟩ := hq
  have hpq := e7 hp
  have hcaps : q.openMsg.caps = (if (q.asn4Default || q.as2 == 23456) && !q.caps.contains (.fourOctetAs q.myAsn) then
      Cap.fourOctetAs q.myAsn :: q.caps else q.caps) ++
      q.peerCaps.filter (fun c => !q.caps.contains c && !q.reject.contains c) := by
    unfold Policy.openMsg Open.caps
    dsimp only
    generalize (if ((q.asn4Default || q.as2 == 23456) && !q.caps.contains (.fourOctetAs q.myAsn)) = true then
      Cap.fourOctetAs q.myAsn :: q.caps else q.caps) ++
      q.peerCaps.filter (fun c => !q.caps.contains c && !q.reject.contains c) = l
    cases l <;> simp
  refine ⟨e3, e4, ?_, ?_, ?_, ?_⟩
  · show q.as2.toNat = _
    unfold Policy.as2
    rw [e1]
    by_cases hx : pol.myAsn.toNat ≤ 65535
    · rw [if_neg (by omega), if_pos hx, UInt16.toNat_ofNat']; omega
    · rw [if_pos (by omega), if_neg hx]; rfl
  · intro x hx
    rw [hcaps, List.mem_append]
    left
    rw [← e5] at hx
    split
    · exact List.mem_cons_of_mem _ hx
    · exact hx
  · intro hd
    rw [hcaps, List.mem_append]
    left
    have h1 : (q.asn4Default || q.as2 == 23456) = true := by
      rcases hd with hd | hd
      · rw [e2, hd]; rfl
      · have : q.as2 = 23456 := by unfold Policy.as2; rw [e1, if_pos hd]
        rw [this]; simp
    rw [h1, Bool.true_and, ← e1]
    by_cases hm : q.caps.contains (.fourOctetAs q.myAsn) = true
    · rw [if_neg (by simpa using hm)]; simpa using hm
    · rw [if_pos (by simpa using hm)]; exact List.mem_cons_self ..
  · intro x hx
    rw [hcaps, List.mem_append] at hx
    rw [← e5, ← e1, ← e6]
    rcases hx with hx | hx
    · split at hx
      · rcases List.mem_cons.mp hx with hx | hx
        · exact .inr (.inl hx)
        · exact .inl hx
      · exact .inl hx
    · rw [List.mem_filter] at hx
      exact .inr (.inr ⟨by have := hx.2; simp at this; exact this.2, hpq x hx.1⟩)

/-- the neighbour can tell the AS number from the OPEN that was sent, whatever the number, unless another four-octet AS
capability is configured -/
theorem c61_asn_partial {props cfg pol tr s} {c : Conn} {o : Open}
    (h : ExecIf NoUserOpen (Sys.init props cfg pol) tr s)
    (hc : s.peer.conn = some c ∨ s.peer.tracked = some c ∨ c ∈ s.peer.closed)
    (ho : Act.sent (.open o) ∈ c.trace) (hp : ∀ x ∈ pol.peerCaps, x.code ≠ 65)
    (hf : ∀ a, Cap.fourOctetAs a ∈ pol.caps → a = pol.myAsn) : o.myAsn4 = pol.myAsn := by
  obtain ⟨-, -, h3, -, h5, h6⟩ := c61_open_partial h hc ho hp
  have hall : ∀ a ∈ o.caps.filterMap Cap.asn4?, a = pol.myAsn := by
    intro a ha
    obtain ⟨x, hx, hxa⟩ := List.mem_filterMap.mp ha
    have hx4 : x = .fourOctetAs a := by
      cases x <;> first | cases hxa; rfl | cases hxa
    subst hx4
    rcases h6 _ hx with h | h | h
    · exact hf a h
    · exact Cap.fourOctetAs.inj h
    · exact absurd rfl h.2
  unfold Open.myAsn4
  cases hl : (o.caps.filterMap Cap.asn4?).getLast? with
  | some a => exact hall a (List.mem_of_getLast? hl)
  | none =>
    have hn : o.caps.filterMap Cap.asn4? = [] := List.getLast?_eq_none_iff.mp hl
    have hno : ¬ (pol.asn4Default = true ∨ 65535 < pol.myAsn.toNat) := by
      intro hd
      have : pol.myAsn ∈ o.caps.filterMap Cap.asn4? := List.mem_filterMap.mpr ⟨_, h5 hd, rfl⟩
      rw [hn] at this; cases this
    have h65 : pol.myAsn.toNat ≤ 65535 := by
      rcases Nat.lt_or_ge 65535 pol.myAsn.toNat with h | h
      · exact absurd (.inr h) hno
      · exact h
    rw [if_pos h65] at h3
    show UInt32.ofNat o.myAs.toNat = _
    rw [h3]; simp

namespace SP
/-- a policy with a four-octet AS number and a capability of its own; it rejects another one -/
def polBig : Policy := ⟨4200000001, true, 0x0A000001, none, 180, [.routeRefresh], [.extendedMessage], []⟩
/-- an OPEN with a capability the speaker does not have, twice, and with one it rejects -/
def openTwice : Msg := .open ⟨65002, 90, 0x0A000002, [[.mpe .ipv6Unicast, .extendedMessage, .mpe .ipv6Unicast]]⟩
/-- a passive peer gets a connection and an OPEN before it has sent its own -/
def toDelayed : List Label :=
  [.admin .manualStart, .call okNet, .admin (.accept jit), .call okNet, .call okNet, .main (rx openTwice) okNet]
end SP

/-- C61 fails for repetitions: the capabilities taken over from the OPEN of the neighbour are not deduplicated. The
witness is also a case for the theorems above. -/
theorem c61_disproved : ∃ tr s c o, ExecIf NoUserOpen (Sys.init props0 cfgDelay polBig) tr s ∧ s.peer.conn = some c ∧
    Act.sent (.open o) ∈ c.trace ∧
    o.caps = [.fourOctetAs 4200000001, .routeRefresh, .mpe .ipv6Unicast, .mpe .ipv6Unicast] := by
  obtain ⟨s, rs, hr, hp⟩ := runs_find (s := Sys.init props0 cfgDelay polBig) (ls := toDelayed)
    (fun s _ => match s.peer.conn with
      | some c => c.trace.any fun
        | .sent (.open o) => o.caps == [.fourOctetAs 4200000001, .routeRefresh, .mpe .ipv6Unicast, .mpe .ipv6Unicast]
        | _ => false
      | none => false) (by decide +kernel)
  split at hp
  · next c hc =>
    obtain ⟨a, ha, hp⟩ := List.any_eq_true.mp hp
    split at hp
    · next o =>
      refine ⟨_, s, c, o, runs_execIf (P := NoUserOpen) ?_ hr, hc, ha, by simpa using hp⟩
      intro s l hl o net e
      subst e
      simp [toDelayed] at hl
    · cases hp
  · cases hp

/-! ## C62 and C63 -/

/-- the error code and sub-code RFC 4271 section 6.1 and 6.2 give for what the decoder found; a sub-code only where the
standard has one -/
def rfc4271 : DecErr → Option (NotifKind × Option UInt8)
  | .parsing (.notSynchronized ..) => some (.header, some 1)
  | .parsing (.badLength ..) | .parsing (.unparseable ..) | .incomplete => some (.header, some 2)
  | .parsing (.undefinedType ..) => some (.header, some 3)
  | .parsing (.parse _) => some (.header, none)
  | .parsing (.open (.version ..)) => some (.openMsg, some 1)
  | .parsing (.open (.bgpId ..)) => some (.openMsg, some 3)
  | .parsing (.open (.holdTime ..)) => some (.openMsg, some 6)
  | .parsing (.open _) => some (.openMsg, none)
  | _ => none

/-- C62, the part that holds: a message with a malformed header or a malformed OPEN, received in OpenSent or
OpenConfirm, is answered with the NOTIFICATION for that error and the connection is given up. -/
theorem c62_notification_partial {c : Conn} {op net now e k sub} (hs : c.state = .openSent ∨ c.state = .openConfirm)
    (he : rfc4271 e = some (k, sub)) (hn : net 0 = .ok) :
    ∃ ev c2 n, c.poll now (.decodeErr e) = some (ev, c) ∧ c.handle op net now ev = (.ok ev, c2) ∧
      c2.trace = c.trace ++ [.sent (.notification n)] ∧ c2.state = .terminate ∧ n.kind = k ∧
      ∀ x, sub = some x → n.sub = x := by
  have key : ∃ n, (e.event = .headerErr n ∨ e.event = .openErr n) ∧ n.kind = k ∧ ∀ x, sub = some x → n.sub = x := by
    cases e with
    | io => cases he
    | incomplete => cases he; exact ⟨_, .inl rfl, rfl, by rintro _ ⟨⟩; rfl⟩
    | parsing e =>
      cases e with
      | «open» e =>
        cases e with
        | version => cases he; exact ⟨_, .inr rfl, rfl, by rintro _ ⟨⟩; rfl⟩
        | holdTime => cases he; exact ⟨_, .inr rfl, rfl, by rintro _ ⟨⟩; rfl⟩
        | bgpId => cases he; exact ⟨_, .inr rfl, rfl, by rintro _ ⟨⟩; rfl⟩
        | parse => cases he; exact ⟨_, .inr rfl, rfl, by rintro _ ⟨⟩⟩
        | param e => cases he; refine ⟨_, .inr rfl, ?_, by rintro _ ⟨⟩⟩; cases e <;> rfl
      | update => cases he
      | notification => cases he
      | routeRefresh => cases he
      | parse => cases he; exact ⟨_, .inl rfl, rfl, by rintro _ ⟨⟩⟩
      | _ => cases he; exact ⟨_, .inl rfl, rfl, by rintro _ ⟨⟩; rfl⟩
  obtain ⟨n, hev, h1, h2⟩ := key
  refine ⟨e.event, (c.handle op net now e.event).2, n, rfl, ?_⟩
  unfold Conn.handle
  rcases hs with hs | hs <;> rcases hev with hev | hev
  all_goals
    rw [hs, hev]
    dsimp only [Conn.handleOpenSent, Conn.handleOpenConfirm, Conn.trySend]
    rw [hn]
    exact ⟨rfl, rfl, rfl, h1, h2⟩

example : ∃ tr s c, Sys.Exec (Sys.init props0 cfg0 pol0) tr s ∧ s.peer.conn = some c ∧ c.state = .openSent ∧
    rfc4271 (.parsing (.open (.version 0 5))) = some (.openMsg, some 1) := by
  obtain ⟨s, rs, hr, hp⟩ := runs_find (s := Sys.init props0 cfg0 pol0) (ls := toSent)
    (fun s _ => match s.peer.conn with | some c => c.state == .openSent | none => false) (by decide +kernel)
  split at hp
  · next c hc => exact ⟨_, s, c, runs_exec hr, hc, by simpa using hp, rfl⟩
  · cases hp

/-- C62 fails in Established: after a message with a bad length the connection is closed and no NOTIFICATION is sent. -/
theorem c62_disproved : ∃ u rs, runs (Sys.init props0 cfg0 pol0)
    (toEst ++ [.call okNet, .main (.decodeErr (.parsing (.badLength 16 18))) okNet]) = some (u, rs) ∧
    rs.getLast? = some (some (.event .idle (.conn (.headerErr ⟨.header, 2, [0, 18], rfl⟩)))) ∧ u.peer.conn = none ∧
    u.peer.closed ≠ [] ∧ ∀ c ∈ u.peer.closed, ∀ n, Act.sent (.notification n) ∉ c.trace := by
  obtain ⟨u, rs, hr, hp⟩ := runs_find (s := Sys.init props0 cfg0 pol0)
    (ls := toEst ++ [.call okNet, .main (.decodeErr (.parsing (.badLength 16 18))) okNet])
    (fun u rs => rs.getLast? == some (some (.event .idle (.conn (.headerErr ⟨.header, 2, [0, 18], rfl⟩)))) &&
      u.peer.conn.isNone && !u.peer.closed.isEmpty && u.peer.closed.all fun c => c.trace.all fun
        | .sent (.notification _) => false
        | _ => true) (by decide +kernel)
  simp only [Bool.and_eq_true, beq_iff_eq, Option.isNone_iff_eq_none, List.all_eq_true, Bool.not_eq_true',
    List.isEmpty_eq_false_iff] at hp
  obtain ⟨⟨⟨h1, h2⟩, h3⟩, h4⟩ := hp
  exact ⟨u, rs, hr, h1, h2, h3, fun c hc n hn => by simpa using h4 c hc _ hn⟩

/-- C63: when the hold timer of a connection in OpenSent, OpenConfirm or Established is due, a NOTIFICATION "hold timer
expired" is sent and the connection is given up. -/
theorem c63_expiry {c : Conn} {op net now T} (hs : c.state = .openSent ∨ c.state = .openConfirm ∨ c.state = .established)
    (hT : c.hold = some T) (hd : T.next ≤ now) (hn : net 0 = .ok) :
    ∃ c1 c2 n, c.poll now .holdTick = some (.holdTimerExpires, c1) ∧
      c1.handle op net now .holdTimerExpires = (.ok .holdTimerExpires, c2) ∧
      c2.trace = c.trace ++ [.sent (.notification n)] ∧ n.kind = .holdTimer ∧ n.sub = 0 ∧ c2.state = .terminate := by
  have hp : c.poll now .holdTick = some (.holdTimerExpires, { c with hold := some T.tick }) := by
    unfold Conn.poll; dsimp only; rw [hT]; dsimp only; rw [if_pos hd]
  refine ⟨_, (Conn.handle op net now .holdTimerExpires { c with hold := some T.tick }).2, holdNotif, hp, ?_⟩
  rcases hs with hs | hs | hs
  all_goals
    unfold Conn.handle
    dsimp only
    rw [hs]
    dsimp only [Conn.handleOpenSent, Conn.handleOpenConfirm, Conn.handleEstablished, Conn.sendThen, Conn.trySend]
    simp only [hn]
    exact ⟨trivial, rfl, rfl, rfl, rfl⟩

example : ∃ tr s c T, Sys.Exec (Sys.init props0 cfg0 pol0) tr s ∧ s.peer.conn = some c ∧ c.state = .established ∧
    c.hold = some T ∧ T.next ≤ s.now := by
  obtain ⟨s, rs, hr, hp⟩ := runs_find (s := Sys.init props0 cfg0 pol0) (ls := toEst ++ [.time (90 * sec)])
    (fun s _ => match s.peer.conn with
      | some c => c.state == .established &&
        match c.hold with | some T => decide (T.next ≤ s.now) | none => false
      | none => false) (by decide +kernel)
  split at hp
  · next c hc =>
    simp only [Bool.and_eq_true, beq_iff_eq] at hp
    obtain ⟨h1, h2⟩ := hp
    split at h2
    · next T hT => exact ⟨_, s, c, T, runs_exec hr, hc, h1, hT, by simpa using h2⟩
    · cases h2
  · cases hp

/-! ## C65 -/

/-- C65, a part that holds: with a main connection (Established or not) and no second one, a message of the user is sent
on it, once. -/
theorem c65_sent_partial {s : Sys} {c : Conn} {m : Msg} {net : Speaker.Net} (hph : s.phase = .outside)
    (hc : s.peer.conn = some c) (ht : s.peer.tracked = none) (h0 : net 0 = .ok) (h1 : net 1 = .ok) :
    ∃ s' d, s.step (.user m net) = some (s', none) ∧ s'.peer.conn = some d ∧ d.trace = c.trace ++ [.sent m] ∧
      d.state = c.state ∧ s'.phase = .outside := by
  have hu : s.peer.userSend net s.now m = (.ok (), { s.peer with conn := some (c.afterSend (net 1) s.now m) }) := by
    unfold Peer.userSend
    rw [ht]; dsimp only; rw [hc]; dsimp only; rw [h1]; rfl
  refine ⟨{ s with peer := { s.peer with conn := some (c.afterSend (net 1) s.now m) } }, _, ?_, rfl, ?_, ?_, hph⟩
  · unfold Sys.step
    rw [hph]; dsimp only
    rw [if_neg (by rw [h0, h1]; simp [SendOut.isCancelled]), hu]
  · rw [h1]; exact startSend_trace ..
  · exact afterSend_state ..

/-- C65, a part that holds: once the peer was stopped, messages of the user are dropped. -/
theorem c65_stopped {props cfg pol tr s} {m : Msg} {net : Speaker.Net}
    (h : ExecIf Calm (Sys.init props cfg pol) tr s) (ha : s.peer.adminUp = false) (hph : s.phase = .outside)
    (h0 : net 0 = .ok) (h1 : net 1 = .ok) : s.step (.user m net) = some (s, none) := by
  have hd : Down s.peer := (up_exec (h.mono fun _ _ hl => hl.patient) ha).1
  unfold Sys.step
  rw [hph]; dsimp only
  rw [if_neg (by rw [h0, h1]; simp [SendOut.isCancelled]), userSend_down hd]
  dsimp only
  rw [← hph]

example : ∃ tr s, ExecIf Calm (Sys.init props0 cfg0 pol0) tr s ∧ s.peer.adminUp = false ∧ s.phase = .outside ∧
    s.peer.closed ≠ [] := by
  obtain ⟨tr, s, h, hp⟩ := SP.calm (props := props0) (cfg := cfg0) (pol := pol0)
    (toEst ++ [.admin .manualStop, .call okNet])
    (fun s => s.phase == .outside && !s.peer.adminUp && !s.peer.closed.isEmpty)
    rfl (by simp [toEst, toSent]; rfl) (by decide +kernel)
  simp only [Bool.and_eq_true, beq_iff_eq, Bool.not_eq_true', List.isEmpty_eq_false_iff] at hp
  exact ⟨tr, s, h, hp.1.2, hp.1.1, hp.2⟩

example : ∃ tr s c, Sys.Exec (Sys.init props0 cfg0 pol0) tr s ∧ s.phase = .outside ∧ s.peer.conn = some c ∧
    c.state = .established ∧ s.peer.tracked = none := by
  obtain ⟨s, rs, hr, hp⟩ := runs_find (s := Sys.init props0 cfg0 pol0) (ls := toEst)
    (fun s _ => s.phase == .outside && s.peer.tracked.isNone &&
      match s.peer.conn with | some c => c.state == .established | none => false) (by decide +kernel)
  simp only [Bool.and_eq_true, beq_iff_eq, Option.isNone_iff_eq_none] at hp
  obtain ⟨⟨h1, h2⟩, h3⟩ := hp
  split at h3
  · next c hc => exact ⟨_, s, c, runs_exec hr, h1, hc, by simpa using h3, h2⟩
  · cases h3

/-- C65 fails: an UPDATE of the user is sent in OpenSent, right after the OPEN. -/
theorem c65_disproved : ∃ u rs c, runs (Sys.init props0 cfg0 pol0) (toSent ++ [.user upd okNet]) = some (u, rs) ∧
    u.peer.conn = some c ∧ c.state = .openSent ∧ ∃ o, c.trace = [.sent (.open o), .sent upd] := by
  obtain ⟨u, rs, hr, hp⟩ := runs_find (s := Sys.init props0 cfg0 pol0) (ls := toSent ++ [.user upd okNet])
    (fun u _ => match u.peer.conn with
      | some c => c.state == .openSent && c.trace == [.sent (.open pol0.openMsg), .sent upd]
      | none => false) (by decide +kernel)
  split at hp
  · next c hc =>
    simp only [Bool.and_eq_true, beq_iff_eq] at hp
    exact ⟨u, rs, c, hr, hc, hp.1, _, hp.2⟩
  · cases hp

end Verif.Props
