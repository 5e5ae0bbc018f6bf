import Verif.Speaker.PeerRoles
/-!
# Properties of a BGP peer

C33 (state and connection), C34 (handshake), C38 (administrative commands), C39 (collisions), C40 (connecting again),
C57 (administratively down), C58 (the task survives), C59 (UPDATE messages are reported), C60 (a collision leaves a
session), C66 (requests for statistics), C67 (incoming connections).
-/
namespace Verif.Props
open Verif Verif.Bgp Verif.Speaker

/-! ## Concrete peers for the examples and counterexamples -/
namespace SP

/-- every message is written -/
def okNet : Speaker.Net := fun _ => .ok
/-- writing hangs until the operation is dropped -/
def stall : Speaker.Net := fun _ => .cancelled false
/-- writing fails -/
def broken : Speaker.Net := fun _ => .failed false
def jit : Nat := 16777216
def props0 : PeerProps := ⟨65002, 0x0A000001, false⟩
def pol0 : Policy := ⟨65001, true, 0x0A000001, none, 180, [], [], []⟩
/-- active, no open delay, incoming connections allowed in Established -/
def cfg0 : PeerConfig := ⟨false, 30, 0, 180, 240, 60, false, true⟩
/-- passive, with an open delay of ten seconds -/
def cfgDelay : PeerConfig := ⟨false, 30, 10, 180, 240, 60, true, false⟩
/-- a peer with a higher identifier than its neighbour -/
def propsHi : PeerProps := ⟨65002, 0x0B000001, false⟩
def polHi : Policy := ⟨65001, true, 0x0B000001, none, 180, [], [], []⟩
/-- an OPEN from the expected AS with identifier 10.0.0.2 -/
def open2 : Msg := .open ⟨65002, 90, 0x0A000002, []⟩
/-- an OPEN from the expected AS with another identifier -/
def open9 : Msg := .open ⟨65002, 90, 0x09000002, []⟩
/-- an OPEN from another AS -/
def openBadAs : Msg := .open ⟨65009, 90, 0x0A000002, []⟩
def rx (m : Msg) : ConnInput := .message m .none
/-- an end-of-RIB UPDATE -/
def upd : Msg := .update ⟨[], [], []⟩
/-- start, connect: the session is in OpenSent -/
def toSent : List Label := [.admin .manualStart, .call okNet, .call okNet, .connect, .connected (some jit) okNet]
/-- and on to Established -/
def toEst : List Label :=
  toSent ++ [.call okNet, .main (rx open2) okNet, .call okNet, .main (rx .keepAlive) okNet]

end SP
open SP

/-! ## C33 -/

/-- C33, the part that holds. If no operation is dropped while it waits for a message to be written, and no start
command comes while an incoming connection waits for its open delay, the FSM is in OpenSent, OpenConfirm or Established
exactly when there is a main connection in that state. -/
theorem c33_coherent_partial {props cfg pol tr s} (h : ExecIf Calm (Sys.init props cfg pol) tr s)
    (hd : s.phase ≠ .dead) :
    (s.peer.fsm = .openSent ↔ ∃ c, s.peer.conn = some c ∧ c.state = .openSent) ∧
    (s.peer.fsm = .openConfirm ↔ ∃ c, s.peer.conn = some c ∧ c.state = .openConfirm) ∧
    (s.peer.fsm = .established ↔ ∃ c, s.peer.conn = some c ∧ c.state = .established) := by
  have hc : Coh s.peer := (coh_exec h).resolve_left hd
  cases hp : s.peer.conn with
  | none =>
    have := hc.down hp
    refine ⟨⟨fun e => ?_, fun ⟨c, e, _⟩ => nomatch e⟩, ⟨fun e => ?_, fun ⟨c, e, _⟩ => nomatch e⟩,
      ⟨fun e => ?_, fun ⟨c, e, _⟩ => nomatch e⟩⟩ <;> (rw [e] at this; exact absurd this id)
  | some c =>
    have hf := (hc.up c hp).1
    have key : ∀ {f : Fsm} {cs : ConnState}, (∀ x, FsmOk f x → x = cs) → (FsmOk s.peer.fsm cs → s.peer.fsm = f) →
        (s.peer.fsm = f ↔ ∃ d, some c = some d ∧ d.state = cs) := by
      intro f cs h1 h2
      constructor
      · intro e; rw [e] at hf; exact ⟨c, rfl, h1 _ hf⟩
      · rintro ⟨d, hd, hs⟩; cases hd; rw [hs] at hf; exact h2 hf
    refine ⟨key ?_ (fun h => h), key ?_ (fun h => h), key ?_ (fun h => h)⟩ <;>
      (intro x hx; cases x <;> first | rfl | exact absurd hx (by simp [FsmOk, Fsm.low]))

/-- C33 fails without any failure of the network. A passive peer with an open delay accepts a connection in Idle, gets
another start command, sends its OPEN when the delay is over, and then the connect retry timer drops the connection:
the FSM stays in OpenSent without a connection. -/
theorem c33_disproved : ∃ tr s, Sys.Exec (Sys.init props0 cfgDelay pol0) tr s ∧ s.phase ≠ .dead ∧
    s.peer.fsm = .openSent ∧ s.peer.conn = none := by
  obtain ⟨u, rs, hr, hp⟩ := runs_find (s := Sys.init props0 cfgDelay pol0)
    (ls := [.admin .manualStart, .call okNet, .admin (.accept jit), .call okNet, .call okNet, .main .eof okNet,
      .admin (.accept jit), .call okNet, .admin .manualStart, .call okNet, .time (10 * sec), .call okNet,
      .main .openDelayTick okNet, .time (20 * sec), .call okNet, .retry])
    (fun u _ => u.phase == .outside && u.peer.fsm == .openSent && u.peer.conn.isNone) (by decide +kernel)
  simp only [Bool.and_eq_true, beq_iff_eq, Option.isNone_iff_eq_none] at hp
  exact ⟨_, u, runs_exec hr, by rw [hp.1.1]; simp, hp.1.2, hp.2⟩

/-- C33 fails without an open delay when an operation is dropped while it writes: the hold timer expires in
OpenConfirm, and a request of the user drops `run` while the NOTIFICATION is being written. -/
theorem c33_dropped_disproved : ∃ tr s c, Sys.Exec (Sys.init props0 cfg0 pol0) tr s ∧ s.phase ≠ .dead ∧
    s.peer.fsm = .openConfirm ∧ s.peer.conn = some c ∧ c.state = .terminate := by
  obtain ⟨u, rs, hr, hp⟩ := runs_find (s := Sys.init props0 cfg0 pol0)
    (ls := toSent ++ [.call okNet, .main (rx open2) okNet, .call okNet, .time (90 * sec), .main .holdTick stall])
    (fun u _ => u.phase == .outside && u.peer.fsm == .openConfirm && (u.peer.conn.map (·.state) == some .terminate))
    (by decide +kernel)
  simp only [Bool.and_eq_true, beq_iff_eq] at hp
  obtain ⟨c, hc, hs⟩ := Option.map_eq_some_iff.mp hp.2
  exact ⟨_, u, c, runs_exec hr, by rw [hp.1.1]; simp, hp.1.2, hc, hs⟩

/-- a computed run by calm steps, with a property of the state it ends in -/
theorem SP.calm {props : PeerProps} {cfg : PeerConfig} {pol : Policy} (ls : List Label) (P : Sys → Bool) (hd : cfg.openDelay = 0)
    (hl : ∀ l ∈ ls, match l with
      | .call net | .main _ net | .tracked _ net => net = fun _ => .ok
      | _ => True)
    (h : (match runs (Sys.init props cfg pol) ls with | some (u, _) => P u | none => false) = true) :
    ∃ tr s, ExecIf Calm (Sys.init props cfg pol) tr s ∧ P s = true := by
  obtain ⟨u, rs, hr, hp⟩ := runs_find (fun u _ => P u) h
  exact ⟨_, u, runs_calm hd hl hr, hp⟩

/-- the peer without open delay reaches Established by calm steps -/
theorem SP.established : ∃ tr s, ExecIf Calm (Sys.init props0 cfg0 pol0) tr s ∧
    (s.phase == .outside && s.peer.fsm == .established && s.peer.tracked.isNone) = true :=
  SP.calm toEst _ rfl (by simp [toEst, toSent]; rfl) (by decide +kernel)

example : ∃ tr s, ExecIf Calm (Sys.init props0 cfg0 pol0) tr s ∧ s.phase ≠ .dead ∧ s.peer.fsm = .established := by
  obtain ⟨tr, s, h, hp⟩ := SP.established
  simp only [Bool.and_eq_true, beq_iff_eq] at hp
  exact ⟨tr, s, h, by rw [hp.1.1]; simp, hp.1.2⟩

/-! ## C34 -/

/-- The handshake on a connection, told by the messages on it: an OPEN was received from the expected AS, then a
KEEPALIVE was sent, then a KEEPALIVE was received, and an OPEN was sent before that KEEPALIVE was. -/
def Handshake (asn : Option UInt32) (tr : List Act) : Prop :=
  ∃ a b c d o op, tr = a ++ .received (.open o) :: (b ++ .sent .keepAlive :: (c ++ .received .keepAlive :: d)) ∧
    .sent (.open op) ∈ a ++ b ∧ ∀ n, asn = some n → o.myAsn4 = n

/-- C34, first part: whatever happens, a connection of the peer - main, tracked, or closed - is in Established only
after the handshake on that connection. `props.asn` is the configured AS, or nothing for a peer with dynamic AS. -/
theorem c34_handshake {props cfg pol tr s} (h : Sys.Exec (Sys.init props cfg pol) tr s) {c : Conn}
    (hc : s.peer.conn = some c ∨ s.peer.tracked = some c ∨ c ∈ s.peer.closed) (hs : c.state = .established) :
    Handshake (if props.dynamicAs then none else some props.peerAsn) c.trace := by
  have hg : Good cfg props s.now s.peer := good_exec h
  have hl : Life cfg.conn props.asn s.now c := by
    rcases hc with hc | hc | hc
    · exact hg.conn c hc
    · exact hg.tracked c hc
    · exact hg.closed c hc
  have hi := hl.inv.st
  unfold StateInv at hi
  rw [hs] at hi
  obtain ⟨o, pre, post, e, ⟨ha, a, b, k, e', op, hop⟩, -⟩ := hi
  exact ⟨a, b, k, post, o, op, by rw [e, e']; simp, hop, ha⟩

/-- C34, first part, for what is reported: in calm executions a peer in Established has a main connection on which the
handshake took place. -/
theorem c34_established_partial {props cfg pol tr s} (h : ExecIf Calm (Sys.init props cfg pol) tr s)
    (hd : s.phase ≠ .dead) (hs : s.peer.fsm = .established) :
    ∃ c, s.peer.conn = some c ∧ Handshake (if props.dynamicAs then none else some props.peerAsn) c.trace := by
  obtain ⟨c, hc, hcs⟩ := (c33_coherent_partial h hd).2.2.mp hs
  exact ⟨c, hc, c34_handshake h.exec (.inl hc) hcs⟩

example : ∃ tr s, Sys.Exec (Sys.init props0 cfg0 pol0) tr s ∧ ∃ c, s.peer.conn = some c ∧ c.state = .established := by
  obtain ⟨tr, s, h, hp⟩ := SP.established
  simp only [Bool.and_eq_true, beq_iff_eq] at hp
  exact ⟨tr, s, h.exec, (c33_coherent_partial h (by rw [hp.1.1]; simp)).2.2.mp hp.1.2⟩

theorem SP.first_event {active cfg asn j op net t ev e c} (he : ev = .tcpRequestAcked ∨ ev = .tcpConfirmed)
    (h : (Conn.new active cfg asn j).handle op net t ev = (.ok e, c)) : e = ev := by
  have key : (if cfg.openDelay = 0 then
      ((Conn.new active cfg asn j).startHold t).sendThen (net 0) t (.open op) fun c => (.ok ev, c.to .openSent)
    else (.ok ev, { Conn.new active cfg asn j with openDelay := some (.start (cfg.openDelay.toNat * sec) t) }))
      = (.ok e, c) := by
    rw [← h]; rcases he with he | he <;> subst he <;> rfl
  split at key
  · have := sendThen_ok key
    simp only [Prod.mk.injEq, Out.ok.injEq] at this; exact this.1.symm
  · simp only [Prod.mk.injEq, Out.ok.injEq] at key; exact key.1.symm

theorem SP.admin_event {p q : Peer} {net n a e} (h : p.admin net n a = (.ok (some e), q)) :
    ∀ x, e = .conn x → x = .tcpConfirmed := by
  intro x hx
  subst hx
  unfold Peer.admin at h
  have hst : ∀ {a b} (_ : ∀ y, a ≠ PeerEvent.conn y) (_ : ∀ y, b ≠ PeerEvent.conn y),
      (p.startEvent a b n).1 ≠ some (.conn x) := by
    intro a b ha hb
    unfold Peer.startEvent
    split
    · simp
    · split
      · exact fun e => hb x (Option.some.inj e)
      · exact fun e => ha x (Option.some.inj e)
  cases a with
  | manualStart =>
    dsimp only at h
    have := fst_of h
    simp only [Out.ok.injEq] at this
    exact absurd this.symm (hst (fun _ h => nomatch h) (fun _ h => nomatch h))
  | autoStart =>
    dsimp only at h
    have := fst_of h
    simp only [Out.ok.injEq] at this
    exact absurd this.symm (hst (fun _ h => nomatch h) (fun _ h => nomatch h))
  | manualStop =>
    dsimp only at h
    split at h <;> simp at h
  | autoStop =>
    dsimp only at h
    split at h <;> simp at h
  | accept j =>
    have h : p.accept net n j = _ := h
    unfold Peer.accept at h
    split at h
    · split at h
      · split at h <;> simp at h
      · simp at h
    · dsimp only at h
      split at h
      · next e =>
        simp only [Prod.mk.injEq, Out.ok.injEq, Option.some.injEq, PeerEvent.conn.injEq] at h
        rw [← h.1]; exact SP.first_event (.inr rfl) e
      · simp at h
      · simp at h

theorem SP.connected_event {p : Peer} {net n a x} (h : (p.connected net n a).1 = .ok (.conn x)) :
    x = .tcpRequestAcked ∨ x = .tcpFails := by
  unfold Peer.connected at h
  cases a with
  | none => simp only [Out.ok.injEq, PeerEvent.conn.injEq] at h; exact .inr h.symm
  | some j =>
    dsimp only at h
    split at h
    · next e =>
      simp only [Out.ok.injEq, PeerEvent.conn.injEq] at h
      left; rw [← h]; exact SP.first_event (.inl rfl) e
    · simp at h
    · simp at h

theorem SP.returned_report {n} {x : Out PeerEvent × Peer} {s' f e} (h : Sys.returned n x = (s', some (.event f e))) :
    x = (.ok e, s'.peer) ∧ f = s'.peer.fsm ∧ s'.phase = .outside := by
  obtain ⟨o, p⟩ := x
  cases o with
  | ok e' =>
    simp only [Sys.returned, Prod.mk.injEq, Option.some.injEq, Report.event.injEq] at h
    obtain ⟨h1, h2, h3⟩ := h
    subst h1 h3
    exact ⟨rfl, h2.symm, rfl⟩
  | err e' => simp [Sys.returned] at h
  | cancelled => simp [Sys.returned] at h

theorem SP.dropMain_event {p : Peer} {net n e} (h : (p.dropMain net n).1 = .ok e) : e = .collisionDump := by
  unfold Peer.dropMain at h
  split at h
  · simpa using h.symm
  · split at h
    · simp at h
    · dsimp only at h
      split at h
      · simp at h
      · simpa using h.symm

theorem SP.dropLoser_event {p : Peer} {net n e} (h : (p.dropLoser net n).1 = .ok e) : e = .collisionDump := by
  unfold Peer.dropLoser at h
  split at h
  · simp at h
  · simpa using h.symm

/-- the event of a connection that is reported comes from the main connection, or from making a connection -/
theorem SP.report_main {s l s' f x} (hs : Step s l s' (some (.event f (.conn x))))
    (hx : x ≠ .tcpConfirmed ∧ x ≠ .tcpRequestAcked ∧ x ≠ .tcpFails) :
    ∃ i net c c1, s.peer.conn = some c ∧ c.poll s.now i = some (x, c1) ∧
      ({ s.peer with conn := some c1 } : Peer).handleConnEvent net s.now x = (.ok (.conn x), s'.peer) ∧
      f = s'.peer.fsm ∧ s'.phase = .outside ∧ l = .main i net := by
  cases hs with
  | callEvent _ _ e => exact absurd (SP.admin_event e x rfl) hx.1
  | connected _ hr =>
    have := (SP.returned_report hr).1
    rcases SP.connected_event (congrArg Prod.fst this) with h | h
    · exact absurd h hx.2.1
    · exact absurd h hx.2.2
  | retry _ _ _ hr =>
    have := congrArg Prod.fst (SP.returned_report hr).1
    simp at this
  | @main i net hid k c c1 ev _ _ hph hc hp hr =>
    unfold Sys.afterCheck at hr
    split at hr
    · have := SP.dropMain_event (congrArg Prod.fst (SP.returned_report hr).1); simp at this
    · have := SP.dropLoser_event (congrArg Prod.fst (SP.returned_report hr).1); simp at this
    · simp at hr
    · obtain ⟨h1, h2, h3⟩ := SP.returned_report hr
      have hev : ev = x := by
        have htcp := poll_tcp hp
        have h1 := congrArg Prod.fst h1
        unfold Peer.handleConnEvent at h1
        dsimp only at h1
        split at h1
        · next e =>
          have := (handle_next htcp e).1
          subst this
          rcases transit_out with h | h
          · rw [h] at h1; simpa using h1
          · rw [h] at h1; simp at h1
        · simp at h1
        · simp at h1
      subst hev
      exact ⟨i, net, c, c1, hc, hp, h1, h2, h3, rfl⟩
  | @tracked i net k c c1 c2 ev x' _ _ _ _ _ _ _ _ _ hr =>
    unfold Sys.afterCheck at hr
    split at hr
    · have := SP.dropMain_event (congrArg Prod.fst (SP.returned_report hr).1); simp at this
    · have := SP.dropLoser_event (congrArg Prod.fst (SP.returned_report hr).1); simp at this
    · simp at hr
    · simp at hr

/-- C34, second part, as far as it holds: in calm executions an UPDATE is reported in Established, on a connection
with a complete handshake, or together with the end of the session: the FSM is in Idle and has no connection. -/
theorem c34_update_partial {props cfg pol tr s l s' f u t} (h : ExecIf Calm (Sys.init props cfg pol) tr s)
    (hc : Calm s l) (hs : s.step l = some (s', some (.event f (.conn (.update u t))))) :
    (f = .established ∧ ∃ c, s'.peer.conn = some c ∧ c.state = .established ∧
      Handshake (if props.dynamicAs then none else some props.peerAsn) c.trace) ∨
    (f = .idle ∧ s'.peer.conn = none) := by
  have hst := step_inv hs
  have he' := ExecIf.snoc h hc hs
  have hidle : f = s'.peer.fsm ∧ s'.phase = .outside ∧
      ((s'.peer.fsm = .idle ∧ s'.peer.conn = none) ∨ ∃ c, s'.peer.conn = some c ∧ c.state = .established) := by
    obtain ⟨i, net, c, c1, hcn, hp, hh, hf, hph, -⟩ :=
      SP.report_main hst ⟨by simp, by simp, by simp⟩
    refine ⟨hf, hph, ?_⟩
    unfold Peer.handleConnEvent at hh
    dsimp only at hh
    split at hh
    · next e' c' hhc =>
      obtain ⟨h1, h2⟩ := handle_next ⟨by simp, by simp⟩ hhc
      subst h1
      rw [h2] at hh
      cases hst : c1.state with
      | established =>
        rw [hst] at hh h2
        right
        refine ⟨c', ?_, h2⟩
        rw [snd_of hh]; rfl
      | terminate => rw [hst] at hh; simp [nextState, Peer.transit] at hh
      | connected => rw [hst] at hh; left; rw [snd_of hh]; exact ⟨rfl, rfl⟩
      | openSent => rw [hst] at hh; left; rw [snd_of hh]; exact ⟨rfl, rfl⟩
      | openConfirm => rw [hst] at hh; left; rw [snd_of hh]; exact ⟨rfl, rfl⟩
    · simp at hh
    · simp at hh
  obtain ⟨hf, hph, hcase⟩ := hidle
  rcases hcase with ⟨h1, h2⟩ | ⟨c, h1, h2⟩
  · exact .inr ⟨hf.trans h1, h2⟩
  · refine .inl ⟨hf.trans ((c33_coherent_partial he' (by rw [hph]; simp)).2.2.mpr ⟨c, h1, h2⟩), c, h1, h2, ?_⟩
    exact c34_handshake he'.exec (.inl h1) h2

/-- the second part of C34 fails as it is stated: an UPDATE received in OpenSent is reported, with the state Idle -/
theorem c34_update_disproved : ∃ tr s s' l u t, ExecIf Calm (Sys.init props0 cfg0 pol0) tr s ∧ Calm s l ∧
    s.step l = some (s', some (.event .idle (.conn (.update u t)))) := by
  obtain ⟨tr, s, h, hp⟩ := SP.calm (props := props0) (cfg := cfg0) (pol := pol0) (toSent ++ [.call okNet])
    (fun s => match s.step (.main (rx upd) okNet) with
      | some (_, some (.event .idle (.conn (.update _ _)))) => true
      | _ => false) rfl (by simp [toSent]; rfl) (by decide +kernel)
  split at hp
  · next hs => exact ⟨tr, s, _, .main (rx upd) okNet, _, _, h, fun _ => rfl, hs⟩
  · cases hp

/-- an UPDATE reported in Established -/
example : ∃ tr s s' l u t, ExecIf Calm (Sys.init props0 cfg0 pol0) tr s ∧ Calm s l ∧
    s.step l = some (s', some (.event .established (.conn (.update u t)))) := by
  obtain ⟨tr, s, h, hp⟩ := SP.calm (props := props0) (cfg := cfg0) (pol := pol0) (toEst ++ [.call okNet])
    (fun s => match s.step (.main (rx upd) okNet) with
      | some (_, some (.event .established (.conn (.update _ _)))) => true
      | _ => false) rfl (by simp [toEst, toSent]; rfl) (by decide +kernel)
  split at hp
  · next hs => exact ⟨tr, s, _, .main (rx upd) okNet, _, _, h, fun _ => rfl, hs⟩
  · cases hp

/-! ## C57 -/

/-- C57, the part that holds: unless a stop command is dropped while its NOTIFICATION is being written, a peer that is
administratively down is in Idle, has no connection and no connect retry timer, and no attempt to connect under way. -/
theorem c57_down_partial {props cfg pol tr s} (h : ExecIf (fun _ => Patient) (Sys.init props cfg pol) tr s)
    (hd : s.peer.adminUp = false) :
    s.peer.fsm = .idle ∧ s.peer.conn = none ∧ s.peer.tracked = none ∧ s.peer.retry = none ∧
      ∀ h b, s.phase ≠ .select h b true :=
  have hu := up_exec h hd
  ⟨hu.1.fsm, hu.1.conn, hu.1.tracked, hu.1.retry, hu.2⟩

/-- C57, the part on the neighbour: a stop command that is not dropped takes the peer down, and the main connection, if
there is one, is closed after the NOTIFICATION Cease / Administrative Shutdown was the last message given to it. -/
theorem c57_stop {s s' : Sys} {r} {net : Speaker.Net} {c : Conn} (hn : ∀ k, net k = .ok) (hph : s.phase = .outside)
    (hw : s.peer.waiting.getLast? = some .manualStop ∨ s.peer.waiting.getLast? = some .autoStop)
    (hc : s.peer.conn = some c) (hs : s.step (.call net) = some (s', r)) :
    s'.peer.adminUp = false ∧ s'.phase = .outside ∧
    ∃ d ∈ s'.peer.closed, d.trace = c.trace ++ [.sent (.notification ⟨.cease, 2, [], rfl⟩)] := by
  have key : ∀ q : Peer, q.conn = some c → ∃ u, q.shutdown net s.now = (.ok (), u) ∧ u.adminUp = false ∧
      ∃ d ∈ u.closed, d.trace = c.trace ++ [.sent (.notification ⟨.cease, 2, [], rfl⟩)] := by
    intro q hq
    have h0 : (({ q.stopRetry with adminUp := false } : Peer).to .idle).conn = some c := hq
    unfold Peer.shutdown Peer.sendMain
    rw [h0]
    dsimp only
    rw [hn 0, hn 1]
    dsimp only
    unfold Peer.sendTracked
    cases ht : q.tracked with
    | none =>
      have : (({ ({ q.stopRetry with adminUp := false } : Peer).to .idle with
        conn := some (c.afterSend .ok s.now (.notification Peer.shutdownNotif)) } : Peer).dropConn).tracked = none := ht
      rw [this]
      refine ⟨_, rfl, rfl, c.afterSend .ok s.now (.notification Peer.shutdownNotif), ?_, rfl⟩
      simp [Peer.dropTracked, Peer.dropConn]
    | some t =>
      have : (({ ({ q.stopRetry with adminUp := false } : Peer).to .idle with
        conn := some (c.afterSend .ok s.now (.notification Peer.shutdownNotif)) } : Peer).dropConn).tracked = some t := ht
      rw [this]
      refine ⟨_, rfl, rfl, c.afterSend .ok s.now (.notification Peer.shutdownNotif), ?_, rfl⟩
      simp [Peer.dropTracked, Peer.dropConn]
  have hq : ({ s.peer with waiting := s.peer.waiting.dropLast } : Peer).conn = some c := hc
  obtain ⟨u, hu, h1, h2⟩ := key _ hq
  rcases hw with hw | hw
  all_goals
    unfold Sys.step at hs
    rw [hph] at hs
    dsimp only at hs
    rw [hw] at hs
    dsimp only [Peer.admin] at hs
    rw [hu] at hs
    cases hs
    exact ⟨h1, rfl, h2⟩

/-- the peer goes down from Established -/
example : ∃ tr s, ExecIf (fun _ => Patient) (Sys.init props0 cfg0 pol0) tr s ∧ s.peer.adminUp = false ∧
    s.peer.closed ≠ [] := by
  obtain ⟨tr, s, h, hp⟩ := SP.calm (props := props0) (cfg := cfg0) (pol := pol0)
    (toEst ++ [.admin .manualStop, .call okNet])
    (fun s => !s.peer.adminUp && !s.peer.closed.isEmpty) rfl (by simp [toEst, toSent]; rfl) (by decide +kernel)
  simp at hp
  exact ⟨tr, s, h.mono fun _ _ => Calm.patient, hp.1, hp.2⟩

/-- C57 fails in general: a stop command is dropped while its NOTIFICATION is being written. The peer is down and in
Idle, its connection is still there and in Established, and an UPDATE received on it is reported. -/
theorem c57_disproved : ∃ tr s s' l u t, Sys.Exec (Sys.init props0 cfg0 pol0) tr s ∧ s.peer.adminUp = false ∧
    (∃ c, s.peer.conn = some c ∧ c.state = .established) ∧
    s.step l = some (s', some (.event .idle (.conn (.update u t)))) := by
  obtain ⟨s, rs, hr, hp⟩ := runs_find (s := Sys.init props0 cfg0 pol0)
    (ls := toEst ++ [.admin .manualStop, .call stall, .call okNet])
    (fun s _ => !s.peer.adminUp && (match s.peer.conn with | some c => c.state == .established | none => false) &&
      match s.step (.main (rx upd) okNet) with
      | some (_, some (.event .idle (.conn (.update _ _)))) => true
      | _ => false) (by decide +kernel)
  simp only [Bool.and_eq_true] at hp
  obtain ⟨⟨h1, h2⟩, h3⟩ := hp
  split at h3
  · next hs =>
    refine ⟨_, s, _, .main (rx upd) okNet, _, _, runs_exec hr, by simpa using h1, ?_, hs⟩
    split at h2
    · next c hc => exact ⟨c, hc, by simpa using h2⟩
    · cases h2
  · cases h3

/-! ## C38 -/

/-- what a command does to the administrative state -/
def effect (up : Bool) : Admin → Bool
  | .manualStart | .autoStart => true
  | .manualStop | .autoStop => false
  | .accept _ => up

theorem SP.admin_effect {p q : Peer} {net n a o} (h : p.adminUp = false → Down p)
    (he : p.admin net n a = (o, q)) : q.adminUp = effect p.adminUp a := by
  have hst : ∀ {a b}, (p.startEvent a b n).2.adminUp = true := by
    intro a b
    unfold Peer.startEvent
    split
    · next hf =>
      cases hu : p.adminUp with
      | true => rfl
      | false => exact absurd (h hu).fsm hf
    · split <;> exact (start_same p n).2.2.2
  unfold Peer.admin at he
  cases a with
  | manualStart => dsimp only at he; rw [snd_of he]; exact hst
  | autoStart => dsimp only at he; rw [snd_of he]; exact hst
  | accept j => rw [snd_of he]; exact (same_accept (p := p) (net := net) (n := n) (j := j)).adminUp
  | manualStop =>
    have hs := (shutdown_same p net n).2.2.2
    dsimp only at he
    split at he <;> (next e => rw [e] at hs; rw [snd_of he]; exact hs)
  | autoStop =>
    have hs := (shutdown_same p net n).2.2.2
    dsimp only at he
    split at he <;> (next e => rw [e] at hs; rw [snd_of he]; exact hs)

/-- a step that issues no command takes at most the last command of the queue, and gives it its effect -/
theorem SP.queue_step {s l s' r} (hu : UpSys s) (hs : Step s l s' r) (hl : ∀ a, l ≠ .admin a) :
    (s'.peer.waiting = s.peer.waiting ∧ s'.peer.adminUp = s.peer.adminUp) ∨
    ∃ a, s.peer.waiting = s'.peer.waiting ++ [a] ∧ s'.peer.adminUp = effect s.peer.adminUp a := by
  by_cases hc : ∀ net, l ≠ .call net
  · have := same_step hs hl hc; exact .inl ⟨this.waiting, this.adminUp⟩
  · have hw : ({ s.peer with waiting := s.peer.waiting.dropLast } : Peer).adminUp = false →
        Down { s.peer with waiting := s.peer.waiting.dropLast } := fun hd =>
      have := (hu hd).1; ⟨this.1, this.2, this.3, this.4⟩
    have key : ∀ {a net o q}, s.peer.waiting.getLast? = some a →
        ({ s.peer with waiting := s.peer.waiting.dropLast } : Peer).admin net s.now a = (o, q) →
        s.peer.waiting = q.waiting ++ [a] ∧ q.adminUp = effect s.peer.adminUp a := by
      intro a net o q h1 h2
      refine ⟨?_, SP.admin_effect (p := { s.peer with waiting := s.peer.waiting.dropLast }) hw h2⟩
      rw [(admin_same h2).2.2]
      obtain ⟨ys, e⟩ := List.getLast?_eq_some_iff.mp h1
      show s.peer.waiting = s.peer.waiting.dropLast ++ [a]
      rw [e]; simp
    cases hs with
    | admin => exact absurd rfl (hl _)
    | callNone => exact .inl ⟨rfl, rfl⟩
    | callEvent _ hw e => exact .inr ⟨_, key hw e⟩
    | callOn _ hw e => exact .inr ⟨_, key hw e⟩
    | callErr _ hw e => exact .inr ⟨_, key hw e⟩
    | callCancelled _ hw e => exact .inr ⟨_, key hw e⟩
    | _ => exact absurd (fun _ h => nomatch h) hc

/-- the commands issued in an execution -/
def issued (tr : List (Label × Option Report)) : List Admin :=
  tr.filterMap fun x => match x.1 with | .admin a => some a | _ => none

/-- C38, the part that holds: if every command is issued when no other waits, the commands have their effect in the
order in which they were issued. -/
theorem c38_single_partial {props cfg pol tr s}
    (h : ExecIf (fun s l => Patient l ∧ ∀ a, l = .admin a → s.peer.waiting = []) (Sys.init props cfg pol) tr s)
    (hw : s.peer.waiting = []) : s.peer.adminUp = (issued tr).foldl effect false := by
  have key : s.peer.waiting.length ≤ 1 ∧
      s.peer.waiting.foldl effect s.peer.adminUp = (issued tr).foldl effect false := by
    clear hw
    generalize hi : Sys.init props cfg pol = i at h
    induction h with
    | nil => subst hi; exact ⟨by simp [Sys.init, Peer.new], rfl⟩
    | @snoc t u trr l r he hc hs ih =>
      have hup : UpSys t := by subst hi; exact up_exec (he.mono fun _ _ h => h.1)
      have hst := step_inv hs
      by_cases hl : ∀ a, l ≠ .admin a
      · have hiss : issued (trr ++ [(l, r)]) = issued trr := by
          unfold issued
          rw [List.filterMap_append]
          cases l <;> first | exact absurd rfl (hl _) | simp
        rw [hiss]
        rcases SP.queue_step hup hst hl with ⟨h1, h2⟩ | ⟨a, h1, h2⟩
        · rw [h1, h2]; exact ih
        · have hlen := ih.1
          rw [h1] at hlen ih
          have hnil : u.peer.waiting = [] := by
            cases hw : u.peer.waiting with
            | nil => rfl
            | cons x y => rw [hw] at hlen; simp at hlen
          rw [hnil] at ih ⊢
          exact ⟨by simp, by rw [h2]; exact ih.2⟩
      · cases hst with
        | @admin a hph =>
          have hnil := hc.2 a rfl
          have hiss : issued (trr ++ [(.admin a, none)]) = issued trr ++ [a] := by
            unfold issued; rw [List.filterMap_append]; rfl
          refine ⟨by simp [hnil], ?_⟩
          show List.foldl effect t.peer.adminUp (t.peer.waiting ++ [a]) = _
          rw [hiss, List.foldl_append, List.foldl_append, ih.2]
        | _ => exact absurd (fun _ h => nomatch h) hl
  rw [hw] at key
  exact key.2

example : ∃ tr s, ExecIf (fun s l => Patient l ∧ ∀ a, l = .admin a → s.peer.waiting = [])
    (Sys.init props0 cfg0 pol0) tr s ∧ s.peer.waiting = [] ∧ issued tr = [.manualStart, .manualStop] :=
  ⟨_, _, .cons ⟨trivial, fun _ _ => rfl⟩ (l := .admin .manualStart) rfl <|
    .cons ⟨fun _ => rfl, fun _ h => nomatch h⟩ (l := .call okNet) rfl <|
    .cons ⟨trivial, fun _ _ => rfl⟩ (l := .admin .manualStop) rfl <|
    .cons ⟨fun _ => rfl, fun _ h => nomatch h⟩ (l := .call okNet) rfl <| .nil _, rfl, rfl⟩

/-- what happens to a queue in general: its commands have their effect in the reverse of the order in which they were
issued, whatever else happens before the queue is empty -/
theorem c38_reversed_partial {props cfg pol tr s tr' s'}
    (h : ExecIf (fun _ => Patient) (Sys.init props cfg pol) tr s)
    (h' : ExecIf (fun _ l => Patient l ∧ ∀ a, l ≠ .admin a) s tr' s') (hw : s'.peer.waiting = []) :
    s'.peer.adminUp = s.peer.waiting.reverse.foldl effect s.peer.adminUp := by
  have key : UpSys s' ∧ s'.peer.waiting.reverse.foldl effect s'.peer.adminUp =
      s.peer.waiting.reverse.foldl effect s.peer.adminUp := by
    clear hw
    induction h' with
    | nil => exact ⟨up_exec h, rfl⟩
    | @snoc t u trr l r he hc hs ih =>
      have hst := step_inv hs
      obtain ⟨i1, i2⟩ := ih
      refine ⟨i1.step hc.1 hst, ?_⟩
      rcases SP.queue_step i1 hst hc.2 with ⟨h1, h2⟩ | ⟨a, h1, h2⟩
      · rw [h1, h2]; exact i2
      · rw [h1] at i2
        rw [h2, ← i2]
        simp
  rw [hw] at key
  exact key.2

/-- C38 fails in general: start, then stop, are issued before the peer runs; when both have been executed the peer is up
and connects -/
theorem c38_disproved : ∃ tr s, ExecIf Calm (Sys.init props0 cfg0 pol0) tr s ∧
    issued tr = [.manualStart, .manualStop] ∧ s.peer.waiting = [] ∧ s.peer.adminUp = true ∧ s.peer.fsm = .connect :=
  ⟨_, _, .cons trivial (l := .admin .manualStart) rfl <| .cons trivial (l := .admin .manualStop) rfl <|
    .cons ⟨fun _ => rfl, fun _ => .inl rfl⟩ (l := .call okNet) rfl <|
    .cons ⟨fun _ => rfl, fun _ => .inl rfl⟩ (l := .call okNet) rfl <| .nil _, rfl, rfl, rfl, rfl⟩

/-! ## C39 -/

/-- one end of a collision -/
theorem SP.resolve {props cfg pol tr s m l s' f} (h : ExecIf Calm (Sys.init props cfg pol) tr s)
    (hcfg : cfg.openDelay = 0) (hm : s.peer.conn = some m) (ha : m.active = true) (hc : Calm s l)
    (hs : s.step l = some (s', some (.event f .collisionDump))) :
    ∃ c id, s'.peer.conn = some c ∧ s'.peer.tracked = none ∧ c.peerBgpId = some id ∧
      c.active = decide (id.toNat ≤ s.peer.props.myBgpId.toNat) := by
  have hrole := role_exec h hcfg
  have chk : ∀ {net now hid k p other s' f}, (∀ k, (net k).isCancelled = false) →
      (∃ m, p.conn = some m ∧ m.active = true) → Passive p →
      (∀ p s' f, other p = (s', some (.event f .collisionDump)) → False) →
      Sys.afterCheck net now hid k p other = (s', some (.event f .collisionDump)) →
      ∃ c id, s'.peer.conn = some c ∧ s'.peer.tracked = none ∧ c.peerBgpId = some id ∧
      c.active = decide (id.toNat ≤ p.props.myBgpId.toNat) := by
    intro net now hid k p other s' f hn hmain hpas hother hr
    obtain ⟨m, hm, ha⟩ := hmain
    unfold Sys.afterCheck at hr
    split at hr
    · next hcol =>
      obtain ⟨t, ht, i, hmi, hti, hlt⟩ : ∃ t, p.tracked = some t ∧ ∃ i, m.peerBgpId = some i ∧ t.peerBgpId = some i ∧
          p.props.myBgpId.toNat < i.toNat := by
        unfold Peer.collision at hcol
        split at hcol
        · next a b hma hmb =>
          split at hcol
          · simp at hcol
          · next hab =>
            split at hcol
            · next hlt =>
              rw [hm] at hma
              cases hid with
              | true => simp at hmb
              | false =>
                simp only [Bool.false_eq_true, if_false] at hmb
                cases ht : p.tracked with
                | none => rw [ht] at hmb; simp at hmb
                | some t =>
                  rw [ht] at hmb
                  have hab : b = a := Classical.not_not.mp hab
                  subst hab
                  exact ⟨t, rfl, b, hma, hmb, hlt⟩
            · simp at hcol
        · simp at hcol
      have hret := (SP.returned_report hr).1
      unfold Peer.dropMain at hret
      rw [ht] at hret
      dsimp only at hret
      split at hret
      · simp at hret
      · next st _ =>
        have hq : (({ p.count with tracked := none } : Peer).to st).conn = some m := hm
        unfold Peer.sendMain at hret
        rw [hq] at hret
        dsimp only at hret
        have h0 := hn 0
        split at hret
        · next e =>
          simp only [Prod.mk.injEq] at e
          split at e
          · next e0 => rw [e0] at h0; cases h0
          · simp at e
        · next e =>
          simp only [Prod.mk.injEq] at e
          have hs' := snd_of hret
          refine ⟨t, i, by rw [hs'], by rw [hs', ← e.2]; rfl, hti, ?_⟩
          rw [hpas t ht]
          simp; omega
    · next hcol =>
      obtain ⟨i, hmi, hle⟩ : ∃ i, m.peerBgpId = some i ∧ i.toNat ≤ p.props.myBgpId.toNat := by
        unfold Peer.collision at hcol
        split at hcol
        · next a b hma hmb =>
          split at hcol
          · simp at hcol
          · split at hcol
            · simp at hcol
            · next hlt => rw [hm] at hma; exact ⟨a, hma, by omega⟩
        · simp at hcol
      have hret := (SP.returned_report hr).1
      unfold Peer.dropLoser at hret
      have hq : (p.sendTracked (net 0) now (.notification Peer.collisionNotif)).2.conn = some m := by
        unfold Peer.sendTracked; split <;> exact hm
      split at hret
      · simp at hret
      · next q e =>
        rw [e] at hq
        have hs' := snd_of hret
        refine ⟨m, i, by rw [hs']; exact hq, by rw [hs']; rfl, hmi, ?_⟩
        rw [ha]; simp [hle]
    · simp at hr
    · exact absurd hr (hother _ _ _)
  have hst := step_inv hs
  have hconn : ∀ {p : Peer} {s' f net ev}, (∀ k, (net k).isCancelled = false) → ev ≠ .tcpRequestAcked ∧ ev ≠ .tcpConfirmed →
      Sys.returned s.now (p.handleConnEvent net s.now ev) = (s', some (.event f .collisionDump)) → False := by
    intro p s' f net ev hn htcp hr
    have h1 := congrArg Prod.fst (SP.returned_report hr).1
    unfold Peer.handleConnEvent at h1
    dsimp only at h1
    split at h1
    · simp at h1
    · split at h1
      · rcases transit_out with h | h <;> rw [h] at h1 <;> simp at h1
      · simp at h1
      · simp at h1
  cases hst with
  | callEvent hph hw e =>
    exfalso
    have e1 := fst_of e
    unfold Peer.admin at e1
    split at e1
    · unfold Peer.startEvent at e1; dsimp only at e1; split at e1
      · simp at e1
      · split at e1 <;> simp at e1
    · split at e1 <;> simp at e1
    · unfold Peer.startEvent at e1; dsimp only at e1; split at e1
      · simp at e1
      · split at e1 <;> simp at e1
    · split at e1 <;> simp at e1
    · unfold Peer.accept at e1
      split at e1
      · split at e1
        · split at e1 <;> simp at e1
        · simp at e1
      · dsimp only at e1; split at e1 <;> simp at e1
  | connected _ hr =>
    exfalso
    have h1 := congrArg Prod.fst (SP.returned_report hr).1
    unfold Peer.connected at h1
    split at h1
    · dsimp only at h1; split at h1 <;> simp at h1
    · simp at h1
  | retry _ _ _ hr => exact absurd (congrArg Prod.fst (SP.returned_report hr).1) (by simp)
  | @main i net hid k c c1 ev _ _ hph hcn hp hr =>
    rw [hm] at hcn
    cases hcn
    refine chk (p := { s.peer with conn := some c1 }) hc ⟨c1, rfl, ?_⟩ (hrole.tracked.same rfl) (fun p s' f e => hconn hc (poll_tcp hp) e) hr
    rw [(poll_same hp).active, ha]
  | @tracked i net k c c1 c2 ev x _ _ hph hcn hf hst hp hh hx hr =>
    refine chk (p := { s.peer with policy := s.peer.policy.pre ev, tracked := some c2 }) (fun k => hc (k + 2)) ⟨m, hm, ha⟩ ?_
      (fun p s' f e => absurd (congrArg Prod.snd e) (by simp)) hr
    intro y hy
    cases hy
    have := handle_active (op := (s.peer.policy.pre ev).openMsg) (net := net) (t := s.now) (ev := ev) (c := c1)
    rw [hh] at this
    rw [this, (poll_same hp).active]
    exact hrole.tracked c hcn

/-- C39, the part that holds: without open delay, when two speakers with distinct identifiers report a collision of the
two connections between them, both keep the connection that was opened by the one with the higher identifier, and have no
other. A connection is told by the side that opened it, and its two ends disagree on `active`; `hm` says that the two
connections of one speaker are those of the other, in either assignment of the roles. -/
theorem c39_agree_partial {propsA cfgA polA trA sA propsB cfgB polB trB sB lA lB sA' sB' fA fB} {mA tA mB tB : Conn}
    (hA : ExecIf Calm (Sys.init propsA cfgA polA) trA sA) (hB : ExecIf Calm (Sys.init propsB cfgB polB) trB sB)
    (dA : cfgA.openDelay = 0) (dB : cfgB.openDelay = 0)
    (h1 : sA.peer.conn = some mA) (h2 : sA.peer.tracked = some tA)
    (h3 : sB.peer.conn = some mB) (h4 : sB.peer.tracked = some tB)
    (hm : (mA.active = !mB.active ∧ tA.active = !tB.active) ∨ (mA.active = !tB.active ∧ tA.active = !mB.active))
    (cA : Calm sA lA) (cB : Calm sB lB)
    (stA : sA.step lA = some (sA', some (.event fA .collisionDump)))
    (stB : sB.step lB = some (sB', some (.event fB .collisionDump)))
    (iA : ∀ c, sA'.peer.conn = some c → ∀ i, c.peerBgpId = some i → i = propsB.myBgpId)
    (iB : ∀ c, sB'.peer.conn = some c → ∀ i, c.peerBgpId = some i → i = propsA.myBgpId)
    (hne : propsA.myBgpId ≠ propsB.myBgpId) :
    ∃ c d, sA'.peer.conn = some c ∧ sB'.peer.conn = some d ∧ sA'.peer.tracked = none ∧ sB'.peer.tracked = none ∧
      d.active = (!c.active) ∧ (c.active = true ↔ propsB.myBgpId.toNat < propsA.myBgpId.toNat) := by
  have pA := (role_exec hA dA).tracked tA h2
  have pB := (role_exec hB dB).tracked tB h4
  rw [pA, pB] at hm
  obtain ⟨aA, aB⟩ : mA.active = true ∧ mB.active = true := by
    rcases hm with ⟨_, h⟩ | ⟨h, h'⟩
    · cases h
    · refine ⟨h, ?_⟩
      cases hb : mB.active with
      | true => rfl
      | false => rw [hb] at h'; cases h'
  obtain ⟨c, i, e1, e2, e3, e4⟩ := SP.resolve hA dA h1 aA cA stA
  obtain ⟨d, j, g1, g2, g3, g4⟩ := SP.resolve hB dB h3 aB cB stB
  have hi := iA c e1 i e3
  have hj := iB d g1 j g3
  have q1 : sA.peer.props = propsA := Good.properties (good_exec hA.exec)
  have q2 : sB.peer.props = propsB := Good.properties (good_exec hB.exec)
  rw [hi, q1] at e4
  rw [hj, q2] at g4
  have hne' : propsA.myBgpId.toNat ≠ propsB.myBgpId.toNat := fun h => hne (UInt32.toNat_inj.mp h)
  refine ⟨c, d, e1, g1, e2, g2, ?_, ?_⟩
  · rw [e4, g4]
    by_cases h : propsA.myBgpId.toNat ≤ propsB.myBgpId.toNat
    · simp [h]; omega
    · simp [h]; omega
  · rw [e4]; simp; omega

namespace SP

/-- the neighbour of the peer with `props0`, `pol0` -/
def propsB : PeerProps := ⟨65001, 0x0A000002, false⟩
def polB : Policy := ⟨65002, true, 0x0A000002, none, 180, [], [], []⟩
/-- an OPEN of the peer with `props0`, `pol0` -/
def openA : Msg := .open ⟨65001, 90, 0x0A000001, []⟩
/-- active, with an open delay of ten seconds -/
def cfgActiveDelay : PeerConfig := ⟨false, 30, 10, 180, 240, 60, false, true⟩
/-- from OpenSent: a connection comes in and is tracked -/
def toTwo : List Label := toSent ++ [.admin (.accept jit), .call okNet, .call okNet]
/-- a connection comes in before the one that is being made -/
def toTwoIn : List Label := [.admin .manualStart, .call okNet, .admin (.accept jit), .call okNet, .call okNet, .connect,
  .connected (some jit) okNet, .call okNet]

/-- what the examples on collisions need -/
def isCollision (s : Sys) (l : Label) (mainActive trackedActive keptActive : Bool) (id : UInt32) : Bool :=
  (match s.peer.conn, s.peer.tracked with
    | some m, some t => m.active == mainActive && t.active == trackedActive
    | _, _ => false) &&
  match s.step l with
  | some (s', some (.event _ .collisionDump)) =>
    match s'.peer.conn with
    | some c => c.active == keptActive && c.peerBgpId == some id
    | none => false
  | _ => false

theorem collision_ex {s l ma ta ka id} (h : isCollision s l ma ta ka id = true) :
    ∃ m t s' f c, s.peer.conn = some m ∧ s.peer.tracked = some t ∧ m.active = ma ∧ t.active = ta ∧
      s.step l = some (s', some (.event f .collisionDump)) ∧ s'.peer.conn = some c ∧ c.active = ka ∧
      c.peerBgpId = some id := by
  unfold isCollision at h
  simp only [Bool.and_eq_true] at h
  obtain ⟨h1, h2⟩ := h
  split at h1
  · next m t hm ht =>
    simp only [Bool.and_eq_true, beq_iff_eq] at h1
    split at h2
    · next s' f hs =>
      split at h2
      · next c hc =>
        simp only [Bool.and_eq_true, beq_iff_eq] at h2
        exact ⟨m, t, s', f, c, hm, ht, h1.1, h1.2, hs, hc, h2.1, h2.2⟩
      · cases h2
    · cases h2
  · cases h1

end SP

/-- the two ends of a collision: both mains are the connection the speaker opened; the speaker with the lower identifier
keeps the incoming one, its neighbour the one it opened -/
example : (∃ tr s m t s' f c, ExecIf Calm (Sys.init props0 cfg0 pol0) tr s ∧ s.peer.conn = some m ∧
      s.peer.tracked = some t ∧ m.active = true ∧ t.active = false ∧
      s.step (.main (rx open2) okNet) = some (s', some (.event f .collisionDump)) ∧ s'.peer.conn = some c ∧
      c.active = false ∧ c.peerBgpId = some propsB.myBgpId) ∧
    (∃ tr s m t s' f c, ExecIf Calm (Sys.init propsB cfg0 polB) tr s ∧ s.peer.conn = some m ∧
      s.peer.tracked = some t ∧ m.active = true ∧ t.active = false ∧
      s.step (.main (rx openA) okNet) = some (s', some (.event f .collisionDump)) ∧ s'.peer.conn = some c ∧
      c.active = true ∧ c.peerBgpId = some props0.myBgpId) := by
  constructor
  · obtain ⟨tr, s, h, hp⟩ := SP.calm (props := props0) (cfg := cfg0) (pol := pol0)
      (toTwo ++ [.tracked (rx open2) okNet])
      (fun s => isCollision s (.main (rx open2) okNet) true false false propsB.myBgpId) rfl
      (by simp [toTwo, toSent]; rfl) (by decide +kernel)
    obtain ⟨m, t, s', f, c, hx⟩ := collision_ex hp
    exact ⟨tr, s, m, t, s', f, c, h, hx⟩
  · obtain ⟨tr, s, h, hp⟩ := SP.calm (props := propsB) (cfg := cfg0) (pol := polB)
      (toTwo ++ [.tracked (rx openA) okNet])
      (fun s => isCollision s (.main (rx openA) okNet) true false true props0.myBgpId) rfl
      (by simp [toTwo, toSent]; rfl) (by decide +kernel)
    obtain ⟨m, t, s', f, c, hx⟩ := collision_ex hp
    exact ⟨tr, s, m, t, s', f, c, h, hx⟩

/-- C39 fails with an open delay. The connection opened by the neighbour is the main one on both ends, since it came in
before the one of the first speaker was made. The speaker with the lower identifier drops it and keeps the one it opened;
its neighbour drops that one and keeps the one it opened. Each end keeps what the other closes. -/
theorem c39_disproved :
    (∃ tr s m t s' f c l, Sys.Exec (Sys.init props0 cfgActiveDelay pol0) tr s ∧ s.peer.conn = some m ∧
      s.peer.tracked = some t ∧ m.active = false ∧ t.active = true ∧
      s.step l = some (s', some (.event f .collisionDump)) ∧ s'.peer.conn = some c ∧
      c.active = true ∧ c.peerBgpId = some propsB.myBgpId) ∧
    (∃ tr s m t s' f c l, Sys.Exec (Sys.init propsB cfgActiveDelay polB) tr s ∧ s.peer.conn = some m ∧
      s.peer.tracked = some t ∧ m.active = true ∧ t.active = false ∧
      s.step l = some (s', some (.event f .collisionDump)) ∧ s'.peer.conn = some c ∧
      c.active = true ∧ c.peerBgpId = some props0.myBgpId) := by
  constructor
  · obtain ⟨s, rs, hr, hp⟩ := runs_find (s := Sys.init props0 cfgActiveDelay pol0)
      (ls := toTwoIn ++ [.main (rx open2) okNet, .call okNet])
      (fun s _ => isCollision s (.tracked (rx open2) okNet) false true true propsB.myBgpId) (by decide +kernel)
    obtain ⟨m, t, s', f, c, h1, h2, h3, h4, h5, h6⟩ := collision_ex hp
    exact ⟨_, s, m, t, s', f, c, _, runs_exec hr, h1, h2, h3, h4, h5, h6⟩
  · obtain ⟨s, rs, hr, hp⟩ := runs_find (s := Sys.init propsB cfgActiveDelay polB)
      (ls := toTwo ++ [.main (rx openA) okNet, .call okNet])
      (fun s _ => isCollision s (.tracked (rx openA) okNet) true false true props0.myBgpId) (by decide +kernel)
    obtain ⟨m, t, s', f, c, h1, h2, h3, h4, h5, h6⟩ := collision_ex hp
    exact ⟨_, s, m, t, s', f, c, _, runs_exec hr, h1, h2, h3, h4, h5, h6⟩

/-! ## C40 -/

/-- waiting in Connect for nothing -/
structure SP.Stuck (s : Sys) : Prop where
  fsm : s.peer.fsm = .connect
  conn : s.peer.conn = none
  tracked : s.peer.tracked = none
  retry : s.peer.retry = none
  allowed : s.peer.allowed = false
  waiting : s.peer.waiting = []
  phase : ∀ h b, s.phase ≠ .select h b true

theorem SP.Stuck.step {s l s' r} (h : SP.Stuck s) (hs : Step s l s' r) (hl : ∀ a, l ≠ .admin a) :
    SP.Stuck s' ∧ l ≠ .connect := by
  have hu : ∀ net m, s.peer.userSend net s.now m = (.ok (), s.peer) := fun net m => by
    unfold Peer.userSend; rw [h.tracked]; dsimp only; rw [h.conn]
  cases hs with
  | time => exact ⟨⟨h.1, h.2, h.3, h.4, h.5, h.6, h.7⟩, fun e => nomatch e⟩
  | admin => exact absurd rfl (hl _)
  | userOk hph _ e =>
    rw [hu] at e; cases e
    exact ⟨⟨h.1, h.2, h.3, h.4, h.5, h.6, h.7⟩, fun e => nomatch e⟩
  | userErr hph _ e =>
    rw [hu] at e; cases e
  | callNone => exact ⟨⟨h.1, h.2, h.3, h.4, h.5, h.6, fun _ _ e => nomatch e⟩, fun e => nomatch e⟩
  | callEvent _ hw => rw [h.waiting] at hw; cases hw
  | callOn _ hw => rw [h.waiting] at hw; cases hw
  | callErr _ hw => rw [h.waiting] at hw; cases hw
  | callCancelled _ hw => rw [h.waiting] at hw; cases hw
  | drop => exact ⟨⟨h.1, h.2, h.3, h.4, h.5, h.6, fun _ _ e => nomatch e⟩, fun e => nomatch e⟩
  | connect _ _ ha => rw [h.allowed] at ha; cases ha
  | connected hph => exact absurd hph (h.phase _ _)
  | retry _ hT => rw [h.retry] at hT; cases hT
  | main _ hc => rw [h.conn] at hc; cases hc
  | trackedCancelled _ hc => rw [h.tracked] at hc; cases hc
  | tracked _ hc => rw [h.tracked] at hc; cases hc

/-- C40 fails: after the first attempt to connect has failed, the peer never makes another one, whatever happens, unless
a new administrative command or an incoming connection arrives (`.admin`) -/
theorem c40_disproved : ∃ tr s, ExecIf Calm (Sys.init props0 cfg0 pol0) tr s ∧ s.peer.adminUp = true ∧
    s.peer.config.passive = false ∧
    ∀ tr' s', ExecIf (fun _ l => ∀ a, l ≠ .admin a) s tr' s' → ∀ x ∈ tr', x.1 ≠ .connect := by
  obtain ⟨tr, s, h, hp⟩ := SP.calm (props := props0) (cfg := cfg0) (pol := pol0)
    [.admin .manualStart, .call okNet, .call okNet, .connect, .connected none okNet]
    (fun s => s.peer.adminUp && !s.peer.config.passive && s.peer.fsm == .connect && s.peer.conn.isNone &&
      s.peer.tracked.isNone && s.peer.retry.isNone && !s.peer.allowed && s.peer.waiting.isEmpty && s.phase == .outside)
    rfl (by simp; rfl) (by decide +kernel)
  simp only [Bool.and_eq_true, beq_iff_eq, Bool.not_eq_true', Option.isNone_iff_eq_none, List.isEmpty_iff] at hp
  obtain ⟨⟨⟨⟨⟨⟨⟨⟨h1, h2⟩, h3⟩, h4⟩, h5⟩, h6⟩, h7⟩, h8⟩, h9⟩ := hp
  refine ⟨tr, s, h, h1, h2, fun tr' s' he => ?_⟩
  have key : SP.Stuck s' ∧ ∀ x ∈ tr', x.1 ≠ .connect := by
    induction he with
    | nil => exact ⟨⟨h3, h4, h5, h6, h7, h8, fun _ _ e => by rw [h9] at e; cases e⟩, fun _ h => nomatch h⟩
    | snoc _ hl hs ih =>
      obtain ⟨i1, i2⟩ := ih.1.step (step_inv hs) hl
      refine ⟨i1, fun x hx => ?_⟩
      rcases List.mem_append.mp hx with hx | hx
      · exact ih.2 x hx
      · rw [List.mem_singleton.mp hx]; exact i2
  exact key.2

/-- without a tracked connection, the main connection's events are handled -/
theorem SP.main_step {s : Sys} {c c1 : Conn} {h k net i ev} (hph : s.phase = .select h false k)
    (hc : s.peer.conn = some c) (ht : s.peer.tracked = none) (hp : c.poll s.now i = some (ev, c1)) :
    s.step (.main i net) =
      some (Sys.returned s.now (({ s.peer with conn := some c1 } : Peer).handleConnEvent net s.now ev)) := by
  have hcol : ∀ m, Peer.collision s.peer.props.myBgpId m (if h = true then none else s.peer.tracked) = none := by
    intro m
    cases hx : Peer.collision s.peer.props.myBgpId m (if h = true then none else s.peer.tracked) with
    | none => rfl
    | some x => have := (collision_some hx).2; rw [ht] at this; cases h <;> cases this
  unfold Sys.step
  rw [hph]
  dsimp only
  rw [hc]
  dsimp only
  rw [hp]
  dsimp only
  unfold Sys.afterCheck
  dsimp only
  rw [hcol]

theorem SP.retry_runs {s : Sys} {T dt net} (hph : s.phase = .outside) (hw : s.peer.waiting = [])
    (hT : s.peer.retry = some T) (hdt : T.next ≤ s.now + dt) (hf : s.peer.fsm = .active ∨ s.peer.fsm = .connect) :
    ∃ u rs, runs s [.time dt, .call net, .retry, .call net, .connect] = some (u, rs) ∧ u.now = s.now + dt := by
  obtain ⟨⟨_, _, _, _, _, _, _, _, _, _, _, _⟩, _, _⟩ := s
  dsimp only at hph hw hT hdt hf
  subst hph hw hT
  rcases hf with hf | hf <;> subst hf <;>
    (simp only [runs, Sys.step, List.getLast?_nil, if_pos hdt, Sys.returned, Peer.to, Peer.dropConn]; exact ⟨_, _, rfl, rfl⟩)

/-- C40, the part that holds: when a connection that was made fails in OpenSent, the peer is in Active with the connect
retry timer, and makes a new attempt once that has run out. -/
theorem c40_retry_partial {s : Sys} {c : Conn} {h k net net'} (hph : s.phase = .select h false k)
    (hw : s.peer.waiting = []) (hc : s.peer.conn = some c) (hs : c.state = .openSent) (ht : s.peer.tracked = none) :
    ∃ t, s.step (.main .eof net) = some (t, some (.event .active (.conn .tcpFails))) ∧
    ∃ u rs, runs t [.time s.peer.config.retryDuration, .call net', .retry, .call net', .connect] = some (u, rs) ∧
      u.now = s.now + s.peer.config.retryDuration := by
  have hh : ∀ op, c.handle op net s.now .tcpFails = (.ok .tcpFails, c.to .terminate) := by
    intro op; unfold Conn.handle; rw [hs]; rfl
  refine ⟨⟨(({ s.peer with conn := some (c.to .terminate) } : Peer).dropConn.startRetry s.now).to .active, s.now,
    .outside⟩, (SP.main_step hph hc ht (show c.poll s.now .eof = some (.tcpFails, c) from rfl)).trans ?_, ?_⟩
  · unfold Peer.handleConnEvent
    dsimp only
    rw [hh, hs]
    rfl
  · exact SP.retry_runs rfl hw rfl (Nat.le_refl _) (.inl rfl)

example : ∃ tr s h k c, ExecIf Calm (Sys.init props0 cfg0 pol0) tr s ∧ s.phase = .select h false k ∧
    s.peer.waiting = [] ∧ s.peer.conn = some c ∧ c.state = .openSent ∧ s.peer.tracked = none := by
  obtain ⟨tr, s, h, hp⟩ := SP.calm (props := props0) (cfg := cfg0) (pol := pol0) (toSent ++ [.call okNet])
    (fun s => s.phase == .select false false false && s.peer.waiting.isEmpty && s.peer.tracked.isNone &&
      match s.peer.conn with | some c => c.state == .openSent | none => false)
    rfl (by simp [toSent]; rfl) (by decide +kernel)
  simp only [Bool.and_eq_true, beq_iff_eq, Option.isNone_iff_eq_none, List.isEmpty_iff] at hp
  obtain ⟨⟨⟨h1, h2⟩, h3⟩, h4⟩ := hp
  split at h4
  · next c hc => exact ⟨tr, s, _, _, c, h, h1, h2, hc, by simpa using h4, h3⟩
  · cases h4

/-! ## C58 -/

theorem SP.handle_ok {op : Open} {net : Speaker.Net} {n ev} {c : Conn} (hn : ∀ k, net k = .ok) :
    (c.handle op net n ev).1 = .ok ev := by
  have st : ∀ {m} {c : Conn} {k} {o : SendOut}, o = .ok → (∀ c, (k c).1 = .ok ev) → (c.sendThen o n m k).1 = .ok ev := by
    intro m c k o ho hk; subst ho; exact hk _
  have tt : ∀ {m} {c : Conn} {k} {o : SendOut}, o = .ok → (∀ c, (k c).1 = .ok ev) → (c.trySend o n m k).1 = .ok ev := by
    intro m c k o ho hk; subst ho; exact hk _
  unfold Conn.handle
  cases c.state with
  | terminate => rfl
  | connected =>
    cases ev <;> dsimp only [Conn.handleConnected] <;> (try split) <;>
      first
        | rfl
        | exact st (hn 0) fun _ => rfl
        | exact st (hn 0) fun _ => st (hn 1) fun _ => rfl
        | exact tt (hn 0) fun _ => rfl
  | openSent =>
    cases ev <;> dsimp only [Conn.handleOpenSent] <;>
      first
        | rfl
        | exact st (hn 0) fun _ => rfl
        | exact tt (hn 0) fun _ => rfl
  | openConfirm =>
    cases ev <;> dsimp only [Conn.handleOpenConfirm] <;>
      first
        | rfl
        | exact st (hn 0) fun _ => rfl
        | exact tt (hn 0) fun _ => rfl
  | established =>
    cases ev <;> dsimp only [Conn.handleEstablished] <;>
      first
        | rfl
        | exact st (hn 0) fun _ => rfl
        | exact tt (hn 0) fun _ => rfl

/-- every message given to a connection in this step is written -/
def Writes : Label → Prop
  | .user _ net | .call net | .connected _ net | .main _ net | .tracked _ net => ∀ k, net k = .ok
  | _ => True

/-- C58, the part that holds: while there is no second connection and messages can be written, the task of a peer
survives whatever happens, in particular whatever its neighbour sends. -/
theorem c58_survives_partial {props cfg pol tr s l s' r} (h : ExecIf Calm (Sys.init props cfg pol) tr s)
    (hd : s.phase ≠ .dead) (ht : s.peer.tracked = none) (hw : Writes l) (hs : s.step l = some (s', r)) :
    s'.phase ≠ .dead := by
  have hco : Coh s.peer := (coh_exec h).resolve_left hd
  have hret : ∀ {n} {x : Out PeerEvent × Peer} {s' r}, Sys.returned n x = (s', r) → (∃ e, x.1 = .ok e) → s'.phase ≠ .dead := by
    intro n x s' r hr ⟨e, he⟩
    obtain ⟨o, q⟩ := x
    cases he
    rw [fst_of hr]; simp [Sys.returned]
  cases step_inv hs with
  | time => exact hd
  | admin hph => exact hd
  | userOk => exact hd
  | userErr hph hc e =>
    exfalso
    unfold Peer.userSend at e
    rw [ht] at e
    dsimp only at e
    split at e
    · cases e
    · rw [if_pos (hw 1)] at e; cases e
  | callNone => simp
  | callEvent => simp
  | callOn => simp
  | callErr hph hwt e =>
    exfalso
    have e1 := fst_of e
    unfold Peer.admin at e1
    split at e1
    · simp at e1
    · split at e1
      · simp at e1
      · next hsh => exact absurd (fst_of hsh).symm (by have := (Coh.shutdown (fun k => by rw [hw k]; rfl) hsh).2.2.2.2.2; simp_all)
      · simp at e1
    · simp at e1
    · split at e1
      · simp at e1
      · next hsh => exact absurd (fst_of hsh).symm (by have := (Coh.shutdown (fun k => by rw [hw k]; rfl) hsh).2.2.2.2.2; simp_all)
      · simp at e1
    · unfold Peer.accept at e1
      split at e1
      · split at e1
        · split at e1 <;> simp at e1
        · simp at e1
      · dsimp only at e1
        split at e1
        · simp at e1
        · next hh => have := handle_ok hw ▸ fst_of hh; simp at this
        · simp at e1
  | callCancelled => simp
  | drop => simp
  | connect => simp
  | @connected a net _ _ _ _ hph hr =>
    refine hret hr ?_
    unfold Peer.connected
    cases a with
    | none => exact ⟨_, rfl⟩
    | some j =>
      dsimp only
      have := SP.handle_ok (op := s.peer.stopRetry.policy.openMsg) (n := s.now) (ev := .tcpRequestAcked)
        (c := s.peer.stopRetry.createConnection true j) (net := net) hw
      split
      · exact ⟨_, rfl⟩
      · next hh => rw [hh] at this; cases this
      · next hh => rw [hh] at this; cases this
  | retry _ _ _ hr => exact hret hr ⟨_, rfl⟩
  | @main i net hid k c c1 ev _ _ hph hc hp hr =>
    have hms := SP.main_step (net := net) hph hc ht hp
    rw [hs] at hms
    cases hms' : Sys.returned s.now (({ s.peer with conn := some c1 } : Peer).handleConnEvent net s.now ev) with
    | mk a b =>
      rw [hms'] at hms
      cases hms
      refine hret hms' ⟨.conn ev, ?_⟩
      unfold Peer.handleConnEvent
      dsimp only
      have h1 := SP.handle_ok (op := (s.peer.policy.pre ev).openMsg) (n := s.now) (ev := ev) (c := c1) (net := net) hw
      split
      · next hh =>
        have h2 := handle_next (poll_tcp hp) hh
        rw [h2.1, h2.2]
        refine transit_total ?_ (poll_tcp hp)
        rw [(poll_same hp).state]
        intro hst
        have := (hco.up c hc).1
        rw [hst] at this
        exact this
      · next hh => rw [hh] at h1; cases h1
      · next hh => rw [hh] at h1; cases h1
  | trackedCancelled _ hc => rw [ht] at hc; cases hc
  | tracked _ hc => rw [ht] at hc; cases hc

example : ∃ tr s, ExecIf Calm (Sys.init props0 cfg0 pol0) tr s ∧ s.phase ≠ .dead ∧ s.peer.tracked = none ∧
    s.peer.fsm = .established := by
  obtain ⟨tr, s, h, hp⟩ := SP.established
  simp only [Bool.and_eq_true, beq_iff_eq, Option.isNone_iff_eq_none] at hp
  exact ⟨tr, s, h, by rw [hp.1.1]; simp, hp.2, hp.1.2⟩

/-- C58 fails with a second connection: an OPEN with a wrong AS on it ends the task of the peer when the identifier in it
is that of the neighbour and higher than ours. Every message is written. -/
theorem c58_disproved : ∃ tr s, ExecIf Calm (Sys.init props0 cfg0 pol0) tr s ∧ (∀ x ∈ tr, Writes x.1) ∧
    s.phase = .dead := by
  obtain ⟨s, rs, hr, hp⟩ := runs_find (s := Sys.init props0 cfg0 pol0)
    (ls := toTwo ++ [.tracked (rx openBadAs) okNet, .main (rx open2) okNet])
    (fun s _ => s.phase == .dead) (by decide +kernel)
  refine ⟨_, s, runs_calm rfl (by simp [toTwo, toSent]; rfl) hr, ?_, by simpa using hp⟩
  intro x hx
  have := (List.of_mem_zip hx).1
  simp only [toTwo, toSent, List.cons_append, List.nil_append, List.mem_cons, List.not_mem_nil, or_false] at this
  rcases this with e | e | e | e | e | e | e | e | e | e <;> rw [e] <;> first | trivial | exact fun _ => rfl

/-- C58 fails when the neighbour goes away: the KEEPALIVE that answers its OPEN cannot be written, and that ends the task -/
theorem c58_write_disproved : ∃ tr s s' r, ExecIf Calm (Sys.init props0 cfg0 pol0) tr s ∧ s.phase ≠ .dead ∧
    s.step (.main (rx open2) broken) = some (s', r) ∧ s'.phase = .dead := by
  obtain ⟨tr, s, h, hp⟩ := SP.calm (props := props0) (cfg := cfg0) (pol := pol0) (toSent ++ [.call okNet])
    (fun s => s.phase != .dead && match s.step (.main (rx open2) broken) with
      | some (s', _) => s'.phase == .dead
      | none => false) rfl (by simp [toSent]; rfl) (by decide +kernel)
  simp only [Bool.and_eq_true, bne_iff_ne] at hp
  obtain ⟨h1, h2⟩ := hp
  split at h2
  · next s' r hs => exact ⟨tr, s, s', r, h, h1, hs, by simpa using h2⟩
  · cases h2

/-! ## C59 -/

/-- C59, the part that holds: while there is no second connection, an UPDATE received in Established is reported, in
Established; or an error is found in it, and that is reported. Nothing has to be written for that. -/
theorem c59_reported_partial {props cfg pol tr s} {c : Conn} {h k u g net}
    (he : ExecIf Calm (Sys.init props cfg pol) tr s) (hph : s.phase = .select h false k)
    (hc : s.peer.conn = some c) (hs : c.state = .established) (ht : s.peer.tracked = none) :
    ∃ s' f e, s.step (.main (.message (.update u) g) net) = some (s', some (.event f (.conn e))) ∧
      (((∃ t, e = .update u t) ∧ f = .established ∧ ∃ d, s'.peer.conn = some d ∧ d.state = .established) ∨
       ((∃ n, e = .updateErr n) ∧ f = .idle)) := by
  have hco : Coh s.peer := (coh_exec he).resolve_left (by rw [hph]; simp)
  have hf : s.peer.fsm = .established := by have := (hco.up c hc).1; rw [hs] at this; exact this
  have hstep := SP.main_step (net := net) hph hc ht
    (show c.poll s.now (.message (.update u) g) = some (updateEvent u g, c.receive (.update u)) from rfl)
  have hst : (c.receive (.update u)).state = .established := hs
  have hcase : (∃ t, updateEvent u g = .update u t) ∨ ∃ n, updateEvent u g = .updateErr n := by
    rcases updateEvent_cases (u := u) (g := g) with ⟨n, h⟩ | h
    · exact .inr ⟨n, h⟩
    · exact .inl ⟨_, h⟩
  rcases hcase.symm with ⟨n, hn⟩ | ⟨t, hn⟩
  · rw [hn] at hstep
    have hh : ∀ op, (c.receive (.update u)).handle op net s.now (.updateErr n) =
        (.ok (.updateErr n), (c.receive (.update u)).to .terminate) := by
      intro op; unfold Conn.handle; rw [hst]; rfl
    unfold Peer.handleConnEvent at hstep
    dsimp only at hstep
    rw [hh, hst] at hstep
    exact ⟨_, _, _, hstep, .inr ⟨⟨n, rfl⟩, rfl⟩⟩
  · rw [hn] at hstep
    have hh : ∀ op, (c.receive (.update u)).handle op net s.now (.update u t) =
        (.ok (.update u t), c.receive (.update u)) := by
      intro op; unfold Conn.handle; rw [hst]; rfl
    unfold Peer.handleConnEvent at hstep
    dsimp only at hstep
    rw [hh] at hstep
    dsimp only at hstep
    rw [hst] at hstep
    exact ⟨_, _, _, hstep, .inl ⟨⟨t, rfl⟩, hf, _, rfl, hst⟩⟩

example : ∃ tr s h k c, ExecIf Calm (Sys.init props0 cfg0 pol0) tr s ∧ s.phase = .select h false k ∧
    s.peer.conn = some c ∧ c.state = .established ∧ s.peer.tracked = none := by
  obtain ⟨tr, s, h, hp⟩ := SP.calm (props := props0) (cfg := cfg0) (pol := pol0) (toEst ++ [.call okNet])
    (fun s => s.phase == .select false false false && s.peer.tracked.isNone &&
      match s.peer.conn with | some c => c.state == .established | none => false)
    rfl (by simp [toEst, toSent]; rfl) (by decide +kernel)
  simp only [Bool.and_eq_true, beq_iff_eq, Option.isNone_iff_eq_none] at hp
  obtain ⟨⟨h1, h3⟩, h4⟩ := hp
  split at h4
  · next c hc => exact ⟨tr, s, _, _, c, h, h1, hc, by simpa using h4, h3⟩
  · cases h4

/-- C59 fails with a second connection whose OPEN has another identifier: an UPDATE received in Established on the main
connection is not reported, neither at that step nor later, since it is in no queue; the state of the peer and of its
connection stays Established -/
theorem c59_disproved : ∃ tr s s' c d, ExecIf Calm (Sys.init props0 cfg0 pol0) tr s ∧ s.peer.fsm = .established ∧
    s.peer.conn = some c ∧ c.state = .established ∧
    s.step (.main (rx upd) okNet) = some (s', none) ∧ s'.peer.fsm = .established ∧ s'.peer.conn = some d ∧
    d.state = .established ∧ d.trace = c.trace ++ [.received upd] := by
  obtain ⟨tr, s, h, hp⟩ := SP.calm (props := props0) (cfg := cfg0) (pol := pol0)
    (toEst ++ [.admin (.accept jit), .call okNet, .call okNet, .tracked (rx open9) okNet, .main (rx upd) okNet,
      .call okNet])
    (fun s => s.peer.fsm == .established && match s.step (.main (rx upd) okNet) with
      | some (s', none) => s'.peer.fsm == .established && match s.peer.conn, s'.peer.conn with
        | some c, some d => c.state == .established && d.state == .established &&
          d.trace == c.trace ++ [.received upd]
        | _, _ => false
      | _ => false) rfl (by simp [toEst, toSent]; rfl) (by decide +kernel)
  simp only [Bool.and_eq_true, beq_iff_eq] at hp
  obtain ⟨h1, h2⟩ := hp
  split at h2
  · next s' hs =>
    simp only [Bool.and_eq_true, beq_iff_eq] at h2
    obtain ⟨h3, h4⟩ := h2
    split at h4
    · next c d hc hd =>
      simp only [Bool.and_eq_true, beq_iff_eq] at h4
      exact ⟨tr, s, s', c, d, h, h1, hc, h4.1.1, hs, h3, hd, h4.1.2, h4.2⟩
    · cases h4
  · cases h2

/-! ## C60 -/

/-- C60, the part that holds: once a collision is reported, there is one connection, in a state of an open session, and
the FSM is in that state. -/
theorem c60_collision_partial {props cfg pol tr s m l s' f} (h : ExecIf Calm (Sys.init props cfg pol) tr s)
    (hcfg : cfg.openDelay = 0) (hm : s.peer.conn = some m) (ha : m.active = true) (hc : Calm s l)
    (hs : s.step l = some (s', some (.event f .collisionDump))) :
    s'.peer.tracked = none ∧ ∃ c, s'.peer.conn = some c ∧
      ((c.state = .openSent ∧ f = .openSent) ∨ (c.state = .openConfirm ∧ f = .openConfirm) ∨
       (c.state = .established ∧ f = .established)) := by
  obtain ⟨c, i, h1, h2, -, -⟩ := SP.resolve h hcfg hm ha hc hs
  have he := ExecIf.snoc h hc hs
  have hfp : f = s'.peer.fsm ∧ s'.phase = .outside := by
    have hst := step_inv hs
    have chk : ∀ {net now hid k p other}, (∀ p s' f, other p = (s', some (.event f .collisionDump)) →
        f = s'.peer.fsm ∧ s'.phase = .outside) →
        Sys.afterCheck net now hid k p other = (s', some (.event f .collisionDump)) →
        f = s'.peer.fsm ∧ s'.phase = .outside := by
      intro net now hid k p other ho hr
      unfold Sys.afterCheck at hr
      split at hr
      · exact (SP.returned_report hr).2
      · exact (SP.returned_report hr).2
      · simp at hr
      · exact ho _ _ _ hr
    cases hst with
    | callEvent => exact ⟨rfl, rfl⟩
    | connected _ hr => exact (SP.returned_report hr).2
    | retry _ _ _ hr => exact (SP.returned_report hr).2
    | main _ _ _ hr => exact chk (fun p s' f e => (SP.returned_report e).2) hr
    | tracked _ _ _ _ _ _ _ hr => exact chk (fun p s' f e => absurd (congrArg Prod.snd e) (by simp)) hr
  refine ⟨h2, c, h1, ?_⟩
  have hco : Coh s'.peer := (coh_exec he).resolve_left (by rw [hfp.2]; simp)
  have hcf : s'.peer.config = cfg := Good.config (good_exec he.exec)
  obtain ⟨hx, hy⟩ := hco.up c h1
  rw [hfp.1]
  cases hst : c.state with
  | openSent => rw [hst] at hx; exact .inl ⟨rfl, hx⟩
  | openConfirm => rw [hst] at hx; exact .inr (.inl ⟨rfl, hx⟩)
  | established => rw [hst] at hx; exact .inr (.inr ⟨rfl, hx⟩)
  | terminate => rw [hst] at hx; exact absurd hx id
  | connected => exact absurd hst (hy (by rw [hcf]; exact hcfg))

/-- a collision that leaves a connection in OpenConfirm -/
example : ∃ tr s m s' f, ExecIf Calm (Sys.init props0 cfg0 pol0) tr s ∧ s.peer.conn = some m ∧ m.active = true ∧
    s.step (.main (rx open2) okNet) = some (s', some (.event f .collisionDump)) := by
  obtain ⟨tr, s, h, hp⟩ := SP.calm (props := props0) (cfg := cfg0) (pol := pol0)
    (toTwo ++ [.tracked (rx open2) okNet])
    (fun s => isCollision s (.main (rx open2) okNet) true false false propsB.myBgpId) rfl
    (by simp [toTwo, toSent]; rfl) (by decide +kernel)
  obtain ⟨m, t, s', f, c, h1, h2, h3, h4, h5, -⟩ := collision_ex hp
  exact ⟨tr, s, m, s', f, h, h1, h3, h5⟩

/-- C60 fails: a collision is found when the OPEN arrives on the main connection. That is the connection kept, but its
OPEN is lost: the KEEPALIVE of the neighbour, which follows, ends the session, and the peer is in Idle with no connection,
although neighbour and peer did nothing wrong. -/
theorem c60_disproved : ∃ tr s s' u r, ExecIf Calm (Sys.init propsHi cfg0 polHi) tr s ∧
    s.step (.main (rx open2) okNet) = some (s', some (.event .openSent .collisionDump)) ∧
    runs s' [.call okNet, .main (rx .keepAlive) okNet] = some (u, r) ∧
    u.peer.fsm = .idle ∧ u.peer.conn = none ∧ u.peer.tracked = none := by
  obtain ⟨tr, s, h, hp⟩ := SP.calm (props := propsHi) (cfg := cfg0) (pol := polHi)
    (toTwo ++ [.tracked (rx open2) okNet])
    (fun s => match s.step (.main (rx open2) okNet) with
      | some (s', some (.event .openSent .collisionDump)) =>
        match runs s' [.call okNet, .main (rx .keepAlive) okNet] with
        | some (u, _) => u.peer.fsm == .idle && u.peer.conn.isNone && u.peer.tracked.isNone
        | none => false
      | _ => false) rfl (by simp [toTwo, toSent]; rfl) (by decide +kernel)
  split at hp
  · next s' hs =>
    split at hp
    · next u r hr =>
      simp only [Bool.and_eq_true, beq_iff_eq, Option.isNone_iff_eq_none] at hp
      exact ⟨tr, s, s', u, r, h, hs, hr, hp.1.1, hp.1.2, hp.2⟩
    · cases hp
  · cases hp

/-! ## C66 -/

/-- C66, the part that holds: a request for statistics drops `run` where it waits (`.drop`), and `run` is called again.
If the peer is not connecting and is not sending to a connection, that changes nothing. -/
theorem c66_wait_partial {s : Sys} {net} (hph : s.phase = .select false false false) (hw : s.peer.waiting = []) :
    runs s [.drop, .call net] = some (s, [none, none]) := by
  obtain ⟨⟨_, _, _, _, _, _, _, _, _, _, _, _⟩, _, _⟩ := s
  dsimp only at hph hw
  subst hph hw
  rfl

example : ∃ tr s, ExecIf Calm (Sys.init props0 cfg0 pol0) tr s ∧ s.phase = .select false false false ∧
    s.peer.waiting = [] ∧ s.peer.fsm = .established := by
  obtain ⟨tr, s, h, hp⟩ := SP.calm (props := props0) (cfg := cfg0) (pol := pol0) (toEst ++ [.call okNet])
    (fun s => s.phase == .select false false false && s.peer.waiting.isEmpty && s.peer.fsm == .established)
    rfl (by simp [toEst, toSent]; rfl) (by decide +kernel)
  simp only [Bool.and_eq_true, beq_iff_eq, List.isEmpty_iff] at hp
  exact ⟨tr, s, h, hp.1.1, hp.1.2, hp.2⟩

/-- C66 fails: a request for statistics ends the attempt to connect that is under way. Its outcome is not seen any more,
and no new attempt can begin before the connect retry timer has run out. -/
theorem c66_disproved : ∃ tr s t, ExecIf Calm (Sys.init props0 cfg0 pol0) tr s ∧
    s.phase = .select false false true ∧ s.step (.connected (some jit) okNet) ≠ none ∧
    runs s [.drop, .call okNet] = some (t, [none, none]) ∧
    (∀ r net, t.step (.connected r net) = none) ∧ t.step .connect = none ∧
    ∃ T, t.peer.retry = some T ∧ t.now + 30 * sec ≤ T.next := by
  obtain ⟨tr, s, h, hp⟩ := SP.calm (props := props0) (cfg := cfg0) (pol := pol0)
    [.admin .manualStart, .call okNet, .call okNet, .connect]
    (fun s => s.phase == .select false false true && s.step (.connected (some jit) okNet) != none &&
      match runs s [.drop, .call okNet] with
      | some (t, [none, none]) => t.phase == .select false false false && t.step .connect == none &&
        match t.peer.retry with | some T => decide (t.now + 30 * sec ≤ T.next) | none => false
      | _ => false) rfl (by simp; rfl) (by decide +kernel)
  simp only [Bool.and_eq_true, beq_iff_eq, bne_iff_ne] at hp
  obtain ⟨⟨h1, h2⟩, h3⟩ := hp
  split at h3
  · next t hr =>
    simp only [Bool.and_eq_true, beq_iff_eq] at h3
    obtain ⟨⟨h4, h5⟩, h6⟩ := h3
    split at h6
    · next T hT =>
      refine ⟨tr, s, t, h, h1, h2, hr, fun r net => ?_, h5, T, hT, by simpa using h6⟩
      unfold Sys.step; rw [h4]
    · cases h6
  · cases h3

/-! ## C67 -/

/-- C67, the part that holds: a connection that comes in to a peer that is administratively up, has not already two
connections, and is not in Established - unless collisions are allowed there - is accepted: the event is reported and the
peer has a connection that was opened by its neighbour. -/
theorem c67_accept_partial {s : Sys} {j net} (hph : s.phase = .outside) (hw : s.peer.waiting.getLast? = some (.accept j))
    (hup : s.peer.adminUp = true) (h2 : s.peer.conn = none ∨ s.peer.tracked = none)
    (he : s.peer.fsm ≠ .established ∨ s.peer.config.collisionEstablished = true) (hn : ∀ k, net k = .ok) :
    ∃ s' f c, s.step (.call net) = some (s', some (.event f (.conn .tcpConfirmed))) ∧
      (s'.peer.conn = some c ∨ s'.peer.tracked = some c) ∧ c.active = false ∧
      (s.peer.conn = none → s'.peer.conn = some c) ∧
      (s.peer.conn ≠ none → s'.peer.conn = s.peer.conn ∧ s'.peer.tracked = some c) := by
  have hcond : ¬ ((!s.peer.adminUp || (s.peer.conn.isSome && s.peer.tracked.isSome)
      || (s.peer.fsm == .established && !s.peer.config.collisionEstablished)) = true) := by
    rw [hup]
    rcases h2 with h | h <;> rcases he with g | g <;> simp [h, g]
  have hh := SP.handle_ok (op := s.peer.policy.openMsg) (net := net) (n := s.now) (ev := .tcpConfirmed)
    (c := s.peer.createConnection false j) hn
  have ha := handle_active (op := s.peer.policy.openMsg) (net := net) (t := s.now) (ev := .tcpConfirmed)
    (c := s.peer.createConnection false j)
  cases hx : (s.peer.createConnection false j).handle s.peer.policy.openMsg net s.now .tcpConfirmed with
  | mk o c =>
    rw [hx] at hh ha
    have hh : o = .ok .tcpConfirmed := hh
    subst hh
    have hacc : ({ s.peer with waiting := s.peer.waiting.dropLast } : Peer).admin net s.now (.accept j) =
        (.ok (some (.conn .tcpConfirmed)),
          ({ s.peer with waiting := s.peer.waiting.dropLast } : Peer).stopRetry.addConnection c) := by
      show Peer.accept net s.now j _ = _
      unfold Peer.accept
      rw [if_neg hcond]
      dsimp only
      have : (({ s.peer with waiting := s.peer.waiting.dropLast } : Peer).stopRetry.createConnection false j).handle
          ({ s.peer with waiting := s.peer.waiting.dropLast } : Peer).stopRetry.policy.openMsg net s.now .tcpConfirmed
          = (.ok .tcpConfirmed, c) := hx
      rw [this]
    have hstep : s.step (.call net) = some (Sys.returned s.now (.ok (.conn .tcpConfirmed),
        ({ s.peer with waiting := s.peer.waiting.dropLast } : Peer).stopRetry.addConnection c)) := by
      unfold Sys.step
      rw [hph]
      dsimp only
      rw [hw]
      dsimp only
      rw [hacc]
    refine ⟨_, _, c, hstep, ?_⟩
    show _ ∧ _ ∧ (_ → (Peer.addConnection c _).conn = _) ∧ _
    cases hcn : s.peer.conn with
    | none =>
      have hk : (({ s.peer with waiting := s.peer.waiting.dropLast } : Peer).stopRetry.addConnection c).conn = some c := by
        unfold Peer.addConnection
        rw [if_neg (by simp [Peer.stopRetry, hcn])]
      exact ⟨.inl hk, ha, fun _ => hk, fun h => absurd rfl h⟩
    | some d =>
      have hk : (({ s.peer with waiting := s.peer.waiting.dropLast } : Peer).stopRetry.addConnection c) =
          { ({ s.peer with waiting := s.peer.waiting.dropLast } : Peer).stopRetry.dropTracked with tracked := some c } := by
        unfold Peer.addConnection
        rw [if_pos (by simp [Peer.stopRetry, hcn])]
      have hk1 : (({ s.peer with waiting := s.peer.waiting.dropLast } : Peer).stopRetry.addConnection c).conn = some d := by
        rw [hk]; exact hcn
      have hk2 : (({ s.peer with waiting := s.peer.waiting.dropLast } : Peer).stopRetry.addConnection c).tracked = some c := by
        rw [hk]
      exact ⟨.inr hk2, ha, (fun h => absurd h (by simp)), fun _ => ⟨hk1, hk2⟩⟩

example : ∃ tr s, ExecIf Calm (Sys.init props0 cfg0 pol0) tr s ∧ s.phase = .outside ∧
    s.peer.waiting.getLast? = some (.accept jit) ∧ s.peer.adminUp = true ∧ s.peer.conn ≠ none ∧
    s.peer.tracked = none ∧ s.peer.config.collisionEstablished = true := by
  obtain ⟨tr, s, h, hp⟩ := SP.calm (props := props0) (cfg := cfg0) (pol := pol0) (toEst ++ [.admin (.accept jit)])
    (fun s => s.phase == .outside && s.peer.waiting.getLast? == some (.accept jit) && s.peer.adminUp &&
      s.peer.conn != none && s.peer.tracked.isNone && s.peer.config.collisionEstablished)
    rfl (by simp [toEst, toSent]; rfl) (by decide +kernel)
  simp only [Bool.and_eq_true, beq_iff_eq, bne_iff_ne, Option.isNone_iff_eq_none] at hp
  obtain ⟨⟨⟨⟨⟨h1, h2⟩, h3⟩, h4⟩, h5⟩, h6⟩ := hp
  exact ⟨tr, s, h, h1, h2, h3, h4, h5, h6⟩

/-- C67 fails: the second connection came to its end - the neighbour closed it - but stays with the peer, and the next
connection that comes in is rejected, although only one connection is alive -/
theorem c67_disproved : ∃ tr s t c d, ExecIf Calm (Sys.init props0 cfg0 pol0) tr s ∧
    s.peer.conn = some c ∧ c.state = .established ∧ s.peer.tracked = some d ∧ d.state = .terminate ∧
    s.peer.config.collisionEstablished = true ∧ s.peer.waiting = [.accept jit] ∧
    s.step (.call okNet) = some (t, none) ∧ t.peer.conn = some c ∧ t.peer.tracked = some d ∧ t.peer.waiting = [] := by
  obtain ⟨tr, s, h, hp⟩ := SP.calm (props := props0) (cfg := cfg0) (pol := pol0)
    (toEst ++ [.admin (.accept jit), .call okNet, .call okNet, .tracked .eof okNet, .drop, .admin (.accept jit)])
    (fun s => s.peer.config.collisionEstablished && s.peer.waiting == [.accept jit] &&
      match s.peer.conn, s.peer.tracked, s.step (.call okNet) with
      | some c, some d, some (t, none) => c.state == .established && d.state == .terminate &&
        t.peer.conn == some c && t.peer.tracked == some d && t.peer.waiting.isEmpty
      | _, _, _ => false) rfl (by simp [toEst, toSent]; rfl) (by decide +kernel)
  simp only [Bool.and_eq_true, beq_iff_eq] at hp
  obtain ⟨⟨h1, h2⟩, h3⟩ := hp
  split at h3
  · next c d t hc hd hs =>
    simp only [Bool.and_eq_true, beq_iff_eq, List.isEmpty_iff] at h3
    obtain ⟨⟨⟨⟨h4, h5⟩, h6⟩, h7⟩, h8⟩ := h3
    exact ⟨tr, s, t, c, d, h, hc, h4, hd, h5, h1, h2, hs, h6, h7, h8⟩
  · cases h3

end Verif.Props
