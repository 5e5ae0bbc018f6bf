import Verif.Speaker.Conn
/-!
# The life of a connection

`Life` collects everything that can happen to a connection the speaker holds; the invariants of a connection are
proved by induction on it. `Verif/Speaker/PeerLemmas.lean` shows that the peer does nothing else to its connections.
-/
namespace Verif.Speaker
open Verif Verif.Bgp

/-- the connections that can exist at an instant, for a configuration and an expected AS number -/
inductive Life (cfg : ConnConfig) (asn : Option UInt32) : Nat → Conn → Prop where
  | first {t j : Nat} {active : Bool} {op : Open} {net : Net} {ev : ConnEvent}
    (h : ev = .tcpRequestAcked ∨ ev = .tcpConfirmed) :
    Life cfg asn t ((Conn.new active cfg asn j).handle op net t ev).2
  | wait {t t' : Nat} {c : Conn} (h : Life cfg asn t c) (ht : t ≤ t') : Life cfg asn t' c
  | event {t : Nat} {c c1 : Conn} {i : ConnInput} {ev : ConnEvent} {op : Open} {net : Net}
    (h : Life cfg asn t c) (hp : c.poll t i = some (ev, c1)) : Life cfg asn t (c1.handle op net t ev).2
  | lost {t : Nat} {c c1 : Conn} {i : ConnInput} {ev : ConnEvent}
    (h : Life cfg asn t c) (hp : c.poll t i = some (ev, c1)) : Life cfg asn t c1
  | sent {t : Nat} {c : Conn} {m : Msg} (h : Life cfg asn t c) : Life cfg asn t (c.startSend t m)

theorem Life.afterSend {cfg asn t c} (h : Life cfg asn t c) (o : SendOut) (m : Msg) :
    Life cfg asn t (c.afterSend o t m) := by
  unfold Conn.afterSend; split
  · exact h.sent
  · exact h

/-! ## What polling and sending leave alone -/

@[simp] theorem startSend_state (t m) (c : Conn) : (c.startSend t m).state = c.state := by cases m <;> rfl
@[simp] theorem startSend_config (t m) (c : Conn) : (c.startSend t m).config = c.config := by cases m <;> rfl
@[simp] theorem startSend_peerAsn (t m) (c : Conn) : (c.startSend t m).peerAsn = c.peerAsn := by cases m <;> rfl
@[simp] theorem startSend_peerBgpId (t m) (c : Conn) : (c.startSend t m).peerBgpId = c.peerBgpId := by cases m <;> rfl
@[simp] theorem startSend_peerHold (t m) (c : Conn) : (c.startSend t m).peerHold = c.peerHold := by cases m <;> rfl
@[simp] theorem startSend_hold (t m) (c : Conn) : (c.startSend t m).hold = c.hold := by cases m <;> rfl
@[simp] theorem startSend_openDelay (t m) (c : Conn) : (c.startSend t m).openDelay = c.openDelay := by cases m <;> rfl
@[simp] theorem startSend_jitter (t m) (c : Conn) : (c.startSend t m).jitter = c.jitter := by cases m <;> rfl
@[simp] theorem startSend_active (t m) (c : Conn) : (c.startSend t m).active = c.active := by cases m <;> rfl
@[simp] theorem startSend_trace (t m) (c : Conn) : (c.startSend t m).trace = c.trace ++ [.sent m] := by cases m <;> rfl

@[simp] theorem afterSend_state (o t m) (c : Conn) : (c.afterSend o t m).state = c.state := by
  unfold Conn.afterSend; split <;> simp
@[simp] theorem afterSend_config (o t m) (c : Conn) : (c.afterSend o t m).config = c.config := by
  unfold Conn.afterSend; split <;> simp
@[simp] theorem afterSend_peerAsn (o t m) (c : Conn) : (c.afterSend o t m).peerAsn = c.peerAsn := by
  unfold Conn.afterSend; split <;> simp
@[simp] theorem afterSend_peerBgpId (o t m) (c : Conn) : (c.afterSend o t m).peerBgpId = c.peerBgpId := by
  unfold Conn.afterSend; split <;> simp
@[simp] theorem afterSend_peerHold (o t m) (c : Conn) : (c.afterSend o t m).peerHold = c.peerHold := by
  unfold Conn.afterSend; split <;> simp
@[simp] theorem afterSend_hold (o t m) (c : Conn) : (c.afterSend o t m).hold = c.hold := by
  unfold Conn.afterSend; split <;> simp
@[simp] theorem afterSend_openDelay (o t m) (c : Conn) : (c.afterSend o t m).openDelay = c.openDelay := by
  unfold Conn.afterSend; split <;> simp
@[simp] theorem afterSend_jitter (o t m) (c : Conn) : (c.afterSend o t m).jitter = c.jitter := by
  unfold Conn.afterSend; split <;> simp
@[simp] theorem afterSend_active (o t m) (c : Conn) : (c.afterSend o t m).active = c.active := by
  unfold Conn.afterSend; split <;> simp
theorem afterSend_trace (o t m) (c : Conn) :
    (c.afterSend o t m).trace = c.trace ++ if o.started then [.sent m] else [] := by
  unfold Conn.afterSend; split <;> simp
@[simp] theorem afterSend_ok (t m) (c : Conn) : c.afterSend .ok t m = c.startSend t m := rfl

/-- the trace grows by the message that was received, if any -/
def ConnInput.act : ConnInput → List Act
  | .message m _ => [.received m]
  | _ => []

/-- what `poll` leaves alone -/
structure SamePoll (i : ConnInput) (c c1 : Conn) : Prop where
  state : c1.state = c.state
  config : c1.config = c.config
  peerAsn : c1.peerAsn = c.peerAsn
  peerHold : c1.peerHold = c.peerHold
  jitter : c1.jitter = c.jitter
  active : c1.active = c.active
  trace : c1.trace = c.trace ++ i.act

theorem poll_same {t i} {c c1 : Conn} {ev} (h : c.poll t i = some (ev, c1)) : SamePoll i c c1 := by
  cases i with
  | keepAliveTick =>
    unfold Conn.poll at h; dsimp only at h
    split at h
    · split at h
      · simp only [Option.some.injEq, Prod.mk.injEq] at h; rw [← h.2]; constructor <;> simp [ConnInput.act]
      · cases h
    · cases h
  | openDelayTick =>
    unfold Conn.poll at h; dsimp only at h
    split at h
    · split at h
      · simp only [Option.some.injEq, Prod.mk.injEq] at h; rw [← h.2]; constructor <;> simp [ConnInput.act]
      · cases h
    · cases h
  | holdTick =>
    unfold Conn.poll at h; dsimp only at h
    split at h
    · split at h
      · simp only [Option.some.injEq, Prod.mk.injEq] at h; rw [← h.2]; constructor <;> simp [ConnInput.act]
      · cases h
    · cases h
  | eof => simp only [Conn.poll, Option.some.injEq, Prod.mk.injEq] at h; rw [← h.2]; constructor <;> simp [ConnInput.act]
  | decodeErr e =>
    simp only [Conn.poll, Option.some.injEq, Prod.mk.injEq] at h; rw [← h.2]; constructor <;> simp [ConnInput.act]
  | message m g =>
    simp only [Conn.poll, Option.some.injEq, Prod.mk.injEq] at h; rw [← h.2]
    cases m <;> constructor <;> simp [Conn.receive, ConnInput.act]

/-! ## Where events come from -/

theorem updateEvent_cases (u : Update) (g : Ignored) :
    (∃ n, updateEvent u g = .updateErr n) ∨ updateEvent u g = .update u (updateTreatment g) := by
  unfold updateEvent; dsimp only
  split
  · exact .inl ⟨_, rfl⟩
  · split
    · exact .inl ⟨_, rfl⟩
    · split
      · exact .inl ⟨_, rfl⟩
      · split
        · exact .inl ⟨_, rfl⟩
        · exact .inr rfl

theorem openEvent_cases (o : Open) (a : Option UInt32) (d : Bool) :
    (∃ b, a = some b ∧ b ≠ o.myAsn4 ∧ openEvent o a d = .openErr ⟨.openMsg, 2, u32be b, rfl⟩) ∨
    ((∀ b, a = some b → b = o.myAsn4) ∧ openEvent o a d = if d then .openWithDelayTimer o else .open o) := by
  unfold openEvent
  cases a with
  | none => right; exact ⟨nofun, rfl⟩
  | some b =>
    by_cases h : b = o.myAsn4
    · right; refine ⟨fun b' hb => by cases hb; exact h, ?_⟩
      simp [h]
    · left; exact ⟨b, rfl, h, by simp [h]⟩

/-- an OPEN event comes from an OPEN message of the expected AS -/
theorem poll_open {t i} {c c1 : Conn} {ev o} (h : c.poll t i = some (ev, c1))
    (he : ev = .open o ∨ ev = .openWithDelayTimer o) :
    (∃ g, i = .message (.open o) g) ∧ (∀ a, c.peerAsn = some a → a = o.myAsn4) := by
  cases i with
  | keepAliveTick =>
    unfold Conn.poll at h; dsimp only at h
    split at h
    · split at h
      · simp only [Option.some.injEq, Prod.mk.injEq] at h; rcases he with he | he <;> rw [he] at h <;> cases h.1
      · cases h
    · cases h
  | openDelayTick =>
    unfold Conn.poll at h; dsimp only at h
    split at h
    · split at h
      · simp only [Option.some.injEq, Prod.mk.injEq] at h; rcases he with he | he <;> rw [he] at h <;> cases h.1
      · cases h
    · cases h
  | holdTick =>
    unfold Conn.poll at h; dsimp only at h
    split at h
    · split at h
      · simp only [Option.some.injEq, Prod.mk.injEq] at h; rcases he with he | he <;> rw [he] at h <;> cases h.1
      · cases h
    · cases h
  | eof =>
    simp only [Conn.poll, Option.some.injEq, Prod.mk.injEq] at h; rcases he with he | he <;> rw [he] at h <;> cases h.1
  | decodeErr e =>
    simp only [Conn.poll, Option.some.injEq, Prod.mk.injEq] at h
    rcases he with he | he <;> rw [he] at h <;> (cases e with
      | io => cases h.1
      | incomplete => cases h.1
      | parsing e => cases e <;> cases h.1)
  | message m g =>
    simp only [Conn.poll, Option.some.injEq, Prod.mk.injEq] at h
    cases m with
    | «open» o' =>
      have h1 : openEvent o' c.peerAsn c.openDelay.isSome = ev := h.1
      rcases openEvent_cases o' c.peerAsn c.openDelay.isSome with ⟨b, _, _, e⟩ | ⟨hb, e⟩
      · rw [e] at h1; rcases he with he | he <;> rw [he] at h1 <;> cases h1
      · rw [e] at h1
        have : o' = o := by
          split at h1
          · rcases he with he | he <;> rw [he] at h1 <;> cases h1; rfl
          · rcases he with he | he <;> rw [he] at h1 <;> cases h1; rfl
        subst this
        exact ⟨⟨g, rfl⟩, hb⟩
    | update u =>
      have h1 : updateEvent u g = ev := h.1
      rcases updateEvent_cases u g with ⟨n, e⟩ | e <;> rw [e] at h1 <;> rcases he with he | he <;> rw [he] at h1 <;>
        cases h1
    | notification n =>
      have h1 : (if n.kind = .openMsg ∧ n.sub = 1 then .notifVerErr else .notif n) = ev := h.1
      split at h1 <;> rcases he with he | he <;> rw [he] at h1 <;> cases h1
    | routeRefresh r =>
      have h1 : ConnEvent.routeRefresh r = ev := h.1
      rcases he with he | he <;> rw [he] at h1 <;> cases h1
    | keepAlive =>
      have h1 : ConnEvent.keepAlive = ev := h.1
      rcases he with he | he <;> rw [he] at h1 <;> cases h1

/-- a KEEPALIVE event comes from a KEEPALIVE message -/
theorem poll_keepAlive {t i} {c c1 : Conn} (h : c.poll t i = some (.keepAlive, c1)) :
    ∃ g, i = .message .keepAlive g := by
  cases i with
  | keepAliveTick =>
    unfold Conn.poll at h; dsimp only at h
    split at h
    · split at h
      · simp only [Option.some.injEq, Prod.mk.injEq] at h; cases h.1
      · cases h
    · cases h
  | openDelayTick =>
    unfold Conn.poll at h; dsimp only at h
    split at h
    · split at h
      · simp only [Option.some.injEq, Prod.mk.injEq] at h; cases h.1
      · cases h
    · cases h
  | holdTick =>
    unfold Conn.poll at h; dsimp only at h
    split at h
    · split at h
      · simp only [Option.some.injEq, Prod.mk.injEq] at h; cases h.1
      · cases h
    · cases h
  | eof => simp only [Conn.poll, Option.some.injEq, Prod.mk.injEq] at h; cases h.1
  | decodeErr e =>
    simp only [Conn.poll, Option.some.injEq, Prod.mk.injEq] at h
    cases e with
      | io => cases h.1
      | incomplete => cases h.1
      | parsing e => cases e <;> cases h.1
  | message m g =>
    simp only [Conn.poll, Option.some.injEq, Prod.mk.injEq] at h
    cases m with
    | «open» o' =>
      have h1 : openEvent o' c.peerAsn c.openDelay.isSome = .keepAlive := h.1
      rcases openEvent_cases o' c.peerAsn c.openDelay.isSome with ⟨b, _, _, e⟩ | ⟨hb, e⟩
      · rw [e] at h1; cases h1
      · rw [e] at h1; split at h1 <;> cases h1
    | update u =>
      have h1 : updateEvent u g = .keepAlive := h.1
      rcases updateEvent_cases u g with ⟨n, e⟩ | e <;> rw [e] at h1 <;> cases h1
    | notification n =>
      have h1 : (if n.kind = .openMsg ∧ n.sub = 1 then .notifVerErr else .notif n) = ConnEvent.keepAlive := h.1
      split at h1 <;> cases h1
    | routeRefresh r => exact nomatch h.1
    | keepAlive => exact ⟨g, rfl⟩

/-- polling yields no event of the TCP handshake -/
theorem poll_tcp {t i} {c c1 : Conn} {ev} (h : c.poll t i = some (ev, c1)) :
    ev ≠ .tcpRequestAcked ∧ ev ≠ .tcpConfirmed := by
  cases i with
  | keepAliveTick =>
    unfold Conn.poll at h; dsimp only at h
    split at h
    · split at h
      · simp only [Option.some.injEq, Prod.mk.injEq] at h; rw [← h.1]; exact ⟨nofun, nofun⟩
      · cases h
    · cases h
  | openDelayTick =>
    unfold Conn.poll at h; dsimp only at h
    split at h
    · split at h
      · simp only [Option.some.injEq, Prod.mk.injEq] at h; rw [← h.1]; exact ⟨nofun, nofun⟩
      · cases h
    · cases h
  | holdTick =>
    unfold Conn.poll at h; dsimp only at h
    split at h
    · split at h
      · simp only [Option.some.injEq, Prod.mk.injEq] at h; rw [← h.1]; exact ⟨nofun, nofun⟩
      · cases h
    · cases h
  | eof => simp only [Conn.poll, Option.some.injEq, Prod.mk.injEq] at h; rw [← h.1]; exact ⟨nofun, nofun⟩
  | decodeErr e =>
    simp only [Conn.poll, Option.some.injEq, Prod.mk.injEq] at h
    rw [← h.1]
    cases e with
      | io => exact ⟨nofun, nofun⟩
      | incomplete => exact ⟨nofun, nofun⟩
      | parsing e => cases e <;> exact ⟨nofun, nofun⟩
  | message m g =>
    simp only [Conn.poll, Option.some.injEq, Prod.mk.injEq] at h
    rw [← h.1]
    cases m with
    | «open» o' =>
      show openEvent o' c.peerAsn c.openDelay.isSome ≠ _ ∧ openEvent o' c.peerAsn c.openDelay.isSome ≠ _
      rcases openEvent_cases o' c.peerAsn c.openDelay.isSome with ⟨b, _, _, e⟩ | ⟨hb, e⟩
      · rw [e]; exact ⟨nofun, nofun⟩
      · rw [e]; split <;> exact ⟨nofun, nofun⟩
    | update u =>
      show updateEvent u g ≠ _ ∧ updateEvent u g ≠ _
      rcases updateEvent_cases u g with ⟨n, e⟩ | e <;> rw [e] <;> exact ⟨nofun, nofun⟩
    | notification n =>
      show (if n.kind = .openMsg ∧ n.sub = 1 then ConnEvent.notifVerErr else .notif n) ≠ _ ∧
        (if n.kind = .openMsg ∧ n.sub = 1 then ConnEvent.notifVerErr else .notif n) ≠ _
      split <;> exact ⟨nofun, nofun⟩
    | routeRefresh r => exact ⟨nofun, nofun⟩
    | keepAlive => exact ⟨nofun, nofun⟩

/-! ## The handshake -/

theorem sendThen_ind {P : Conn → Prop} {o t m} {c : Conn} {k} (h : P (c.afterSend o t m))
    (hk : o = .ok → P (k (c.startSend t m)).2) : P (c.sendThen o t m k).2 := by
  unfold Conn.sendThen
  cases o with
  | ok => exact hk rfl
  | failed => exact h
  | cancelled => exact h

theorem trySend_ind {P : Conn → Prop} {o t m} {c : Conn} {k} (h : P (c.afterSend o t m))
    (hk : P (k (c.afterSend o t m)).2) : P (c.trySend o t m k).2 := by
  unfold Conn.trySend
  cases o with
  | ok => exact hk
  | failed => exact hk
  | cancelled => exact h

/-- an OPEN of the expected AS was received and, later, a KEEPALIVE sent; an OPEN was sent before that KEEPALIVE -/
def Confirmed (asn : Option UInt32) (tr : List Act) (o : Open) : Prop :=
  (∀ a, asn = some a → o.myAsn4 = a) ∧
  ∃ a b c, tr = a ++ .received (.open o) :: (b ++ .sent .keepAlive :: c) ∧ ∃ op, .sent (.open op) ∈ a ++ b

theorem Confirmed.append {asn tr o} (h : Confirmed asn tr o) (x : List Act) : Confirmed asn (tr ++ x) o := by
  obtain ⟨h1, a, b, c, e, op⟩ := h
  exact ⟨h1, a, b, c ++ x, by simp [e], op⟩

/-- the hold time two speakers agree on: the smaller one -/
def agreedHold (cfg : ConnConfig) (o : Open) : Nat := min cfg.hold.toNat o.hold.toNat

/-- the timers of a connection on which `o` was received -/
structure Timers (cfg : ConnConfig) (t : Nat) (o : Open) (c : Conn) : Prop where
  hold : agreedHold cfg o ≠ 0 → ∃ T, c.hold = some T ∧ T.period = agreedHold cfg o * sec ∧ T.next ≤ t + T.period
  keepAlive : agreedHold cfg o ≠ 0 → ∃ K, c.keepAlive = some K ∧
    K.period = agreedHold cfg o * sec / 3 * c.jitter / 2 ^ 24 ∧ K.next ≤ t + K.period

/-- what is known about a connection in each state -/
def StateInv (cfg : ConnConfig) (asn : Option UInt32) (t : Nat) (c : Conn) : Prop :=
  match c.state with
  | .openSent => ∃ op, .sent (.open op) ∈ c.trace
  | .openConfirm => ∃ o, Confirmed asn c.trace o ∧ Timers cfg t o c
  | .established =>
    ∃ o pre post, c.trace = pre ++ .received .keepAlive :: post ∧ Confirmed asn pre o ∧ Timers cfg t o c
  | .connected | .terminate => True

structure Inv (cfg : ConnConfig) (asn : Option UInt32) (t : Nat) (c : Conn) : Prop where
  config : c.config = cfg
  peer : ∀ a, asn = some a → c.peerAsn = some a
  st : StateInv cfg asn t c

theorem Timers.later {cfg t t' o c} (h : Timers cfg t o c) (ht : t ≤ t') : Timers cfg t' o c := by
  constructor
  · intro hm; obtain ⟨T, h1, h2, h3⟩ := h.hold hm; exact ⟨T, h1, h2, by omega⟩
  · intro hm; obtain ⟨T, h1, h2, h3⟩ := h.keepAlive hm; exact ⟨T, h1, h2, by omega⟩

theorem StateInv.later {cfg asn t t' c} (h : StateInv cfg asn t c) (ht : t ≤ t') : StateInv cfg asn t' c := by
  unfold StateInv at *
  split at h
  · exact h
  · obtain ⟨o, h1, h2⟩ := h; exact ⟨o, h1, h2.later ht⟩
  · obtain ⟨o, pre, post, h1, h2, h3⟩ := h; exact ⟨o, pre, post, h1, h2, h3.later ht⟩
  · trivial
  · trivial

theorem Timers.startSend {cfg t o c} (h : Timers cfg t o c) (m : Msg) : Timers cfg t o (c.startSend t m) := by
  constructor
  · intro hm; simpa using h.hold hm
  · intro hm
    obtain ⟨K, h1, h2, h3⟩ := h.keepAlive hm
    cases m with
    | «open» => exact ⟨K, h1, h2, h3⟩
    | notification => exact ⟨K, h1, h2, h3⟩
    | routeRefresh => exact ⟨K, h1, h2, h3⟩
    | update => exact ⟨K.reset t, by simp [Conn.startSend, h1], h2, by simp [Timer.reset]⟩
    | keepAlive => exact ⟨K.reset t, by simp [Conn.startSend, h1], h2, by simp [Timer.reset]⟩

/-- growing the trace, with everything else the invariant looks at unchanged -/
theorem StateInv.grow {cfg asn t c c'} (h : StateInv cfg asn t c) (x : List Act) (hs : c'.state = c.state)
    (ht : c'.trace = c.trace ++ x) (hT : ∀ o, Timers cfg t o c → Timers cfg t o c') : StateInv cfg asn t c' := by
  unfold StateInv at *
  rw [hs]
  split at h
  · obtain ⟨op, h⟩ := h; exact ⟨op, by rw [ht]; exact List.mem_append_left _ h⟩
  · obtain ⟨o, h1, h2⟩ := h; exact ⟨o, by rw [ht]; exact h1.append x, hT o h2⟩
  · obtain ⟨o, pre, post, h1, h2, h3⟩ := h
    exact ⟨o, pre, post ++ x, by rw [ht, h1]; simp, h2, hT o h3⟩
  · trivial
  · trivial

theorem Inv.later {cfg asn t t' c} (h : Inv cfg asn t c) (ht : t ≤ t') : Inv cfg asn t' c :=
  ⟨h.config, h.peer, h.st.later ht⟩

theorem Inv.startSend {cfg asn t c} (h : Inv cfg asn t c) (m : Msg) : Inv cfg asn t (c.startSend t m) :=
  ⟨by simp [h.config], by simpa using h.peer, h.st.grow [.sent m] (by simp) (by simp) fun _ hT => hT.startSend m⟩

theorem Inv.afterSend {cfg asn t c} (h : Inv cfg asn t c) (o : SendOut) (m : Msg) :
    Inv cfg asn t (c.afterSend o t m) := by
  unfold Conn.afterSend; split
  · exact h.startSend m
  · exact h

theorem Inv.terminate {cfg asn t c} (h : Inv cfg asn t c) : Inv cfg asn t (c.to .terminate) :=
  ⟨h.config, h.peer, trivial⟩

theorem poll_timers {cfg t i o} {c c1 : Conn} {ev} (h : c.poll t i = some (ev, c1)) (hT : Timers cfg t o c) :
    Timers cfg t o c1 := by
  cases i with
  | keepAliveTick =>
    unfold Conn.poll at h; dsimp only at h
    split at h
    · next T hk =>
      split at h
      · next hd =>
        simp only [Option.some.injEq, Prod.mk.injEq] at h; rw [← h.2]
        refine ⟨hT.hold, fun hm => ?_⟩
        obtain ⟨K, h1, h2, h3⟩ := hT.keepAlive hm
        rw [hk] at h1; cases h1
        exact ⟨T.tick, rfl, h2, by simp [Timer.tick]; omega⟩
      · cases h
    · cases h
  | openDelayTick =>
    unfold Conn.poll at h; dsimp only at h
    split at h
    · split at h
      · simp only [Option.some.injEq, Prod.mk.injEq] at h; rw [← h.2]; exact ⟨hT.hold, hT.keepAlive⟩
      · cases h
    · cases h
  | holdTick =>
    unfold Conn.poll at h; dsimp only at h
    split at h
    · next T hk =>
      split at h
      · next hd =>
        simp only [Option.some.injEq, Prod.mk.injEq] at h; rw [← h.2]
        refine ⟨fun hm => ?_, hT.keepAlive⟩
        obtain ⟨K, h1, h2, h3⟩ := hT.hold hm
        rw [hk] at h1; cases h1
        exact ⟨T.tick, rfl, h2, by simp [Timer.tick]; omega⟩
      · cases h
    · cases h
  | eof => simp only [Conn.poll, Option.some.injEq, Prod.mk.injEq] at h; rw [← h.2]; exact hT
  | decodeErr e => simp only [Conn.poll, Option.some.injEq, Prod.mk.injEq] at h; rw [← h.2]; exact hT
  | message m g =>
    simp only [Conn.poll, Option.some.injEq, Prod.mk.injEq] at h; rw [← h.2]
    cases m <;> exact ⟨hT.hold, hT.keepAlive⟩

theorem Inv.poll {cfg asn t i} {c c1 : Conn} {ev} (h : Inv cfg asn t c) (hp : c.poll t i = some (ev, c1)) :
    Inv cfg asn t c1 := by
  have hs := poll_same hp
  exact ⟨hs.config ▸ h.config, by rw [hs.peerAsn]; exact h.peer,
    h.st.grow i.act hs.state hs.trace fun _ hT => poll_timers hp hT⟩

/-- what starting the timers after an OPEN does -/
theorem startTimers_timers {t} {c : Conn} {o : Open} :
    Timers c.config t o (((({ c with openDelay := none }).readOpen o).negotiate).startTimers t) := by
  have hh : c.config.hold = 0 ↔ c.config.hold.toNat = 0 := by
    constructor
    · intro h; rw [h]; rfl
    · intro h; exact UInt16.toNat_inj.mp (by simpa using h)
  constructor
  · intro hm
    have h0 : ¬ c.config.hold = 0 := by rw [hh]; unfold agreedHold at hm; omega
    unfold Conn.negotiate Conn.readOpen Conn.startTimers
    simp only [h0, if_false]
    have h1 : ¬ (min c.config.hold.toNat o.hold.toNat * sec = 0) := by
      unfold agreedHold at hm; unfold sec; omega
    have h2 : ¬ (min c.config.hold.toNat o.hold.toNat * sec / 3 = 0) := by
      unfold agreedHold at hm; unfold sec; omega
    rw [if_neg h2]; dsimp only; rw [if_neg h1]
    exact ⟨_, rfl, rfl, Nat.le_refl _⟩
  · intro hm
    have h0 : ¬ c.config.hold = 0 := by rw [hh]; unfold agreedHold at hm; omega
    unfold Conn.negotiate Conn.readOpen Conn.startTimers
    simp only [h0, if_false]
    have h1 : ¬ (min c.config.hold.toNat o.hold.toNat * sec = 0) := by
      unfold agreedHold at hm; unfold sec; omega
    have h2 : ¬ (min c.config.hold.toNat o.hold.toNat * sec / 3 = 0) := by
      unfold agreedHold at hm; unfold sec; omega
    rw [if_neg h2]; dsimp only; rw [if_neg h1]
    exact ⟨_, rfl, rfl, Nat.le_refl _⟩

section
variable (t : Nat) (c : Conn)
theorem startTimers_state : (c.startTimers t).state = c.state := by
  unfold Conn.startTimers; dsimp only; split <;> split <;> rfl
theorem negotiate_state : c.negotiate.state = c.state := by unfold Conn.negotiate; split <;> rfl
theorem startTimers_config : (c.startTimers t).config = c.config := by
  unfold Conn.startTimers; dsimp only; split <;> split <;> rfl
theorem negotiate_config : c.negotiate.config = c.config := by unfold Conn.negotiate; split <;> rfl
theorem startTimers_peerAsn : (c.startTimers t).peerAsn = c.peerAsn := by
  unfold Conn.startTimers; dsimp only; split <;> split <;> rfl
theorem negotiate_peerAsn : c.negotiate.peerAsn = c.peerAsn := by unfold Conn.negotiate; split <;> rfl
theorem startTimers_trace : (c.startTimers t).trace = c.trace := by
  unfold Conn.startTimers; dsimp only; split <;> split <;> rfl
theorem negotiate_trace : c.negotiate.trace = c.trace := by unfold Conn.negotiate; split <;> rfl
theorem startTimers_peerHold : (c.startTimers t).peerHold = c.peerHold := by
  unfold Conn.startTimers; dsimp only; split <;> split <;> rfl
theorem negotiate_peerHold : c.negotiate.peerHold = c.peerHold := by unfold Conn.negotiate; split <;> rfl
theorem startTimers_jitter : (c.startTimers t).jitter = c.jitter := by
  unfold Conn.startTimers; dsimp only; split <;> split <;> rfl
theorem negotiate_jitter : c.negotiate.jitter = c.jitter := by unfold Conn.negotiate; split <;> rfl
theorem startTimers_active : (c.startTimers t).active = c.active := by
  unfold Conn.startTimers; dsimp only; split <;> split <;> rfl
theorem negotiate_active : c.negotiate.active = c.active := by unfold Conn.negotiate; split <;> rfl
theorem startTimers_openDelay : (c.startTimers t).openDelay = c.openDelay := by
  unfold Conn.startTimers; dsimp only; split <;> split <;> rfl
theorem negotiate_openDelay : c.negotiate.openDelay = c.openDelay := by unfold Conn.negotiate; split <;> rfl
theorem startTimers_peerBgpId : (c.startTimers t).peerBgpId = c.peerBgpId := by
  unfold Conn.startTimers; dsimp only; split <;> split <;> rfl
theorem negotiate_peerBgpId : c.negotiate.peerBgpId = c.peerBgpId := by unfold Conn.negotiate; split <;> rfl
end

/-- the connection after reading an OPEN and starting the timers -/
theorem opened_same (t : Nat) (c : Conn) (o : Open) :
    let c' := ((({ c with openDelay := none }).readOpen o).negotiate).startTimers t
    c'.state = c.state ∧ c'.config = c.config ∧ c'.peerAsn = some o.myAsn4 ∧ c'.trace = c.trace ∧
      c'.peerHold = some o.hold ∧ c'.jitter = c.jitter ∧ c'.active = c.active ∧ c'.openDelay = none ∧
      c'.peerBgpId = some o.bgpId := by
  dsimp only
  simp only [startTimers_state, negotiate_state, startTimers_config, negotiate_config, startTimers_peerAsn,
    negotiate_peerAsn, startTimers_trace, negotiate_trace, startTimers_peerHold, negotiate_peerHold,
    startTimers_jitter, negotiate_jitter, startTimers_active, negotiate_active, startTimers_openDelay,
    negotiate_openDelay, startTimers_peerBgpId, negotiate_peerBgpId]
  exact ⟨rfl, rfl, rfl, rfl, rfl, rfl, rfl, rfl, rfl⟩

theorem startHold_same (t : Nat) (c : Conn) : (c.startHold t).state = c.state ∧ (c.startHold t).config = c.config ∧
    (c.startHold t).peerAsn = c.peerAsn ∧ (c.startHold t).trace = c.trace := by
  unfold Conn.startHold; split <;> exact ⟨rfl, rfl, rfl, rfl⟩

theorem inv_connected {cfg asn t} {c : Conn} (hc : c.config = cfg) (ha : ∀ a, asn = some a → c.peerAsn = some a)
    (hs : c.state = .connected) : Inv cfg asn t c := ⟨hc, ha, by unfold StateInv; rw [hs]; trivial⟩

theorem inv_new (cfg asn t active j) : Inv cfg asn t (Conn.new active cfg asn j) :=
  inv_connected rfl (fun _ h => h) rfl

/-- sending the OPEN -/
theorem Inv.sendOpen {cfg asn t} {c : Conn} {op : Open} {o : SendOut} {ev} (h : Inv cfg asn t c)
    (hs : c.state = .connected) :
    Inv cfg asn t ((c.startHold t).sendThen o t (.open op) fun c => (.ok ev, c.to .openSent)).2 := by
  obtain ⟨h1, h2, h3, h4⟩ := startHold_same t c
  have hi : Inv cfg asn t (c.startHold t) :=
    inv_connected (h2 ▸ h.config) (by rw [h3]; exact h.peer) (h1.trans hs)
  refine sendThen_ind (hi.afterSend ..) fun _ => ?_
  refine ⟨by simpa [Conn.to] using hi.config, by simpa [Conn.to] using hi.peer, ?_⟩
  unfold StateInv
  exact ⟨op, by simp [Conn.to]⟩

theorem Inv.handleFirst {cfg asn t} {c : Conn} {op net ev} (h : Inv cfg asn t c) (hs : c.state = .connected)
    (he : ev = .tcpRequestAcked ∨ ev = .tcpConfirmed) : Inv cfg asn t (c.handle op net t ev).2 := by
  have key : Inv cfg asn t (if c.config.openDelay = 0 then
      (c.startHold t).sendThen (net 0) t (.open op) fun c => (.ok ev, c.to .openSent)
    else (.ok ev, { c with openDelay := some (.start (c.config.openDelay.toNat * sec) t) })).2 := by
    split
    · exact h.sendOpen hs
    · exact inv_connected h.config h.peer hs
  unfold Conn.handle; rw [hs]
  rcases he with he | he <;> subst he <;> exact key

theorem startTimers_timers' {cfg t} {c : Conn} {o : Open} (h : c.config = cfg) :
    Timers cfg t o (((({ c with openDelay := none }).readOpen o).negotiate).startTimers t) := by
  subst h; exact startTimers_timers

/-- reading an acceptable OPEN leaves the AS number as expected -/
theorem opened_peer {asn : Option UInt32} {t} {c : Conn} {o : Open} (ha : ∀ a, asn = some a → a = o.myAsn4) :
    ∀ a, asn = some a → (((({ c with openDelay := none }).readOpen o).negotiate).startTimers t).peerAsn = some a := by
  intro a h
  rw [(opened_same t c o).2.2.1, ha a h]

theorem Inv.handle {cfg asn t i} {c0 c : Conn} {op net ev} (h0 : Inv cfg asn t c0)
    (hp : c0.poll t i = some (ev, c)) : Inv cfg asn t (c.handle op net t ev).2 := by
  have h := h0.poll hp
  have hsame := poll_same hp
  have hopen : ∀ o, (ev = .open o ∨ ev = .openWithDelayTimer o) →
      c.trace = c0.trace ++ [.received (.open o)] ∧ ∀ a, asn = some a → a = o.myAsn4 := by
    intro o he
    obtain ⟨⟨g, hi⟩, ha⟩ := poll_open hp he
    refine ⟨by rw [hsame.trace, hi]; rfl, fun a hasn => ha a (h0.peer a hasn)⟩
  unfold Conn.handle
  cases hs : c.state with
  | terminate => exact h
  | connected =>
    show Inv cfg asn t (c.handleConnected op net t ev).2
    have htcp := poll_tcp hp
    cases ev with
    | tcpRequestAcked => exact absurd rfl htcp.1
    | tcpConfirmed => exact absurd rfl htcp.2
    | delayOpenTimerExpires => exact h.sendOpen hs
    | openWithDelayTimer o =>
      obtain ⟨htr, ha⟩ := hopen o (.inr rfl)
      obtain ⟨s1, s2, s3, s4, s5, s6, s7, s8, s9⟩ := opened_same t c o
      have ht := startTimers_timers' (t := t) (o := o) h.config
      have hpe := opened_peer (t := t) (c := c) ha
      show Inv cfg asn t (Conn.sendThen (net 0) t (.open op)
        (((({ c with openDelay := none }).readOpen o).negotiate).startTimers t) _).2
      generalize hc1 : ((({ c with openDelay := none }).readOpen o).negotiate).startTimers t = c1 at *
      have hi : Inv cfg asn t c1 := inv_connected (by rw [s2]; exact h.config) hpe (by rw [s1]; exact hs)
      refine sendThen_ind (hi.afterSend ..) fun _ => ?_
      refine sendThen_ind ((hi.startSend _).afterSend ..) fun _ => ?_
      refine ⟨by simpa [Conn.to] using hi.config, by simpa [Conn.to] using hi.peer, ?_⟩
      unfold StateInv
      show ∃ o, Confirmed asn _ o ∧ Timers cfg t o _
      have hT := ((ht.startSend (.open op)).startSend .keepAlive)
      refine ⟨o, ⟨fun a hasn => (ha a hasn).symm, c0.trace, [.sent (.open op)], [], ?_, op, by simp⟩, hT.hold, hT.keepAlive⟩
      simp [Conn.to, s4, htr]
    | headerErr n =>
      show Inv cfg asn t (if c.config.notifWithoutOpen then _ else _ : Out ConnEvent × Conn).2
      split
      · exact trySend_ind (h.afterSend ..) (h.afterSend ..).terminate
      · exact h.terminate
    | openErr n =>
      show Inv cfg asn t (if c.config.notifWithoutOpen then _ else _ : Out ConnEvent × Conn).2
      split
      · exact trySend_ind (h.afterSend ..) (h.afterSend ..).terminate
      · exact h.terminate
    | notifErr e => exact h
    | _ => exact h.terminate
  | openSent =>
    show Inv cfg asn t (c.handleOpenSent net t ev).2
    cases ev with
    | tcpRequestAcked => exact h.terminate
    | tcpConfirmed => exact h.terminate
    | holdTimerExpires => exact sendThen_ind (h.afterSend ..) fun _ => (h.startSend ..).terminate
    | «open» o =>
      obtain ⟨htr, ha⟩ := hopen o (.inl rfl)
      obtain ⟨s1, s2, s3, s4, s5, s6, s7, s8, s9⟩ := opened_same t c o
      have ht := startTimers_timers' (t := t) (o := o) h.config
      have hpe := opened_peer (t := t) (c := c) ha
      have hso : ∃ op, .sent (.open op) ∈ c0.trace := by
        have := h0.st; unfold StateInv at this; rw [← hsame.state, hs] at this; exact this
      obtain ⟨op', hop'⟩ := hso
      show Inv cfg asn t (Conn.sendThen (net 0) t .keepAlive
        (((({ c with openDelay := none }).readOpen o).negotiate).startTimers t) _).2
      generalize hc1 : ((({ c with openDelay := none }).readOpen o).negotiate).startTimers t = c1 at *
      have hi : Inv cfg asn t c1 := by
        refine ⟨by rw [s2]; exact h.config, hpe, ?_⟩
        unfold StateInv; rw [s1, hs]
        exact ⟨op', by rw [s4, htr]; exact List.mem_append_left _ hop'⟩
      refine sendThen_ind (hi.afterSend ..) fun _ => ?_
      refine ⟨by simpa [Conn.to] using hi.config, by simpa [Conn.to] using hi.peer, ?_⟩
      unfold StateInv
      show ∃ o, Confirmed asn _ o ∧ Timers cfg t o _
      have hT := ht.startSend .keepAlive
      refine ⟨o, ⟨fun a hasn => (ha a hasn).symm, c0.trace, [], [], ?_, op', by simpa using hop'⟩, hT.hold, hT.keepAlive⟩
      simp [Conn.to, s4, htr]
    | tcpFails => exact h.terminate
    | notifErr e => exact h
    | notifVerErr => exact h.terminate
    | _ => exact trySend_ind (h.afterSend ..) (h.afterSend ..).terminate
  | openConfirm =>
    show Inv cfg asn t (c.handleOpenConfirm net t ev).2
    cases ev with
    | holdTimerExpires => exact sendThen_ind (h.terminate.afterSend ..) fun _ => h.terminate.startSend (.notification holdNotif)
    | keepAliveTimerExpires => exact sendThen_ind (h.afterSend ..) fun _ => h.startSend .keepAlive
    | notifVerErr => exact h.terminate
    | notif n => exact h.terminate
    | tcpFails => exact h.terminate
    | notifErr e => exact h
    | tcpRequestAcked => exact h.terminate
    | tcpConfirmed => exact h.terminate
    | keepAlive =>
      obtain ⟨g, hi⟩ := poll_keepAlive hp
      have htr : c.trace = c0.trace ++ [.received .keepAlive] := by rw [hsame.trace, hi]; rfl
      have hst := h0.st
      unfold StateInv at hst; rw [← hsame.state, hs] at hst
      obtain ⟨o, hC, hT⟩ := hst
      have hT := poll_timers hp hT
      refine ⟨h.config, h.peer, ?_⟩
      unfold StateInv
      refine ⟨o, c0.trace, [], htr, hC, fun hm => ?_, hT.keepAlive⟩
      obtain ⟨T, h1, h2, h3⟩ := hT.hold hm
      exact ⟨T.reset t, by show c.hold.map _ = _; rw [h1]; rfl, h2, by simp [Timer.reset]⟩
    | _ => exact trySend_ind (h.afterSend ..) (h.afterSend ..).terminate
  | established =>
    show Inv cfg asn t (c.handleEstablished net t ev).2
    cases ev with
    | holdTimerExpires => exact trySend_ind (h.afterSend ..) (h.afterSend ..).terminate
    | keepAliveTimerExpires => exact sendThen_ind (h.afterSend ..) fun _ => h.startSend .keepAlive
    | keepAlive =>
      have hst := h.st
      unfold StateInv at hst; rw [hs] at hst
      obtain ⟨o, pre, post, htr, hC, hT⟩ := hst
      refine ⟨h.config, h.peer, ?_⟩
      have hs' : (c.handleEstablished net t .keepAlive).2.state = .established := hs
      unfold StateInv; rw [hs']
      refine ⟨o, pre, post, htr, hC, fun hm => ?_, hT.keepAlive⟩
      obtain ⟨T, h1, h2, h3⟩ := hT.hold hm
      exact ⟨T.reset t, by show c.hold.map _ = _; rw [h1]; rfl, h2, by simp [Timer.reset]⟩
    | update u tr => exact h
    | routeRefresh r => exact h
    | notifErr e => exact h
    | _ => exact h.terminate

/-- the invariant of every connection -/
theorem Life.inv {cfg asn t c} (h : Life cfg asn t c) : Inv cfg asn t c := by
  induction h with
  | first h => exact (inv_new ..).handleFirst rfl h
  | wait _ ht ih => exact ih.later ht
  | event _ hp ih => exact ih.handle hp
  | lost _ hp ih => exact ih.poll hp
  | sent _ ih => exact ih.startSend _

end Verif.Speaker
