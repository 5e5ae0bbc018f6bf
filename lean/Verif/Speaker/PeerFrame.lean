import Verif.Speaker.Run
/-!
# What the peer leaves alone, and the administrative state
-/
namespace Verif.Speaker
open Verif Verif.Bgp

/-! ## The state of a connection after an event -/

/-- the state of a connection after it handled an event of its own -/
def nextState : ConnState → ConnEvent → ConnState
  | .connected, .delayOpenTimerExpires => .openSent
  | .connected, .openWithDelayTimer _ => .openConfirm
  | .connected, .notifErr _ => .connected
  | .connected, _ => .terminate
  | .openSent, .open _ => .openConfirm
  | .openSent, .notifErr _ => .openSent
  | .openSent, _ => .terminate
  | .openConfirm, .keepAliveTimerExpires => .openConfirm
  | .openConfirm, .notifErr _ => .openConfirm
  | .openConfirm, .keepAlive => .established
  | .openConfirm, _ => .terminate
  | .established, .keepAliveTimerExpires => .established
  | .established, .keepAlive => .established
  | .established, .update .. => .established
  | .established, .routeRefresh _ => .established
  | .established, .notifErr _ => .established
  | .established, _ => .terminate
  | .terminate, _ => .terminate

theorem sendThen_ok {o n m} {c c2 : Conn} {k e} (h : c.sendThen o n m k = (.ok e, c2)) :
    k (c.afterSend o n m) = (.ok e, c2) := by
  unfold Conn.sendThen at h
  split at h
  · exact h
  · cases h
  · cases h

theorem trySend_ok {o n m} {c c2 : Conn} {k e} (h : c.trySend o n m k = (.ok e, c2)) :
    k (c.afterSend o n m) = (.ok e, c2) := by
  unfold Conn.trySend at h
  split at h
  · exact h
  · exact h
  · cases h

theorem handle_next {op net n ev e} {c c2 : Conn} (ht : ev ≠ .tcpRequestAcked ∧ ev ≠ .tcpConfirmed)
    (h : c.handle op net n ev = (.ok e, c2)) : e = ev ∧ c2.state = nextState c.state ev := by
  have fin : ∀ {x : ConnEvent} {y : Conn} {s}, ((.ok x, y) : Out ConnEvent × Conn) = (.ok e, c2) → x = ev → y.state = s →
      e = ev ∧ c2.state = s := by
    intro x y s hx he hs
    simp only [Prod.mk.injEq, Out.ok.injEq] at hx
    exact ⟨hx.1 ▸ he, hx.2 ▸ hs⟩
  unfold Conn.handle at h
  cases hs : c.state with
  | terminate => rw [hs] at h; exact fin h rfl hs
  | connected =>
    rw [hs] at h
    cases ev <;> dsimp only [Conn.handleConnected] at h <;>
      first
        | exact absurd rfl ht.1
        | exact absurd rfl ht.2
        | exact fin h rfl rfl
        | exact fin h rfl hs
        | (have h1 := sendThen_ok h; exact fin h1 rfl rfl)
        | (have h1 := sendThen_ok h; have h2 := sendThen_ok h1; exact fin h2 rfl rfl)
        | (split at h
           · (have h1 := trySend_ok h; exact fin h1 rfl rfl)
           · exact fin h rfl rfl)
  | openSent =>
    rw [hs] at h
    cases ev <;> dsimp only [Conn.handleOpenSent] at h <;>
      first
        | exact absurd rfl ht.1
        | exact absurd rfl ht.2
        | exact fin h rfl rfl
        | exact fin h rfl hs
        | (have h1 := sendThen_ok h; exact fin h1 rfl rfl)
        | (have h1 := trySend_ok h; exact fin h1 rfl rfl)
  | openConfirm =>
    rw [hs] at h
    cases ev <;> dsimp only [Conn.handleOpenConfirm] at h <;>
      first
        | exact absurd rfl ht.1
        | exact absurd rfl ht.2
        | exact fin h rfl rfl
        | exact fin h rfl hs
        | (have h1 := sendThen_ok h; exact fin h1 rfl (by simp [hs, nextState, Conn.to]))
        | (have h1 := trySend_ok h; exact fin h1 rfl rfl)
  | established =>
    rw [hs] at h
    cases ev <;> dsimp only [Conn.handleEstablished] at h <;>
      first
        | exact absurd rfl ht.1
        | exact absurd rfl ht.2
        | exact fin h rfl rfl
        | exact fin h rfl hs
        | (have h1 := sendThen_ok h; exact fin h1 rfl (by simp [hs, nextState]))
        | (have h1 := trySend_ok h; exact fin h1 rfl rfl)

/-- the FSM knows every transition a connection can make -/
theorem transit_total {p : Peer} {n b ev} (hb : b ≠ .terminate) (ht : ev ≠ .tcpRequestAcked ∧ ev ≠ .tcpConfirmed) :
    (p.transit n b (nextState b ev) ev).1 = .ok (.conn ev) := by
  cases b <;> cases ev <;>
    first
      | exact absurd rfl hb
      | exact absurd rfl ht.1
      | exact absurd rfl ht.2
      | rfl
      | (unfold Peer.transit nextState; dsimp only; split <;> rfl)

/-! ## Administrative state and queue -/

/-- what stays of a policy: the configured parts, and that no capability of the neighbour is FourOctetAs -/
structure PolSame (p q : Policy) : Prop where
  asn : q.myAsn = p.myAsn
  asn4 : q.asn4Default = p.asn4Default
  id : q.myBgpId = p.myBgpId
  hold : q.hold = p.hold
  caps : q.caps = p.caps
  reject : q.reject = p.reject
  peer : (∀ c ∈ p.peerCaps, c.code ≠ 65) → ∀ c ∈ q.peerCaps, c.code ≠ 65

theorem PolSame.refl (p : Policy) : PolSame p p := ⟨rfl, rfl, rfl, rfl, rfl, rfl, fun h => h⟩
theorem PolSame.trans {p q r : Policy} (h : PolSame p q) (h' : PolSame q r) : PolSame p r :=
  ⟨h'.1.trans h.1, h'.2.trans h.2, h'.3.trans h.3, h'.4.trans h.4, h'.5.trans h.5, h'.6.trans h.6, h'.7 ∘ h.7⟩

theorem PolSame.pre (p : Policy) (ev : ConnEvent) : PolSame p (p.pre ev) := by
  unfold Policy.pre
  split
  · exact ⟨rfl, rfl, rfl, rfl, rfl, rfl, fun _ c hc => by simpa using (List.mem_filter.mp hc).2⟩
  · exact ⟨rfl, rfl, rfl, rfl, rfl, rfl, fun _ c hc => by simpa using (List.mem_filter.mp hc).2⟩
  · exact .refl _

/-- the fields no event of a connection changes -/
structure Same (p q : Peer) : Prop where
  adminUp : q.adminUp = p.adminUp
  waiting : q.waiting = p.waiting
  config : q.config = p.config
  props : q.props = p.props
  policy : PolSame p.policy q.policy

theorem Same.refl (p : Peer) : Same p p := ⟨rfl, rfl, rfl, rfl, .refl _⟩
theorem Same.trans {p q r : Peer} (h : Same p q) (h' : Same q r) : Same p r :=
  ⟨h'.1.trans h.1, h'.2.trans h.2, h'.3.trans h.3, h'.4.trans h.4, h.5.trans h'.5⟩

theorem same_transit {p : Peer} {n b a ev} : Same p (p.transit n b a ev).2 := by
  unfold Peer.transit
  dsimp only
  cases b <;> cases a <;> cases ev <;> dsimp only
  all_goals
    repeat' with_reducible first
      | exact Same.mk rfl rfl rfl rfl (PolSame.refl _)
      | split

theorem same_addConnection {p : Peer} {c} : Same p (p.addConnection c) := by
  unfold Peer.addConnection; split <;> exact ⟨rfl, rfl, rfl, rfl, .refl _⟩

theorem same_sendMain {p : Peer} {o n m} : Same p (p.sendMain o n m).2 := by
  unfold Peer.sendMain; split <;> exact ⟨rfl, rfl, rfl, rfl, .refl _⟩

theorem same_sendTracked {p : Peer} {o n m} : Same p (p.sendTracked o n m).2 := by
  unfold Peer.sendTracked; split <;> exact ⟨rfl, rfl, rfl, rfl, .refl _⟩

theorem same_accept {p : Peer} {net n j} : Same p (p.accept net n j).2 := by
  unfold Peer.accept
  split
  · split
    · split <;> exact .refl _
    · exact .refl _
  · dsimp only
    have h : Same p p.stopRetry := ⟨rfl, rfl, rfl, rfl, .refl _⟩
    split
    · exact h.trans same_addConnection
    · exact h
    · exact h

theorem same_connected {p : Peer} {net n r} : Same p (p.connected net n r).2 := by
  have h : Same p p.stopRetry := ⟨rfl, rfl, rfl, rfl, .refl _⟩
  unfold Peer.connected
  cases r with
  | none => exact h
  | some j =>
    dsimp only
    split
    · exact h.trans same_addConnection
    · exact h
    · exact h

theorem same_handleConnEvent {p : Peer} {net n ev} : Same p (p.handleConnEvent net n ev).2 := by
  unfold Peer.handleConnEvent
  split
  · split <;> exact ⟨rfl, rfl, rfl, rfl, .refl _⟩
  · dsimp only
    split
    · refine Same.trans ?_ same_transit; exact ⟨rfl, rfl, rfl, rfl, .pre _ _⟩
    · exact ⟨rfl, rfl, rfl, rfl, .pre _ _⟩
    · exact ⟨rfl, rfl, rfl, rfl, .pre _ _⟩

theorem same_dropMain {p : Peer} {net n} : Same p (p.dropMain net n).2 := by
  unfold Peer.dropMain
  split
  · exact .refl _
  · split
    · exact ⟨rfl, rfl, rfl, rfl, .refl _⟩
    · next s _ =>
      dsimp only
      have h := same_sendMain (p := { p.count with tracked := none }.to s) (o := net 0) (n := n)
        (m := .notification Peer.collisionNotif)
      have h0 : Same p ({ p.count with tracked := none }.to s) := ⟨rfl, rfl, rfl, rfl, .refl _⟩
      have h := h0.trans h
      split
      · next e => rw [e] at h; exact ⟨h.1, h.2, h.3, h.4, h.5⟩
      · next e => rw [e] at h; exact ⟨h.1, h.2, h.3, h.4, h.5⟩

theorem same_dropLoser {p : Peer} {net n} : Same p (p.dropLoser net n).2 := by
  unfold Peer.dropLoser
  have h := same_sendTracked (p := p) (o := net 0) (n := n) (m := .notification Peer.collisionNotif)
  split
  · next e => rw [e] at h; exact ⟨h.1, h.2, h.3, h.4, h.5⟩
  · next e => rw [e] at h; exact ⟨h.1, h.2, h.3, h.4, h.5⟩

theorem same_userSend {p : Peer} {net n m} : Same p (p.userSend net n m).2 := by
  unfold Peer.userSend
  dsimp only
  have h1 : Same p (match p.tracked with
    | none => p
    | some c => if net 0 = SendOut.ok then { p with tracked := some (c.afterSend (net 0) n m) }
      else Peer.dropTracked { p with tracked := some (c.afterSend (net 0) n m) }) := by
    split
    · exact .refl _
    · split <;> exact ⟨rfl, rfl, rfl, rfl, .refl _⟩
  have key : ∀ p1 : Peer, Same p1 (match p1.conn with
      | none => ((.ok () : Except FsmErr Unit), p1)
      | some c => (if net 1 = SendOut.ok then .ok () else .error .writing,
        { p1 with conn := some (c.afterSend (net 1) n m) })).2 := by
    intro p1
    split <;> exact ⟨rfl, rfl, rfl, rfl, .refl _⟩
  exact h1.trans (key _)

theorem same_afterCheck {p : Peer} {net n h k f} (hf : Same p (f p).1.peer) :
    Same p (Sys.afterCheck net n h k p f).1.peer := by
  unfold Sys.afterCheck
  split
  · rw [returned_peer]; exact same_dropMain
  · rw [returned_peer]; exact same_dropLoser
  · exact same_sendTracked
  · exact hf

/-- only administrative requests and commands change the administrative state and the queue -/
theorem same_step {s l s' r} (h : Step s l s' r) (ha : ∀ a, l ≠ .admin a) (hc : ∀ net, l ≠ .call net) :
    Same s.peer s'.peer := by
  cases h with
  | time => exact .refl _
  | admin => exact absurd rfl (ha _)
  | userOk _ _ e => show Same s.peer _; rw [snd_of e]; exact same_userSend
  | userErr _ _ e => show Same s.peer _; rw [snd_of e]; exact same_userSend
  | callNone => exact absurd rfl (hc _)
  | callEvent => exact absurd rfl (hc _)
  | callOn => exact absurd rfl (hc _)
  | callErr => exact absurd rfl (hc _)
  | callCancelled => exact absurd rfl (hc _)
  | drop => exact .refl _
  | connect => exact ⟨rfl, rfl, rfl, rfl, .refl _⟩
  | connected _ hr => rw [fst_of hr, returned_peer]; exact same_connected
  | retry _ _ _ hr => rw [fst_of hr, returned_peer]; split <;> exact ⟨rfl, rfl, rfl, rfl, .refl _⟩
  | @main i net hid k c c1 ev _ _ _ _ _ hr =>
    rw [fst_of hr]
    have h0 : Same s.peer { s.peer with conn := some c1 } := ⟨rfl, rfl, rfl, rfl, .refl _⟩
    refine h0.trans (same_afterCheck ?_)
    rw [returned_peer]; exact same_handleConnEvent
  | trackedCancelled => exact ⟨rfl, rfl, rfl, rfl, .pre _ _⟩
  | @tracked i net k c c1 c2 ev x _ _ _ _ _ _ _ _ _ hr =>
    rw [fst_of hr]
    have h0 : Same s.peer { s.peer with policy := s.peer.policy.pre ev, tracked := some c2 } := ⟨rfl, rfl, rfl, rfl, .pre _ _⟩
    exact h0.trans (same_afterCheck (.refl _))

theorem start_same (p : Peer) (n) : (p.start n).config = p.config ∧ (p.start n).props = p.props ∧
    (p.start n).waiting = p.waiting ∧ (p.start n).adminUp = true := by
  unfold Peer.start; dsimp only; split
  · exact ⟨rfl, rfl, rfl, rfl⟩
  · split <;> exact ⟨rfl, rfl, rfl, rfl⟩

theorem startEvent_same (p : Peer) (a b n) : (p.startEvent a b n).2.config = p.config ∧
    (p.startEvent a b n).2.props = p.props ∧ (p.startEvent a b n).2.waiting = p.waiting := by
  obtain ⟨h1, h2, h3, -⟩ := start_same p n
  unfold Peer.startEvent
  split
  · exact ⟨rfl, rfl, rfl⟩
  · split <;> exact ⟨h1, h2, h3⟩

theorem shutdown_same (p : Peer) (net n) : (p.shutdown net n).2.config = p.config ∧
    (p.shutdown net n).2.props = p.props ∧ (p.shutdown net n).2.waiting = p.waiting ∧
    (p.shutdown net n).2.adminUp = false := by
  unfold Peer.shutdown
  have h1 := same_sendMain (p := { p.stopRetry with adminUp := false }.to .idle) (o := net 0) (n := n)
    (m := .notification Peer.shutdownNotif)
  split
  · next e => rw [e] at h1; exact ⟨h1.config, h1.props, h1.waiting, h1.adminUp⟩
  · next p1 e =>
    rw [e] at h1
    have h0 : Same p1 p1.dropConn := ⟨rfl, rfl, rfl, rfl, .refl _⟩
    have h2 := (h1.trans h0).trans (same_sendTracked (p := p1.dropConn) (o := net 1) (n := n)
      (m := .notification Peer.shutdownNotif))
    split
    · next e => rw [e] at h2; exact ⟨h2.config, h2.props, h2.waiting, h2.adminUp⟩
    · next e => rw [e] at h2; exact ⟨h2.config, h2.props, h2.waiting, h2.adminUp⟩

/-- what no command changes -/
theorem admin_same {p q : Peer} {net n a o} (he : p.admin net n a = (o, q)) :
    q.config = p.config ∧ q.props = p.props ∧ q.waiting = p.waiting := by
  unfold Peer.admin at he
  cases a with
  | manualStart => dsimp only at he; rw [snd_of he]; exact startEvent_same ..
  | autoStart => dsimp only at he; rw [snd_of he]; exact startEvent_same ..
  | accept j => rw [snd_of he]; have := same_accept (p := p) (net := net) (n := n) (j := j); exact ⟨this.config, this.props, this.waiting⟩
  | manualStop =>
    obtain ⟨h1, h2, h3, -⟩ := shutdown_same p net n
    dsimp only at he
    split at he <;> (next e => rw [e] at h1 h2 h3; rw [snd_of he]; exact ⟨h1, h2, h3⟩)
  | autoStop =>
    obtain ⟨h1, h2, h3, -⟩ := shutdown_same p net n
    dsimp only at he
    split at he <;> (next e => rw [e] at h1 h2 h3; rw [snd_of he]; exact ⟨h1, h2, h3⟩)

/-- nothing changes the configuration -/
theorem step_config {s l s' r} (h : Step s l s' r) : s'.peer.config = s.peer.config ∧ s'.peer.props = s.peer.props := by
  by_cases hl : (∀ a, l ≠ .admin a) ∧ ∀ net, l ≠ .call net
  · have := same_step h hl.1 hl.2; exact ⟨this.config, this.props⟩
  · cases h with
    | admin => exact ⟨rfl, rfl⟩
    | callNone => exact ⟨rfl, rfl⟩
    | callEvent _ _ e => have := admin_same e; exact ⟨this.1, this.2.1⟩
    | callOn _ _ e => have := admin_same e; exact ⟨this.1, this.2.1⟩
    | callErr _ _ e => have := admin_same e; exact ⟨this.1, this.2.1⟩
    | callCancelled _ _ e => have := admin_same e; exact ⟨this.1, this.2.1⟩
    | _ => exact absurd (And.intro (fun _ h => nomatch h) (fun _ h => nomatch h)) hl

/-- computed executions without open delay in which every message is written are calm -/
theorem runs_calm {s ls u rs} (hd : s.peer.config.openDelay = 0)
    (hl : ∀ l ∈ ls, match l with
      | .call net | .main _ net | .tracked _ net => net = fun _ => .ok
      | _ => True)
    (h : runs s ls = some (u, rs)) : ExecIf Calm s (ls.zip rs) u := by
  induction ls generalizing s rs with
  | nil => cases h; exact .nil _
  | cons l ls ih =>
    obtain ⟨t, r, rs', hs, hr, e⟩ := runs_cons h
    subst e
    have hc := hl l (by simp)
    refine .cons ?_ hs (ih ?_ (fun l hl' => hl l (by simp [hl'])) hr)
    · cases l with
      | call net => exact ⟨fun k => by rw [show net = _ from hc]; rfl, fun _ => .inr hd⟩
      | main i net => exact fun k => by rw [show net = _ from hc]; rfl
      | tracked i net => exact fun k => by rw [show net = _ from hc]; rfl
      | _ => trivial
    · rw [(step_config (step_inv hs)).1]; exact hd

theorem admin_policy {p q : Peer} {net n a o} (he : p.admin net n a = (o, q)) : PolSame p.policy q.policy := by
  have hst : ∀ {a b}, (p.startEvent a b n).2.policy = p.policy := by
    intro a b
    have : (p.start n).policy = p.policy := by unfold Peer.start; dsimp only; split; rfl; split <;> rfl
    unfold Peer.startEvent
    split
    · rfl
    · split <;> exact this
  have hsh : PolSame p.policy (p.shutdown net n).2.policy := by
    unfold Peer.shutdown
    have h1 := same_sendMain (p := { p.stopRetry with adminUp := false }.to .idle) (o := net 0) (n := n)
      (m := .notification Peer.shutdownNotif)
    split
    · next e => rw [e] at h1; exact h1.policy
    · next p1 e =>
      rw [e] at h1
      have h0 : Same p1 p1.dropConn := ⟨rfl, rfl, rfl, rfl, .refl _⟩
      have h2 := (h1.trans h0).trans (same_sendTracked (p := p1.dropConn) (o := net 1) (n := n)
        (m := .notification Peer.shutdownNotif))
      split
      · next e => rw [e] at h2; exact h2.policy
      · next e => rw [e] at h2; exact h2.policy
  unfold Peer.admin at he
  cases a with
  | manualStart => dsimp only at he; rw [snd_of he, hst]; exact .refl _
  | autoStart => dsimp only at he; rw [snd_of he, hst]; exact .refl _
  | accept j => rw [snd_of he]; exact (same_accept (p := p) (net := net) (n := n) (j := j)).policy
  | manualStop =>
    dsimp only at he
    split at he <;> (next e => rw [e] at hsh; rw [snd_of he]; exact hsh)
  | autoStop =>
    dsimp only at he
    split at he <;> (next e => rw [e] at hsh; rw [snd_of he]; exact hsh)

/-- the policy of a peer in every execution -/
theorem policy_exec {props cfg pol tr s} (h : Sys.Exec (Sys.init props cfg pol) tr s) : PolSame pol s.peer.policy := by
  generalize hi : Sys.init props cfg pol = i at h
  induction h with
  | nil => subst hi; exact .refl _
  | @snoc t u _ l r _ hs ih =>
    refine ih.trans ?_
    have hst := step_inv hs
    by_cases hl : (∀ a, l ≠ .admin a) ∧ ∀ net, l ≠ .call net
    · exact (same_step hst hl.1 hl.2).policy
    · cases hst with
      | admin => exact .refl _
      | callNone => exact .refl _
      | callEvent _ _ e => have := admin_policy e; exact this
      | callOn _ _ e => have := admin_policy e; exact this
      | callErr _ _ e => have := admin_policy e; exact this
      | callCancelled _ _ e => have := admin_policy e; exact this
      | _ => exact absurd (And.intro (fun _ h => nomatch h) (fun _ h => nomatch h)) hl

/-- nothing is left of a session -/
structure Down (p : Peer) : Prop where
  fsm : p.fsm = .idle
  conn : p.conn = none
  tracked : p.tracked = none
  retry : p.retry = none

/-- a peer that is administratively down has nothing left of a session -/
def UpSys (s : Sys) : Prop := s.peer.adminUp = false → Down s.peer ∧ ∀ h b, s.phase ≠ .select h b true

/-- an operation of `run` is not dropped while it waits for a message to be written -/
def Patient : Label → Prop
  | .call net | .main _ net | .tracked _ net => ∀ k, (net k).isCancelled = false
  | _ => True

theorem Calm.patient {s l} (h : Calm s l) : Patient l := by
  cases l <;> first | exact h.1 | exact h | trivial

theorem userSend_down {p : Peer} (h : Down p) {net n m} : p.userSend net n m = (.ok (), p) := by
  unfold Peer.userSend; rw [h.tracked]; dsimp only; rw [h.conn]

theorem admin_up {p q : Peer} {net n a o} (hn : ∀ k, (net k).isCancelled = false)
    (h : p.adminUp = false → Down p) (he : p.admin net n a = (o, q)) : q.adminUp = false → Down q := by
  have hst : ∀ {a b x q}, p.startEvent a b n = (x, q) → q.adminUp = false → Down q := by
    intro a b x q he hq
    unfold Peer.startEvent at he
    split at he
    · rw [snd_of he] at hq ⊢; exact h hq
    · next hf =>
      exfalso
      have hs : (p.start n).adminUp = true := by unfold Peer.start; dsimp only; split; rfl; split <;> rfl
      split at he
      · rw [snd_of he] at hq; exact absurd (hs.symm.trans hq) (by simp)
      · rw [snd_of he] at hq; exact absurd (hs.symm.trans hq) (by simp)
  unfold Peer.admin at he
  cases a with
  | manualStart => dsimp only at he; rw [snd_of he]; exact hst rfl
  | autoStart => dsimp only at he; rw [snd_of he]; exact hst rfl
  | accept j =>
    intro hq
    have hs := same_accept (p := p) (net := net) (n := n) (j := j)
    have he : p.accept net n j = (o, q) := he
    rw [he] at hs
    have hp := hs.adminUp.symm.trans hq
    have hq : q = p := by
      unfold Peer.accept at he
      rw [if_pos (by simp [hp])] at he
      split at he
      · split at he <;> exact snd_of he
      · exact snd_of he
    rw [hq]; exact h hp
  | manualStop =>
    dsimp only at he
    intro _
    split at he <;>
      (next e => rw [snd_of he]; obtain ⟨h1, h2, h3, h4, -⟩ := Coh.shutdown hn e; exact ⟨h3, h1, h2, h4⟩)
  | autoStop =>
    dsimp only at he
    intro _
    split at he <;>
      (next e => rw [snd_of he]; obtain ⟨h1, h2, h3, h4, -⟩ := Coh.shutdown hn e; exact ⟨h3, h1, h2, h4⟩)

theorem UpSys.step {s l s' r} (h : UpSys s) (hc : Patient l) (hs : Step s l s' r) : UpSys s' := by
  by_cases hl : (∀ a, l ≠ .admin a) ∧ ∀ net, l ≠ .call net
  · have hsame := same_step hs hl.1 hl.2
    intro hd
    obtain ⟨hD, hph'⟩ := h (hsame.adminUp.symm.trans hd)
    cases hs with
    | time => exact ⟨hD, hph'⟩
    | admin => exact absurd rfl (hl.1 _)
    | userOk hph _ e =>
      rw [userSend_down hD] at e; cases e; exact ⟨hD, hph'⟩
    | userErr hph _ e => rw [userSend_down hD] at e; cases e
    | callNone => exact absurd rfl (hl.2 _)
    | callEvent => exact absurd rfl (hl.2 _)
    | callOn => exact absurd rfl (hl.2 _)
    | callErr => exact absurd rfl (hl.2 _)
    | callCancelled => exact absurd rfl (hl.2 _)
    | drop => exact ⟨hD, fun _ _ h => nomatch h⟩
    | connect _ hf => rw [hD.fsm] at hf; cases hf
    | connected hph => exact absurd hph (hph' _ _)
    | retry _ hT => rw [hD.retry] at hT; cases hT
    | main _ hcn => rw [hD.conn] at hcn; cases hcn
    | trackedCancelled _ hcn => rw [hD.tracked] at hcn; cases hcn
    | tracked _ hcn => rw [hD.tracked] at hcn; cases hcn
  · have hw : { s.peer with waiting := s.peer.waiting.dropLast }.adminUp = false →
        Down { s.peer with waiting := s.peer.waiting.dropLast } := fun hd =>
      have := (h hd).1; ⟨this.1, this.2, this.3, this.4⟩
    cases hs with
    | admin hph =>
      intro hd
      have := (h hd).1
      exact ⟨⟨this.1, this.2, this.3, this.4⟩, fun _ _ h => nomatch hph.symm.trans h⟩
    | callNone => intro hd; exact ⟨(h hd).1, fun _ _ h => nomatch h⟩
    | callEvent _ _ e => intro hd; exact ⟨admin_up hc hw e hd, fun _ _ h => nomatch h⟩
    | callOn _ _ e => intro hd; exact ⟨admin_up hc hw e hd, fun _ _ h => nomatch h⟩
    | callErr _ _ e => intro hd; exact ⟨admin_up hc hw e hd, fun _ _ h => nomatch h⟩
    | callCancelled _ _ e => intro hd; exact ⟨admin_up hc hw e hd, fun _ _ h => nomatch h⟩
    | _ => exact absurd (And.intro (fun _ h => nomatch h) (fun _ h => nomatch h)) hl

theorem up_exec {props cfg pol tr s} (h : ExecIf (fun _ => Patient) (Sys.init props cfg pol) tr s) : UpSys s := by
  generalize hi : Sys.init props cfg pol = i at h
  induction h with
  | nil => subst hi; intro _; exact ⟨⟨rfl, rfl, rfl, rfl⟩, fun _ _ h => nomatch h⟩
  | snoc _ hc hs ih => exact ih.step hc (step_inv hs)

end Verif.Speaker
