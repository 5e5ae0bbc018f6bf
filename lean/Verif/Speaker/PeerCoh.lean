import Verif.Speaker.PeerLemmas
/-!
# When the state of the FSM agrees with the main connection
-/
namespace Verif.Speaker
open Verif Verif.Bgp

/-! ## The state of the FSM and the connection -/

/-- the FSM states of a peer without a BGP session -/
def Fsm.low : Fsm → Prop
  | .idle | .connect | .active => True
  | _ => False

/-- the FSM state that goes with the state of the main connection -/
def FsmOk (f : Fsm) : ConnState → Prop
  | .connected => f.low
  | .openSent => f = .openSent
  | .openConfirm => f = .openConfirm
  | .established => f = .established
  | .terminate => False

/-- the FSM state agrees with the main connection, and the connect retry timer runs only without one -/
structure Coh (p : Peer) : Prop where
  down : p.conn = none → p.fsm.low
  up : ∀ c, p.conn = some c → FsmOk p.fsm c.state ∧ (p.config.openDelay = 0 → c.state ≠ .connected)
  retry : p.conn.isSome → p.retry = none

theorem Coh.of_none {p : Peer} (h : p.conn = none) (hf : p.fsm.low) : Coh p :=
  ⟨fun _ => hf, fun c hc => by rw [h] at hc; (nomatch hc), fun hs => by rw [h] at hs; (nomatch hs)⟩

theorem Coh.of_some {p : Peer} {c : Conn} (h : p.conn = some c) (hf : FsmOk p.fsm c.state)
    (hd : p.config.openDelay = 0 → c.state ≠ .connected) (hr : p.retry = none) : Coh p :=
  ⟨fun hn => by rw [h] at hn; (nomatch hn), fun c' hc => by rw [h] at hc; cases hc; exact ⟨hf, hd⟩, fun _ => hr⟩

theorem transit_coh {p q : Peer} {c : Conn} {n b ev e} (hc : p.conn = some c) (hf : FsmOk p.fsm b)
    (hd : p.config.openDelay = 0 → c.state ≠ .connected) (hr : p.retry = none)
    (h : p.transit n b c.state ev = (.ok e, q)) : Coh q := by
  have bad : ∀ {x : Peer} {P : Prop}, (Out.err FsmErr.invalidTransition, x) = ((Out.ok e : Out PeerEvent), q) → P :=
    fun h => by cases h
  unfold Peer.transit at h
  dsimp only at h
  generalize hst : c.state = a at *
  cases b <;> cases a <;> dsimp only at h <;> try exact bad h
  all_goals
    split at h
  all_goals try exact bad h
  all_goals try split at h
  all_goals try exact bad h
  all_goals
    simp only [Prod.mk.injEq] at h
    obtain ⟨-, h⟩ := h
    subst h
    first
      | (refine .of_none rfl ?_; trivial)
      | (refine .of_some (c := c) hc ?_ ?_ ?_ <;> simp_all [FsmOk, Peer.to, Peer.stopRetry])

/-- coherence only depends on the states, the configuration and the timer -/
theorem Coh.congr {p q : Peer} (h : Coh p) (hf : q.fsm = p.fsm) (hc : q.conn.map (·.state) = p.conn.map (·.state))
    (hg : q.config = p.config) (hr : q.retry = p.retry) : Coh q := by
  cases hp : p.conn with
  | none =>
    rw [hp] at hc
    have hq : q.conn = none := Option.map_eq_none_iff.mp hc
    exact .of_none hq (hf ▸ h.down hp)
  | some c =>
    rw [hp] at hc
    obtain ⟨c', hq, hs⟩ := Option.map_eq_some_iff.mp hc
    have hs : c'.state = c.state := hs
    obtain ⟨h1, h2⟩ := h.up c hp
    exact .of_some hq (by rw [hf, hs]; exact h1) (by rw [hg, hs]; exact h2) (by rw [hr]; exact h.retry (by rw [hp]; rfl))

theorem handle_not_connected {op net t ev} {c : Conn} (h : c.state ≠ .connected) :
    (c.handle op net t ev).2.state ≠ .connected := by
  have ht : ∀ x : Conn, (x.to .terminate).state ≠ .connected := fun _ => by simp [Conn.to]
  have ho : ∀ x : Conn, (x.to .openConfirm).state ≠ .connected := fun _ => by simp [Conn.to]
  have he : ConnState.established ≠ .connected := by decide
  have hopen : ∀ o, (((({ c with openDelay := none }).readOpen o).negotiate).startTimers t).state ≠ .connected := by
    intro o; rw [(opened_same t c o).1]; exact h
  unfold Conn.handle
  cases hs : c.state with
  | terminate => exact h
  | connected => exact absurd hs h
  | openSent =>
    cases ev <;> dsimp only [Conn.handleOpenSent] <;>
      first
        | exact h
        | exact ht _
        | exact sendThen_ind (P := fun x => x.state ≠ .connected) (by simpa using h) (fun _ => ht _)
        | exact sendThen_ind (P := fun x => x.state ≠ .connected) (by simpa using hopen _) (fun _ => ho _)
        | exact trySend_ind (P := fun x => x.state ≠ .connected) (by simpa using h) (ht _)
  | openConfirm =>
    cases ev <;> dsimp only [Conn.handleOpenConfirm] <;>
      first
        | exact h
        | exact ht _
        | exact sendThen_ind (P := fun x => x.state ≠ .connected) (by simpa using h) (fun _ => by simpa using h)
        | exact sendThen_ind (P := fun x => x.state ≠ .connected) (by simpa using ht _) (fun _ => by simpa using ht _)
        | exact he
        | exact trySend_ind (P := fun x => x.state ≠ .connected) (by simpa using h) (ht _)
  | established =>
    cases ev <;> dsimp only [Conn.handleEstablished] <;>
      first
        | exact h
        | exact ht _
        | exact sendThen_ind (P := fun x => x.state ≠ .connected) (by simpa using h) (fun _ => by simpa using h)
        | exact trySend_ind (P := fun x => x.state ≠ .connected) (by simpa using h) (ht _)

/-- the state of a connection that was just made -/
theorem first_state {active cfg asn j op net t ev e c} (he : ev = .tcpRequestAcked ∨ ev = .tcpConfirmed)
    (h : (Conn.new active cfg asn j).handle op net t ev = (.ok e, c)) :
    c.state = if cfg.openDelay = 0 then .openSent else .connected := by
  have key : (if cfg.openDelay = 0 then
      ((Conn.new active cfg asn j).startHold t).sendThen (net 0) t (.open op) fun c => (.ok ev, c.to .openSent)
    else (.ok ev, { Conn.new active cfg asn j with openDelay := some (.start (cfg.openDelay.toNat * sec) t) }))
      = (.ok e, c) := by
    rw [← h]; rcases he with he | he <;> subst he <;> rfl
  by_cases h0 : cfg.openDelay = 0
  · rw [if_pos h0] at key
    unfold Conn.sendThen at key
    split at key
    · rw [snd_of key, if_pos h0]; rfl
    · cases key
    · cases key
  · rw [if_neg h0] at key; rw [snd_of key, if_neg h0]; rfl

namespace Coh
variable {p q : Peer}

theorem addConnection {c : Conn} (h : Coh p) (hr : p.retry = none)
    (hs : c.state = if p.config.openDelay = 0 then .openSent else .connected) : Coh (p.addConnection c) := by
  unfold Peer.addConnection
  split
  · exact h.congr rfl rfl rfl rfl
  · next hn =>
    have hn : p.conn = none := by cases hc : p.conn <;> simp_all
    refine .of_some (c := c) rfl ?_ ?_ hr
    · show FsmOk (Peer.fsmOf p.fsm c.state) c.state
      rw [hs]; split
      · rfl
      · exact h.down hn
    · intro h0
      have h0 : p.config.openDelay = 0 := h0
      rw [hs, if_pos h0]; exact fun h => nomatch h

theorem stopRetry (h : Coh p) : Coh p.stopRetry := ⟨h.down, h.up, fun _ => rfl⟩

theorem accept {net n j o} (h : Coh p) (he : p.accept net n j = (o, q)) : Coh q := by
  unfold Peer.accept at he
  split at he
  · split at he
    · split at he <;> (rw [snd_of he]; exact h)
    · rw [snd_of he]; exact h
  · dsimp only at he
    split at he
    · next e => rw [snd_of he]; exact h.stopRetry.addConnection rfl (first_state (.inr rfl) e)
    · rw [snd_of he]; exact h.stopRetry
    · rw [snd_of he]; exact h.stopRetry

theorem connected {net n r o} (h : Coh p) (he : p.connected net n r = (o, q)) : Coh q := by
  unfold Peer.connected at he
  cases r with
  | none => rw [snd_of he]; exact h.stopRetry
  | some j =>
    dsimp only at he
    split at he
    · next e => rw [snd_of he]; exact h.stopRetry.addConnection rfl (first_state (.inl rfl) e)
    · rw [snd_of he]; exact h.stopRetry
    · rw [snd_of he]; exact h.stopRetry

theorem sendTracked {o n m} (h : Coh p) : Coh (p.sendTracked o n m).2 := by
  unfold Peer.sendTracked; split <;> exact h.congr rfl rfl rfl rfl

theorem dropLoser {net n} (h : Coh p) : Coh (p.dropLoser net n).2 := by
  unfold Peer.dropLoser
  have h1 := h.sendTracked (o := net 0) (n := n) (m := .notification Peer.collisionNotif)
  split
  · next e => rw [e] at h1; exact h1.congr rfl rfl rfl rfl
  · next e => rw [e] at h1; exact h1.congr rfl rfl rfl rfl

theorem userSend {net n m} (h : Coh p) : Coh (p.userSend net n m).2 := by
  unfold Peer.userSend
  dsimp only
  have h1 : Coh (match p.tracked with
    | none => p
    | some c => if net 0 = SendOut.ok then { p with tracked := some (c.afterSend (net 0) n m) }
      else Peer.dropTracked { p with tracked := some (c.afterSend (net 0) n m) }) := by
    split
    · exact h
    · split <;> exact h.congr rfl rfl rfl rfl
  have key : ∀ p1 : Peer, Coh p1 → Coh (match p1.conn with
      | none => ((.ok () : Except FsmErr Unit), p1)
      | some c => (if net 1 = SendOut.ok then .ok () else .error .writing,
        { p1 with conn := some (c.afterSend (net 1) n m) })).2 := by
    intro p1 h1
    split
    · exact h1
    · next c hc => exact h1.congr rfl (by rw [hc]; simp) rfl rfl
  exact key _ h1

theorem sendMain_true {o : SendOut} {n m} (ho : o.isCancelled = false) : ∃ c, p.sendMain o n m = (true, { p with conn := c }) := by
  unfold Peer.sendMain
  split
  · next e => exact ⟨none, by rw [← e]⟩
  · cases o with
    | ok => exact ⟨_, rfl⟩
    | failed => exact ⟨_, rfl⟩
    | cancelled => cases ho

theorem sendTracked_true {o : SendOut} {n m} (ho : o.isCancelled = false) :
    ∃ c, p.sendTracked o n m = (true, { p with tracked := c }) := by
  unfold Peer.sendTracked
  split
  · next e => exact ⟨none, by rw [← e]⟩
  · cases o with
    | ok => exact ⟨_, rfl⟩
    | failed => exact ⟨_, rfl⟩
    | cancelled => cases ho

theorem dropMain {net n o} (h : Coh p) (hp : p.conn.isSome) (hn : (net 0).isCancelled = false)
    (he : p.dropMain net n = (o, q)) : Coh q := by
  unfold Peer.dropMain at he
  split at he
  · rw [snd_of he]; exact h
  · next t ht =>
    split at he
    · rw [snd_of he]; exact h.congr rfl rfl rfl rfl
    · next s hs =>
      dsimp only at he
      obtain ⟨c', hc'⟩ := sendMain_true (p := { p.count with tracked := none }.to s) (n := n)
        (m := .notification Peer.collisionNotif) hn
      rw [hc'] at he
      rw [snd_of he]
      have hst : FsmOk s t.state ∧ t.state ≠ .connected := by
        unfold Peer.fsmOfTracked at hs
        split at hs <;> first | (cases hs; done) | (next e => cases hs; rw [e]; exact ⟨rfl, fun h => nomatch h⟩)
      exact .of_some (c := t) rfl hst.1 (fun _ => hst.2) (h.retry hp)

theorem shutdown {net n o} (hn : ∀ k, (net k).isCancelled = false) (he : p.shutdown net n = (o, q)) :
    q.conn = none ∧ q.tracked = none ∧ q.fsm = .idle ∧ q.retry = none ∧ q.adminUp = false ∧ o = .ok () := by
  unfold Peer.shutdown at he
  obtain ⟨c', hc'⟩ := sendMain_true (p := { p.stopRetry with adminUp := false }.to .idle) (n := n)
    (m := .notification Peer.shutdownNotif) (hn 0)
  rw [hc'] at he
  dsimp only at he
  obtain ⟨c2, hc2⟩ := sendTracked_true (p := ({ ({ p.stopRetry with adminUp := false }.to .idle) with conn := c' }).dropConn)
    (n := n) (m := .notification Peer.shutdownNotif) (hn 1)
  rw [hc2] at he
  rw [snd_of he, fst_of he]
  exact ⟨rfl, rfl, rfl, rfl, rfl, rfl⟩

theorem startEvent {a b n o} (h : Coh p) (hc : p.conn = none ∨ p.config.openDelay = 0)
    (he : p.startEvent a b n = (o, q)) : Coh q := by
  unfold Peer.startEvent at he
  split at he
  · rw [snd_of he]; exact h
  · next hf =>
    have hf : p.fsm = .idle := by simpa using hf
    have hn : p.conn = none := by
      rcases hc with hc | hc
      · exact hc
      · cases hp : p.conn with
        | none => rfl
        | some c =>
          obtain ⟨h1, h2⟩ := h.up c hp
          have := h2 hc
          rw [hf] at h1
          cases hs : c.state <;> rw [hs] at h1 this <;> first | exact absurd rfl this | cases h1
    have hs : ∀ n, (p.start n).conn = none ∧ (p.start n).fsm.low := by
      intro n
      unfold Peer.start
      dsimp only
      rw [if_neg (by simpa using hf)]
      split
      · exact ⟨hn, trivial⟩
      · exact ⟨hn, trivial⟩
    split at he
    · rw [snd_of he]; exact .of_none (hs n).1 (hs n).2
    · rw [snd_of he]; exact .of_none (hs n).1 (hs n).2

theorem handleConnEvent {net n ev c e} (h : Coh p) (hc : p.conn = some c)
    (he : p.handleConnEvent net n ev = (.ok e, q)) : Coh q := by
  unfold Peer.handleConnEvent at he
  rw [hc] at he
  dsimp only at he
  obtain ⟨h1, h2⟩ := h.up c hc
  split at he
  · next e' c' hh =>
    refine transit_coh (c := c') rfl ?_ ?_ ?_ he
    · exact h1
    · intro h0
      rw [snd_of hh]; exact handle_not_connected (h2 h0)
    · exact h.retry (by rw [hc]; rfl)
  · cases he
  · cases he

end Coh

/-- a step that does not catch the code in one of the two situations where the state of the FSM can get lost: an
operation of `run` is dropped while it waits for a message to be written, or a start command comes while an incoming
connection waits for its open delay -/
def Calm (s : Sys) : Label → Prop
  | .call net => (∀ k, (net k).isCancelled = false) ∧
    ((s.peer.waiting.getLast? = some .manualStart ∨ s.peer.waiting.getLast? = some .autoStart) →
      s.peer.conn = none ∨ s.peer.config.openDelay = 0)
  | .main _ net | .tracked _ net => ∀ k, (net k).isCancelled = false
  | _ => True

/-- coherent unless the task has ended -/
def CohSys (s : Sys) : Prop := s.phase = .dead ∨ Coh s.peer

theorem CohSys.of_ok {n} {x : Out PeerEvent × Peer} {s' r} (hr : Sys.returned n x = (s', r))
    (hk : ∀ o q, x = (o, q) → (∀ e, o ≠ .err e) → Coh q) : CohSys s' := by
  obtain ⟨o, q⟩ := x
  cases o with
  | ok e => rw [fst_of hr]; exact .inr (hk _ _ rfl (fun _ h => nomatch h))
  | err e => rw [fst_of hr]; exact .inl rfl
  | cancelled => rw [fst_of hr]; exact .inr (hk _ _ rfl (fun _ h => nomatch h))

theorem collision_some {id : UInt32} {m t : Option Conn} {x} (h : Peer.collision id m t = some x) :
    m.isSome ∧ t.isSome := by
  unfold Peer.collision at h
  cases m with
  | none => cases h
  | some c =>
    cases t with
    | none =>
      exfalso
      cases hc : c.peerBgpId <;> simp [hc] at h
    | some d => exact ⟨rfl, rfl⟩

theorem CohSys.afterCheck {net n hid con p k s' r} (h : Coh p)
    (hn : (net 0).isCancelled = false) (hk : ∀ s' r, k p = (s', r) → CohSys s')
    (hr : Sys.afterCheck net n hid con p k = (s', r)) : CohSys s' := by
  unfold Sys.afterCheck at hr
  split at hr
  · next hx => exact .of_ok hr fun o q e _ => h.dropMain (collision_some hx).1 hn e
  · exact .of_ok hr fun o q e _ => by rw [snd_of e]; exact h.dropLoser
  · dsimp only at hr
    rw [fst_of hr]
    exact .inr h.sendTracked
  · exact hk _ _ hr

theorem sendThen_calm {o : SendOut} {n m} {c : Conn} {k} (ho : o.isCancelled = false)
    (hk : ∀ c, (k c).1 ≠ .cancelled) : (c.sendThen o n m k).1 ≠ .cancelled := by
  unfold Conn.sendThen
  split
  · exact hk _
  · simp
  · cases ho

theorem trySend_calm {o : SendOut} {n m} {c : Conn} {k} (ho : o.isCancelled = false)
    (hk : ∀ c, (k c).1 ≠ .cancelled) : (c.trySend o n m k).1 ≠ .cancelled := by
  unfold Conn.trySend
  split
  · exact hk _
  · exact hk _
  · cases ho

theorem handle_calm {op net n ev} {c : Conn} (hn : ∀ k, (net k).isCancelled = false) :
    (c.handle op net n ev).1 ≠ .cancelled := by
  have hk : ∀ e : ConnEvent, Out.ok e ≠ .cancelled := fun _ => by simp
  unfold Conn.handle
  cases c.state with
  | terminate => exact hk _
  | connected =>
    cases ev <;> dsimp only [Conn.handleConnected] <;> (try split) <;>
      first
        | exact hk _
        | exact sendThen_calm (hn 0) fun _ => hk _
        | exact sendThen_calm (hn 0) fun _ => sendThen_calm (hn 1) fun _ => hk _
        | exact trySend_calm (hn 0) fun _ => hk _
  | openSent =>
    cases ev <;> dsimp only [Conn.handleOpenSent] <;>
      first
        | exact hk _
        | exact sendThen_calm (hn 0) fun _ => hk _
        | exact trySend_calm (hn 0) fun _ => hk _
  | openConfirm =>
    cases ev <;> dsimp only [Conn.handleOpenConfirm] <;>
      first
        | exact hk _
        | exact sendThen_calm (hn 0) fun _ => hk _
        | exact trySend_calm (hn 0) fun _ => hk _
  | established =>
    cases ev <;> dsimp only [Conn.handleEstablished] <;>
      first
        | exact hk _
        | exact sendThen_calm (hn 0) fun _ => hk _
        | exact trySend_calm (hn 0) fun _ => hk _

/-- the FSM reports the event it was given, or the transition is invalid -/
theorem transit_out {p : Peer} {n b a ev} :
    (p.transit n b a ev).1 = .ok (.conn ev) ∨ (p.transit n b a ev).1 = .err .invalidTransition := by
  unfold Peer.transit
  dsimp only
  cases b <;> cases a <;> cases ev <;> dsimp only
  all_goals
    repeat' with_reducible first
      | exact .inl rfl
      | exact .inr rfl
      | split

theorem handleConnEvent_calm {p q : Peer} {net n ev o} (hn : ∀ k, (net k).isCancelled = false)
    (he : p.handleConnEvent net n ev = (o, q)) : o ≠ .cancelled := by
  unfold Peer.handleConnEvent at he
  split at he
  · rw [fst_of he]; simp
  · dsimp only at he
    split at he
    · rw [fst_of he]
      rcases transit_out with h | h <;> rw [h] <;> simp
    · rw [fst_of he]; simp
    · next hh => exact absurd (fst_of hh) (handle_calm hn).symm

theorem CohSys.step {s l s' r} (h : CohSys s) (hc : Calm s l) (hs : Step s l s' r) : CohSys s' := by
  by_cases hd : s.phase = .dead
  · cases hs <;> first | exact .inl hd | (simp_all; done)
  have h : Coh s.peer := h.resolve_left hd
  have hw : Coh { s.peer with waiting := s.peer.waiting.dropLast } := h.congr rfl rfl rfl rfl
  have hadm : ∀ {net a o q}, (∀ k, (net k).isCancelled = false) →
      ((a = Admin.manualStart ∨ a = Admin.autoStart) → s.peer.conn = none ∨ s.peer.config.openDelay = 0) →
      { s.peer with waiting := s.peer.waiting.dropLast }.admin net s.now a = (o, q) → Coh q := by
    intro net a o q hn hst he
    unfold Peer.admin at he
    cases a with
    | manualStart =>
      dsimp only at he
      rw [snd_of he]
      exact hw.startEvent (hst (.inl rfl)) rfl
    | autoStart =>
      dsimp only at he
      rw [snd_of he]
      exact hw.startEvent (hst (.inr rfl)) rfl
    | accept j => exact hw.accept he
    | manualStop =>
      dsimp only at he
      split at he <;>
        (next e => rw [snd_of he]; obtain ⟨h1, -, h3, -⟩ := Coh.shutdown hn e
                   exact .of_none h1 (Eq.mpr (congrArg Fsm.low h3) trivial))
    | autoStop =>
      dsimp only at he
      split at he <;>
        (next e => rw [snd_of he]; obtain ⟨h1, -, h3, -⟩ := Coh.shutdown hn e
                   exact .of_none h1 (Eq.mpr (congrArg Fsm.low h3) trivial))
  have hadm' : ∀ {net a o q}, Calm s (.call net) → s.peer.waiting.getLast? = some a →
      { s.peer with waiting := s.peer.waiting.dropLast }.admin net s.now a = (o, q) → Coh q := by
    intro net a o q hc hw he
    refine hadm hc.1 (fun ha => hc.2 ?_) he
    rw [hw]; rcases ha with ha | ha <;> subst ha <;> simp
  cases hs with
  | time => exact .inr h
  | admin hph => exact .inr (h.congr rfl rfl rfl rfl)
  | userOk hph _ e => exact .inr (by show Coh _; rw [snd_of e]; exact h.userSend)
  | userErr hph _ e => exact .inl rfl
  | callNone hph _ => exact .inr h
  | callEvent hph hl e => exact .inr (hadm' hc hl e)
  | callOn hph hl e => exact .inr (hadm' hc hl e)
  | callErr hph hl e => exact .inl rfl
  | callCancelled hph hl e => exact .inr (hadm' hc hl e)
  | drop hph => exact .inr h
  | connect hph hf ha => exact .inr (h.congr rfl rfl rfl rfl)
  | connected hph hr => exact .of_ok hr fun o q e _ => h.connected e
  | retry hph hT hd hr =>
    rw [fst_of hr]
    have hn : s.peer.conn = none := by
      cases hp : s.peer.conn with
      | none => rfl
      | some c => have := h.retry (by rw [hp]; rfl); rw [hT] at this; cases this
    have hl := h.down hn
    refine .inr (.of_none rfl ?_)
    split
    · trivial
    · exact hl
  | @main i net hid k c c1 ev _ _ hph hcn hp hr =>
    have h1 := h.congr (q := { s.peer with conn := some c1 }) rfl
      (by rw [hcn]; simp [(poll_same hp).state]) rfl rfl
    refine .afterCheck h1 (hc 0) (fun s' r hk => ?_) hr
    refine .of_ok hk fun o q e hne => ?_
    cases o with
    | ok e' => exact h1.handleConnEvent rfl e
    | err e' => exact absurd rfl (hne e')
    | cancelled => exact absurd rfl (handleConnEvent_calm hc e)
  | trackedCancelled => exact .inr (h.congr rfl rfl rfl rfl)
  | @tracked i net k c c1 c2 ev x _ _ hph hcn hf hst hp hh hx hr =>
    have h1 := h.congr (q := { s.peer with policy := s.peer.policy.pre ev, tracked := some c2 }) rfl rfl rfl rfl
    refine .afterCheck h1 (hc 2) (fun s' r hk => ?_) hr
    rw [fst_of hk]
    exact .inr (h.congr rfl rfl rfl rfl)

end Verif.Speaker
