import Verif.Speaker.PeerFrame
/-!
# The OPEN messages a peer sends
-/
namespace Verif.Speaker
open Verif Verif.Bgp

/-- every OPEN sent on a connection is that of a policy with the configured values of `pol` -/
def OT (pol : Policy) (c : Conn) : Prop :=
  ∀ o, Act.sent (.open o) ∈ c.trace → ∃ q : Policy, PolSame pol q ∧ o = q.openMsg

theorem OT.of_trace {pol : Policy} {c d : Conn} (h : OT pol c) (e : d.trace = c.trace) : OT pol d := by
  unfold OT; rw [e]; exact h

theorem OT.add {pol : Policy} {c d : Conn} {a} (h : OT pol c) (e : d.trace = c.trace ++ [a])
    (ha : ∀ o, a = .sent (.open o) → ∃ q : Policy, PolSame pol q ∧ o = q.openMsg) : OT pol d := by
  intro o ho
  rw [e, List.mem_append, List.mem_singleton] at ho
  exact ho.elim (h o) fun e => ha o e.symm

theorem OT.afterSend {pol : Policy} {c : Conn} {t} (h : OT pol c) (x : SendOut) (m : Msg)
    (hm : ∀ o, m = .open o → ∃ q : Policy, PolSame pol q ∧ o = q.openMsg) : OT pol (c.afterSend x t m) := by
  unfold Conn.afterSend; split
  · exact h.add (startSend_trace ..) fun o e => hm o (by cases e; rfl)
  · exact h

theorem OT.poll {pol : Policy} {c c1 : Conn} {t i ev} (h : OT pol c) (hp : c.poll t i = some (ev, c1)) : OT pol c1 := by
  unfold Conn.poll at hp
  split at hp
  · split at hp
    · split at hp
      · cases hp; exact h.of_trace rfl
      · cases hp
    · cases hp
  · split at hp
    · split at hp
      · cases hp; exact h.of_trace rfl
      · cases hp
    · cases hp
  · split at hp
    · split at hp
      · cases hp; exact h.of_trace rfl
      · cases hp
    · cases hp
  · cases hp; exact h
  · cases hp; exact h
  · next m g =>
    cases hp
    refine h.add (a := .received m) ?_ (fun o e => by cases e)
    cases m <;> rfl

theorem OT.sendThen {pol : Policy} {c : Conn} {t x m k} (h : OT pol c)
    (hm : ∀ o, m = .open o → ∃ q : Policy, PolSame pol q ∧ o = q.openMsg)
    (hk : ∀ d, OT pol d → OT pol (k d).2) : OT pol (c.sendThen x t m k).2 := by
  unfold Conn.sendThen; split
  · exact hk _ (h.afterSend _ _ hm)
  · exact h.afterSend _ _ hm
  · exact h.afterSend _ _ hm

theorem OT.trySend {pol : Policy} {c : Conn} {t x m k} (h : OT pol c)
    (hm : ∀ o, m = .open o → ∃ q : Policy, PolSame pol q ∧ o = q.openMsg)
    (hk : ∀ d, OT pol d → OT pol (k d).2) : OT pol (c.trySend x t m k).2 := by
  unfold Conn.trySend; split
  · exact hk _ (h.afterSend _ _ hm)
  · exact hk _ (h.afterSend _ _ hm)
  · exact h.afterSend _ _ hm

theorem OT.handle {pol : Policy} {c : Conn} {q : Policy} {net t ev} (h : OT pol c) (hq : PolSame pol q) :
    OT pol (c.handle q.openMsg net t ev).2 := by
  have ho : ∀ o, Msg.open q.openMsg = .open o → ∃ q : Policy, PolSame pol q ∧ o = q.openMsg :=
    fun o e => ⟨q, hq, by cases e; rfl⟩
  have hs : OT pol (c.startHold t) := h.of_trace (by unfold Conn.startHold; split <;> rfl)
  have hr : ∀ o (d : Conn), d.trace = c.trace →
      OT pol (((({ d with openDelay := none } : Conn).readOpen o).negotiate).startTimers t) := by
    intro o d e; exact h.of_trace ((opened_same t d o).2.2.2.1.trans e)
  have hn : ∀ n o, Msg.notification n = .open o → ∃ q : Policy, PolSame pol q ∧ o = q.openMsg := fun _ _ e => by cases e
  have hk : ∀ o, Msg.keepAlive = .open o → ∃ q : Policy, PolSame pol q ∧ o = q.openMsg := fun _ e => by cases e
  have hto : ∀ s (d : Conn), OT pol d → OT pol (d.to s) := fun _ d hd => hd.of_trace rfl
  unfold Conn.handle Conn.handleConnected Conn.handleOpenSent Conn.handleOpenConfirm Conn.handleEstablished
  cases c.state <;> cases ev <;> dsimp only
  all_goals
    repeat' with_reducible first
      | exact h
      | exact hto _ _ h
      | exact h.of_trace rfl
      | exact hs.sendThen ho fun d hd => hto _ d hd
      | exact h.sendThen hk fun d hd => hd
      | exact h.sendThen (hn _) fun d hd => hto _ d hd
      | exact h.trySend (hn _) fun d hd => hto _ d hd
      | exact (hto _ _ h).sendThen (hn _) fun d hd => hd
      | split
  · refine (hr _ (c.to .connected) rfl).sendThen ho ?_
    intro d hd
    refine hd.sendThen hk ?_
    intro d hd
    exact hto _ d hd
  · refine (hr _ (c.to .openSent) rfl).sendThen hk ?_
    intro d hd
    exact hto _ d hd

theorem OT.new {pol : Policy} {active cfg asn j} : OT pol (Conn.new active cfg asn j) := by
  intro o ho; cases ho

/-- every OPEN sent on the connections of a peer -/
structure Opens (pol : Policy) (p : Peer) : Prop where
  policy : PolSame pol p.policy
  conn : ∀ c, p.conn = some c → OT pol c
  tracked : ∀ c, p.tracked = some c → OT pol c
  closed : ∀ c, c ∈ p.closed → OT pol c

namespace Opens
variable {pol : Policy} {t : Nat} {p : Peer}

theorem to (h : Opens pol p) (s) : Opens pol (p.to s) := ⟨h.policy, h.conn, h.tracked, h.closed⟩
theorem stopRetry (h : Opens pol p) : Opens pol p.stopRetry :=
  ⟨h.policy, h.conn, h.tracked, h.closed⟩
theorem startRetry (h : Opens pol p) (n) : Opens pol (p.startRetry n) :=
  ⟨h.policy, h.conn, h.tracked, h.closed⟩
theorem count (h : Opens pol p) : Opens pol p.count := ⟨h.policy, h.conn, h.tracked, h.closed⟩
theorem setCounter (h : Opens pol p) (n) : Opens pol { p with counter := n } :=
  ⟨h.policy, h.conn, h.tracked, h.closed⟩
theorem pre (h : Opens pol p) (ev) : Opens pol { p with policy := p.policy.pre ev } :=
  ⟨h.policy.trans (.pre _ _), h.conn, h.tracked, h.closed⟩
theorem setConn (h : Opens pol p) {c} (hc : OT pol c) :
    Opens pol { p with conn := some c } :=
  ⟨h.policy, by rintro _ ⟨⟩; exact hc, h.tracked, h.closed⟩
theorem setTracked (h : Opens pol p) {c} (hc : OT pol c) :
    Opens pol { p with tracked := some c } :=
  ⟨h.policy, h.conn, by rintro _ ⟨⟩; exact hc, h.closed⟩
theorem dropConn (h : Opens pol p) : Opens pol p.dropConn := by
  refine ⟨h.policy, fun _ e => (Option.some_ne_none _ (Eq.symm e)).elim, h.tracked, ?_⟩
  intro c hc
  rcases List.mem_append.mp hc with hc | hc
  · exact h.closed c hc
  · exact h.conn c (Option.mem_toList.mp hc)
theorem dropTracked (h : Opens pol p) : Opens pol p.dropTracked := by
  refine ⟨h.policy, h.conn, fun _ e => (Option.some_ne_none _ (Eq.symm e)).elim, ?_⟩
  intro c hc
  rcases List.mem_append.mp hc with hc | hc
  · exact h.closed c hc
  · exact h.tracked c (Option.mem_toList.mp hc)

theorem addConnection (h : Opens pol p) {c} (hc : OT pol c) :
    Opens pol (p.addConnection c) := by
  unfold Peer.addConnection
  split
  · exact h.dropTracked.setTracked hc
  · exact ⟨h.policy, by rintro _ ⟨⟩; exact hc, h.tracked, h.closed⟩

theorem created (h : Opens pol p) {active j net ev} :
    OT pol ((p.createConnection active j).handle p.policy.openMsg net t ev).2 :=
  OT.new.handle h.policy

theorem sendMain (h : Opens pol p) (x m) (hm : ∀ o, m ≠ .open o) : Opens pol (p.sendMain x t m).2 := by
  unfold Peer.sendMain
  split
  · exact h
  · next c hc => exact h.setConn ((h.conn c hc).afterSend x m fun o e => (hm o e).elim)

theorem sendTracked (h : Opens pol p) (x m) (hm : ∀ o, m ≠ .open o) : Opens pol (p.sendTracked x t m).2 := by
  unfold Peer.sendTracked
  split
  · exact h
  · next c hc => exact h.setTracked ((h.tracked c hc).afterSend x m fun o e => (hm o e).elim)

theorem shutdown (h : Opens pol p) (net) : Opens pol (p.shutdown net t).2 := by
  unfold Peer.shutdown
  have h0 : Opens pol ({ p.stopRetry with adminUp := false }.to .idle) :=
    ⟨h.policy, h.conn, h.tracked, h.closed⟩
  have h1 := h0.sendMain (net 0) (t := t) (.notification Peer.shutdownNotif) (fun _ => Msg.noConfusion)
  split
  · next p1 e => rw [e] at h1; exact h1
  · next p1 e =>
    rw [e] at h1
    have h2 := h1.dropConn.sendTracked (net 1) (t := t) (.notification Peer.shutdownNotif) (fun _ => Msg.noConfusion)
    split
    · next p2 e => rw [e] at h2; exact h2
    · next p2 e => rw [e] at h2; exact h2.dropTracked

theorem accept (h : Opens pol p) (net j) : Opens pol (p.accept net t j).2 := by
  unfold Peer.accept
  split
  · split
    · split <;> exact h
    · exact h
  · dsimp only
    have hc := h.stopRetry.created (active := false) (j := j) (net := net) (ev := .tcpConfirmed) (t := t)
    split
    · next e => rw [e] at hc; exact h.stopRetry.addConnection hc
    · exact h.stopRetry
    · exact h.stopRetry

theorem start (h : Opens pol p) (n) : Opens pol (p.start n) := by
  unfold Peer.start
  have h0 : Opens pol { p with adminUp := true, counter := 0 } :=
    ⟨h.policy, h.conn, h.tracked, h.closed⟩
  dsimp only
  split
  · exact h0
  · split
    · exact h0.to _
    · exact ⟨h.policy, h.conn, h.tracked, h.closed⟩

theorem startEvent (h : Opens pol p) (a b n) : Opens pol (p.startEvent a b n).2 := by
  unfold Peer.startEvent
  split
  · exact h
  · split
    · exact (h.start n).startRetry n
    · exact h.start n

theorem admin (h : Opens pol p) (net a) : Opens pol (p.admin net t a).2 := by
  have hs := h.shutdown (t := t) net
  unfold Peer.admin
  cases a with
  | manualStart => exact h.startEvent ..
  | autoStart => exact h.startEvent ..
  | accept j => exact h.accept net j
  | manualStop =>
    dsimp only
    split
    · next e => rw [e] at hs; exact hs.setCounter 0
    · next e => rw [e] at hs; exact hs
    · next e => rw [e] at hs; exact hs
  | autoStop =>
    dsimp only
    split
    · next e => rw [e] at hs; exact hs.count
    · next e => rw [e] at hs; exact hs
    · next e => rw [e] at hs; exact hs

theorem connected (h : Opens pol p) (net r) : Opens pol (p.connected net t r).2 := by
  unfold Peer.connected
  cases r with
  | none => exact h.stopRetry
  | some j =>
    dsimp only
    have hc := h.stopRetry.created (active := true) (j := j) (net := net) (ev := .tcpRequestAcked) (t := t)
    split
    · next e => rw [e] at hc; exact h.stopRetry.addConnection hc
    · exact h.stopRetry
    · exact h.stopRetry

theorem transit (h : Opens pol p) (n b a ev) : Opens pol (p.transit n b a ev).2 := by
  unfold Peer.transit
  dsimp only
  cases b <;> cases a <;> cases ev <;> dsimp only
  all_goals
    repeat' with_reducible first
      | exact h
      | refine to ?_ _
      | refine stopRetry ?_
      | refine startRetry ?_ _
      | refine count ?_
      | refine dropConn ?_
      | split

theorem handleConnEvent (h : Opens pol p) {net ev c} (hc : p.conn = some c) :
    Opens pol (p.handleConnEvent net t ev).2 := by
  unfold Peer.handleConnEvent
  rw [hc]; dsimp only
  have hl1 := (h.conn c hc).handle (net := net) (t := t) (ev := ev) (h.pre ev).policy
  split
  · next e => rw [e] at hl1; exact ((h.pre ev).setConn hl1).transit ..
  · next e => rw [e] at hl1; exact (h.pre ev).setConn hl1
  · next e => rw [e] at hl1; exact (h.pre ev).setConn hl1

theorem dropMain (h : Opens pol p) (net) : Opens pol (p.dropMain net t).2 := by
  unfold Peer.dropMain
  split
  · exact h
  · next c hc =>
    split
    · exact h.dropTracked.count
    · next s hs =>
      dsimp only
      have h0 : Opens pol ({ p.count with tracked := none }.to s) :=
        ⟨h.policy, h.conn, fun _ e => (Option.some_ne_none _ (Eq.symm e)).elim, h.closed⟩
      have h1 := h0.sendMain (net 0) (t := t) (.notification Peer.collisionNotif) (fun _ => Msg.noConfusion)
      split
      · next e =>
        rw [e] at h1
        have h2 := h1.dropConn
        refine ⟨h2.policy, h2.conn, h2.tracked, ?_⟩
        intro x hx
        rcases List.mem_append.mp hx with hx | hx
        · exact h2.closed x hx
        · rw [List.mem_singleton.mp hx]; exact h.tracked c hc
      · next e => rw [e] at h1; exact h1.dropConn.setConn (h.tracked c hc)

theorem dropLoser (h : Opens pol p) (net) : Opens pol (p.dropLoser net t).2 := by
  unfold Peer.dropLoser
  have h1 := h.sendTracked (net 0) (t := t) (.notification Peer.collisionNotif) (fun _ => Msg.noConfusion)
  split
  · next e => rw [e] at h1; exact h1.dropTracked
  · next e => rw [e] at h1; exact h1.dropTracked

theorem userSend (h : Opens pol p) (net m) (hm : ∀ o, m ≠ .open o) : Opens pol (p.userSend net t m).2 := by
  unfold Peer.userSend
  dsimp only
  have h1 : Opens pol (match p.tracked with
    | none => p
    | some c => if net 0 = SendOut.ok then { p with tracked := some (c.afterSend (net 0) t m) }
      else Peer.dropTracked { p with tracked := some (c.afterSend (net 0) t m) }) := by
    split
    · exact h
    · next c hc =>
      have := h.setTracked ((h.tracked c hc).afterSend (t := t) (net 0) m fun o e => (hm o e).elim)
      split
      · exact this
      · exact this.dropTracked
  split
  · exact h1
  · next c hc => exact h1.setConn ((h1.conn c hc).afterSend (net 1) m fun o e => (hm o e).elim)

end Opens

theorem Opens.returned {pol n} {x : Out PeerEvent × Peer} (h : Opens pol x.2) : Opens pol (Sys.returned n x).1.peer := by
  rw [returned_peer]; exact h

theorem Opens.afterCheck {pol net n hid con p k} (h : Opens pol p) (hk : Opens pol (k p).1.peer) :
    Opens pol (Sys.afterCheck net n hid con p k).1.peer := by
  unfold Sys.afterCheck
  split
  · exact .returned (h.dropMain net)
  · exact .returned (h.dropLoser net)
  · exact h.sendTracked _ _ (fun _ => Msg.noConfusion)
  · exact hk

/-- the user hands no OPEN to the peer -/
def NoUserOpen (_ : Sys) (l : Label) : Prop := ∀ o net, l ≠ .user (.open o) net

theorem Opens.step {pol l s s' r} (h : Opens pol s.peer) (hl : NoUserOpen s l) (hs : Step s l s' r) :
    Opens pol s'.peer := by
  have hw : Opens pol { s.peer with waiting := s.peer.waiting.dropLast } := ⟨h.policy, h.conn, h.tracked, h.closed⟩
  cases hs with
  | time => exact h
  | admin hph => exact ⟨h.policy, h.conn, h.tracked, h.closed⟩
  | userOk hph hc e => rw [snd_of e]; exact h.userSend _ _ fun o e => hl o _ (by rw [e])
  | userErr hph hc e => rw [snd_of e]; exact h.userSend _ _ fun o e => hl o _ (by rw [e])
  | callNone hph _ => exact h
  | callEvent hph _ e => rw [snd_of e]; exact hw.admin ..
  | callOn hph _ e => rw [snd_of e]; exact hw.admin ..
  | callErr hph _ e => rw [snd_of e]; exact hw.admin ..
  | callCancelled hph _ e => rw [snd_of e]; exact hw.admin ..
  | drop hph => exact h
  | connect hph hf ha => exact ⟨h.policy, h.conn, h.tracked, h.closed⟩
  | connected hph hr => rw [fst_of hr]; exact .returned (h.connected ..)
  | retry hph hT hd hr =>
    rw [fst_of hr]
    refine .returned (Opens.dropConn ?_)
    split <;> exact ⟨h.policy, h.conn, h.tracked, h.closed⟩
  | main hph hc hp hr =>
    have h1 := h.setConn ((h.conn _ hc).poll hp)
    rw [fst_of hr]
    exact .afterCheck h1 (.returned (h1.handleConnEvent rfl))
  | @trackedCancelled i net k c c1 c2 ev hph hc hf hst hp hh =>
    have hl := ((h.tracked _ hc).poll hp).handle (net := net) (t := s.now) (ev := ev) (h.pre ev).policy
    dsimp only at hl
    rw [hh] at hl
    exact (h.pre ev).setTracked hl
  | @tracked i net k c c1 c2 ev x _ _ hph hc hf hst hp hh hx hr =>
    have hl := ((h.tracked _ hc).poll hp).handle (net := net) (t := s.now) (ev := ev) (h.pre ev).policy
    dsimp only at hl
    rw [hh] at hl
    have h1 := (h.pre ev).setTracked hl
    rw [fst_of hr]
    exact .afterCheck h1 h1

theorem opens_exec {props cfg pol tr s} (h : ExecIf NoUserOpen (Sys.init props cfg pol) tr s) : Opens pol s.peer := by
  generalize hi : Sys.init props cfg pol = i at h
  induction h with
  | nil =>
    subst hi
    refine ⟨.refl _, fun c h => absurd h (by simp [Sys.init, Peer.new]),
      fun c h => absurd h (by simp [Sys.init, Peer.new]), fun c h => absurd h (by simp [Sys.init, Peer.new])⟩
  | snoc _ hl hs ih => exact ih.step hl (step_inv hs)

end Verif.Speaker
