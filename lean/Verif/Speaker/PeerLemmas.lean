import Verif.Speaker.Peer
import Verif.Speaker.ConnLemmas
/-!
# What the peer does to its connections
-/
namespace Verif.Speaker
open Verif Verif.Bgp

/-- the AS number a peer expects -/
def PeerProps.asn (p : PeerProps) : Option UInt32 := if p.dynamicAs then none else some p.peerAsn

/-- all connections of the peer, those it closed included, have a legitimate life -/
structure Good (cfg : PeerConfig) (props : PeerProps) (t : Nat) (p : Peer) : Prop where
  config : p.config = cfg
  properties : p.props = props
  conn : ∀ c, p.conn = some c → Life cfg.conn props.asn t c
  tracked : ∀ c, p.tracked = some c → Life cfg.conn props.asn t c
  closed : ∀ c, c ∈ p.closed → Life cfg.conn props.asn t c

namespace Good
variable {cfg : PeerConfig} {props : PeerProps} {t : Nat} {p : Peer}

theorem later {t'} (h : Good cfg props t p) (ht : t ≤ t') : Good cfg props t' p :=
  ⟨h.config, h.properties, fun c e => (h.conn c e).wait ht, fun c e => (h.tracked c e).wait ht,
    fun c e => (h.closed c e).wait ht⟩

theorem to (h : Good cfg props t p) (s) : Good cfg props t (p.to s) := ⟨h.config, h.properties, h.conn, h.tracked, h.closed⟩
theorem stopRetry (h : Good cfg props t p) : Good cfg props t p.stopRetry :=
  ⟨h.config, h.properties, h.conn, h.tracked, h.closed⟩
theorem startRetry (h : Good cfg props t p) (n) : Good cfg props t (p.startRetry n) :=
  ⟨h.config, h.properties, h.conn, h.tracked, h.closed⟩
theorem count (h : Good cfg props t p) : Good cfg props t p.count := ⟨h.config, h.properties, h.conn, h.tracked, h.closed⟩
theorem setCounter (h : Good cfg props t p) (n) : Good cfg props t { p with counter := n } :=
  ⟨h.config, h.properties, h.conn, h.tracked, h.closed⟩
theorem setPolicy (h : Good cfg props t p) (n) : Good cfg props t { p with policy := n } :=
  ⟨h.config, h.properties, h.conn, h.tracked, h.closed⟩
theorem setConn (h : Good cfg props t p) {c} (hc : Life cfg.conn props.asn t c) :
    Good cfg props t { p with conn := some c } :=
  ⟨h.config, h.properties, by rintro _ ⟨⟩; exact hc, h.tracked, h.closed⟩
theorem setTracked (h : Good cfg props t p) {c} (hc : Life cfg.conn props.asn t c) :
    Good cfg props t { p with tracked := some c } :=
  ⟨h.config, h.properties, h.conn, by rintro _ ⟨⟩; exact hc, h.closed⟩
theorem dropConn (h : Good cfg props t p) : Good cfg props t p.dropConn := by
  refine ⟨h.config, h.properties, fun _ e => (Option.some_ne_none _ (Eq.symm e)).elim, h.tracked, ?_⟩
  intro c hc
  rcases List.mem_append.mp hc with hc | hc
  · exact h.closed c hc
  · exact h.conn c (Option.mem_toList.mp hc)
theorem dropTracked (h : Good cfg props t p) : Good cfg props t p.dropTracked := by
  refine ⟨h.config, h.properties, h.conn, fun _ e => (Option.some_ne_none _ (Eq.symm e)).elim, ?_⟩
  intro c hc
  rcases List.mem_append.mp hc with hc | hc
  · exact h.closed c hc
  · exact h.tracked c (Option.mem_toList.mp hc)

theorem addConnection (h : Good cfg props t p) {c} (hc : Life cfg.conn props.asn t c) :
    Good cfg props t (p.addConnection c) := by
  unfold Peer.addConnection
  split
  · exact h.dropTracked.setTracked hc
  · exact ⟨h.config, h.properties, by rintro _ ⟨⟩; exact hc, h.tracked, h.closed⟩

theorem created (h : Good cfg props t p) {active j op net ev} (he : ev = .tcpRequestAcked ∨ ev = .tcpConfirmed) :
    Life cfg.conn props.asn t ((p.createConnection active j).handle op net t ev).2 := by
  have : p.createConnection active j = Conn.new active cfg.conn props.asn j := by
    unfold Peer.createConnection PeerProps.asn; rw [h.config, h.properties]
  rw [this]; exact .first he

theorem sendMain (h : Good cfg props t p) (o m) : Good cfg props t (p.sendMain o t m).2 := by
  unfold Peer.sendMain
  split
  · exact h
  · next c hc => exact h.setConn ((h.conn c hc).afterSend o m)

theorem sendTracked (h : Good cfg props t p) (o m) : Good cfg props t (p.sendTracked o t m).2 := by
  unfold Peer.sendTracked
  split
  · exact h
  · next c hc => exact h.setTracked ((h.tracked c hc).afterSend o m)

theorem shutdown (h : Good cfg props t p) (net) : Good cfg props t (p.shutdown net t).2 := by
  unfold Peer.shutdown
  have h0 : Good cfg props t ({ p.stopRetry with adminUp := false }.to .idle) :=
    ⟨h.config, h.properties, h.conn, h.tracked, h.closed⟩
  have h1 := h0.sendMain (net 0) (.notification Peer.shutdownNotif)
  split
  · next p1 e => rw [e] at h1; exact h1
  · next p1 e =>
    rw [e] at h1
    have h2 := h1.dropConn.sendTracked (net 1) (.notification Peer.shutdownNotif)
    split
    · next p2 e => rw [e] at h2; exact h2
    · next p2 e => rw [e] at h2; exact h2.dropTracked

theorem accept (h : Good cfg props t p) (net j) : Good cfg props t (p.accept net t j).2 := by
  unfold Peer.accept
  split
  · split
    · split <;> exact h
    · exact h
  · dsimp only
    have hc := h.stopRetry.created (active := false) (j := j) (op := p.stopRetry.policy.openMsg) (net := net)
      (ev := .tcpConfirmed) (.inr rfl)
    split
    · next e => rw [e] at hc; exact h.stopRetry.addConnection hc
    · exact h.stopRetry
    · exact h.stopRetry

theorem start (h : Good cfg props t p) (n) : Good cfg props t (p.start n) := by
  unfold Peer.start
  have h0 : Good cfg props t { p with adminUp := true, counter := 0 } :=
    ⟨h.config, h.properties, h.conn, h.tracked, h.closed⟩
  dsimp only
  split
  · exact h0
  · split
    · exact h0.to _
    · exact ⟨h.config, h.properties, h.conn, h.tracked, h.closed⟩

theorem startEvent (h : Good cfg props t p) (a b n) : Good cfg props t (p.startEvent a b n).2 := by
  unfold Peer.startEvent
  split
  · exact h
  · split
    · exact (h.start n).startRetry n
    · exact h.start n

theorem admin (h : Good cfg props t p) (net a) : Good cfg props t (p.admin net t a).2 := by
  have hs := h.shutdown net
  unfold Peer.admin
  cases a with
  | manualStart => exact h.startEvent ..
  | autoStart => exact h.startEvent ..
  | accept j => exact h.accept net j
  | manualStop =>
    dsimp only
    split
    · next e => rw [e] at hs; exact hs.setCounter 0
    · next e => rw [e] at hs; exact hs
    · next e => rw [e] at hs; exact hs
  | autoStop =>
    dsimp only
    split
    · next e => rw [e] at hs; exact hs.count
    · next e => rw [e] at hs; exact hs
    · next e => rw [e] at hs; exact hs

theorem connected (h : Good cfg props t p) (net r) : Good cfg props t (p.connected net t r).2 := by
  unfold Peer.connected
  cases r with
  | none => exact h.stopRetry
  | some j =>
    dsimp only
    have hc := h.stopRetry.created (active := true) (j := j) (op := p.stopRetry.policy.openMsg) (net := net)
      (ev := .tcpRequestAcked) (.inl rfl)
    split
    · next e => rw [e] at hc; exact h.stopRetry.addConnection hc
    · exact h.stopRetry
    · exact h.stopRetry

theorem transit (h : Good cfg props t p) (n b a ev) : Good cfg props t (p.transit n b a ev).2 := by
  unfold Peer.transit
  dsimp only
  cases b <;> cases a <;> cases ev <;> dsimp only
  all_goals
    repeat' with_reducible first
      | exact h
      | refine to ?_ _
      | refine stopRetry ?_
      | refine startRetry ?_ _
      | refine count ?_
      | refine dropConn ?_
      | split

theorem handleConnEvent (h : Good cfg props t p) {net ev c0 i c} (hl : Life cfg.conn props.asn t c0)
    (hp : c0.poll t i = some (ev, c)) (hc : p.conn = some c) : Good cfg props t (p.handleConnEvent net t ev).2 := by
  unfold Peer.handleConnEvent
  rw [hc]; dsimp only
  have hl1 := hl.event (op := (p.policy.pre ev).openMsg) (net := net) hp
  split
  · next e => rw [e] at hl1; exact ((h.setPolicy (p.policy.pre ev)).setConn hl1).transit ..
  · next e => rw [e] at hl1; exact (h.setPolicy (p.policy.pre ev)).setConn hl1
  · next e => rw [e] at hl1; exact (h.setPolicy (p.policy.pre ev)).setConn hl1

theorem dropMain (h : Good cfg props t p) (net) : Good cfg props t (p.dropMain net t).2 := by
  unfold Peer.dropMain
  split
  · exact h
  · next c hc =>
    split
    · exact h.dropTracked.count
    · next s hs =>
      dsimp only
      have h0 : Good cfg props t ({ p.count with tracked := none }.to s) :=
        ⟨h.config, h.properties, h.conn, fun _ e => (Option.some_ne_none _ (Eq.symm e)).elim, h.closed⟩
      have h1 := h0.sendMain (net 0) (.notification Peer.collisionNotif)
      split
      · next e =>
        rw [e] at h1
        have h2 := h1.dropConn
        refine ⟨h2.config, h2.properties, h2.conn, h2.tracked, ?_⟩
        intro x hx
        rcases List.mem_append.mp hx with hx | hx
        · exact h2.closed x hx
        · rw [List.mem_singleton.mp hx]; exact h.tracked c hc
      · next e => rw [e] at h1; exact h1.dropConn.setConn (h.tracked c hc)

theorem dropLoser (h : Good cfg props t p) (net) : Good cfg props t (p.dropLoser net t).2 := by
  unfold Peer.dropLoser
  have h1 := h.sendTracked (net 0) (.notification Peer.collisionNotif)
  split
  · next e => rw [e] at h1; exact h1.dropTracked
  · next e => rw [e] at h1; exact h1.dropTracked

theorem userSend (h : Good cfg props t p) (net m) : Good cfg props t (p.userSend net t m).2 := by
  unfold Peer.userSend
  dsimp only
  have h1 : Good cfg props t (match p.tracked with
    | none => p
    | some c => if net 0 = SendOut.ok then { p with tracked := some (c.afterSend (net 0) t m) }
      else Peer.dropTracked { p with tracked := some (c.afterSend (net 0) t m) }) := by
    split
    · exact h
    · next c hc =>
      have := h.setTracked ((h.tracked c hc).afterSend (net 0) m)
      split
      · exact this
      · exact this.dropTracked
  split
  · exact h1
  · next c hc => exact h1.setConn ((h1.conn c hc).afterSend (net 1) m)

end Good

theorem returned_peer (n : Nat) (x : Out PeerEvent × Peer) : (Sys.returned n x).1.peer = x.2 := by
  obtain ⟨o, p⟩ := x; cases o <;> rfl
theorem returned_now (n : Nat) (x : Out PeerEvent × Peer) : (Sys.returned n x).1.now = n := by
  obtain ⟨o, p⟩ := x; cases o <;> rfl

/-- `Good` for the state of the task -/
def GoodSys (cfg : PeerConfig) (props : PeerProps) (s : Sys) : Prop := Good cfg props s.now s.peer

theorem GoodSys.returned {cfg props n} {x : Out PeerEvent × Peer} (h : Good cfg props n x.2) :
    GoodSys cfg props (Sys.returned n x).1 := by
  unfold GoodSys; rw [returned_peer, returned_now]; exact h

theorem GoodSys.afterCheck {cfg props net n hid con p k} (h : Good cfg props n p)
    (hk : GoodSys cfg props (k p).1) : GoodSys cfg props (Sys.afterCheck net n hid con p k).1 := by
  unfold Sys.afterCheck
  split
  · exact .returned (h.dropMain net)
  · exact .returned (h.dropLoser net)
  · exact h.sendTracked ..
  · exact hk

/-- the steps of the task, one constructor for each way a step can be taken -/
inductive Step (s : Sys) : Label → Sys → Option Report → Prop where
  | time {dt} : Step s (.time dt) { s with now := s.now + dt } none
  | admin {a} (hph : s.phase = .outside) :
    Step s (.admin a) { s with peer := { s.peer with waiting := s.peer.waiting ++ [a] } } none
  | userOk {m net p} (hph : s.phase = .outside) (hc : (net 0).isCancelled = false ∧ (net 1).isCancelled = false)
    (h : s.peer.userSend net s.now m = (.ok (), p)) : Step s (.user m net) { s with peer := p } none
  | userErr {m net p e} (hph : s.phase = .outside) (hc : (net 0).isCancelled = false ∧ (net 1).isCancelled = false)
    (h : s.peer.userSend net s.now m = (.error e, p)) : Step s (.user m net) ⟨p, s.now, .dead⟩ (some (.failed e))
  | callNone {net} (hph : s.phase = .outside) (hw : s.peer.waiting.getLast? = none) :
    Step s (.call net) { s with phase := .select false false false } none
  | callEvent {net a e p} (hph : s.phase = .outside) (hw : s.peer.waiting.getLast? = some a)
    (h : { s.peer with waiting := s.peer.waiting.dropLast }.admin net s.now a = (.ok (some e), p)) :
    Step s (.call net) ⟨p, s.now, .outside⟩ (some (.event p.fsm e))
  | callOn {net a p} (hph : s.phase = .outside) (hw : s.peer.waiting.getLast? = some a)
    (h : { s.peer with waiting := s.peer.waiting.dropLast }.admin net s.now a = (.ok none, p)) :
    Step s (.call net) ⟨p, s.now, .select false false false⟩ none
  | callErr {net a e p} (hph : s.phase = .outside) (hw : s.peer.waiting.getLast? = some a)
    (h : { s.peer with waiting := s.peer.waiting.dropLast }.admin net s.now a = (.err e, p)) :
    Step s (.call net) ⟨p, s.now, .dead⟩ (some (.failed e))
  | callCancelled {net a p} (hph : s.phase = .outside) (hw : s.peer.waiting.getLast? = some a)
    (h : { s.peer with waiting := s.peer.waiting.dropLast }.admin net s.now a = (.cancelled, p)) :
    Step s (.call net) ⟨p, s.now, .outside⟩ none
  | drop {h b c} (hph : s.phase = .select h b c) : Step s .drop { s with phase := .outside } none
  | connect {h b} (hph : s.phase = .select h b false) (hf : s.peer.fsm = .connect) (ha : s.peer.allowed = true) :
    Step s .connect { s with peer := { s.peer with allowed := false }, phase := .select h b true } none
  | connected {a net h b s' r} (hph : s.phase = .select h b true)
    (hr : Sys.returned s.now (s.peer.connected net s.now a) = (s', r)) : Step s (.connected a net) s' r
  | retry {h b c T s' r} (hph : s.phase = .select h b c) (hT : s.peer.retry = some T) (hd : T.next ≤ s.now)
    (hr : Sys.returned s.now (.ok .retryExpires,
      ({ (if s.peer.fsm = .active then ({ s.peer with retry := some T.tick } : Peer).to .connect
          else { s.peer with retry := some T.tick }) with
        allowed := decide ((if s.peer.fsm = .active then Fsm.connect else s.peer.fsm) = Fsm.connect) } : Peer).dropConn)
      = (s', r)) :
    Step s .retry s' r
  | main {i net h k c c1 ev s' r} (hph : s.phase = .select h false k) (hc : s.peer.conn = some c)
    (hp : c.poll s.now i = some (ev, c1))
    (hr : Sys.afterCheck net s.now h k { s.peer with conn := some c1 } (fun p =>
      Sys.returned s.now (p.handleConnEvent net s.now ev)) = (s', r)) : Step s (.main i net) s' r
  | trackedCancelled {i net k c c1 c2 ev} (hph : s.phase = .select false false k) (hc : s.peer.tracked = some c)
    (hf : s.peer.fsm ≠ .connect) (hs : c.state ≠ .openConfirm) (hp : c.poll s.now i = some (ev, c1))
    (hh : c1.handle (s.peer.policy.pre ev).openMsg net s.now ev = (.cancelled, c2)) :
    Step s (.tracked i net) { s with peer := { s.peer with policy := s.peer.policy.pre ev, tracked := some c2 } } none
  | tracked {i net k c c1 c2 ev x s' r} (hph : s.phase = .select false false k) (hc : s.peer.tracked = some c)
    (hf : s.peer.fsm ≠ .connect) (hs : c.state ≠ .openConfirm) (hp : c.poll s.now i = some (ev, c1))
    (hh : c1.handle (s.peer.policy.pre ev).openMsg net s.now ev = (x, c2)) (hx : x ≠ .cancelled)
    (hr : Sys.afterCheck (fun k => net (k + 2)) s.now false k
      { s.peer with policy := s.peer.policy.pre ev, tracked := some c2 }
      (fun p => (⟨p, s.now, .select false false k⟩, none)) = (s', r)) : Step s (.tracked i net) s' r

theorem step_inv {l s s' r} (hs : s.step l = some (s', r)) : Step s l s' r := by
  unfold Sys.step at hs
  split at hs
  · cases hs; exact .time
  · next hph => cases hs; exact .admin hph
  · next hph =>
    split at hs
    · cases hs
    · next hc =>
      have hc := Bool.not_eq_true _ ▸ hc
      rw [Bool.or_eq_false_iff] at hc
      split at hs
      · next e => cases hs; exact .userOk hph hc e
      · next e => cases hs; exact .userErr hph hc e
  · next hph =>
    split at hs
    · next hw => cases hs; exact .callNone hph hw
    · next a hw =>
      split at hs
      · next e => cases hs; exact .callEvent hph hw e
      · next e => cases hs; exact .callOn hph hw e
      · next e => cases hs; exact .callErr hph hw e
      · next e => cases hs; exact .callCancelled hph hw e
  · next hph => cases hs; exact .drop hph
  · next hph =>
    split at hs
    · next hc => cases hs; exact .connect hph hc.1 hc.2
    · cases hs
  · next hph => exact .connected hph (Option.some.inj hs)
  · next hph =>
    split at hs
    · next T hT =>
      split at hs
      · next hd =>
        refine .retry hph hT hd ?_
        rw [← Option.some.inj hs]
        by_cases hf : s.peer.fsm = .active <;> simp [hf, Peer.to]
      · cases hs
    · cases hs
  · next hph =>
    split at hs
    · cases hs
    · next c hc =>
      split at hs
      · cases hs
      · next ev c1 hp => exact .main hph hc hp (Option.some.inj hs)
  · next hph =>
    split at hs
    · cases hs
    · next c hc =>
      split at hs
      · cases hs
      · next hn =>
        have hf : s.peer.fsm ≠ .connect := fun h => hn (.inl h)
        have hst : c.state ≠ .openConfirm := fun h => hn (.inr h)
        split at hs
        · cases hs
        · next ev c1 hp =>
          dsimp only at hs
          split at hs
          · next hh => cases hs; exact .trackedCancelled hph hc hf hst hp hh
          · next x c2 hx hh => exact .tracked hph hc hf hst hp hh (fun h => hx (by rw [h])) (Option.some.inj hs)
  · cases hs

theorem fst_of {α β : Type} {x : α × β} {a b} (h : x = (a, b)) : a = x.1 := by rw [h]
theorem snd_of {α β : Type} {x : α × β} {a b} (h : x = (a, b)) : b = x.2 := by rw [h]

theorem GoodSys.step {cfg props l s s' r} (h : GoodSys cfg props s) (hs : Step s l s' r) : GoodSys cfg props s' := by
  have h : Good cfg props s.now s.peer := h
  have hw : Good cfg props s.now { s.peer with waiting := s.peer.waiting.dropLast } :=
    ⟨h.config, h.properties, h.conn, h.tracked, h.closed⟩
  cases hs with
  | time => exact h.later (Nat.le_add_right _ _)
  | admin hph => exact ⟨h.config, h.properties, h.conn, h.tracked, h.closed⟩
  | userOk hph hc e => rw [snd_of e]; exact h.userSend ..
  | userErr hph hc e => rw [snd_of e]; exact h.userSend ..
  | callNone hph _ => exact h
  | callEvent hph _ e => rw [snd_of e]; exact hw.admin ..
  | callOn hph _ e => rw [snd_of e]; exact hw.admin ..
  | callErr hph _ e => rw [snd_of e]; exact hw.admin ..
  | callCancelled hph _ e => rw [snd_of e]; exact hw.admin ..
  | drop hph => exact h
  | connect hph hf ha => exact ⟨h.config, h.properties, h.conn, h.tracked, h.closed⟩
  | connected hph hr => rw [fst_of hr]; exact .returned (h.connected ..)
  | retry hph hT hd hr =>
    rw [fst_of hr]
    refine .returned (Good.dropConn ?_)
    split <;> exact ⟨h.config, h.properties, h.conn, h.tracked, h.closed⟩
  | main hph hc hp hr =>
    have hl := h.conn _ hc
    have h1 := h.setConn (hl.lost hp)
    rw [fst_of hr]
    exact .afterCheck h1 (.returned (h1.handleConnEvent hl hp rfl))
  | @trackedCancelled i net k c c1 c2 ev hph hc hf hst hp hh =>
    have hl := (h.tracked _ hc).event (op := (s.peer.policy.pre ev).openMsg) (net := net) hp
    rw [hh] at hl
    exact (h.setPolicy (s.peer.policy.pre ev)).setTracked hl
  | @tracked i net k c c1 c2 ev x _ _ hph hc hf hst hp hh hx hr =>
    have hl := (h.tracked _ hc).event (op := (s.peer.policy.pre ev).openMsg) (net := net) hp
    rw [hh] at hl
    have h1 := (h.setPolicy (s.peer.policy.pre ev)).setTracked hl
    rw [fst_of hr]
    exact .afterCheck h1 h1

/-- every connection a peer ever had has a legitimate life -/
theorem good_exec {props cfg pol tr s} (h : Sys.Exec (Sys.init props cfg pol) tr s) : GoodSys cfg props s := by
  generalize hi : Sys.init props cfg pol = i at h
  induction h with
  | nil =>
    subst hi
    refine ⟨rfl, rfl, fun c h => absurd h (by simp [Sys.init, Peer.new]),
      fun c h => absurd h (by simp [Sys.init, Peer.new]), fun c h => absurd h (by simp [Sys.init, Peer.new])⟩
  | snoc _ hs ih => exact ih.step (step_inv hs)

end Verif.Speaker
