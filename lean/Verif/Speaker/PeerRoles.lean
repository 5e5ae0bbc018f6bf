import Verif.Speaker.PeerFrame
/-!
# Which side opened the connections of a peer
-/
namespace Verif.Speaker
open Verif Verif.Bgp

theorem handle_active {op net t ev} {c : Conn} : (c.handle op net t ev).2.active = c.active := by
  have ht : ∀ (x : Conn) s, x.active = c.active → (x.to s).active = c.active := fun _ _ h => h
  have hopen : ∀ o, (((({ c with openDelay := none }).readOpen o).negotiate).startTimers t).active = c.active :=
    fun o => (opened_same t c o).2.2.2.2.2.2.1
  have hh : (c.startHold t).active = c.active := by unfold Conn.startHold; split <;> rfl
  unfold Conn.handle
  cases c.state with
  | terminate => rfl
  | connected =>
    cases ev <;> dsimp only [Conn.handleConnected] <;> (try split) <;>
      first
        | rfl
        | exact sendThen_ind (P := fun x => x.active = c.active) (by simpa using hh) (fun _ => by simpa [Conn.to] using hh)
        | exact sendThen_ind (P := fun x => x.active = c.active) (by simpa using hopen _) (fun _ =>
            sendThen_ind (P := fun x => x.active = c.active) (by simpa using hopen _)
              (fun _ => by simpa [Conn.to] using hopen _))
        | exact trySend_ind (P := fun x => x.active = c.active) (by simp) (by simp [Conn.to])
  | openSent =>
    cases ev <;> dsimp only [Conn.handleOpenSent]
    case «open» o =>
      have ho := hopen o
      refine sendThen_ind (P := fun x => x.active = c.active) ?_ fun _ => ?_
      · simpa using ho
      · simpa [Conn.to] using ho
    all_goals
      first
        | rfl
        | exact sendThen_ind (P := fun x => x.active = c.active) (by simp) (fun _ => by simp [Conn.to])
        | exact trySend_ind (P := fun x => x.active = c.active) (by simp) (by simp [Conn.to])
  | openConfirm =>
    cases ev <;> dsimp only [Conn.handleOpenConfirm] <;>
      first
        | rfl
        | exact sendThen_ind (P := fun x => x.active = c.active) (by simp [Conn.to]) (fun _ => by simp [Conn.to])
        | exact trySend_ind (P := fun x => x.active = c.active) (by simp) (by simp [Conn.to])
  | established =>
    cases ev <;> dsimp only [Conn.handleEstablished] <;>
      first
        | rfl
        | exact sendThen_ind (P := fun x => x.active = c.active) (by simp [Conn.to]) (fun _ => by simp [Conn.to])
        | exact trySend_ind (P := fun x => x.active = c.active) (by simp) (by simp [Conn.to])

theorem transit_tracked {p : Peer} {n b a ev} : (p.transit n b a ev).2.tracked = p.tracked := by
  unfold Peer.transit
  dsimp only
  cases b <;> cases a <;> cases ev <;> dsimp only
  all_goals
    repeat' first
      | with_reducible split
      | rfl

/-- the tracked connection, if any, was opened by the other side -/
def Passive (p : Peer) : Prop := ∀ c, p.tracked = some c → c.active = false

theorem Passive.none {p : Peer} (h : p.tracked = none) : Passive p := fun c hc => by rw [h] at hc; cases hc
theorem Passive.same {p q : Peer} (h : Passive p) (ht : q.tracked = p.tracked) : Passive q := fun c hc => h c (ht ▸ hc)

theorem Passive.sendTracked {p : Peer} {o n m} (h : Passive p) : Passive (p.sendTracked o n m).2 := by
  unfold Peer.sendTracked
  split
  · exact h
  · next c hc => intro x hx; cases hx; simpa using h c hc

theorem Passive.userSend {p : Peer} {net n m} (h : Passive p) : Passive (p.userSend net n m).2 := by
  unfold Peer.userSend
  dsimp only
  have h1 : Passive (match p.tracked with
    | Option.none => p
    | some c => if net 0 = SendOut.ok then { p with tracked := some (c.afterSend (net 0) n m) }
      else Peer.dropTracked { p with tracked := some (c.afterSend (net 0) n m) }) := by
    split
    · exact h
    · next c hc =>
      split
      · intro x hx; cases hx; simpa using h c hc
      · exact .none rfl
  have key : ∀ p1 : Peer, Passive p1 → Passive (match p1.conn with
      | Option.none => ((.ok () : Except FsmErr Unit), p1)
      | some c => (if net 1 = SendOut.ok then .ok () else .error .writing,
        { p1 with conn := some (c.afterSend (net 1) n m) })).2 := by
    intro p1 h1
    split
    · exact h1
    · exact h1.same rfl
  exact key _ h1

theorem Passive.accept {p : Peer} {net n j} (h : Passive p) : Passive (p.accept net n j).2 := by
  unfold Peer.accept
  split
  · split
    · split <;> exact h
    · exact h
  · dsimp only
    have hc : (((p.stopRetry.createConnection false j).handle p.stopRetry.policy.openMsg net n .tcpConfirmed)).2.active = false :=
      handle_active
    split
    · next e =>
      rw [e] at hc
      unfold Peer.addConnection
      split
      · intro x hx; cases hx; exact hc
      · exact h.same rfl
    · exact h.same rfl
    · exact h.same rfl

theorem Passive.admin {p q : Peer} {net n a o} (h : Passive p) (hn : ∀ k, (net k).isCancelled = false)
    (he : p.admin net n a = (o, q)) : Passive q := by
  have hst : ∀ {a b}, Passive (p.startEvent a b n).2 := by
    intro a b
    have ht : (p.start n).tracked = p.tracked := by unfold Peer.start; dsimp only; split; rfl; split <;> rfl
    unfold Peer.startEvent
    split
    · exact h
    · split
      · exact h.same ht
      · exact h.same ht
  unfold Peer.admin at he
  cases a with
  | manualStart => dsimp only at he; rw [snd_of he]; exact hst
  | autoStart => dsimp only at he; rw [snd_of he]; exact hst
  | accept j => rw [snd_of he]; exact h.accept
  | manualStop =>
    dsimp only at he
    split at he <;> (next e => rw [snd_of he]; exact .none (Coh.shutdown hn e).2.1)
  | autoStop =>
    dsimp only at he
    split at he <;> (next e => rw [snd_of he]; exact .none (Coh.shutdown hn e).2.1)

theorem Passive.dropMain {p : Peer} {net n} : Passive (p.dropMain net n).2 := by
  unfold Peer.dropMain
  split
  · next e => exact .none e
  · split
    · exact .none rfl
    · next s _ =>
      dsimp only
      have hk : (({ p.count with tracked := Option.none }.to s).sendMain (net 0) n (.notification Peer.collisionNotif)).2.tracked = Option.none := by
        unfold Peer.sendMain; split <;> rfl
      split
      · next e => rw [e] at hk; exact .none hk
      · next e => rw [e] at hk; exact .none hk

theorem Passive.dropLoser {p : Peer} {net n} : Passive (p.dropLoser net n).2 := by
  unfold Peer.dropLoser
  split <;> exact .none rfl

theorem Passive.handleConnEvent {p : Peer} {net n ev} (h : Passive p) : Passive (p.handleConnEvent net n ev).2 := by
  unfold Peer.handleConnEvent
  split
  · split <;> exact h.same rfl
  · dsimp only
    split
    · exact h.same transit_tracked
    · exact h.same rfl
    · exact h.same rfl

/-- the roles of the connections without open delay -/
structure RoleSys (s : Sys) : Prop where
  delay : s.peer.config.openDelay = 0
  tracked : Passive s.peer
  connecting : ∀ h b, s.phase = .select h b true → s.peer.fsm = .connect ∧ s.peer.conn = none

theorem RoleSys.step {s l s' r} (h : RoleSys s) (hco : CohSys s) (hc : Calm s l) (hs : Step s l s' r) : RoleSys s' := by
  have hret : ∀ {x : Out PeerEvent × Peer} {s' r}, Sys.returned s.now x = (s', r) → x.2.config.openDelay = 0 →
      Passive x.2 → RoleSys s' := by
    intro x s' r hr h1 h2
    obtain ⟨o, p⟩ := x
    cases o <;> (rw [fst_of hr]; exact ⟨h1, h2, fun _ _ h => nomatch h⟩)
  have hdelay : s'.peer.config.openDelay = 0 := by rw [(step_config hs).1]; exact h.delay
  have hadm : ∀ {net a o q}, { s.peer with waiting := s.peer.waiting.dropLast }.admin net s.now a = (o, q) →
      q.config.openDelay = 0 := fun he => by rw [(admin_same he).1]; exact h.delay
  have hw : Passive { s.peer with waiting := s.peer.waiting.dropLast } := h.tracked.same rfl
  cases hs with
  | time => exact ⟨h.delay, h.tracked, h.connecting⟩
  | admin hph => exact ⟨h.delay, h.tracked.same rfl, fun a b e => nomatch hph.symm.trans e⟩
  | userOk hph _ e =>
    refine ⟨hdelay, ?_, fun a b e => nomatch hph.symm.trans e⟩
    show Passive _; rw [snd_of e]; exact h.tracked.userSend
  | userErr hph _ e =>
    refine ⟨hdelay, ?_, fun a b e => nomatch e⟩
    show Passive _; rw [snd_of e]; exact h.tracked.userSend
  | callNone hph _ => exact ⟨h.delay, h.tracked, fun a b e => nomatch e⟩
  | callEvent hph hl e => exact ⟨hadm e, hw.admin hc.1 e, fun a b e => nomatch e⟩
  | callOn hph hl e => exact ⟨hadm e, hw.admin hc.1 e, fun a b e => nomatch e⟩
  | callErr hph hl e => exact ⟨hadm e, hw.admin hc.1 e, fun a b e => nomatch e⟩
  | callCancelled hph hl e => exact ⟨hadm e, hw.admin hc.1 e, fun a b e => nomatch e⟩
  | drop hph => exact ⟨h.delay, h.tracked, fun a b e => nomatch e⟩
  | connect hph hf ha =>
    refine ⟨h.delay, h.tracked.same rfl, fun a b e => ⟨hf, ?_⟩⟩
    have hco : Coh s.peer := hco.resolve_left (by rw [hph]; simp)
    cases hp : s.peer.conn with
    | none => rfl
    | some c =>
      obtain ⟨h1, h2⟩ := hco.up c hp
      have := h2 h.delay
      rw [hf] at h1
      exfalso
      cases hs : c.state <;> rw [hs] at h1 this <;> first | exact absurd rfl this | cases h1
  | @connected a net _ _ _ _ hph hr =>
    obtain ⟨hf, hn⟩ := h.connecting _ _ hph
    refine hret hr (by rw [same_connected.config]; exact h.delay) ?_
    unfold Peer.connected
    cases a with
    | none => exact h.tracked.same rfl
    | some j =>
      dsimp only
      split
      · unfold Peer.addConnection
        rw [if_neg (by show ¬ (s.peer.conn.isSome = true); rw [hn]; simp)]
        exact h.tracked.same rfl
      · exact h.tracked.same rfl
      · exact h.tracked.same rfl
  | retry hph hT hd hr =>
    refine hret hr ?_ ?_
    · split <;> exact h.delay
    · split <;> exact h.tracked.same rfl
  | @main i net hid k c c1 ev _ _ hph hcn hp hr =>
    have hk : k = false := by
      cases k with
      | false => rfl
      | true => rw [(h.connecting _ _ hph).2] at hcn; cases hcn
    subst hk
    have h1 : Passive { s.peer with conn := some c1 } := h.tracked.same rfl
    unfold Sys.afterCheck at hr
    split at hr
    · exact hret hr (by rw [same_dropMain.config]; exact h.delay) .dropMain
    · exact hret hr (by rw [same_dropLoser.config]; exact h.delay) .dropLoser
    · dsimp only at hr
      refine ⟨hdelay, ?_, ?_⟩
      · rw [fst_of hr]; exact h1.sendTracked
      · rw [fst_of hr]; intro a b e; simp at e
    · exact hret hr (by rw [same_handleConnEvent.config]; exact h.delay) h1.handleConnEvent
  | @trackedCancelled i net k c c1 c2 ev hph hcn hf hst hp hh =>
    refine ⟨h.delay, ?_, fun a b e => absurd (h.connecting a b e).1 hf⟩
    intro x hx
    cases hx
    rw [snd_of hh, handle_active, (poll_same hp).active]; exact h.tracked c hcn
  | @tracked i net k c c1 c2 ev x _ _ hph hcn hf hst hp hh hx hr =>
    have hk : k = false := by
      cases k with
      | false => rfl
      | true => exact absurd (h.connecting _ _ hph).1 hf
    subst hk
    have h1 : Passive { s.peer with policy := s.peer.policy.pre ev, tracked := some c2 } := by
      intro x hx; cases hx
      rw [snd_of hh, handle_active, (poll_same hp).active]; exact h.tracked c hcn
    unfold Sys.afterCheck at hr
    split at hr
    · exact hret hr (by rw [same_dropMain.config]; exact h.delay) .dropMain
    · exact hret hr (by rw [same_dropLoser.config]; exact h.delay) .dropLoser
    · dsimp only at hr
      refine ⟨hdelay, ?_, ?_⟩
      · rw [fst_of hr]; exact h1.sendTracked
      · rw [fst_of hr]; intro a b e; simp at e
    · rw [fst_of hr]; exact ⟨h.delay, h1, fun a b e => nomatch e⟩

theorem role_exec {props cfg pol tr s} (h : ExecIf Calm (Sys.init props cfg pol) tr s) (hd : cfg.openDelay = 0) :
    RoleSys s := by
  generalize hi : Sys.init props cfg pol = i at h
  induction h with
  | nil => subst hi; exact ⟨hd, .none rfl, fun _ _ h => nomatch h⟩
  | snoc he hc hs ih =>
    subst hi
    exact ih.step (coh_exec he) hc (step_inv hs)

end Verif.Speaker
