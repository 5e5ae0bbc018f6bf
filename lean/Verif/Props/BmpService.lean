import Verif.BmpService.Access
/-!
# C179–C186: the actor that accepts connections of BMP
-/
namespace Verif.Props
open Verif Verif.Collector
open Verif.BmpService hiding Actor Task
open Verif.Service (Addr Chan Sending)

variable {π : Type}

namespace BmpSvc

def p1 : Addr := ⟨1, 1000⟩
def p2 : Addr := ⟨2, 2000⟩
/-- a hash for the examples -/
def hash : Addr → Nat := fun x => x.ip + x.port
/-- the actor of the examples -/
def actor : BmpService.Actor Nat := .new 7 ⟨0, 1790⟩
/-- what is seen of a run of the actor of the examples -/
def seen (es : List (Event Nat)) : List (Effect Nat) := (actor.run hash es).2
/-- the actor of the examples after a run -/
def after (es : List (Event Nat)) : BmpService.Actor Nat := (actor.run hash es).1

end BmpSvc
open BmpSvc

/-- a connection is open: its task runs -/
def OpenConnection (t : Nat) (a : BmpService.Actor π) : Prop := ∃ k : BmpService.Task π, a.tasks[t]? = some k ∧ k.running = true

/-! ## C179 -/

/-- C179: a connection taken while a subscriber is subscribed gives it all the messages it takes, once, in order and on one channel, whatever
else happens in between: all but, at most, the last one, which may still be on its way -/
theorem c179_all (hash : Addr → Nat) (i : Nat) (ad p : Addr) {pre mid post : List (Event π)} {chans : List Chan} (hch : chans ≠ [])
    (hr : Runs (pre ++ .command (.subscribe chans) :: mid))
    (hn : subscriptions (pre ++ .command (.subscribe chans) :: (mid ++ .accept p :: post)) < 2 ^ 32)
    (hst : Stays (subscriptionId pre) (mid ++ .accept p :: post)) :
    let out := ((BmpService.Actor.new i ad).run hash (pre ++ .command (.subscribe chans) :: (mid ++ .accept p :: post))).2
    let t := (connections (pre ++ .command (.subscribe chans) :: mid)).length
    ∃ c ∈ chans,
      (receivedBy t out).map (fun m => (c, p, m)) = offersTo t (subscriptionId pre) out ∨
      ∃ m, (receivedBy t out).map (fun m => (c, p, m)) = offersTo t (subscriptionId pre) out ++ [(c, p, m)] := by
  intro out t
  have hone : subscriptions [Event.command (π := π) (.subscribe chans)] = 1 := rfl
  have hacc : subscriptions [Event.accept (π := π) p] = 0 := rfl
  rw [subscriptions_append, subscriptions_cons, subscriptions_append, subscriptions_cons (.accept p), hone, hacc] at hn
  obtain ⟨a, ha, h1, h2, h3, h4, -⟩ := at_subscription (hash := hash) (chans := chans) i ad (runs_left hr) (by omega)
  have hrm : Runs mid := fun e he => hr e (List.mem_append_right _ (List.mem_cons_of_mem _ he))
  have hsplit : pre ++ .command (.subscribe chans) :: mid = (pre ++ [.command (.subscribe chans)]) ++ mid := by simp
  obtain ⟨h5, h6, h7⟩ := run_known (hash := hash) mid h1 (by omega)
  have h8 := run_has (hash := hash) mid h1 (by omega) h4 (stays_left hst)
  have h9 := run_next (hash := hash) (a := a) mid h2 hrm (by omega)
  have hb : ((BmpService.Actor.new i ad).run hash (pre ++ .command (.subscribe chans) :: mid)).1 = (a.run hash mid).1 := by
    rw [hsplit, run_append, ha]
  have hlen : ((BmpService.Actor.new i ad : BmpService.Actor π).run hash (pre ++ .command (.subscribe chans) :: mid)).1.tasks.length = t := by
    rw [run_length _ rfl hr]; show 0 + _ = _; rw [Nat.zero_add]
  have hbefore := before_accept (hash := hash) (a := (BmpService.Actor.new i ad : BmpService.Actor π)) (t := t) _ rfl hr (by
    show 0 + _ ≤ _; rw [Nat.zero_add]; exact Nat.le_refl _)
  have hout : out = ((BmpService.Actor.new i ad).run hash (pre ++ .command (.subscribe chans) :: mid)).2 ++
      (((a.run hash mid).1.run hash (.accept p :: post)).2) := by
    show ((BmpService.Actor.new i ad).run hash _).2 = _
    have : pre ++ .command (.subscribe chans) :: (mid ++ .accept p :: post) = (pre ++ .command (.subscribe chans) :: mid) ++ .accept p :: post := by simp
    rw [this, run_append, hb]
  rw [hb] at hlen
  generalize (a.run hash mid).1 = b at *
  obtain ⟨b', g1, g2, g3, g4, g5⟩ := at_accept (hash := hash) p h9.1
  rw [hlen] at g5
  have hkb : Known b' := ⟨by rw [g3]; exact h5.uniq, by rw [g2, g3]; exact h5.below⟩
  obtain ⟨c, hc1, hc2⟩ := pick_some hash p hch
  obtain ⟨k', -, k2, k3⟩ := run_owed (hash := hash) (t := t) post (k := Task.fresh p b.subscribers) hkb (by rw [g2]; omega) (by rw [g3]; exact h8)
    (fun e he => hst e (List.mem_append_right _ (List.mem_cons_of_mem _ he))) g5 hc2 ⟨⟨h5.uniq, h8⟩, fun _ hx => by cases hx⟩ (.inl rfl)
  refine ⟨c, hc1, ?_⟩
  rw [run_cons, g1] at hout
  obtain ⟨e1, e2⟩ := offers_of_filter (s := subscriptionId pre) hbefore
  rw [hout, receivedBy_append, offersTo_append, e1, e2]
  simp only [List.nil_append]
  have k3' : (receivedBy t (b'.run hash post).2).map (fun m => (c, p, m)) =
      offersTo t (subscriptionId pre) (b'.run hash post).2 ++ (owed (subscriptionId pre) k').map (fun e => (c, p, e.2)) := k3
  rcases k2 with k2 | ⟨m, k2⟩
  · left; rw [k3', k2]; simp
  · right; exact ⟨m, by rw [k3', k2]; rfl⟩

/-- two connections and a second subscriber; the second connection is in the middle of a message, the first one has ended -/
example : receivedBy 0 (seen [.command (.subscribe [5, 6]), .accept p1, .command (.subscribe [8]), .message 0 10, .accept p2, .send 0 .sent, .update 0,
      .message 0 11, .send 0 .timeout, .message 1 20, .send 0 .sent, .eof 0, .message 0 12, .notice]) = [10, 11] ∧
    offersTo 0 0 (seen [.command (.subscribe [5, 6]), .accept p1, .command (.subscribe [8]), .message 0 10, .accept p2, .send 0 .sent, .update 0,
      .message 0 11, .send 0 .timeout, .message 1 20, .send 0 .sent, .eof 0, .message 0 12, .notice]) = [(6, p1, 10), (6, p1, 11)] ∧
    offersTo 1 0 (seen [.command (.subscribe [5, 6]), .accept p1, .command (.subscribe [8]), .message 0 10, .accept p2, .send 0 .sent, .update 0,
      .message 0 11, .send 0 .timeout, .message 1 20, .send 0 .sent, .eof 0, .message 0 12, .notice]) = [] := by decide

/-! ## C180 -/

/-- C180: a connection taken after a subscriber was unsubscribed gives it nothing -/
theorem c180_none (hash : Addr → Nat) (i : Nat) (ad p : Addr) {pre mid mid' post : List (Event π)} {chans : List Chan}
    (hr : Runs (pre ++ .command (.subscribe chans) :: (mid ++ .command (.unsubscribe (subscriptionId pre)) :: mid')))
    (hn : subscriptions (pre ++ .command (.subscribe chans) :: (mid ++ .command (.unsubscribe (subscriptionId pre)) :: (mid' ++ .accept p :: post))) < 2 ^ 32) :
    offersTo (connections (pre ++ .command (.subscribe chans) :: (mid ++ .command (.unsubscribe (subscriptionId pre)) :: mid'))).length (subscriptionId pre)
      ((BmpService.Actor.new i ad).run hash
        (pre ++ .command (.subscribe chans) :: (mid ++ .command (.unsubscribe (subscriptionId pre)) :: (mid' ++ .accept p :: post)))).2 = [] := by
  have hone : subscriptions [Event.command (π := π) (.subscribe chans)] = 1 := rfl
  have hun : subscriptions [Event.command (π := π) (.unsubscribe (subscriptionId pre))] = 0 := rfl
  have hacc : subscriptions [Event.accept (π := π) p] = 0 := rfl
  have hn' := hn
  rw [subscriptions_append, subscriptions_cons, subscriptions_append, subscriptions_cons (.command (.unsubscribe _)), subscriptions_append,
    subscriptions_cons (.accept p), hone, hun, hacc] at hn
  obtain ⟨a, ha, h1, h2, h3, h4, -⟩ := at_subscription (hash := hash) (chans := chans) i ad (runs_left hr) (by omega)
  have hrm : Runs (mid ++ .command (.unsubscribe (subscriptionId pre)) :: mid') := fun e he => hr e (List.mem_append_right _ (List.mem_cons_of_mem _ he))
  obtain ⟨h5, -, -⟩ := run_known (hash := hash) mid h1 (by omega)
  have h6 := run_next (hash := hash) (a := a) mid h2 (runs_left hrm) (by omega)
  -- after it is unsubscribed
  have hst : ((a.run hash mid).1.step hash (.command (.unsubscribe (subscriptionId pre)))).1.next = (a.run hash mid).1.next ∧
      Lacks (subscriptionId pre) ((a.run hash mid).1.step hash (.command (.unsubscribe (subscriptionId pre)))).1.subscribers := by
    obtain ⟨s1, s2, -⟩ := step_subs (hash := hash) (a.run hash mid).1 (.command (.unsubscribe (subscriptionId pre)))
    refine ⟨by rw [s2, if_neg]; simp [Event.isSubscribe], ?_⟩
    rw [s1]
    simp only [Actor.subsAfter, h6.1, Bool.false_eq_true, if_false]
    unfold Lacks
    rw [lookup_del, if_pos rfl]
  obtain ⟨h7, -, -⟩ := step_known (hash := hash) h5 (e := .command (.unsubscribe (subscriptionId pre))) (by rw [hun]; omega)
  have hid := subscriptionId_toNat (pre := pre) (by omega)
  obtain ⟨hr2, hr3⟩ : Runs mid ∧ Runs mid' := ⟨runs_left hrm, fun e he => hrm e (List.mem_append_right _ (List.mem_cons_of_mem _ he))⟩
  have ho1 : ((a.run hash mid).1.step hash (.command (.unsubscribe (subscriptionId pre)))).1.over = false := by
    rw [(step_subs (hash := hash) _ _).2.2, h6.1]; rfl
  have hsplit : pre ++ .command (.subscribe chans) :: (mid ++ .command (.unsubscribe (subscriptionId pre)) :: mid') =
      (pre ++ [.command (.subscribe chans)]) ++ (mid ++ .command (.unsubscribe (subscriptionId pre)) :: mid') := by simp
  have hb : ((BmpService.Actor.new i ad).run hash
      (pre ++ .command (.subscribe chans) :: (mid ++ .command (.unsubscribe (subscriptionId pre)) :: mid'))).1 =
      ((((a.run hash mid).1.step hash (.command (.unsubscribe (subscriptionId pre)))).1.run hash mid')).1 := by
    rw [hsplit, run_append, ha, run_append, run_cons]
  have hlen := run_length (hash := hash) (a := (BmpService.Actor.new i ad : BmpService.Actor π)) _ rfl hr
  have hbefore := before_accept (hash := hash) (a := (BmpService.Actor.new i ad : BmpService.Actor π)) _ rfl hr (Nat.le_refl _)
  have h0 : (BmpService.Actor.new i ad : BmpService.Actor π).tasks.length = 0 := rfl
  rw [h0, Nat.zero_add] at hlen hbefore
  have hfull : pre ++ .command (.subscribe chans) :: (mid ++ .command (.unsubscribe (subscriptionId pre)) :: (mid' ++ .accept p :: post)) =
      (pre ++ .command (.subscribe chans) :: (mid ++ .command (.unsubscribe (subscriptionId pre)) :: mid')) ++ .accept p :: post := by simp
  rw [hfull, run_append, offersTo_append, (offers_of_filter hbefore).1, List.nil_append, hb]
  rw [hb] at hlen
  generalize hu : ((a.run hash mid).1.step hash (.command (.unsubscribe (subscriptionId pre)))).1 = u at *
  have hnu : u.next.toNat = subscriptions pre + 1 + subscriptions mid := by rw [hst.1, h6.2, h3]
  obtain ⟨h8, -, h9⟩ := run_known (hash := hash) mid' h7 (by omega)
  have h10 := run_gone (hash := hash) mid' h7 (by omega) hst.2 (by omega)
  have h11 := run_next (hash := hash) (a := u) mid' ho1 hr3 (by omega)
  generalize (u.run hash mid').1 = b at *
  obtain ⟨b', g1, g2, g3, g4, g5⟩ := at_accept (hash := hash) p h11.1
  rw [run_cons, g1]
  rw [hlen] at g5
  refine run_lacks (hash := hash) post (k := Task.fresh p b.subscribers) ⟨by rw [g3]; exact h8.uniq, by rw [g2, g3]; exact h8.below⟩ (by rw [g2]; omega)
    (by rw [g3]; exact h10) (by rw [g2]; omega) g5 ⟨h10, fun _ hx => by cases hx⟩ rfl

/-- another subscriber gets what the unsubscribed one does not -/
example : offersTo 0 0 (seen [.command (.subscribe [5]), .command (.subscribe [8]), .command (.unsubscribe 0), .accept p1, .message 0 10, .send 0 .sent]) = [] ∧
    offersTo 0 1 (seen [.command (.subscribe [5]), .command (.subscribe [8]), .command (.unsubscribe 0), .accept p1, .message 0 10, .send 0 .sent]) = [(8, p1, 10)] := by
  decide

/-! ## C181 -/

/-- C181: a connection is at most 17 updates behind: once it took those that wait it gives a message to exactly those that are subscribed, each once -/
theorem c181_partial (hash : Addr → Nat) (i : Nat) (ad : Addr) {es : List (Event π)} (hr : Runs es) (hc : Channels es) (m : π) (hows : List Sending) {t : Nat}
    {k : BmpService.Task π} (a : BmpService.Actor π) (ha : a = ((BmpService.Actor.new i ad).run hash es).1) (ht : a.tasks[t]? = some k)
    (hrun : k.running = true) (hidle : k.todo = []) (hlen : hows.length = a.subscribers.length) :
    (a.run hash (List.replicate 17 (.update t) ++ .message t m :: hows.map (.send t))).2 =
      .received t m :: (a.subscribers.zip hows).filterMap fun x => (pick hash k.peer x.1.2).map fun c => .offer t x.1.1 c k.peer m x.2 := by
  have hcur : Informed a := by rw [ha]; exact informed i ad es
  have hnext : a.over = false := by rw [ha]; exact run_over es rfl hr
  have hsound : AllSound a := by
    rw [ha]
    exact run_allSound es (allSound_new i ad) hc
  obtain ⟨b, k', h1, h2, h3, h4, h5, h6⟩ := updates (hash := hash) 17 ht hrun hidle hnext (hcur t k ht) (behind_le (hcur t k ht))
  rw [run_append, h1]
  simp only [List.nil_append]
  rw [run_cons]
  have hst : b.step hash (.message t m) = ({ b with
      received := b.received + 1
      tasks := b.tasks.set t { k' with todo := k'.view.map fun e => (e.1, e.2, m) } }, [.received t m]) := by
    simp only [BmpService.Actor.step, BmpService.Actor.idle, h2, h3, h4]
    simp
  rw [hst]
  simp only
  rw [sends (hash := hash) t m hows a.subscribers (k := { k' with todo := k'.view.map fun e => (e.1, e.2, m) }) hlen hsound.1 (getElem_setSelf h2) h3 (by
    dsimp only; rw [h5])]
  dsimp only
  rw [h6]
  rfl

/-- a connection that is 20 updates behind: four are lost, and it catches up -/
example : offersTo 0 3 ((after (.accept p1 :: (List.replicate 20 (.command (.subscribe [4]))))).run hash (List.replicate 17 (.update 0) ++
    .message 0 10 :: List.replicate 20 (.send 0 .sent))).2 = [(4, p1, 10)] := by decide +kernel

/-- C181 is false when no update is awaited: a message that is taken after the answer to the subscription is not given to the subscriber, and one taken
after the answer to its unsubscription is -/
theorem c181_disproved :
    (∃ es, seen es = [.subscribed 7 0, .received 0 10] ∧ Channels es ∧ Runs es ∧ offersTo 0 0 (seen (es ++ [.send 0 .sent])) = []) ∧
    (∃ es, seen es = [.subscribed 7 0, .unsubscribed (some (7, 0)), .received 0 10, .offer 0 0 5 p1 10 .sent] ∧ Channels es ∧ Runs es) := by
  refine ⟨⟨[.accept p1, .command (.subscribe [5]), .message 0 10], by decide, ?_, ?_, by decide⟩,
    ⟨[.command (.subscribe [5]), .accept p1, .command (.unsubscribe 0), .message 0 10, .send 0 .sent], by decide, ?_, ?_⟩⟩
  · intro e he l hl; subst hl; simp at he; simp [he]
  · intro e he; simp at he; rcases he with rfl | rfl | rfl <;> rfl
  · intro e he l hl; subst hl; simp at he; simp [he]
  · intro e he; simp at he; rcases he with rfl | rfl | rfl | rfl | rfl <;> rfl

/-! ## C182 -/

/-- C182: when no peer comes back from the same address and port, the answer to a query for the peers lists all connections that are open; and only those,
when all notices of connections that have ended were taken and none was lost -/
theorem c182_partial (hash : Addr → Nat) (i : Nat) (ad : Addr) {es : List (Event π)} (hr : Runs es) (hf : Fresh es) :
    let a := ((BmpService.Actor.new i ad).run hash es).1
    ∃ x l, a.step hash (.command .peers) = (a, [.peers x l]) ∧
      (∀ t p, (connections es)[t]? = some p → OpenConnection t a → p ∈ l) ∧
      (Channels es → a.notices = [] → a.lost = 0 → ∀ p ∈ l, ∃ t, (connections es)[t]? = some p ∧ OpenConnection t a) := by
  intro a
  have hpeers := run_peers (hash := hash) (a := (BmpService.Actor.new i ad : BmpService.Actor π)) es rfl hr
  have ht : Tracked a (connections es) := tracked i ad hf
  have ho : a.over = false := run_over es rfl hr
  have hp : a.tasks.map (·.peer) = connections es := hpeers.trans (List.nil_append _)
  refine ⟨a.id, a.table.map (·.1), by simp [BmpService.Actor.step, BmpService.Actor.handle, ho], ?_, ?_⟩
  · rintro t p hc ⟨k, hk, hkr⟩
    rw [← hp, List.getElem?_map, hk] at hc
    obtain rfl : k.peer = p := Option.some.inj hc
    exact List.mem_map.2 ⟨_, mem_of_lookup (ht.listed ho t k hk hkr), rfl⟩
  · intro hch hn hl p hm
    have hs : Stale a := run_stale es (tracked_new i ad) (by rw [List.nil_append]; exact hf) (allSound_new i ad) hch rfl hr
      fun p t k h => (by cases h)
    obtain ⟨⟨q, t⟩, hq, rfl⟩ := List.mem_map.1 hm
    have hlook := lookup_of_mem (entries i ad es).uniq hq
    obtain ⟨k, hk, hkp⟩ := ht.entry q t hlook
    refine ⟨t, ?_, k, hk, ?_⟩
    · rw [← hp, List.getElem?_map, hk, Option.map_some, hkp]
    · cases hkr : k.running with
      | true => rfl
      | false =>
        rcases hs q t k hlook hk hkr with h | h
        · rw [hn] at h; cases h
        · rw [hl] at h; exact absurd h (Nat.lt_irrefl 0)

/-- one of two connections has ended -/
example : (seen [.accept p1, .accept p2, .eof 0, .command .peers, .notice, .command .peers]) = [.peers 7 [p1, p2], .peers 7 [p2]] := by decide

/-- C182 is false: when a peer comes back before the notice of its earlier connection is taken, the notice removes the new connection from the list, which stays
open and goes on to give messages -/
theorem c182_disproved :
    ∃ es, Runs es ∧ Channels es ∧ OpenConnection 1 (after es) ∧ (after es).notices = [] ∧ (after es).lost = 0 ∧
      seen (es ++ [.command .peers, .message 1 10, .send 1 .sent]) = [.subscribed 7 0, .peers 7 [], .received 1 10, .offer 1 0 5 p1 10 .sent] := by
  refine ⟨[.command (.subscribe [5]), .accept p1, .eof 0, .accept p1, .notice], ?_, ?_, ⟨⟨p1, [(0, [5])], [], [], false, true⟩, rfl, rfl⟩, rfl, rfl, by decide⟩
  · intro e he; simp at he; rcases he with rfl | rfl | rfl | rfl | rfl <;> rfl
  · intro e he l hl; subst hl; simp at he; simp [he]

/-! ## C183 -/

/-- C183: when no peer comes back from the same address and port, nothing is seen of the connection of a peer after it is disconnected, and nothing of any
connection after the actor is shut down -/
theorem c183_partial (hash : Addr → Nat) (i : Nat) (ad : Addr) {pre post : List (Event π)} (hr : Runs pre) (hf : Fresh pre) :
    (∀ t p, (connections pre)[t]? = some p →
      (((BmpService.Actor.new i ad).run hash (pre ++ [.command (.disconnect p)])).1.run hash post).2.filter (Effect.of t) = []) ∧
    (((BmpService.Actor.new i ad).run hash (pre ++ [.command .shutdown])).1.run hash post).2 = [] := by
  have hpeers := run_peers (hash := hash) (a := (BmpService.Actor.new i ad : BmpService.Actor π)) pre rfl hr
  have ht : Tracked ((BmpService.Actor.new i ad).run hash pre).1 (connections pre) := tracked i ad hf
  have ho : ((BmpService.Actor.new i ad : BmpService.Actor π).run hash pre).1.over = false := run_over pre rfl hr
  have hp : ((BmpService.Actor.new i ad : BmpService.Actor π).run hash pre).1.tasks.map (·.peer) = connections pre := by
    simpa [BmpService.Actor.new] using hpeers
  refine ⟨fun t p hc => ?_, ?_⟩
  · rw [run_append]
    generalize ((BmpService.Actor.new i ad : BmpService.Actor π).run hash pre).1 = a at *
    rw [← hp, List.getElem?_map] at hc
    rcases hk : a.tasks[t]? with _ | k
    · rw [hk] at hc; cases hc
    · rw [hk] at hc
      obtain rfl : k.peer = p := Option.some.inj hc
      obtain ⟨h1, -⟩ := step_taskStep (hash := hash) ht (.command (.disconnect k.peer)) (fun _ h => by cases h) hk
      simp only [taskStep, ho, true_and, if_true] at h1
      exact run_stopped post h1 rfl
  · rw [run_append]
    generalize ((BmpService.Actor.new i ad : BmpService.Actor π).run hash pre).1 = a at *
    show (((a.step hash (.command .shutdown)).1).run hash post).2 = []
    rw [run_silent]
    refine ⟨by rw [(step_subs (hash := hash) a _).2.2]; simp [Event.ends], fun t k' hk' => ?_⟩
    rcases step_task_inv a _ hk' with ⟨k, hk, -⟩ | ⟨q, hq, -⟩
    · obtain ⟨h1, -⟩ := step_taskStep (hash := hash) ht (.command .shutdown) (fun _ h => by cases h) hk
      simp only [taskStep, ho, Bool.false_eq_true, if_false] at h1
      rw [hk'] at h1
      rw [Option.some.inj h1]
    · simp [Actor.taking, Event.accepts] at hq

/-- a peer that is disconnected in the middle of a message -/
example : seen [.command (.subscribe [5]), .command (.subscribe [6]), .accept p1, .message 0 10, .send 0 .sent, .command (.disconnect p1), .send 0 .sent, .message 0 11] =
    [.subscribed 7 0, .subscribed 7 1, .received 0 10, .offer 0 0 5 p1 10 .sent, .disconnected 7 true] := by decide

/-- C183 is false: a peer that came back before the notice of its earlier connection was taken is not disconnected, and messages of it are given to subscribers
after the actor said that it stops -/
theorem c183_disproved :
    ∃ es, Runs es ∧ Channels es ∧
      seen (es ++ [.command (.disconnect p1), .message 1 10, .send 1 .sent, .command .shutdown, .message 1 11, .send 1 .sent]) =
        [.subscribed 7 0, .disconnected 7 false, .received 1 10, .offer 1 0 5 p1 10 .sent, .stopping 7, .received 1 11, .offer 1 0 5 p1 11 .sent] := by
  refine ⟨[.command (.subscribe [5]), .accept p1, .eof 0, .accept p1, .notice], ?_, ?_, by decide⟩
  · intro e he; simp at he; rcases he with rfl | rfl | rfl | rfl | rfl <;> rfl
  · intro e he l hl; subst hl; simp at he; simp [he]

/-! ## C184 -/

/-- C184: the counters tell what happened: messages taken, sends that were done and that were not; and as long as the actor runs the connections taken are
those counted as closed and those listed -/
theorem c184_counters (hash : Addr → Nat) (i : Nat) (ad : Addr) (es : List (Event π)) :
    let r := (BmpService.Actor.new i ad).run hash es
    r.1.received = (allReceived r.2).length ∧ r.1.sent = (sendings r.2).count .sent ∧ r.1.sent + r.1.dropped = (sendings r.2).length ∧
      (Runs es → r.1.accepted = (connections es).length ∧ (connections es).length = r.1.closed + r.1.table.length) := by
  intro r
  obtain ⟨h1, h2, h3⟩ := run_counts (hash := hash) es (BmpService.Actor.new i ad)
  have z1 : (BmpService.Actor.new i ad : BmpService.Actor π).received = 0 := rfl
  have z2 : (BmpService.Actor.new i ad : BmpService.Actor π).sent = 0 := rfl
  have z3 : (BmpService.Actor.new i ad : BmpService.Actor π).dropped = 0 := rfl
  rw [z1, Nat.zero_add] at h1
  rw [z2, Nat.zero_add] at h2
  rw [z2, z3, Nat.zero_add] at h3
  refine ⟨h1, h2, h3, fun hr => ?_⟩
  have hgen : ∀ (l : List (Event π)) (b : BmpService.Actor π), b.over = false → Runs l →
      (b.run hash l).1.over = false ∧ (b.run hash l).1.accepted = b.accepted + (connections l).length := by
    intro l
    induction l with
    | nil => exact fun _ h _ => ⟨h, rfl⟩
    | cons e l ih =>
      intro b hb hrl
      rw [run_cons]
      obtain ⟨g1, g2⟩ := ih (b.step hash e).1 (by rw [(step_subs (hash := hash) b e).2.2, hb, hrl e (List.mem_cons_self ..)]; rfl)
        fun x hx => hrl x (List.mem_cons_of_mem _ hx)
      refine ⟨g1, ?_⟩
      dsimp only
      rw [g2, (step_counts (hash := hash) b e).2.2.2]
      unfold Actor.taking connections
      rw [hb, List.filterMap_cons]
      cases e.accepts <;> simp
      omega
  obtain ⟨g1, g2⟩ := hgen es (BmpService.Actor.new i ad) rfl hr
  have z4 : (BmpService.Actor.new i ad : BmpService.Actor π).accepted = 0 := rfl
  rw [z4, Nat.zero_add] at g2
  refine ⟨g2, ?_⟩
  rw [← balanced (hash := hash) i ad es g1]
  exact g2.symm

/-- a replaced, an open and an ended connection, a send that is late -/
example : let a := after [.command (.subscribe [5]), .accept p1, .accept p2, .message 0 10, .send 0 .timeout, .accept p1, .eof 1, .notice, .message 2 11, .send 2 .sent]
    (a.received, a.sent, a.dropped, a.accepted, a.closed, a.table.map (·.1)) = (2, 1, 1, 3, 2, [p1]) := by decide

/-! ## C185 -/

/-- C185: what is seen of a connection depends on its own data, on commands and on which connections are taken, and not on what other connections do, when no
peer comes back from the same address and port -/
theorem c185_contained (hash : Addr → Nat) (i : Nat) (ad : Addr) (t : Nat) {es : List (Event π)} (hf : Fresh es) :
    ((BmpService.Actor.new i ad).run hash es).2.filter (Effect.of t) =
      ((BmpService.Actor.new i ad).run hash (es.filter (Event.concerns t))).2.filter (Effect.of t) :=
  run_alike es ⟨rfl, rfl, rfl, rfl, rfl⟩ (tracked_new i ad) (tracked_new i ad) (by rw [List.nil_append]; exact hf)

/-- the other connection sends something malformed -/
example : (([.command (.subscribe [5]), .accept p1, .accept p2, .message 1 20, .message 0 10, .send 1 .sent, .malformed 1, .notice, .send 0 .sent] :
      List (Event Nat)).filter (Event.concerns 0)).length = 5 ∧
    (seen [.command (.subscribe [5]), .accept p1, .accept p2, .message 1 20, .message 0 10, .send 1 .sent, .malformed 1, .notice, .send 0 .sent]).filter (Effect.of 0) =
      [.received 0 10, .offer 0 0 5 p1 10 .sent] := by decide

/-! ## C186 -/

/-- C186: when subscriptions are with at least one channel, a connection stays open until its peer ends it or sends something malformed, it is disconnected or
replaced, or the actor ends -/
theorem c186_partial (hash : Addr → Nat) (i : Nat) (ad p : Addr) {pre post : List (Event π)} (hr : Runs pre) (hc : Channels (pre ++ .accept p :: post))
    (hs : ∀ e ∈ post, e.stops (connections pre).length p = false) :
    OpenConnection (connections pre).length ((BmpService.Actor.new i ad).run hash (pre ++ .accept p :: post)).1 := by
  have hlen := run_length (hash := hash) (a := (BmpService.Actor.new i ad : BmpService.Actor π)) pre rfl hr
  have h0 : (BmpService.Actor.new i ad : BmpService.Actor π).tasks.length = 0 := rfl
  rw [h0, Nat.zero_add] at hlen
  have ho : ((BmpService.Actor.new i ad : BmpService.Actor π).run hash pre).1.over = false := run_over pre rfl hr
  have hsound : AllSound ((BmpService.Actor.new i ad : BmpService.Actor π).run hash pre).1 :=
    run_allSound pre (allSound_new i ad) fun e he => hc e (List.mem_append_left _ he)
  have hent := entries (hash := hash) (π := π) i ad pre
  rw [run_append]
  generalize ((BmpService.Actor.new i ad : BmpService.Actor π).run hash pre).1 = a at *
  obtain ⟨b, g1, g2, g3, g4, g5⟩ := at_accept (hash := hash) p ho
  rw [run_cons]
  have hs' := step_allSound (hash := hash) (e := .accept p) hsound fun e he l hl => by
    rw [List.mem_singleton] at he; rw [he] at hl; cases hl
  have he' := step_entries (hash := hash) a (.accept p) hent
  rw [g1] at hs' he' ⊢
  rw [hlen] at g5
  obtain ⟨k', h1, h2, -⟩ := run_goes (hash := hash) post he' hs' g5 rfl g4 (fun e he => hc e (List.mem_append_right _ (List.mem_cons_of_mem _ he))) hs
  exact ⟨k', h1, h2⟩

/-- other peers come and go -/
example : OpenConnection 0 (after [.accept p1, .accept p2, .command (.subscribe [5]), .update 0, .message 0 10, .eof 1, .send 0 .closed, .command (.disconnect p2)]) :=
  ⟨_, rfl, rfl⟩

/-- C186 is false: a subscription with no channels ends every connection at its next message, before other subscribers get it, and the connection stays listed -/
theorem c186_disproved :
    ∃ es : List (Event Nat), Runs es ∧ (∀ e ∈ es, e.stops 0 p1 = false ∨ e = .accept p1) ∧ ¬ OpenConnection 0 (after es) ∧
      seen (es ++ [.command .peers]) = [.subscribed 7 0, .subscribed 7 1, .received 0 10, .peers 7 [p1]] ∧ (after es).notices = [] ∧ (after es).lost = 0 := by
  refine ⟨[.command (.subscribe []), .command (.subscribe [5]), .accept p1, .message 0 10, .send 0 .sent, .send 0 .sent, .message 0 11], ?_, ?_, ?_,
    by decide, rfl, rfl⟩
  · intro e he; simp at he; rcases he with rfl | rfl | rfl | rfl | rfl | rfl <;> rfl
  · intro e he; simp at he; rcases he with rfl | rfl | rfl | rfl | rfl | rfl <;> simp [Event.stops]
  · rintro ⟨k, h1, h2⟩
    have : (after [.command (.subscribe []), .command (.subscribe [5]), .accept p1, .message 0 10, .send 0 .sent, .send 0 .sent, .message 0 11]).tasks[0]? =
      some ⟨p1, [(0, []), (1, [5])], [(0, [], 10), (1, [5], 10)], [], false, false⟩ := rfl
    rw [this] at h1
    rw [← Option.some.inj h1] at h2
    cases h2

end Verif.Props
