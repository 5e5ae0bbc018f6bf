import Verif.BmpServer.Stuck
/-!
# C187–C192: the server of BMP and its handle
-/
namespace Verif.Props
open Verif
open Verif.BmpServer hiding Event Server
open Verif.Service (Addr)

variable {π : Type}

namespace BmpSrv

abbrev Ev := BmpServer.Event Nat
def p1 : Addr := ⟨1, 1000⟩
def p2 : Addr := ⟨2, 2000⟩
/-- a server without a limit of time -/
def server : BmpServer.Server Nat := .new false
def seen (es : List Ev) : List (Nat × Item Nat) := (server.run es).2
def after (es : List Ev) : BmpServer.Server Nat := (server.run es).1
/-- `serve` waits for connections and for signals -/
def listens : List Ev := [.serverPoll, .serverPoll]
/-- the first connection has come, its peer ends it, and its worker leaves -/
def first : List Ev := [.accept p1, .poll 0, .poll 0, .arrive 0 .eof, .take 0 true, .answer 0 .go]

end BmpSrv
open BmpSrv

/-! ## C187 -/

/-- C187: nobody gets through before the signal is given; and whoever waits for it gets through at its next turn after it is given, if nobody is between
looking at the flag and starting to wait when the waiters are woken -/
theorem c187_partial (es : List LobbyEvent) :
    (∀ w : Nat, (Lobby.new.run es).waits[w]? = some .over → .set ∈ es) ∧
    (Lobby.new.Calm es → ∀ a b c, es = a ++ .set :: (b ++ .wake :: c) → ∀ w < (Lobby.new.run es).waits.length,
      (Lobby.new.run (es ++ [.poll w])).waits[w]? = some .over) := by
  refine ⟨fun w hw => ?_, fun hc a b c he w hw => ?_⟩
  · have := (Lobby.ok_new.run es).early w hw
    rcases (Lobby.triggered_iff es).1 this with h | h
    · cases h
    · exact h
  · have hf := Lobby.run_fine es Lobby.ok_new hc (fun w hw => by cases hw)
    have hg : (Lobby.new.run es).signal.given := by
      rw [he, Lobby.run_append]
      show ((((Lobby.new.run a).step .set).run (b ++ .wake :: c))).signal.given
      rw [Lobby.run_append]
      have ht : (((Lobby.new.run a).step .set).run b).signal.triggered = true := (Lobby.triggered_iff b).2 (.inl (Signal.set_triggered _))
      generalize (((Lobby.new.run a).step .set).run b) = l at *
      have : (l.step .wake).signal.given := by
        simp only [Lobby.step]
        unfold Signal.wake
        split
        · exact ⟨ht, rfl⟩
        · rename_i ho; exact ⟨ht, by simpa using ho⟩
      show ((l.step .wake).run c).signal.given
      rw [Lobby.given_stays c this]
      exact this
    rw [Lobby.run_append]
    generalize Lobby.new.run es = l at *
    show (l.waits.modify w (Wait.poll l.signal))[w]? = some .over
    rw [List.getElem?_modify, List.getElem?_eq_getElem hw]
    simp [Wait.fine_over (hf _ (List.getElem_mem hw)) hg]

/-- one that waits before, one that comes in between, one that comes after -/
example : (Lobby.new.run [.join, .poll 0, .poll 0, .set, .join, .poll 1, .wake, .poll 0, .join, .poll 2, .set, .wake]).waits = [.over, .over, .over] := by decide

/-- C187 is false: who has looked at the flag just before it is set, and starts to wait just after the waiters are woken, waits forever, whatever is called
afterwards -/
theorem c187_disproved :
    ∃ es a b c, es = a ++ .set :: (b ++ .wake :: c) ∧ ∀ fs, (Lobby.new.run (es ++ fs)).waits[0]? = some (.waiting 1) := by
  refine ⟨[.join, .poll 0, .set, .wake, .poll 0], [.join, .poll 0], [], [.poll 0], rfl, fun fs => ?_⟩
  rw [Lobby.run_append]
  exact Lobby.stuck_stays fs (by decide) (by decide) (by decide)

/-! ## C188 -/

/-- C188: the service is asked about everything that arrives on a connection, once and in order, up to what still waits; but for one thing, if the service is not
ready for it, which ends the connection. Nothing is asked after the end of the connection or something malformed, nor after the service closed it or failed. -/
theorem c188_requests (limit : Bool) (p : Addr) {pre post : List (BmpServer.Event π)} {n : Nat} {gr : Wait}
    (hq : ((BmpServer.Server.new limit).run pre).1.phase = .serving (.waiting n) gr) :
    let t := ((BmpServer.Server.new limit : BmpServer.Server π).run pre).1.conns.length
    let r := (BmpServer.Server.new limit).run (pre ++ .accept p :: post)
    (∃ lost left, arrivals t post = requestsOf t r.2 ++ lost ++ left ∧ (lost = [] ∨ (∃ i, lost = [i]) ∧ .take t false ∈ post)) ∧
    (∀ a i b, requestsOf t r.2 = a ++ i :: b → i.last = true → b = []) ∧
    (∀ k last a rest, r.1.conns[t]? = some k → k.stage = .calling last → a ≠ .go →
      requestsOf t ((BmpServer.Server.new limit).run ((pre ++ .accept p :: post) ++ .answer t a :: rest)).2 = requestsOf t r.2) := by
  intro t r
  have habs : requestsOf t ((BmpServer.Server.new limit : BmpServer.Server π).run pre).2 = [] := run_absent pre (Nat.le_refl _)
  have hk : (((BmpServer.Server.new limit).run pre).1.step (.accept p)).1.conns[t]? = some ⟨p, .start, .reading, []⟩ := by
    simp only [Server.step, hq]
    exact List.getElem?_concat_length ..
  have hr : r = ((((((BmpServer.Server.new limit).run pre).1.step (.accept p)).1).run post).1, ((BmpServer.Server.new limit).run pre).2 ++
      ((((BmpServer.Server.new limit).run pre).1.step (.accept p)).1.run post).2) := by
    show (BmpServer.Server.new limit).run (pre ++ .accept p :: post) = _
    rw [Server.run_append, Server.run_cons]
    simp [Server.step, hq]
  have hreq : requestsOf t r.2 = requestsOf t ((((BmpServer.Server.new limit).run pre).1.step (.accept p)).1.run post).2 := by
    rw [hr, requestsOf_append, habs]; rfl
  refine ⟨?_, fun a i b h hi => ?_, fun k last a rest hk' hs ha => ?_⟩
  · obtain ⟨k', lost, -, h2, h3⟩ := run_ledger post hk
    refine ⟨lost, k'.input, by rw [hreq]; simpa using h2, ?_⟩
    rcases h3 with h3 | ⟨h3, h4, -⟩
    · exact .inl h3
    · exact .inr ⟨h3, h4⟩
  · rw [hreq] at h
    exact run_last post hk h hi
  · rw [Server.run_append]
    dsimp only
    rw [requestsOf_append]
    have hans : (((BmpServer.Server.new limit).run (pre ++ .accept p :: post)).1.step (.answer t a)).1.conns[t]? = some { k with stage := .leaving } := by
      simp only [Server.step]
      rw [worker_get, if_pos rfl, show ((BmpServer.Server.new limit).run (pre ++ .accept p :: post)).1.conns[t]? = some k from hk']
      simp [Conn.answered, hs, ha]
    rw [Server.run_cons, requestsOf_append, (run_left rest hans rfl).1, taking_silent _ _ (fun r h => by cases h)]
    simp [r]

/-- two messages and the end; a second connection in between is closed by the service -/
example : seen (listens ++ [.accept p1, .accept p2, .poll 0, .poll 0, .poll 1, .arrive 0 (.message 5), .poll 1, .arrive 1 (.message 7), .take 0 true,
      .arrive 0 (.message 6), .arrive 0 .eof, .take 1 true, .answer 0 .go, .answer 1 .close, .arrive 1 (.message 8), .take 1 true, .take 0 true, .answer 0 .go,
      .take 0 true, .answer 0 .go]) = [(0, .message 5), (1, .message 7), (0, .message 6), (0, .eof)] := by decide

/-! ## C189 -/

/-- C189: the number of connections of the handle is that of the connections that were taken and whose workers have not ended, in all states -/
theorem c189_count (limit : Bool) (es : List (BmpServer.Event π)) :
    let s := ((BmpServer.Server.new limit).run es).1
    s.count = (s.conns.filter fun k => decide (k.stage ≠ .checking ∧ k.stage ≠ .telling ∧ k.stage ≠ .gone)).length := by
  intro s
  rw [show s.count = _ from run_counted limit es, List.countP_eq_length_filter]
  congr 1
  apply List.filter_congr
  intro k _
  unfold Conn.counted
  cases k.stage <;> simp

example : (after (listens ++ first ++ [.accept p2, .drop 0])).count = 1 := by decide

/-! ## C190 -/

/-- C190: when `serve` returns with success the server is told to shut down or no connection is left, if no connection is taken after a graceful shutdown is
asked for and none is just ending when it is -/
theorem c190_partial (limit : Bool) {es : List (BmpServer.Event π)}
    (hs : ∀ pre post, es = pre ++ .gracefulSet :: post → .gracefulSet ∉ pre →
      (∀ (t : Nat) (k : Conn π), ((BmpServer.Server.new limit).run pre).1.conns[t]? = some k → k.stage ≠ .checking) ∧ ∀ p, .accept p ∉ post) :
    let s := ((BmpServer.Server.new limit).run es).1
    s.phase = .returned true → s.shutdown.triggered = true ∨ ∀ (t : Nat) (k : Conn π), s.conns[t]? = some k → k.live = false := by
  intro s hq
  have key : ∀ (l pre : List (BmpServer.Event π)), es = pre ++ l →
      Sane ((BmpServer.Server.new limit).run pre).1 → Told ((BmpServer.Server.new limit).run pre).1 → Rests ((BmpServer.Server.new limit).run pre).1 →
      Rests ((BmpServer.Server.new limit).run es).1 := by
    intro l
    induction l with
    | nil => intro pre he _ _ hr; rw [he, List.append_nil]; exact hr
    | cons e l ih =>
      intro pre he h ht hr
      have hstep : ((BmpServer.Server.new limit).run (pre ++ [e])).1 = (((BmpServer.Server.new limit).run pre).1.step e).1 := by
        rw [Server.run_append]; rfl
      have hnew : (BmpServer.Server.new limit : BmpServer.Server π).graceful.triggered = false := rfl
      refine ih (pre ++ [e]) (by rw [he]; simp) ?_ ?_ ?_
      · rw [hstep]; exact step_sane _ e h
      · rw [hstep]
        refine step_told _ e h ht (fun hg => ?_) fun hx hg => ?_
        · -- a graceful shutdown was asked for before
          rcases (run_graceful pre).1 hg with h1 | h1
          · rw [hnew] at h1; cases h1
          · obtain ⟨x, y, hxy, hx⟩ := List.eq_append_cons_of_mem h1
            obtain ⟨-, h3⟩ := hs x (y ++ e :: l) (by rw [he, hxy]; simp) hx
            cases e with
            | accept p => exact absurd (by simp) (h3 p)
            | _ => rfl
        · have hno : .gracefulSet ∉ pre := fun hm => by
            have := (run_graceful (s := (BmpServer.Server.new limit : BmpServer.Server π)) pre).2 (.inr hm)
            rw [hg] at this; cases this
          exact (hs pre l (by rw [he, hx]) hno).1
      · rw [hstep]; exact step_rests _ e h ht hr
  have hnew0 : ((BmpServer.Server.new limit : BmpServer.Server π).run []).1 = BmpServer.Server.new limit := rfl
  have := key es [] rfl (by rw [hnew0]; exact sane_new limit) (by rw [hnew0]; intro h; cases h) (by rw [hnew0]; intro h; cases h) hq
  rcases this with h | h
  · exact .inl h
  · right
    intro t k hk
    have hc : s.count = s.conns.countP Conn.counted := run_counted limit es
    rw [show s.count = 0 from h] at hc
    have := List.countP_eq_zero.1 hc.symm k (List.mem_of_getElem? hk)
    cases hl : k.live with
    | false => rfl
    | true => exact absurd (by rcases (live_iff k).1 hl with h1 | ⟨l, h1⟩ <;> simp [Conn.counted, h1]) this

/-- two connections end after a graceful shutdown is asked for -/
example : (after (listens ++ first ++ [.accept p2, .gracefulSet, .gracefulWake, .gracefulPoll, .count, .drop 0, .poll 1, .poll 1, .endPoll, .arrive 1 .malformed,
    .take 1 true, .answer 1 .go, .endPoll, .drop 1, .check 1, .tell 1, .endWake, .endPoll])).phase = .returned true := by decide

/-- C190 is false. `serve` returns while the second connection is open, and its messages go on to the service: when accepting fails; when the connection is taken
after a graceful shutdown was asked for and the first has ended; and when it is taken before that, while the first ends. -/
theorem c190_disproved :
    (∃ es, (after es).phase = .returned false ∧ (after es).shutdown.triggered = false ∧
      seen (es ++ [.poll 0, .poll 0, .arrive 0 (.message 5), .take 0 true]) = [(0, .message 5)]) ∧
    (∃ es, (after es).phase = .returned true ∧ (after es).shutdown.triggered = false ∧
      seen (es ++ [.poll 1, .poll 1, .arrive 1 (.message 5), .take 1 true]) = [(0, .eof), (1, .message 5)]) ∧
    (∃ pre post, (∀ p, .accept p ∉ post) ∧ (after (pre ++ .gracefulSet :: post)).phase = .returned true ∧
      (after (pre ++ .gracefulSet :: post)).shutdown.triggered = false ∧
      seen (pre ++ .gracefulSet :: post ++ [.poll 1, .poll 1, .arrive 1 (.message 5), .take 1 true]) = [(0, .eof), (1, .message 5)]) := by
  refine ⟨⟨listens ++ [.accept p1, .acceptFailed], by decide⟩,
    ⟨listens ++ first ++ [.gracefulSet, .gracefulWake, .drop 0, .check 0, .tell 0, .endWake, .accept p2, .gracefulPoll, .count, .endPoll], by decide⟩,
    ⟨listens ++ first ++ [.drop 0, .accept p2], [.gracefulWake, .check 0, .tell 0, .endWake, .gracefulPoll, .count, .endPoll], by simp, by decide⟩⟩

/-! ## C191 -/

/-- C191: after a call to shut down has returned, `serve` and each worker leave at their next turn, and no more is asked for the connection; if nobody is between
looking at the flag and starting to wait when the waiters are woken -/
theorem c191_partial (limit : Bool) {a b c : List (BmpServer.Event π)} (es : List (BmpServer.Event π))
    (he : es = a ++ .shutdownSet :: (b ++ .shutdownWake :: c))
    (hu : ∀ pre e post, es = pre ++ e :: post → e.wakes = true → Unhurried ((BmpServer.Server.new limit).run pre).1) :
    let s := ((BmpServer.Server.new limit).run es).1
    (∀ sd gr, (s.step .serverPoll).1.phase ≠ .serving sd gr) ∧
    ∀ t < s.conns.length, ∀ rest, requestsOf t (s.run (.poll t :: rest)).2 = [] := by
  intro s
  have hs : Sane s := run_sane limit es
  have hh : Hears s := run_hears es (sane_new limit) (hears_new limit) hu
  have hg : s.shutdown.given := by
    show ((BmpServer.Server.new limit).run es).1.shutdown.given
    rw [he]; exact shutdown_given _
  refine ⟨fun sd gr hx => ?_, fun t ht rest => ?_⟩
  · simp only [Server.step] at hx
    split at hx
    · rename_i sd0 gr0 hq
      rw [Wait.fine_over (hh.1 sd0 gr0 hq) hg] at hx
      cases hx
    · rename_i hq; exact hq _ _ hx
  · have hk : s.conns[t]? = some s.conns[t] := List.getElem?_eq_getElem ht
    rw [Server.run_cons, requestsOf_append, taking_silent _ _ (fun r h => by cases h), List.nil_append]
    refine (run_left rest (k := (s.conns[t]).polled s.shutdown) ?_ ?_).1
    · simp only [Server.step]; rw [worker_get, if_pos rfl, hk]; rfl
    · cases hl : (s.conns[t]).live with
      | false => simp [Conn.polled, hl]
      | true =>
        unfold Conn.polled
        rw [if_pos hl, Wait.fine_over (hh.2 t _ hk hl) hg]
        rfl

/-- the server and a worker that wait when the server is shut down -/
example : (after (listens ++ [.accept p1, .poll 0, .poll 0, .shutdownSet, .arrive 0 (.message 5), .shutdownWake, .serverPoll])).phase = .returned true ∧
    seen (listens ++ [.accept p1, .poll 0, .poll 0, .shutdownSet, .arrive 0 (.message 5), .shutdownWake, .serverPoll, .poll 0, .take 0 true]) = [] := by decide

/-- C191 is false: `serve` that starts to wait for the signal just after it is given goes on forever, unless accepting fails or it is shut down gracefully; and a
worker that does goes on to ask the service -/
theorem c191_disproved :
    (∃ es a b c, es = a ++ .shutdownSet :: (b ++ .shutdownWake :: c) ∧
      ∀ fs, .gracefulSet ∉ fs → .acceptFailed ∉ fs → ∃ gr, (after (es ++ fs)).phase = .serving (.waiting 1) gr) ∧
    (∃ es a b c, es = a ++ .shutdownSet :: (b ++ .shutdownWake :: c) ∧ (after es).phase = .returned true ∧
      seen (es ++ [.arrive 0 (.message 5), .poll 0, .poll 0, .take 0 true, .answer 0 .go, .arrive 0 (.message 6), .poll 0, .take 0 true]) =
        [(0, .message 5), (0, .message 6)]) := by
  refine ⟨⟨[.serverPoll, .shutdownSet, .shutdownWake, .serverPoll], [.serverPoll], [], [.serverPoll], rfl, fun fs h1 h2 => ?_⟩,
    ⟨listens ++ [.accept p1, .poll 0, .shutdownSet, .shutdownWake, .serverPoll], listens ++ [.accept p1, .poll 0], [], [.serverPoll], rfl, by decide, by decide⟩⟩
  show ∃ gr, (server.run ([.serverPoll, .shutdownSet, .shutdownWake, .serverPoll] ++ fs)).1.phase = _
  rw [Server.run_append]
  exact stuck_serving fs (run_sane false _) (gr := .start) (by decide) (by decide) (by decide) (by decide) h1 h2

/-! ## C192 -/

/-- C192: once a call to shut down gracefully has returned and all workers are gone and have said so, `serve` returns within a turn, if it is not between looking at
a flag and starting to wait when waiters are woken -/
theorem c192_partial (limit : Bool) {a b c : List (BmpServer.Event π)} (es : List (BmpServer.Event π))
    (he : es = a ++ .gracefulSet :: (b ++ .gracefulWake :: c))
    (hu : ∀ pre e post, es = pre ++ e :: post → Patient ((BmpServer.Server.new limit).run pre).1 e)
    (hgone : ∀ (t : Nat) (k : Conn π), ((BmpServer.Server.new limit).run es).1.conns[t]? = some k → k.stage = .gone)
    (hsaid : ((BmpServer.Server.new limit : BmpServer.Server π).run es).1.ended.owing = false) :
    ∃ ok, ((BmpServer.Server.new limit).run (es ++ turn)).1.phase = .returned ok := by
  have hd := Server.run_inv step_draining es (s := (BmpServer.Server.new limit : BmpServer.Server π)) ⟨sane_new limit, rfl, fun w h => by cases h⟩
  have hl : Listens ((BmpServer.Server.new limit).run es).1 := run_listens es (sane_new limit) (listens_new limit) hu
  have hg : ((BmpServer.Server.new limit).run es).1.graceful.given := by rw [he]; exact graceful_given _
  rw [Server.run_append]
  dsimp only
  generalize ((BmpServer.Server.new limit).run es).1 = s at *
  obtain ⟨h1, h2, h3⟩ := hd
  have hc : s.count = 0 := by
    rw [h2, List.countP_eq_zero]
    intro k hk
    obtain ⟨t, ht⟩ := List.getElem?_of_mem hk
    simp [Conn.counted, hgone t k ht]
  refine turn_ends h1 hl hg hc fun w hw => ⟨?_, hsaid⟩
  rcases h3 w hw with h | h | ⟨t, k, hk, ht⟩
  · exact h
  · omega
  · simp [Conn.tells, hgone t k hk] at ht

/-- a connection ends while `serve` waits for it -/
example : (after (listens ++ first ++ [.gracefulSet, .gracefulWake, .gracefulPoll, .count, .endPoll, .endPoll, .drop 0, .check 0, .tell 0, .endWake] ++ turn)).phase =
    .returned true := by decide

/-- C192 is false: `serve` without a limit that starts to wait for the end of connections just after the last worker has told of it waits forever, and a call to shut
down does not help -/
theorem c192_disproved :
    ∃ es a b c, es = a ++ .gracefulSet :: (b ++ .gracefulWake :: c) ∧ (after es).conns.all (fun k => decide (k.stage = .gone)) = true ∧
      ∀ fs, (after (es ++ fs)).phase = .draining (.waiting 1) := by
  refine ⟨listens ++ first ++ [.gracefulSet, .gracefulWake, .gracefulPoll, .count, .endPoll, .drop 0, .check 0, .tell 0, .endWake, .endPoll],
    listens ++ first, [], [.gracefulPoll, .count, .endPoll, .drop 0, .check 0, .tell 0, .endWake, .endPoll], rfl, by decide, fun fs => ?_⟩
  show (server.run (_ ++ fs)).1.phase = _
  rw [Server.run_append]
  exact stuck_draining fs (by decide) (by decide) (by decide) (by decide)

end Verif.Props
