import Verif.Publish.KafkaSpec
/-!
# The publisher to HTTP

`H` stands for `crates/collector/src/publishers/http.rs`.
-/
namespace Verif.Publish

/-- what becomes of a request, `H:155-178`: a response with some status, or an error -/
inductive Reply where
  | response (status : Nat)
  | failure
  deriving DecidableEq, Repr

/-- a request with its reply -/
structure Post (M : Type) where
  batch : List M
  reply : Reply
  deriving DecidableEq, Repr

/-- `HttpPublisherActor`, `H:100-119`, with all requests so far -/
structure HttpState (M : Type) where
  posts : List (Post M) := []
  buf : List M := []
  received : Nat := 0
  sent : Nat := 0
  failed : Nat := 0
  deriving DecidableEq, Repr

/-- a message in the loop of `run`, `H:204-215`, with `send`, `H:145-179`; whether the loop goes on -/
def httpHandle (convert : T → List M) (batchSize : Nat) (server : List (Post M) → List M → Reply) (s : HttpState M) (m : T) : HttpState M × Bool :=
  let s := { s with received := s.received + 1, buf := s.buf ++ convert m }
  if s.buf.length > batchSize then
    match server s.posts s.buf with
    | .response status => ({ s with posts := s.posts ++ [⟨s.buf, .response status⟩], sent := s.sent + s.buf.length, buf := [] }, true)
    | .failure => ({ s with posts := s.posts ++ [⟨s.buf, .failure⟩], failed := s.failed + 1 }, false)
  else (s, true)

/-- the results of `run` -/
inductive HttpEnding where
  | name
  | error
  deriving DecidableEq, Repr

/-- `run`, `H:181-224` -/
def httpRun (convert : T → List M) (batchSize : Nat) (server : List (Post M) → List M → Reply) : HttpState M → List (Event T) → HttpState M × Option HttpEnding
  | s, [] => (s, none)
  | s, .message m :: es =>
    match httpHandle convert batchSize server s m with
    | (s, true) => httpRun convert batchSize server s es
    | (s, false) => (s, some .error)
  | s, .shutdown :: _ => (s, some .name)
  | s, .commandsClosed :: _ => (s, some .name)
  | s, .messagesClosed :: _ => (s, some .name)

/-- what holds while no request has failed -/
structure HttpFine (batchSize : Nat) (server : List (Post M) → List M → Reply) (xs : List M) (s : HttpState M) : Prop where
  all : s.posts.flatMap (·.batch) ++ s.buf = xs
  rest : s.buf.length ≤ batchSize
  batches : ∀ p ∈ s.posts, batchSize < p.batch.length
  replies : ∀ p ∈ s.posts, ∃ status, p.reply = .response status
  said : ∀ before p after, s.posts = before ++ p :: after → server before p.batch = p.reply
  sent : s.sent = (s.posts.flatMap (·.batch)).length
  failed : s.failed = 0

/-- what holds once a request has failed -/
structure HttpFailed (batchSize : Nat) (server : List (Post M) → List M → Reply) (xs : List M) (s : HttpState M) : Prop where
  last : ∃ ps batch, s.posts = ps ++ [⟨batch, .failure⟩] ∧ (ps.flatMap (·.batch)) ++ batch = xs ∧ (∀ p ∈ ps, ∃ status, p.reply = .response status) ∧ s.sent = (ps.flatMap (·.batch)).length
  batches : ∀ p ∈ s.posts, batchSize < p.batch.length
  said : ∀ before p after, s.posts = before ++ p :: after → server before p.batch = p.reply
  failed : s.failed = 1

theorem said_snoc {server : List (Post M) → List M → Reply} {ps : List (Post M)} {batch : List M} {reply : Reply} (h : ∀ before p after, ps = before ++ p :: after → server before p.batch = p.reply)
    (hr : server ps batch = reply) : ∀ before p after, ps ++ [⟨batch, reply⟩] = before ++ p :: after → server before p.batch = p.reply := by
  intro before p after e
  rcases List.eq_nil_or_concat after with rfl | ⟨after', y, rfl⟩
  · obtain ⟨h1, h2⟩ := List.append_inj' e rfl
    subst h1
    cases h2
    exact hr
  · have e' : ps ++ [⟨batch, reply⟩] = (before ++ p :: after') ++ [y] := by simpa using e
    exact h _ _ _ (List.append_inj' e' rfl).1

theorem httpHandle_inv {convert : T → List M} {batchSize : Nat} {server : List (Post M) → List M → Reply} {xs : List M} {s s' : HttpState M} {m : T} {ok : Bool}
    (h : HttpFine batchSize server xs s) (he : httpHandle convert batchSize server s m = (s', ok)) :
    s'.received = s.received + 1 ∧ (ok = true → HttpFine batchSize server (xs ++ convert m) s') ∧ (ok = false → HttpFailed batchSize server (xs ++ convert m) s') := by
  obtain ⟨h1, h2, h3, h4, h5, h6, h7⟩ := h
  have hb : ∀ reply, batchSize < (s.buf ++ convert m).length → ∀ p ∈ s.posts ++ [⟨s.buf ++ convert m, reply⟩], batchSize < p.batch.length := by
    intro reply hlt p hp
    rcases List.mem_append.mp hp with hp | hp
    · exact h3 p hp
    · rw [List.mem_singleton.mp hp]; exact hlt
  unfold httpHandle at he
  simp only at he
  split at he
  · rename_i hlt
    split at he
    · rename_i status hs
      cases he
      refine ⟨rfl, fun _ => ⟨by simp [← h1], Nat.zero_le _, hb _ hlt, ?_, said_snoc h5 hs, by simp [h6], h7⟩, nofun⟩
      intro p hp
      rcases List.mem_append.mp hp with hp | hp
      · exact h4 p hp
      · rw [List.mem_singleton.mp hp]; exact ⟨_, rfl⟩
    · rename_i hs
      cases he
      exact ⟨rfl, nofun, fun _ => ⟨⟨s.posts, _, rfl, by simp [← h1], h4, h6⟩, hb _ hlt, said_snoc h5 hs, by simp [h7]⟩⟩
  · rename_i hlt
    cases he
    exact ⟨rfl, fun _ => ⟨by simp [← h1], Nat.le_of_not_lt hlt, h3, h4, h5, h6, h7⟩, nofun⟩

/-- runs of the publisher to HTTP: all that was taken is posted but for the rest, or a request has failed -/
theorem httpRun_inv {convert : T → List M} {batchSize : Nat} {server : List (Post M) → List M → Reply} : ∀ {es : List (Event T)} {xs : List M} {s s' : HttpState M} {e : Option HttpEnding},
    HttpFine batchSize server xs s → httpRun convert batchSize server s es = (s', e) →
    (e ≠ some .error ∧ HttpFine batchSize server (xs ++ (messages es).flatMap convert) s' ∧ s'.received = s.received + (messages es).length) ∨
    (e = some .error ∧ ∃ ms rest, messages es = ms ++ rest ∧ HttpFailed batchSize server (xs ++ ms.flatMap convert) s' ∧ s'.received = s.received + ms.length)
  | [], xs, s, s', e, h, he => by cases he; exact .inl ⟨nofun, by simpa [messages] using h, rfl⟩
  | .message m :: es, xs, s, s', e, h, he => by
    unfold httpRun at he
    generalize hg : httpHandle convert batchSize server s m = g at he
    obtain ⟨s₁, ok⟩ := g
    obtain ⟨hr, hf, hb⟩ := httpHandle_inv h hg
    cases ok with
    | true =>
      rcases httpRun_inv (hf rfl) he with ⟨h1, h2, h3⟩ | ⟨h1, ms, rest, h2, h3, h4⟩
      · exact .inl ⟨h1, by simpa [messages] using h2, by simp [messages]; omega⟩
      · exact .inr ⟨h1, m :: ms, rest, by simp [messages, h2], by simpa using h3, by simp; omega⟩
    | false =>
      cases he
      exact .inr ⟨rfl, [m], messages es, rfl, by simpa using hb rfl, by simpa using hr⟩
  | .shutdown :: _, xs, s, s', e, h, he => by cases he; exact .inl ⟨nofun, by simpa [messages] using h, rfl⟩
  | .commandsClosed :: _, xs, s, s', e, h, he => by cases he; exact .inl ⟨nofun, by simpa [messages] using h, rfl⟩
  | .messagesClosed :: _, xs, s, s', e, h, he => by cases he; exact .inl ⟨nofun, by simpa [messages] using h, rfl⟩

theorem HttpFine.start (batchSize : Nat) (server : List (Post M) → List M → Reply) : HttpFine batchSize server [] {} :=
  ⟨rfl, Nat.zero_le _, nofun, nofun, fun before p after h => absurd h (by simp), rfl, rfl⟩

end Verif.Publish
