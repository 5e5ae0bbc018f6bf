import Verif.NetconfClient.Client
/-!
# C227–C234: the NETCONF client, and fetching of what a subscription needs
-/
namespace Verif.Props
open Verif.Xml
open Verif.NcClient
open Verif.Collector (Text)

/-! ## Decimal numbers -/

theorem decimal_injective {a b : Nat} (h : Xml.decimal a = Xml.decimal b) : a = b := by
  have e : ∀ n, Xml.decimal n = Nat.toDigits 10 n := fun n => by
    show (Nat.repr n).toList = _
    simp [Nat.repr]
  rw [e, e] at h
  rw [← Nat.ofDigitChars_ten_toDigits (n := a), ← Nat.ofDigitChars_ten_toDigits (n := b), h]

theorem cbind_ok {D α β : Type} {m : Client D α} {f : α → Client D β} {s s' : Session D} {a : α} (h : m s = (.ok a, s')) : (m >>= f) s = f a s' := by
  show (match m s with | (.ok a, s') => f a s' | (.error e, s') => (.error e, s')) = _
  rw [h]

theorem cbind_err {D α β : Type} {m : Client D α} {f : α → Client D β} {s s' : Session D} {e : ClientErr} (h : m s = (.error e, s')) : (m >>= f) s = (.error e, s') := by
  show (match m s with | (.ok a, s') => f a s' | (.error e, s') => (.error e, s')) = _
  rw [h]

theorem ask_room {D : Type} (op : RpcOp) (inbox : List (Incoming D)) (k next : Nat) (sent : List (Message D YLib)) : ask op ⟨inbox, k + 1, next, sent⟩ =
    (rpcReply >>= fun r => validateMessageId (Xml.decimal next) r >>= fun _ => (pure (responses r.reply) : Client D _)) ⟨inbox, k, next + 1, sent ++ [.rpc ⟨Xml.decimal next, op⟩]⟩ := rfl

theorem ask_reply {D : Type} (op : RpcOp) (r : Reply YLib) (rest : List (Incoming D)) (k next : Nat) (sent : List (Message D YLib)) : ask op ⟨.message (.reply r) :: rest, k + 1, next, sent⟩ =
    (if Xml.decimal next ≠ r.messageId.getD (Xml.decimal next) then .error .unexpected else .ok (responses r.reply), ⟨rest, k, next + 1, sent ++ [.rpc ⟨Xml.decimal next, op⟩]⟩) := by
  rw [ask_room]
  have h0 : rpcReply (⟨.message (.reply r) :: rest, k, next + 1, sent ++ [.rpc ⟨Xml.decimal next, op⟩]⟩ : Session D) = (.ok r, ⟨rest, k, next + 1, sent ++ [.rpc ⟨Xml.decimal next, op⟩]⟩) := rfl
  rw [cbind_ok h0]
  unfold validateMessageId
  by_cases h : Xml.decimal next ≠ r.messageId.getD (Xml.decimal next)
  · rw [if_pos h, if_pos h]; rfl
  · rw [if_neg h, if_neg h]; rfl

/-! ## C227 -/

/-- the identifiers of the requests among messages -/
def requestIds {D : Type} (sent : List (Message D YLib)) : List Text := sent.filterMap fun | .rpc r => some r.messageId | _ => none

/-- what can be done with a client before it is closed: any sequence of its calls, in which each call may depend on what came of those before -/
inductive Uses {D : Type} : {α : Type} → Client D α → Prop
  | done {α : Type} (a : α) : Uses (pure a)
  | failed {α : Type} (e : ClientErr) : Uses (NcClient.fail (α := α) e)
  | request (op : RpcOp) : Uses (ask op)
  | schema (name : Text) (version : Option Text) : Uses (getSchema name version)
  | library : Uses getYangLibrary
  | filters {R : Type} (rd : Readers R) : Uses (getFilters rd)
  | subscription {R : Type} (rd : Readers R) (id : Nat) : Uses (getSubscription rd id)
  | andThen {α β : Type} {m : Client D α} {f : α → Client D β} : Uses m → (∀ a, Uses (f a)) → Uses (m >>= f)

/-- requests have growing numbers -/
structure Numbered {D : Type} (s : Session D) : Prop where
  ids : ∃ ns : List Nat, requestIds s.sent = ns.map Xml.decimal ∧ ns.Pairwise (· < ·) ∧ ∀ n ∈ ns, n < s.nextId

def Keeps {D α : Type} (m : Client D α) : Prop := ∀ s, Numbered s → Numbered (m s).2

theorem keeps_bind {D α β : Type} {m : Client D α} {f : α → Client D β} (h : Keeps m) (hf : ∀ a, Keeps (f a)) : Keeps (m >>= f) := by
  intro s hs
  have h1 := h s hs
  show Numbered (match m s with | (.ok a, s') => f a s' | (.error e, s') => (.error e, s')).2
  rcases hm : m s with ⟨_ | a, s'⟩
  · rw [hm] at h1; exact h1
  · rw [hm] at h1; exact hf a s' h1

theorem keeps_pure {D α : Type} (a : α) : Keeps (pure a : Client D α) := fun _ h => h
theorem keeps_fail {D α : Type} (e : ClientErr) : Keeps (NcClient.fail e : Client D α) := fun _ h => h

theorem keeps_receive {D : Type} : Keeps (receive : Client D _) := by
  intro s h
  unfold receive
  split
  · exact h
  · exact ⟨h.ids⟩
  · exact ⟨h.ids⟩

theorem keeps_rpc {D : Type} (op : RpcOp) : Keeps (rpc op : Client D Text) := by
  intro s h
  obtain ⟨ns, h1, h2, h3⟩ := h.ids
  obtain ⟨inbox, room, next, sent⟩ := s
  cases room with
  | zero => exact ⟨ns, h1, h2, fun n hn => Nat.lt_succ_of_lt (h3 n hn)⟩
  | succ k =>
    refine ⟨ns ++ [next], ?_, ?_, ?_⟩
    · show requestIds (sent ++ [_]) = _
      unfold requestIds at h1 ⊢
      rw [List.filterMap_append, h1]; simp
    · rw [List.pairwise_append]; exact ⟨h2, by simp, fun a ha b hb => by simp at hb; subst hb; exact h3 a ha⟩
    · intro n hn
      rcases List.mem_append.1 hn with hn | hn
      · exact Nat.lt_succ_of_lt (h3 n hn)
      · simp at hn; subst hn; exact Nat.lt_succ_self _

theorem keeps_ask {D : Type} (op : RpcOp) : Keeps (ask op : Client D _) := by
  refine keeps_bind (keeps_rpc op) fun id => keeps_bind (keeps_bind keeps_receive fun m => ?_) fun r => keeps_bind ?_ fun _ => keeps_pure _
  · cases m <;> first | exact keeps_pure _ | exact keeps_fail _
  · unfold validateMessageId; split
    · exact keeps_fail _
    · exact keeps_pure _

theorem keeps_uses {D α : Type} {m : Client D α} (h : Uses m) : Keeps m := by
  induction h with
  | done a => exact keeps_pure a
  | failed e => exact keeps_fail e
  | request op => exact keeps_ask op
  | schema n v => refine keeps_bind (keeps_ask _) fun r => ?_; split <;> first | exact keeps_pure _ | exact keeps_fail _
  | library => refine keeps_bind (keeps_ask _) fun r => ?_; split <;> first | exact keeps_pure _ | exact keeps_fail _
  | filters rd =>
    refine keeps_bind (keeps_ask _) fun r => ?_
    split
    · split <;> first | exact keeps_pure _ | exact keeps_fail _
    · exact keeps_fail _
  | subscription rd id =>
    refine keeps_bind (keeps_ask _) fun r => ?_
    split
    · split
      · unfold resolveReference
        split
        · refine keeps_bind (keeps_bind (keeps_ask _) fun r => ?_) fun fs => ?_
          · split
            · split <;> first | exact keeps_pure _ | exact keeps_fail _
            · exact keeps_fail _
          · split <;> exact keeps_pure _
        · exact keeps_pure _
      · exact keeps_fail _
    · exact keeps_fail _
  | andThen _ _ ih1 ih2 => exact keeps_bind ih1 ih2

/-- a session that was just established -/
def freshSession {D : Type} (inbox : List (Incoming D)) (room : Nat) : Session D := ⟨inbox, room, 10110, []⟩

/-- C227: whatever is done with a client, and whatever the server sends, no two requests of the session have the same identifier, that of the request to close it not left out. -/
theorem c227_distinct_ids {D α : Type} {m : Client D α} (h : Uses m) (inbox : List (Incoming D)) (room : Nat) :
    (requestIds (m (freshSession inbox room)).2.sent).Nodup ∧ (requestIds (closeSession (m (freshSession inbox room)).2).2.sent).Nodup := by
  have h0 : Numbered (freshSession (D := D) inbox room) := ⟨[], rfl, .nil, by simp⟩
  obtain ⟨ns, h1, h2, h3⟩ := (keeps_uses h _ h0).ids
  have nodup : ∀ l : List Nat, l.Pairwise (· < ·) → (l.map Xml.decimal).Nodup := fun l hl => by
    refine List.Pairwise.map _ (fun a b hab e => ?_) hl
    exact absurd (decimal_injective e) (by omega)
  refine ⟨h1 ▸ nodup ns h2, ?_⟩
  generalize hs : (m (freshSession inbox room)).2 = s at h1 h3
  obtain ⟨inbox', room', next, sent⟩ := s
  cases room' with
  | zero => exact h1 ▸ nodup ns h2
  | succ k =>
    have e : (closeSession (⟨inbox', k + 1, next, sent⟩ : Session D)).2.sent = sent ++ [.rpc ⟨Xml.decimal next, .raw [.empty ⟨none, "close-session"⟩ []]⟩] := by
      cases inbox' with
      | nil => rfl
      | cons i rest =>
        cases i with
        | failed => rfl
        | message m =>
          cases m with
          | hello h => rfl
          | rpc h => rfl
          | reply r => rcases r with ⟨_, _ | _⟩ <;> rfl
    have e2 : requestIds (sent ++ [Message.rpc ⟨Xml.decimal next, .raw [.empty ⟨none, "close-session"⟩ []]⟩]) = (ns ++ [next]).map Xml.decimal := by
      unfold requestIds at h1 ⊢
      rw [List.filterMap_append, h1]; simp
    rw [e, e2]
    refine nodup _ ?_
    rw [List.pairwise_append]; exact ⟨h2, by simp, fun a ha b hb => by simp at hb; subst hb; exact h3 a ha⟩

example : Uses (D := Unit) (do let y ← getYangLibrary; getSchema y.contentId none) := .andThen .library fun _ => .schema _ _

/-! ## C228 -/

/-- the first message that is left is a reply to a request of a certain identifier, or has none, and has this answer -/
def Answered {D : Type} (s : Session D) (id : Text) (es : List RpcError) (r : RpcResponse YLib) (rest : List (Incoming D)) : Prop :=
  s.inbox = .message (.reply ⟨some id, .errorsAndData es r⟩) :: rest ∨ s.inbox = .message (.reply ⟨none, .errorsAndData es r⟩) :: rest

theorem ask_answer {D : Type} (op : RpcOp) (s : Session D) (hr : s.room ≠ 0) (r : RpcResponse YLib) :
    (∃ s', ask op s = (.ok (some r), s')) ↔ ∃ es rest, Answered s (Xml.decimal s.nextId) es r rest := by
  obtain ⟨inbox, room, next, sent⟩ := s
  cases room with
  | zero => exact absurd rfl hr
  | succ k =>
    unfold Answered
    cases inbox with
    | nil => constructor
             · rintro ⟨s', h⟩; cases h
             · rintro ⟨es, rest, h | h⟩ <;> simp at h
    | cons i rest =>
      cases i with
      | failed => constructor
                  · rintro ⟨s', h⟩; cases h
                  · rintro ⟨es, rest, h | h⟩ <;> simp at h
      | message m =>
        cases m with
        | hello h => constructor
                     · rintro ⟨s', h⟩; cases h
                     · rintro ⟨es, rest, h | h⟩ <;> simp at h
        | rpc h => constructor
                   · rintro ⟨s', h⟩; cases h
                   · rintro ⟨es, rest, h | h⟩ <;> simp at h
        | reply rp =>
          obtain ⟨id, content⟩ := rp
          rw [ask_reply]
          constructor
          · rintro ⟨s', h⟩
            by_cases hd : Xml.decimal next ≠ id.getD (Xml.decimal next)
            · simp only [if_pos hd] at h; cases h
            · simp only [if_neg hd] at h
              cases content with
              | ok => cases h
              | errorsAndData es r' =>
                simp only [responses, Prod.mk.injEq, Except.ok.injEq, Option.some.injEq] at h
                obtain ⟨rfl, _⟩ := h
                refine ⟨es, rest, ?_⟩
                cases id with
                | none => exact .inr rfl
                | some x => simp at hd; subst hd; exact .inl rfl
          · rintro ⟨es, rest', h | h⟩
            · simp only [List.cons.injEq, Incoming.message.injEq, Message.reply.injEq, Reply.mk.injEq] at h
              obtain ⟨⟨rfl, rfl⟩, rfl⟩ := h
              exact ⟨_, by simp [responses]; rfl⟩
            · simp only [List.cons.injEq, Incoming.message.injEq, Message.reply.injEq, Reply.mk.injEq] at h
              obtain ⟨⟨rfl, rfl⟩, rfl⟩ := h
              exact ⟨_, by simp [responses]; rfl⟩

/-- C228: the schema that a call gives is the one of the reply that comes next, and that reply has the identifier of the very request, or none; and if such a reply comes, the call gives its schema. -/
theorem c228_schema_of_reply {D : Type} (name : Text) (version : Option Text) (s : Session D) (hr : s.room ≠ 0) (t : Text) :
    (getSchema name version s).1 = .ok t ↔ ∃ es rest, Answered s (Xml.decimal s.nextId) es (.wellKnown (.yangSchema t)) rest := by
  rw [← ask_answer (.wellKnown (.getSchema name version (some .yang))) s hr]
  unfold getSchema
  rcases h : ask (.wellKnown (.getSchema name version (some .yang))) s with ⟨e | a, s'⟩
  · rw [cbind_err h]; simp
  · rw [cbind_ok h]; rcases a with _ | (c | (t' | y | c)) <;> simp [NcClient.fail, pure]

/-- C228: the same of the YANG library. -/
theorem c228_library_of_reply {D : Type} (s : Session D) (hr : s.room ≠ 0) (y : YLib) :
    (getYangLibrary s).1 = .ok y ↔ ∃ es rest, Answered s (Xml.decimal s.nextId) es (.wellKnown (.yangLibrary y)) rest := by
  rw [← ask_answer (.wellKnown .getYangLibrary) s hr]
  unfold getYangLibrary
  rcases h : ask (.wellKnown .getYangLibrary) s with ⟨e | a, s'⟩
  · rw [cbind_err h]; simp
  · rw [cbind_ok h]; rcases a with _ | (c | (t' | y | c)) <;> simp [NcClient.fail, pure]

example : Answered (D := Unit) (freshSession [.message (.reply ⟨some "10110".toList, .errorsAndData [] (.wellKnown (.yangSchema "module a {}".toList))⟩)] 1) (Xml.decimal 10110) []
    (.wellKnown (.yangSchema "module a {}".toList)) [] := .inl (by simp [freshSession]; decide +kernel)

/-- C228: closing is the exception: it succeeds on an answer without content, whatever its identifier. -/
theorem c228_close_any_id {D : Type} (s : Session D) (hr : s.room ≠ 0) : (closeSession s).1 = .ok () ↔ ∃ id rest, s.inbox = .message (.reply ⟨id, .ok⟩) :: rest := by
  obtain ⟨inbox, room, next, sent⟩ := s
  cases room with
  | zero => exact absurd rfl hr
  | succ k =>
    cases inbox with
    | nil => exact ⟨fun h => (nomatch h), fun ⟨_, _, h⟩ => (nomatch h)⟩
    | cons i rest =>
      cases i with
      | failed => exact ⟨fun h => (nomatch h), fun ⟨_, _, h⟩ => (nomatch h)⟩
      | message m =>
        cases m with
        | hello h => exact ⟨fun h => (nomatch h), fun ⟨_, _, h⟩ => (nomatch h)⟩
        | rpc h => exact ⟨fun h => (nomatch h), fun ⟨_, _, h⟩ => (nomatch h)⟩
        | reply r =>
          rcases r with ⟨id, _ | _⟩
          · exact ⟨fun _ => ⟨id, rest, rfl⟩, fun _ => rfl⟩
          · exact ⟨fun h => (nomatch h), fun ⟨_, _, h⟩ => (nomatch h)⟩

/-! ## C229 -/

/-- C229, in part: a call whose reply has errors and nothing else fails. -/
theorem c229_errors_only_partial {D : Type} (name : Text) (version : Option Text) (s : Session D) {id : Option Text} {es : List RpcError} {c : List Raw} {rest : List (Incoming D)}
    (h : s.inbox = .message (.reply ⟨id, .errorsAndData es (.raw c)⟩) :: rest) : (∀ t, (getSchema name version s).1 ≠ .ok t) ∧ ∀ y, (getYangLibrary s).1 ≠ .ok y := by
  by_cases hr : s.room = 0
  · obtain ⟨inbox, room, next, sent⟩ := s
    have hr : room = 0 := hr
    subst hr
    refine ⟨?_, ?_⟩ <;> (intro t ht; cases ht)
  · constructor
    · intro t ht
      obtain ⟨es', rest', h' | h'⟩ := (c228_schema_of_reply name version s hr t).1 ht <;> rw [h] at h' <;> simp at h'
    · intro t ht
      obtain ⟨es', rest', h' | h'⟩ := (c228_library_of_reply s hr t).1 ht <;> rw [h] at h' <;> simp at h'

/-- C229 does not hold: if the reply has data as well, its errors are dropped and the data is taken, whatever the errors are. -/
theorem c229_errors_dropped_disproved {D : Type} (name : Text) (version : Option Text) (s : Session D) (hr : s.room ≠ 0) (es : List RpcError) (t : Text) (rest : List (Incoming D))
    (h : s.inbox = .message (.reply ⟨some (Xml.decimal s.nextId), .errorsAndData es (.wellKnown (.yangSchema t))⟩) :: rest) : (getSchema name version s).1 = .ok t :=
  (c228_schema_of_reply name version s hr t).2 ⟨es, rest, .inl h⟩

example : (freshSession (D := Unit) [.message (.reply ⟨some (Xml.decimal 10110), .errorsAndData [⟨.rpc, .operationFailed, .error, none, none, none, none⟩] (.wellKnown (.yangSchema []))⟩)] 1).room ≠ 0 := by decide

/-! ## C230 -/

/-- so many calls for the YANG library, one after the other, whatever comes of them -/
def libraryCalls {D : Type} : Nat → Session D → Session D
  | 0, s => s
  | n + 1, s => libraryCalls n (getYangLibrary s).2

theorem ask_sends {D : Type} (op : RpcOp) (s : Session D) (hr : s.room ≠ 0) : (ask op s).2.sent = s.sent ++ [.rpc ⟨Xml.decimal s.nextId, op⟩] ∧ (ask op s).2.room + 1 = s.room ∧ (ask op s).2.nextId = s.nextId + 1 := by
  obtain ⟨inbox, room, next, sent⟩ := s
  cases room with
  | zero => exact absurd rfl hr
  | succ k =>
    cases inbox with
    | nil => exact ⟨rfl, rfl, rfl⟩
    | cons i rest =>
      cases i with
      | failed => exact ⟨rfl, rfl, rfl⟩
      | message m =>
        cases m with
        | hello h => exact ⟨rfl, rfl, rfl⟩
        | rpc h => exact ⟨rfl, rfl, rfl⟩
        | reply rp =>
          rw [ask_reply]; exact ⟨rfl, rfl, rfl⟩

theorem library_state {D : Type} (s : Session D) : (getYangLibrary s).2 = (ask (.wellKnown .getYangLibrary) s).2 := by
  unfold getYangLibrary
  rcases h : ask (.wellKnown .getYangLibrary) s with ⟨e | a, s'⟩
  · rw [cbind_err h]
  · rw [cbind_ok h]; rcases a with _ | (c | (t' | y | c)) <;> rfl

/-- C230 does not hold: the YANG library is asked for again with each call, also if the calls before got it. -/
theorem c230_asked_each_time_disproved {D : Type} (n : Nat) : ∀ (s : Session D), n ≤ s.room →
    ((libraryCalls n s).sent.filter fun | .rpc ⟨_, .wellKnown .getYangLibrary⟩ => true | _ => false).length = (s.sent.filter fun | .rpc ⟨_, .wellKnown .getYangLibrary⟩ => true | _ => false).length + n := by
  induction n with
  | zero => intro s _; rfl
  | succ n ih =>
    intro s hr
    have h0 : s.room ≠ 0 := by omega
    obtain ⟨h1, h2, _⟩ := ask_sends (.wellKnown .getYangLibrary) s h0
    unfold libraryCalls
    rw [library_state, ih _ (by omega), h1, List.filter_append]
    simp; omega

/-! ## C231 -/

/-- so many calls for schemas: what came of each -/
def schemaCalls {D : Type} : List Text → Session D → List (Except ClientErr Text)
  | [], _ => []
  | n :: ns, s => (getSchema n none s).1 :: schemaCalls ns (getSchema n none s).2

/-- a server that answers each of the requests, in turn -/
def answersFrom {D : Type} (next : Nat) : List Text → List (Incoming D)
  | [] => []
  | t :: ts => .message (.reply ⟨some (Xml.decimal next), .errorsAndData [] (.wellKnown (.yangSchema t))⟩) :: answersFrom (next + 1) ts

theorem schema_state {D : Type} (n : Text) (s : Session D) : (getSchema n none s).2 = (ask (.wellKnown (.getSchema n none (some .yang))) s).2 := by
  unfold getSchema
  rcases h : ask (.wellKnown (.getSchema n none (some .yang))) s with ⟨e | a, s'⟩
  · rw [cbind_err h]
  · rw [cbind_ok h]; rcases a with _ | (c | (t' | y | c)) <;> rfl

theorem ask_takes {D : Type} (op : RpcOp) (s : Session D) (hr : s.room ≠ 0) : (ask op s).2.inbox = s.inbox.tail := by
  obtain ⟨inbox, room, next, sent⟩ := s
  cases room with
  | zero => exact absurd rfl hr
  | succ k =>
    cases inbox with
    | nil => rfl
    | cons i rest =>
      cases i with
      | failed => rfl
      | message m =>
        cases m with
        | hello h => rfl
        | rpc h => rfl
        | reply rp =>
          rw [ask_reply]; rfl

/-- C231, in part: of a server that answers each request in turn, all schemas are got. -/
theorem c231_in_turn_partial {D : Type} (names : List Text) : ∀ (texts : List Text) (s : Session D), texts.length = names.length → names.length ≤ s.room → s.inbox = answersFrom s.nextId texts →
    schemaCalls names s = texts.map .ok := by
  induction names with
  | nil => intro texts s h _ _; cases texts with | nil => rfl | cons _ _ => simp at h
  | cons n ns ih =>
    intro texts s h hr hi
    cases texts with
    | nil => simp at h
    | cons t ts =>
      simp only [List.length_cons] at hr h
      have h0 : s.room ≠ 0 := by omega
      have h1 := (c228_schema_of_reply n none s h0 t).2 ⟨[], _, .inl hi⟩
      obtain ⟨_, h2, h3⟩ := ask_sends (.wellKnown (.getSchema n none (some .yang))) s h0
      have h4 := ask_takes (.wellKnown (.getSchema n none (some .yang))) s h0
      unfold schemaCalls
      rw [h1, schema_state, ih ts _ (by omega) (by omega) (by rw [h4, h3, hi]; rfl)]
      rfl

/-- C231 does not hold: one reply that belongs to no request, before the others, spoils all calls that follow, however many there are; though the server answers each of them. -/
theorem c231_stray_reply_disproved {D : Type} (names : List Text) : ∀ (texts : List Text) (s : Session D) (n : Nat) (c : ReplyContent YLib), n < s.nextId → names.length ≤ s.room →
    s.inbox = .message (.reply ⟨some (Xml.decimal n), c⟩) :: answersFrom s.nextId texts → ∀ r ∈ schemaCalls names s, ∀ t, r ≠ .ok t := by
  induction names with
  | nil => intro texts s n c _ _ _ r hr; cases hr
  | cons x xs ih =>
    intro texts s n c hn hroom hi r hr t
    simp only [List.length_cons] at hroom
    have h0 : s.room ≠ 0 := by omega
    have bad : ∀ t, (getSchema x none s).1 ≠ .ok t := by
      intro t ht
      obtain ⟨es, rest, h | h⟩ := (c228_schema_of_reply x none s h0 t).1 ht <;> rw [hi] at h <;> simp at h
      exact absurd (decimal_injective h.1.1) (by omega)
    obtain ⟨_, h2, h3⟩ := ask_sends (.wellKnown (.getSchema x none (some .yang))) s h0
    have h4 := ask_takes (.wellKnown (.getSchema x none (some .yang))) s h0
    rcases List.mem_cons.1 hr with rfl | hr
    · exact bad t
    · rw [schema_state] at hr
      cases texts with
      | nil =>
        have hinbox : (ask (.wellKnown (.getSchema x none (some .yang))) s).2.inbox = [] := by rw [h4, hi]; rfl
        have all : ∀ (ns : List Text) (s : Session D), s.inbox = [] → ns.length ≤ s.room → ∀ r ∈ schemaCalls ns s, ∀ t, r ≠ .ok t := by
          intro ns
          induction ns with
          | nil => intro s _ _ r hr; cases hr
          | cons y ys ihy =>
            intro s hs hl r hr t
            simp only [List.length_cons] at hl
            have h0 : s.room ≠ 0 := by omega
            rcases List.mem_cons.1 hr with rfl | hr
            · intro ht
              obtain ⟨es, rest, h | h⟩ := (c228_schema_of_reply y none s h0 t).1 ht <;> rw [hs] at h <;> simp at h
            · rw [schema_state] at hr
              obtain ⟨_, g2, _⟩ := ask_sends (.wellKnown (.getSchema y none (some .yang))) s h0
              exact ihy _ (by rw [ask_takes _ _ h0, hs]; rfl) (by omega) r hr t
        exact all xs _ hinbox (by omega) r hr t
      | cons t' ts => exact ih ts _ s.nextId _ (by rw [h3]; omega) (by omega) (by rw [h4, h3, hi]; rfl) r hr t

example : ∃ (s : Session Unit), 2 < s.nextId ∧ 2 ≤ s.room ∧ s.inbox = .message (.reply ⟨some (Xml.decimal 2), .ok⟩) :: answersFrom s.nextId [['a'], ['b']] :=
  ⟨freshSession (.message (.reply ⟨some (Xml.decimal 2), .ok⟩) :: answersFrom 10110 [['a'], ['b']]) 2, by decide, by decide, rfl⟩

/-! ## C232 -/

theorem ask_got {D : Type} (op : RpcOp) (r : ReplyContent YLib) (rest : List (Incoming D)) (k next : Nat) (sent : List (Message D YLib)) : ask op ⟨.message (.reply ⟨some (Xml.decimal next), r⟩) :: rest, k + 1, next, sent⟩ =
    (.ok (responses r), ⟨rest, k, next + 1, sent ++ [.rpc ⟨Xml.decimal next, op⟩]⟩) := by
  rw [ask_reply]; simp

/-- a reply with data -/
def dataReply {D : Type} (next : Nat) (c : List Raw) : Incoming D := .message (.reply ⟨some (Xml.decimal next), .errorsAndData [] (.wellKnown (.data c))⟩)

theorem subscription_got {D R : Type} (rd : Readers R) (id : Nat) {c : List Raw} {sub : NcClient.Sub R} (hs : rd.subscription c = some sub) (rest : List (Incoming D)) (k next : Nat) (sent : List (Message D YLib)) :
    getSubscription rd id ⟨dataReply next c :: rest, k + 1, next, sent⟩ = resolveReference rd sub ⟨rest, k, next + 1, sent ++ [.rpc ⟨Xml.decimal next, .wellKnown (.get (.subtree (subscriptionSubtree id)))⟩]⟩ := by
  unfold getSubscription dataReply
  rw [cbind_ok (ask_got _ _ rest k next sent)]
  simp only [responses, hs]

/-- C232, in part: of a subscription that refers to a filter of a datastore by its name, the filter of that name is got with the subscription, and nothing else of the subscription changes. -/
theorem c232_datastore_reference_partial {D R : Type} (rd : Readers R) (id : Nat) {c fc : List Raw} {store : YStoreName} {name : Text} {ms : Option (List ModuleVersion)} {fs : List (Text × FilterSpec R)} {f : FilterSpec R}
    (hs : rd.subscription c = some ⟨.datastore store (.byReference name), ms⟩) (hf : rd.filters fc = some fs) (hn : (fs.map (·.1)).Nodup) (hm : (name, f) ∈ fs)
    (rest : List (Incoming D)) (k next : Nat) (sent : List (Message D YLib)) :
    (getSubscription rd id ⟨dataReply next c :: dataReply (next + 1) fc :: rest, k + 2, next, sent⟩).1 = .ok ⟨.datastore store (.within f), ms⟩ := by
  rw [subscription_got rd id hs]
  have hfind : fs.find? (fun g => g.1 = name) = some (name, f) := by
    clear hf
    induction fs with
    | nil => cases hm
    | cons g gs ih =>
      rw [List.map_cons, List.nodup_cons] at hn
      rcases List.mem_cons.1 hm with rfl | hm
      · simp
      · have : g.1 ≠ name := fun e => hn.1 (e ▸ List.mem_map.2 ⟨_, hm, rfl⟩)
        simpa [this] using ih hn.2 hm
  have hget : ∀ sent', getFilters rd (⟨dataReply (next + 1) fc :: rest, k + 1, next + 1, sent'⟩ : Session D) = (.ok fs, ⟨rest, k, next + 2, sent' ++ [.rpc ⟨Xml.decimal (next + 1), .wellKnown (.get (.subtree [.empty ⟨none, "filters"⟩ [⟨⟨none, "xmlns"⟩, some "urn:ietf:params:xml:ns:yang:ietf-subscribed-notifications".toList⟩]]))⟩]⟩) := by
    intro sent'
    unfold getFilters dataReply
    rw [cbind_ok (ask_got _ _ rest k (next + 1) sent')]
    simp only [responses, hf]
    rfl
  unfold resolveReference
  simp only
  rw [cbind_ok (hget _), hfind]
  rfl

example : ∃ (rd : Readers Unit) (c fc : List Raw), rd.subscription c = some ⟨.datastore .running (.byReference ['f']), none⟩ ∧ rd.filters fc = some [(['e'], ⟨[], ()⟩), (['f'], ⟨[(['x'], ['u'])], ()⟩)] :=
  ⟨⟨fun _ => some ⟨.datastore .running (.byReference ['f']), none⟩, fun _ => some [(['e'], ⟨[], ()⟩), (['f'], ⟨[(['x'], ['u'])], ()⟩)]⟩, [], [], rfl, rfl⟩

/-- C232: if the filters of the server cannot be read, then neither is the subscription got; and if there is none of the name, the reference stays -/
theorem c232_no_filter {D R : Type} (rd : Readers R) (id : Nat) {c fc : List Raw} {store : YStoreName} {name : Text} {ms : Option (List ModuleVersion)}
    (hs : rd.subscription c = some ⟨.datastore store (.byReference name), ms⟩) (rest : List (Incoming D)) (k next : Nat) (sent : List (Message D YLib)) :
    (rd.filters fc = none → (getSubscription rd id ⟨dataReply next c :: dataReply (next + 1) fc :: rest, k + 2, next, sent⟩).1 = .error .parsing) ∧
    (∀ fs, rd.filters fc = some fs → (∀ f ∈ fs, f.1 ≠ name) →
      (getSubscription rd id ⟨dataReply next c :: dataReply (next + 1) fc :: rest, k + 2, next, sent⟩).1 = .ok ⟨.datastore store (.byReference name), ms⟩) := by
  rw [subscription_got rd id hs]
  refine ⟨fun hf => ?_, fun fs hf hn => ?_⟩
  · have hget : ∀ sent', ∃ s', getFilters rd (⟨dataReply (next + 1) fc :: rest, k + 1, next + 1, sent'⟩ : Session D) = (.error .parsing, s') := by
      intro sent'
      unfold getFilters dataReply
      rw [cbind_ok (ask_got _ _ rest k (next + 1) sent')]
      simp only [responses, hf]
      exact ⟨_, rfl⟩
    unfold resolveReference
    simp only
    obtain ⟨s', hg⟩ := hget (sent ++ [.rpc ⟨Xml.decimal next, .wellKnown (.get (.subtree (subscriptionSubtree id)))⟩])
    rw [cbind_err hg]
  · have hfind : fs.find? (fun g => g.1 = name) = none := List.find?_eq_none.2 fun f hf' => by simpa using hn f hf'
    have hget : ∀ sent', ∃ s', getFilters rd (⟨dataReply (next + 1) fc :: rest, k + 1, next + 1, sent'⟩ : Session D) = (.ok fs, s') := by
      intro sent'
      unfold getFilters dataReply
      rw [cbind_ok (ask_got _ _ rest k (next + 1) sent')]
      simp only [responses, hf]
      exact ⟨_, rfl⟩
    unfold resolveReference
    simp only
    obtain ⟨s', hg⟩ := hget (sent ++ [.rpc ⟨Xml.decimal next, .wellKnown (.get (.subtree (subscriptionSubtree id)))⟩])
    rw [cbind_ok hg, hfind]
    rfl

/-- C232 does not hold for streams: of a subscription that refers to a filter of a stream by its name, the reference stays, whatever the server has; and unless the subscription names its modules, fetching
it fails with whatever YANG library. -/
theorem c232_stream_reference_disproved {D R L : Type} (rd : Readers R) (load : List Text → Client D L) (ok : SubTarget R → Bool) (id : Nat) {c : List Raw} {stream name : Text}
    (hs : rd.subscription c = some ⟨.stream stream (.byReference name), none⟩) (y : YLib) (rest : List (Incoming D)) (k next : Nat) (sent : List (Message D YLib)) :
    (getSubscription rd id ⟨dataReply next c :: rest, k + 2, next, sent⟩).1 = .ok ⟨.stream stream (.byReference name), none⟩ ∧
    (fetchById rd load ok id ⟨dataReply next c :: .message (.reply ⟨some (Xml.decimal (next + 1)), .errorsAndData [] (.wellKnown (.yangLibrary y))⟩) :: rest, k + 2, next, sent⟩).1 = .error (.byReference name) := by
  have h1 : ∀ (rest' : List (Incoming D)), getSubscription rd id ⟨dataReply next c :: rest', k + 2, next, sent⟩ =
      (.ok ⟨.stream stream (.byReference name), none⟩, ⟨rest', k + 1, next + 1, sent ++ [.rpc ⟨Xml.decimal next, .wellKnown (.get (.subtree (subscriptionSubtree id)))⟩]⟩) := fun rest' => by
    rw [subscription_got rd id hs]; rfl
  refine ⟨by rw [h1], ?_⟩
  have h2 : ∀ sent', getYangLibrary (⟨.message (.reply ⟨some (Xml.decimal (next + 1)), .errorsAndData [] (.wellKnown (.yangLibrary y))⟩) :: rest, k + 1, next + 1, sent'⟩ : Session D) =
      (.ok y, ⟨rest, k, next + 2, sent' ++ [.rpc ⟨Xml.decimal (next + 1), .wellKnown .getYangLibrary⟩]⟩) := fun sent' => by
    unfold getYangLibrary
    rw [cbind_ok (ask_got _ _ rest k (next + 1) sent')]
    rfl
  unfold fetchById lifted
  simp only [h1, h2]
  rfl

/-! ## C233 -/

/-- a YANG library says that a datastore has a module of a namespace -/
def Offers (y : YLib) (d : YStoreName) (ns : Text) (m : YModule) : Prop :=
  ∃ store ∈ y.stores, store.name = d ∧ ∃ schema ∈ y.schemas, schema.name = store.schema ∧ ∃ set ∈ y.sets, set.name ∈ schema.sets ∧ m ∈ set.modules ∧ m.uri = ns

/-- names of datastores, schemas and sets are keys, and the sets that are named are listed -/
structure Orderly (y : YLib) : Prop where
  stores : ∀ a ∈ y.stores, ∀ b ∈ y.stores, a.name = b.name → a = b
  schemas : ∀ a ∈ y.schemas, ∀ b ∈ y.schemas, a.name = b.name → a = b
  sets : ∀ a ∈ y.sets, ∀ b ∈ y.sets, a.name = b.name → a = b
  listed : ∀ a ∈ y.schemas, ∀ n ∈ a.sets, ∃ s ∈ y.sets, s.name = n

theorem findInSets_sound {y : YLib} {ns : Text} {m : YModule} : ∀ {names : List Text}, YLib.findInSets y ns names = some m → ∃ set ∈ y.sets, set.name ∈ names ∧ m ∈ set.modules ∧ m.uri = ns := by
  intro names
  induction names with
  | nil => intro h; cases h
  | cons n names ih =>
    intro h
    unfold YLib.findInSets at h
    split at h
    · cases h
    · rename_i s hs
      split at h
      · rename_i m' hm
        cases h
        exact ⟨s, List.mem_of_find?_eq_some hs, by simpa using Or.inl (by simpa using List.find?_some hs), List.mem_of_find?_eq_some hm, by simpa using List.find?_some hm⟩
      · obtain ⟨set, h1, h2, h3⟩ := ih h
        exact ⟨set, h1, List.mem_cons_of_mem _ h2, h3⟩

theorem findByStore_sound {y : YLib} {d : YStoreName} {ns : Text} {m : YModule} (h : YLib.findByStore y d ns = some m) : Offers y d ns m := by
  unfold YLib.findByStore at h
  split at h
  · cases h
  · rename_i store hst
    split at h
    · cases h
    · rename_i schema hsc
      exact ⟨store, List.mem_of_find?_eq_some hst, by simpa using List.find?_some hst, schema, List.mem_of_find?_eq_some hsc, by simpa using List.find?_some hsc, findInSets_sound h⟩

theorem find_key {α β : Type} [DecidableEq β] {l : List α} {key : α → β} (h : ∀ a ∈ l, ∀ b ∈ l, key a = key b → a = b) {a : α} (ha : a ∈ l) : l.find? (fun x => key x = key a) = some a := by
  cases hf : l.find? (fun x => key x = key a) with
  | none => exact absurd (List.find?_eq_none.1 hf a ha) (by simp)
  | some b => rw [h b (List.mem_of_find?_eq_some hf) a ha (by simpa using List.find?_some hf)]

theorem findByStore_complete {y : YLib} (hy : Orderly y) {d : YStoreName} {ns : Text} {m : YModule} (h : Offers y d ns m) : ∃ m', YLib.findByStore y d ns = some m' := by
  obtain ⟨store, h1, rfl, schema, h2, h3, set, h4, h5, h6, h7⟩ := h
  unfold YLib.findByStore
  rw [find_key hy.stores h1]
  simp only
  rw [← h3, find_key hy.schemas h2]
  simp only
  have listed := hy.listed schema h2
  revert h5 listed
  generalize schema.sets = names
  intro h5 listed
  induction names with
  | nil => cases h5
  | cons n names ih =>
    unfold YLib.findInSets
    obtain ⟨s, hs, hn⟩ := listed n (by simp)
    subst hn
    rw [find_key hy.sets hs]
    simp only
    split
    · exact ⟨_, rfl⟩
    · rename_i hnone
      rcases List.mem_cons.1 h5 with e | h5
      · have := hy.sets _ h4 _ hs e
        subst this
        exact absurd (List.find?_eq_none.1 hnone m h6) (by simp [h7])
      · exact ih h5 fun n hn => listed n (List.mem_cons_of_mem _ hn)

/-- C233: the modules that are found for the namespaces of a filter are, in their order, modules of these namespaces that the YANG library says the datastore has. -/
theorem c233_modules_offered {y : YLib} {d : YStoreName} : ∀ {nss : List (Text × Text)} {ms : List ModuleVersion}, modulesOfNamespaces y d nss = .ok ms →
    ∃ mods : List YModule, mods.length = nss.length ∧ ms = mods.map (fun m => ⟨m.name, m.revision, none⟩) ∧ ∀ p ∈ nss.zip mods, Offers y d p.1.2 p.2 := by
  intro nss
  induction nss with
  | nil => intro ms h; cases h; exact ⟨[], rfl, rfl, by simp⟩
  | cons p nss ih =>
    intro ms h
    obtain ⟨pre, ns⟩ := p
    unfold modulesOfNamespaces at h
    split at h
    · cases h
    · rename_i m hm
      split at h
      · cases h
      · rename_i ms' hms
        cases h
        obtain ⟨mods, h1, h2, h3⟩ := ih hms
        refine ⟨m :: mods, by simp [h1], by simp [h2], ?_⟩
        intro p hp
        rw [List.zip_cons_cons] at hp
        rcases List.mem_cons.1 hp with rfl | hp
        · exact findByStore_sound hm
        · exact h3 p hp

/-- C233, in part: they are all found if the datastore has a module for each of the namespaces, and the library lists what it names. -/
theorem c233_found_partial {y : YLib} (hy : Orderly y) {d : YStoreName} {nss : List (Text × Text)} :
    (∃ ms, modulesOfNamespaces y d nss = .ok ms) ↔ ∀ p ∈ nss, ∃ m, Offers y d p.2 m := by
  constructor
  · rintro ⟨ms, h⟩ p hp
    obtain ⟨mods, h1, _, h3⟩ := c233_modules_offered h
    obtain ⟨i, hi, rfl⟩ := List.mem_iff_getElem.1 hp
    exact ⟨mods[i]'(by omega), h3 (nss[i], mods[i]'(by omega)) (List.mem_iff_getElem.2 ⟨i, by simp; omega, by simp⟩)⟩
  · intro h
    induction nss with
    | nil => exact ⟨[], rfl⟩
    | cons p nss ih =>
      obtain ⟨ms, hms⟩ := ih fun q hq => h q (by simp [hq])
      obtain ⟨m, hm⟩ := h p (by simp)
      obtain ⟨m', hm'⟩ := findByStore_complete hy hm
      obtain ⟨pre, ns⟩ := p
      refine ⟨⟨m'.name, m'.revision, none⟩ :: ms, ?_⟩
      have hm' : YLib.findByStore y d ns = some m' := hm'
      unfold modulesOfNamespaces
      simp only [hm', hms]

/-- C233: what is fetched for a subscription has its number and its target, the content identifier of the YANG library, the modules the subscription names, or else those of the namespaces of its filter in its
datastore, and what was loaded for exactly these and for the module of subscribed notifications. -/
theorem c233_fetched {D R L : Type} {rd : Readers R} {load : List Text → Client D L} {ok : SubTarget R → Bool} {id : Nat} {s : Session D} {f : Fetched R L} (h : (fetchById rd load ok id s).1 = .ok f) :
    ∃ sub y s1 s2 s3 names, getSubscription rd id s = (.ok sub, s1) ∧ getYangLibrary s1 = (.ok y, s2) ∧ load names s2 = (.ok f.loaded, s3) ∧ f.id = id ∧ f.target = sub.target ∧ f.contentId = y.contentId ∧
      (∀ n, n ∈ names ↔ n = "ietf-subscribed-notifications".toList ∨ ∃ m ∈ f.modules, m.name = n) ∧
      (sub.modules = some f.modules ∨ sub.modules = none ∧ ∃ d filter, (sub.target = .datastore d (.within filter) ∨ ∃ stream, d = .running ∧ sub.target = .stream stream (.within filter)) ∧
        modulesOfNamespaces y d filter.namespaces = .ok f.modules) := by
  unfold fetchById lifted at h
  rcases h1 : getSubscription rd id s with ⟨_ | sub, s1⟩
  · simp only [h1] at h; cases h
  simp only [h1] at h
  rcases h2 : getYangLibrary s1 with ⟨_ | y, s2⟩
  · simp only [h2] at h; cases h
  simp only [h2] at h
  cases hm : modulesOf y sub with
  | error e => simp only [hm] at h; cases h
  | ok ms =>
    simp only [hm] at h
    rcases h3 : load (seedOf ms) s2 with ⟨_ | l, s3⟩
    · simp only [h3] at h; cases h
    simp only [h3] at h
    split at h
    · cases h
      refine ⟨sub, y, s1, s2, s3, seedOf ms, rfl, h2, h3, rfl, rfl, rfl, ?_, ?_⟩
      · intro n
        unfold seedOf
        split
        · rename_i hany
          obtain ⟨m, hm1, hm2⟩ := List.any_eq_true.1 hany
          simp only [decide_eq_true_eq] at hm2
          rw [List.mem_map]
          constructor
          · exact .inr
          · rintro (rfl | h)
            · exact ⟨m, hm1, hm2⟩
            · exact h
        · rw [List.mem_append, List.mem_map, List.mem_singleton]
          constructor
          · rintro (h | h)
            · exact .inr h
            · exact .inl h
          · rintro (h | h)
            · exact .inr h
            · exact .inl h
      · unfold modulesOf at hm
        split at hm
        · rename_i ms' hms; cases hm; exact .inl hms
        · rename_i hms
          refine .inr ⟨hms, ?_⟩
          split at hm
          · cases hm
          · rename_i st fl ht; exact ⟨.running, fl, .inr ⟨st, rfl, ht⟩, hm⟩
          · cases hm
          · rename_i d fl ht; exact ⟨d, fl, .inl ht, hm⟩
    · cases h

/-- a library of which a schema names a set that is not listed before one that is -/
def gappyLibrary : YLib :=
  ⟨['1'], [⟨['b'], [⟨['m'], none, ['u'], [], [], [], [], []⟩], []⟩], [⟨['s'], [['a'], ['b']]⟩], [⟨.running, ['s']⟩]⟩

/-- C233 does not hold of other libraries: a set of modules that is named but not listed hides the modules of the sets named after it. -/
theorem c233_hidden_disproved : (∃ m, Offers gappyLibrary .running ['u'] m) ∧ modulesOfNamespaces gappyLibrary .running [(['p'], ['u'])] = .error (.noModule ['u']) :=
  ⟨⟨_, ⟨.running, ['s']⟩, by simp [gappyLibrary], rfl, ⟨['s'], [['a'], ['b']]⟩, by simp [gappyLibrary], rfl, _, List.mem_singleton.2 rfl, by simp, List.mem_singleton.2 rfl, rfl⟩, by rfl⟩

/-- a library that lists what it names -/
def fullLibrary : YLib :=
  ⟨['1'], [⟨['a'], [], []⟩, ⟨['b'], [⟨['m'], none, ['u'], [], [], [], [], []⟩], []⟩], [⟨['s'], [['a'], ['b']]⟩], [⟨.running, ['s']⟩]⟩

example : Orderly fullLibrary := ⟨by simp [fullLibrary], by simp [fullLibrary], by simp [fullLibrary], by simp [fullLibrary]⟩

/-- a filter within a subscription -/
def sampleReaders : Readers Unit := ⟨fun _ => some ⟨.datastore .running (.within ⟨[(['p'], ['u'])], ()⟩), none⟩, fun _ => none⟩

example : (match (fetchById (D := Unit) sampleReaders (fun names => pure names) (fun _ => true) 7
    (freshSession [dataReply 10110 [], .message (.reply ⟨none, .errorsAndData [] (.wellKnown (.yangLibrary fullLibrary))⟩)] 3)).1 with
    | .ok f => f == ⟨7, .datastore .running (.within ⟨[(['p'], ['u'])], ()⟩), [⟨['m'], none, none⟩], ['1'], [['m'], "ietf-subscribed-notifications".toList]⟩ | _ => false) = true := by
  decide +kernel

/-! ## C234 -/

theorem retry_from {α : Type} (maxBackoff : Nat) (op : Nat → Except FetchErr α) (drawn : Nat → Nat) : ∀ (left i : Nat),
    ∃ n, n ≤ left ∧ (retryFrom maxBackoff op drawn i left).1 = op (i + n) ∧ (∀ j < n, ∃ e, op (i + j) = .error e) ∧ (n = left ∨ ∃ a, op (i + n) = .ok a) ∧
      (retryFrom maxBackoff op drawn i left).2 = (List.range' i (n + 1)).filterMap fun k => if k = 0 then none else some (delay maxBackoff k (drawn k)) := by
  intro left
  induction left with
  | zero =>
    intro i
    refine ⟨0, Nat.le_refl _, rfl, fun j hj => absurd hj (by omega), .inl rfl, ?_⟩
    show (if i = 0 then [] else [delay maxBackoff i (drawn i)]) = _
    by_cases h : i = 0 <;> simp [h]
  | succ left ih =>
    intro i
    cases ho : op i with
    | ok a =>
      refine ⟨0, by omega, ?_, fun j hj => absurd hj (by omega), .inr ⟨a, ho⟩, ?_⟩
      · simp [retryFrom, ho]
      · simp only [retryFrom, ho]
        by_cases h : i = 0 <;> simp [h]
    | error e =>
      obtain ⟨n, h1, h2, h3, h4, h5⟩ := ih (i + 1)
      have e1 : i + 1 + n = i + (n + 1) := by omega
      refine ⟨n + 1, by omega, ?_, ?_, ?_, ?_⟩
      · simp only [retryFrom, ho]; rw [h2, e1]
      · intro j hj
        cases j with
        | zero => exact ⟨e, ho⟩
        | succ j =>
          obtain ⟨e', he⟩ := h3 j (by omega)
          exact ⟨e', by rw [← he]; congr 1; omega⟩
      · rcases h4 with h4 | h4
        · exact .inl (by omega)
        · exact .inr (e1 ▸ h4)
      · simp only [retryFrom, ho]
        rw [h5, List.range'_succ (n := n + 1)]
        by_cases h : i = 0 <;> simp [h]

/-- C234: fetching is tried until it succeeds for the first time, or else once more often than it may be repeated, and then what the last attempt came to is reported; before each attempt but the first one there is one wait. -/
theorem c234_attempts {α : Type} (maxRetries maxBackoff : Nat) (op : Nat → Except FetchErr α) (drawn : Nat → Nat) :
    ∃ n ≤ maxRetries, (withRetry maxRetries maxBackoff op drawn).1 = op n ∧ (∀ j < n, ∃ e, op j = .error e) ∧ (n = maxRetries ∨ ∃ a, op n = .ok a) ∧ (withRetry maxRetries maxBackoff op drawn).2.length = n := by
  obtain ⟨n, h1, h2, h3, h4, h5⟩ := retry_from maxBackoff op drawn maxRetries 0
  refine ⟨n, h1, by simpa [withRetry] using h2, fun j hj => by simpa using h3 j hj, by simpa using h4, ?_⟩
  unfold withRetry
  rw [h5, List.range'_succ, List.filterMap_cons]
  simp only [if_true]
  have : ∀ (n i : Nat), 0 < i → ((List.range' i n).filterMap fun k => if k = 0 then none else some (delay maxBackoff k (drawn k))).length = n := by
    intro n
    induction n with
    | zero => intros; rfl
    | succ n ih =>
      intro i hi
      rw [List.range'_succ, List.filterMap_cons, if_neg (by omega)]
      simp [ih (i + 1) (by omega)]
  exact this n 1 (by omega)

/-- C234: each wait is at least half of, and at most, one second doubled with each attempt after the second one, and never more than the longest wait. -/
theorem c234_waits {α : Type} (maxRetries maxBackoff : Nat) (op : Nat → Except FetchErr α) (drawn : Nat → Nat) (hd : ∀ k, drawn k ≤ 1000) :
    ∀ w ∈ (withRetry maxRetries maxBackoff op drawn).2, ∃ k < maxRetries, min (1000 * 2 ^ k) maxBackoff / 2 ≤ w ∧ w ≤ min (1000 * 2 ^ k) maxBackoff := by
  intro w hw
  obtain ⟨n, h1, _, _, _, h5⟩ := retry_from maxBackoff op drawn maxRetries 0
  unfold withRetry at hw
  rw [h5] at hw
  obtain ⟨k, hk, hkw⟩ := List.mem_filterMap.1 hw
  have hk2 := List.mem_range'_1.1 hk
  by_cases h0 : k = 0
  · simp [h0] at hkw
  · simp only [if_neg h0, Option.some.injEq] at hkw
    subst hkw
    refine ⟨k - 1, by omega, ?_⟩
    unfold delay
    generalize min (1000 * 2 ^ (k - 1)) maxBackoff = c
    have h := hd k
    have h2 : c / 2 * drawn k / 1000 ≤ c / 2 := by
      refine Nat.div_le_of_le_mul ?_
      rw [Nat.mul_comm 1000]
      exact Nat.mul_le_mul_left _ h
    simp only
    omega

example : (withRetry (α := Unit) 3 4000 (fun n => if n = 2 then .ok () else .error .connect) (fun _ => 500)).2 = [750, 1500] := by decide

end Verif.Props
