import Verif.Publish.KafkaYang
import Verif.Publish.Http
/-!
# Publishers: C154 to C166
-/
namespace Verif.Props
open Publish

namespace PublishDemo

/-- numbers are messages: 0 can not be serialized -/
def json : JsonConfig Nat Nat := ⟨"t", fun n => if n = 0 then none else some (some n, n), fun n => some [n.toUInt8]⟩

end PublishDemo

/-! ## C154: messages are published once, in their order -/

/-- C154: each message in turn is given to Kafka as its record, until it is queued once or given up; those that can not be serialized are left out, and nothing else is given -/
theorem c154_relayed (c : JsonConfig T J) (kafka : Kafka Empty) (es : List (Event T)) :
    Answered kafka ((c.run kafka {} es).1.history) ∧ (c.run kafka {} es).2 = ending es ∧
    ∃ bs : List (T × List (Call Empty)), bs.map (·.1) = messages es ∧ (c.run kafka {} es).1.history = bs.flatMap (·.2) ++ lastly (ending es) ∧
      ∀ b ∈ bs, (c.record b.1 = none ∧ b.2 = []) ∨ ∃ r ok, c.record b.1 = some r ∧ Tries r b.2 ok := by
  have hd := (JsonDone.start c kafka).foldl (ms' := messages es)
  rw [List.nil_append] at hd
  obtain ⟨bs, h1, h2, h3⟩ := hd.blocks
  unfold JsonConfig.run
  rw [run_eq]
  refine ⟨?_, rfl, bs, h1, ?_, h3⟩
  · split
    · exact hd.answered.snoc nofun
    · exact hd.answered
  · split
    · rename_i h
      rw [h]
      show _ ++ _ = _
      rw [h2]
      rfl
    · rename_i h
      refine h2.trans ?_
      cases he : ending es with
      | none => simp [lastly]
      | some e => cases e <;> simp_all [lastly]

/-- C154: what is queued are records of messages, in their order, none twice -/
theorem c154_once (c : JsonConfig T J) (kafka : Kafka Empty) (es : List (Event T)) : (queued (c.run kafka {} es).1.history).Sublist ((messages es).filterMap c.record) := by
  obtain ⟨-, -, bs, h1, h2, h3⟩ := c154_relayed c kafka es
  rw [h2, queued_append, show queued (lastly (X := Empty) (ending es)) = [] by cases ending es with | none => rfl | some e => cases e <;> rfl, List.append_nil, ← h1]
  clear h1 h2
  induction bs with
  | nil => exact List.Sublist.slnil
  | cons b bs ih =>
    have ih := ih fun x hx => h3 x (by simp [hx])
    rw [List.flatMap_cons, queued_append, List.map_cons]
    rcases h3 b (by simp) with ⟨h4, h5⟩ | ⟨r, ok, h4, h5⟩
    · rw [h5, List.filterMap_cons_none h4]
      exact ih
    · rw [h5.queued, List.filterMap_cons_some h4]
      cases ok
      · exact ih.cons _
      · exact ih.cons_cons _

/-! ## C155: messages are accounted for -/

/-- C155: each message received is counted as sent, not to be serialized, or not to be sent, and sent are those that are queued -/
theorem c155_accounted (c : JsonConfig T J) (kafka : Kafka Empty) (es : List (Event T)) :
    let s := (c.run kafka {} es).1
    s.received = (messages es).length ∧ s.received = s.sends.sent + s.errorDecode + s.sends.errors ∧ s.sends.sent = (queued s.history).length ∧
      s.errorDecode = ((messages es).filter fun m => (c.record m).isNone).length ∧ s.sends.retries = sleeps s.history := by
  have hd := (JsonDone.start c kafka).foldl (ms' := messages es)
  rw [List.nil_append] at hd
  unfold JsonConfig.run
  rw [run_eq]
  split
  · refine ⟨hd.received, hd.received.trans hd.all, ?_, hd.decode, ?_⟩
    · show _ = (queued (_ ++ [Call.flush])).length
      rw [queued_append, List.length_append]
      exact hd.sent
    · show _ = sleeps (_ ++ [Call.flush])
      rw [sleeps_append]
      exact hd.retries
  · exact ⟨hd.received, hd.received.trans hd.all, hd.sent, hd.decode, hd.retries⟩

/-! ## C156: retries have an end -/

/-- C156: a record is given to Kafka at most 20 times, with at most 5.24287 seconds of sleep; it is given up only if it is refused, or if the queue is full all the time -/
theorem c156_bounded {kafka : Kafka X} {h h' : List (Call X)} (hh : Answered kafka h) {s s' : Sends} {r : Record} {ok : Bool} (he : offer kafka 0 h s r = (h', s', ok)) :
    ∃ b, h' = h ++ b ∧ attempts b ≤ 20 ∧ slept b ≤ 5242870 ∧ (∀ c ∈ b, (∃ a, c = .produce r a) ∨ ∃ n, c = .sleep n) ∧
      (ok = true → queued b = [r]) ∧ (ok = false → queued b = [] ∧ (.produce r .refused ∈ b ∨ attempts b = 20 ∧ slept b = 5242870)) := by
  obtain ⟨-, b, rfl, ht, -⟩ := offer_tries (by omega) hh he
  rw [show waits (X := X) r 0 ++ b = b from rfl] at ht
  have hat : ∀ (x : List (Call X)) (a : Answer), attempts (x ++ [.produce r a]) = attempts x + 1 := fun x a => by simp [attempts, List.countP_append]
  have hsl : ∀ (x : List (Call X)) (a : Answer), slept (x ++ [.produce r a]) = slept x := fun x a => by simp [slept]
  have hk : ∀ k, k ≤ 19 → slept (waits (X := X) r k) ≤ 5242870 := fun k hk => by
    have := waits_slept (X := X) r k
    have := Nat.pow_le_pow_right (n := 2) (by omega) hk
    omega
  have h19 : slept (waits (X := X) r 19) = 5242870 := by have := waits_slept (X := X) r 19; omega
  refine ⟨b, rfl, ?_, ?_, ht.calls, ?_, ?_⟩
  · cases ht <;> rw [hat, waits_attempts] <;> omega
  · cases ht with
    | sent h => rw [hsl]; exact hk _ h
    | refused h => rw [hsl]; exact hk _ h
    | full => rw [hsl]; exact hk _ (Nat.le_refl _)
  · rintro rfl; exact ht.queued
  · rintro rfl
    refine ⟨ht.queued, ?_⟩
    cases ht with
    | refused h => exact .inl (by simp)
    | full => exact .inr ⟨by rw [hat, waits_attempts], by rw [hsl, h19]⟩

/-- a queue that is always full -/
example : (offer (X := Empty) (fun _ _ => .full) 0 [] {} ⟨"t", none, [1], []⟩).2 = (⟨0, 19, 1⟩, false) := by decide +kernel

example : ((PublishDemo.json.run (fun h r => if h.length = 0 then .full else if r.payload = [2] then .refused else .queued) {} [.message 1, .message 0, .message 2, .message 3, .shutdown, .message 4]).1) =
    { history := [.produce ⟨"t", some [1], [1], []⟩ .full, .sleep 10, .produce ⟨"t", some [1], [1], []⟩ .queued, .produce ⟨"t", some [2], [2], []⟩ .refused,
        .produce ⟨"t", some [3], [3], []⟩ .queued, .flush], received := 4, errorDecode := 1, sends := ⟨2, 1, 1⟩ } := by
  decide +kernel

/-! ## C157: values are published once, in their order -/

/-- C157: of each message in turn all values are encoded and given to Kafka with the key of the message, in their order, also after one that fails -/
theorem c157_values (c : AvroConfig T J V) (kafka : Kafka (AvroCall V)) (encoder : List (Call (AvroCall V)) → V → Option (List UInt8)) (es : List (Event T)) :
    let h := (c.run kafka encoder {} es).1.history
    Answered kafka h ∧ (∀ before v a after, h = before ++ .other ⟨v, a⟩ :: after → encoder before v = a) ∧
    ∃ bs : List (T × List (Call (AvroCall V))), bs.map (·.1) = messages es ∧ h = bs.flatMap (·.2) ++ lastly (ending es) ∧
      ∀ b ∈ bs, (c.parts b.1 = none ∧ b.2 = []) ∨ ∃ key vs, c.parts b.1 = some (key, vs) ∧ PublishesValues c.topic key vs b.2 := by
  have hd := (AvroDone.start c kafka encoder).foldl (ms' := messages es)
  rw [List.nil_append] at hd
  obtain ⟨bs, h1, h2, h3⟩ := hd.blocks
  unfold AvroConfig.run
  rw [run_eq]
  by_cases he : ending es = some .shutdown
  · rw [if_pos he, he]
    exact ⟨hd.answered.snoc nofun, fun before v a after e => (hd.said.append (b := [.flush]) (by simp)) before ⟨v, a⟩ after e, bs, h1, congrArg (· ++ [Call.flush]) h2, h3⟩
  · rw [if_neg he]
    refine ⟨hd.answered, fun before v a after e => hd.said before ⟨v, a⟩ after e, bs, h1, ?_, h3⟩
    refine h2.trans ?_
    cases hx : ending es with
    | none => simp [lastly]
    | some e => cases e <;> simp_all [lastly]

/-! ## C158: values are accounted for -/

/-- C158: each message is counted as received, and as failed if its key or its values can not be made; each value of others is counted as sent, not to be encoded, or not to be sent -/
theorem c158_accounted (c : AvroConfig T J V) (kafka : Kafka (AvroCall V)) (encoder : List (Call (AvroCall V)) → V → Option (List UInt8)) (es : List (Event T)) :
    let s := (c.run kafka encoder {} es).1
    s.received = (messages es).length ∧ s.errorKey + s.errorConvert = ((messages es).filter fun m => (c.parts m).isNone).length ∧
      s.errorKey = ((messages es).filter fun m => (c.recordKey m).isNone).length ∧ s.sends.sent = (queued s.history).length ∧
      s.errorEncode = s.history.countP (fun | .other ⟨_, none⟩ => true | _ => false) ∧
      ((messages es).map fun m => ((c.parts m).map (·.2.length)).getD 0).sum = s.sends.sent + s.errorEncode + s.sends.errors := by
  have hd := (AvroDone.start c kafka encoder).foldl (ms' := messages es)
  rw [List.nil_append] at hd
  unfold AvroConfig.run
  rw [run_eq]
  split
  · refine ⟨hd.received, hd.failed, hd.key, ?_, ?_, hd.all⟩
    · show _ = (queued (_ ++ [Call.flush])).length
      rw [queued_append, List.length_append]
      exact hd.sent
    · show _ = unencoded (_ ++ [Call.flush])
      rw [unencoded_append]
      exact hd.encode
  · exact ⟨hd.received, hd.failed, hd.key, hd.sent, hd.encode, hd.all⟩

/-- a message of two values of which the first can not be encoded -/
example : (AvroConfig.run (⟨"t", fun _ => none, fun n => some (List.range n), fun (_ : Nat) => none⟩ : AvroConfig Nat Nat Nat) (fun _ _ => .queued) (fun _ v => if v = 0 then none else some [v.toUInt8])
    {} [.message 2]).1.history = [.other ⟨0, none⟩, .other ⟨1, some [1]⟩, .produce ⟨"t", none, [1], []⟩ .queued] := by decide +kernel

/-! ## C159: errors of messages are reported -/

/-- C159: publishing a message with values fails exactly if its key or values can not be made, or none of them is queued and some are counted as errors -/
theorem c159_reported_partial (c : AvroConfig T J V) (kafka : Kafka (AvroCall V)) (encoder : List (Call (AvroCall V)) → V → Option (List UInt8)) {s : AvroState V} (hs : Answered kafka s.history)
    (he : ∀ before v a after, s.history = before ++ .other ⟨v, a⟩ :: after → encoder before v = a) (m : T) (hm : ∀ vs, c.values m = some vs → vs ≠ []) :
    (c.send kafka encoder s m).2 = false ↔ c.parts m = none ∨
      queued (c.send kafka encoder s m).1.history = queued s.history ∧ s.errorEncode + s.sends.errors < (c.send kafka encoder s m).1.errorEncode + (c.send kafka encoder s m).1.sends.errors := by
  rw [AvroConfig.handle_eq]
  cases hk : c.recordKey m with
  | none => simp [AvroConfig.parts, hk]
  | some key =>
    cases hv : c.values m with
    | none => simp [AvroConfig.parts, hk, hv]
    | some vs =>
      generalize hg : c.sendValues kafka encoder key s 0 0 vs = g
      obtain ⟨s', done, errors⟩ := g
      obtain ⟨-, -, -, -, -, b, h1, -, h3, -, -, h4, h2, -⟩ := sendValues_done hs (fun before x after e => he before x.value x.bytes after e) hg
      simp only [hg]
      rw [h1, queued_append]
      have hn : 0 < vs.length := List.length_pos_iff.mpr (hm vs hv)
      have : queued s.history ++ queued b = queued s.history ↔ queued b = [] := by
        constructor
        · intro h
          have := congrArg List.length h
          rw [List.length_append] at this
          exact List.eq_nil_of_length_eq_zero (by omega)
        · intro h; rw [h, List.append_nil]
      rw [this, h2, Nat.zero_add]
      simp only [AvroConfig.parts, hk, hv, Option.bind_some, Option.map_some, reduceCtorEq, false_or, bne_eq_false_iff_eq, List.length_eq_zero_iff]
      constructor
      · intro h
        rw [h] at h3
        simp only [List.length_nil] at h3
        exact ⟨h, by omega⟩
      · exact fun h => h.1

example : ∀ vs, (fun n : Nat => some (List.range (n + 1))) 1 = some vs → vs ≠ [] := by intro vs h; cases h; decide

/-- C159: publishing a message without values fails, though there is nothing that could -/
theorem c159_empty_disproved (c : AvroConfig T J V) (kafka : Kafka (AvroCall V)) (encoder : List (Call (AvroCall V)) → V → Option (List UInt8)) (s : AvroState V) {m : T} (hk : c.key m = none)
    (hm : c.values m = some []) : c.send kafka encoder s m = (s, false) := by
  unfold AvroConfig.send
  rw [hk, hm]
  rfl

example : (⟨"t", fun _ => none, fun n => some (List.range n), fun (_ : Nat) => none⟩ : AvroConfig Nat Nat Nat).values 0 = some [] := rfl

/-! ## C160: messages have the identifiers of their schemas -/

namespace PublishDemo

/-- messages are numbers, content identifiers are those of the numbers but for 0 -/
def yang : YangConfig Nat Nat := ⟨"t", fun n => if n = 0 then none else some (toString n), fun _ => none, fun n => some [n.toUInt8], fun _ => none, some 7⟩

/-- the cache knows all but 3, and what registering of 4 fails -/
def world : YangWorld Nat :=
  ⟨fun _ _ => .queued, fun _ id => if id = "3" then .unknown id else .found id id.length, fun _ lib => if lib = 2 then none else some (some 42)⟩

theorem honest : world.Honest := by
  constructor
  · intro h id id' lib e
    unfold world at e
    simp only at e
    split at e <;> cases e
    rfl
  · intro h id id' e
    unfold world at e
    simp only at e
    split at e <;> cases e
    rfl

end PublishDemo

/-- C160: each message in turn is published with the identifier of the schema of its content identifier: what was given at the start or what the registry answered for the library that
the cache has; or with that of the default schema if it has no content identifier, or the cache does not know that or does not answer in time. Libraries are looked up and registered
only if no identifier is known yet -/
theorem c160_schemas (c : YangConfig T J) {w : YangWorld L} (hw : w.Honest) (start : List (String × Int)) (es : List (Event T)) :
    let h := (c.run w { ids := start } es).1.history
    Answered w.kafka h ∧ (∀ before id a after, h = before ++ .other (.lookup id a) :: after → w.lookup before id = a) ∧
    (∀ before lib a after, h = before ++ .other (.register lib a) :: after → w.register before lib = a) ∧
    ∃ bs : List (T × List (Call (YangCall L))), bs.map (·.1) = messages es ∧ h = bs.flatMap (·.2) ++ lastly (ending es) ∧
      ∀ before b after, bs = before ++ b :: after → PublishesYang c start (before.flatMap (·.2)) b.1 b.2 := by
  have hd := (YangDone.start c w start).foldl hw (ms' := messages es)
  rw [List.nil_append] at hd
  obtain ⟨bs, h1, h2, h3⟩ := hd.blocks
  unfold YangConfig.run
  rw [run_eq]
  by_cases he : ending es = some .shutdown
  · rw [if_pos he, he]
    have hs := hd.inv.said.append (b := [.flush]) (by simp)
    exact ⟨hd.inv.answered.snoc nofun, fun before id a after e => hs before (.lookup id a) after e, fun before lib a after e => hs before (.register lib a) after e, bs, h1,
      congrArg (· ++ [Call.flush]) h2, h3⟩
  · rw [if_neg he]
    refine ⟨hd.inv.answered, fun before id a after e => hd.inv.said before (.lookup id a) after e, fun before lib a after e => hd.inv.said before (.register lib a) after e, bs, h1, ?_, h3⟩
    refine h2.trans ?_
    cases hx : ending es with
    | none => simp [lastly]
    | some e => cases e <;> simp_all [lastly]

example : (PublishDemo.yang.run PublishDemo.world {} [.message 1, .message 0, .message 1, .message 3, .message 12]).1.history =
    [.other (.lookup "1" (.found "1" 1)), .other (.register 1 (some (some 42))), .produce ⟨"t", none, [1], [("schema-id", "42"), ("content-type", "application/yang.data+json")]⟩ .queued,
      .produce ⟨"t", none, [0], [("schema-id", "7"), ("content-type", "application/yang.data+json")]⟩ .queued,
      .produce ⟨"t", none, [1], [("schema-id", "42"), ("content-type", "application/yang.data+json")]⟩ .queued,
      .other (.lookup "3" (.unknown "3")), .produce ⟨"t", none, [3], [("schema-id", "7"), ("content-type", "application/yang.data+json")]⟩ .queued,
      .other (.lookup "12" (.found "12" 2)), .other (.register 2 none)] := by decide +kernel

/-! ## C161: libraries are registered once -/

/-- C161: once a library has been registered for a content identifier, or was given at the start, it is not looked up again -/
theorem c161_once (c : YangConfig T J) {w : YangWorld L} (hw : w.Honest) (start : List (String × Int)) (es : List (Event T)) {before after : List (Call (YangCall L))} {contentId : String}
    {a : Lookup L} (h : (c.run w { ids := start } es).1.history = before ++ .other (.lookup contentId a) :: after) : ∀ id, ¬Knows start before contentId id := by
  have hd := (YangDone.start c w start).foldl hw (ms' := messages es)
  rw [List.nil_append] at hd
  unfold YangConfig.run at h
  rw [run_eq] at h
  split at h
  · exact (hd.inv.once.append (b := [.flush]) (by simp)) before contentId a after h
  · exact hd.inv.once before contentId a after h

/-! ## C162: messages with schemas are accounted for -/

/-- C162: each message received is counted as sent, not to be serialized, or not to be sent, if all schemas can be asked for and registered; others are counted as received only -/
theorem c162_accounted_partial (c : YangConfig T J) {w : YangWorld L} (hw : w.Honest) (start : List (String × Int)) (es : List (Event T)) :
    let s := (c.run w { ids := start } es).1
    s.received = (messages es).length ∧ s.sends.sent = (queued s.history).length ∧ s.errorDecode = ((messages es).filter fun m => (c.content m).isNone).length ∧
      s.received = s.sends.sent + s.errorDecode + s.sends.errors + unregistered s.history := by
  have hd := (YangDone.start c w start).foldl hw (ms' := messages es)
  rw [List.nil_append] at hd
  unfold YangConfig.run
  rw [run_eq]
  split
  · refine ⟨hd.received, ?_, hd.decode, ?_⟩
    · show _ = (queued (_ ++ [Call.flush])).length
      rw [queued_append, List.length_append]
      exact hd.sent
    · refine (hd.received.trans hd.all).trans ?_
      show _ = _ + unregistered (_ ++ [Call.flush])
      rw [unregistered_append]
      rfl
  · exact ⟨hd.received, hd.sent, hd.decode, hd.received.trans hd.all⟩

/-- C162: a message whose schema can not be registered is counted as received only, and is not sent though there is a default schema -/
theorem c162_lost_disproved : PublishDemo.world.Honest ∧ PublishDemo.yang.default ≠ none ∧
    let s := (PublishDemo.yang.run PublishDemo.world {} [.message 12]).1
    s.received = 1 ∧ s.sends = ⟨0, 0, 0⟩ ∧ s.errorDecode = 0 ∧ queued s.history = [] :=
  ⟨PublishDemo.honest, by decide, by decide +kernel⟩

/-! ## C163: the queue is flushed at the end -/

/-- C163: on shutdown the queue is flushed last -/
theorem c163_flush_partial (es : List (Event T)) (he : ending es = some .shutdown) :
    (∀ (c : JsonConfig T J) kafka, ∃ h, (c.run kafka {} es).1.history = h ++ [.flush]) ∧
    (∀ (c : AvroConfig T J V) kafka encoder, ∃ h, (c.run kafka encoder {} es).1.history = h ++ [.flush]) ∧
    ∀ (c : YangConfig T J) (w : YangWorld L) start, ∃ h, (c.run w { ids := start } es).1.history = h ++ [.flush] := by
  refine ⟨fun c kafka => ?_, fun c kafka encoder => ?_, fun c w start => ?_⟩
  · unfold JsonConfig.run
    rw [run_eq, if_pos he]
    exact ⟨_, rfl⟩
  · unfold AvroConfig.run
    rw [run_eq, if_pos he]
    exact ⟨_, rfl⟩
  · unfold YangConfig.run
    rw [run_eq, if_pos he]
    exact ⟨_, rfl⟩

example : ending [.message 1, .shutdown, .message 2] = some .shutdown := rfl

/-- C163: if the messages end, the publisher ends with a record in the queue that is not flushed -/
theorem c163_closed_disproved : (PublishDemo.json.run (fun _ _ => .queued) {} [.message 1, .messagesClosed]) =
    ({ history := [.produce ⟨"t", some [1], [1], []⟩ .queued], received := 1, sends := ⟨1, 0, 0⟩ }, some .receiveError) := by decide +kernel

/-! ## C164: messages are posted once, in their order -/

/-- C164: the batches posted, put together, are what the first messages are converted to, in batches of more than the minimum; nothing is posted twice -/
theorem c164_posted (convert : T → List M) (batchSize : Nat) (server : List (Post M) → List M → Reply) (es : List (Event T)) :
    let s := (httpRun convert batchSize server {} es).1
    s.posts.flatMap (·.batch) <+: (messages es).flatMap convert ∧ (∀ p ∈ s.posts, batchSize < p.batch.length) ∧
      ∀ before p after, s.posts = before ++ p :: after → server before p.batch = p.reply := by
  rcases httpRun_inv (HttpFine.start batchSize server) (Prod.eta (httpRun convert batchSize server {} es)).symm with ⟨-, h, -⟩ | ⟨-, ms, rest, h1, h, -⟩
  · exact ⟨⟨_, h.all⟩, h.batches, h.said⟩
  · obtain ⟨ps, batch, h2, h3, -, -⟩ := h.last
    refine ⟨?_, h.batches, h.said⟩
    rw [h1, h2, List.flatMap_append, List.flatMap_append, List.flatMap_singleton, h3]
    exact List.prefix_append _ _

/-! ## C165: all messages are posted -/

/-- C165: if the server replies to all, all messages are posted but for the last, which are no more than the minimum of a batch -/
theorem c165_all_partial (convert : T → List M) (batchSize : Nat) {server : List (Post M) → List M → Reply} (hs : ∀ ps batch, server ps batch ≠ .failure) (es : List (Event T)) :
    let s := (httpRun convert batchSize server {} es).1
    ∃ rest, s.posts.flatMap (·.batch) ++ rest = (messages es).flatMap convert ∧ rest.length ≤ batchSize := by
  rcases httpRun_inv (HttpFine.start batchSize server) (Prod.eta (httpRun convert batchSize server {} es)).symm with ⟨-, h, -⟩ | ⟨-, ms, rest, h1, h, -⟩
  · exact ⟨_, h.all, h.rest⟩
  · obtain ⟨ps, batch, h2, -⟩ := h.last
    exact absurd (h.said ps _ [] h2) (hs _ _)

example : ∀ (ps : List (Post Nat)) batch, (fun (_ : List (Post Nat)) (_ : List Nat) => Reply.response 200) ps batch ≠ .failure := nofun

/-- C165: on shutdown messages that wait for a batch are dropped -/
theorem c165_shutdown_disproved (server : List (Post Nat) → List Nat → Reply) :
    httpRun (fun n => [n]) 1 server {} [.message 5, .shutdown] = ({ buf := [5], received := 1 }, some .name) := rfl

/-- C165: after a request that fails nothing is posted any more -/
theorem c165_failure_disproved : httpRun (fun n => [n]) 0 (fun ps (_ : List Nat) => if ps.length = 0 then .failure else .response 200) {} [.message 5, .message 6] =
    ({ posts := [⟨[5], .failure⟩], buf := [5], received := 1, failed := 1 }, some .error) := rfl

/-! ## C166: messages posted are counted -/

/-- C166: those with a reply are counted as sent, and a request that fails is counted as one failure -/
theorem c166_counted_partial (convert : T → List M) (batchSize : Nat) (server : List (Post M) → List M → Reply) (es : List (Event T)) :
    let s := (httpRun convert batchSize server {} es).1
    s.sent = (((s.posts.filter fun p => p.reply ≠ .failure).map (·.batch.length)).sum) ∧ s.failed = (s.posts.filter fun p => p.reply = .failure).length := by
  have hf : ∀ {ps : List (Post M)}, (∀ p ∈ ps, ∃ status, p.reply = .response status) → (ps.filter fun p => p.reply ≠ .failure) = ps ∧ (ps.filter fun p => p.reply = .failure) = [] := by
    intro ps hps
    constructor
    · rw [List.filter_eq_self]
      intro p hp
      obtain ⟨_, e⟩ := hps p hp
      simp [e]
    · rw [List.filter_eq_nil_iff]
      intro p hp
      obtain ⟨_, e⟩ := hps p hp
      simp [e]
  rcases httpRun_inv (HttpFine.start batchSize server) (Prod.eta (httpRun convert batchSize server {} es)).symm with ⟨-, h, -⟩ | ⟨-, ms, rest, h1, h, -⟩
  · obtain ⟨e1, e2⟩ := hf h.replies
    simp only [e1, e2]
    exact ⟨by rw [h.sent, List.length_flatMap], h.failed⟩
  · obtain ⟨ps, batch, h2, -, h4, h5⟩ := h.last
    obtain ⟨e1, e2⟩ := hf h4
    refine ⟨?_, ?_⟩
    · rw [h2, List.filter_append, e1, h5, List.length_flatMap]
      simp
    · rw [h2, List.filter_append, e2, h.failed]
      simp

/-- C166: messages that the server refuses are counted as sent -/
theorem c166_status_disproved : (httpRun (fun n => [n]) 0 (fun _ (_ : List Nat) => .response 500) {} [.message 5]).1 = { posts := [⟨[5], .response 500⟩], received := 1, sent := 1 } := rfl

/-- C166: of a batch that fails one message is counted -/
theorem c166_failed_disproved : (httpRun (fun n => [n, n, n]) 0 (fun _ (_ : List Nat) => .failure) {} [.message 5]).1 =
    { posts := [⟨[5, 5, 5], .failure⟩], buf := [5, 5, 5], received := 1, failed := 1 } := rfl

end Verif.Props
