import Verif.Publish.KafkaLemmas
/-!
# Runs of publishers to Kafka
-/
namespace Verif.Publish
open Collector

/-- what has become of messages that were published as JSON -/
structure JsonDone (c : JsonConfig T J) (kafka : Kafka Empty) (ms : List T) (s : JsonState) : Prop where
  answered : Answered kafka s.history
  blocks : ∃ bs : List (T × List (Call Empty)), bs.map (·.1) = ms ∧ s.history = bs.flatMap (·.2) ∧
    ∀ b ∈ bs, (c.record b.1 = none ∧ b.2 = []) ∨ ∃ r ok, c.record b.1 = some r ∧ Tries r b.2 ok
  received : s.received = ms.length
  decode : s.errorDecode = (ms.filter fun m => (c.record m).isNone).length
  sent : s.sends.sent = (queued s.history).length
  all : ms.length = s.sends.sent + s.errorDecode + s.sends.errors
  retries : s.sends.retries = sleeps s.history

theorem JsonConfig.handle_eq (c : JsonConfig T J) (kafka : Kafka Empty) (s : JsonState) (m : T) : c.handle kafka s m =
    match c.record m with
    | none => { s with received := s.received + 1, errorDecode := s.errorDecode + 1 }
    | some r => { s with received := s.received + 1, history := (offer kafka 0 s.history s.sends r).1, sends := (offer kafka 0 s.history s.sends r).2.1 } := by
  unfold JsonConfig.handle JsonConfig.send JsonConfig.record
  cases c.serialize m with
  | none => rfl
  | some x =>
    obtain ⟨key, value⟩ := x
    simp only [Option.bind_some]
    cases c.toVec value with
    | none => rfl
    | some payload =>
      cases key with
      | none => rfl
      | some key =>
        simp only [Option.map_some, Option.bind_some]
        cases c.toVec key <;> rfl

theorem JsonDone.snoc {c : JsonConfig T J} {kafka : Kafka Empty} {ms : List T} {s : JsonState} (h : JsonDone c kafka ms s) (m : T) : JsonDone c kafka (ms ++ [m]) (c.handle kafka s m) := by
  rw [JsonConfig.handle_eq]
  obtain ⟨ha, ⟨bs, hm, hh, hb⟩, hr, hd, hs, hall, hre⟩ := h
  cases hrec : c.record m with
  | none =>
    refine ⟨ha, ⟨bs ++ [(m, [])], by simp [hm], by simp [hh], ?_⟩, by simp [hr], by simp [hd, List.filter_append, hrec], hs, ?_, hre⟩
    · intro b hb'
      rcases List.mem_append.mp hb' with hb' | hb'
      · exact hb b hb'
      · rw [List.mem_singleton.mp hb']; exact .inl ⟨hrec, rfl⟩
    · simp only [List.length_append, List.length_singleton]; omega
  | some r =>
    generalize ho : offer kafka 0 s.history s.sends r = o
    obtain ⟨h', s', ok⟩ := o
    obtain ⟨ha', b, rfl, ht, h1, h2, h3, h4⟩ := offer_tries (by omega) ha ho
    simp only [ho]
    refine ⟨ha', ⟨bs ++ [(m, b)], by simp [hm], by simp [hh], ?_⟩, by simp [hr], by simp [hd, List.filter_append, hrec], ?_, ?_, ?_⟩
    · intro b' hb'
      rcases List.mem_append.mp hb' with hb' | hb'
      · exact hb b' hb'
      · rw [List.mem_singleton.mp hb']; exact .inr ⟨r, ok, hrec, ht⟩
    · simp only [queued_append, List.length_append]; omega
    · simp only [List.length_append, List.length_singleton]
      cases ok <;> simp only [Bool.false_eq_true, if_false, if_true] at h2 h3 <;> omega
    · simp only [sleeps_append]; omega

theorem JsonDone.foldl {c : JsonConfig T J} {kafka : Kafka Empty} : ∀ {ms ms' : List T} {s : JsonState}, JsonDone c kafka ms s → JsonDone c kafka (ms ++ ms') (ms'.foldl (c.handle kafka) s)
  | ms, [], s, h => by simpa using h
  | ms, m :: ms', s, h => by simpa using (h.snoc m).foldl (ms' := ms')

theorem JsonDone.start (c : JsonConfig T J) (kafka : Kafka Empty) : JsonDone c kafka [] {} :=
  ⟨fun before r a after h => absurd h (by simp), ⟨[], rfl, rfl, nofun⟩, rfl, rfl, rfl, rfl, rfl⟩

/-! ## Other calls -/

/-- the calls of the loop of `send` are all of librdkafka or sleeps -/
theorem Tries.calls {r : Record} {b : List (Call X)} {ok : Bool} (h : Tries r b ok) : ∀ c ∈ b, (∃ a, c = .produce r a) ∨ ∃ n, c = .sleep n := by
  have hw : ∀ k, ∀ c ∈ waits (X := X) r k, (∃ a, c = .produce r a) ∨ ∃ n, c = .sleep n := by
    intro k
    induction k with
    | zero => simp [waits]
    | succ k ih =>
      intro c hc
      simp only [waits, List.mem_append, List.mem_cons, List.not_mem_nil, or_false] at hc
      rcases hc with hc | rfl | rfl
      · exact ih c hc
      · exact .inl ⟨_, rfl⟩
      · exact .inr ⟨_, rfl⟩
  intro c hc
  cases h <;> rcases List.mem_append.mp hc with hc | hc <;> first | exact hw _ c hc | exact .inl ⟨_, List.mem_singleton.mp hc⟩

/-- others have answered what is written down -/
def Said (says : List (Call X) → X → Prop) (h : List (Call X)) : Prop := ∀ before x after, h = before ++ .other x :: after → says before x

theorem Said.append {says : List (Call X) → X → Prop} : ∀ {b h : List (Call X)}, Said says h → (∀ x, .other x ∉ b) → Said says (h ++ b)
  | [], h, hh, _ => by simpa using hh
  | c :: b, h, hh, hb => by
    rw [show h ++ c :: b = (h ++ [c]) ++ b by simp]
    refine Said.append ?_ fun x hx => hb x (by simp [hx])
    intro before x after e
    rcases List.eq_nil_or_concat after with rfl | ⟨after', y, rfl⟩
    · obtain ⟨-, h2⟩ := List.append_inj' e rfl
      exact absurd (by simpa using h2 : c = .other x) fun h => hb x (by simp [h])
    · have e' : h ++ [c] = (before ++ .other x :: after') ++ [y] := by simpa using e
      exact hh _ _ _ (List.append_inj' e' rfl).1

theorem Said.snoc {says : List (Call X) → X → Prop} {h : List (Call X)} (hh : Said says h) {x : X} (hx : says h x) : Said says (h ++ [.other x]) := by
  intro before y after e
  rcases List.eq_nil_or_concat after with rfl | ⟨after', z, rfl⟩
  · obtain ⟨h1, h2⟩ := List.append_inj' e rfl
    subst h1
    cases h2
    exact hx
  · have e' : h ++ [.other x] = (before ++ .other y :: after') ++ [z] := by simpa using e
    exact hh _ _ _ (List.append_inj' e' rfl).1

theorem Tries.noOther {r : Record} {b : List (Call X)} {ok : Bool} (h : Tries r b ok) (x : X) : .other x ∉ b := fun hx => by
  rcases h.calls _ hx with ⟨_, h⟩ | ⟨_, h⟩ <;> cases h

/-! ## Avro -/

/-- how often a value could not be encoded -/
def unencoded (h : List (Call (AvroCall V))) : Nat := h.countP fun
  | .other ⟨_, none⟩ => true
  | _ => false

theorem unencoded_append (a b : List (Call (AvroCall V))) : unencoded (a ++ b) = unencoded a + unencoded b := List.countP_append

theorem Tries.unencoded {r : Record} {b : List (Call (AvroCall V))} {ok : Bool} (h : Tries r b ok) : unencoded b = 0 := by
  unfold Publish.unencoded
  rw [List.countP_eq_zero]
  intro c hc
  rcases h.calls c hc with ⟨_, rfl⟩ | ⟨_, rfl⟩ <;> simp

/-- what the encoder answers -/
def EncoderSays (encoder : List (Call (AvroCall V)) → V → Option (List UInt8)) (h : List (Call (AvroCall V))) (x : AvroCall V) : Prop := encoder h x.value = x.bytes

theorem PublishesValues.nil (topic : String) (key : Option (List UInt8)) : PublishesValues (V := V) topic key [] [] := ⟨[], rfl, rfl, nofun⟩

theorem PublishesValues.cons {topic : String} {key : Option (List UInt8)} {v : V} {vs : List V} {b h : List (Call (AvroCall V))} (hv : PublishesValue topic key v b)
    (hvs : PublishesValues topic key vs h) : PublishesValues topic key (v :: vs) (b ++ h) := by
  obtain ⟨bs, rfl, rfl, hb⟩ := hvs
  refine ⟨(v, b) :: bs, rfl, by simp, ?_⟩
  intro x hx
  rcases List.mem_cons.mp hx with rfl | hx
  · exact hv
  · exact hb x hx

/-- what has become of values -/
theorem sendValues_done {c : AvroConfig T J V} {kafka : Kafka (AvroCall V)} {encoder : List (Call (AvroCall V)) → V → Option (List UInt8)} {key : Option (List UInt8)} :
    ∀ {vs : List V} {s s' : AvroState V} {done errors done' errors' : Nat}, Answered kafka s.history → Said (EncoderSays encoder) s.history →
      c.sendValues kafka encoder key s done errors vs = (s', done', errors') →
      Answered kafka s'.history ∧ Said (EncoderSays encoder) s'.history ∧ s'.received = s.received ∧ s'.errorKey = s.errorKey ∧ s'.errorConvert = s.errorConvert ∧
      ∃ b, s'.history = s.history ++ b ∧ PublishesValues c.topic key vs b ∧ s'.sends.sent = s.sends.sent + (queued b).length ∧ s'.errorEncode = s.errorEncode + unencoded b ∧
        s'.sends.retries = s.sends.retries + sleeps b ∧ s'.sends.sent + s'.errorEncode + s'.sends.errors = s.sends.sent + s.errorEncode + s.sends.errors + vs.length ∧
        done' = done + (queued b).length ∧ done' + errors' = done + errors + vs.length
  | [], s, s', done, errors, done', errors', ha, hs, h => by
    cases h
    exact ⟨ha, hs, rfl, rfl, rfl, [], by simp, .nil _ _, rfl, rfl, rfl, rfl, rfl, rfl⟩
  | v :: vs, s, s', done, errors, done', errors', ha, hs, h => by
    unfold AvroConfig.sendValues at h
    cases he : encoder s.history v with
    | none =>
      rw [he] at h
      obtain ⟨ha', hs', h1, h2, h3, b, h4, h5, h6, h7, h8, h9, h10, h11⟩ := sendValues_done (ha.snoc fun _ _ h => by cases h) (hs.snoc (x := ⟨v, none⟩) he) h
      refine ⟨ha', hs', h1, h2, h3, .other ⟨v, none⟩ :: b, by simp [h4], .cons .failed h5, ?_, ?_, ?_, ?_, ?_, ?_⟩
      · exact h6
      · rw [h7, show Call.other ⟨v, none⟩ :: b = [.other ⟨v, none⟩] ++ b from rfl, unencoded_append]
        show s.errorEncode + 1 + unencoded b = s.errorEncode + (1 + unencoded b)
        omega
      · exact h8
      · simp only [List.length_cons] at *
        omega
      · exact h10
      · simp only [List.length_cons] at *
        omega
    | some payload =>
      rw [he] at h
      simp only at h
      generalize ho : offer kafka 0 (s.history ++ [.other ⟨v, some payload⟩]) s.sends ⟨c.topic, key, payload, []⟩ = o at h
      obtain ⟨h', x, ok⟩ := o
      obtain ⟨hao, b₁, rfl, ht, o1, o2, o3, o4⟩ := offer_tries (by omega) (ha.snoc fun _ _ h => by cases h) ho
      have hso : Said (EncoderSays encoder) (s.history ++ [.other ⟨v, some payload⟩] ++ b₁) := (hs.snoc (x := ⟨v, some payload⟩) he).append ht.noOther
      obtain ⟨ha', hs', h1, h2, h3, b, h4, h5, h6, h7, h8, h9, h10, h11⟩ := sendValues_done hao hso h
      have hu := ht.unencoded
      simp only [waits, List.nil_append] at hu
      refine ⟨ha', hs', h1, h2, h3, (.other ⟨v, some payload⟩ :: b₁) ++ b, by simp [h4], .cons (.tried ht) h5, ?_, ?_, ?_, ?_, ?_, ?_⟩
      · rw [h6, queued_append]
        show x.sent + _ = s.sends.sent + (queued b₁ ++ queued b).length
        rw [List.length_append]
        omega
      · rw [h7, unencoded_append]
        show s.errorEncode + _ = s.errorEncode + (unencoded b₁ + _)
        rw [hu]
        omega
      · rw [h8, sleeps_append]
        show x.retries + _ = s.sends.retries + (sleeps b₁ + _)
        omega
      · simp only [List.length_cons] at *
        cases ok <;> simp only [Bool.false_eq_true, if_false, if_true] at o2 o3 <;> omega
      · rw [h10, queued_append]
        show _ = done + (queued b₁ ++ queued b).length
        rw [List.length_append]
        cases ok <;> simp only [Bool.false_eq_true, if_false, if_true] at o2 ⊢ <;> omega
      · simp only [List.length_cons] at *
        cases ok <;> simp only [Bool.false_eq_true, if_false, if_true] at h11 ⊢ <;> omega

/-- what has become of messages that were published as Avro -/
structure AvroDone (c : AvroConfig T J V) (kafka : Kafka (AvroCall V)) (encoder : List (Call (AvroCall V)) → V → Option (List UInt8)) (ms : List T) (s : AvroState V) : Prop where
  answered : Answered kafka s.history
  said : Said (EncoderSays encoder) s.history
  blocks : ∃ bs : List (T × List (Call (AvroCall V))), bs.map (·.1) = ms ∧ s.history = bs.flatMap (·.2) ∧
    ∀ b ∈ bs, (c.parts b.1 = none ∧ b.2 = []) ∨ ∃ key vs, c.parts b.1 = some (key, vs) ∧ PublishesValues c.topic key vs b.2
  received : s.received = ms.length
  failed : s.errorKey + s.errorConvert = (ms.filter fun m => (c.parts m).isNone).length
  key : s.errorKey = (ms.filter fun m => (c.recordKey m).isNone).length
  encode : s.errorEncode = unencoded s.history
  sent : s.sends.sent = (queued s.history).length
  retries : s.sends.retries = sleeps s.history
  all : (ms.map fun m => ((c.parts m).map (·.2.length)).getD 0).sum = s.sends.sent + s.errorEncode + s.sends.errors

theorem AvroConfig.handle_eq (c : AvroConfig T J V) (kafka : Kafka (AvroCall V)) (encoder : List (Call (AvroCall V)) → V → Option (List UInt8)) (s : AvroState V) (m : T) :
    c.send kafka encoder s m = match c.recordKey m with
    | none => ({ s with errorKey := s.errorKey + 1 }, false)
    | some key =>
      match c.values m with
      | none => ({ s with errorConvert := s.errorConvert + 1 }, false)
      | some vs => ((c.sendValues kafka encoder key s 0 0 vs).1, (c.sendValues kafka encoder key s 0 0 vs).2.1 != 0) := by
  unfold AvroConfig.send AvroConfig.recordKey
  cases c.key m with
  | none => cases c.values m <;> rfl
  | some key =>
    simp only [Option.map_some]
    cases c.toVec key with
    | none => rfl
    | some key => cases c.values m <;> rfl

theorem AvroDone.snoc {c : AvroConfig T J V} {kafka : Kafka (AvroCall V)} {encoder : List (Call (AvroCall V)) → V → Option (List UInt8)} {ms : List T} {s : AvroState V}
    (h : AvroDone c kafka encoder ms s) (m : T) : AvroDone c kafka encoder (ms ++ [m]) (c.handle kafka encoder s m) := by
  unfold AvroConfig.handle
  rw [AvroConfig.handle_eq]
  obtain ⟨ha, hsaid, ⟨bs, hm, hh, hb⟩, hr, hf, hk, he, hs, hre, hall⟩ := h
  have hbs : ∀ x, (c.parts m = none ∧ x = []) ∨ (∃ key vs, c.parts m = some (key, vs) ∧ PublishesValues c.topic key vs x) → ∀ b ∈ bs ++ [(m, x)],
      (c.parts b.1 = none ∧ b.2 = []) ∨ ∃ key vs, c.parts b.1 = some (key, vs) ∧ PublishesValues c.topic key vs b.2 := by
    intro x hx b hb'
    rcases List.mem_append.mp hb' with hb' | hb'
    · exact hb b hb'
    · rw [List.mem_singleton.mp hb']; exact hx
  cases hkey : c.recordKey m with
  | none =>
    have hp : c.parts m = none := by simp [AvroConfig.parts, hkey]
    refine ⟨ha, hsaid, ⟨bs ++ [(m, [])], by simp [hm], by simp [hh], hbs [] (.inl ⟨hp, rfl⟩)⟩, by simp [hr], ?_, ?_, he, hs, hre, ?_⟩
    · simp [List.filter_append, hp, ← hf]; omega
    · simp [List.filter_append, hkey, ← hk]
    · simpa [hp] using hall
  | some key =>
    cases hv : c.values m with
    | none =>
      have hp : c.parts m = none := by simp [AvroConfig.parts, hkey, hv]
      refine ⟨ha, hsaid, ⟨bs ++ [(m, [])], by simp [hm], by simp [hh], hbs [] (.inl ⟨hp, rfl⟩)⟩, by simp [hr], ?_, ?_, he, hs, hre, ?_⟩
      · simp [List.filter_append, hp, ← hf]; omega
      · simp [List.filter_append, hkey, ← hk]
      · simpa [hp] using hall
    | some vs =>
      have hp : c.parts m = some (key, vs) := by simp [AvroConfig.parts, hkey, hv]
      generalize ho : c.sendValues kafka encoder key { s with received := s.received + 1 } 0 0 vs = o
      obtain ⟨s', done, errors⟩ := o
      obtain ⟨ha', hs', h1, h2, h3, b, h4, h5, h6, h7, h8, h9, -, -⟩ := sendValues_done (s := { s with received := s.received + 1 }) ha hsaid ho
      simp only [ho]
      refine ⟨ha', hs', ⟨bs ++ [(m, b)], by simp [hm], by simp [h4, hh], hbs b (.inr ⟨key, vs, hp, h5⟩)⟩, by simp [h1, hr], ?_, ?_, ?_, ?_, ?_, ?_⟩
      · simp [List.filter_append, hp, h2, h3, hf]
      · simp [List.filter_append, hkey, h2, hk]
      · rw [h7, h4, unencoded_append, ← he]
      · rw [h6, h4, queued_append, List.length_append, ← hs]
      · rw [h8, h4, sleeps_append, ← hre]
      · simp only [List.map_append, List.sum_append, hall, List.map_cons, List.map_nil, List.sum_cons, List.sum_nil, hp, Option.map_some, Option.getD_some]
        simp only at h9
        omega

theorem AvroDone.foldl {c : AvroConfig T J V} {kafka : Kafka (AvroCall V)} {encoder : List (Call (AvroCall V)) → V → Option (List UInt8)} : ∀ {ms ms' : List T} {s : AvroState V},
    AvroDone c kafka encoder ms s → AvroDone c kafka encoder (ms ++ ms') (ms'.foldl (c.handle kafka encoder) s)
  | ms, [], s, h => by simpa using h
  | ms, m :: ms', s, h => by simpa using (h.snoc m).foldl (ms' := ms')

theorem AvroDone.start (c : AvroConfig T J V) (kafka : Kafka (AvroCall V)) (encoder : List (Call (AvroCall V)) → V → Option (List UInt8)) : AvroDone c kafka encoder [] {} :=
  ⟨fun before r a after h => absurd h (by simp), fun before x after h => absurd h (by simp), ⟨[], rfl, rfl, nofun⟩, rfl, rfl, rfl, rfl, rfl, rfl, rfl⟩

end Verif.Publish
