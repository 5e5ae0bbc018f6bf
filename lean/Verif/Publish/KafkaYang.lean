import Verif.Publish.KafkaRuns
/-!
# Runs of the publisher of YANG
-/
namespace Verif.Publish
open Collector

/-- what the world of the publisher of YANG answers -/
def YangWorld.Says (w : YangWorld L) (h : List (Call (YangCall L))) : YangCall L → Prop
  | .lookup id a => w.lookup h id = a
  | .register lib a => w.register h lib = a

theorem knows_snoc {start : List (String × Int)} {h : List (Call (YangCall L))} {x : Call (YangCall L)} {c : String} {id : Int} :
    Knows start (h ++ [x]) c id ↔ Knows start h c id ∨ ∃ before lib, h = before ++ [.other (.lookup c (.found c lib))] ∧ x = .other (.register lib (some (some id))) := by
  constructor
  · rintro (h' | ⟨before, lib, after, e⟩)
    · exact .inl (.inl h')
    · rcases List.eq_nil_or_concat after with rfl | ⟨after', y, rfl⟩
      · have e' : h ++ [x] = (before ++ [.other (.lookup c (.found c lib))]) ++ [.other (.register lib (some (some id)))] := by simpa using e
        obtain ⟨h1, h2⟩ := List.append_inj' e' rfl
        exact .inr ⟨before, lib, h1, by simpa using h2⟩
      · have e' : h ++ [x] = (before ++ .other (.lookup c (.found c lib)) :: .other (.register lib (some (some id))) :: after') ++ [y] := by simpa using e
        exact .inl (.inr ⟨before, lib, after', (List.append_inj' e' rfl).1⟩)
  · rintro ((h' | ⟨before, lib, after, rfl⟩) | ⟨before, lib, rfl, rfl⟩)
    · exact .inl h'
    · exact .inr ⟨before, lib, after ++ [x], by simp⟩
    · exact .inr ⟨before, lib, [], by simp⟩

theorem knows_other {start : List (String × Int)} {h : List (Call (YangCall L))} {x : Call (YangCall L)} (hx : ∀ lib id, x ≠ .other (.register lib (some (some id)))) {c : String} {id : Int} :
    Knows start (h ++ [x]) c id ↔ Knows start h c id := by
  rw [knows_snoc]
  exact ⟨fun h => h.elim (fun h => h) fun ⟨_, lib, _, e⟩ => absurd e (hx lib id), .inl⟩

theorem knows_append {start : List (String × Int)} : ∀ {b h : List (Call (YangCall L))} {c : String} {id : Int}, (∀ x, .other x ∉ b) → (Knows start (h ++ b) c id ↔ Knows start h c id)
  | [], h, c, id, _ => by simp
  | x :: b, h, c, id, hb => by
    rw [show h ++ x :: b = (h ++ [x]) ++ b by simp, knows_append (fun y hy => hb y (by simp [hy])), knows_other]
    intro lib id e
    exact hb (.register lib (some (some id))) (by rw [e]; simp)

/-- a library that has been registered is neither looked up nor registered again, nor are those that were given at the start -/
def Once (start : List (String × Int)) (h : List (Call (YangCall L))) : Prop :=
  ∀ before c a after, h = before ++ .other (.lookup c a) :: after → ∀ id, ¬Knows start before c id

theorem Once.snoc {start : List (String × Int)} {h : List (Call (YangCall L))} (hh : Once start h) {x : Call (YangCall L)}
    (hx : ∀ c a, x = .other (.lookup c a) → ∀ id, ¬Knows start h c id) : Once start (h ++ [x]) := by
  intro before c a after e
  rcases List.eq_nil_or_concat after with rfl | ⟨after', y, rfl⟩
  · obtain ⟨h1, h2⟩ := List.append_inj' e rfl
    subst h1
    exact hx c a (by simpa using h2)
  · have e' : h ++ [x] = (before ++ .other (.lookup c a) :: after') ++ [y] := by simpa using e
    exact hh _ _ _ _ (List.append_inj' e' rfl).1

theorem Once.append {start : List (String × Int)} : ∀ {b h : List (Call (YangCall L))}, Once start h → (∀ x, .other x ∉ b) → Once start (h ++ b)
  | [], h, hh, _ => by simpa using hh
  | x :: b, h, hh, hb => by
    rw [show h ++ x :: b = (h ++ [x]) ++ b by simp]
    refine Once.append (hh.snoc ?_) fun y hy => hb y (by simp [hy])
    intro c a e
    exact absurd (by rw [e]; simp) (hb (.lookup c a))

/-- what holds of the state of a publisher of YANG -/
structure YangState.Inv (w : YangWorld L) (start : List (String × Int)) (s : YangState L) : Prop where
  answered : Answered w.kafka s.history
  said : Said w.Says s.history
  ids : ∀ c id, s.ids.look c = some id ↔ Knows start s.history c id
  once : Once start s.history

theorem unregistered_append (a b : List (Call (YangCall L))) : unregistered (a ++ b) = unregistered a + unregistered b := List.countP_append

theorem Tries.unregistered {r : Record} {b : List (Call (YangCall L))} {ok : Bool} (h : Tries r b ok) : unregistered b = 0 := by
  unfold Publish.unregistered
  rw [List.countP_eq_zero]
  intro c hc
  rcases h.calls c hc with ⟨_, rfl⟩ | ⟨_, rfl⟩ <;> simp

/-- `register_schema` finds identifiers as said -/
theorem registerSchema_finds {c : YangConfig T J} {w : YangWorld L} (hw : w.Honest) {start : List (String × Int)} {s s' : YangState L} (hi : s.Inv w start) {contentId : Option String}
    {r : Option (Option Int)} (h : c.registerSchema w s contentId = (s', r)) :
    s'.Inv w start ∧ s'.received = s.received ∧ s'.errorDecode = s.errorDecode ∧ s'.sends = s.sends ∧
      ∃ b, s'.history = s.history ++ b ∧ Finds start c.default s.history contentId b r ∧ queued b = [] ∧ sleeps b = 0 ∧ unregistered b = if r.isNone then 1 else 0 := by
  obtain ⟨ha, hs, hids, ho⟩ := hi
  unfold YangConfig.registerSchema at h
  cases contentId with
  | none =>
    cases h
    exact ⟨⟨ha, hs, hids, ho⟩, rfl, rfl, rfl, [], by simp, .none, rfl, rfl, rfl⟩
  | some id =>
    simp only at h
    cases hl : s.ids.look id with
    | some n =>
      rw [hl] at h
      cases h
      exact ⟨⟨ha, hs, hids, ho⟩, rfl, rfl, rfl, [], by simp, .known ((hids id n).mp hl), rfl, rfl, rfl⟩
    | none =>
      rw [hl] at h
      have hn : ∀ x, ¬Knows start s.history id x := fun x hx => by rw [(hids id x).mpr hx] at hl; cases hl
      generalize hq : w.lookup s.history id = a at h
      have hi₁ : YangState.Inv w start { s with history := s.history ++ [.other (.lookup id a)] } :=
        ⟨ha.snoc fun _ _ h => (by cases h), hs.snoc (x := .lookup id a) hq, fun c n => (hids c n).trans (knows_other fun _ _ h => by cases h).symm,
          ho.snoc fun c a' e => by cases e; exact hn⟩
      cases a with
      | unsent =>
        cases h
        exact ⟨hi₁, rfl, rfl, rfl, _, rfl, .unsent hn, rfl, rfl, rfl⟩
      | unknown id' =>
        cases h
        have := hw.2 _ _ _ hq
        subst this
        exact ⟨hi₁, rfl, rfl, rfl, _, rfl, .missing hn (.inl rfl), rfl, rfl, rfl⟩
      | dropped =>
        cases h
        exact ⟨hi₁, rfl, rfl, rfl, _, rfl, .missing hn (.inr (.inl rfl)), rfl, rfl, rfl⟩
      | late =>
        cases h
        exact ⟨hi₁, rfl, rfl, rfl, _, rfl, .missing hn (.inr (.inr rfl)), rfl, rfl, rfl⟩
      | found id' lib =>
        have := hw.1 _ _ _ _ hq
        subst this
        simp only at h
        obtain ⟨ha₁, hs₁, hids₁, ho₁⟩ := hi₁
        generalize hr : w.register (s.history ++ [.other (.lookup id' (.found id' lib))]) lib = a at h
        have hans : Answered w.kafka (s.history ++ [.other (.lookup id' (.found id' lib))] ++ [.other (.register lib a)]) := ha₁.snoc fun _ _ h => by cases h
        have hsaid : Said w.Says (s.history ++ [.other (.lookup id' (.found id' lib))] ++ [.other (.register lib a)]) := hs₁.snoc (x := .register lib a) hr
        have honce : Once start (s.history ++ [.other (.lookup id' (.found id' lib))] ++ [.other (.register lib a)]) := ho₁.snoc fun c a' e => by cases e
        have hfail : (∀ n, a ≠ some (some n)) → YangState.Inv w start { s with history := s.history ++ [.other (.lookup id' (.found id' lib))] ++ [.other (.register lib a)] } := fun hf =>
          ⟨hans, hsaid, fun c n => (hids₁ c n).trans (knows_other fun _ n h => hf n (by cases h; rfl)).symm, honce⟩
        match a with
        | none =>
          cases h
          exact ⟨hfail nofun, rfl, rfl, rfl, _, List.append_assoc _ _ _, .failed hn nofun, rfl, rfl, rfl⟩
        | some none =>
          cases h
          exact ⟨hfail nofun, rfl, rfl, rfl, _, List.append_assoc _ _ _, .failed hn nofun, rfl, rfl, rfl⟩
        | some (some n) =>
          cases h
          refine ⟨⟨hans, hsaid, ?_, honce⟩, rfl, rfl, rfl, _, List.append_assoc _ _ _, .registered hn, rfl, rfl, rfl⟩
          intro q m
          show (put s.ids id' n).look q = some m ↔ Knows start (s.history ++ [.other (.lookup id' (.found id' lib))] ++ [.other (.register lib (some (some n)))]) q m
          rw [knows_snoc, ← hids₁ q m, lookup_put]
          split
          · rename_i hc
            subst hc
            constructor
            · intro h
              cases h
              exact .inr ⟨_, _, rfl, rfl⟩
            · rintro (h | ⟨before, lib', _, e⟩)
              · rw [hl] at h
                cases h
              · cases e
                rfl
          · rename_i hc
            constructor
            · exact .inl
            · rintro (h | ⟨before, lib', e, _⟩)
              · exact h
              · obtain ⟨_, e⟩ := List.append_inj' e rfl
                cases e
                exact absurd rfl hc

theorem YangState.Inv.append {w : YangWorld L} {start : List (String × Int)} {s : YangState L} (hi : s.Inv w start) {b : List (Call (YangCall L))} (hb : ∀ x, .other x ∉ b)
    (ha : Answered w.kafka (s.history ++ b)) (s' : YangState L) (hh : s'.history = s.history ++ b) (hids : s'.ids = s.ids) : s'.Inv w start :=
  ⟨hh ▸ ha, hh ▸ hi.said.append hb, fun c id => by rw [hids, hh, knows_append hb]; exact hi.ids c id, hh ▸ hi.once.append hb⟩

theorem yangHeaders_iff (id : Option Int) (name value : String) : (name, value) ∈ yangHeaders id ↔
    ∃ n, id = some n ∧ (name = "schema-id" ∧ value = toString n ∨ name = "content-type" ∧ value = "application/yang.data+json") := by
  cases id with
  | none => simp [yangHeaders]
  | some n => simp [yangHeaders]

/-- what has become of messages that were published as YANG -/
structure YangDone (c : YangConfig T J) (w : YangWorld L) (start : List (String × Int)) (ms : List T) (s : YangState L) : Prop where
  inv : s.Inv w start
  blocks : ∃ bs : List (T × List (Call (YangCall L))), bs.map (·.1) = ms ∧ s.history = bs.flatMap (·.2) ∧
    ∀ before b after, bs = before ++ b :: after → PublishesYang c start (before.flatMap (·.2)) b.1 b.2
  received : s.received = ms.length
  decode : s.errorDecode = (ms.filter fun m => (c.content m).isNone).length
  sent : s.sends.sent = (queued s.history).length
  retries : s.sends.retries = sleeps s.history
  all : ms.length = s.sends.sent + s.errorDecode + s.sends.errors + unregistered s.history

theorem YangConfig.send_eq (c : YangConfig T J) (w : YangWorld L) (s : YangState L) (m : T) : c.send w s m =
    match c.content m with
    | none => { s with errorDecode := s.errorDecode + 1 }
    | some (key, payload) =>
      match c.registerSchema w s (c.contentId m) with
      | (s, none) => s
      | (s, some id) =>
        { s with history := (offer w.kafka 0 s.history s.sends ⟨c.topic, key, payload, yangHeaders id⟩).1, sends := (offer w.kafka 0 s.history s.sends ⟨c.topic, key, payload, yangHeaders id⟩).2.1 } := by
  unfold YangConfig.send YangConfig.content
  cases c.serialize m with
  | none => rfl
  | some payload =>
    simp only [Option.bind_some]
    cases c.key m with
    | none => rfl
    | some key =>
      simp only [Option.map_some]
      cases c.toVec key <;> rfl

theorem YangDone.snoc {c : YangConfig T J} {w : YangWorld L} (hw : w.Honest) {start : List (String × Int)} {ms : List T} {s : YangState L} (h : YangDone c w start ms s) (m : T) :
    YangDone c w start (ms ++ [m]) (c.handle w s m) := by
  unfold YangConfig.handle
  rw [YangConfig.send_eq]
  obtain ⟨hi, ⟨bs, hm, hh, hb⟩, hr, hd, hs, hre, hall⟩ := h
  have hbs : ∀ x, PublishesYang c start s.history m x → ∀ before b after, bs ++ [(m, x)] = before ++ b :: after → PublishesYang c start (before.flatMap (·.2)) b.1 b.2 := by
    intro x hx before b after e
    rcases List.eq_nil_or_concat after with rfl | ⟨after', y, rfl⟩
    · obtain ⟨h1, h2⟩ := List.append_inj' e rfl
      subst h1
      cases h2
      rw [← hh]
      exact hx
    · have e' : bs ++ [(m, x)] = (before ++ b :: after') ++ [y] := by simpa using e
      exact hb _ _ _ (List.append_inj' e' rfl).1
  cases hc : c.content m with
  | none =>
    refine ⟨⟨hi.answered, hi.said, hi.ids, hi.once⟩, ⟨bs ++ [(m, [])], by simp [hm], by simp [hh], hbs _ (.unserialized hc)⟩, by simp [hr], by simp [hd, List.filter_append, hc], hs, hre, ?_⟩
    simp only [List.length_append, List.length_singleton]
    omega
  | some x =>
    obtain ⟨key, payload⟩ := x
    simp only
    have hi₀ : YangState.Inv w start { s with received := s.received + 1 } := ⟨hi.answered, hi.said, hi.ids, hi.once⟩
    generalize hg : c.registerSchema w { s with received := s.received + 1 } (c.contentId m) = g
    obtain ⟨s', r⟩ := g
    obtain ⟨hi', h1, h2, h3, b, h4, h5, h6, h7, h8⟩ := registerSchema_finds hw hi₀ hg
    simp only at h1 h2 h3 h4 h5
    cases r with
    | none =>
      refine ⟨hi', ⟨bs ++ [(m, b)], by simp [hm], by simp [h4, hh], hbs _ (.unregistered hc h5)⟩, by simp [h1, hr], by simp [h2, hd, List.filter_append, hc], ?_, ?_, ?_⟩
      · rw [h3, h4, queued_append, h6, hs]; simp
      · rw [h3, h4, sleeps_append, h7, hre]; rfl
      · rw [h3, h2, h4, unregistered_append, h8]
        simp only [List.length_append, List.length_singleton, Option.isNone_none, if_true]
        omega
    | some id =>
      generalize ho : offer w.kafka 0 s'.history s'.sends ⟨c.topic, key, payload, yangHeaders id⟩ = o
      obtain ⟨h', x, ok⟩ := o
      obtain ⟨hao, b₁, rfl, ht, o1, o2, o3, o4⟩ := offer_tries (by omega) hi'.answered ho
      simp only [waits, List.nil_append] at ht
      simp only [ho]
      have hu := ht.unregistered
      refine ⟨hi'.append ht.noOther hao _ rfl rfl, ⟨bs ++ [(m, b ++ b₁)], by simp [hm], by simp [h4, hh], hbs _ (.tried hc h5 (yangHeaders_iff id) ht)⟩, by simp [h1, hr],
        by simp [h2, hd, List.filter_append, hc], ?_, ?_, ?_⟩
      · simp only [queued_append, List.length_append, h4, h6, List.length_nil, o1, h3]
        omega
      · simp only [sleeps_append, h4, h7, o4, h3]
        omega
      · simp only [unregistered_append, h4, h8, hu, List.length_append, List.length_singleton, Option.isNone_some, Bool.false_eq_true, if_false, h2]
        rw [h3] at o1 o3
        cases ok <;> simp only [Bool.false_eq_true, if_false, if_true] at o2 o3 <;> omega

theorem YangDone.foldl {c : YangConfig T J} {w : YangWorld L} (hw : w.Honest) {start : List (String × Int)} : ∀ {ms ms' : List T} {s : YangState L},
    YangDone c w start ms s → YangDone c w start (ms ++ ms') (ms'.foldl (c.handle w) s)
  | ms, [], s, h => by simpa using h
  | ms, m :: ms', s, h => by simpa using (h.snoc hw m).foldl hw (ms' := ms')

theorem YangDone.start (c : YangConfig T J) (w : YangWorld L) (start : List (String × Int)) : YangDone c w start [] { ids := start } :=
  ⟨⟨fun before r a after h => absurd h (by simp), fun before x after h => absurd h (by simp), fun c id => ⟨.inl, fun h => h.elim (fun h => h) fun ⟨_, _, _, e⟩ => absurd e (by simp)⟩,
    fun before c a after h => absurd h (by simp)⟩, ⟨[], rfl, rfl, fun before b after h => absurd h (by simp)⟩, rfl, rfl, rfl, rfl, rfl⟩

end Verif.Publish
