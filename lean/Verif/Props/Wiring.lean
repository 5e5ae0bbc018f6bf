import Verif.Collector.Wiring
/-!
# How the collector connects its actors (C296-C299)
-/
namespace Verif.Props
open Verif.Wiring

/-- the chains that are made for an endpoint -/
theorem wiring_endpoint {v : Svc} {g : Group} {gi ei : Nat} {known : List Chain} {e : Endpoint} {w : Wired} (h : endpoint v g gi ei known e = some w) :
    ∃ st, stages v g.aggregation e.kind = some st ∧ w.chains = (List.range (receivers v g)).map (fun s => ⟨gi, ei, s, st⟩) ∧
      w.inputs = if .enrichment ∈ st then inputsOf v g gi ei (known ++ w.chains.filter Chain.enriches) else [] := by
  unfold endpoint at h
  cases hs : stages v g.aggregation e.kind with
  | none => rw [hs] at h; cases h
  | some st =>
    rw [hs] at h
    refine ⟨st, rfl, ?_⟩
    simp only at h
    split at h
    · cases h
    · split at h
      · cases h
      · split at h
        · rename_i hen
          split at h
          · injection h with h; subst h; exact ⟨rfl, by rw [if_pos hen]⟩
          · cases h
        · rename_i hen
          injection h with h; subst h; exact ⟨rfl, by rw [if_neg hen]⟩

/-- the chains of endpoints of a group -/
theorem wiring_endpoints {v : Svc} {g : Group} {gi : Nat} {es : List Endpoint} {ei : Nat} {known : List Chain} {w : Wired} (h : endpoints v g gi ei known es = some w) (c : Chain) :
    c ∈ w.chains ↔ ∃ k e st s, es[k]? = some e ∧ stages v g.aggregation e.kind = some st ∧ s < receivers v g ∧ c = ⟨gi, ei + k, s, st⟩ := by
  induction es generalizing ei known w with
  | nil => injection h with h; subst h; simp
  | cons e es ih =>
    simp only [endpoints, Option.bind_eq_some_iff, Option.map_eq_some_iff] at h
    obtain ⟨a, ha, b, hb, rfl⟩ := h
    obtain ⟨st, h1, h2, -⟩ := wiring_endpoint ha
    simp only [List.mem_append, ih hb, h2, List.mem_map, List.mem_range]
    constructor
    · rintro (⟨s, hs, rfl⟩ | ⟨k, e', st', s, hk, hst, hs, rfl⟩)
      · exact ⟨0, e, st, s, rfl, h1, hs, rfl⟩
      · exact ⟨k + 1, e', st', s, by simpa using hk, hst, hs, by rw [Nat.add_assoc, Nat.add_comm 1 k]⟩
    · rintro ⟨k, e', st', s, hk, hst, hs, rfl⟩
      cases k with
      | zero =>
        simp only [List.getElem?_cons_zero, Option.some.injEq] at hk
        subst hk
        rw [h1] at hst
        injection hst with hst
        subst hst
        exact .inl ⟨s, hs, rfl⟩
      | succ k => exact .inr ⟨k, e', st', s, by simpa using hk, hst, hs, by rw [Nat.add_assoc, Nat.add_comm 1 k]⟩

/-- the chains of all groups -/
theorem wiring_groups {v : Svc} {gs : List Group} {gi : Nat} {w : Wired} (h : groups v gi gs = some w) (c : Chain) :
    c ∈ w.chains ↔ ∃ j g k e st s, gs[j]? = some g ∧ g.endpoints[k]? = some e ∧ stages v g.aggregation e.kind = some st ∧ s < receivers v g ∧ c = ⟨gi + j, k, s, st⟩ := by
  induction gs generalizing gi w with
  | nil => injection h with h; subst h; simp
  | cons g gs ih =>
    simp only [groups, Option.bind_eq_some_iff, Option.map_eq_some_iff] at h
    obtain ⟨a, ha, b, hb, rfl⟩ := h
    simp only [List.mem_append, ih hb, wiring_endpoints ha]
    constructor
    · rintro (⟨k, e, st, s, hk, hst, hs, rfl⟩ | ⟨j, g', k, e, st, s, hj, hk, hst, hs, rfl⟩)
      · exact ⟨0, g, k, e, st, s, rfl, hk, hst, hs, by simp⟩
      · exact ⟨j + 1, g', k, e, st, s, by simpa using hj, hk, hst, hs, by rw [Nat.add_assoc, Nat.add_comm 1 j]⟩
    · rintro ⟨j, g', k, e, st, s, hj, hk, hst, hs, rfl⟩
      cases j with
      | zero =>
        simp only [List.getElem?_cons_zero, Option.some.injEq] at hj
        subst hj
        exact .inl ⟨k, e, st, s, hk, hst, hs, by simp⟩
      | succ j => exact .inr ⟨j, g', k, e, st, s, by simpa using hj, hk, hst, hs, by rw [Nat.add_assoc, Nat.add_comm 1 j]⟩

/-! ## C296: endpoints that are configured publish -/

/-- what a collection can publish to -/
def Supported : Svc → Kind → Prop
  | .flow, k => k = .http ∨ k = .kafkaJson ∨ k = .flowAvro ∨ k = .flowJson
  | .bmp, k => k = .kafkaJson ∨ k = .bmpAvro
  | .udp, k => k = .kafkaJson ∨ k = .telemetryJson ∨ k = .telemetryYang

theorem wiring_supported (v : Svc) (a : Bool) (k : Kind) : (stages v a k).isSome ↔ Supported v k := by
  cases v <;> cases k <;> simp [stages, Supported]

/-- a collection for flows publishes enriched flows only if it aggregates -/
def Publishes (v : Svc) (g : Group) (k : Kind) : Prop := v = .flow → (k = .flowAvro ∨ k = .flowJson) → g.aggregation = true

theorem wiring_publisher {v : Svc} {g : Group} {k : Kind} {st : List Stage} (h : stages v g.aggregation k = some st) : (st.getLast? = some .publisher ↔ Publishes v g k) ∧ (.publisher ∈ st ↔ Publishes v g k) := by
  unfold Publishes
  cases ha : g.aggregation <;> rw [ha] at h <;> cases v <;> cases k <;> simp [stages] at h <;> subst h <;> simp

/-- C296, in part: each endpoint of each group publishes what each shard of the group gets, if, for enriched flows, there is an aggregation. -/
theorem c296_publishes_partial {v : Svc} {gs : List Group} {w : Wired} (h : groups v 0 gs = some w) {j k : Nat} {g : Group} {e : Endpoint} (hg : gs[j]? = some g) (he : g.endpoints[k]? = some e) (hs : Supported v e.kind) (hp : Publishes v g e.kind) :
    ∀ s, s < receivers v g → ∃ c ∈ w.readers j s, c.endpoint = k ∧ c.stages.getLast? = some .publisher := by
  intro s hlt
  obtain ⟨st, hst⟩ := Option.isSome_iff_exists.mp ((wiring_supported v g.aggregation e.kind).mpr hs)
  refine ⟨⟨j, k, s, st⟩, ?_, rfl, (wiring_publisher hst).1.mpr hp⟩
  simp only [Wired.readers, List.mem_filter, wiring_groups h]
  exact ⟨⟨j, g, k, e, st, s, hg, he, hst, hlt, by simp⟩, by simp⟩

/-- C296 is false: without an aggregation an endpoint for enriched flows publishes nothing, and nothing is said. -/
theorem c296_publishes_disproved {gs : List Group} {w : Wired} (h : groups .flow 0 gs = some w) {j k : Nat} {g : Group} {e : Endpoint} (hg : gs[j]? = some g) (he : g.endpoints[k]? = some e) (hk : e.kind = .flowAvro ∨ e.kind = .flowJson) (ha : g.aggregation = false) :
    ∀ c ∈ w.chains, c.group = j → c.endpoint = k → .publisher ∉ c.stages := by
  intro c hc hj hk'
  obtain ⟨j', g', k', e', st, s, h1, h2, h3, -, rfl⟩ := (wiring_groups h c).mp hc
  simp only [Nat.zero_add] at hj hk'
  subst hj hk'
  rw [hg] at h1
  injection h1 with h1
  subst h1
  rw [he] at h2
  injection h2 with h2
  subst h2
  intro hm
  have := (wiring_publisher h3).2.mp hm rfl hk
  rw [ha] at this
  cases this

/-- an endpoint for which there is no error -/
def Startable (v : Svc) (g : Group) (e : Endpoint) : Prop :=
  Supported v e.kind ∧ (e.kind = .flowAvro → e.valid = true) ∧ (Publishes v g e.kind → e.starts = true) ∧
  ((e.kind = .flowAvro ∨ e.kind = .flowJson ∨ e.kind = .telemetryJson ∨ e.kind = .telemetryYang) → ∀ b ∈ g.consumers, b = true)

theorem wiring_startable (v : Svc) (g : Group) (gi ei : Nat) (known : List Chain) (e : Endpoint) : (endpoint v g gi ei known e).isSome ↔ Startable v g e := by
  unfold Startable endpoint Publishes
  cases hv : e.valid <;> cases hs : e.starts <;> cases ha : g.aggregation <;> cases v <;> cases hk : e.kind <;> simp [stages, Supported] <;> (try (cases hc : g.consumers.all id <;> simp_all))

theorem wiring_all (v : Svc) (g : Group) (gi : Nat) (es : List Endpoint) (ei : Nat) (known : List Chain) : (endpoints v g gi ei known es).isSome ↔ ∀ e ∈ es, Startable v g e := by
  induction es generalizing ei known with
  | nil => simp [endpoints]
  | cons e es ih =>
    rw [List.forall_mem_cons, endpoints, ← wiring_startable v g gi ei known e]
    cases h : endpoint v g gi ei known e with
    | none => simp
    | some a => simp [ih]

/-- C296: the collection starts if and only if each endpoint is of a kind that it supports and can be made. -/
theorem c296_starts (v : Svc) (gi : Nat) (gs : List Group) : (groups v gi gs).isSome ↔ ∀ g ∈ gs, ∀ e ∈ g.endpoints, Startable v g e := by
  induction gs generalizing gi with
  | nil => simp [groups]
  | cons g gs ih =>
    rw [List.forall_mem_cons, groups, ← wiring_all v g gi g.endpoints 0 []]
    cases h : endpoints v g gi 0 [] g.endpoints with
    | none => simp
    | some a => simp [ih]

/-! ## C297: what endpoints get -/

/-- C297: a message is not got by two endpoints. -/
theorem c297_once {M : Type} (readers : List Chain) (m : M) (i : Nat) {c d : Chain} (h1 : gets readers c [(m, i)] ≠ []) (h2 : gets readers d [(m, i)] ≠ []) : c = d := by
  simp only [gets, List.filter_cons, List.filter_nil] at h1 h2
  split at h1
  · split at h2
    · simp_all
    · simp at h2
  · simp at h1

/-- C297, in part: if a group has one endpoint, and that one publishes, it gets all messages of its group in their order. -/
theorem c297_alone_partial {M : Type} {v : Svc} {gs : List Group} {w : Wired} (h : groups v 0 gs = some w) {j : Nat} {g : Group} {e : Endpoint} (hg : gs[j]? = some g) (he : g.endpoints = [e]) (_hp : Publishes v g e.kind) {s : Nat} (ms : List (M × Nat)) (hm : ∀ m ∈ ms, m.2 < (w.readers j s).length) :
    ∀ c ∈ w.readers j s, gets (w.readers j s) c ms = ms.map Prod.fst := by
  have key : ∀ c ∈ w.readers j s, ∀ d ∈ w.readers j s, c = d := by
    have : ∀ c ∈ w.readers j s, ∀ st, stages v g.aggregation e.kind = some st → c = ⟨j, 0, s, st⟩ := by
      intro c hc st hst
      simp only [Wired.readers, List.mem_filter, Bool.and_eq_true, decide_eq_true_eq] at hc
      obtain ⟨hc, h1, h2⟩ := hc
      obtain ⟨j', g', k, e', st', s', h3, h4, h5, -, rfl⟩ := (wiring_groups h c).mp hc
      simp only [Nat.zero_add] at h1 h2
      subst h1 h2
      rw [hg] at h3
      injection h3 with h3
      subst h3
      rw [he] at h4
      cases k with
      | zero =>
        simp only [List.getElem?_cons_zero, Option.some.injEq] at h4
        subst h4
        rw [hst] at h5
        injection h5 with h5
        simp [h5]
      | succ k => simp at h4
    intro c hc d hd
    have hs : (stages v g.aggregation e.kind).isSome := by
      rw [wiring_supported]
      exact ((c296_starts v 0 gs).mp (by rw [h]; rfl) g (List.mem_of_getElem? hg) e (by rw [he]; simp)).1
    obtain ⟨st, hst⟩ := Option.isSome_iff_exists.mp hs
    rw [this c hc st hst, this d hd st hst]
  intro c hc
  unfold gets
  congr 1
  refine List.filter_eq_self.mpr fun m hmem => ?_
  have := hm m hmem
  simp only [decide_eq_true_eq]
  rw [List.getElem?_eq_getElem this, key _ (List.getElem_mem this) c hc]

/-- C297 is false: an endpoint of a group with others can be without any message of the group. -/
theorem c297_all_disproved {M : Type} {readers : List Chain} {i : Nat} {c d : Chain} (hc : readers[i]? = some c) (hd : c ≠ d) (ms : List M) : gets readers d (ms.map fun m => (m, i)) = [] ∧ gets readers c (ms.map fun m => (m, i)) = ms := by
  unfold gets
  constructor
  · simp [List.filter_map, Function.comp_def, hc, hd]
  · simp [List.filter_map, Function.comp_def, hc]

/-! ## C298: enrichment -/

theorem wiring_inputs {v : Svc} {g : Group} {gi : Nat} {es : List Endpoint} {ei : Nat} {known : List Chain} {w : Wired} (h : endpoints v g gi ei known es = some w) (hk : ∀ c ∈ known, c.group = gi) : ∀ i ∈ w.inputs, i.group = gi ∧ ∀ c ∈ i.targets, c.group = gi := by
  induction es generalizing ei known w with
  | nil => injection h with h; subst h; simp
  | cons e es ih =>
    simp only [endpoints, Option.bind_eq_some_iff, Option.map_eq_some_iff] at h
    obtain ⟨a, ha, b, hb, rfl⟩ := h
    obtain ⟨st, -, h2, h3⟩ := wiring_endpoint ha
    have hc : ∀ c ∈ known ++ a.chains.filter Chain.enriches, c.group = gi := by
      intro c hc
      rcases List.mem_append.mp hc with hc | hc
      · exact hk c hc
      · rw [h2] at hc
        obtain ⟨s, -, rfl⟩ := List.mem_map.mp (List.mem_filter.mp hc).1
        rfl
    intro i hi
    rcases List.mem_append.mp hi with hi | hi
    · rw [h3] at hi
      split at hi
      · have : i.group = gi ∧ i.targets = known ++ a.chains.filter Chain.enriches := by
          simp only [inputsOf, List.mem_append, List.mem_map] at hi
          rcases hi with (hi | hi) | ⟨b, -, rfl⟩
          · split at hi
            · simp at hi; subst hi; exact ⟨rfl, rfl⟩
            · simp at hi
          · split at hi
            · simp at hi; subst hi; exact ⟨rfl, rfl⟩
            · simp at hi
          · exact ⟨rfl, rfl⟩
        exact ⟨this.1, by rw [this.2]; exact hc⟩
      · cases hi
    · exact ih hb hc i hi

/-- C298: operations for enrichment do not leave the group that they are configured for. -/
theorem c298_within {v : Svc} {gs : List Group} {gi : Nat} {w : Wired} (h : groups v gi gs = some w) : ∀ i ∈ w.inputs, ∀ c ∈ i.targets, c.group = i.group := by
  induction gs generalizing gi w with
  | nil => injection h with h; subst h; simp
  | cons g gs ih =>
    simp only [groups, Option.bind_eq_some_iff, Option.map_eq_some_iff] at h
    obtain ⟨a, ha, b, hb, rfl⟩ := h
    intro i hi
    rcases List.mem_append.mp hi with hi | hi
    · obtain ⟨h1, h2⟩ := wiring_inputs ha (by simp) i hi
      intro c hc
      rw [h1, h2 c hc]
    · exact ih hb i hi

theorem wiring_reaches {v : Svc} {g : Group} {gi : Nat} {es : List Endpoint} {ei : Nat} {known : List Chain} {w : Wired} (h : endpoints v g gi ei known es = some w) {c : Chain} (hc : c ∈ w.chains) (he : .enrichment ∈ c.stages) (hp : .publisher ∈ c.stages) :
    (v = .flow → g.options = true → ∃ i ∈ w.inputs, i.source = .options ∧ c ∈ i.targets) ∧ (g.files = true → ∃ i ∈ w.inputs, i.source = .files ∧ c ∈ i.targets) ∧
    (g.consumers ≠ [] → ∃ i ∈ w.inputs, i.source = .consumer ∧ c ∈ i.targets) := by
  induction es generalizing ei known w with
  | nil => injection h with h; subst h; cases hc
  | cons e es ih =>
    simp only [endpoints, Option.bind_eq_some_iff, Option.map_eq_some_iff] at h
    obtain ⟨a, ha, b, hb, rfl⟩ := h
    rcases List.mem_append.mp hc with hc | hc
    · obtain ⟨st, -, h2, h3⟩ := wiring_endpoint ha
      have hst : .enrichment ∈ st := by
        rw [h2] at hc
        obtain ⟨s, -, rfl⟩ := List.mem_map.mp hc
        exact he
      rw [if_pos hst] at h3
      have ht : c ∈ known ++ a.chains.filter Chain.enriches := List.mem_append.mpr (.inr (List.mem_filter.mpr ⟨hc, by simp [Chain.enriches, he, hp]⟩))
      refine ⟨fun hv ho => ⟨⟨gi, ei, .options, known ++ a.chains.filter Chain.enriches⟩, List.mem_append.mpr (.inl ?_), rfl, ht⟩,
        fun hf => ⟨⟨gi, ei, .files, known ++ a.chains.filter Chain.enriches⟩, List.mem_append.mpr (.inl ?_), rfl, ht⟩,
        fun hn => ⟨⟨gi, ei, .consumer, known ++ a.chains.filter Chain.enriches⟩, List.mem_append.mpr (.inl ?_), rfl, ht⟩⟩
      · rw [h3]; simp [inputsOf, hv, ho]
      · rw [h3]; simp [inputsOf, hf]
      · rw [h3]
        obtain ⟨x, l, hx⟩ := List.exists_cons_of_ne_nil hn
        simp [inputsOf, hx]
    · obtain ⟨h1, h2, h3⟩ := ih hb hc
      exact ⟨fun hv ho => let ⟨i, hi, hr⟩ := h1 hv ho; ⟨i, List.mem_append.mpr (.inr hi), hr⟩, fun hf => let ⟨i, hi, hr⟩ := h2 hf; ⟨i, List.mem_append.mpr (.inr hi), hr⟩,
        fun hn => let ⟨i, hi, hr⟩ := h3 hn; ⟨i, List.mem_append.mpr (.inr hi), hr⟩⟩

/-- C298: each enrichment actor before a publisher gets operations of all inputs that are configured for its group. -/
theorem c298_reaches {v : Svc} {gs : List Group} {gi : Nat} {w : Wired} (h : groups v gi gs = some w) {c : Chain} (hc : c ∈ w.chains) (he : .enrichment ∈ c.stages) (hp : .publisher ∈ c.stages) {j : Nat} {g : Group} (hj : c.group = gi + j) (hg : gs[j]? = some g) :
    (v = .flow → g.options = true → ∃ i ∈ w.inputs, i.source = .options ∧ c ∈ i.targets) ∧ (g.files = true → ∃ i ∈ w.inputs, i.source = .files ∧ c ∈ i.targets) ∧
    (g.consumers ≠ [] → ∃ i ∈ w.inputs, i.source = .consumer ∧ c ∈ i.targets) := by
  induction gs generalizing gi j w with
  | nil => simp at hg
  | cons g' gs ih =>
    simp only [groups, Option.bind_eq_some_iff, Option.map_eq_some_iff] at h
    obtain ⟨a, ha, b, hb, rfl⟩ := h
    cases j with
    | zero =>
      simp only [List.getElem?_cons_zero, Option.some.injEq] at hg
      subst hg
      rcases List.mem_append.mp hc with hc | hc
      · obtain ⟨h1, h2, h3⟩ := wiring_reaches ha hc he hp
        exact ⟨fun hv ho => let ⟨i, hi, hr⟩ := h1 hv ho; ⟨i, List.mem_append.mpr (.inl hi), hr⟩, fun hf => let ⟨i, hi, hr⟩ := h2 hf; ⟨i, List.mem_append.mpr (.inl hi), hr⟩,
          fun hn => let ⟨i, hi, hr⟩ := h3 hn; ⟨i, List.mem_append.mpr (.inl hi), hr⟩⟩
      · obtain ⟨j', _, _, _, _, _, _, _, _, _, hc⟩ := (wiring_groups hb c).mp hc
        rw [hc] at hj
        simp only at hj
        omega
    | succ j =>
      rcases List.mem_append.mp hc with hc | hc
      · obtain ⟨k, e, st, s, -, -, -, rfl⟩ := (wiring_endpoints ha c).mp hc
        simp only at hj
        omega
      · obtain ⟨h1, h2, h3⟩ := ih hb hc (j := j) (by omega) (by simpa using hg)
        exact ⟨fun hv ho => let ⟨i, hi, hr⟩ := h1 hv ho; ⟨i, List.mem_append.mpr (.inr hi), hr⟩, fun hf => let ⟨i, hi, hr⟩ := h2 hf; ⟨i, List.mem_append.mpr (.inr hi), hr⟩,
          fun hn => let ⟨i, hi, hr⟩ := h3 hn; ⟨i, List.mem_append.mpr (.inr hi), hr⟩⟩

/-! ## C299: collections go on -/

theorem wiring_sum_pos {A : Type} {f : A → Nat} {l : List A} {x : A} (hx : x ∈ l) (hf : 0 < f x) : (l.map f).sum ≠ 0 := by
  induction l with
  | nil => cases hx
  | cons y l ih =>
    rw [List.map_cons, List.sum_cons]
    rcases List.mem_cons.mp hx with rfl | hx
    · omega
    · have := ih hx
      omega

/-- C299, in part: a collection of flows or of BMP with an endpoint that publishes, and a collection of notifications with an endpoint for telemetry, goes on while its supervisor and its tasks do. -/
theorem c299_goes_on_partial {v : Svc} {gs : List Group} {w : Wired} (h : groups v 0 gs = some w) {g : Group} {e : Endpoint} (hg : g ∈ gs) (he : e ∈ g.endpoints) (hp : Publishes v g e.kind) (hu : v = .udp → e.kind = .telemetryJson ∨ e.kind = .telemetryYang) : endsAtOnce v w = false := by
  obtain ⟨j, hj⟩ := List.mem_iff_getElem?.mp hg
  obtain ⟨k, hk⟩ := List.mem_iff_getElem?.mp he
  have hs := ((c296_starts v 0 gs).mp (by rw [h]; rfl) g hg e he).1
  obtain ⟨st, hst⟩ := Option.isSome_iff_exists.mp ((wiring_supported v g.aggregation e.kind).mpr hs)
  have hr : 0 < receivers v g := by unfold receivers; cases v <;> simp <;> split <;> omega
  have hc : (⟨j, k, 0, st⟩ : Chain) ∈ w.chains := (wiring_groups h _).mpr ⟨j, g, k, e, st, 0, hj, hk, hst, hr, by simp⟩
  have hpub := (wiring_publisher hst).2.mpr hp
  have hjoin : w.joined ≠ 0 := by
    have := wiring_sum_pos (f := fun c : Chain => (c.stages.filter (· ≠ .validation)).length) (List.mem_filter.mpr ⟨hc, by simpa using hpub⟩ : _ ∈ w.chains.filter fun c => decide (.publisher ∈ c.stages)) (List.length_pos_of_mem (List.mem_filter.mpr ⟨hpub, by simp⟩))
    unfold Wired.joined
    omega
  unfold endsAtOnce
  cases v with
  | udp =>
    have hv : .validation ∈ st := by
      rcases hu rfl with hk | hk <;> rw [hk] at hst <;> simp only [stages, Option.some.injEq] at hst <;> subst hst <;> simp
    have : w.validations ≠ 0 := by
      unfold Wired.validations
      exact wiring_sum_pos hc (List.length_pos_of_mem (List.mem_filter.mpr ⟨hv, by simp⟩))
    simp [hjoin, this]
  | flow => simp [hjoin]
  | bmp => simp [hjoin]

theorem wiring_sum_zero {A : Type} {f : A → Nat} {l : List A} (h : ∀ x ∈ l, f x = 0) : (l.map f).sum = 0 := by
  induction l with
  | nil => rfl
  | cons y l ih => rw [List.map_cons, List.sum_cons, h y (by simp), ih fun x hx => h x (by simp [hx])]

/-- C299 is false: a collection of notifications that has endpoints for raw messages only ends as soon as it has started. -/
theorem c299_raw_disproved {gs : List Group} {w : Wired} (h : groups .udp 0 gs = some w) (hk : ∀ g ∈ gs, ∀ e ∈ g.endpoints, e.kind = .kafkaJson) : endsAtOnce .udp w = true := by
  have : w.validations = 0 := by
    refine wiring_sum_zero fun c hc => ?_
    obtain ⟨j, g, k, e, st, s, hj, he, hst, -, rfl⟩ := (wiring_groups h c).mp hc
    rw [hk g (List.mem_of_getElem? hj) e (List.mem_of_getElem? he)] at hst
    simp only [stages, Option.some.injEq] at hst
    subst hst
    rfl
  simp [endsAtOnce, this]

/-- C299 is false: so does a collection of flows that has endpoints for enriched flows only, without aggregation and inputs. -/
theorem c299_enriched_disproved {gs : List Group} {w : Wired} (h : groups .flow 0 gs = some w) (hk : ∀ g ∈ gs, g.aggregation = false ∧ g.options = false ∧ g.files = false ∧ g.consumers = [] ∧ ∀ e ∈ g.endpoints, e.kind = .flowAvro ∨ e.kind = .flowJson) : endsAtOnce .flow w = true := by
  have h1 : (w.chains.filter fun c => decide (.publisher ∈ c.stages)) = [] := by
    refine List.filter_eq_nil_iff.mpr fun c hc => ?_
    obtain ⟨j, g, k, e, st, s, hj, he, hst, -, rfl⟩ := (wiring_groups h c).mp hc
    obtain ⟨ha, -, -, -, hkind⟩ := hk g (List.mem_of_getElem? hj)
    simp only [decide_eq_true_eq]
    intro hm
    have := (wiring_publisher hst).2.mp hm rfl (hkind e (List.mem_of_getElem? he))
    rw [ha] at this
    cases this
  have h2 : w.inputs = [] := by
    clear h1
    suffices H : ∀ gi w, groups .flow gi gs = some w → w.inputs = [] from H 0 w h
    clear h
    induction gs with
    | nil => intro gi w h; injection h with h; subst h; rfl
    | cons g gs ih =>
      intro gi w h
      simp only [groups, Option.bind_eq_some_iff, Option.map_eq_some_iff] at h
      obtain ⟨a, ha, b, hb, rfl⟩ := h
      have := ih (fun g' hg' => hk g' (by simp [hg'])) _ b hb
      obtain ⟨-, ho, hf, hc, -⟩ := hk g (by simp)
      suffices H : ∀ es ei known a, endpoints .flow g gi ei known es = some a → a.inputs = [] by simp [this, H _ _ _ _ ha]
      intro es
      induction es with
      | nil => intro ei known a h; injection h with h; subst h; rfl
      | cons e es ih =>
        intro ei known a h
        simp only [endpoints, Option.bind_eq_some_iff, Option.map_eq_some_iff] at h
        obtain ⟨x, hx, y, hy, rfl⟩ := h
        obtain ⟨st, -, -, h3⟩ := wiring_endpoint hx
        have h4 : x.inputs = [] := by rw [h3]; simp [inputsOf, ho, hf, hc]
        simp [h4, ih _ _ _ hy]
  simp [endsAtOnce, Wired.joined, h1, h2]

/-- two groups -/
def wiringSample : List Group := [{ shards := 2, aggregation := true, files := true, endpoints := [{ kind := .flowAvro }] }, { endpoints := [{ kind := .http }, { kind := .kafkaJson }] }]

/-- raw notifications -/
def wiringRaw : List Group := [{ endpoints := [{ kind := .kafkaJson }] }]

example : ∃ w, groups .flow 0 wiringSample = some w ∧ endsAtOnce .flow w = false ∧ (w.readers 0 1).length = 1 ∧ (w.readers 1 0).length = 2 ∧ w.inputs.length = 1 := ⟨_, rfl, by decide, by decide, by decide, by decide⟩

example : ∃ w, groups .udp 0 wiringRaw = some w ∧ endsAtOnce .udp w = true ∧ (w.readers 0 0).length = 1 := ⟨_, rfl, by decide, by decide⟩

example : ∃ w, groups .flow 0 [{ endpoints := [{ kind := .flowJson }] }] = some w ∧ endsAtOnce .flow w = true := ⟨_, rfl, by decide⟩

end Verif.Props
