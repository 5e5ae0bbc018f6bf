import Verif.Collector.AggRunLemmas
import Verif.Collector.OpLemmas
import Verif.Analytics.StreamLemmas
/-! # Aggregation of flow records: counting, packets, and stopping -/
namespace Verif.Collector
open Flow (Field Ie Time FlowSet)
open FlowSpec Hist Analytics

/-! ## Counting -/

/-- each is related to one of the representatives, so that their groups hold all -/
theorem sum_groups {α β : Type} {R : α → α → Prop} [DecidableRel R] (symm : ∀ {a b}, R a b → R b a) (trans : ∀ {a b c}, R a b → R b c → R a c)
    (f : β → α) {reps : List β} (hp : reps.Pairwise fun x y => ¬ R (f x) (f y)) {K : List α} (hc : ∀ r ∈ K, ∃ x ∈ reps, R (f x) r) :
    (reps.map fun x => (K.filter fun q => R (f x) q).length).sum = K.length := by
  induction K with
  | nil =>
    simp only [List.filter_nil, List.length_nil]
    clear hc hp
    induction reps with
    | nil => rfl
    | cons _ _ ih => simpa using ih
  | cons k K ih =>
    have ih := ih fun r hr => hc r (List.mem_cons_of_mem _ hr)
    obtain ⟨x, hx, hxk⟩ := hc k (List.mem_cons_self ..)
    have key : ∀ {reps : List β}, reps.Pairwise (fun x y => ¬ R (f x) (f y)) →
        (reps.map fun x => ((k :: K).filter fun q => R (f x) q).length).sum =
          (reps.map fun x => (K.filter fun q => R (f x) q).length).sum + if ∃ x ∈ reps, R (f x) k then 1 else 0 := by
      intro reps hp
      induction reps with
      | nil => simp
      | cons y reps ih2 =>
        have hy : ∀ {z}, z ∈ reps → ¬ R (f y) (f z) := fun hz => List.rel_of_pairwise_cons hp hz
        have := ih2 hp.of_cons
        rw [List.map_cons, List.sum_cons, this, List.map_cons, List.sum_cons]
        have hcons : ((k :: K).filter fun q => R (f y) q).length = (if R (f y) k then 1 else 0) + (K.filter fun q => R (f y) q).length := by
          by_cases h : R (f y) k <;> simp [List.filter_cons, h] <;> omega
        rw [hcons]
        by_cases hyk : R (f y) k
        · have hno : ¬ ∃ x ∈ reps, R (f x) k := by
            rintro ⟨z, hz, hzk⟩
            exact hy hz (trans hyk (symm hzk))
          rw [if_pos hyk, if_neg hno, if_pos ⟨y, by simp, hyk⟩]
          omega
        · rw [if_neg hyk]
          by_cases hz : ∃ x ∈ reps, R (f x) k
          · obtain ⟨z, hz1, hz2⟩ := hz
            rw [if_pos ⟨z, hz1, hz2⟩, if_pos ⟨z, List.mem_cons_of_mem _ hz1, hz2⟩]
            omega
          · rw [if_neg hz, if_neg]
            · omega
            · rintro ⟨z, hz1, hz2⟩
              rcases List.mem_cons.mp hz1 with rfl | hz1
              · exact hyk hz2
              · exact hz ⟨z, hz1, hz2⟩
    rw [key hp, if_pos ⟨x, hx, hxk⟩, ih]
    simp

theorem FlowSpec.Together.symm {keys : List (FieldRef Ie)} {a b : Flat} (h : Together keys a b) : Together keys b a :=
  ⟨h.1.symm, h.2.1.symm, h.2.2.1.symm, h.2.2.2.symm⟩
theorem FlowSpec.Together.trans {keys : List (FieldRef Ie)} {a b c : Flat} (h : Together keys a b) (h' : Together keys b c) : Together keys a c :=
  ⟨h.1.trans h'.1, h.2.1.trans h'.2.1, h.2.2.1.trans h'.2.2.1, h.2.2.2.trans h'.2.2.2⟩

/-- the sequence number in the header -/
def seqOf : Info → UInt32
  | .ipfix p => p.sequence
  | .netflow p => p.sequence

theorem toInfo_seq (shard : Nat) (seq : UInt32) (now : Time) (k : FlowKey) (r : FlowRec) (extra : List Field) :
    seqOf (toInfo shard seq now k r extra) = seq := by
  unfold toInfo seqOf
  cases k.proto <;> rfl

theorem sends_seq {shard : Nat} {outs : List (Out Item FlowCache)} {pkts : List (IpAddr × Info)} (h : Sends shard outs pkts) :
    (pkts.map fun p => seqOf p.2).Perm ((List.range pkts.length).map UInt32.ofNat) := by
  obtain ⟨es, es', nows, -, -, hp⟩ := h
  have hlen : pkts.length = es'.length := by simpa using hp.length_eq
  refine (hp.map _).trans ?_
  rw [List.map_map, hlen]
  have : ((fun p : IpAddr × Info => seqOf p.2) ∘ fun x : Entry × Nat => x.1.packet shard (UInt32.ofNat x.2) (nows x.2)) = UInt32.ofNat ∘ Prod.snd := by
    funext x
    simp [Entry.packet, toInfo_seq]
  rw [this, ← List.map_map, List.zipIdx_map_snd, List.range_eq_range']

theorem writes_exists : ∀ (outs : List (Out Item FlowCache)), ∃ es, Writes outs es
  | [] => ⟨[], .nil⟩
  | .late _ :: outs => (writes_exists outs).imp fun _ => .late
  | .win _ _ :: outs => by
    obtain ⟨es, h⟩ := writes_exists outs
    exact ⟨_, .win (.refl _) h⟩

theorem sends_exists (shard : Nat) (outs : List (Out Item FlowCache)) (now : Time) : ∃ pkts, Sends shard outs pkts := by
  obtain ⟨es, h⟩ := writes_exists outs
  exact ⟨_, es, es, fun _ => now, h, .refl _, .refl _⟩

theorem writes_append {outs outs' : List (Out Item FlowCache)} {es es' : List Entry} (h : Writes outs es) (h' : Writes outs' es') :
    Writes (outs ++ outs') (es ++ es') := by
  induction h with
  | nil => exact h'
  | late _ ih => exact .late ih
  | win hp _ ih => rw [List.append_assoc]; exact .win hp ih

/-- what is sent for the first outputs is sent for all of them too -/
theorem sends_prefix {shard : Nat} {outs outs' : List (Out Item FlowCache)} {pkts : List (IpAddr × Info)} (h : Sends shard outs pkts) (hp : outs <+: outs') :
    ∃ more, Sends shard outs' (pkts ++ more) := by
  obtain ⟨rest, rfl⟩ := hp
  obtain ⟨es, es', nows, hw, hes, hpk⟩ := h
  obtain ⟨fs, hf⟩ := writes_exists rest
  refine ⟨(fs.zipIdx (0 + es'.length)).map fun (e, n) => e.packet shard (UInt32.ofNat n) (nows n), es ++ fs, es' ++ fs, nows, writes_append hw hf,
    hes.append_right fs, ?_⟩
  rw [List.zipIdx_append, List.map_append]
  exact hpk.append_right _

/-! ## Packets -/

theorem flatsOf_mem {i : Input} {r : Flat} (h : r ∈ flatsOf i) : r.peer = i.peer ∧ r.exported = exportOf i := by
  unfold flatsOf at h
  unfold exportOf
  split at h <;> rename_i hi <;> obtain ⟨x, -, rfl⟩ := List.mem_map.mp h <;> exact ⟨rfl, rfl⟩

theorem kept_append (lat : Nat) : ∀ (rs rs' pre : List Flat), kept lat pre (rs ++ rs') = kept lat pre rs ++ kept lat (pre ++ rs) rs'
  | [], rs', pre => by simp [kept]
  | r :: rs, rs', pre => by
    simp only [List.cons_append, kept, kept_append lat rs rs', List.append_assoc, List.nil_append]

/-- the records of one packet share their fate -/
theorem kept_packet (lat : Nat) {i : Input} : ∀ (rs pre mid : List Flat), (∀ r ∈ rs, r.peer = i.peer ∧ r.exported = exportOf i) →
    (∀ r ∈ mid, r.exported = exportOf i) → kept lat (pre ++ mid) rs =
      if ∃ q ∈ pre, q.peer.ip = i.peer.ip ∧ ns (exportOf i) + lat < ns q.exported then [] else rs
  | [], pre, mid, _, _ => by simp [kept]
  | r :: rs, pre, mid, hr, hm => by
    have h0 := hr r (List.mem_cons_self ..)
    have ih := kept_packet lat rs pre (mid ++ [r]) (fun q hq => hr q (List.mem_cons_of_mem _ hq)) (by
      intro q hq
      rcases List.mem_append.mp hq with hq | hq
      · exact hm q hq
      · rw [List.mem_singleton.mp hq]; exact h0.2)
    have hl : TooLate lat (pre ++ mid) r ↔ ∃ q ∈ pre, q.peer.ip = i.peer.ip ∧ ns (exportOf i) + lat < ns q.exported := by
      unfold TooLate
      rw [h0.1, h0.2]
      constructor
      · rintro ⟨q, hq, h1, h2⟩
        rcases List.mem_append.mp hq with hq | hq
        · exact ⟨q, hq, h1, h2⟩
        · rw [hm q hq] at h2; omega
      · rintro ⟨q, hq, h⟩
        exact ⟨q, List.mem_append_left _ hq, h⟩
    simp only [kept, List.append_assoc, ih]
    by_cases h : TooLate lat (pre ++ mid) r
    · rw [if_pos h, if_pos (hl.mp h), if_pos (hl.mp h)]; rfl
    · rw [if_neg h, if_neg (fun h' => h (hl.mpr h')), if_neg (fun h' => h (hl.mpr h'))]; rfl

theorem kept_flats (lat : Nat) : ∀ (ins pre : List Input), kept lat (flats pre) (flats ins) = flats (onTime lat pre ins)
  | [], pre => rfl
  | i :: ins, pre => by
    have ih := kept_flats lat ins (pre ++ [i])
    have e : flats (i :: ins) = flatsOf i ++ flats ins := rfl
    have e' : flats (pre ++ [i]) = flats pre ++ flatsOf i := by simp [flats]
    rw [e, kept_append, ← e', ih]
    have := kept_packet lat (i := i) (flatsOf i) (flats pre) [] (fun r hr => flatsOf_mem hr) (by simp)
    rw [List.append_nil] at this
    rw [this]
    have hl : (∃ q ∈ flats pre, q.peer.ip = i.peer.ip ∧ ns (exportOf i) + lat < ns q.exported) ↔ Behind lat pre i := by
      unfold Behind
      constructor
      · rintro ⟨q, hq, h1, h2⟩
        obtain ⟨j, hj, hqj⟩ := List.mem_flatMap.mp hq
        obtain ⟨h3, h4⟩ := flatsOf_mem hqj
        exact ⟨j, hj, List.ne_nil_of_mem hqj, by rw [← h3]; exact h1, by rw [← h4]; exact h2⟩
      · rintro ⟨j, hj, hne, h1, h2⟩
        obtain ⟨q, hq⟩ := List.exists_mem_of_ne_nil _ hne
        obtain ⟨h3, h4⟩ := flatsOf_mem hq
        exact ⟨q, List.mem_flatMap.mpr ⟨j, hj, hq⟩, by rw [h3]; exact h1, by rw [h4]; exact h2⟩
    simp only [onTime]
    by_cases h : Behind lat pre i
    · rw [if_pos (hl.mpr h), if_pos h]; rfl
    · rw [if_neg (fun h' => h (hl.mp h')), if_neg h]; rfl

theorem onTime_length (lat : Nat) : ∀ (ins pre : List Input), (flats (onTime lat pre ins)).length + (flats (behind lat pre ins)).length = (flats ins).length
  | [], pre => rfl
  | i :: ins, pre => by
    have ih := onTime_length lat ins (pre ++ [i])
    have e : flats (i :: ins) = flatsOf i ++ flats ins := rfl
    have e' : ∀ l m : List Input, flats (l ++ m) = flats l ++ flats m := fun l m => by simp [flats]
    have e1 : flats [i] = flatsOf i := by simp [flats]
    simp only [onTime, behind, e', e, List.length_append]
    by_cases h : Behind lat pre i
    · rw [if_pos h, if_pos h, e1]
      simp only [flats, List.flatMap_nil, List.length_nil] at ih ⊢
      omega
    · rw [if_neg h, if_neg h, e1]
      simp only [flats, List.flatMap_nil, List.length_nil] at ih ⊢
      omega

/-- times of headers are inside the range of chrono -/
theorem items_times {S : Sem} {u : Unified} {ins : List Input} (hw : u.window + u.lateness ≤ 10 ^ 20)
    (ht : ∀ i ∈ ins, 0 ≤ (exportOf i).secs ∧ (exportOf i).secs < 2 ^ 32 ∧ (exportOf i).nanos < 1000000000) :
    ∀ x ∈ itemsOf u.keys u.aggs ins, u.lateness + u.window + minuteNs ≤ (flowAgg S u.aggs).ts x ∧ (flowAgg S u.aggs).ts x + u.window ≤ maxTime := by
  intro x hx
  rw [itemsOf_eq] at hx
  obtain ⟨r, hr, rfl⟩ := List.mem_map.mp hx
  obtain ⟨i, hi, hri⟩ := List.mem_flatMap.mp hr
  obtain ⟨-, he⟩ := flatsOf_mem hri
  obtain ⟨h1, h2, h3⟩ := ht i hi
  rw [← he] at h1 h2 h3
  simp only [flowAgg, itemOf, ticks, minuteNs, maxTime]
  omega

/-! ## Stopping -/

section
variable {S : Sem} {aggs : List AggRef} {ordOf : HMap IpAddr (BMap FlowCache) → List (IpAddr × BMap FlowCache)}

/-- the stream is over -/
structure Over (src : Polls Item) (a : Adaptor IpAddr Item FlowCache FlowCache) : Prop where
  src : src = []
  buffer : a.buffer = []
  late : a.lateBuffer = []
  active : a.agg.active = HMap.empty

theorem pollLoop_none {A : Agg IpAddr Item FlowCache FlowCache} : ∀ {src : Polls Item} {st : WinAgg IpAddr FlowCache} {src' a'},
    pollLoop A ordOf src st = some (.ready none, src', a') → Over src' a'
  | [], st, src', a', h => by
    simp only [pollLoop, Option.bind_eq_bind, Option.bind_eq_some_iff, Option.pure_def, Option.some.injEq] at h
    obtain ⟨⟨res, st'⟩, hf, hg⟩ := h
    simp only [Prod.mk.injEq, Poll.ready.injEq] at hg
    obtain ⟨h1, rfl, h3⟩ := hg
    have hn : Adaptor.getNext (⟨[], st', res, []⟩ : Adaptor IpAddr Item FlowCache FlowCache) = (none, a') := by
      rw [← h1, ← h3]
    obtain ⟨-, rfl⟩ := getNext_none hn
    simp only [Adaptor.getNext, Prod.mk.injEq, true_and] at hn
    subst hn
    exact ⟨rfl, rfl, rfl, flushAll_active hf⟩
  | none :: rest, st, src', a', h => by simp [pollLoop] at h
  | some x :: rest, st, src', a', h => by
    simp only [pollLoop, Option.bind_eq_bind, Option.bind_eq_some_iff] at h
    obtain ⟨⟨res, late, st'⟩, hp, hg⟩ := h
    simp only at hg
    split at hg
    · simp at hg
    · exact pollLoop_none hg

theorem pollNext_none {A : Agg IpAddr Item FlowCache FlowCache} {src : Polls Item} {a : Adaptor IpAddr Item FlowCache FlowCache} {src' a'}
    (h : pollNext A ordOf src a = some (.ready none, src', a')) : Over src' a' := by
  unfold pollNext at h
  split at h
  · simp at h
  · exact pollLoop_none h

theorem acts_over (ho : IsOrder ordOf) {src : Polls Item} {a : Adaptor IpAddr Item FlowCache FlowCache} {outs : List (Out Item FlowCache)}
    (h : Acts S aggs ordOf src a outs) (hov : Over src a) : outs = [] := by
  have poll : ∀ {src : Polls Item} {a : Adaptor IpAddr Item FlowCache FlowCache}, Over src a →
      ∃ a', pollNext (flowAgg S aggs) ordOf src a = some (.ready none, [], a') := by
    intro src a h
    obtain ⟨s, st, b, l⟩ := a
    obtain ⟨rfl, h2, h3, h4⟩ := h
    simp only at h2 h3 h4
    subst h2 h3
    exact ⟨⟨[], { st with active := HMap.empty, current := HMap.empty }, [], []⟩, by simp [pollNext, Adaptor.getNext, pollLoop, flush_empty ho _ h4]⟩
  induction h with
  | stop => rfl
  | pend hp _ ih => obtain ⟨a', h'⟩ := poll hov; rw [h'] at hp; simp at hp
  | step hp _ ih => obtain ⟨a', h'⟩ := poll hov; rw [h'] at hp; simp at hp
  | idle hp _ ih => exact ih (pollNext_none hp)

/-- what the actor has taken when it stops is the beginning of what it would take -/
theorem acts_prefix (ho : IsOrder ordOf) {src : Polls Item} {a : Adaptor IpAddr Item FlowCache FlowCache} {outs : List (Out Item FlowCache)}
    (h : Acts S aggs ordOf src a outs) : ∀ {full}, StreamCollects (flowAgg S aggs) ordOf src a full → outs <+: full := by
  induction h with
  | stop => intro full _; exact List.nil_prefix
  | pend hp _ ih =>
    intro full hs
    cases hs with
    | done h' => rw [hp] at h'; simp at h'
    | pend h' hs' =>
      rw [hp] at h'
      simp only [Option.some.injEq, Prod.mk.injEq, true_and] at h'
      obtain ⟨rfl, rfl⟩ := h'
      exact ih hs'
    | step h' hs' => rw [hp] at h'; simp at h'
  | step hp _ ih =>
    intro full hs
    cases hs with
    | done h' => rw [hp] at h'; simp at h'
    | pend h' hs' => rw [hp] at h'; simp at h'
    | step h' hs' =>
      rw [hp] at h'
      simp only [Option.some.injEq, Prod.mk.injEq, Poll.ready.injEq] at h'
      obtain ⟨rfl, rfl, rfl⟩ := h'
      exact List.cons_prefix_cons.mpr ⟨rfl, ih hs'⟩
  | idle hp hacts ih =>
    intro full hs
    rw [acts_over ho hacts (pollNext_none hp)]
    exact List.nil_prefix

/-- an actor that is not stopped before the end takes all -/
theorem acts_all {src : Polls Item} {a : Adaptor IpAddr Item FlowCache FlowCache} {full : List (Out Item FlowCache)}
    (h : StreamCollects (flowAgg S aggs) ordOf src a full) : Acts S aggs ordOf src a full := by
  induction h with
  | done hp => exact .idle hp .stop
  | pend hp _ ih => exact .pend hp ih
  | step hp _ ih => exact .step hp ih

end

end Verif.Collector
