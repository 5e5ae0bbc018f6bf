import Verif.Collector.AggLemmas
/-! # Aggregation of flow records: what a run sends -/
namespace Verif.Collector
open Flow (Field Ie Time FlowSet)
open FlowSpec Hist Analytics

theorem perm_lift {α β : Type} {f : α → β} {m n : List β} (h : m.Perm n) : ∀ {l : List α}, n = l.map f → ∃ l' : List α, l'.Perm l ∧ l'.map f = m := by
  induction h with
  | nil => intro l hl; exact ⟨l, .refl _, hl.symm⟩
  | cons x _ ih =>
    intro l hl
    cases l with
    | nil => simp at hl
    | cons a l =>
      simp only [List.map_cons, List.cons.injEq] at hl
      obtain ⟨l', h1, h2⟩ := ih hl.2
      exact ⟨a :: l', h1.cons a, by rw [List.map_cons, h2, hl.1]⟩
  | swap x y k =>
    intro l hl
    match l, hl with
    | [], hl => simp at hl
    | [a], hl => simp at hl
    | a :: b :: l, hl =>
      simp only [List.map_cons, List.cons.injEq] at hl
      exact ⟨b :: a :: l, List.Perm.swap a b l, by rw [hl.1, hl.2.1, hl.2.2]; rfl⟩
  | trans _ _ ih1 ih2 =>
    intro l hl
    obtain ⟨l1, h1, h2⟩ := ih2 hl
    obtain ⟨l2, h3, h4⟩ := ih1 h2.symm
    exact ⟨l2, h3.trans h1, h4⟩

theorem choose_list {α β : Type} {R : α → β → Prop} {l : List α} (h : ∀ a ∈ l, ∃ b, R a b) :
    ∃ l' : List (β × α), l'.map (·.2) = l ∧ ∀ x ∈ l', R x.2 x.1 := by
  induction l with
  | nil => exact ⟨[], rfl, by simp⟩
  | cons a l ih =>
    obtain ⟨b, hb⟩ := h a (List.mem_cons_self ..)
    obtain ⟨l', h1, h2⟩ := ih fun a ha => h a (List.mem_cons_of_mem _ ha)
    exact ⟨(b, a) :: l', by rw [List.map_cons, h1], by
      intro x hx
      rcases List.mem_cons.mp hx with rfl | hx
      · exact hb
      · exact h2 x hx⟩

/-! ## Entries -/

theorem mem_eval {S : Sem} {aggs : List AggRef} {l : List Item} {e : FlowKey × FlowRec} (h : e ∈ (flowAgg S aggs).eval l) : ∃ x ∈ l, x.key = e.1 := by
  induction l using snoc_induction with
  | nil => simp [Agg.eval, flowAgg] at h
  | append_singleton l x ih =>
    have he : (flowAgg S aggs).eval (l ++ [x]) = pushItem S aggs ((flowAgg S aggs).eval l) x := by simp [Agg.eval, flowAgg]
    rw [he] at h
    unfold pushItem at h
    have : e.1 = x.key ∨ e ∈ (flowAgg S aggs).eval l := by
      split at h <;> rcases mem_put h with h | h
      · exact .inl (by rw [h])
      · exact .inr h
      · exact .inl (by rw [h])
      · exact .inr h
    rcases this with h | h
    · exact ⟨x, by simp, h.symm⟩
    · obtain ⟨y, hy, hy'⟩ := ih h
      exact ⟨y, by simp [hy], hy'⟩

/-- the entries for a batch -/
def batchEntries (S : Sem) (aggs : List AggRef) (dur : Nat) (b : Batch IpAddr Item) : List Entry :=
  ((flowAgg S aggs).eval b.2.2).map fun e => ⟨(b.2.1, b.2.1 + dur), b.1, e.1, e.2⟩

theorem entriesOf_eq {w : Nat × Nat} {c : FlowCache} {ip : IpAddr} (h : ∀ e ∈ c, e.1.ip = ip) :
    entriesOf w c = c.map fun e => ⟨w, ip, e.1, e.2⟩ := by
  cases c with
  | nil => rfl
  | cons e c =>
    obtain ⟨k, d⟩ := e
    have : k.ip = ip := h (k, d) (List.mem_cons_self ..)
    simp only [entriesOf, this]

theorem writes_spec {S : Sem} {aggs : List AggRef} {dur : Nat} {outs : List (Out Item FlowCache)} {es : List Entry} (h : Writes outs es) :
    ∀ {bs : List (Batch IpAddr Item)}, winsOf outs = bs.map (Batch.out (flowAgg S aggs) dur) → (∀ b ∈ bs, ∀ x ∈ b.2.2, x.key.ip = b.1) →
      es.Perm (bs.flatMap (batchEntries S aggs dur)) := by
  induction h with
  | nil =>
    intro bs hb _
    cases bs with
    | nil => exact .refl _
    | cons b bs => simp [winsOf] at hb
  | late _ ih => intro bs hb hk; exact ih hb hk
  | @win w c c' outs es hp _ ih =>
    intro bs hb hk
    cases bs with
    | nil => simp [winsOf] at hb
    | cons b bs =>
      simp only [winsOf, List.map_cons, List.cons.injEq, Batch.out, Out.win.injEq] at hb
      obtain ⟨⟨rfl, rfl⟩, hb⟩ := hb
      rw [List.flatMap_cons]
      refine List.Perm.append ?_ (ih hb fun b hb => hk b (List.mem_cons_of_mem _ hb))
      have hip : ∀ e ∈ c', e.1.ip = b.1 := by
        intro e he
        obtain ⟨x, hx, hxe⟩ := mem_eval (hp.mem_iff.mp he)
        rw [← hxe]
        exact hk b (List.mem_cons_self ..) x hx
      rw [entriesOf_eq hip]
      exact hp.map _

/-! ## Reports -/

theorem together_of_key {keys : List (FieldRef Ie)} {aggs : List AggRef} {a b : Flat} (ha : Chrono a.exported) (hb : Chrono b.exported) :
    Together keys a b ↔ (itemOf keys aggs a).key = (itemOf keys aggs b).key ∧ windowStart (ticks a.exported) = windowStart (ticks b.exported) := by
  have h1 := windowStart_eq ha
  have h2 := windowStart_eq hb
  unfold Together minute
  simp only [itemOf, FlowKey.mk.injEq]
  constructor
  · rintro ⟨h3, h4, h5, h6⟩
    exact ⟨⟨h3, h4, h6⟩, by omega⟩
  · rintro ⟨⟨h3, h4, h6⟩, h5⟩
    exact ⟨h3, h4, by omega, h6⟩

/-- what is known of an entry and a record it comes from -/
structure From (S : Sem) (u : Unified) (K : List Flat) (e : Entry) (r : Flat) : Prop where
  mem : r ∈ K
  ip : e.ip = r.peer.ip
  key : e.key = (itemOf u.keys u.aggs r).key
  start : e.window.1 = windowStart (ticks r.exported)
  stop : e.window.2 = windowStart (ticks r.exported) + u.window
  sums : Sums S u.aggs (K.filter fun q => Together u.keys r q) e.data

theorem From.reports {S : Sem} {u : Unified} {K : List Flat} {e : Entry} {r : Flat} (h : From S u K e r) (hc : Chrono r.exported) (shard : Nat) (seq : UInt32)
    (now : Time) : Reports S u shard r (K.filter fun q => Together u.keys r q) (e.packet shard seq now) := by
  obtain ⟨w, ip, k, d⟩ := e
  obtain ⟨_, hip, hk, h1, h2, hs⟩ := h
  simp only at hip hk h1 h2 hs
  subst hip hk
  have hws := windowStart_eq hc
  have hf : ∃ ports domains templates first last seen start stop,
      Lists ports ((K.filter fun q => Together u.keys r q).map (·.peer.port)) ∧ Lists domains ((K.filter fun q => Together u.keys r q).map (·.domain)) ∧
      Lists templates ((K.filter fun q => Together u.keys r q).map (·.template)) ∧
      Earliest ((K.filter fun q => Together u.keys r q).map (·.exported)) first ∧ Latest ((K.filter fun q => Together u.keys r q).map (·.exported)) last ∧
      Latest ((K.filter fun q => Together u.keys r q).map (·.collected)) seen ∧
      (ns start = minute r * 60000000000 ∧ start.nanos = 0) ∧ (ns stop = ns start + u.window ∧ stop.nanos < 1000000000) ∧
      outFields (itemOf u.keys u.aggs r).key d (windowFields w r.peer.ip) =
      ((keysOf u.keys r ++ u.aggs.map fun a => combined S a.op (valuesOf a.ref (K.filter fun q => Together u.keys r q))).filterMap id ++
        [.known 0 375 (.unsigned64 (UInt64.ofNat (K.filter fun q => Together u.keys r q).length)), .known 0 264 (.seconds first), .known 0 260 (.seconds last),
          .known 0 258 (.millis seen)] ++
        [.known 3746 1 (.seconds start), .known 3746 2 (.seconds stop), exporter r.peer.ip] ++
        ports.map (fun x => .known 3746 4 (.unsigned16 x)) ++ domains.map (fun x => .known 0 405 (.unsigned32 x)) ++
        templates.map (fun x => .known 3746 3 (.unsigned16 x))) := by
    refine ⟨d.ports, d.domains, d.templates, d.minExport, d.maxExport, d.maxCollection, timeAt w.1, timeAt w.2, hs.ports, hs.domains, hs.templates, hs.first,
      hs.last, hs.seen, ⟨?_, ?_⟩, ⟨?_, (ns_timeAt _).2⟩, ?_⟩
    · rw [(ns_timeAt _).1, h1]
      unfold minute
      omega
    · rw [h1]
      unfold timeAt windowStart minuteNs
      simp only
      omega
    · rw [(ns_timeAt _).1, (ns_timeAt _).1, h1, h2]
      omega
    · simp only [outFields, itemOf, hs.fields, hs.count, windowFields, netgauzePen, List.append_assoc]
      cases r.peer.ip <;> rfl
  obtain ⟨ports, domains, templates, first, last, seen, start, stop, a1, a2, a3, a4, a5, a6, a7, a8, a9⟩ := hf
  have hproto : (itemOf u.keys u.aggs r).key.proto = r.proto := rfl
  refine ⟨rfl, ?_, ⟨ports, domains, templates, first, last, seen, start, stop, a1, a2, a3, a4, a5, a6, a7, a8, ?_⟩⟩
  · simp only [Entry.packet, toInfo, hproto]
    cases hp : r.proto with
    | ipfix => exact ⟨rfl, rfl⟩
    | netflow => exact ⟨rfl, rfl, hs.up⟩
  · rw [← a9]
    simp only [Entry.packet, toInfo, hproto]
    cases hp : r.proto <;> rfl

theorem flats_chrono {ins : List Input} (hc : ∀ i ∈ ins, Chrono (exportOf i)) : ∀ r ∈ flats ins, Chrono r.exported := by
  intro r hr
  obtain ⟨i, hi, hr⟩ := List.mem_flatMap.mp hr
  have := hc i hi
  unfold flatsOf at hr
  unfold exportOf at this
  split at hr <;> rename_i h <;> rw [h] at this <;> obtain ⟨x, _, rfl⟩ := List.mem_map.mp hr <;> exact this

section
variable {S : Sem} {u : Unified} {K : List Flat}

theorem batch_from (hK : ∀ r ∈ K, Chrono r.exported) {b : Batch IpAddr Item}
    (hb : b.2.2 = (K.map (itemOf u.keys u.aggs)).filter fun x => decide ((flowAgg S u.aggs).key x = b.1 ∧ windowStart ((flowAgg S u.aggs).ts x) = b.2.1))
    {e : Entry} (he : e ∈ batchEntries S u.aggs u.window b) : ∃ r, From S u K e r := by
  obtain ⟨⟨k, d⟩, hkd, rfl⟩ := List.mem_map.mp he
  rw [List.filter_map] at hb
  rw [hb] at hkd
  obtain ⟨hu, hspec⟩ := eval_spec S u.keys u.aggs (K.filter ((fun x => decide ((flowAgg S u.aggs).key x = b.1 ∧ windowStart ((flowAgg S u.aggs).ts x) = b.2.1)) ∘ itemOf u.keys u.aggs))
  have hl := hspec k
  rw [lookup_of_mem hu hkd] at hl
  obtain ⟨hne, hs⟩ := hl
  obtain ⟨r, hr⟩ := List.exists_mem_of_ne_nil _ hne
  have hr' := List.mem_filter.mp hr
  have hr'' := List.mem_filter.mp hr'.1
  have hrk : (itemOf u.keys u.aggs r).key = k := by simpa using hr'.2
  have hrb : r.peer.ip = b.1 ∧ windowStart (ticks r.exported) = b.2.1 := of_decide_eq_true hr''.2
  have hfilter : ofFlowKey u.keys u.aggs k (K.filter ((fun x => decide ((flowAgg S u.aggs).key x = b.1 ∧ windowStart ((flowAgg S u.aggs).ts x) = b.2.1)) ∘ itemOf u.keys u.aggs)) =
      K.filter fun q => Together u.keys r q := by
    unfold ofFlowKey
    rw [List.filter_filter]
    apply List.filter_congr
    intro q hq
    rw [Bool.eq_iff_iff, Bool.and_eq_true, decide_eq_true_eq, decide_eq_true_eq, together_of_key (aggs := u.aggs) (hK r hr''.1) (hK q hq), hrk, hrb.2]
    constructor
    · rintro ⟨h1, h2⟩
      have h2 : q.peer.ip = b.1 ∧ windowStart (ticks q.exported) = b.2.1 := of_decide_eq_true h2
      exact ⟨h1.symm, h2.2.symm⟩
    · rintro ⟨h1, h2⟩
      refine ⟨h1.symm, decide_eq_true (p := q.peer.ip = b.1 ∧ windowStart (ticks q.exported) = b.2.1) ⟨?_, h2.symm⟩⟩
      rw [← hrk] at h1
      simp only [itemOf, FlowKey.mk.injEq] at h1
      rw [← h1.1]
      exact hrb.1
  rw [hfilter] at hs
  exact ⟨r, hr''.1, hrb.1.symm, hrk.symm, hrb.2.symm, by rw [hrb.2], hs⟩

end

/-- the records for which there are entries, each once -/
theorem run_reports {S : Sem} {u : Unified} {shard : Nat} {ins : List Input} {ordOf : HMap IpAddr (BMap FlowCache) → List (IpAddr × BMap FlowCache)}
    (ho : IsOrder ordOf) (hw : 0 < u.window) (hc : ∀ i ∈ ins, Chrono (exportOf i)) {polls : Polls Item}
    (hp : polls.filterMap id = itemsOf u.keys u.aggs ins) {outs : List (Out Item FlowCache)}
    (hs : StreamCollects (flowAgg S u.aggs) ordOf polls (Adaptor.new [] u.window u.lateness) outs) {pkts : List (IpAddr × Info)}
    (hsend : Sends shard outs pkts) :
    ∃ reports : List (Flat × (IpAddr × Info)), reports.map (·.2) = pkts ∧
      (∀ x ∈ reports, x.1 ∈ kept u.lateness [] (flats ins) ∧
        Reports S u shard x.1 ((kept u.lateness [] (flats ins)).filter fun q => Together u.keys x.1 q) x.2) ∧
      reports.Pairwise (fun x y => ¬ Together u.keys x.1 y.1) ∧
      ∀ r ∈ kept u.lateness [] (flats ins), ∃ x ∈ reports, Together u.keys x.1 r := by
  obtain ⟨rest, hr, hrest⟩ := streamCollects_allOuts ho hs
  have hr0 : allOuts (flowAgg S u.aggs) ordOf (WinAgg.new u.window u.lateness) (itemsOf u.keys u.aggs ins) = some rest := by rw [← hp]; exact hr
  have houts : (outsOf ((Adaptor.new [] u.window u.lateness : Adaptor IpAddr Item FlowCache FlowCache).lateBuffer)
      ((Adaptor.new [] u.window u.lateness : Adaptor IpAddr Item FlowCache FlowCache).buffer) ++ rest) = rest := by simp [Adaptor.new, outsOf]
  rw [hrest, houts] at hsend
  obtain ⟨-, bs, hacc, -, hfull⟩ := run_spec ho hr0
  obtain ⟨hnd, hwin, hex⟩ := hfull hw
  have hF := flats_chrono hc
  have hK : ∀ r ∈ kept u.lateness [] (flats ins), Chrono r.exported := fun r hr => hF r (mem_kept hr)
  have hA : acceptedItems (flowAgg S u.aggs) u.lateness [] (itemsOf u.keys u.aggs ins) = (kept u.lateness [] (flats ins)).map (itemOf u.keys u.aggs) := by
    rw [itemsOf_eq]
    exact accepted_map (pre := []) hF (by simp)
  generalize hKeq : kept u.lateness [] (flats ins) = K at *
  unfold windowItems at hwin hex
  rw [hA] at hwin hex
  obtain ⟨es, es', nows, hwr, hes, hpk⟩ := hsend
  have hperm := hes.trans (writes_spec hwr hacc.windows hacc.oneKey)
  obtain ⟨order, ho1, ho2⟩ := perm_lift hpk rfl
  -- a record for each of the entries
  have hfrom : ∀ x ∈ order, ∃ r, From S u K x.1 r := by
    intro x hx
    have hx' : x.1 ∈ es' := by
      obtain ⟨e, n⟩ := x
      exact List.fst_mem_of_mem_zipIdx (ho1.mem_iff.mp hx)
    obtain ⟨b, hb, he⟩ := List.mem_flatMap.mp (hperm.mem_iff.mp hx')
    exact batch_from hK (hwin b hb) he
  obtain ⟨chosen, hc1, hc2⟩ := choose_list hfrom
  have hmem : ∀ x ∈ chosen, From S u K x.2.1 x.1 := hc2
  -- no two entries of the same key and window
  have hkeys : ((bs.flatMap (batchEntries S u.aggs u.window)).map fun e => (e.window.1, e.key)).Nodup := by
    rw [List.map_flatMap]
    refine List.pairwise_flatMap.mpr ⟨?_, ?_⟩
    · intro b hb
      rw [batchEntries, List.map_map, List.pairwise_map]
      have hu : Uniq ((flowAgg S u.aggs).eval b.2.2) := by
        rw [hwin b hb, List.filter_map]
        exact (eval_spec S u.keys u.aggs _).1
      exact hu.imp fun h h' => h (by simpa using h')
    · have := List.pairwise_map.mp hnd
      refine this.imp_of_mem ?_
      intro b b' hb hb' hne x hx y hy hxy
      obtain ⟨e, he, rfl⟩ := List.mem_map.mp hx
      obtain ⟨e', he', rfl⟩ := List.mem_map.mp hy
      obtain ⟨r, hr⟩ := batch_from hK (hwin b hb) he
      obtain ⟨r', hr'⟩ := batch_from hK (hwin b' hb') he'
      simp only [Prod.mk.injEq] at hxy
      have e1 : e.ip = b.1 ∧ e.window.1 = b.2.1 := by
        obtain ⟨_, _, rfl⟩ := List.mem_map.mp he; exact ⟨rfl, rfl⟩
      have e2 : e'.ip = b'.1 ∧ e'.window.1 = b'.2.1 := by
        obtain ⟨_, _, rfl⟩ := List.mem_map.mp he'; exact ⟨rfl, rfl⟩
      have e3 : e.ip = e'.ip := by
        have h1 := hr.key
        have h2 := hr'.key
        rw [hxy.2, h2] at h1
        simp only [itemOf, FlowKey.mk.injEq] at h1
        rw [hr.ip, hr'.ip, h1.1]
      apply hne
      rw [← e1.1, ← e2.1, e3, ← e1.2, ← e2.2, hxy.1]
  have hdistinct : (order.map fun x => (x.1.window.1, x.1.key)).Nodup := by
    have h1 : (es'.map fun e => (e.window.1, e.key)).Nodup := (hperm.map _).nodup_iff.mpr hkeys
    have h2 : (order.map fun x => (x.1.window.1, x.1.key)).Perm (es'.map fun e => (e.window.1, e.key)) := by
      have := ho1.map fun x : Entry × Nat => (x.1.window.1, x.1.key)
      refine this.trans ?_
      have hz : es'.zipIdx.map Prod.fst = es' := List.zipIdx_map_fst ..
      have : es'.zipIdx.map (fun x : Entry × Nat => (x.1.window.1, x.1.key)) = (es'.zipIdx.map Prod.fst).map fun e => (e.window.1, e.key) := by
        rw [List.map_map]; rfl
      rw [this, hz]
    exact h2.nodup_iff.mpr h1
  refine ⟨chosen.map fun x => (x.1, x.2.1.packet shard (UInt32.ofNat x.2.2) (nows x.2.2)), ?_, ?_, ?_, ?_⟩
  · rw [List.map_map, ← ho2, ← hc1, List.map_map]
    rfl
  · intro x hx
    obtain ⟨y, hy, rfl⟩ := List.mem_map.mp hx
    have hy' := hmem y hy
    exact ⟨hy'.mem, hy'.reports (hK _ hy'.mem) shard _ _⟩
  · rw [List.pairwise_map]
    rw [← hc1, List.map_map, List.Nodup, List.pairwise_map] at hdistinct
    refine hdistinct.imp_of_mem ?_
    intro x y hx hy hne hT
    have hx' := hmem x hx
    have hy' := hmem y hy
    have := (together_of_key (aggs := u.aggs) (hK _ hx'.mem) (hK _ hy'.mem)).mp hT
    apply hne
    simp only [Function.comp, Prod.mk.injEq]
    exact ⟨by rw [hx'.start, hy'.start, this.2], by rw [hx'.key, hy'.key, this.1]⟩
  · intro r hr
    obtain ⟨b, hb, hb1, hb2⟩ := hex r.peer.ip (windowStart (ticks r.exported)) (by
      intro hnil
      have : itemOf u.keys u.aggs r ∈ (List.map (itemOf u.keys u.aggs) K).filter fun x =>
          decide ((flowAgg S u.aggs).key x = r.peer.ip ∧ windowStart ((flowAgg S u.aggs).ts x) = windowStart (ticks r.exported)) :=
        List.mem_filter.mpr ⟨List.mem_map.mpr ⟨r, hr, rfl⟩, by simp [flowAgg, itemOf]⟩
      rw [hnil] at this
      simp at this)
    have hbb := hwin b hb
    rw [List.filter_map] at hbb
    obtain ⟨-, hspec⟩ := eval_spec S u.keys u.aggs (K.filter ((fun x => decide ((flowAgg S u.aggs).key x = b.1 ∧ windowStart ((flowAgg S u.aggs).ts x) = b.2.1)) ∘ itemOf u.keys u.aggs))
    have hk := hspec (itemOf u.keys u.aggs r).key
    rw [← hbb] at hk
    cases hl : ((flowAgg S u.aggs).eval b.2.2).look (itemOf u.keys u.aggs r).key with
    | none =>
      rw [hl] at hk
      simp only at hk
      have : r ∈ ofFlowKey u.keys u.aggs (itemOf u.keys u.aggs r).key (K.filter ((fun x => decide ((flowAgg S u.aggs).key x = b.1 ∧ windowStart ((flowAgg S u.aggs).ts x) = b.2.1)) ∘ itemOf u.keys u.aggs)) :=
        List.mem_filter.mpr ⟨List.mem_filter.mpr ⟨hr, by simp [flowAgg, itemOf, hb1, hb2]⟩, by simp⟩
      rw [hk] at this
      simp at this
    | some d =>
      have he : (⟨(b.2.1, b.2.1 + u.window), b.1, (itemOf u.keys u.aggs r).key, d⟩ : Entry) ∈ es' :=
        hperm.mem_iff.mpr (List.mem_flatMap.mpr ⟨b, hb, List.mem_map.mpr ⟨_, mem_of_lookup hl, rfl⟩⟩)
      obtain ⟨n, hn⟩ : ∃ n, ((⟨(b.2.1, b.2.1 + u.window), b.1, (itemOf u.keys u.aggs r).key, d⟩ : Entry), n) ∈ es'.zipIdx := by
        have hz : es'.zipIdx.map Prod.fst = es' := List.zipIdx_map_fst ..
        rw [← hz] at he
        obtain ⟨⟨e, n⟩, hen, h⟩ := List.mem_map.mp he
        exact ⟨n, by rw [← h]; exact hen⟩
      have hx := ho1.mem_iff.mpr hn
      rw [← hc1] at hx
      obtain ⟨y, hy, hyx⟩ := List.mem_map.mp hx
      have hy' := hmem y hy
      refine ⟨_, List.mem_map.mpr ⟨y, hy, rfl⟩, ?_⟩
      rw [together_of_key (aggs := u.aggs) (hK _ hy'.mem) (hK _ hr)]
      have h1 := hy'.key
      have h2 := hy'.start
      rw [hyx] at h1 h2
      exact ⟨h1.symm, by rw [← h2, hb2]⟩

end Verif.Collector
