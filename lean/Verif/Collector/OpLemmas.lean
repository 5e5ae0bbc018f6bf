import Verif.Collector.AggLemmas
/-! # Operations on fields: lemmas -/
namespace Verif.Collector
open Flow (Kind Value Field Ie Time)
open FlowSpec Hist

/-! ## Orders -/

/-- a linear order on the values of a kind -/
structure LinOn (le : Value → Value → Option Bool) (k : Kind) : Prop where
  defined : ∀ a b, a.kind = k → b.kind = k → le a b = some true ∨ le a b = some false
  undefined : ∀ a b, b.kind = k → a.kind ≠ k → le a b = none
  total : ∀ a b, a.kind = k → b.kind = k → le a b = some true ∨ le b a = some true
  trans : ∀ a b c, a.kind = k → b.kind = k → c.kind = k → le a b = some true → le b c = some true → le a c = some true
  anti : ∀ a b, a.kind = k → b.kind = k → le a b = some true → le b a = some true → a = b

theorem LinOn.of {α : Type} {le : Value → Value → Option Bool} {k : Kind} (c : α → Value) (r : α → α → Bool) (hk : ∀ v : Value, v.kind = k → ∃ x, v = c x)
    (hle : ∀ x y, le (c x) (c y) = some (r x y)) (hne : ∀ v y, v.kind ≠ k → le v (c y) = none) (total : ∀ x y, r x y = true ∨ r y x = true)
    (trans : ∀ x y z, r x y = true → r y z = true → r x z = true) (anti : ∀ x y, r x y = true → r y x = true → x = y) : LinOn le k where
  defined a b ha hb := by
    obtain ⟨x, rfl⟩ := hk a ha
    obtain ⟨y, rfl⟩ := hk b hb
    rw [hle]
    cases r x y <;> simp
  undefined a b hb ha := by
    obtain ⟨y, rfl⟩ := hk b hb
    exact hne a y ha
  total a b ha hb := by
    obtain ⟨x, rfl⟩ := hk a ha
    obtain ⟨y, rfl⟩ := hk b hb
    simpa [hle] using total x y
  trans a b d ha hb hd := by
    obtain ⟨x, rfl⟩ := hk a ha
    obtain ⟨y, rfl⟩ := hk b hb
    obtain ⟨z, rfl⟩ := hk d hd
    simpa [hle] using trans x y z
  anti a b ha hb := by
    obtain ⟨x, rfl⟩ := hk a ha
    obtain ⟨y, rfl⟩ := hk b hb
    intro h1 h2
    rw [anti x y (by simpa [hle] using h1) (by simpa [hle] using h2)]

theorem tcpKey_inj {a b : UInt8} (h : tcpKey a = tcpKey b) : a = b := by
  have inv : ∀ n : Fin 256, tcpKey (UInt8.ofNat (tcpKey (UInt8.ofNat n.1))) = n.1 := by decide +kernel
  have inv' : ∀ v : UInt8, tcpKey (UInt8.ofNat (tcpKey v)) = v.toNat := by
    intro v
    have := inv ⟨v.toNat, UInt8.toNat_lt v⟩
    simpa using this
  apply UInt8.toNat_inj.mp
  rw [← inv' a, ← inv' b, h]

theorem Sem.Ok.leInt {S : Sem} (h : S.Ok) (p : UInt32) (i : UInt16) :
    (∀ a b, S.leInt p i a b = true ∨ S.leInt p i b a = true) ∧ (∀ a b c, S.leInt p i a b = true → S.leInt p i b c = true → S.leInt p i a c = true) ∧
    ∀ a b, S.leInt p i a b = true → S.leInt p i b a = true → a = b := by
  unfold Sem.leInt
  split
  · exact ⟨h.total p i, h.trans p i, h.anti p i⟩
  · simp only [decide_eq_true_eq]
    exact ⟨fun a b => by omega, fun a b c => by omega, fun a b => by omega⟩

theorem Time.lin : (∀ a b, Time.le a b = true ∨ Time.le b a = true) ∧ (∀ a b c, Time.le a b = true → Time.le b c = true → Time.le a c = true) ∧
    ∀ a b, Time.le a b = true → Time.le b a = true → a = b := by
  simp only [Time.le_iff]
  exact ⟨NotAfter.total, fun a b c => NotAfter.trans, fun a b => NotAfter.anti⟩

theorem lin (S : Sem) (hS : S.Ok) (p : UInt32) (i : UInt16) {k : Kind} (hk : isComparable k = true) (hf : k ≠ .float64) : LinOn (S.leValue p i) k := by
  obtain ⟨i1, i2, i3⟩ := hS.leInt p i
  obtain ⟨t1, t2, t3⟩ := Time.lin
  cases k <;> simp only [isComparable, Bool.false_eq_true, reduceCtorEq, ne_eq, not_false_eq_true, not_true_eq_false] at hk hf
  · exact LinOn.of Value.unsigned8 (fun x y : UInt8 => S.leInt p i x.toNat y.toNat) (fun v hv => by cases v <;> simp [Value.kind] at hv; exact ⟨_, rfl⟩)
      (fun _ _ => rfl) (fun v y hv => by cases v <;> first | rfl | exact absurd rfl hv)
      (fun _ _ => i1 _ _) (fun _ _ _ => i2 _ _ _) (fun _ _ h1 h2 => UInt8.toNat_inj.mp (i3 _ _ h1 h2))
  · exact LinOn.of Value.unsigned16 (fun x y : UInt16 => S.leInt p i x.toNat y.toNat) (fun v hv => by cases v <;> simp [Value.kind] at hv; exact ⟨_, rfl⟩)
      (fun _ _ => rfl) (fun v y hv => by cases v <;> first | rfl | exact absurd rfl hv)
      (fun _ _ => i1 _ _) (fun _ _ _ => i2 _ _ _) (fun _ _ h1 h2 => UInt16.toNat_inj.mp (i3 _ _ h1 h2))
  · exact LinOn.of Value.tcpControlBits (fun x y => decide (tcpKey x ≤ tcpKey y)) (fun v hv => by cases v <;> simp [Value.kind] at hv; exact ⟨_, rfl⟩)
      (fun _ _ => rfl) (fun v y hv => by cases v <;> first | rfl | exact absurd rfl hv)
      (fun _ _ => by simp only [decide_eq_true_eq]; omega) (fun _ _ _ => by simp only [decide_eq_true_eq]; omega) (fun _ _ h1 h2 => tcpKey_inj (by simp only [decide_eq_true_eq] at h1 h2; omega))
  · exact LinOn.of Value.unsigned32 (fun x y : UInt32 => S.leInt p i x.toNat y.toNat) (fun v hv => by cases v <;> simp [Value.kind] at hv; exact ⟨_, rfl⟩)
      (fun _ _ => rfl) (fun v y hv => by cases v <;> first | rfl | exact absurd rfl hv)
      (fun _ _ => i1 _ _) (fun _ _ _ => i2 _ _ _) (fun _ _ h1 h2 => UInt32.toNat_inj.mp (i3 _ _ h1 h2))
  · exact LinOn.of Value.unsigned64 (fun x y : UInt64 => S.leInt p i x.toNat y.toNat) (fun v hv => by cases v <;> simp [Value.kind] at hv; exact ⟨_, rfl⟩)
      (fun _ _ => rfl) (fun v y hv => by cases v <;> first | rfl | exact absurd rfl hv)
      (fun _ _ => i1 _ _) (fun _ _ _ => i2 _ _ _) (fun _ _ h1 h2 => UInt64.toNat_inj.mp (i3 _ _ h1 h2))
  · exact LinOn.of Value.signed32 (fun x y => decide (x ≤ y)) (fun v hv => by cases v <;> simp [Value.kind] at hv; exact ⟨_, rfl⟩)
      (fun _ _ => rfl) (fun v y hv => by cases v <;> first | rfl | exact absurd rfl hv)
      (fun x y => by simp only [decide_eq_true_eq, Int32.le_iff_toInt_le]; omega) (fun x y z => by simp only [decide_eq_true_eq, Int32.le_iff_toInt_le]; omega) (fun x y h1 h2 => Int32.toInt_inj.mp (by simp only [decide_eq_true_eq, Int32.le_iff_toInt_le] at h1 h2; omega))
  · exact LinOn.of Value.boolean (fun x y => !x || y) (fun v hv => by cases v <;> simp [Value.kind] at hv; exact ⟨_, rfl⟩)
      (fun _ _ => rfl) (fun v y hv => by cases v <;> first | rfl | exact absurd rfl hv)
      (by decide) (by decide) (by decide)
  · exact LinOn.of Value.macAddress (fun x y => decide (x ≤ y)) (fun v hv => by cases v <;> simp [Value.kind] at hv; exact ⟨_, rfl⟩)
      (fun _ _ => rfl) (fun v y hv => by cases v <;> first | rfl | exact absurd rfl hv)
      (fun x y => by simp only [decide_eq_true_eq, BitVec.le_def]; omega) (fun x y z => by simp only [decide_eq_true_eq, BitVec.le_def]; omega) (fun x y h1 h2 => BitVec.toNat_inj.mp (by simp only [decide_eq_true_eq, BitVec.le_def] at h1 h2; omega))
  · exact LinOn.of Value.seconds Time.le (fun v hv => by cases v <;> simp [Value.kind] at hv; exact ⟨_, rfl⟩)
      (fun _ _ => rfl) (fun v y hv => by cases v <;> first | rfl | exact absurd rfl hv)
      t1 t2 t3
  · exact LinOn.of Value.millis Time.le (fun v hv => by cases v <;> simp [Value.kind] at hv; exact ⟨_, rfl⟩)
      (fun _ _ => rfl) (fun v y hv => by cases v <;> first | rfl | exact absurd rfl hv)
      t1 t2 t3
  · exact LinOn.of Value.micros Time.le (fun v hv => by cases v <;> simp [Value.kind] at hv; exact ⟨_, rfl⟩)
      (fun _ _ => rfl) (fun v y hv => by cases v <;> first | rfl | exact absurd rfl hv)
      t1 t2 t3
  · exact LinOn.of Value.nanos Time.le (fun v hv => by cases v <;> simp [Value.kind] at hv; exact ⟨_, rfl⟩)
      (fun _ _ => rfl) (fun v y hv => by cases v <;> first | rfl | exact absurd rfl hv)
      t1 t2 t3
  · exact LinOn.of Value.ipv4 (fun x y => decide (x ≤ y)) (fun v hv => by cases v <;> simp [Value.kind] at hv; exact ⟨_, rfl⟩)
      (fun _ _ => rfl) (fun v y hv => by cases v <;> first | rfl | exact absurd rfl hv)
      (fun x y => by simp only [decide_eq_true_eq, UInt32.le_iff_toNat_le]; omega) (fun x y z => by simp only [decide_eq_true_eq, UInt32.le_iff_toNat_le]; omega) (fun x y h1 h2 => UInt32.toNat_inj.mp (by simp only [decide_eq_true_eq, UInt32.le_iff_toNat_le] at h1 h2; omega))
  · exact LinOn.of Value.ipv6 (fun x y => decide (x ≤ y)) (fun v hv => by cases v <;> simp [Value.kind] at hv; exact ⟨_, rfl⟩)
      (fun _ _ => rfl) (fun v y hv => by cases v <;> first | rfl | exact absurd rfl hv)
      (fun x y => by simp only [decide_eq_true_eq, BitVec.le_def]; omega) (fun x y z => by simp only [decide_eq_true_eq, BitVec.le_def]; omega) (fun x y h1 h2 => BitVec.toNat_inj.mp (by simp only [decide_eq_true_eq, BitVec.le_def] at h1 h2; omega))

/-! ## One step -/

/-- a value combined with the next one -/
def Sem.stepValue (S : Sem) (p : UInt32) (i : UInt16) (op : AggOp) (a b : Value) : Value := (S.applyValue p i op a b).getD a

theorem combined_known (S : Sem) (p : UInt32) (i : UInt16) (op : AggOp) (v : Value) (vs : List Value) :
    combined S op ((v :: vs).map (.known p i)) = some (.known p i (vs.foldl (S.stepValue p i op) v)) := by
  simp only [List.map_cons, combined, Option.some.injEq]
  induction vs generalizing v with
  | nil => rfl
  | cons w vs ih =>
    rw [List.map_cons, List.foldl_cons, List.foldl_cons, ← ih]
    congr 1
    simp only [Sem.apply, and_self, if_true, Sem.stepValue]
    cases S.applyValue p i op v w <;> rfl

/-- the element allows the operation on its values, which are not lists -/
theorem op_applicable {S : Sem} {p : UInt32} {i : UInt16} {k : Kind} :
    (S.compatible (.known p i k) (.agg .add) = true → S.isNumeric p i k = true) ∧
    (S.compatible (.known p i k) (.agg .min) = true → k ∉ [Kind.basicList, .subTemplateList, .subTemplateMultiList] → isComparable k = true) ∧
    (S.compatible (.known p i k) (.agg .max) = true → k ∉ [Kind.basicList, .subTemplateList, .subTemplateMultiList] → isComparable k = true) ∧
    (S.compatible (.known p i k) (.agg .boolMapOr) = true → isBitwise k = true) := by
  refine ⟨id, ?_, ?_, ?_⟩ <;> cases k <;> simp [Sem.compatible, supportsComparison, supportsBitwise, isComparable, isBitwise]

/-! ## Least and greatest -/

section
variable {S : Sem} {p : UInt32} {i : UInt16} {k : Kind}

theorem step_min (hl : LinOn (S.leValue p i) k) (hk : isComparable k = true) {a b : Value} (ha : a.kind = k) (hb : b.kind = k) :
    S.stepValue p i .min a b = if S.leValue p i a b = some true then a else b := by
  unfold Sem.stepValue Sem.applyValue
  rw [ha, hk]
  rcases hl.defined a b ha hb with h | h <;> simp [h]

theorem step_max (hl : LinOn (S.leValue p i) k) (hk : isComparable k = true) {a b : Value} (ha : a.kind = k) (hb : b.kind = k) :
    S.stepValue p i .max a b = if S.leValue p i a b = some true then b else a := by
  unfold Sem.stepValue Sem.applyValue
  rw [ha, hk]
  rcases hl.defined a b ha hb with h | h <;> simp [h]

theorem LinOn.refl {le : Value → Value → Option Bool} (hl : LinOn le k) {a : Value} (ha : a.kind = k) : le a a = some true :=
  (hl.total a a ha ha).elim id id

theorem fold_min (hl : LinOn (S.leValue p i) k) (hk : isComparable k = true) : ∀ (vs : List Value) (v : Value), v.kind = k → (∀ w ∈ vs, w.kind = k) →
    vs.foldl (S.stepValue p i .min) v ∈ v :: vs ∧ ∀ w ∈ v :: vs, S.leValue p i (vs.foldl (S.stepValue p i .min) v) w = some true
  | [], v, hv, _ => by simpa using hl.refl hv
  | w :: vs, v, hv, hvs => by
    have hw := hvs w (List.mem_cons_self ..)
    have hvs' := fun x hx => hvs x (List.mem_cons_of_mem _ hx)
    rw [List.foldl_cons, step_min hl hk hv hw]
    have hkm : ∀ {m : Value} {x : Value}, x.kind = k → m ∈ x :: vs → m.kind = k := fun hx hm => by
      rcases List.mem_cons.mp hm with rfl | hm
      · exact hx
      · exact hvs' _ hm
    split
    · rename_i h
      obtain ⟨h1, h2⟩ := fold_min hl hk vs v hv hvs'
      have hm := hkm hv h1
      generalize vs.foldl (S.stepValue p i .min) v = m at *
      refine ⟨by rcases List.mem_cons.mp h1 with h | h <;> simp [h], ?_⟩
      intro x hx
      simp only [List.mem_cons] at hx
      rcases hx with rfl | rfl | hx
      · exact h2 _ (by simp)
      · exact hl.trans _ _ _ hm hv hw (h2 v (by simp)) h
      · exact h2 _ (by simp [hx])
    · rename_i h
      obtain ⟨h1, h2⟩ := fold_min hl hk vs w hw hvs'
      have hm := hkm hw h1
      generalize vs.foldl (S.stepValue p i .min) w = m at *
      refine ⟨by rcases List.mem_cons.mp h1 with h | h <;> simp [h], ?_⟩
      intro x hx
      simp only [List.mem_cons] at hx
      rcases hx with rfl | rfl | hx
      · exact hl.trans _ _ _ hm hw hv (h2 w (by simp)) ((hl.total _ _ hv hw).resolve_left h)
      · exact h2 _ (by simp)
      · exact h2 _ (by simp [hx])

theorem fold_max (hl : LinOn (S.leValue p i) k) (hk : isComparable k = true) : ∀ (vs : List Value) (v : Value), v.kind = k → (∀ w ∈ vs, w.kind = k) →
    vs.foldl (S.stepValue p i .max) v ∈ v :: vs ∧ ∀ w ∈ v :: vs, S.leValue p i w (vs.foldl (S.stepValue p i .max) v) = some true
  | [], v, hv, _ => by simpa using hl.refl hv
  | w :: vs, v, hv, hvs => by
    have hw := hvs w (List.mem_cons_self ..)
    have hvs' := fun x hx => hvs x (List.mem_cons_of_mem _ hx)
    rw [List.foldl_cons, step_max hl hk hv hw]
    have hkm : ∀ {m : Value} {x : Value}, x.kind = k → m ∈ x :: vs → m.kind = k := fun hx hm => by
      rcases List.mem_cons.mp hm with rfl | hm
      · exact hx
      · exact hvs' _ hm
    split
    · rename_i h
      obtain ⟨h1, h2⟩ := fold_max hl hk vs w hw hvs'
      have hm := hkm hw h1
      generalize vs.foldl (S.stepValue p i .max) w = m at *
      refine ⟨by rcases List.mem_cons.mp h1 with h | h <;> simp [h], ?_⟩
      intro x hx
      simp only [List.mem_cons] at hx
      rcases hx with rfl | rfl | hx
      · exact hl.trans _ _ _ hv hw hm h (h2 w (by simp))
      · exact h2 _ (by simp)
      · exact h2 _ (by simp [hx])
    · rename_i h
      obtain ⟨h1, h2⟩ := fold_max hl hk vs v hv hvs'
      have hm := hkm hv h1
      generalize vs.foldl (S.stepValue p i .max) v = m at *
      refine ⟨by rcases List.mem_cons.mp h1 with h | h <;> simp [h], ?_⟩
      intro x hx
      simp only [List.mem_cons] at hx
      rcases hx with rfl | rfl | hx
      · exact h2 _ (by simp)
      · exact hl.trans _ _ _ hw hv hm ((hl.total _ _ hv hw).resolve_left h) (h2 v (by simp))
      · exact h2 _ (by simp [hx])

/-- for values without names the order is that of the numbers or times -/
theorem notAbove (hr : S.registry p i = false) (hk : isComparable k = true) (hf : k ≠ .float64) (ht : k ≠ .tcpControlBits) {a b : Value} (ha : a.kind = k)
    (hb : b.kind = k) (h : S.leValue p i a b = some true) : NotAbove a b := by
  cases a <;> simp only [Value.kind] at ha <;> subst ha <;> simp only [isComparable, Bool.false_eq_true, ne_eq, not_true_eq_false] at hk hf ht <;>
    cases b <;> simp only [Value.kind, reduceCtorEq] at hb <;>
    simp only [Sem.leValue, Sem.leInt, hr, Bool.false_eq_true, if_false, Option.some.injEq, decide_eq_true_eq, Time.le_iff] at h
  all_goals first
    | exact .time rfl rfl h
    | exact .number rfl rfl (by simpa [UInt32.le_iff_toNat_le, BitVec.le_def, Int32.le_iff_toInt_le] using h)
    | (rename_i x y; refine .number rfl rfl ?_; revert h; cases x <;> cases y <;> decide)

/-! ## Sums -/

theorem step_add (hn : S.isNumeric p i k = true) (hf : k ≠ .float64) {a b : Value} (ha : a.kind = k) (hb : b.kind = k) {x y : Int}
    (hx : number a = some x) (hy : number b = some y) :
    (S.stepValue p i .add a b).kind = k ∧ ∃ n, number (S.stepValue p i .add a b) = some n ∧ Fits k n ∧ (2 ^ width k : Int) ∣ n - (x + y) := by
  unfold Sem.stepValue Sem.applyValue
  rw [ha, hn]
  simp only [if_true]
  have hk : k = .unsigned8 ∨ k = .unsigned16 ∨ k = .unsigned32 ∨ k = .unsigned64 ∨ k = .signed32 := by
    unfold Sem.isNumeric at hn
    cases k <;> simp_all
  rcases hk with rfl | rfl | rfl | rfl | rfl <;> cases a <;> simp only [Value.kind, reduceCtorEq] at ha <;> cases b <;>
    simp only [Value.kind, reduceCtorEq] at hb <;> simp only [number, Option.some.injEq] at hx hy <;> subst hx hy <;>
    refine ⟨rfl, _, rfl, ?_, ?_⟩
  all_goals rename_i a b
  · exact ⟨by omega, by have := (a + b).toNat_lt; simp only [width]; omega⟩
  · simp only [width, UInt8.toNat_add]; omega
  · exact ⟨by omega, by have := (a + b).toNat_lt; simp only [width]; omega⟩
  · simp only [width, UInt16.toNat_add]; omega
  · exact ⟨by omega, by have := (a + b).toNat_lt; simp only [width]; omega⟩
  · simp only [width, UInt32.toNat_add]; omega
  · exact ⟨by omega, by have := (a + b).toNat_lt; simp only [width]; omega⟩
  · simp only [width, UInt64.toNat_add]; omega
  · exact ⟨(a + b).minValue_le_toInt, (a + b).toInt_lt⟩
  · simp only [width, Int32.toInt_add, Int.bmod_def]; split <;> omega

theorem number_some (hn : S.isNumeric p i k = true) (hf : k ≠ .float64) {a : Value} (ha : a.kind = k) : ∃ x, number a = some x ∧ Fits k x := by
  have hk : k = .unsigned8 ∨ k = .unsigned16 ∨ k = .unsigned32 ∨ k = .unsigned64 ∨ k = .signed32 := by
    unfold Sem.isNumeric at hn
    cases k <;> simp_all
  rcases hk with rfl | rfl | rfl | rfl | rfl <;> cases a <;> simp only [Value.kind, reduceCtorEq] at ha <;> refine ⟨_, rfl, ?_⟩ <;> rename_i a
  · exact ⟨by omega, by have := a.toNat_lt; simp only [width]; omega⟩
  · exact ⟨by omega, by have := a.toNat_lt; simp only [width]; omega⟩
  · exact ⟨by omega, by have := a.toNat_lt; simp only [width]; omega⟩
  · exact ⟨by omega, by have := a.toNat_lt; simp only [width]; omega⟩
  · exact ⟨a.minValue_le_toInt, a.toInt_lt⟩

theorem fold_add (hn : S.isNumeric p i k = true) (hf : k ≠ .float64) : ∀ (vs : List Value) (v : Value), v.kind = k → (∀ w ∈ vs, w.kind = k) →
    (vs.foldl (S.stepValue p i .add) v).kind = k ∧ ∃ n, number (vs.foldl (S.stepValue p i .add) v) = some n ∧ Fits k n ∧
      (2 ^ width k : Int) ∣ n - total (v :: vs)
  | [], v, hv, _ => by
    obtain ⟨x, hx, hfit⟩ := number_some hn hf hv
    exact ⟨hv, x, hx, hfit, by simp [total, hx]⟩
  | w :: vs, v, hv, hvs => by
    have hw := hvs w (List.mem_cons_self ..)
    obtain ⟨x, hx, -⟩ := number_some hn hf hv
    obtain ⟨y, hy, -⟩ := number_some hn hf hw
    obtain ⟨h1, m, hm, -, hdvd⟩ := step_add hn hf hv hw hx hy
    obtain ⟨h2, n, hnn, hfit, hd⟩ := fold_add hn hf vs (S.stepValue p i .add v w) h1 fun x hx => hvs x (List.mem_cons_of_mem _ hx)
    refine ⟨h2, n, hnn, hfit, ?_⟩
    have := Int.dvd_add hd hdvd
    simp only [total, List.map_cons, List.sum_cons, hm, hx, hy, Option.getD_some] at this ⊢
    generalize (vs.map fun v => (number v).getD 0).sum = s at *
    have e : n - (x + (y + s)) = n - (m + s) + (m - (x + y)) := by omega
    rw [e]; exact this

/-! ## Bits -/

theorem orBytes_getD (n : Nat) : ∀ (a b : Bytes), a.length = b.length → (orBytes a b).getD n 0 = a.getD n 0 ||| b.getD n 0
  | [], [], _ => by simp [orBytes]
  | x :: a, y :: b, h => by
    cases n with
    | zero => simp [orBytes]
    | succ n => simpa [orBytes] using orBytes_getD n a b (by simpa using h)

theorem orBytes_length : ∀ (a b : Bytes), (orBytes a b).length = a.length
  | [], _ => by simp [orBytes]
  | _ :: _, [] => by simp [orBytes]
  | x :: a, y :: b => by simp [orBytes, orBytes_length a b]

theorem step_or (hb : isBitwise k = true) {a b : Value} (ha : a.kind = k) (hbk : b.kind = k) (hl : octets a = octets b) :
    (S.stepValue p i .boolMapOr a b).kind = k ∧ octets (S.stepValue p i .boolMapOr a b) = octets a ∧
      ∀ n, bit (S.stepValue p i .boolMapOr a b) n = (bit a n || bit b n) := by
  unfold Sem.stepValue Sem.applyValue
  rw [ha, hb]
  simp only [if_true]
  subst ha
  cases a <;> simp only [Value.kind, isBitwise, Bool.false_eq_true] at hb hbk <;> cases b <;> simp only [Value.kind, reduceCtorEq] at hbk <;>
    refine ⟨rfl, ?_, fun n => ?_⟩
  all_goals first
    | rfl
    | (simp only [orValue, Option.getD_some, octets, orBytes_length]; done)
    | (simp only [orValue, Option.getD_some, bit, octets] at hl ⊢; rw [orBytes_getD _ _ _ hl, UInt8.toNat_or, Nat.testBit_or]; done)
    | (simp [orValue, bit]; done)
    | (rename_i x y; cases x <;> cases y <;> simp [orValue, bit])

theorem fold_or (hb : isBitwise k = true) : ∀ (vs : List Value) (v : Value), v.kind = k → (∀ w ∈ vs, w.kind = k) → (∀ w ∈ vs, octets w = octets v) →
    (vs.foldl (S.stepValue p i .boolMapOr) v).kind = k ∧ octets (vs.foldl (S.stepValue p i .boolMapOr) v) = octets v ∧
      ∀ n, bit (vs.foldl (S.stepValue p i .boolMapOr) v) n = (v :: vs).any fun w => bit w n
  | [], v, hv, _, _ => ⟨hv, rfl, fun n => by simp⟩
  | w :: vs, v, hv, hvs, hl => by
    have hw := hvs w (List.mem_cons_self ..)
    obtain ⟨h1, h2, h3⟩ := step_or (S := S) (p := p) (i := i) hb hv hw (hl w (List.mem_cons_self ..)).symm
    obtain ⟨h4, h5, h6⟩ := fold_or hb vs (S.stepValue p i .boolMapOr v w) h1 (fun x hx => hvs x (List.mem_cons_of_mem _ hx))
      (fun x hx => (hl x (List.mem_cons_of_mem _ hx)).trans h2.symm)
    refine ⟨h4, h5.trans h2, fun n => ?_⟩
    rw [List.foldl_cons, h6 n]
    simp [h3 n, Bool.or_assoc]

end

/-! ## The order of the values -/

section
variable {S : Sem} {p : UInt32} {i : UInt16} {k : Kind}

theorem perm_sum {l m : List Int} (h : l.Perm m) : l.sum = m.sum := by
  induction h with
  | nil => rfl
  | cons x _ ih => simp [ih]
  | swap x y l => simp only [List.sum_cons]; omega
  | trans _ _ h1 h2 => exact h1.trans h2

theorem number_inj (hn : S.isNumeric p i k = true) {a b : Value} (ha : a.kind = k) (hb : b.kind = k) {n : Int} (h1 : number a = some n)
    (h2 : number b = some n) : a = b := by
  subst ha
  unfold Sem.isNumeric at hn
  cases a <;> simp only [Value.kind, Bool.false_eq_true, ite_self, reduceCtorEq] at hn hb <;> cases b <;> simp only [Value.kind, reduceCtorEq] at hb <;>
    simp only [number, Option.some.injEq, reduceCtorEq] at h1 h2
  all_goals rename_i a b
  · rw [UInt8.toNat_inj.mp (by omega : a.toNat = b.toNat)]
  · rw [UInt16.toNat_inj.mp (by omega : a.toNat = b.toNat)]
  · rw [UInt32.toNat_inj.mp (by omega : a.toNat = b.toNat)]
  · rw [UInt64.toNat_inj.mp (by omega : a.toNat = b.toNat)]
  · rw [Int32.toInt_inj.mp (by omega : a.toInt = b.toInt)]

theorem bytes_ext : ∀ {a b : Bytes}, a.length = b.length → (∀ n, (a.getD (n / 8) 0).toNat.testBit (n % 8) = (b.getD (n / 8) 0).toNat.testBit (n % 8)) → a = b
  | [], [], _, _ => rfl
  | x :: a, y :: b, hl, h => by
    have h0 : x = y := by
      apply UInt8.toNat_inj.mp
      apply Nat.eq_of_testBit_eq
      intro j
      by_cases hj : j < 8
      · have := h j
        rw [Nat.div_eq_of_lt hj, Nat.mod_eq_of_lt hj] at this
        simpa using this
      · have hx : x.toNat < 2 ^ j := Nat.lt_of_lt_of_le x.toNat_lt (Nat.pow_le_pow_right (by omega) (by omega))
        have hy : y.toNat < 2 ^ j := Nat.lt_of_lt_of_le y.toNat_lt (Nat.pow_le_pow_right (by omega) (by omega))
        rw [Nat.testBit_lt_two_pow hx, Nat.testBit_lt_two_pow hy]
    rw [h0]
    congr 1
    refine bytes_ext (by simpa using hl) fun n => ?_
    have := h (n + 8)
    rw [show (n + 8) / 8 = n / 8 + 1 by omega, show (n + 8) % 8 = n % 8 by omega] at this
    simpa using this

theorem bit_ext (hb : isBitwise k = true) {a b : Value} (ha : a.kind = k) (hbk : b.kind = k) (hl : octets a = octets b) (h : ∀ n, bit a n = bit b n) : a = b := by
  subst ha
  cases a <;> simp only [Value.kind, isBitwise, Bool.false_eq_true] at hb hbk <;> cases b <;> simp only [Value.kind, reduceCtorEq] at hbk <;>
    simp only [bit, octets] at h hl <;> congr 1
  all_goals first
    | exact bytes_ext hl h
    | exact BitVec.eq_of_getLsbD_eq fun n _ => h n
    | exact UInt8.toNat_inj.mp (Nat.eq_of_testBit_eq h)
    | exact UInt16.toNat_inj.mp (Nat.eq_of_testBit_eq h)
    | exact UInt32.toNat_inj.mp (Nat.eq_of_testBit_eq h)
    | exact UInt64.toNat_inj.mp (Nat.eq_of_testBit_eq h)
    | exact Int32.toBitVec_inj.mp (BitVec.eq_of_getLsbD_eq fun n _ => h n)
    | simpa using h 0

/-- values in another order are combined to the same value -/
theorem combined_perm (hS : S.Ok) {op : AggOp} (hc : S.compatible (.known p i k) (.agg op) = true)
    (hk : k ∉ [Kind.float64, .basicList, .subTemplateList, .subTemplateMultiList]) {vs ws : List Value} (hp : vs.Perm ws) (hvs : ∀ v ∈ vs, v.kind = k)
    (hl : op = .boolMapOr → ∀ v ∈ vs, ∀ w ∈ vs, octets v = octets w) :
    combined S op (vs.map (.known p i)) = combined S op (ws.map (.known p i)) := by
  have hws : ∀ w ∈ ws, w.kind = k := fun w hw => hvs w (hp.mem_iff.mpr hw)
  obtain ⟨a1, a2, a3, a4⟩ := op_applicable (S := S) (p := p) (i := i) (k := k)
  simp only [List.mem_cons, List.not_mem_nil, or_false, not_or] at hk a2 a3
  cases vs with
  | nil => rw [List.nil_perm.mp hp]
  | cons v vs =>
    cases ws with
    | nil => exact absurd hp.symm (List.not_perm_nil_cons _ _)
    | cons w ws =>
      rw [combined_known, combined_known]
      have kv := hvs v (List.mem_cons_self ..)
      have kw := hws w (List.mem_cons_self ..)
      have kvs := fun x hx => hvs x (List.mem_cons_of_mem _ hx)
      have kws := fun x hx => hws x (List.mem_cons_of_mem _ hx)
      congr 2
      cases op with
      | add =>
        obtain ⟨h1, n, hn, hf, hd⟩ := fold_add (a1 hc) hk.1 vs v kv kvs
        obtain ⟨h1', n', hn', hf', hd'⟩ := fold_add (a1 hc) hk.1 ws w kw kws
        have ht : total (v :: vs) = total (w :: ws) := perm_sum (hp.map _)
        rw [ht] at hd
        have hdd := Int.dvd_sub hd hd'
        have e : n - total (w :: ws) - (n' - total (w :: ws)) = n - n' := by omega
        rw [e] at hdd
        refine number_inj (a1 hc) h1 h1' hn ?_
        rw [hn']
        congr 1
        have hpos : (0 : Int) < 2 ^ width k := Int.pow_pos (by omega)
        have : n - n' = 0 := by
          apply Int.eq_zero_of_dvd_of_natAbs_lt_natAbs hdd
          unfold Fits at hf hf'
          split at hf
          · simp only [width]; omega
          · rename_i hs
            have hf' : 0 ≤ n' ∧ n' < 2 ^ width k := by
              revert hf'
              cases k <;> simp at hs ⊢
            generalize (2 ^ width k : Int) = M at *
            omega
        omega
      | min =>
        have hco := a2 hc ⟨hk.2.1, hk.2.2.1, hk.2.2.2⟩
        have lin := lin S hS p i hco hk.1
        obtain ⟨h1, h2⟩ := fold_min lin hco vs v kv kvs
        obtain ⟨h3, h4⟩ := fold_min lin hco ws w kw kws
        exact lin.anti _ _ (hvs _ h1) (hws _ h3) (h2 _ (hp.mem_iff.mpr h3)) (h4 _ (hp.mem_iff.mp h1))
      | max =>
        have hco := a3 hc ⟨hk.2.1, hk.2.2.1, hk.2.2.2⟩
        have lin := lin S hS p i hco hk.1
        obtain ⟨h1, h2⟩ := fold_max lin hco vs v kv kvs
        obtain ⟨h3, h4⟩ := fold_max lin hco ws w kw kws
        exact lin.anti _ _ (hvs _ h1) (hws _ h3) (h4 _ (hp.mem_iff.mp h1)) (h2 _ (hp.mem_iff.mpr h3))
      | boolMapOr =>
        have hl := hl rfl
        obtain ⟨h1, h2, h3⟩ := fold_or (S := S) (p := p) (i := i) (a4 hc) vs v kv kvs fun x hx => hl _ (List.mem_cons_of_mem _ hx) _ (List.mem_cons_self ..)
        obtain ⟨h4, h5, h6⟩ := fold_or (S := S) (p := p) (i := i) (a4 hc) ws w kw kws fun x hx =>
          hl _ (hp.mem_iff.mpr (List.mem_cons_of_mem _ hx)) _ (hp.mem_iff.mpr (List.mem_cons_self ..))
        refine bit_ext (a4 hc) h1 h4 ?_ fun n => ?_
        · rw [h2, h5]; exact hl _ (List.mem_cons_self ..) _ (hp.mem_iff.mpr (List.mem_cons_self ..))
        · rw [h3, h6]
          exact hp.any_eq

end

/-! ## Configuration -/

theorem compatible_iff (S : Sem) (ie : Ie) (op : Op') : S.compatible ie op = true ↔ Allowed S ie op := by
  rcases ie with ⟨p, i, k⟩ | ⟨p, i⟩ | ⟨p, i⟩
  · have ex : ∀ P : UInt32 → UInt16 → Kind → Prop, (∃ p' i' k', Ie.known p i k = .known p' i' k' ∧ P p' i' k') ↔ P p i k := fun P =>
      ⟨fun ⟨_, _, _, h, hp⟩ => by cases h; exact hp, fun hp => ⟨p, i, k, rfl, hp⟩⟩
    have all : ∀ P : UInt32 → UInt16 → Kind → Prop, (∀ p' i' k', Ie.known p i k = .known p' i' k' → P p' i' k') ↔ P p i k := fun P =>
      ⟨fun h => h p i k rfl, fun hp _ _ _ h => by cases h; exact hp⟩
    rcases op with _ | (_ | _ | _ | _) <;> simp only [Allowed, ex, all] <;>
      cases k <;> simp [Sem.compatible, Sem.supportsArithmetic, supportsComparison, supportsBitwise]
  all_goals
    rcases op with _ | (_ | _ | _ | _) <;> simp [Sem.compatible, Allowed, Sem.supportsArithmetic, supportsComparison, supportsBitwise]

theorem addOp_compat {S : Sem} {ie : Ie} {n : Nat} {op : Op'} {u u' : Unified} (h : addOp S ie n op u = .ok u')
    (hu : ∀ a ∈ u.aggs, S.compatible a.ref.ie (.agg a.op) = true) :
    (∀ a ∈ u'.aggs, S.compatible a.ref.ie (.agg a.op) = true) ∧ u'.window = u.window ∧ u'.lateness = u.lateness := by
  unfold addOp at h
  split at h
  · rename_i hc
    cases op with
    | key =>
      simp only [Except.ok.injEq] at h
      subst h
      exact ⟨hu, rfl, rfl⟩
    | agg o =>
      simp only [Except.ok.injEq] at h
      subst h
      refine ⟨fun a ha => ?_, rfl, rfl⟩
      rcases List.mem_append.mp ha with ha | ha
      · exact hu a ha
      · rw [List.mem_singleton.mp ha]; exact hc
  · cases h

theorem addOps_compat {S : Sem} {ie : Ie} : ∀ {l : List (Nat × Op')} {u u' : Unified}, addOps S ie l u = .ok u' →
    (∀ a ∈ u.aggs, S.compatible a.ref.ie (.agg a.op) = true) →
    (∀ a ∈ u'.aggs, S.compatible a.ref.ie (.agg a.op) = true) ∧ u'.window = u.window ∧ u'.lateness = u.lateness
  | [], u, u', h, hu => by
    simp only [addOps, Except.ok.injEq] at h
    subst h
    exact ⟨hu, rfl, rfl⟩
  | (n, op) :: l, u, u', h, hu => by
    simp only [addOps, bind, Except.bind] at h
    split at h
    · cases h
    · rename_i v hv
      obtain ⟨h1, h2, h3⟩ := addOp_compat hv hu
      obtain ⟨h4, h5, h6⟩ := addOps_compat h h1
      exact ⟨h4, h5.trans h2, h6.trans h3⟩

theorem addTransforms_compat {S : Sem} : ∀ {l : List (Ie × Transform)} {u u' : Unified}, addTransforms S l u = .ok u' →
    (∀ a ∈ u.aggs, S.compatible a.ref.ie (.agg a.op) = true) →
    (∀ a ∈ u'.aggs, S.compatible a.ref.ie (.agg a.op) = true) ∧ u'.window = u.window ∧ u'.lateness = u.lateness
  | [], u, u', h, hu => by
    simp only [addTransforms, Except.ok.injEq] at h
    subst h
    exact ⟨hu, rfl, rfl⟩
  | (ie, .single op) :: l, u, u', h, hu => by
    simp only [addTransforms, bind, Except.bind] at h
    split at h
    · cases h
    · rename_i v hv
      obtain ⟨h1, h2, h3⟩ := addOp_compat hv hu
      obtain ⟨h4, h5, h6⟩ := addTransforms_compat h h1
      exact ⟨h4, h5.trans h2, h6.trans h3⟩
  | (ie, .multi ops) :: l, u, u', h, hu => by
    simp only [addTransforms, bind, Except.bind] at h
    split at h
    · cases h
    · rename_i v hv
      obtain ⟨h1, h2, h3⟩ := addOps_compat hv hu
      obtain ⟨h4, h5, h6⟩ := addTransforms_compat h h1
      exact ⟨h4, h5.trans h2, h6.trans h3⟩

theorem unify_spec {S : Sem} {c : Config} {u : Unified} (h : c.unify S = .ok u) :
    0 < u.window ∧ u.lateness ≤ u.window ∧ u.window = c.window ∧ u.lateness = c.lateness ∧ ∀ a ∈ u.aggs, S.compatible a.ref.ie (.agg a.op) = true := by
  unfold Config.unify at h
  split at h
  · cases h
  · split at h
    · cases h
    · obtain ⟨h1, h2, h3⟩ := addTransforms_compat h (by simp)
      simp only at h2 h3
      exact ⟨by omega, by omega, h2, h3, h1⟩

/-- what is selected of the records of an element -/
theorem valuesOf_known {ref : FieldRef Ie} {p : UInt32} {i : UInt16} {k : Kind} (h : ref.ie = .known p i k) (g : List Flat) :
    ∃ vs : List Value, valuesOf ref g = vs.map (.known p i) ∧ ∀ v ∈ vs, v.kind = k := by
  have hall : ∀ f ∈ valuesOf ref g, ∃ v : Value, f = .known p i v ∧ v.kind = k := by
    intro f hf
    obtain ⟨r, -, hr⟩ := List.mem_filterMap.mp hf
    have := List.mem_of_getElem? hr
    have := (List.mem_filter.mp this).2
    rw [decide_eq_true_eq, h] at this
    cases f with
    | known p' i' v =>
      have he : Flow.Ie.known p' i' v.kind = .known p i k := this
      simp only [Flow.Ie.known.injEq] at he
      exact ⟨v, by rw [he.1, he.2.1], he.2.2⟩
    | vendorUnknown _ _ _ => exact absurd (show Flow.Ie.vendorUnknown _ _ = _ from this) (by simp)
    | unknown _ _ _ => exact absurd (show Flow.Ie.unknown _ _ = _ from this) (by simp)
  generalize valuesOf ref g = l at hall
  induction l with
  | nil => exact ⟨[], rfl, by simp⟩
  | cons f l ih =>
    obtain ⟨vs, hvs, hk⟩ := ih fun x hx => hall x (List.mem_cons_of_mem _ hx)
    obtain ⟨v, rfl, hv⟩ := hall f (List.mem_cons_self ..)
    exact ⟨v :: vs, by rw [hvs]; rfl, by simpa using ⟨hv, hk⟩⟩

/-- the loops over a list of occurrences -/
def addAll (S : Sem) : List (Ie × Nat × Op') → Unified → Except ConfigError Unified
  | [], u => .ok u
  | (ie, n, op) :: l, u => do addAll S l (← addOp S ie n op u)

theorem addAll_append (S : Sem) : ∀ (l m : List (Ie × Nat × Op')) (u : Unified), addAll S (l ++ m) u = (do addAll S m (← addAll S l u))
  | [], m, u => rfl
  | (ie, n, op) :: l, m, u => by
    simp only [List.cons_append, addAll, bind, Except.bind]
    cases addOp S ie n op u with
    | error e => rfl
    | ok v => exact addAll_append S l m v

theorem addOps_all (S : Sem) (ie : Ie) : ∀ (l : List (Nat × Op')) (u : Unified), addOps S ie l u = addAll S (l.map fun x => (ie, x.1, x.2)) u
  | [], u => rfl
  | (n, op) :: l, u => by
    simp only [addOps, List.map_cons, addAll, bind, Except.bind]
    cases addOp S ie n op u with
    | error e => rfl
    | ok v => exact addOps_all S ie l v

theorem addTransforms_all (S : Sem) (w l : Nat) : ∀ (t : List (Ie × Transform)) (u : Unified), addTransforms S t u = addAll S (selected ⟨w, l, t⟩) u
  | [], u => rfl
  | (ie, .single op) :: t, u => by
    simp only [addTransforms, selected, List.flatMap_cons, List.cons_append, List.nil_append, addAll, bind, Except.bind]
    cases addOp S ie 0 op u with
    | error e => rfl
    | ok v => exact addTransforms_all S w l t v
  | (ie, .multi ops) :: t, u => by
    simp only [addTransforms, selected, List.flatMap_cons]
    rw [addAll_append, addOps_all]
    simp only [bind, Except.bind]
    cases addAll S (ops.map fun x => (ie, x.1, x.2)) u with
    | error e => rfl
    | ok v => exact addTransforms_all S w l t v

/-- the key fields among the occurrences -/
def keysAmong (l : List (Ie × Nat × Op')) : List (FieldRef Ie) :=
  l.filterMap fun (ie, n, op) => if op = .key then some ⟨ie, n⟩ else none
/-- the aggregated fields among them -/
def aggsAmong (l : List (Ie × Nat × Op')) : List AggRef :=
  l.filterMap fun (ie, n, op) => match op with | .key => none | .agg o => some ⟨⟨ie, n⟩, o⟩

theorem addAll_spec (S : Sem) : ∀ (l : List (Ie × Nat × Op')) (u : Unified),
    ((∀ x ∈ l, S.compatible x.1 x.2.2 = true) →
      addAll S l u = .ok ⟨u.window, u.lateness, u.keys ++ keysAmong l, u.aggs ++ aggsAmong l⟩) ∧
    ∀ pre ie n op post, l = pre ++ (ie, n, op) :: post → (∀ x ∈ pre, S.compatible x.1 x.2.2 = true) → S.compatible ie op = false →
      addAll S l u = .error (.invalidOperation ie op)
  | [], u => ⟨fun _ => by simp [addAll, keysAmong, aggsAmong], fun pre ie n op post h => by simp at h⟩
  | (ie, n, op) :: l, u => by
    constructor
    · intro h
      have h0 := h _ (List.mem_cons_self ..)
      simp only at h0
      have ih := fun v => (addAll_spec S l v).1 fun x hx => h x (List.mem_cons_of_mem _ hx)
      cases op with
      | key => simp [addAll, addOp, h0, bind, Except.bind, ih, keysAmong, aggsAmong]
      | agg o => simp [addAll, addOp, h0, bind, Except.bind, ih, keysAmong, aggsAmong]
    · intro pre ie' n' op' post he hpre hno
      cases pre with
      | nil =>
        simp only [List.nil_append, List.cons.injEq, Prod.mk.injEq] at he
        obtain ⟨⟨rfl, rfl, rfl⟩, rfl⟩ := he
        simp [addAll, addOp, hno, bind, Except.bind]
      | cons x pre =>
        simp only [List.cons_append, List.cons.injEq] at he
        obtain ⟨rfl, rfl⟩ := he
        have h0 := hpre _ (List.mem_cons_self ..)
        simp only at h0
        have ih := fun v => (addAll_spec S (pre ++ (ie', n', op') :: post) v).2 pre ie' n' op' post rfl (fun x hx => hpre x (List.mem_cons_of_mem _ hx)) hno
        cases op with
        | key => simp [addAll, addOp, h0, bind, Except.bind, ih]
        | agg o => simp [addAll, addOp, h0, bind, Except.bind, ih]

end Verif.Collector
