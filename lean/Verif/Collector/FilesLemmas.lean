import Verif.Collector.MapLineLemmas
/-!
# Lemmas about what lines bring
-/
namespace Verif.Collector
open MapFile
open Flow (Field Value Ie)
open Announce (iana Way)
variable {A : Type}

theorem words_head {c : Char} {cs : Text} (hc : isSpace c = false) : ∃ w ws, splitWhitespace (c :: cs) = w :: ws ∧ w.head? = some c := by
  obtain ⟨w, t, hwt, hw, ht⟩ := span_split (fun d => !isSpace d) (c :: cs)
  cases w with
  | nil =>
    rw [List.nil_append] at hwt
    have := ht c (by rw [← hwt]; rfl)
    simp [hc] at this
  | cons d w =>
    obtain ⟨rfl, -⟩ : c = d ∧ cs = w ++ t := by simpa using hwt
    refine ⟨c :: w, splitWhitespace t, ?_, rfl⟩
    rw [hwt]
    exact splitWhitespace_word (by simp) (fun x hx => by simpa using hw x hx) fun x hx => by simpa using ht x hx

theorem number_after {ws : List Text} {key : String} (hk : '=' ∉ key.toList) (hf : ∀ v, Given ws key v → ∃ n, parseU32 v = .ok n) :
    (((lastValue key.toList ws).bind fun t => (parseU32 t).toOption) = none ↔ Absent ws key) ∧
    ∀ n, ((lastValue key.toList ws).bind fun t => (parseU32 t).toOption) = some n ↔ ∃ v, Given ws key v ∧ Decimal v n.toNat := by
  cases e : lastValue key.toList ws with
  | none =>
    have ha := (lastValue_none hk ws).mp e
    simp only [Option.bind_none, true_iff, reduceCtorEq, false_iff]
    refine ⟨ha, ?_⟩
    rintro n ⟨v, hv, -⟩
    rw [(lastValue_some hk ws v).mpr hv] at e
    simp at e
  | some t =>
    have hg := (lastValue_some hk ws t).mp e
    obtain ⟨m, hm⟩ := hf t hg
    simp only [Option.bind_some, hm, Except.toOption, reduceCtorEq, false_iff, Option.some.injEq]
    constructor
    · intro ha
      rw [(lastValue_none hk ws).mpr ha] at e
      simp at e
    · intro n
      constructor
      · rintro rfl
        exact ⟨t, hg, (parseU32_iff t m).mp hm⟩
      · rintro ⟨v, hv, hd⟩
        have := (lastValue_some hk ws v).mpr hv
        rw [e] at this
        obtain rfl : t = v := by simpa using this
        have := (parseU32_iff t n).mpr hd
        rw [hm] at this
        simpa using this

theorem entry_iff (v : MapVars A) (e : MapEntry A) : v.entry = .ok e ↔ v.id = some e.id ∧ v.ip = some e.ip ∧
    (match e.scope with
      | none => v.into = none ∧ v.out = none ∧ v.vpn = none
      | some (.into n) => v.into = some n ∧ v.out = none ∧ v.vpn = none
      | some (.out n) => v.into = none ∧ v.out = some n ∧ v.vpn = none
      | some (.vpn n) => v.into = none ∧ v.out = none ∧ v.vpn = some n) := by
  obtain ⟨id, ip, into, out, vpn⟩ := v
  obtain ⟨id', ip', s⟩ := e
  unfold MapVars.entry
  cases id with
  | none => simp
  | some id =>
    cases ip with
    | none => simp
    | some ip =>
      rcases into with _ | i <;> rcases out with _ | o <;> rcases vpn with _ | n <;> rcases s with _ | (s | s | s) <;> simp

theorem given_fine {addr : Text → Option A} {ws : List Text} (hf : ∀ w ∈ ws, Sound addr w) {key : String} (hk : key ∈ ["in", "out", "mpls_vpn_id"]) {v : Text}
    (hg : Given ws key v) : ∃ n, parseU32 v = .ok n := by
  obtain ⟨b, a, rfl, -⟩ := hg
  have := (fine_iff addr _).mpr (hf (setting key v) (by simp))
  have hn : '=' ∉ key.toList := by
    simp only [List.mem_cons, List.not_mem_nil, or_false] at hk
    rcases hk with rfl | rfl | rfl <;> decide
  have := fine_number (key := key.toList) (by
    simp only [List.mem_cons, List.not_mem_nil, or_false] at hk
    rcases hk with rfl | rfl | rfl
    · exact .inl rfl
    · exact .inr (.inl rfl)
    · exact .inr (.inr rfl)) this ((valueOf_iff hn _ v).mpr rfl)
  rcases parseU32_cases v with h | h
  · exact h
  · rw [h] at this; simp [Except.toOption] at this

theorem parseLine_iff (addr : Text → Option A) (line : Text) (e : MapEntry A) :
    parseLine addr line = .ok (some e) ↔ Assigns addr line e.id e.ip e.scope := by
  obtain ⟨s, s', ht, hs, hh, hl⟩ := trim_spec line
  have key : ∀ ws, splitWhitespace line = ws → ((∃ v, mapWords addr ws {} = .ok v ∧ v.entry = .ok e) ↔
      ((∀ w' ∈ ws, Sound addr w') ∧ Given ws "id" e.id ∧ (∃ v, Given ws "ip" v ∧ addr v = some e.ip) ∧ Scoped ws e.scope)) := by
    intro ws _
    have core : (∀ w' ∈ ws, Sound addr w') → ∀ v : MapVars A, ({} : MapVars A).After addr ws v →
        (v.entry = .ok e ↔ Given ws "id" e.id ∧ (∃ v, Given ws "ip" v ∧ addr v = some e.ip) ∧ Scoped ws e.scope) := by
      intro hf v hv
      obtain ⟨v1, v2, v3, v4, v5⟩ := hv
      simp only [Option.or_none] at v1 v2 v3 v4 v5
      rw [entry_iff]
      have i1 : v.id = some e.id ↔ Given ws "id" e.id := by rw [v1]; exact lastValue_some (key := "id") (by decide) ws e.id
      have i2 : v.ip = some e.ip ↔ ∃ t, Given ws "ip" t ∧ addr t = some e.ip := by
        rw [v2, Option.bind_eq_some_iff]
        constructor
        · rintro ⟨t, h1, h2⟩; exact ⟨t, (lastValue_some (key := "ip") (by decide) ws t).mp h1, h2⟩
        · rintro ⟨t, h1, h2⟩; exact ⟨t, (lastValue_some (key := "ip") (by decide) ws t).mpr h1, h2⟩
      obtain ⟨n3, s3⟩ := number_after (ws := ws) (key := "in") (by decide) fun v hv => given_fine hf (by simp) hv
      obtain ⟨n4, s4⟩ := number_after (ws := ws) (key := "out") (by decide) fun v hv => given_fine hf (by simp) hv
      obtain ⟨n5, s5⟩ := number_after (ws := ws) (key := "mpls_vpn_id") (by decide) fun v hv => given_fine hf (by simp) hv
      have e3 : v.into = (lastValue "in".toList ws).bind fun t => (parseU32 t).toOption := v3
      have e4 : v.out = (lastValue "out".toList ws).bind fun t => (parseU32 t).toOption := v4
      rw [i1, i2, e3, e4, v5]
      refine and_congr Iff.rfl (and_congr Iff.rfl ?_)
      rcases e.scope with _ | (n | n | n)
      · exact and_congr n3 (and_congr n4 n5)
      · exact and_congr (s3 n) (and_congr n4 n5)
      · exact and_congr n3 (and_congr (s4 n) n5)
      · exact and_congr n3 (and_congr n4 (s5 n))
    constructor
    · rintro ⟨v, h1, h2⟩
      obtain ⟨h3, h4⟩ := (mapWords_iff addr ws {} v).mp h1
      have hf : ∀ w' ∈ ws, Sound addr w' := fun w hw => (fine_iff addr w).mp (h3 w hw)
      exact ⟨hf, (core hf v h4).mp h2⟩
    · rintro ⟨hf, h⟩
      let v : MapVars A := ⟨(lastValue ['i', 'd'] ws).or none, ((lastValue ['i', 'p'] ws).bind addr).or none,
        ((lastValue ['i', 'n'] ws).bind fun t => (parseU32 t).toOption).or none, ((lastValue ['o', 'u', 't'] ws).bind fun t => (parseU32 t).toOption).or none,
        ((lastValue "mpls_vpn_id".toList ws).bind fun t => (parseU32 t).toOption).or none⟩
      have hv : ({} : MapVars A).After addr ws v := ⟨rfl, rfl, rfl, rfl, rfl⟩
      exact ⟨v, (mapWords_iff addr ws {} v).mpr ⟨fun w hw => (fine_iff addr w).mpr (hf w hw), hv⟩, (core hf v hv).mpr h⟩
  unfold parseLine
  rw [← trim_words] at key
  cases htr : trim line with
  | nil =>
    simp only [Except.ok.injEq, reduceCtorEq, false_iff]
    rintro ⟨w, ws, hw, -⟩
    have := words_split hw
    rw [← trim_words, htr] at this
    simp [splitWhitespace, splitAt] at this
  | cons c cs =>
    rw [htr] at key hh
    obtain ⟨w, ws, hw, hwc⟩ := words_head (cs := cs) (hh c rfl)
    have hws : Words line (w :: ws) := (words_iff _ _).mpr (by rw [← trim_words, htr, hw])
    have huniq : ∀ w' ws', Words line (w' :: ws') → w' = w ∧ ws' = ws := by
      intro w' ws' h
      have := words_split h
      rw [words_split hws] at this
      simp only [List.cons.injEq] at this
      exact ⟨this.1.symm, this.2.symm⟩
    simp only
    split
    · next hc =>
      simp only [Except.ok.injEq, reduceCtorEq, false_iff]
      rintro ⟨w', ws', h1, h2, h3, -⟩
      obtain ⟨rfl, -⟩ := huniq _ _ h1
      rcases hc with rfl | rfl
      · exact h2 hwc
      · exact h3 hwc
    · next hc =>
      have hk := key _ hw
      rw [hw]
      have : ((do let v ← mapWords addr (w :: ws) {}; let x ← v.entry; return some x) : Except MapError (Option (MapEntry A))) = .ok (some e) ↔
          ∃ v, mapWords addr (w :: ws) {} = .ok v ∧ v.entry = .ok e := by
        cases h : mapWords addr (w :: ws) {} with
        | error x => simp [bind, Except.bind]
        | ok v =>
          cases h' : v.entry with
          | error x => simp [bind, Except.bind, h']
          | ok x => simp [bind, Except.bind, h', pure, Except.pure]
      rw [this, hk]
      constructor
      · rintro ⟨h1, h2, h3, h4⟩
        refine ⟨w, ws, hws, ?_, ?_, h1, h2, h3, h4⟩
        · rw [hwc]; intro h; exact hc (.inl (by simpa using h))
        · rw [hwc]; intro h; exact hc (.inr (by simpa using h))
      · rintro ⟨w', ws', h1, -, -, h4, h5, h6, h7⟩
        obtain ⟨rfl, rfl⟩ := huniq _ _ h1
        exact ⟨h4, h5, h6, h7⟩

/-! ## Operations -/

theorem parseField_iff (ie : Ie) (t : Text) (f : Field) : parseField ie t = .ok f ↔ Becomes ie t none f := by
  unfold parseField
  constructor
  · intro h
    split at h
    · next e =>
      subst e
      split at h
      · next rd hrd =>
        simp only [Except.ok.injEq] at h
        subst h
        exact .rd ((parseRd_iff _ _).mp hrd)
      · simp at h
    · split at h
      · next e =>
        subst e
        split at h
        · next n hn =>
          obtain ⟨h1, h2⟩ := (parseNat_iff _ (by omega) _ _).mp hn
          simp only [Except.ok.injEq] at h
          subst h
          exact .sampler (by rwa [UInt32.toNat_ofNat_of_lt' h2])
        · simp at h
      · simp at h
  · intro h
    cases h with
    | rd hr => rw [iana, if_pos rfl, (parseRd_iff _ _).mpr hr]
    | sampler hn =>
      rw [iana, if_neg (by simp), if_pos rfl, (parseNat_iff 4294967296 (by omega) _ _).mpr ⟨hn, UInt32.toNat_lt _⟩]
      simp

theorem becomes_way {ie : Ie} {t : Text} {f : Field} (h : Becomes ie t none f) (way : Way) : Becomes ie t (some way) (directed (Way.pick 14 15 way) f) := by
  cases h with
  | rd h => exact .rdOn h
  | sampler h => exact .sampler h

theorem becomes_none {ie : Ie} {t : Text} {way : Way} {g : Field} (h : Becomes ie t (some way) g) :
    ∃ f, Becomes ie t none f ∧ g = directed (Way.pick 14 15 way) f := by
  cases h with
  | rdOn h => exact ⟨_, .rd h, rfl⟩
  | sampler h => exact ⟨_, .sampler h, rfl⟩

theorem operations_ok {e : MapEntry A} {ie : Ie} {f : Field} (w : UInt8) (c : Change) (h : Becomes ie e.id none f) :
    ∃ ops, e.operations ie c w = .ok ops ∧ ops = (flowsOf e.scope).map fun x =>
      createOperation e.ip ⟨0, x.1⟩ w (match x.2 with | none => f | some way => directed (Way.pick 14 15 way) f) c := by
  unfold MapEntry.operations
  rw [(parseField_iff _ _ _).mpr h]
  obtain ⟨id, ip, s⟩ := e
  rcases s with _ | (n | n | n) <;> exact ⟨_, rfl, rfl⟩

theorem create_valid (l : List (Option (List Field) × Option Way)) (ip : A) (w : UInt8) (g : Option Way → Field) (c : Change) :
    ((l.map fun x => createOperation ip ⟨0, x.1⟩ w (g x.2) c).filter Op.valid) = l.map fun x => createOperation ip ⟨0, x.1⟩ w (g x.2) c := by
  refine List.filter_eq_self.mpr fun o ho => ?_
  obtain ⟨x, -, rfl⟩ := List.mem_map.mp ho
  cases c <;> rfl

/-- the upserts of a line -/
def upserts (addr : Text → Option A) (json : Text → Option (A × Scope Field × UInt8 × List Field)) (format : FileFormat) (l : Text) : List (Op A Field Ie) :=
  (flowLine addr json format l .added).getD []

theorem mapsLine_eq (addr : Text → Option A) (ie : Ie) (w : UInt8) (l : Text) :
    (∃ ip s id f, Assigns addr l id ip s ∧ Becomes ie id none f ∧ ∀ c, mapsLine addr ie w l c =
      some ((flowsOf s).map fun x => createOperation ip ⟨0, x.1⟩ w (match x.2 with | none => f | some way => directed (Way.pick 14 15 way) f) c)) ∨
    ((∀ c, (mapsLine addr ie w l c).getD [] = []) ∧ ∀ ip s id way f, Assigns addr l id ip s → ¬ Becomes ie id way f) := by
  unfold mapsLine
  cases h : parseLine addr l with
  | error x =>
    right
    refine ⟨fun c => rfl, fun ip s id way f ha _ => ?_⟩
    have := (parseLine_iff addr l ⟨id, ip, s⟩).mpr ha
    rw [h] at this
    simp at this
  | ok o =>
    cases o with
    | none =>
      right
      refine ⟨fun c => rfl, fun ip s id way f ha _ => ?_⟩
      have := (parseLine_iff addr l ⟨id, ip, s⟩).mpr ha
      rw [h] at this
      simp at this
    | some e =>
      have hA := (parseLine_iff addr l e).mp h
      cases hf : parseField ie e.id with
      | ok f =>
        left
        have hb := (parseField_iff _ _ _).mp hf
        refine ⟨e.ip, e.scope, e.id, f, hA, hb, fun c => ?_⟩
        obtain ⟨ops, h1, h2⟩ := operations_ok w c hb
        simp only [h1]
        rw [h2, create_valid (flowsOf e.scope) e.ip w (fun y => match y with | none => f | some way => directed (Way.pick 14 15 way) f) c]
      | error x =>
        right
        constructor
        · intro c
          simp only [MapEntry.operations, hf]
          rfl
        · intro ip s id way f ha hb
          have := (parseLine_iff addr l ⟨id, ip, s⟩).mpr ha
          rw [h] at this
          obtain rfl : e = ⟨id, ip, s⟩ := by simpa using this
          have : ∃ g, Becomes ie id none g := by
            cases way with
            | none => exact ⟨f, hb⟩
            | some way => obtain ⟨g, hg, -⟩ := becomes_none hb; exact ⟨g, hg⟩
          obtain ⟨g, hg⟩ := this
          rw [(parseField_iff _ _ _).mpr hg] at hf
          simp at hf

theorem assigns_unique {addr : Text → Option A} {l id id' : Text} {ip ip' : A} {s s' : Option MapScope} (h : Assigns addr l id ip s) (h' : Assigns addr l id' ip' s') :
    id = id' ∧ ip = ip' ∧ s = s' := by
  have h1 := (parseLine_iff addr l ⟨id, ip, s⟩).mpr h
  have h2 := (parseLine_iff addr l ⟨id', ip', s'⟩).mpr h'
  rw [h1] at h2
  simpa using h2

theorem upserts_iff (addr : Text → Option A) (json : Text → Option (A × Scope Field × UInt8 × List Field)) (format : FileFormat) (l : Text) (o : Op A Field Ie) :
    o ∈ upserts addr json format l ↔ Brings addr json format l o := by
  unfold upserts flowLine
  cases format with
  | yangPushUpserts => simp; intro h; cases h
  | flowUpserts =>
    simp only [jsonLine]
    cases h : json l with
    | none =>
      simp only [Option.getD_none, List.not_mem_nil, false_iff]
      intro hb
      cases hb with
      | json h1 _ => rw [h] at h1; simp at h1
    | some x =>
      obtain ⟨ip, s, w, fs⟩ := x
      cases fs with
      | nil =>
        simp only [List.isEmpty_nil, if_true, Option.getD_some, List.not_mem_nil, false_iff]
        intro hb
        cases hb with
        | json h1 h2 => rw [h] at h1; simp at h1; exact h2 h1.2.2.2
      | cons f fs =>
        simp only [List.isEmpty_cons, Bool.false_eq_true, if_false, Option.getD_some, List.mem_singleton]
        constructor
        · rintro rfl; exact .json h (by simp)
        · intro hb
          cases hb with
          | json h1 h2 =>
            rw [h] at h1
            simp only [Option.some.injEq, Prod.mk.injEq] at h1
            obtain ⟨rfl, rfl, rfl, rfl⟩ := h1
            rfl
  | pmacctMaps ie w =>
    simp only
    rcases mapsLine_eq addr ie w l with ⟨ip, s, id, f, hA, hb, hm⟩ | ⟨h1, h2⟩
    · rw [hm .added]
      simp only [Option.getD_some, List.mem_map]
      constructor
      · rintro ⟨⟨fs, way⟩, hx, rfl⟩
        refine .map hA hx ?_
        cases way with
        | none => exact hb
        | some way => exact becomes_way hb way
      · intro h
        cases h with
        | map hA' hx hb' =>
          obtain ⟨rfl, rfl, rfl⟩ := assigns_unique hA hA'
          next fs way g =>
          refine ⟨(fs, way), hx, ?_⟩
          have uniq : ∀ g', Becomes ie id none g' → g' = f := fun g' hg => by
            have h1 := (parseField_iff _ _ _).mpr hg
            rw [(parseField_iff _ _ _).mpr hb] at h1
            simpa using h1.symm
          cases way with
          | none => rw [uniq _ hb']; rfl
          | some way =>
            obtain ⟨g', h1, rfl⟩ := becomes_none hb'
            rw [uniq _ h1]; rfl
    · rw [h1]
      simp only [List.not_mem_nil, false_iff]
      intro h
      cases h with
      | map hA _ hb => exact h2 _ _ _ _ _ hA hb

theorem removed_undo (addr : Text → Option A) (json : Text → Option (A × Scope Field × UInt8 × List Field)) (format : FileFormat) (l : Text) :
    (flowLine addr json format l .removed).getD [] = (upserts addr json format l).map Op.undo := by
  unfold upserts flowLine
  cases format with
  | yangPushUpserts => rfl
  | flowUpserts =>
    simp only [jsonLine]
    cases json l with
    | none => rfl
    | some x =>
      obtain ⟨ip, s, w, fs⟩ := x
      cases fs <;> rfl
  | pmacctMaps ie w =>
    simp only
    rcases mapsLine_eq addr ie w l with ⟨ip, s, id, f, hA, hb, hm⟩ | ⟨h1, h2⟩
    · rw [hm, hm]
      simp only [Option.getD_some, List.map_map]
      rfl
    · rw [h1, h1]; rfl

/-! ## Files -/

theorem splitAt_sep (p : Char → Bool) (u : Text) {c : Char} (hc : p c = true) (v : Text) : splitAt p (u ++ c :: v) = splitAt p u ++ splitAt p v := by
  induction u with
  | nil => simp [splitAt, hc]
  | cons d u ih =>
    rw [List.cons_append]
    simp only [splitAt]
    split
    · rw [ih]; rfl
    · rw [ih]
      cases h : splitAt p u with
      | nil => exact absurd h (splitAt_ne p u)
      | cons x xs => rfl

theorem piece_iff (t x : Text) : x ∈ splitAt (· == '\n') t ↔
    ∃ a b, t = a ++ x ++ b ∧ '\n' ∉ x ∧ (∀ c, a.getLast? = some c → c = '\n') ∧ ∀ c, b.head? = some c → c = '\n' := by
  constructor
  · intro h
    have hx : '\n' ∉ x := fun hm => by simpa using splitAt_pieces _ _ _ h _ hm
    induction hn : t.length using Nat.strongRecOn generalizing t with
    | ind n ih =>
      rcases piece_cases (· == '\n') t with ht | ⟨x0, c, y, rfl, hc, hx0⟩
      · rw [splitAt_single _ ht] at h
        obtain rfl := List.mem_singleton.mp h
        exact ⟨[], [], by simp, hx, by simp, by simp⟩
      · rw [splitAt_append _ hx0 hc] at h
        obtain rfl : c = '\n' := by simpa using hc
        rcases List.mem_cons.mp h with rfl | h
        · exact ⟨[], '\n' :: y, by simp, hx, by simp, by simp⟩
        · obtain ⟨a, b, rfl, -, h1, h2⟩ := ih y.length (by rw [← hn]; simp; omega) y h rfl
          refine ⟨x0 ++ '\n' :: a, b, by simp, hx, ?_, h2⟩
          intro c hc
          rw [List.getLast?_append] at hc
          cases a with
          | nil => simpa using hc.symm
          | cons d a =>
            rw [List.getLast?_cons_cons] at hc
            cases hl : (d :: a).getLast? with
            | none => simp at hl
            | some e => rw [hl] at hc; simp at hc; rw [← hc]; exact h1 e hl
  · rintro ⟨a, b, rfl, hx, ha, hb⟩
    have hx' : ∀ c ∈ x, (c == '\n') = false := fun c hc => by
      simp only [beq_eq_false_iff_ne, ne_eq]
      rintro rfl
      exact hx hc
    have hxb : x ∈ splitAt (· == '\n') (x ++ b) := by
      cases b with
      | nil => rw [List.append_nil, splitAt_single _ hx']; simp
      | cons c b => rw [splitAt_append _ hx' (by simp [hb c rfl])]; simp
    rcases List.eq_nil_or_concat a with rfl | ⟨a', c, rfl⟩
    · exact hxb
    · obtain rfl := ha c (by simp)
      have : a' ++ ['\n'] ++ x ++ b = a' ++ '\n' :: (x ++ b) := by simp
      simp only [List.concat_eq_append, this]
      rw [splitAt_sep _ _ (by rfl)]
      exact List.mem_append_right _ hxb

theorem trim_cr (x : Text) (h : x.getLast? = some '\r') : trim x.dropLast = trim x := by
  have hx : x = x.dropLast ++ ['\r'] := by
    rw [List.getLast?_eq_some_iff] at h
    obtain ⟨ys, rfl⟩ := h
    simp
  obtain ⟨s, s', h1, h2, h3, h4⟩ := trim_spec x.dropLast
  have e : x = s ++ trim x.dropLast ++ (s' ++ ['\r']) := by rw [← List.append_assoc, ← h1]; exact hx
  have := trim_unique (s := s) (l := trim x.dropLast) (s' := s' ++ ['\r']) (fun c hc => by
    rw [← List.append_assoc] at hc
    rcases List.mem_append.mp hc with hc | hc
    · exact h2 c hc
    · rw [List.mem_singleton.mp hc]; rfl) h3 h4
  rw [← e] at this
  exact this.symm

theorem trim_mem (t l : Text) (hl : l ≠ []) : (∃ x ∈ textLines t, trim x = l) ↔ ∃ x ∈ splitAt (· == '\n') t, trim x = l := by
  have strip : ∀ x : Text, trim (if x.getLast? = some '\r' then x.dropLast else x) = trim x := by
    intro x
    split
    · next h => exact trim_cr x h
    · rfl
  unfold textLines
  cases h : (splitAt (· == '\n') t).reverse with
  | nil => exact absurd (List.reverse_eq_nil_iff.mp h) (splitAt_ne _ _)
  | cons last rest =>
    have e : splitAt (· == '\n') t = rest.reverse ++ [last] := by
      have := congrArg List.reverse h
      rw [List.reverse_reverse] at this
      rw [this]; simp
    rw [e]
    simp only
    constructor
    · rintro ⟨x, hx, rfl⟩
      rcases List.mem_append.mp hx with hx | hx
      · obtain ⟨y, hy, rfl⟩ := List.mem_map.mp hx
        exact ⟨y, List.mem_append_left _ hy, (strip y).symm⟩
      · split at hx
        · simp at hx
        · exact ⟨x, List.mem_append_right _ hx, rfl⟩
    · rintro ⟨x, hx, rfl⟩
      rcases List.mem_append.mp hx with hx | hx
      · exact ⟨_, List.mem_append_left _ (List.mem_map.mpr ⟨x, hx, rfl⟩), strip x⟩
      · refine ⟨x, List.mem_append_right _ ?_, rfl⟩
        obtain rfl := List.mem_singleton.mp hx
        split
        · next he =>
          obtain rfl : x = [] := by simpa using he
          exact absurd rfl hl
        · simp

theorem isComment_iff (l : Text) : isComment l = true ↔ l.head? = some '#' ∨ l.head? = some '!' ∨ ['/', '/'] <+: l := by
  unfold isComment
  split
  · simp
  · simp
  · simp
  · next h1 h2 h3 =>
    simp only [Bool.false_eq_true, false_iff, not_or]
    refine ⟨?_, ?_, ?_⟩
    · intro h
      obtain ⟨ys, rfl⟩ := List.head?_eq_some_iff.mp h
      exact h1 ys rfl
    · intro h
      obtain ⟨ys, rfl⟩ := List.head?_eq_some_iff.mp h
      exact h3 ys rfl
    · rintro ⟨ys, rfl⟩
      exact h2 ys rfl

theorem fileLines_iff (t l : Text) (hl : l ≠ []) : l ∈ fileLines t ↔ LineOf t l := by
  unfold fileLines LineOf
  rw [List.mem_eraseDups, List.mem_filter, List.mem_map, trim_mem t l hl]
  constructor
  · rintro ⟨⟨x, hx, rfl⟩, hc⟩
    obtain ⟨a, b, h1, h2, h3, h4⟩ := (piece_iff t x).mp hx
    obtain ⟨s, s', g1, g2, g3, g4⟩ := trim_spec x
    have hc' : ¬ (isComment (trim x) = true) := by simpa using hc
    rw [isComment_iff, not_or, not_or] at hc'
    refine ⟨⟨a, s, s', b, by rw [← g1]; exact h1, by rw [← g1]; exact h2, h3, h4, fun c hc => (isSpace_iff c).mp (g2 c hc)⟩, hl, ?_, ?_, hc'.2.2⟩
    · intro c hc
      refine ⟨(isSpace_false c).mp (g3 c hc), ?_, ?_⟩
      · rintro rfl; exact hc'.1 hc
      · rintro rfl; exact hc'.2.1 hc
    · intro c hc
      exact (isSpace_false c).mp (g4 c hc)
  · rintro ⟨⟨a, s, s', b, h1, h2, h3, h4, h5⟩, -, h6, h7, h8⟩
    refine ⟨⟨s ++ l ++ s', (piece_iff t _).mpr ⟨a, b, h1, h2, h3, h4⟩, ?_⟩, ?_⟩
    · exact trim_unique (fun c hc => (isSpace_iff c).mpr (h5 c hc)) (fun c hc => (isSpace_false c).mpr (h6 c hc).1) fun c hc => (isSpace_false c).mpr (h7 c hc)
    · have : ¬ (isComment l = true) := by
        rw [isComment_iff]
        rintro (h | h | h)
        · exact (h6 _ h).2.1 rfl
        · exact (h6 _ h).2.2 rfl
        · exact h8 h
      simpa using this

/-- nothing comes from an empty line -/
theorem upserts_nil (addr : Text → Option A) {json : Text → Option (A × Scope Field × UInt8 × List Field)} (hj : json [] = none) (format : FileFormat) :
    upserts addr json format [] = [] := by
  unfold upserts flowLine
  cases format with
  | yangPushUpserts => rfl
  | flowUpserts => simp [jsonLine, hj]
  | pmacctMaps ie w => rfl

theorem brought_iff (addr : Text → Option A) {json : Text → Option (A × Scope Field × UInt8 × List Field)} (hj : json [] = none) (format : FileFormat) (t l : Text)
    (o : Op A Field Ie) : (l ∈ fileLines t ∧ o ∈ upserts addr json format l) ↔ LineOf t l ∧ Brings addr json format l o := by
  by_cases hl : l = []
  · subst hl
    rw [upserts_nil addr hj]
    simp [LineOf]
  · rw [fileLines_iff t l hl, upserts_iff]

end Verif.Collector
