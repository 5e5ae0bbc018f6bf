import Verif.Collector.MapTextLemmas
/-!
# Lemmas about the lines of maps
-/
namespace Verif.Collector
open MapFile
open Flow (Field Value Ie)
open Announce (iana Way)

/-! ## Words -/

theorem splitWhitespace_space {c : Char} (hc : isSpace c = true) (t : Text) : splitWhitespace (c :: t) = splitWhitespace t := by
  simp [splitWhitespace, splitAt, hc]

theorem splitWhitespace_spaces {s : Text} (hs : ∀ c ∈ s, isSpace c = true) (t : Text) : splitWhitespace (s ++ t) = splitWhitespace t := by
  induction s with
  | nil => rfl
  | cons c s ih => rw [List.cons_append, splitWhitespace_space (hs c (by simp)), ih fun d hd => hs d (by simp [hd])]

theorem splitWhitespace_word {w : Text} (hne : w ≠ []) (hw : ∀ c ∈ w, isSpace c = false) {t : Text} (ht : ∀ c, t.head? = some c → isSpace c = true) :
    splitWhitespace (w ++ t) = w :: splitWhitespace t := by
  cases t with
  | nil => rw [List.append_nil, splitWhitespace, splitAt_single _ hw]; simp [hne, splitWhitespace, splitAt]
  | cons c t =>
    rw [splitWhitespace, splitAt_append _ hw (ht c rfl), splitWhitespace_space (ht c rfl)]
    simp [hne, splitWhitespace]

theorem words_split {t : Text} {ws : List Text} (h : Words t ws) : splitWhitespace t = ws := by
  induction h with
  | none hs =>
    next s =>
    have := splitWhitespace_spaces (fun c hc => (isSpace_iff c).mpr (hs c hc)) []
    rw [List.append_nil] at this
    rw [this]; rfl
  | word hs hne hw ht _ ih =>
    rw [splitWhitespace_spaces fun c hc => (isSpace_iff c).mpr (hs c hc), splitWhitespace_word hne (fun c hc => (isSpace_false c).mpr (hw c hc))
      fun c hc => (isSpace_iff c).mpr (ht c hc), ih]

theorem span_split (p : Char → Bool) (t : Text) : ∃ s r, t = s ++ r ∧ (∀ c ∈ s, p c = true) ∧ ∀ c, r.head? = some c → p c = false := by
  induction t with
  | nil => exact ⟨[], [], rfl, by simp, by simp⟩
  | cons a t ih =>
    cases ha : p a with
    | false => exact ⟨[], a :: t, rfl, by simp, by simpa using ha⟩
    | true =>
      obtain ⟨s, r, rfl, h1, h2⟩ := ih
      refine ⟨a :: s, r, rfl, fun c hc => ?_, h2⟩
      rcases List.mem_cons.mp hc with rfl | hc
      · exact ha
      · exact h1 c hc

theorem words_exist (t : Text) : ∃ ws, Words t ws := by
  induction h : t.length using Nat.strongRecOn generalizing t with
  | ind n ih =>
    obtain ⟨s, r, rfl, hs, hr⟩ := span_split isSpace t
    cases r with
    | nil => exact ⟨[], by rw [List.append_nil]; exact .none fun c hc => (isSpace_iff c).mp (hs c hc)⟩
    | cons a r =>
      obtain ⟨w, u, hwu, hw, hu⟩ := span_split (fun c => !isSpace c) (a :: r)
      have ha : isSpace a = false := hr a rfl
      have hne : w ≠ [] := by
        rintro rfl
        rw [List.nil_append] at hwu
        have := hu a (by rw [← hwu]; rfl)
        simp [ha] at this
      obtain ⟨ws, hws⟩ := ih u.length (by
        rw [← h, hwu]
        have : 0 < w.length := List.length_pos_iff.mpr hne
        simp; omega) u rfl
      refine ⟨w :: ws, ?_⟩
      rw [hwu]
      refine .word (fun c hc => (isSpace_iff c).mp (hs c hc)) hne (fun c hc => (isSpace_false c).mp (by simpa using hw c hc)) (fun c hc => (isSpace_iff c).mp ?_) hws
      simpa using hu c hc

theorem words_iff (t : Text) (ws : List Text) : Words t ws ↔ splitWhitespace t = ws := by
  refine ⟨words_split, ?_⟩
  rintro rfl
  obtain ⟨ws, h⟩ := words_exist t
  rw [words_split h]
  exact h

/-! ## Settings -/

theorem splitOnce_some {c : Char} {w k v : Text} (h : splitOnce c w = some (k, v)) : w = k ++ c :: v ∧ c ∉ k := by
  induction w generalizing k v with
  | nil => simp [splitOnce] at h
  | cons d w ih =>
    simp only [splitOnce] at h
    split at h
    · next e =>
      subst e
      simp only [Option.some.injEq, Prod.mk.injEq] at h
      obtain ⟨rfl, rfl⟩ := h
      simp
    · next e =>
      obtain ⟨⟨k', v'⟩, h1, h2⟩ := Option.map_eq_some_iff.mp h
      simp only [Prod.mk.injEq] at h2
      obtain ⟨rfl, rfl⟩ := h2
      obtain ⟨rfl, h3⟩ := ih h1
      simp [Ne.symm e, h3]

theorem splitOnce_append {c : Char} {k : Text} (hk : c ∉ k) (v : Text) : splitOnce c (k ++ c :: v) = some (k, v) := by
  induction k with
  | nil => simp [splitOnce]
  | cons d k ih =>
    simp only [List.mem_cons, not_or] at hk
    simp [splitOnce, Ne.symm hk.1, ih hk.2]

theorem splitOnce_none {c : Char} {w : Text} : splitOnce c w = none ↔ c ∉ w := by
  induction w with
  | nil => simp [splitOnce]
  | cons d w ih =>
    simp only [splitOnce, List.mem_cons, not_or]
    split
    · next e => simp [e]
    · next e => simp [ih, Ne.symm e]

/-- the value in a word, if it sets the key -/
def valueOf (key : Text) (w : Text) : Option Text :=
  match splitOnce '=' w with
  | some (k, v) => if k = key then some v else none
  | none => none

theorem valueOf_iff {key : String} (hk : '=' ∉ key.toList) (w v : Text) : valueOf key.toList w = some v ↔ w = setting key v := by
  unfold valueOf setting
  constructor
  · intro h
    split at h
    · next k v' e =>
      obtain ⟨rfl, -⟩ := splitOnce_some e
      split at h
      · next e => rw [e]; simpa using h
      · simp at h
    · simp at h
  · rintro rfl
    rw [splitOnce_append hk]
    simp

/-- the last value for a key -/
def lastValue (key : Text) (ws : List Text) : Option Text := (ws.filterMap (valueOf key)).getLast?

theorem lastValue_cons (key : Text) (w : Text) (ws : List Text) : lastValue key (w :: ws) = (lastValue key ws).or (valueOf key w) := by
  unfold lastValue
  rw [List.filterMap_cons]
  cases valueOf key w with
  | none => simp
  | some v => rw [List.getLast?_cons]; cases (List.filterMap (valueOf key) ws).getLast? <;> simp

theorem lastValue_none {key : String} (hk : '=' ∉ key.toList) (ws : List Text) : lastValue key.toList ws = none ↔ Absent ws key := by
  unfold lastValue Absent
  rw [List.getLast?_eq_none_iff, List.filterMap_eq_nil_iff]
  constructor
  · intro h v hv
    have := h _ hv
    rw [(valueOf_iff hk _ v).mpr rfl] at this
    simp at this
  · intro h w hw
    cases e : valueOf key.toList w with
    | none => rfl
    | some v => rw [(valueOf_iff hk _ _).mp e] at hw; exact absurd hw (h v)

theorem lastValue_some {key : String} (hk : '=' ∉ key.toList) (ws : List Text) (v : Text) : lastValue key.toList ws = some v ↔ Given ws key v := by
  induction ws with
  | nil => simp [lastValue, Given]
  | cons w ws ih =>
    rw [lastValue_cons]
    cases e : lastValue key.toList ws with
    | some u =>
      rw [e] at ih
      simp only [Option.some_or]
      rw [ih]
      constructor
      · rintro ⟨b, a, rfl, h⟩
        exact ⟨w :: b, a, rfl, h⟩
      · rintro ⟨b, a, hb, h⟩
        cases b with
        | nil =>
          simp only [List.nil_append, List.cons.injEq] at hb
          have := (lastValue_none hk ws).mpr (by rw [hb.2]; exact h)
          simp [e] at this
        | cons x b =>
          simp only [List.cons_append, List.cons.injEq] at hb
          exact ⟨b, a, hb.2, h⟩
    | none =>
      have ha := (lastValue_none hk ws).mp e
      rw [Option.none_or, valueOf_iff hk]
      constructor
      · rintro rfl
        exact ⟨[], ws, rfl, ha⟩
      · rintro ⟨b, a, hb, h⟩
        cases b with
        | nil => simp only [List.nil_append, List.cons.injEq] at hb; exact hb.1
        | cons x b =>
          simp only [List.cons_append, List.cons.injEq] at hb
          exact absurd (by rw [hb.2]; simp) (ha v)

variable {A : Type}

theorem parseU32_iff (t : Text) (n : UInt32) : parseU32 t = .ok n ↔ Decimal t n.toNat := by
  unfold parseU32
  constructor
  · intro h
    split at h
    · next m hm =>
      obtain ⟨h1, h2⟩ := (parseNat_iff _ (by omega) _ _).mp hm
      simp only [Except.ok.injEq] at h
      subst h
      rwa [UInt32.toNat_ofNat_of_lt' h2]
    · simp at h
  · intro h
    rw [(parseNat_iff 4294967296 (by omega) _ _).mpr ⟨h, UInt32.toNat_lt n⟩]
    simp

/-- what the variables are after the words -/
def MapVars.After (addr : Text → Option A) (ws : List Text) (v v' : MapVars A) : Prop :=
  v'.id = (lastValue ['i', 'd'] ws).or v.id ∧ v'.ip = ((lastValue ['i', 'p'] ws).bind addr).or v.ip ∧
  v'.into = ((lastValue ['i', 'n'] ws).bind fun t => (parseU32 t).toOption).or v.into ∧
  v'.out = ((lastValue ['o', 'u', 't'] ws).bind fun t => (parseU32 t).toOption).or v.out ∧
  v'.vpn = ((lastValue "mpls_vpn_id".toList ws).bind fun t => (parseU32 t).toOption).or v.vpn

/-- a word that is accepted -/
def fine (addr : Text → Option A) (w : Text) : Bool :=
  match splitOnce '=' w with
  | none => true
  | some (k, v) => k = ['i', 'd'] || (k = ['i', 'p'] && (addr v).isSome) ||
      ((k = ['i', 'n'] || k = ['o', 'u', 't'] || k = "mpls_vpn_id".toList) && (parseU32 v).toOption.isSome)

theorem valueOf_some {key w v : Text} (h : valueOf key w = some v) : splitOnce '=' w = some (key, v) := by
  unfold valueOf at h
  split at h
  · next e => split at h
              · next e' => rw [e, e']; simpa using h
              · simp at h
  · simp at h

theorem fine_ip {addr : Text → Option A} {w v : Text} (hf : fine addr w = true) (h : valueOf ['i', 'p'] w = some v) : (addr v).isSome = true := by
  unfold fine at hf
  rw [valueOf_some h] at hf
  simpa using hf

theorem fine_number {addr : Text → Option A} {w v key : Text} (hk : key = ['i', 'n'] ∨ key = ['o', 'u', 't'] ∨ key = "mpls_vpn_id".toList) (hf : fine addr w = true)
    (h : valueOf key w = some v) : (parseU32 v).toOption.isSome = true := by
  unfold fine at hf
  rw [valueOf_some h] at hf
  rcases hk with rfl | rfl | rfl <;> simpa using hf

theorem parseU32_cases (t : Text) : (∃ n, parseU32 t = .ok n) ∨ parseU32 t = .error .numeric := by
  unfold parseU32
  split
  · exact .inl ⟨_, rfl⟩
  · exact .inr rfl

theorem flip5 {α β γ δ ε : Type} {a a' : α} {b b' : β} {c c' : γ} {d d' : δ} {e e' : ε} :
    (a = a' ∧ b = b' ∧ c = c' ∧ d = d' ∧ e = e') ↔ (a' = a ∧ b' = b ∧ c' = c ∧ d' = d ∧ e' = e) :=
  ⟨fun ⟨a, b, c, d, e⟩ => ⟨a.symm, b.symm, c.symm, d.symm, e.symm⟩, fun ⟨a, b, c, d, e⟩ => ⟨a.symm, b.symm, c.symm, d.symm, e.symm⟩⟩

theorem mapWord_iff (addr : Text → Option A) (v v' : MapVars A) (w : Text) : mapWord addr v w = .ok v' ↔ fine addr w = true ∧ v.After addr [w] v' := by
  have hl : ∀ key, lastValue key [w] = valueOf key w := fun key => by rw [lastValue_cons]; simp [lastValue]
  obtain ⟨id', ip', into', out', vpn'⟩ := v'
  simp only [MapVars.After, hl, valueOf, fine, mapWord]
  cases splitOnce '=' w with
  | none =>
    obtain ⟨id, ip, into, out, vpn⟩ := v
    simp; exact flip5
  | some kv =>
    obtain ⟨k, val⟩ := kv
    obtain ⟨id, ip, into, out, vpn⟩ := v
    simp only
    by_cases h1 : k = ['i', 'd']
    · subst h1; simp; exact flip5
    by_cases h2 : k = ['i', 'p']
    · subst h2
      cases ha : addr val <;> simp [ha]; exact flip5
    by_cases h3 : k = ['i', 'n']
    · subst h3
      rcases parseU32_cases val with ⟨n, e⟩ | e <;> simp [e, bind, Except.bind, pure, Except.pure, Except.toOption]; exact flip5
    by_cases h4 : k = ['o', 'u', 't']
    · subst h4
      rcases parseU32_cases val with ⟨n, e⟩ | e <;> simp [e, bind, Except.bind, pure, Except.pure, Except.toOption]; exact flip5
    by_cases h5 : k = "mpls_vpn_id".toList
    · subst h5
      rcases parseU32_cases val with ⟨n, e⟩ | e <;> simp [e, bind, Except.bind, pure, Except.pure, Except.toOption]; exact flip5
    simp only [h1, h2, h3, h4, h5, if_false, decide_false, Bool.or_self, Bool.false_and, Bool.false_eq_true, false_and, reduceCtorEq]

theorem or_bind {α β : Type} (f : α → Option β) (x y : Option α) (z : Option β) (h : ∀ a, x = some a → (f a).isSome = true) :
    ((x.or y).bind f).or z = (x.bind f).or ((y.bind f).or z) := by
  cases x with
  | none => simp
  | some a =>
    obtain ⟨b, hb⟩ := Option.isSome_iff_exists.mp (h a rfl)
    simp [hb]

theorem lastValue_mem {key : Text} {ws : List Text} {t : Text} (h : lastValue key ws = some t) : ∃ w ∈ ws, valueOf key w = some t := by
  have := List.mem_of_getLast? h
  exact List.mem_filterMap.mp this

theorem mapWords_iff (addr : Text → Option A) (ws : List Text) : ∀ (v v' : MapVars A),
    mapWords addr ws v = .ok v' ↔ (∀ w ∈ ws, fine addr w = true) ∧ v.After addr ws v' := by
  induction ws with
  | nil =>
    intro v v'
    obtain ⟨id, ip, into, out, vpn⟩ := v
    obtain ⟨id', ip', into', out', vpn'⟩ := v'
    simp [mapWords, MapVars.After, lastValue]; exact flip5
  | cons w ws ih =>
    intro v v'
    have hstep : ∀ u, v.After addr [w] u → (∀ w' ∈ ws, fine addr w' = true) → (u.After addr ws v' ↔ v.After addr (w :: ws) v') := by
      intro u hu hf
      have hl : ∀ key, lastValue key [w] = valueOf key w := fun key => by rw [lastValue_cons]; simp [lastValue]
      simp only [MapVars.After, hl] at hu
      obtain ⟨u1, u2, u3, u4, u5⟩ := hu
      simp only [MapVars.After, lastValue_cons, u1, u2, u3, u4, u5]
      rw [or_bind addr _ _ _ fun a ha => by
        obtain ⟨w', h1, h2⟩ := lastValue_mem ha
        exact fine_ip (hf w' h1) h2]
      rw [or_bind _ (lastValue ['i', 'n'] ws) _ _ fun a ha => by
        obtain ⟨w', h1, h2⟩ := lastValue_mem ha
        exact fine_number (.inl rfl) (hf w' h1) h2]
      rw [or_bind _ (lastValue ['o', 'u', 't'] ws) _ _ fun a ha => by
        obtain ⟨w', h1, h2⟩ := lastValue_mem ha
        exact fine_number (.inr (.inl rfl)) (hf w' h1) h2]
      rw [or_bind _ (lastValue "mpls_vpn_id".toList ws) _ _ fun a ha => by
        obtain ⟨w', h1, h2⟩ := lastValue_mem ha
        exact fine_number (.inr (.inr rfl)) (hf w' h1) h2]
      rw [Option.or_assoc]
    simp only [mapWords]
    constructor
    · intro h
      cases e : mapWord addr v w with
      | error x => rw [e] at h; simp [bind, Except.bind] at h
      | ok u =>
        rw [e] at h
        obtain ⟨h1, h2⟩ := (mapWord_iff addr v u w).mp e
        obtain ⟨h3, h4⟩ := (ih u v').mp h
        exact ⟨fun w' hw => (List.mem_cons.mp hw).elim (fun e => e ▸ h1) (h3 w'), (hstep u h2 h3).mp h4⟩
    · rintro ⟨h1, h2⟩
      have hf := h1 w (by simp)
      have h3 : ∀ w' ∈ ws, fine addr w' = true := fun w' hw => h1 w' (by simp [hw])
      let u : MapVars A := ⟨(lastValue ['i', 'd'] [w]).or v.id, ((lastValue ['i', 'p'] [w]).bind addr).or v.ip,
        ((lastValue ['i', 'n'] [w]).bind fun t => (parseU32 t).toOption).or v.into, ((lastValue ['o', 'u', 't'] [w]).bind fun t => (parseU32 t).toOption).or v.out,
        ((lastValue "mpls_vpn_id".toList [w]).bind fun t => (parseU32 t).toOption).or v.vpn⟩
      have hu : v.After addr [w] u := ⟨rfl, rfl, rfl, rfl, rfl⟩
      rw [(mapWord_iff addr v u w).mpr ⟨hf, hu⟩]
      exact (ih u v').mpr ⟨h3, (hstep u hu h3).mpr h2⟩

theorem fine_iff (addr : Text → Option A) (w : Text) : fine addr w = true ↔ Sound addr w := by
  unfold fine Sound
  have hset : ∀ (key : String) (v : Text), '=' ∉ key.toList → splitOnce '=' (setting key v) = some (key.toList, v) := fun key v h => splitOnce_append h v
  constructor
  · intro h
    split at h
    · next e => exact .inl (splitOnce_none.mp e)
    · next k v e =>
      obtain ⟨rfl, -⟩ := splitOnce_some e
      right
      simp only [Bool.or_eq_true, Bool.and_eq_true, decide_eq_true_eq] at h
      have num : (parseU32 v).toOption.isSome = true → ∃ n, Decimal v n ∧ n < 2 ^ 32 := by
        intro hn
        rcases parseU32_cases v with ⟨n, e⟩ | e
        · exact ⟨n.toNat, (parseU32_iff v n).mp e, UInt32.toNat_lt n⟩
        · rw [e] at hn; simp [Except.toOption] at hn
      rcases h with (rfl | ⟨rfl, h⟩) | ⟨h, hn⟩
      · exact .inl ⟨v, rfl⟩
      · obtain ⟨a, ha⟩ := Option.isSome_iff_exists.mp h
        exact .inr (.inl ⟨v, a, rfl, ha⟩)
      · obtain ⟨n, h1, h2⟩ := num hn
        rcases h with (rfl | rfl) | rfl
        · exact .inr (.inr ⟨"in", by simp, v, n, rfl, h1, h2⟩)
        · exact .inr (.inr ⟨"out", by simp, v, n, rfl, h1, h2⟩)
        · exact .inr (.inr ⟨"mpls_vpn_id", by simp, v, n, rfl, h1, h2⟩)
  · rintro (h | ⟨v, rfl⟩ | ⟨v, a, rfl, ha⟩ | ⟨key, hk, v, n, rfl, hn, hlt⟩)
    · rw [splitOnce_none.mpr h]
    · rw [hset "id" v (by decide)]; simp
    · rw [hset "ip" v (by decide)]; simp [ha]
    · have hp : (parseU32 v).toOption.isSome = true := by
        have : parseU32 v = .ok (UInt32.ofNat n) := (parseU32_iff _ _).mpr (by rwa [UInt32.toNat_ofNat_of_lt' hlt])
        rw [this]; rfl
      simp only [List.mem_cons, List.not_mem_nil, or_false] at hk
      rcases hk with rfl | rfl | rfl
      · rw [hset "in" v (by decide)]; simp [hp]
      · rw [hset "out" v (by decide)]; simp [hp]
      · rw [hset "mpls_vpn_id" v (by decide)]; simp [hp]

/-! ## Lines -/

theorem trimStart_spec (t : Text) : ∃ s, t = s ++ trimStart t ∧ (∀ c ∈ s, isSpace c = true) ∧ ∀ c, (trimStart t).head? = some c → isSpace c = false := by
  refine ⟨t.takeWhile isSpace, (List.takeWhile_append_dropWhile ..).symm, ?_, ?_⟩
  · intro c hc
    exact List.all_eq_true.mp (List.all_takeWhile) c hc
  · intro c hc
    exact List.head?_dropWhile_not isSpace t |> fun h => by
      unfold trimStart at hc
      rw [hc] at h
      simpa using h

/-- white space, what is left, and white space -/
theorem trim_spec (t : Text) : ∃ s s', t = s ++ trim t ++ s' ∧ (∀ c ∈ s ++ s', isSpace c = true) ∧ (∀ c, (trim t).head? = some c → isSpace c = false) ∧
    ∀ c, (trim t).getLast? = some c → isSpace c = false := by
  obtain ⟨s, h1, h2, h3⟩ := trimStart_spec t
  obtain ⟨r, h4, h5, h6⟩ := trimStart_spec (trimStart t).reverse
  have e : trimStart t = trim t ++ r.reverse := by
    rw [← List.reverse_reverse (trimStart t), h4, List.reverse_append]; rfl
  refine ⟨s, r.reverse, by rw [List.append_assoc, ← e]; exact h1, ?_, ?_, ?_⟩
  · intro c hc
    rcases List.mem_append.mp hc with hc | hc
    · exact h2 c hc
    · exact h5 c (List.mem_reverse.mp hc)
  · intro c hc
    refine h3 c ?_
    rw [e, List.head?_append, hc]; rfl
  · intro c hc
    refine h6 c ?_
    rw [← List.getLast?_reverse]
    exact hc

theorem trim_unique {s l s' : Text} (hs : ∀ c ∈ s ++ s', isSpace c = true) (h1 : ∀ c, l.head? = some c → isSpace c = false)
    (h2 : ∀ c, l.getLast? = some c → isSpace c = false) : trim (s ++ l ++ s') = l := by
  have drop : ∀ (x y : Text), (∀ c ∈ x, isSpace c = true) → (∀ c, y.head? = some c → isSpace c = false) → trimStart (x ++ y) = y := by
    intro x y hx hy
    unfold trimStart
    rw [List.dropWhile_append_of_pos hx]
    cases y with
    | nil => rfl
    | cons a y => simp [hy a rfl]
  unfold trim
  cases l with
  | nil =>
    have : trimStart (s ++ [] ++ s') = [] := by
      have := drop (s ++ s') [] hs (by simp)
      simpa using this
    rw [this]; rfl
  | cons a l =>
    rw [List.append_assoc, drop s _ (fun c hc => hs c (List.mem_append_left _ hc)) (by
      intro c hc
      rw [List.cons_append, List.head?_cons] at hc
      exact h1 c (by rw [List.head?_cons]; exact hc))]
    rw [List.reverse_append, drop s'.reverse _ (fun c hc => hs c (List.mem_append_right _ (List.mem_reverse.mp hc))) (by
      intro c hc
      rw [List.head?_reverse] at hc
      exact h2 c hc), List.reverse_reverse]

theorem trim_words (t : Text) : splitWhitespace (trim t) = splitWhitespace t := by
  obtain ⟨s, s', h1, h2, -, -⟩ := trim_spec t
  have hw : ∀ (x : Text) ws, Words x ws → ∀ s', (∀ c ∈ s', Space c) → Words (x ++ s') ws := by
    intro x ws h s' hs'
    induction h with
    | none hs => exact .none fun c hc => (List.mem_append.mp hc).elim (hs c) (hs' c)
    | word hs hne hw ht _ ih =>
      rw [List.append_assoc, List.append_assoc]
      refine .word hs hne hw ?_ ih
      intro c hc
      rw [List.head?_append] at hc
      rcases Option.or_eq_some_iff.mp hc with hc | ⟨_, hc⟩
      · exact ht c hc
      · exact hs' c (List.mem_of_head? hc)
  rw [congrArg splitWhitespace h1, List.append_assoc, splitWhitespace_spaces fun c hc => h2 c (List.mem_append_left _ hc)]
  obtain ⟨ws, hws⟩ := words_exist (trim t)
  rw [words_split hws, words_split (hw _ _ hws s' fun c hc => (isSpace_iff c).mp (h2 c (List.mem_append_right _ hc)))]

end Verif.Collector
