import Verif.NetconfXml.Capability
import Verif.Collector.MapTextLemmas
/-!
# Capabilities that are written and read again
-/
namespace Verif.Xml
open Verif.Collector (Text splitAt splitOnce trim trimStart isSpace)

/-- dates are written with digits and signs, and read back -/
structure DatesOk {D : Type} (dates : Dates D) : Prop where
  back : ∀ d, dates.parse (dates.show' d) = some d
  chars : ∀ d, ∀ c ∈ dates.show' d, c.isDigit = true ∨ c = '-' ∨ c = '+'

/-- no white space -/
def Solid (t : Text) : Prop := ∀ c ∈ t, isSpace c = false

theorem trimStart_solid {t : Text} (h : Solid t) : trimStart t = t := by
  cases t with
  | nil => rfl
  | cons c t => simp [trimStart, h c List.mem_cons_self]

theorem trim_solid {t : Text} (h : Solid t) : trim t = t := by
  unfold trim
  rw [trimStart_solid h, trimStart_solid (fun c hc => h c (List.mem_reverse.1 hc)), List.reverse_reverse]

theorem splitOnce_at {c : Char} {x : Text} (h : c ∉ x) (y : Text) : splitOnce c (x ++ c :: y) = some (x, y) := by
  induction x with
  | nil => simp [splitOnce]
  | cons d x ih =>
    have h1 : d ≠ c := fun e => h (e ▸ List.mem_cons_self)
    have h2 := ih fun hm => h (List.mem_cons_of_mem _ hm)
    simp [splitOnce, h1, h2]

theorem splitOnce_some {c : Char} {t x y : Text} (h : splitOnce c t = some (x, y)) : t = x ++ c :: y ∧ c ∉ x := by
  induction t generalizing x with
  | nil => simp [splitOnce] at h
  | cons d t ih =>
    rw [splitOnce] at h
    split at h
    · next e => simp at h; obtain ⟨rfl, rfl⟩ := h; simp [e]
    · next e =>
      cases hs : splitOnce c t with
      | none => simp [hs] at h
      | some z =>
        rw [hs] at h; simp at h
        obtain ⟨rfl, rfl⟩ := h
        obtain ⟨h1, h2⟩ := ih (x := z.1) (by rw [hs])
        refine ⟨by rw [h1]; simp, ?_⟩
        intro hm
        rcases List.mem_cons.1 hm with e' | hm
        · exact e e'.symm
        · exact h2 hm

theorem splitAt_char {s : Char} {x : Text} (h : s ∉ x) (y : Text) : splitAt (· == s) (x ++ s :: y) = x :: splitAt (· == s) y :=
  Verif.Collector.splitAt_append _ (fun c hc => by simp; intro e; exact h (e ▸ hc)) (by simp) y

theorem splitAt_last {s : Char} {x : Text} (h : s ∉ x) : splitAt (· == s) x = [x] :=
  Verif.Collector.splitAt_single _ fun c hc => by simp; intro e; exact h (e ▸ hc)

/-- joined pieces are split again -/
theorem split_joined {s : Char} {ts : List Text} (hne : ts ≠ []) (h : ∀ t ∈ ts, s ∉ t) : splitAt (· == s) (joined [s] ts) = ts := by
  induction ts with
  | nil => exact absurd rfl hne
  | cons t ts ih =>
    cases ts with
    | nil => simp [joined, List.intercalate]; exact splitAt_last (h t List.mem_cons_self)
    | cons u us =>
      have : joined [s] (t :: u :: us) = t ++ s :: joined [s] (u :: us) := by simp [joined, List.intercalate]
      rw [this, splitAt_char (h t List.mem_cons_self), ih (by simp) fun x hx => h x (List.mem_cons_of_mem _ hx)]

theorem pieces_no {s : Char} {t x : Text} (h : x ∈ splitAt (· == s) t) : s ∉ x := by
  intro hm
  have := Verif.Collector.splitAt_pieces (· == s) t x h s hm
  simp at this

theorem mem_intercalate {s : Char} {ts : List Text} {c : Char} (h : c ∈ joined [s] ts) : c = s ∨ ∃ t ∈ ts, c ∈ t := by
  induction ts with
  | nil => simp [joined, List.intercalate] at h
  | cons t ts ih =>
    cases ts with
    | nil => simp [joined, List.intercalate] at h; exact .inr ⟨t, by simp, h⟩
    | cons u us =>
      have e : joined [s] (t :: u :: us) = t ++ s :: joined [s] (u :: us) := by simp [joined, List.intercalate]
      rw [e] at h
      rcases List.mem_append.1 h with h | h
      · exact .inr ⟨t, by simp, h⟩
      · rcases List.mem_cons.1 h with h | h
        · exact .inl h
        · rcases ih h with h | ⟨x, hx, hc⟩
          · exact .inl h
          · exact .inr ⟨x, List.mem_cons_of_mem _ hx, hc⟩

/-- every character of a piece is one of the whole -/
theorem piece_mem {s : Char} {t x : Text} (h : x ∈ splitAt (· == s) t) {c : Char} (hc : c ∈ x) : c ∈ t := by
  have := Verif.Collector.splitAt_join s t
  rw [← this]
  generalize splitAt (· == s) t = ts at h
  induction ts with
  | nil => simp at h
  | cons u us ih =>
    cases us with
    | nil => simp at h; subst h; simpa [List.intercalate] using hc
    | cons v vs =>
      have e : [s].intercalate (u :: v :: vs) = u ++ s :: [s].intercalate (v :: vs) := by simp [List.intercalate]
      rw [e]
      rcases List.mem_cons.1 h with rfl | h
      · exact List.mem_append_left _ hc
      · exact List.mem_append_right _ (List.mem_cons_of_mem _ (ih h))

theorem exact_names {D : Type} {t : Text} {c : Cap D} (h : exactCap t = some c) : '?' ∉ t ∧ ∀ dates : Dates D, c.show' dates = t := by
  unfold exactCap at h
  split at h
  · next e => simp at h; subst h e; exact ⟨by decide +kernel, fun _ => rfl⟩
  split at h
  · next e => simp at h; subst h e; exact ⟨by decide +kernel, fun _ => rfl⟩
  cases hf : Std.all.find? fun s => s.name.toList == t with
  | none => simp [hf] at h
  | some s =>
    simp [hf] at h; subst h
    have hs := List.find?_some hf
    simp at hs
    refine ⟨?_, fun _ => hs⟩
    rw [← hs]
    cases s <;> decide +kernel

/-- a prefix without a question mark lies before it -/
theorem prefix_before {p u : Text} (h : '?' ∉ p) (x : Text) : p.isPrefixOf (u ++ '?' :: x) = p.isPrefixOf u := by
  induction p generalizing u with
  | nil => simp
  | cons c p ih =>
    have hc : c ≠ '?' := fun e => h (e ▸ List.mem_cons_self)
    have hp : '?' ∉ p := fun hm => h (List.mem_cons_of_mem _ hm)
    cases u with
    | nil => simp [List.isPrefixOf, hc]
    | cons d u => simp [List.isPrefixOf, ih hp]

theorem stripPre_at (p x : Text) : stripPre p (p ++ x) = some x := by
  have : p.isPrefixOf (p ++ x) = true := List.isPrefixOf_iff_prefix.2 (List.prefix_append _ _)
  simp [stripPre, this]

theorem stripPre_some {p t x : Text} (h : stripPre p t = some x) : t = p ++ x := by
  unfold stripPre at h
  split at h
  · next e =>
    simp at h; subst h
    obtain ⟨r, rfl⟩ := List.isPrefixOf_iff_prefix.1 e
    simp
  · simp at h

theorem trimStart_mem {t : Text} {c : Char} (hc : c ∈ t) (hs : isSpace c = false) : c ∈ trimStart t := by
  induction t with
  | nil => simp at hc
  | cons d t ih =>
    unfold trimStart
    rw [List.dropWhile_cons]
    split
    · next e =>
      rcases List.mem_cons.1 hc with rfl | hc
      · rw [hs] at e; simp at e
      · exact ih hc
    · exact hc

theorem trim_mem {t : Text} {c : Char} (hc : c ∈ t) (hs : isSpace c = false) : c ∈ trim t := by
  unfold trim
  exact List.mem_reverse.2 (trimStart_mem (List.mem_reverse.2 (trimStart_mem hc hs)) hs)

theorem not_exact {D : Type} {t : Text} (h : '?' ∈ t) : (exactCap (trim t) : Option (Cap D)) = none := by
  cases hx : (exactCap (trim t) : Option (Cap D)) with
  | none => rfl
  | some c => exact absurd (trim_mem h (by decide)) (exact_names hx).1

theorem scheme_read {t : Text} {s : Scheme} (h : Scheme.read t = some s) : s.name.toList = t := by
  have := List.find?_some h
  simpa using this

theorem scheme_back (s : Scheme) : Scheme.read s.name.toList = some s := by cases s <;> decide +kernel

theorem readSchemes_some {ts : List Text} {ss : List Scheme} (h : readSchemes ts = some ss) : ss.map (fun s => s.name.toList) = ts := by
  induction ts generalizing ss with
  | nil => simp [readSchemes] at h; subst h; rfl
  | cons t ts ih =>
    simp only [readSchemes] at h
    cases hr : Scheme.read t with
    | none => simp [hr] at h
    | some s =>
      cases hrs : readSchemes ts with
      | none => simp [hr, hrs] at h
      | some ss' =>
        simp [hr, hrs] at h; subst h
        simp [scheme_read hr, ih hrs]

theorem readSchemes_back (ss : List Scheme) : readSchemes (ss.map fun s => s.name.toList) = some ss := by
  induction ss with
  | nil => rfl
  | cons s ss ih => simp [readSchemes, scheme_back, ih]

/-- the parameters of a capability of YANG library are among those in the text -/
theorem libraryParams_some {D : Type} {dates : Dates D} {key : String} {ps : List Text} {r r' : Option D} {i i' : Option Text} (h : libraryParams dates key ps r i = some (r', i')) :
    i' = i ∨ ∃ p ∈ ps, ∃ k v, splitOnce '=' p = some (k, v) ∧ i' = some v := by
  induction ps generalizing r i with
  | nil => simp [libraryParams] at h; exact .inl h.2.symm
  | cons p ps ih =>
    simp only [libraryParams] at h
    cases hs : splitOnce '=' p with
    | none =>
      simp only [hs] at h
      rcases ih h with h | ⟨q, hq, x⟩
      · exact .inl h
      · exact .inr ⟨q, List.mem_cons_of_mem _ hq, x⟩
    | some kv =>
      obtain ⟨k, v⟩ := kv
      simp only [hs] at h
      split at h
      · cases hd : dates.parse v with
        | none => simp [hd] at h
        | some d =>
          simp [hd] at h
          rcases ih h with h | ⟨q, hq, x⟩
          · exact .inl h
          · exact .inr ⟨q, List.mem_cons_of_mem _ hq, x⟩
      split at h
      · rcases ih h with h | ⟨q, hq, x⟩
        · exact .inr ⟨p, List.mem_cons_self, k, v, hs, h⟩
        · exact .inr ⟨q, List.mem_cons_of_mem _ hq, x⟩
      · simp at h

theorem dates_no {D : Type} {dates : Dates D} (hd : DatesOk dates) (d : D) {c : Char} (h1 : c.isDigit = false) (h2 : c ≠ '-') (h3 : c ≠ '+') : c ∉ dates.show' d := by
  intro hm
  rcases hd.chars d c hm with h | h | h
  · rw [h1] at h; simp at h
  · exact h2 h
  · exact h3 h

/-- the parameters that a capability of YANG library is written with -/
theorem libraryParams_back {D : Type} {dates : Dates D} (hd : DatesOk dates) {key : String} (h1 : '&' ∉ key.toList) (h2 : '=' ∉ key.toList) (h3 : key.toList ≠ "revision".toList) (d : D) {i : Text} (hi : '&' ∉ i) :
    libraryParams dates key (splitAt (· == '&') ("revision=".toList ++ dates.show' d ++ '&' :: (key.toList ++ '=' :: i))) none none = some (some d, some i) := by
  have e : "revision=".toList ++ dates.show' d ++ '&' :: (key.toList ++ '=' :: i) = ("revision=".toList ++ dates.show' d) ++ '&' :: (key.toList ++ '=' :: i) := rfl
  have n1 : '&' ∉ "revision=".toList ++ dates.show' d := by
    rw [List.mem_append]; rintro (h | h)
    · exact absurd h (by decide +kernel)
    · exact dates_no hd d (by decide) (by decide) (by decide) h
  have n2 : '&' ∉ key.toList ++ '=' :: i := by
    rw [List.mem_append, List.mem_cons]; rintro (h | h | h)
    · exact h1 h
    · exact absurd h (by decide)
    · exact hi h
  rw [splitAt_char n1, splitAt_last n2]
  have s1 : splitOnce '=' ("revision=".toList ++ dates.show' d) = some ("revision".toList, dates.show' d) := by
    have : "revision=".toList ++ dates.show' d = "revision".toList ++ '=' :: dates.show' d := by
      rw [show "revision=".toList = "revision".toList ++ ['='] by decide +kernel]; simp
    rw [this]; exact splitOnce_at (by decide +kernel) _
  have s2 : splitOnce '=' (key.toList ++ '=' :: i) = some (key.toList, i) := splitOnce_at h2 _
  simp only [libraryParams, s1, s2, if_true, hd.back, Option.bind_some, if_neg h3]

/-- what a YANG capability is made of is part of its text -/
structure YangFrom {D : Type} (ps : List Text) (y : YangParams D) : Prop where
  name : ∀ n, y.name = some n → ∃ p ∈ ps, ∃ k v, splitOnce '=' p = some (k, v) ∧ n = v
  features : y.features = [] ∨ ∃ p ∈ ps, ∃ k v, splitOnce '=' p = some (k, v) ∧ y.features = splitAt (· == ',') v
  deviations : y.deviations = [] ∨ ∃ p ∈ ps, ∃ k v, splitOnce '=' p = some (k, v) ∧ y.deviations = splitAt (· == ',') v

theorem yangParams_from {D : Type} {dates : Dates D} {all ps : List Text} {y y' : YangParams D} (hsub : ∀ p ∈ ps, p ∈ all) (hy : YangFrom all y) (h : yangParams dates ps y = some (some y')) : YangFrom all y' := by
  induction ps generalizing y with
  | nil => simp [yangParams] at h; subst h; exact hy
  | cons p ps ih =>
    have hp := hsub p List.mem_cons_self
    have hsub' : ∀ q ∈ ps, q ∈ all := fun q hq => hsub q (List.mem_cons_of_mem _ hq)
    simp only [yangParams] at h
    cases hs : splitOnce '=' p with
    | none => simp only [hs] at h; exact ih hsub' hy h
    | some kv =>
      obtain ⟨k, v⟩ := kv
      simp only [hs] at h
      split at h
      · exact ih (y := { y with name := some v }) hsub' ⟨fun n hn => by simp at hn; exact ⟨p, hp, k, v, hs, hn.symm⟩, hy.features, hy.deviations⟩ h
      split at h
      · cases hd : dates.parse v with
        | none => simp [hd] at h
        | some d => simp [hd] at h; exact ih (y := { y with revision := some d }) hsub' ⟨hy.name, hy.features, hy.deviations⟩ h
      split at h
      · exact ih (y := { y with features := splitAt (· == ',') v }) hsub' ⟨hy.name, .inr ⟨p, hp, k, v, hs, rfl⟩, hy.deviations⟩ h
      split at h
      · exact ih (y := { y with deviations := splitAt (· == ',') v }) hsub' ⟨hy.name, hy.features, .inr ⟨p, hp, k, v, hs, rfl⟩⟩ h
      · simp at h

/-- the parts of a text behind a question mark and their values have no ampersand -/
theorem value_no {t p k v : Text} (hp : p ∈ splitAt (· == '&') t) (hs : splitOnce '=' p = some (k, v)) : '&' ∉ v ∧ ∀ c ∈ v, c ∈ t := by
  have h1 := pieces_no hp
  obtain ⟨rfl, _⟩ := splitOnce_some hs
  exact ⟨fun h => h1 (by simp [h]), fun c hc => piece_mem hp (by simp [hc])⟩

/-- a YANG capability that is read back -/
structure YangOk (urn name : Text) (features deviations : List Text) : Prop where
  scheme : "urn".toList.isPrefixOf urn = true ∨ "http://".toList.isPrefixOf urn = true ∨ "https://".toList.isPrefixOf urn = true
  other : nameUrl.isPrefixOf urn = false ∧ nameLibrary10.isPrefixOf urn = false ∧ nameLibrary11.isPrefixOf urn = false
  urnMark : '?' ∉ urn
  urnSolid : Solid urn
  nameAmp : '&' ∉ name
  nameSolid : Solid name
  features : ∀ f ∈ features, '&' ∉ f ∧ ',' ∉ f ∧ Solid f
  deviations : ∀ f ∈ deviations, '&' ∉ f ∧ ',' ∉ f ∧ Solid f

/-- the parameters a YANG capability is written with -/
def yangTexts {D : Type} (dates : Dates D) (n : Text) (r : Option D) (fs ds : List Text) : List Text :=
  ["module=".toList ++ n] ++ (match r with | some d => ["revision=".toList ++ dates.show' d] | none => []) ++
    (if fs.isEmpty then [] else ["features=".toList ++ joined [','] fs]) ++ (if ds.isEmpty then [] else ["deviations=".toList ++ joined [','] ds])

theorem joined_no {c : Char} (hc : c ≠ ',') {fs : List Text} (h : ∀ f ∈ fs, c ∉ f) : c ∉ joined [','] fs := by
  intro hm
  rcases mem_intercalate hm with e | ⟨f, hf, hcf⟩
  · exact hc e
  · exact h f hf hcf

theorem key_split (k : String) (h : '=' ∉ k.toList) (v : Text) : splitOnce '=' ((k ++ "=").toList ++ v) = some (k.toList, v) := by
  have : (k ++ "=").toList ++ v = k.toList ++ '=' :: v := by simp [String.toList_append]
  rw [this]; exact splitOnce_at h _

theorem step_module {D : Type} (dates : Dates D) (v : Text) (ps : List Text) (y : YangParams D) :
    yangParams dates (("module=".toList ++ v) :: ps) y = yangParams dates ps { y with name := some v } := by
  have k := key_split "module" (by decide +kernel) v
  rw [show "module" ++ "=" = "module=" by decide +kernel] at k
  rw [yangParams, k]; simp only [if_true]

theorem step_revision {D : Type} {dates : Dates D} (hd : DatesOk dates) (d : D) (ps : List Text) (y : YangParams D) :
    yangParams dates (("revision=".toList ++ dates.show' d) :: ps) y = yangParams dates ps { y with revision := some d } := by
  have k := key_split "revision" (by decide +kernel) (dates.show' d)
  rw [show "revision" ++ "=" = "revision=" by decide +kernel] at k
  have d1 : "revision".toList ≠ "module".toList := by decide +kernel
  rw [yangParams, k]; simp only [if_neg d1, if_true, hd.back, Option.bind_some]

theorem step_features {D : Type} (dates : Dates D) (v : Text) (ps : List Text) (y : YangParams D) :
    yangParams dates (("features=".toList ++ v) :: ps) y = yangParams dates ps { y with features := splitAt (· == ',') v } := by
  have k := key_split "features" (by decide +kernel) v
  rw [show "features" ++ "=" = "features=" by decide +kernel] at k
  have d2 : "features".toList ≠ "module".toList := by decide +kernel
  have d3 : "features".toList ≠ "revision".toList := by decide +kernel
  rw [yangParams, k]; simp only [if_neg d2, if_neg d3, if_true]

theorem step_deviations {D : Type} (dates : Dates D) (v : Text) (ps : List Text) (y : YangParams D) :
    yangParams dates (("deviations=".toList ++ v) :: ps) y = yangParams dates ps { y with deviations := splitAt (· == ',') v } := by
  have k := key_split "deviations" (by decide +kernel) v
  rw [show "deviations" ++ "=" = "deviations=" by decide +kernel] at k
  have d4 : "deviations".toList ≠ "module".toList := by decide +kernel
  have d5 : "deviations".toList ≠ "revision".toList := by decide +kernel
  have d6 : "deviations".toList ≠ "features".toList := by decide +kernel
  rw [yangParams, k]; simp only [if_neg d4, if_neg d5, if_neg d6, if_true]

theorem yangParams_back {D : Type} {dates : Dates D} (hd : DatesOk dates) (n : Text) (r : Option D) {fs ds : List Text} (hf : ∀ f ∈ fs, ',' ∉ f) (hds : ∀ f ∈ ds, ',' ∉ f) :
    yangParams dates (yangTexts dates n r fs ds) {} = some (some ⟨some n, r, fs, ds⟩) := by
  have s1 := step_module dates
  have s2 := step_revision hd
  have s3 := step_features dates
  have s4 := step_deviations dates
  unfold yangTexts
  generalize "module=".toList = w1 at *
  generalize "revision=".toList = w2 at *
  generalize "features=".toList = w3 at *
  generalize "deviations=".toList = w4 at *
  have hD : ∀ (a : Option Text) (b : Option D) (c : List Text), yangParams dates (if ds.isEmpty then [] else [w4 ++ joined [','] ds]) ⟨a, b, c, []⟩ = some (some ⟨a, b, c, ds⟩) := by
    intro a b c
    cases ds with
    | nil => rfl
    | cons x xs =>
      simp only [List.isEmpty_cons, Bool.false_eq_true, if_false]
      rw [s4, split_joined (ts := x :: xs) (by simp) hds]; rfl
  have hF : ∀ (a : Option Text) (b : Option D), yangParams dates ((if fs.isEmpty then [] else [w3 ++ joined [','] fs]) ++ (if ds.isEmpty then [] else [w4 ++ joined [','] ds])) ⟨a, b, [], []⟩ =
      some (some ⟨a, b, fs, ds⟩) := by
    intro a b
    cases fs with
    | nil => exact hD _ _ _
    | cons x xs =>
      simp only [List.isEmpty_cons, Bool.false_eq_true, if_false, List.cons_append, List.nil_append]
      rw [s3, split_joined (ts := x :: xs) (by simp) hf]
      exact hD _ _ _
  simp only [List.cons_append, List.nil_append, List.append_assoc]
  rw [s1]
  cases r with
  | none => exact hF _ _
  | some d =>
    simp only [List.cons_append, List.nil_append]
    rw [s2]
    exact hF _ _

theorem yangTexts_no {D : Type} {dates : Dates D} (hd : DatesOk dates) {c : Char} (h1 : c.isDigit = false) (h2 : c ≠ '-') (h3 : c ≠ '+') (h4 : c ≠ ',')
    (h5 : c ∉ "module=".toList ∧ c ∉ "revision=".toList ∧ c ∉ "features=".toList ∧ c ∉ "deviations=".toList) {n : Text} (r : Option D) {fs ds : List Text} (hn : c ∉ n) (hf : ∀ f ∈ fs, c ∉ f) (hds : ∀ f ∈ ds, c ∉ f) :
    ∀ t ∈ yangTexts dates n r fs ds, c ∉ t := by
  intro t ht
  simp only [yangTexts, List.mem_append, List.mem_cons, List.mem_nil_iff, or_false] at ht
  rcases ht with ((rfl | ht) | ht) | ht
  · rw [List.mem_append]; rintro (h | h)
    · exact h5.1 h
    · exact hn h
  · cases r with
    | none => simp at ht
    | some d =>
      simp only [List.mem_cons, List.mem_nil_iff, or_false] at ht
      subst ht; rw [List.mem_append]; rintro (h | h)
      · exact h5.2.1 h
      · exact dates_no hd d h1 h2 h3 h
  · split at ht
    · simp at ht
    · simp only [List.mem_cons, List.mem_nil_iff, or_false] at ht
      subst ht; rw [List.mem_append]; rintro (h | h)
      · exact h5.2.2.1 h
      · exact joined_no h4 hf h
  · split at ht
    · simp at ht
    · simp only [List.mem_cons, List.mem_nil_iff, or_false] at ht
      subst ht; rw [List.mem_append]; rintro (h | h)
      · exact h5.2.2.2 h
      · exact joined_no h4 hds h

theorem space_facts {c : Char} (h : isSpace c = true) : c.isDigit = false ∧ c ≠ '-' ∧ c ≠ '+' ∧ c ≠ ',' ∧ c ≠ '&' ∧ c ≠ '?' ∧
    c ∉ "module=".toList ∧ c ∉ "revision=".toList ∧ c ∉ "features=".toList ∧ c ∉ "deviations=".toList := by
  have key : ∀ d : Char, isSpace d = false → c ≠ d := fun d hd e => by rw [e, hd] at h; simp at h
  have all : ∀ t : Text, (t.all fun d => !isSpace d) = true → c ∉ t := by
    intro t ht hm
    have := List.all_eq_true.1 ht c hm
    simp [h] at this
  refine ⟨?_, key _ (by decide), key _ (by decide), key _ (by decide), key _ (by decide), key _ (by decide), all _ (by decide +kernel), all _ (by decide +kernel), all _ (by decide +kernel), all _ (by decide +kernel)⟩
  cases hd : c.isDigit with
  | false => rfl
  | true =>
    have := (Verif.Collector.isDigit_iff c).1 hd
    have h1 : (48 : Nat) ≤ c.toNat := this.1
    have h2 : c.toNat ≤ 57 := this.2
    simp only [isSpace, Bool.or_eq_true, Bool.and_eq_true, decide_eq_true_eq, beq_iff_eq] at h
    omega

/-- a YANG capability is read back -/
theorem yang_back {D : Type} {dates : Dates D} (hd : DatesOk dates) {urn n : Text} (r : Option D) {fs ds : List Text} (h : YangOk urn n fs ds) :
    Cap.read dates (Cap.show' dates (.yang urn n r fs ds)) = some (.yang urn n r fs ds) := by
  have e : Cap.show' dates (.yang urn n r fs ds) = urn ++ '?' :: joined ['&'] (yangTexts dates n r fs ds) := by
    have e' : Cap.show' dates (.yang urn n r fs ds) = urn ++ ['?'] ++ joined ['&'] (yangTexts dates n r fs ds) := by cases r <;> rfl
    rw [e', List.append_assoc]; rfl
  rw [e]
  have hne : yangTexts dates n r fs ds ≠ [] := by unfold yangTexts; simp only [List.cons_append]; exact List.cons_ne_nil _ _
  have hsolid : Solid (urn ++ '?' :: joined ['&'] (yangTexts dates n r fs ds)) := by
    intro c hc
    cases hs : isSpace c with
    | false => rfl
    | true =>
      obtain ⟨f1, f2, f3, f4, f5, f6, f7⟩ := space_facts hs
      rcases List.mem_append.1 hc with hc | hc
      · rw [h.urnSolid c hc] at hs; simp at hs
      · rcases List.mem_cons.1 hc with hc | hc
        · exact absurd hc f6
        · rcases mem_intercalate hc with hc | ⟨t, ht, hct⟩
          · exact absurd hc f5
          · have solid : ∀ {x : Text}, Solid x → c ∉ x := fun hx hm => by rw [hx c hm] at hs; simp at hs
            exact absurd hct (yangTexts_no hd f1 f2 f3 f4 f7 r (solid h.nameSolid) (fun f hf => solid (h.features f hf).2.2) (fun f hf => solid (h.deviations f hf).2.2) t ht)
  have hq : '?' ∈ urn ++ '?' :: joined ['&'] (yangTexts dates n r fs ds) := by simp
  unfold Cap.read
  rw [not_exact hq]
  simp only [prefix_before (p := nameUrl) (by decide +kernel), prefix_before (p := nameLibrary10) (by decide +kernel), prefix_before (p := nameLibrary11) (by decide +kernel), h.other.1, h.other.2.1, h.other.2.2,
    Bool.false_eq_true, if_false]
  unfold readModule
  simp only [trim_solid hsolid, prefix_before (p := "urn".toList) (by decide +kernel), prefix_before (p := "http://".toList) (by decide +kernel), prefix_before (p := "https://".toList) (by decide +kernel)]
  have hsch : ("urn".toList.isPrefixOf urn || "http://".toList.isPrefixOf urn || "https://".toList.isPrefixOf urn) = true := by
    rcases h.scheme with x | x | x <;> rw [x] <;> simp only [Bool.true_or, Bool.or_true]
  have hamp := yangTexts_no hd (c := '&') (by decide) (by decide) (by decide) (by decide) (by decide +kernel) r h.nameAmp (fun f hf => (h.features f hf).1) (fun f hf => (h.deviations f hf).1)
  rw [hsch, splitOnce_at h.urnMark]
  simp only [if_true, split_joined hne hamp, yangParams_back hd n r (fun f hf => (h.features f hf).2.1) (fun f hf => (h.deviations f hf).2.1), Option.map_some]

/-- a capability of YANG library is read back -/
theorem library_back {D : Type} {dates : Dates D} (hd : DatesOk dates) (d : D) {i : Text} (hi : '&' ∉ i) :
    Cap.read dates (Cap.show' dates (.library10 d i)) = some (.library10 d i) ∧ Cap.read dates (Cap.show' dates (.library11 d i)) = some (.library11 d i) := by
  have e10 : Cap.show' dates (.library10 d i) = nameLibrary10 ++ '?' :: ("revision=".toList ++ dates.show' d ++ '&' :: ("module-set-id".toList ++ '=' :: i)) := by
    simp only [Cap.show', show "?revision=".toList = '?' :: "revision=".toList by decide +kernel, show "&module-set-id=".toList = '&' :: ("module-set-id".toList ++ ['=']) by decide +kernel]
    simp
  have e11 : Cap.show' dates (.library11 d i) = nameLibrary11 ++ '?' :: ("revision=".toList ++ dates.show' d ++ '&' :: ("content-id".toList ++ '=' :: i)) := by
    simp only [Cap.show', show "?revision=".toList = '?' :: "revision=".toList by decide +kernel, show "&content-id=".toList = '&' :: ("content-id".toList ++ ['=']) by decide +kernel]
    simp
  constructor
  · rw [e10]
    have hq : '?' ∈ nameLibrary10 ++ '?' :: ("revision=".toList ++ dates.show' d ++ '&' :: ("module-set-id".toList ++ '=' :: i)) := by simp
    unfold Cap.read
    rw [not_exact hq]
    simp only [prefix_before (p := nameUrl) (by decide +kernel), prefix_before (p := nameLibrary10) (by decide +kernel)]
    rw [show nameUrl.isPrefixOf nameLibrary10 = false by decide +kernel, show nameLibrary10.isPrefixOf nameLibrary10 = true by decide +kernel]
    simp only [Bool.false_eq_true, if_false, if_true, readLibrary, stripPre_at, Option.bind_some]
    have : stripPre ['?'] ('?' :: ("revision=".toList ++ dates.show' d ++ '&' :: ("module-set-id".toList ++ '=' :: i))) = some ("revision=".toList ++ dates.show' d ++ '&' :: ("module-set-id".toList ++ '=' :: i)) :=
      stripPre_at ['?'] _
    rw [this]
    simp only [Option.bind_some, libraryParams_back hd (key := "module-set-id") (by decide +kernel) (by decide +kernel) (by decide +kernel) d hi, Option.map_some]
  · rw [e11]
    have hq : '?' ∈ nameLibrary11 ++ '?' :: ("revision=".toList ++ dates.show' d ++ '&' :: ("content-id".toList ++ '=' :: i)) := by simp
    unfold Cap.read
    rw [not_exact hq]
    simp only [prefix_before (p := nameUrl) (by decide +kernel), prefix_before (p := nameLibrary10) (by decide +kernel), prefix_before (p := nameLibrary11) (by decide +kernel)]
    rw [show nameUrl.isPrefixOf nameLibrary11 = false by decide +kernel, show nameLibrary10.isPrefixOf nameLibrary11 = false by decide +kernel, show nameLibrary11.isPrefixOf nameLibrary11 = true by decide +kernel]
    simp only [Bool.false_eq_true, if_false, if_true, readLibrary, stripPre_at, Option.bind_some]
    have : stripPre ['?'] ('?' :: ("revision=".toList ++ dates.show' d ++ '&' :: ("content-id".toList ++ '=' :: i))) = some ("revision=".toList ++ dates.show' d ++ '&' :: ("content-id".toList ++ '=' :: i)) :=
      stripPre_at ['?'] _
    rw [this]
    simp only [Option.bind_some, libraryParams_back hd (key := "content-id") (by decide +kernel) (by decide +kernel) (by decide +kernel) d hi, Option.map_some]

set_option maxHeartbeats 4000000 in
theorem std_back {D : Type} (dates : Dates D) (s : Std) : Cap.read dates (Cap.show' dates (.std s)) = some (.std s) := by
  have : (exactCap (trim s.name.toList) : Option (Cap D)) = some (.std s) := by
    unfold exactCap
    have h1 : trim s.name.toList ≠ nameBase10 := by cases s <;> decide +kernel
    have h2 : trim s.name.toList ≠ nameBase11 := by cases s <;> decide +kernel
    have h3 : (Std.all.find? fun x => x.name.toList == trim s.name.toList) = some s := by cases s <;> decide +kernel
    rw [if_neg h1, if_neg h2, h3]; rfl
  unfold Cap.read
  simp only [Cap.show', this]

theorem base_back {D : Type} (dates : Dates D) : Cap.read dates (Cap.show' dates .base10) = some .base10 ∧ Cap.read dates (Cap.show' dates .base11) = some .base11 := by
  have h1 : (exactCap (trim nameBase10) : Option (Cap D)) = some .base10 := by
    unfold exactCap; rw [if_pos (by decide +kernel)]
  have h2 : (exactCap (trim nameBase11) : Option (Cap D)) = some .base11 := by
    unfold exactCap; rw [if_neg (by decide +kernel), if_pos (by decide +kernel)]
  unfold Cap.read
  simp only [Cap.show', h1, h2, and_self]

theorem scheme_solid (s : Scheme) : Solid s.name.toList ∧ ',' ∉ s.name.toList := by
  cases s <;> exact ⟨by unfold Solid; decide +kernel, by decide +kernel⟩

theorem url_back {D : Type} (dates : Dates D) {ss : List Scheme} (hne : ss ≠ []) : Cap.read dates (Cap.show' dates (.url ss)) = some (.url ss) := by
  have e : Cap.show' dates (.url ss) = nameUrl ++ ("?scheme=".toList ++ joined [','] (ss.map fun s => s.name.toList)) := by simp [Cap.show']
  rw [e]
  have hq : '?' ∈ nameUrl ++ ("?scheme=".toList ++ joined [','] (ss.map fun s => s.name.toList)) := by
    refine List.mem_append_right _ (List.mem_append_left _ (by decide +kernel))
  have hsolid : Solid (nameUrl ++ ("?scheme=".toList ++ joined [','] (ss.map fun s => s.name.toList))) := by
    intro c hc
    rcases List.mem_append.1 hc with hc | hc
    · exact (show Solid nameUrl by unfold Solid; decide +kernel) c hc
    rcases List.mem_append.1 hc with hc | hc
    · exact (show Solid "?scheme=".toList by unfold Solid; decide +kernel) c hc
    rcases mem_intercalate hc with rfl | ⟨t, ht, hct⟩
    · decide
    · obtain ⟨s, _, rfl⟩ := List.mem_map.1 ht
      exact (scheme_solid s).1 c hct
  unfold Cap.read
  rw [not_exact hq]
  have hp : nameUrl.isPrefixOf (nameUrl ++ ("?scheme=".toList ++ joined [','] (ss.map fun s => s.name.toList))) = true := List.isPrefixOf_iff_prefix.2 (List.prefix_append _ _)
  simp only [hp, if_true, trim_solid hsolid, stripPre_at, Option.bind_some]
  rw [split_joined (by simpa using hne) (by intro t ht; obtain ⟨s, _, rfl⟩ := List.mem_map.1 ht; exact (scheme_solid s).2), readSchemes_back]
  rfl

/-- a text without white space that is read as a capability, written and read again gives the same -/
theorem read_back {D : Type} {dates : Dates D} (hd : DatesOk dates) {s : Text} (hs : Solid s) {c : Cap D} (h : Cap.read dates s = some c) : Cap.read dates (c.show' dates) = some c := by
  have hread := h
  unfold Cap.read at h
  rw [trim_solid hs] at h
  cases hx : (exactCap s : Option (Cap D)) with
  | some c' =>
    simp only [hx] at h
    simp at h; subst h
    rw [(exact_names hx).2 dates]; exact hread
  | none =>
    simp only [hx] at h
    split at h
    · next hu =>
      -- the schemes
      cases h1 : stripPre nameUrl s with
      | none => simp [h1] at h
      | some t =>
        cases h2 : stripPre "?scheme=".toList t with
        | none => rw [h1, Option.bind_some, h2] at h; simp at h
        | some u =>
          cases h3 : readSchemes (splitAt (· == ',') u) with
          | none => rw [h1, Option.bind_some, h2, Option.bind_some, h3] at h; simp at h
          | some ss =>
            rw [h1, Option.bind_some, h2, Option.bind_some, h3] at h; simp at h; subst h
            have hm := readSchemes_some h3
            refine url_back dates ?_
            rintro rfl
            exact Verif.Collector.splitAt_ne (· == ',') u hm.symm
    · next hu =>
    split at h
    · unfold readLibrary at h
      cases h1 : (stripPre nameLibrary10 s).bind (stripPre ['?']) with
      | none => simp [h1] at h
      | some ps =>
        cases h2 : libraryParams dates "module-set-id" (splitAt (· == '&') ps) none none with
        | none => simp [h1, h2] at h
        | some x =>
          obtain ⟨r, i⟩ := x
          simp only [h1, h2, Option.bind_some] at h
          cases r with
          | none => simp at h
          | some d =>
            cases i with
            | none => simp at h
            | some i =>
              simp at h; subst h
              refine (library_back hd d ?_).1
              rcases libraryParams_some h2 with h | ⟨p, hp, k, v, hk, hv⟩
              · simp at h
              · simp at hv; subst hv; exact (value_no hp hk).1
    · next hl10 =>
    split at h
    · unfold readLibrary at h
      cases h1 : (stripPre nameLibrary11 s).bind (stripPre ['?']) with
      | none => simp [h1] at h
      | some ps =>
        cases h2 : libraryParams dates "content-id" (splitAt (· == '&') ps) none none with
        | none => simp [h1, h2] at h
        | some x =>
          obtain ⟨r, i⟩ := x
          simp only [h1, h2, Option.bind_some] at h
          cases r with
          | none => simp at h
          | some d =>
            cases i with
            | none => simp at h
            | some i =>
              simp at h; subst h
              refine (library_back hd d ?_).2
              rcases libraryParams_some h2 with h | ⟨p, hp, k, v, hk, hv⟩
              · simp at h
              · simp at hv; subst hv; exact (value_no hp hk).1
    · next hl11 =>
      unfold readModule at h
      simp only [trim_solid hs] at h
      split at h
      · next hsch =>
        cases hq : splitOnce '?' s with
        | none => simp only [hq] at h; simp at h; subst h; exact hread
        | some x =>
          obtain ⟨urn, params⟩ := x
          simp only [hq] at h
          cases hy : yangParams dates (splitAt (· == '&') params) {} with
          | none => simp [hy] at h
          | some oy =>
            cases oy with
            | none => simp only [hy] at h; simp at h; subst h; exact hread
            | some y =>
              simp only [hy] at h
              have hf := yangParams_from (fun _ h => h) (⟨by simp, .inl rfl, .inl rfl⟩ : YangFrom (splitAt (· == '&') params) ({} : YangParams D)) hy
              obtain ⟨hs', hmark⟩ := splitOnce_some hq
              cases hn : y.name with
              | none => simp [hn] at h
              | some n =>
                simp [hn] at h; subst h
                have solidP : Solid params := fun c hc => hs c (by rw [hs']; simp [hc])
                have list : ∀ fs : List Text, (fs = [] ∨ ∃ p ∈ splitAt (· == '&') params, ∃ k v, splitOnce '=' p = some (k, v) ∧ fs = splitAt (· == ',') v) → ∀ f ∈ fs, '&' ∉ f ∧ ',' ∉ f ∧ Solid f := by
                  rintro fs (rfl | ⟨p, hp, k, v, hk, rfl⟩) f hm
                  · simp at hm
                  · obtain ⟨v1, v2⟩ := value_no hp hk
                    exact ⟨fun h => v1 (piece_mem hm h), pieces_no hm, fun c hc => solidP c (v2 c (piece_mem hm hc))⟩
                refine yang_back hd _ ⟨?_, ?_, hmark, fun c hc => hs c (by rw [hs']; simp [hc]), ?_, ?_, list _ hf.features, list _ hf.deviations⟩
                · rw [hs', prefix_before (by decide +kernel), prefix_before (by decide +kernel), prefix_before (by decide +kernel)] at hsch
                  simp only [Bool.or_eq_true] at hsch
                  rcases hsch with (h | h) | h
                  · exact .inl h
                  · exact .inr (.inl h)
                  · exact .inr (.inr h)
                · rw [hs', prefix_before (by decide +kernel)] at hu hl10 hl11
                  exact ⟨Bool.eq_false_iff.2 hu, Bool.eq_false_iff.2 hl10, Bool.eq_false_iff.2 hl11⟩
                · obtain ⟨p, hp, k, v, hk, rfl⟩ := hf.name n hn; exact (value_no hp hk).1
                · obtain ⟨p, hp, k, v, hk, rfl⟩ := hf.name n hn; exact fun c hc => solidP c ((value_no hp hk).2 c hc)
      · simp at h; subst h; exact hread

end Verif.Xml
