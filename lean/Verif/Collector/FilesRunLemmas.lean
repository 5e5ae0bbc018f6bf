import Verif.Collector.FilesLemmas
/-!
# Lemmas about runs of the actor for files
-/
namespace Verif.Collector
open MapFile
variable {T κ : Type} [DecidableEq κ]

/-- the lines of what is found -/
def linesOf : Found → List Text
  | .content t => fileLines t
  | _ => []

/-- what is found at one path changes -/
def upd (seen : κ → Found) (path : κ) (f : Found) : κ → Found := fun q => if q = path then f else seen q

/-- the operations of a change from lines to others -/
def Delta (handle : Text → Change → Option (List T)) (old new : List Text) (ops : List T) : Prop :=
  ∃ removed added, removed.Perm (minus old new) ∧ added.Perm (minus new old) ∧ ops = lineOps handle .removed removed ++ lineOps handle .added added

theorem delta_nil (handle : Text → Change → Option (List T)) : Delta handle [] [] [] := ⟨[], [], .refl _, .refl _, rfl⟩

theorem minus_nil (l : List Text) : minus l [] = l := by simp [minus]

theorem nil_minus (l : List Text) : minus [] l = [] := rfl

/-- the state of the actor fits to what it has seen -/
structure Fits (config : List (κ × FileFormat)) (s : FilesState κ) (seen : κ → Found) : Prop where
  watched : ∀ path format, s.watched.look path = some format → (path, format) ∈ config
  cached : ∀ path, (∃ format, (path, format) ∈ config) → cachedLines s.cache path = linesOf (seen path)
  unwatched : ∀ path, s.watched.look path = none → (∃ format, (path, format) ∈ config) → linesOf (seen path) = []

theorem processes_delta {handle : Text → Change → Option (List T)} {cache cache' : List (κ × List Text)} {path : κ} {t : Text} {ops : List T}
    (h : Processes handle cache path t ops cache') : Delta handle (cachedLines cache path) (fileLines t) ops ∧ cache' = put cache path (fileLines t) := by
  obtain ⟨r, a, h1, h2, h3, h4⟩ := h
  exact ⟨⟨r, a, h1, h2, h3⟩, h4⟩

theorem purges_delta {handle : Text → Change → Option (List T)} {cache cache' : List (κ × List Text)} {path : κ} {ops : List T}
    (h : Purges handle cache path ops cache') : Delta handle (cachedLines cache path) [] ops ∧ cache' = del cache path := by
  obtain ⟨r, h1, h2, h3⟩ := h
  exact ⟨⟨r, [], by rw [minus_nil]; exact h1, .refl _, by rw [h2]; simp [lineOps]⟩, h3⟩

theorem cachedLines_put (cache : List (κ × List Text)) (path : κ) (l : List Text) (q : κ) :
    cachedLines (put cache path l) q = if q = path then l else cachedLines cache q := by
  unfold cachedLines
  rw [lookup_put]
  by_cases h : q = path
  · simp [h]
  · simp [h, Ne.symm h]

theorem cachedLines_del (cache : List (κ × List Text)) (path q : κ) : cachedLines (del cache path) q = if q = path then [] else cachedLines cache q := by
  unfold cachedLines
  rw [lookup_del]
  by_cases h : q = path
  · simp [h]
  · simp [h, Ne.symm h]

/-- the lines in the cache are replaced for a path that is watched -/
theorem Fits.replaced {config : List (κ × FileFormat)} {s : FilesState κ} {seen : κ → Found} (h : Fits config s seen) {path : κ} {format : FileFormat}
    (hw : s.watched.look path = some format) {cache' : List (κ × List Text)} {f : Found}
    (hc : ∀ q, cachedLines cache' q = if q = path then linesOf f else cachedLines s.cache q) : Fits config { s with cache := cache' } (upd seen path f) := by
  refine ⟨h.watched, fun q hq => ?_, fun q hq hq' => ?_⟩
  · rw [hc]
    unfold upd
    split
    · rfl
    · exact h.cached q hq
  · unfold upd
    split
    · next e => subst e; simp only at hq; rw [hw] at hq; simp at hq
    · exact h.unwatched q hq hq'

/-- a change of a path that is watched -/
theorem changes_fits {handle : FileFormat → Text → Change → Option (List T)} {config : List (κ × FileFormat)} {s s' : FilesState κ} {seen : κ → Found}
    (h : Fits config s seen) {path : κ} {format : FileFormat} (hw : s.watched.look path = some format) {f : Found} {ops : List T} (hc : Changes handle s path f ops s') :
    Fits config s' (upd seen path f) ∧ Delta (handle format) (linesOf (seen path)) (linesOf f) ops := by
  have hin := h.watched _ _ hw
  unfold Changes at hc
  rw [hw] at hc
  simp only at hc
  rw [← h.cached path ⟨format, hin⟩]
  cases f with
  | content t =>
    obtain ⟨cache', h1, rfl⟩ := hc
    obtain ⟨h2, rfl⟩ := processes_delta h1
    exact ⟨h.replaced hw fun q => cachedLines_put _ _ _ _, h2⟩
  | nothing =>
    obtain ⟨cache', h1, rfl⟩ := hc
    obtain ⟨h2, rfl⟩ := purges_delta h1
    exact ⟨h.replaced hw fun q => cachedLines_del _ _ _, h2⟩
  | unreadable =>
    obtain ⟨cache', h1, rfl⟩ := hc
    obtain ⟨h2, rfl⟩ := purges_delta h1
    exact ⟨h.replaced hw fun q => cachedLines_del _ _ _, h2⟩

/-- nothing happens -/
theorem Fits.same {config : List (κ × FileFormat)} {s : FilesState κ} {seen : κ → Found} (h : Fits config s seen) {path : κ} {f : Found}
    (hf : (∃ format, (path, format) ∈ config) → linesOf f = [] ∧ linesOf (seen path) = []) : Fits config s (upd seen path f) := by
  refine ⟨h.watched, fun q hq => ?_, fun q hq hq' => ?_⟩
  · rw [h.cached q hq]
    unfold upd
    split
    · next e => subst e; rw [(hf hq).1, (hf hq).2]
    · rfl
  · unfold upd
    split
    · next e => subst e; exact (hf hq').1
    · exact h.unwatched q hq hq'

theorem adds_fits {handle : FileFormat → Text → Change → Option (List T)} {config : List (κ × FileFormat)} {s s' : FilesState κ} {seen : κ → Found}
    (h : Fits config s seen) {path : κ} {format : FileFormat} (hin : (path, format) ∈ config) (he : linesOf (seen path) = []) {f : Found} {ops : List T}
    (hc : Adds handle s path format f ops s') : Fits config s' (upd seen path f) ∧ Delta (handle format) (linesOf (seen path)) (linesOf f) ops := by
  unfold Adds at hc
  split at hc
  · next e =>
    subst e
    obtain ⟨rfl, rfl⟩ := hc
    rw [he]
    exact ⟨h.same fun _ => ⟨rfl, he⟩, delta_nil _⟩
  · have hw : ({ s with watched := put s.watched path format } : FilesState κ).watched.look path = some format := by simp [lookup_put]
    refine changes_fits (s := { s with watched := put s.watched path format }) ⟨fun q g hq => ?_, h.cached, fun q hq hq' => ?_⟩ hw hc
    · rw [lookup_put] at hq
      split at hq
      · next e => subst e; simp only [Option.some.injEq] at hq; rw [← hq]; exact hin
      · exact h.watched q g hq
    · rw [lookup_put] at hq
      split at hq
      · simp at hq
      · exact h.unwatched q hq hq'

/-- what a notice says is at the path -/
def told : Notice → Found
  | .changed f => f
  | .removed => .nothing

theorem handles_fits {handle : FileFormat → Text → Change → Option (List T)} {config : List (κ × FileFormat)} {s s' : FilesState κ} {seen : κ → Found}
    (h : Fits config s seen) {path : κ} {n : Notice} {ops : List T} (hc : Handles handle config s path n ops s') :
    Fits config s' (upd seen path (told n)) ∧ (((¬ ∃ format, (path, format) ∈ config) ∧ ops = []) ∨
      ∃ format, (path, format) ∈ config ∧ Delta (handle format) (linesOf (seen path)) (linesOf (told n)) ops) := by
  unfold Handles at hc
  cases hf : config.find? fun x => x.1 = path with
  | none =>
    rw [hf] at hc
    obtain ⟨rfl, rfl⟩ := hc
    have hno : ¬ ∃ format, (path, format) ∈ config := by
      rintro ⟨format, hm⟩
      have := List.find?_eq_none.mp hf _ hm
      simp at this
    exact ⟨h.same fun hx => absurd hx hno, .inl ⟨hno, rfl⟩⟩
  | some input =>
    rw [hf] at hc
    have hm := List.mem_of_find?_eq_some hf
    have hp : input.1 = path := by simpa using List.find?_some hf
    obtain ⟨path', format⟩ := input
    subst hp
    cases hw : s.watched.look path' with
    | some format' =>
      have hin := h.watched _ _ hw
      cases n with
      | changed f =>
        simp only [hw] at hc
        obtain ⟨h1, h2⟩ := changes_fits h hw hc
        exact ⟨h1, .inr ⟨format', hin, h2⟩⟩
      | removed =>
        simp only [hw] at hc
        obtain ⟨cache', h1, rfl⟩ := hc
        obtain ⟨h2, rfl⟩ := purges_delta h1
        refine ⟨h.replaced hw fun q => cachedLines_del _ _ _, .inr ⟨format', hin, ?_⟩⟩
        rw [h.cached _ ⟨format', hin⟩] at h2
        exact h2
    | none =>
      have he := h.unwatched _ hw ⟨format, hm⟩
      cases n with
      | changed f =>
        simp only [hw] at hc
        obtain ⟨h1, h2⟩ := adds_fits h hm he hc
        exact ⟨h1, .inr ⟨format, hm, h2⟩⟩
      | removed =>
        simp only [hw] at hc
        obtain ⟨rfl, rfl⟩ := hc
        refine ⟨h.same fun _ => ⟨rfl, he⟩, .inr ⟨format, hm, ?_⟩⟩
        rw [he]
        exact delta_nil _

/-- what has been sent for what was seen, one path after the other, where `P` holds for all that was seen -/
inductive Ledger (handle : FileFormat → Text → Change → Option (List T)) (config : List (κ × FileFormat)) (P : (κ → Found) → Prop) : (κ → Found) → List T → Prop where
  | init : Ledger handle config P (fun _ => .nothing) []
  | skip {seen ops path f} : Ledger handle config P seen ops → (¬ ∃ format, (path, format) ∈ config) → Ledger handle config P (upd seen path f) ops
  | step {seen ops path format f ops'} : Ledger handle config P seen ops → (path, format) ∈ config →
      Delta (handle format) (linesOf (seen path)) (linesOf f) ops' → P seen → P (upd seen path f) → Ledger handle config P (upd seen path f) (ops ++ ops')

theorem starts_ledger {handle : FileFormat → Text → Change → Option (List T)} {config : List (κ × FileFormat)} {P : (κ → Found) → Prop} (found : κ → Found)
    (hP : ∀ a : κ → Found, (∀ q, a q = found q ∨ a q = .nothing) → P a) :
    ∀ (todo : List (κ × FileFormat)) (s s' : FilesState κ) (seen : κ → Found) (before ops : List T), (∀ x ∈ todo, x ∈ config) → (todo.map (·.1)).Nodup →
      (∀ x ∈ todo, seen x.1 = .nothing) → (∀ q, seen q = found q ∨ seen q = .nothing) →
      Fits config s seen → Ledger handle config P seen before → Starts handle s (todo.map fun x => (x, found x.1)) ops s' →
      ∃ seen', Fits config s' seen' ∧ Ledger handle config P seen' (before ++ ops) ∧ ∀ q, seen' q = if q ∈ todo.map (·.1) then found q else seen q
  | [], s, s', seen, before, ops, _, _, _, _, hf, hl, h => by
    cases h
    exact ⟨seen, hf, by simpa using hl, by simp⟩
  | (path, format) :: todo, s, s', seen, before, ops, hin, hnd, hno, hsf, hf, hl, h => by
    cases h with
    | cons h1 h2 =>
      rename_i sm ops1 ops2
      have hm := hin (path, format) (by simp)
      have he : seen path = .nothing := hno (path, format) (by simp)
      obtain ⟨g1, g2⟩ := adds_fits hf hm (by rw [he]; rfl) h1
      simp only [List.map_cons, List.nodup_cons] at hnd
      have hsf' : ∀ q, upd seen path (found path) q = found q ∨ upd seen path (found path) q = .nothing := by
        intro q
        unfold upd
        split
        · next e => subst e; exact .inl rfl
        · exact hsf q
      obtain ⟨seen', k1, k2, k3⟩ := starts_ledger found hP todo sm s' (upd seen path (found path)) (before ++ ops1) ops2 (fun x hx => hin x (by simp [hx])) hnd.2
        (fun x hx => by
          unfold upd
          split
          · next e => exact absurd (by rw [← e]; exact List.mem_map_of_mem hx) hnd.1
          · exact hno x (by simp [hx])) hsf' g1 (.step hl hm g2 (hP seen hsf) (hP _ hsf')) h2
      refine ⟨seen', k1, by rw [← List.append_assoc]; exact k2, fun q => ?_⟩
      rw [k3 q]
      unfold upd
      by_cases hq : q = path
      · subst hq; simp
      · simp only [List.map_cons, List.mem_cons, hq, if_false, false_or]

theorem runs_ledger {handle : FileFormat → Text → Change → Option (List T)} {config : List (κ × FileFormat)} {found : κ → Found} {P : (κ → Found) → Prop}
    (hnd : (config.map (·.1)).Nodup) {es : List (κ × Notice)} {ops : List T} {s : FilesState κ} (h : FilesRuns handle config found es ops s)
    (hP : ∀ a : κ → Found, (∀ q, a q = found q ∨ a q = .nothing) → P a)
    (hP' : ∀ es', es' <+: es → ∀ a : κ → Found, (∀ q, (∃ format, (q, format) ∈ config) → a q = latest found es' q) → P a) :
    ∃ seen, Fits config s seen ∧ Ledger handle config P seen ops ∧ ∀ q, (∃ format, (q, format) ∈ config) → seen q = latest found es q := by
  induction h with
  | start h =>
    obtain ⟨seen, h1, h2, h3⟩ := starts_ledger found hP config {} _ (fun _ => .nothing) [] _ (fun x hx => hx) hnd (fun x _ => rfl) (fun q => .inr rfl)
      ⟨fun q g hq => by simp at hq, fun q _ => rfl, fun q _ _ => rfl⟩ .init h
    refine ⟨seen, h1, by simpa using h2, fun q hq => ?_⟩
    rw [h3 q]
    obtain ⟨format, hq⟩ := hq
    have : q ∈ config.map (·.1) := List.mem_map.mpr ⟨_, hq, rfl⟩
    simp only [this, if_true]
    rfl
  | file hr hh ih =>
    rename_i es ops s path n ops' s'
    obtain ⟨seen, h1, h2, h3⟩ := ih fun es' he => hP' es' (he.trans (List.prefix_append _ _))
    obtain ⟨g1, g2⟩ := handles_fits h1 hh
    have hlat : ∀ q, (∃ format, (q, format) ∈ config) → upd seen path (told n) q = latest found (es ++ [(path, n)]) q := by
      intro q hq
      unfold upd latest
      rw [List.foldl_append]
      simp only [List.foldl_cons, List.foldl_nil]
      by_cases e : q = path
      · subst e; cases n <;> simp [told]
      · simp only [e, Ne.symm e, if_false]
        exact h3 q hq
    refine ⟨upd seen path (told n), g1, ?_, hlat⟩
    rcases g2 with ⟨hno, rfl⟩ | ⟨format, hm, hd⟩
    · rw [List.append_nil]; exact .skip h2 hno
    · exact .step h2 hm hd (hP' es (List.prefix_append _ _) seen h3) (hP' _ (List.prefix_refl _) _ hlat)

end Verif.Collector
