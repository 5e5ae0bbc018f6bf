import Verif.Collector.FilesHistory
import Verif.Props.EnrichActor
/-!
# Enrichment from files

C111 to C114.
-/
namespace Verif.Props
open Collector Collector.Hist Collector.MapFile
open Collector.Announce (Way iana)
open Flow (Field Value Ie)

namespace Files111
/-- two addresses are known -/
def addr (t : Text) : Option Nat := if t = "10.0.0.1".toList then some 1 else if t = "10.0.0.2".toList then some 2 else none
/-- no line is taken for JSON -/
def json (_ : Text) : Option (Nat × Scope Field × UInt8 × List Field) := none
/-- two maps of route distinguishers -/
def config : List (Nat × FileFormat) := [(1, .pmacctMaps (iana 90 .octetArray) 10), (2, .pmacctMaps (iana 90 .octetArray) 10)]
def line : Text := "id=0:65000:7 in=5 ip=10.0.0.1".toList
def bad : Text := "wrong=1".toList
def text : Text := "! VPNs\n  id=0:65000:7 in=5 ip=10.0.0.1 \nwrong=1\n".toList
def other : Text := "id=0:65000:8 mpls_vpn_id=3 ip=10.0.0.2".toList
def place : Place Nat Field Ie := ⟨1, 0, [.known 0 10 (.unsigned32 5)], .known 3746 14 .octetArray, 0⟩
def value : Field := .known 3746 14 (.octetArray [0, 0, 0xFD, 0xE8, 0, 0, 0, 7])
def up : Op Nat Field Ie := .upsert 1 ⟨0, some [.known 0 10 (.unsigned32 5)]⟩ 10 [value]
/-- the text is in the first file when the actor starts -/
def found (q : Nat) : Found := if q = 1 then .content text else .content []
/-- the line is first added to the second file and then removed from the first -/
def moved : List (Nat × Notice) := [(2, .changed (.content line)), (1, .changed (.content []))]

theorem lines : fileLines text = [line, bad] := by decide +kernel
theorem nolines : fileLines [] = [] := by decide +kernel
theorem lines' : fileLines line = [line] := by decide +kernel
theorem ups : flowLine addr json (.pmacctMaps (iana 90 .octetArray) 10) line .added = some [up] := by decide +kernel
theorem dels : flowLine addr json (.pmacctMaps (iana 90 .octetArray) 10) line .removed = some [up.undo] := by decide +kernel
theorem wrong (c : Change) : flowLine addr json (.pmacctMaps (iana 90 .octetArray) 10) bad c = none := by cases c <;> decide +kernel
theorem puts : Puts up place 10 value := ⟨_, _, _, rfl, ⟨rfl, rfl, rfl⟩, rfl⟩

/-- the actor starts -/
theorem start : ∃ s, FilesRuns (flowLine addr json) config found [] [up] s ∧ s.watched = [(1, .pmacctMaps (iana 90 .octetArray) 10), (2, .pmacctMaps (iana 90 .octetArray) 10)] ∧
    s.cache = [(1, [line, bad]), (2, [])] := by
  refine ⟨_, .start (.cons (ops := [up]) (s' := ⟨[(1, .pmacctMaps (iana 90 .octetArray) 10)], [(1, [line, bad])]⟩) ?_
    (.cons (ops := []) (ops' := []) (s' := ⟨[(1, .pmacctMaps (iana 90 .octetArray) 10), (2, .pmacctMaps (iana 90 .octetArray) 10)],
      [(1, [line, bad]), (2, [])]⟩) ?_ .nil)), rfl, rfl⟩
  · refine ⟨_, ⟨[], [line, bad], .refl _, ?_, ?_, rfl⟩, ?_⟩
    · show List.Perm _ (minus (fileLines text) [])
      rw [lines, minus_nil]
    · simp [lineOps, ups, wrong]
    · show _ = FilesState.mk [(1, _)] [(1, fileLines text)]
      rw [lines]
  · refine ⟨[(1, [line, bad]), (2, [])], ⟨[], [], .refl _, .refl _, rfl, ?_⟩, rfl⟩
    show _ = [(1, [line, bad]), (2, fileLines [])]
    rw [nolines]

/-- and the line is moved -/
theorem move : ∃ s, FilesRuns (flowLine addr json) config found moved [up, up, up.undo] s := by
  obtain ⟨s, h, hw, hc⟩ := start
  obtain ⟨watched, cache⟩ := s
  simp only at hw hc
  subst hw hc
  refine ⟨⟨[(1, .pmacctMaps (iana 90 .octetArray) 10), (2, .pmacctMaps (iana 90 .octetArray) 10)], [(1, []), (2, [line])]⟩, .file (ops := [up, up]) (ops' := [up.undo]) (es := [(2, .changed (.content line))])
    (s := ⟨[(1, .pmacctMaps (iana 90 .octetArray) 10), (2, .pmacctMaps (iana 90 .octetArray) 10)], [(1, [line, bad]), (2, [line])]⟩)
    (.file (ops := [up]) (ops' := [up]) (es := []) h ?_) ?_⟩
  · refine ⟨[(1, [line, bad]), (2, [line])], ⟨[], [line], .refl _, ?_, ?_, ?_⟩, rfl⟩
    · show List.Perm _ (minus (fileLines line) [])
      rw [lines']; decide +kernel
    · simp [lineOps, ups]
    · show _ = [(1, [line, bad]), (2, fileLines line)]
      rw [lines']
  · refine ⟨[(1, []), (2, [line])], ⟨[line, bad], [], ?_, ?_, ?_, ?_⟩, rfl⟩
    · show List.Perm _ (minus [line, bad] (fileLines []))
      rw [nolines, minus_nil]
    · show List.Perm _ (minus (fileLines []) [line, bad])
      rw [nolines]; exact .refl _
    · simp [lineOps, dels, wrong]
    · show _ = [(1, fileLines []), (2, [line])]
      rw [nolines]

theorem now : Now addr json config found moved 2 line up := by
  refine (seen_iff addr rfl (seen := fun q => latest found moved q) (fun _ _ => rfl) 2 line up).mp ⟨.pmacctMaps (iana 90 .octetArray) 10, by simp [config], ?_, ?_⟩
  · show line ∈ fileLines line
    rw [lines']; simp
  · unfold upserts; rw [ups]; simp

theorem nowStart : Now addr json config found [] 1 line up := by
  refine (seen_iff addr rfl (seen := fun q => latest found [] q) (fun _ _ => rfl) 1 line up).mp ⟨.pmacctMaps (iana 90 .octetArray) 10, by simp [config], ?_, ?_⟩
  · show line ∈ fileLines text
    rw [lines]; simp
  · unfold upserts; rw [ups]; simp

/-- only the line brings anything at the start -/
theorem only {path : Nat} {l : Text} {o : Op Nat Field Ie} (h : Now addr json config found [] path l o) : path = 1 ∧ l = line ∧ o = up := by
  obtain ⟨format, h1, h2, h3⟩ := (seen_iff addr rfl (seen := found) (es := []) (fun _ _ => rfl) path l o).mpr h
  simp only [config, List.mem_cons, Prod.mk.injEq, List.not_mem_nil, or_false] at h1
  rcases h1 with ⟨rfl, rfl⟩ | ⟨rfl, rfl⟩
  · rw [show linesOf (found 1) = fileLines text from rfl, lines] at h2
    simp only [List.mem_cons, List.not_mem_nil, or_false] at h2
    unfold upserts at h3
    rcases h2 with rfl | rfl
    · rw [ups] at h3
      exact ⟨rfl, rfl, by simpa using h3⟩
    · rw [wrong] at h3; simp at h3
  · rw [show linesOf (found 2) = fileLines [] from rfl, nolines] at h2
    simp at h2

theorem apart : Apart addr json config found [] := by
  intro es' he path l o path' l' o' h h' _
  obtain rfl := List.prefix_nil.mp he
  obtain ⟨rfl, rfl, -⟩ := only h
  obtain ⟨rfl, rfl, -⟩ := only h'
  exact ⟨rfl, rfl⟩

theorem stands : Stands config found [] 1 (.pmacctMaps (iana 90 .octetArray) 10) line := by
  obtain ⟨format, h, -⟩ := nowStart
  have := format_unique (config := config) (by decide) h.1 (b := .pmacctMaps (iana 90 .octetArray) 10) (by simp [config])
  rw [← this]; exact h

theorem assigns : Assigns addr line "0:65000:7".toList 1 (some (.into 5)) := (parseLine_iff addr line ⟨_, _, _⟩).mp rfl

theorem becomes : Becomes (iana 90 .octetArray) "0:65000:7".toList (some .ingress) value :=
  .rdOn ((parseRd_iff _ _).mp (by decide +kernel))

end Files111

section
variable {A κ : Type} [DecidableEq κ]
variable {addr : Text → Option A} {json : Text → Option (A × Scope Field × UInt8 × List Field)} (hj : json [] = none)
variable {config : List (κ × FileFormat)} (hnd : (config.map (·.1)).Nodup) {found : κ → Found} {es : List (κ × Notice)} {ops : List (Op A Field Ie)} {s : FilesState κ}
include hj hnd

/-! ## C111 -/

/-- C111: however the operations for files come between those of other sources, what is held for flows was brought by another source, or by a line that stands in a
file of the configuration -/
theorem c111_nothing_stale (h : FilesRuns (flowLine addr json) config found es ops s) (others hist : List (Op A Field Ie)) (hi : Interleave ops others hist)
    (p : Place A Field Ie) (w : UInt8) (f : Field) (hs : Survives hist p w f) :
    (∃ path l o, Now addr json config found es path l o ∧ Puts o p w f) ∨ Survives others p w f := by
  obtain ⟨seen, -, h2, h3⟩ := runs_ledger (P := fun _ => True) hnd h (fun _ _ => trivial) (fun _ _ _ _ => trivial)
  rcases interleave_survives hi hs with hs | hs
  · obtain ⟨path, l, o, k1, k2⟩ := ledger_sound hnd h2 hs
    exact .inl ⟨path, l, o, (seen_iff addr hj h3 path l o).mp k1, k2⟩
  · exact .inr hs

section
variable [DecidableEq A]
local instance filesOrd1 : FieldOrd Field Ie := En95.fieldOrd

/-- C111: what is added to a flow record comes from another source or from a line that stands in a file, for its exporter and with a scope that it has -/
theorem c111_returned (h : FilesRuns (flowLine addr json) config found es ops s) (others hist : List (Op A Field Ie)) (hi : Interleave ops others hist)
    (ip : A) (dom : UInt32) (record l : List Field) (hr : (Cache.run hist).Returns ip dom record (some l)) (f : Field) (hf : f ∈ l) :
    ∃ p w, p.ip = ip ∧ Applies dom record p.domain p.scope ∧
      ((∃ path l o, Now addr json config found es path l o ∧ Puts o p w f) ∨ Survives others p w f) := by
  obtain ⟨p, w, h1, h2, h3⟩ := c89_sound hist ip dom record l hr f hf
  exact ⟨p, w, h1, h2, c111_nothing_stale hj hnd h others hist hi p w f h3⟩
end

/-! ## C112 -/

/-- what is held from files is what the lines say that stand there, as long as they are not about the same -/
theorem files_survive (ha : Apart addr json config found es) (h : FilesRuns (flowLine addr json) config found es ops s) (p : Place A Field Ie) (w : UInt8) (f : Field) :
    Survives ops p w f ↔ ∃ path l o, Now addr json config found es path l o ∧ Puts o p w f := by
  obtain ⟨seen, -, h2, h3⟩ := runs_ledger (P := SeenApart addr json config) hnd h (apart_start hj ha) (fun es' he a hs path l o path' l' o' g1 g2 g3 =>
    ha es' he _ _ _ _ _ _ ((seen_iff addr hj hs _ _ _).mp g1) ((seen_iff addr hj hs _ _ _).mp g2) g3)
  constructor
  · intro hs
    obtain ⟨path, l, o, k1, k2⟩ := ledger_sound hnd h2 hs
    exact ⟨path, l, o, (seen_iff addr hj h3 path l o).mp k1, k2⟩
  · rintro ⟨path, l, o, k1, k2⟩
    exact ledger_complete hnd h2 ((seen_iff addr hj h3 path l o).mpr k1) k2

/-- C112, for lines that are never about the same at the same time: what a line says is known as long as it stands in a file, unless another source ends it -/
theorem c112_known_partial (ha : Apart addr json config found es) (h : FilesRuns (flowLine addr json) config found es ops s) (others hist : List (Op A Field Ie))
    (hi : Interleave ops others hist) (path : κ) (l : Text) (o : Op A Field Ie) (hn : Now addr json config found es path l o) (p : Place A Field Ie) (w : UInt8) (f : Field)
    (hp : Puts o p w f) (ho : ∀ o' ∈ others, ¬ Ends o' p w) : Survives hist p w f :=
  survives_interleave hi ((files_survive hj hnd ha h p w f).mpr ⟨path, l, o, hn, hp⟩) ho

section
variable [DecidableEq A]
local instance filesOrd2 : FieldOrd Field Ie := En95.fieldOrd

/-- C112, for lines that are never about the same at the same time: whatever the changes were, flows are enriched from files as if the files were read now, in any
order -/
theorem c112_as_loaded_partial (ha : Apart addr json config found es) (h : FilesRuns (flowLine addr json) config found es ops s) (fresh : List (Op A Field Ie))
    (hf : ∀ o, o ∈ fresh ↔ ∃ path l, Now addr json config found es path l o) (ip : A) (dom : UInt32) (record : List Field) (res : Option (List Field)) :
    (Cache.run ops).Returns ip dom record res ↔ (Cache.run fresh).Returns ip dom record res := by
  refine returns_survives (fun p w f => ?_) res
  rw [files_survive hj hnd ha h]
  constructor
  · rintro ⟨path, l, o, h1, h2⟩
    refine survives_of_mem fresh (fun o' ho' he => ?_) ((hf o).mpr ⟨path, l, h1⟩) h2
    obtain ⟨path', l', h1'⟩ := (hf o').mp ho'
    have hu : ∃ ip s w fs, o' = .upsert ip s w fs := by
      obtain ⟨format, -, hb⟩ := h1'
      exact brings_upsert hb
    have hsh := ends_upsert hu h2 he
    obtain ⟨rfl, rfl⟩ := ha es (List.prefix_refl _) _ _ _ _ _ _ h1 h1' hsh
    obtain ⟨format, ⟨hst, -⟩, hb⟩ := h1
    obtain ⟨format', ⟨hst', -⟩, hb'⟩ := h1'
    obtain rfl := format_unique hnd hst hst'
    rw [← brings_same hb hb' hsh]
    exact h2
  · intro hs
    obtain ⟨o, ho, hp⟩ := survives_mem hs
    obtain ⟨path, l, hn⟩ := (hf o).mp ho
    exact ⟨path, l, o, hn, hp⟩
end
end

section
variable {A κ : Type} [DecidableEq κ]
variable {addr : Text → Option A} {json : Text → Option (A × Scope Field × UInt8 × List Field)} (hj : json [] = none)
variable {config : List (κ × FileFormat)} (hnd : (config.map (·.1)).Nodup) {found : κ → Found} {es : List (κ × Notice)} {ops : List (Op A Field Ie)} {s : FilesState κ}

theorem starts_mem : ∀ (todo : List (κ × FileFormat)) (s s' : FilesState κ) (seen : κ → Found) (ops : List (Op A Field Ie)), (∀ x ∈ todo, x ∈ config) →
    (todo.map (·.1)).Nodup → (∀ x ∈ todo, seen x.1 = .nothing) → Fits config s seen → Starts (flowLine addr json) s (todo.map fun x => (x, found x.1)) ops s' →
    ∀ o, o ∈ ops ↔ ∃ path format l, (path, format) ∈ todo ∧ l ∈ linesOf (found path) ∧ o ∈ upserts addr json format l
  | [], s, s', seen, ops, _, _, _, _, h, o => by cases h; simp
  | (path, format) :: todo, s, s', seen, ops, hin, hd, hno, hf, h, o => by
    cases h with
    | cons h1 h2 =>
      rename_i sm ops1 ops2
      have he : seen path = .nothing := hno (path, format) (by simp)
      obtain ⟨g1, g2⟩ := adds_fits hf (hin (path, format) (by simp)) (by rw [he]; rfl) h1
      simp only [List.map_cons, List.nodup_cons] at hd
      have ih := starts_mem todo sm s' _ ops2 (fun x hx => hin x (by simp [hx])) hd.2 (fun x hx => by
          unfold upd
          split
          · next e => exact absurd (by rw [← e]; exact List.mem_map_of_mem hx) hd.1
          · exact hno x (by simp [hx])) g1 h2 o
      obtain ⟨dels, ups, rfl, k1, k2⟩ := delta_iff g2
      rw [he] at k1 k2
      have hdel : dels = [] := List.eq_nil_iff_forall_not_mem.mpr fun x hx => by
        obtain ⟨l, hl, -⟩ := (k1 x).mp hx
        simp [linesOf] at hl
      subst hdel
      simp only [List.map_nil, List.nil_append, List.mem_append, k2 o, ih]
      constructor
      · rintro (⟨l, j1, -, j2⟩ | ⟨path', format', l, j1, j2, j3⟩)
        · exact ⟨path, format, l, by simp, j1, j2⟩
        · exact ⟨path', format', l, by simp [j1], j2, j3⟩
      · rintro ⟨path', format', l, j1, j2, j3⟩
        rcases List.mem_cons.mp j1 with e | j1
        · simp only [Prod.mk.injEq] at e
          obtain ⟨rfl, rfl⟩ := e
          exact .inl ⟨l, j2, by simp [linesOf], j3⟩
        · exact .inr ⟨path', format', l, j1, j2, j3⟩

/-! ## C113 -/

include hj hnd

/-- C113: at the start, exactly the upserts are sent that lines of the files bring -/
theorem c113_start (h : FilesRuns (flowLine addr json) config found [] ops s) (o : Op A Field Ie) : o ∈ ops ↔ ∃ path l, Now addr json config found [] path l o := by
  have key : ∀ es', es' = [] → FilesRuns (flowLine addr json) config found es' ops s → (o ∈ ops ↔ ∃ path l, Now addr json config found [] path l o) := by
    intro es' he hr
    cases hr with
    | file => simp at he
    | start h =>
      rw [starts_mem config {} s (fun _ => .nothing) ops (fun x hx => hx) hnd (fun _ _ => rfl) ⟨fun q g hq => by simp at hq, fun q _ => rfl, fun q _ _ => rfl⟩ h o]
      have hiff := fun path l => seen_iff addr hj (config := config) (found := found) (seen := found) (es := []) (fun q _ => rfl) path l o
      constructor
      · rintro ⟨path, format, l, j1, j2, j3⟩
        exact ⟨path, l, (hiff path l).mp ⟨format, j1, j2, j3⟩⟩
      · rintro ⟨path, l, hn⟩
        obtain ⟨format, j1, j2, j3⟩ := (hiff path l).mpr hn
        exact ⟨path, format, l, j1, j2, j3⟩
  exact key [] rfl h

/-- C113: when a file has changed, what the lines brought that are no longer there is deleted, and then exactly the upserts are sent that new lines bring -/
theorem c113_change (h : FilesRuns (flowLine addr json) config found es ops s) (path : κ) (n : Notice) (ops' : List (Op A Field Ie)) (s' : FilesState κ)
    (hh : Handles (flowLine addr json) config s path n ops' s') : ∃ dels ups : List (Op A Field Ie), ops' = dels.map Op.undo ++ ups ∧
      (∀ o, o ∈ dels ↔ ∃ format l, Stands config found es path format l ∧ ¬ Stands config found (es ++ [(path, n)]) path format l ∧ Brings addr json format l o) ∧
      (∀ o, o ∈ ups ↔ ∃ format l, Stands config found (es ++ [(path, n)]) path format l ∧ ¬ Stands config found es path format l ∧ Brings addr json format l o) := by
  obtain ⟨seen, h1, -, h3⟩ := runs_ledger (P := fun _ => True) hnd h (fun _ _ => trivial) (fun _ _ _ _ => trivial)
  obtain ⟨-, g2⟩ := handles_fits h1 hh
  have hlat : latest found (es ++ [(path, n)]) path = told n := by
    unfold latest
    rw [List.foldl_append]
    cases n <;> simp [told]
  rcases g2 with ⟨hno, rfl⟩ | ⟨format, hm, hd⟩
  · refine ⟨[], [], rfl, fun o => ?_, fun o => ?_⟩
    · simp only [List.not_mem_nil, false_iff]
      rintro ⟨format, l, ⟨hc, -⟩, -⟩
      exact hno ⟨_, hc⟩
    · simp only [List.not_mem_nil, false_iff]
      rintro ⟨format, l, ⟨hc, -⟩, -⟩
      exact hno ⟨_, hc⟩
  · obtain ⟨dels, ups, rfl, k1, k2⟩ := delta_iff hd
    have st : ∀ (es' : List (κ × Notice)) (l : Text), l ≠ [] → (l ∈ linesOf (latest found es' path) ↔ Stands config found es' path format l) := by
      intro es' l hl
      unfold Stands
      cases latest found es' path with
      | content t => simp [linesOf, fileLines_iff t l hl, hm]
      | nothing => simp [linesOf]
      | unreadable => simp [linesOf]
    have nonempty : ∀ (l : Text) (o : Op A Field Ie), o ∈ upserts addr json format l → l ≠ [] := by
      rintro l o ho rfl
      rw [upserts_nil addr hj] at ho
      simp at ho
    rw [h3 path ⟨_, hm⟩, ← hlat] at k1 k2
    refine ⟨dels, ups, rfl, fun o => ?_, fun o => ?_⟩
    · rw [k1 o]
      constructor
      · rintro ⟨l, j1, j2, j3⟩
        have hl := nonempty l o j3
        exact ⟨format, l, (st es l hl).mp j1, fun hx => j2 ((st _ l hl).mpr hx), (upserts_iff _ _ _ _ _).mp j3⟩
      · rintro ⟨format', l, j1, j2, j3⟩
        obtain rfl := format_unique hnd hm j1.1
        have j3 := (upserts_iff _ _ _ _ _).mpr j3
        have hl := nonempty l o j3
        exact ⟨l, (st es l hl).mpr j1, fun hx => j2 ((st _ l hl).mp hx), j3⟩
    · rw [k2 o]
      constructor
      · rintro ⟨l, j1, j2, j3⟩
        have hl := nonempty l o j3
        exact ⟨format, l, (st _ l hl).mp j1, fun hx => j2 ((st _ l hl).mpr hx), (upserts_iff _ _ _ _ _).mp j3⟩
      · rintro ⟨format', l, j1, j2, j3⟩
        obtain rfl := format_unique hnd hm j1.1
        have j3 := (upserts_iff _ _ _ _ _).mpr j3
        have hl := nonempty l o j3
        exact ⟨l, (st _ l hl).mpr j1, fun hx => j2 ((st _ l hl).mp hx), j3⟩

/-! ## C114 -/

section
variable [DecidableEq A]
local instance filesOrd3 : FieldOrd Field Ie := En95.fieldOrd

/-- C114, for lines that are never about the same at the same time: a record that belongs to a line of a map gets the identifier of such a line, under the element
for its way, if no other source has to do with that element for the exporter -/
theorem c114_identifier_partial (ha : Apart addr json config found es) (h : FilesRuns (flowLine addr json) config found es ops s) (others hist : List (Op A Field Ie))
    (hi : Interleave ops others hist) (path : κ) (el : Ie) (weight : UInt8) (l id : Text) (ip : A) (sc : Option MapScope)
    (hst : Stands config found es path (.pmacctMaps el weight) l) (has : Assigns addr l id ip sc) (fs : Option (List Field)) (way : Option Way) (hfw : (fs, way) ∈ MapFile.flowsOf sc)
    (g : Field) (hb : Becomes el id way g)
    (ho : ∀ o ∈ others, ∀ p : Place A Field Ie, p.ip = ip → p.ie = Field.ie g → (∀ w f, ¬ Puts o p w f) ∧ ∀ w, ¬ Drops o p w)
    (dom : UInt32) (record : List Field) (hrec : ∀ f ∈ fs.getD [], nth record (Field.ie f) 0 = some f)
    (res : Option (List Field)) (hr : (Cache.run hist).Returns ip dom record res) :
    ∃ out f, res = some out ∧ f ∈ out ∧ Field.ie f = Field.ie g ∧ ∃ path' l' s' w' fs', Now addr json config found es path' l' (.upsert ip s' w' fs') ∧ f ∈ fs' ∧
      weight ≤ w' ∧ Applies dom record s'.domain (s'.fields.getD []) := by
  have hnow : Now addr json config found es path l (.upsert ip ⟨0, fs⟩ weight [g]) := ⟨_, hst, .map has hfw hb⟩
  have hp : Puts (.upsert ip ⟨0, fs⟩ weight [g] : Op A Field Ie) ⟨ip, 0, fs.getD [], Field.ie g, 0⟩ weight g := by
    refine ⟨_, _, _, rfl, ⟨rfl, rfl, rfl⟩, ?_⟩
    simp [nth, ie]
  have hlen : fs.getD [] = [] ∨ ∃ x, fs.getD [] = [x] := by
    rcases sc with _ | (n | n | n) <;> simp only [MapFile.flowsOf, List.mem_cons, List.not_mem_nil, or_false, Prod.mk.injEq] at hfw
    · exact .inl (by rw [hfw.1]; rfl)
    · exact .inr ⟨_, by rw [hfw.1]; rfl⟩
    · exact .inr ⟨_, by rw [hfw.1]; rfl⟩
    · rcases hfw with ⟨rfl, -⟩ | ⟨rfl, -⟩ <;> exact .inr ⟨_, rfl⟩
  have happ : Applies (I := Ie) dom record 0 (fs.getD []) := by
    refine ⟨.inl rfl, fun i n f hf => ?_⟩
    rcases hlen with e | ⟨x, e⟩
    · rw [e] at hf; simp [nth] at hf
    · rw [e] at hf hrec
      have hx := hrec x (by simp)
      unfold nth at hf
      by_cases hi : ie x = i
      · rw [List.filter_cons_of_pos (by simpa using hi)] at hf
        cases n with
        | zero =>
          simp only [List.filter_nil, List.getElem?_cons_zero, Option.some.injEq] at hf
          subst hf hi
          exact hx
        | succ n => simp at hf
      · rw [List.filter_cons_of_neg (by simpa using hi)] at hf
        simp at hf
  have hs : Survives hist ⟨ip, 0, fs.getD [], Field.ie g, 0⟩ weight g := by
    refine c112_known_partial hj hnd ha h others hist hi path l _ hnow _ _ _ hp ?_
    rintro o ho' ⟨w', -, ⟨f, h1⟩ | h1⟩
    · exact (ho o ho' _ rfl rfl).1 _ _ h1
    · exact (ho o ho' _ rfl rfl).2 _ h1
  obtain ⟨out, f', k1, k2, k3, p', w', k4, k5, k6, k7, -, k8⟩ := c89_complete hist ⟨ip, 0, fs.getD [], Field.ie g, 0⟩ dom record weight g happ hs res hr
  refine ⟨out, f', k1, k2, k3, ?_⟩
  rcases c111_nothing_stale hj hnd h others hist hi p' w' f' k8.1 with ⟨path', l', o', j1, j2⟩ | hx
  · obtain ⟨ip', s', fs', rfl, ⟨rfl, e1, e2⟩, j4⟩ := j2
    have := (List.mem_filter.mp (List.mem_of_getElem? j4)).1
    simp only at k6
    subst k6
    exact ⟨path', l', s', w', fs', j1, this, k4, by rw [e1, e2]; exact k5⟩
  · obtain ⟨o, ho', j⟩ := survives_mem hx
    exact absurd j ((ho o ho' p' k6 k7).1 _ _)
end
end

/-- C112 does not hold in general: what a line says is lost although it stands in a file and no other source has ever sent anything, because the line was removed
from another file -/
theorem c112_known_disproved : ¬ ∀ (config : List (Nat × FileFormat)) (found : Nat → Found) (es : List (Nat × Notice)) (ops : List (Op Nat Field Ie)) (s : FilesState Nat),
    (config.map (·.1)).Nodup → FilesRuns (flowLine Files111.addr Files111.json) config found es ops s → ∀ path l o, Now Files111.addr Files111.json config found es path l o →
      ∀ p w f, Puts o p w f → (∀ path' l' o', Now Files111.addr Files111.json config found es path' l' o' → Ends o' p w → Puts o' p w f) → Survives ops p w f := by
  intro hall
  obtain ⟨s, hr⟩ := Files111.move
  have hs := hall _ _ _ _ _ (by decide) hr _ _ _ Files111.now _ _ _ Files111.puts (by
    intro path' l' o' hn he
    obtain ⟨format, ⟨hc, t, ht, hl⟩, hb⟩ := hn
    obtain ⟨g1, g2⟩ := (brought_iff Files111.addr (json := Files111.json) rfl format t l' o').mpr ⟨hl, hb⟩
    simp only [Files111.config, List.mem_cons, Prod.mk.injEq, List.not_mem_nil, or_false] at hc
    rcases hc with ⟨rfl, rfl⟩ | ⟨rfl, rfl⟩
    · simp only [latest, Files111.moved, List.foldl_cons, List.foldl_nil, if_true, Found.content.injEq] at ht
      subst ht
      rw [Files111.nolines] at g1
      simp at g1
    · simp only [latest, Files111.moved, List.foldl_cons, List.foldl_nil, if_true] at ht
      rw [if_neg (by decide)] at ht
      simp only [Found.content.injEq] at ht
      subst ht
      rw [Files111.lines', List.mem_singleton] at g1
      subst g1
      unfold upserts at g2
      rw [Files111.ups] at g2
      simp only [Option.getD_some, List.mem_singleton] at g2
      subst g2
      exact Files111.puts)
  rcases (survives_snoc [Files111.up, Files111.up] Files111.up.undo _ _ _).mp hs with ⟨-, h⟩ | h
  · exact h ⟨10, UInt8.le_refl _, .inr (puts_undo Files111.puts).2⟩
  · exact undo_upsert.1 _ _ h

example : ∃ s, FilesRuns (flowLine Files111.addr Files111.json) Files111.config Files111.found Files111.moved [Files111.up, Files111.up, Files111.up.undo] s := Files111.move

section
local instance filesOrd4 : FieldOrd Field Ie := En95.fieldOrd
open Files111

/-- the value is held -/
example : ∃ s, FilesRuns (flowLine addr json) config found [] [up] s ∧ Survives [up] place 10 value ∧ Apart addr json config found [] ∧
    ∃ path l o, Now addr json config found [] path l o ∧ Puts o place 10 value := by
  obtain ⟨s, h, -⟩ := start
  exact ⟨s, h, (files_survive rfl (by decide) apart h place 10 value).mpr ⟨_, _, _, nowStart, puts⟩, apart, _, _, _, nowStart, puts⟩

/-- and a record from the interface gets it, while another source tells something else -/
example (res : Option (List Field))
    (hr : (Cache.run [.upsert 1 ⟨0, none⟩ 200 [.known 0 82 (.string "x")], up]).Returns 1 77 [.known 0 8 (.ipv4 1), .known 0 10 (.unsigned32 5)] res) :
    ∃ out, res = some out ∧ value ∈ out := by
  obtain ⟨s, h, -⟩ := start
  obtain ⟨out, f, h1, h2, h3, path', l', s', w', fs', h4, h5, -⟩ := c114_identifier_partial rfl (by decide) apart h [.upsert 1 ⟨0, none⟩ 200 [.known 0 82 (.string "x")]] _
    (.right (.left .nil)) 1 _ 10 line _ 1 _ stands assigns (some [.known 0 10 (.unsigned32 5)]) (some .ingress) (by simp [MapFile.flowsOf]) value becomes (by
      intro o ho p h1 h2
      simp only [List.mem_singleton] at ho
      subst ho
      refine ⟨?_, ?_⟩
      · rintro w f ⟨_, _, _, e, -, hn⟩
        simp only [Op.upsert.injEq] at e
        obtain ⟨-, -, -, rfl⟩ := e
        have hm := List.mem_filter.mp (List.mem_of_getElem? hn)
        rw [h2] at hm
        simp only [List.mem_singleton] at hm
        obtain ⟨rfl, hm⟩ := hm
        revert hm
        decide +kernel
      · rintro w (⟨_, _, _, e, -⟩ | ⟨_, _, e, -⟩) <;> simp at e) 77 [.known 0 8 (.ipv4 1), .known 0 10 (.unsigned32 5)] (by decide +kernel) res hr
  obtain ⟨-, -, e⟩ := only h4
  simp only [up, Op.upsert.injEq] at e
  obtain ⟨-, -, -, rfl⟩ := e
  simp only [List.mem_singleton] at h5
  subst h5
  exact ⟨out, h1, h2⟩

/-- when the actor starts, one upsert is sent -/
example : ∃ s, FilesRuns (flowLine addr json) config found [] [up] s ∧ Now addr json config found [] 1 line up := by
  obtain ⟨s, h, -⟩ := start
  exact ⟨s, h, nowStart⟩

/-- the file is removed, so it is undone -/
example : ∃ s s', FilesRuns (flowLine addr json) config found [] [up] s ∧ Handles (flowLine addr json) config s 1 .removed [up.undo] s' := by
  obtain ⟨⟨watched, cache⟩, h, rfl, rfl⟩ := start
  refine ⟨_, _, h, _, ⟨[line, bad], .refl _, ?_, rfl⟩, rfl⟩
  simp [lineOps, dels, wrong]

end

end Verif.Props
