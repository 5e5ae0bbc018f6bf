import Verif.NetconfXml.SubReads
import Verif.NetconfXml.CapLemmas
/-!
# Reading subscriptions: triggers, versions, identities, paths and the children of a subscription
-/
namespace Verif.Xml
open Verif.Collector (Text trim parseNat isSpace)
open Verif.Collector.MapFile (worth Decimal)

theorem decimal_digits (n : Nat) : decimal n = Nat.toDigits 10 n := by
  unfold decimal; rw [Nat.toString_eq_ofList_toDigits]; simp

theorem space_digit {c : Char} (h : '0' ≤ c ∧ c ≤ '9') : isSpace c = false := by
  have h1 : 48 ≤ c.toNat := h.1
  have h2 : c.toNat ≤ 57 := h.2
  have e : c = Char.ofNat c.toNat := (Char.ofNat_toNat c).symm
  generalize c.toNat = n at h1 h2 e
  subst e
  have : ∀ n : Nat, n ≤ 57 → 48 ≤ n → isSpace (Char.ofNat n) = false := by decide
  exact this n h2 h1

theorem trim_decimal (n : Nat) : trim (decimal n) = decimal n := by
  rw [decimal_digits]
  exact trim_solid fun c hc => space_digit (Verif.Collector.digits_mem hc)

theorem parse_decimal {b n : Nat} (h : n < b) : parseNat b (trim (decimal n)) = some n := by
  rw [trim_decimal, decimal_digits, Verif.Collector.parseNat_iff _ (by omega)]
  exact ⟨⟨_, toDigits_ne _, fun c hc => Verif.Collector.digits_mem hc, .inl rfl, (worth_toDigits _).symm⟩, h⟩

/-- a declaration of the default namespace -/
def defaultNs (ns : Text) : Attr := ⟨⟨none, "xmlns"⟩, some ns⟩

/-! ## Triggers -/

/-- reading `periodic`: children that are known, and then something else, whatever it is -/
theorem reads_periodicMore (c : Clock) {st : Stack} {px : Option String} {as : List Attr} (hr : (declared as ++ st.scope).resolve ⟨px, "periodic"⟩ = .bound nsPush) {k : Kids (Option Nat × Option Time)}
    (hk : ∀ x ∈ k, Child (periodicTable c) ((⟨px, "periodic"⟩, declared as ++ st.scope) :: st) x.1 x.2) {more : List Raw} (hb : Bal more)
    (hm : more = [] ∨ ∃ f rest, more = f ++ rest ∧ Foreign (periodicTable c) ((⟨px, "periodic"⟩, declared as ++ st.scope) :: st) f) :
    Reads (readTrigger c) st (tagRaws ⟨px, "periodic"⟩ as (k.raws ++ more)) (.periodic (k.run (none, none)).1 (k.run (none, none)).2) := by
  intro R ps hR
  have hn : Next (annotate ((⟨px, "periodic"⟩, declared as ++ st.scope) :: st) (more ++ .close ⟨px, "periodic"⟩ :: R)) := by
    rcases hm with rfl | ⟨f, rest, rfl, hf⟩
    · exact next_close _ _ _ _
    · rw [List.append_assoc]; exact next_heads hf.heads _ _
  have hno : (periodicTable c).at (annotate ((⟨px, "periodic"⟩, declared as ++ st.scope) :: st) (more ++ .close ⟨px, "periodic"⟩ :: R)) = none := by
    rcases hm with rfl | ⟨f, rest, rfl, hf⟩
    · exact at_close (by simp [periodicTable]) R
    · rw [List.append_assoc]; exact hf.unknown _
  rw [tagRaws_append]
  refine (bind_ok (skipText_next (next_start _ _ _ _))).trans ?_
  refine (bind_ok (isTag_run (b := true) (by rw [isTagL_start, hr]; simp))).trans ?_
  rw [if_pos rfl]
  refine (bind_ok (open_start hr (next_fine ?_))).trans ?_
  · rw [List.append_assoc]; exact next_kids (fun x hx => (hk x hx).heads) _ hn
  rw [List.append_assoc]
  refine (bind_ok (reads_untilOther hn hno _ _ hk)).trans ?_
  exact (bind_ok (close_bal hb (next_fine hR))).trans rfl

/-- reading `on-change`: children that are known, and then something else, whatever it is -/
theorem reads_onChangeMore (c : Clock) {st : Stack} {px : Option String} {as : List Attr} (hr : (declared as ++ st.scope).resolve ⟨px, "on-change"⟩ = .bound nsPush) {k : Kids OnChange}
    (hk : ∀ x ∈ k, Child onChangeTable ((⟨px, "on-change"⟩, declared as ++ st.scope) :: st) x.1 x.2) {more : List Raw} (hb : Bal more)
    (hm : more = [] ∨ ∃ f rest, more = f ++ rest ∧ Foreign onChangeTable ((⟨px, "on-change"⟩, declared as ++ st.scope) :: st) f) :
    Reads (readTrigger c) st (tagRaws ⟨px, "on-change"⟩ as (k.raws ++ more)) (.onChange (k.run {}).dampening (k.run {}).sync (k.run {}).excluded) := by
  intro R ps hR
  have hn : Next (annotate ((⟨px, "on-change"⟩, declared as ++ st.scope) :: st) (more ++ .close ⟨px, "on-change"⟩ :: R)) := by
    rcases hm with rfl | ⟨f, rest, rfl, hf⟩
    · exact next_close _ _ _ _
    · rw [List.append_assoc]; exact next_heads hf.heads _ _
  have hno : onChangeTable.at (annotate ((⟨px, "on-change"⟩, declared as ++ st.scope) :: st) (more ++ .close ⟨px, "on-change"⟩ :: R)) = none := by
    rcases hm with rfl | ⟨f, rest, rfl, hf⟩
    · exact at_close (by simp [onChangeTable]) R
    · rw [List.append_assoc]; exact hf.unknown _
  rw [tagRaws_append]
  refine (bind_ok (skipText_next (next_start _ _ _ _))).trans ?_
  refine (bind_ok (isTag_run (b := false) (by rw [isTagL_start]; simp))).trans ?_
  rw [if_neg (by simp)]
  refine (bind_ok (isTag_run (b := true) (by rw [isTagL_start, hr]; simp))).trans ?_
  rw [if_pos rfl]
  refine (bind_ok (open_start hr (next_fine ?_))).trans ?_
  · rw [List.append_assoc]; exact next_kids (fun x hx => (hk x hx).heads) _ hn
  rw [List.append_assoc]
  refine (bind_ok (reads_untilOther hn hno _ _ hk)).trans ?_
  exact (bind_ok (close_bal hb (next_fine hR))).trans rfl

/-! ## Versions of modules -/

theorem skipTillF_bal {q : QName} {sc : Scope} {rest : List Ev} {c : List Raw} (h : Bal c) :
    ∀ (n : Nat) (es : List Ev) (ps : List Bool), es.map (·.raw) = c → es.length < n → skipTillF q n ⟨es ++ ⟨.close q, sc⟩ :: rest, ps⟩ = (.ok (), ⟨⟨.close q, sc⟩ :: rest, ps⟩) := by
  induction h with
  | nil =>
    intro n es ps he hn
    simp at he; subst he
    obtain ⟨n, rfl⟩ : ∃ m, n = m + 1 := ⟨n - 1, by simp at hn; omega⟩
    simp [skipTillF]
  | @single r c hr hc ih =>
    intro n es ps he hn
    obtain ⟨e, eb, rfl, he1, he2⟩ := map_raw_cons he
    obtain ⟨n, rfl⟩ : ∃ m, n = m + 1 := ⟨n - 1, by simp at hn; omega⟩
    have hf : headBad (eb ++ ⟨.close q, sc⟩ :: rest) = false := bal_fine hc he2 (by rfl)
    have hskip : skip ⟨e :: (eb ++ ⟨.close q, sc⟩ :: rest), ps⟩ = (.ok (), ⟨eb ++ ⟨.close q, sc⟩ :: rest, ps⟩) := by
      unfold skip
      simp only [he1]
      cases r <;> simp [Raw.single] at hr <;> simp [next, hf]
    rw [List.cons_append]
    unfold skipTillF
    rw [if_neg (by simp only [List.head?_cons, Option.map_some, he1]; intro e; injection e with e; rw [e] at hr; simp [Raw.single] at hr)]
    refine (bind_ok hskip).trans ?_
    exact ih n eb ps he2 (by simp at hn; omega)
  | @tag p as a b ha hb iha ihb =>
    intro n es ps he hn
    obtain ⟨e, eb, rfl, he1, he2⟩ := map_raw_cons he
    obtain ⟨ea, er, rfl, ha', hb'⟩ := map_raw_append he2
    obtain ⟨ec, eb, rfl, hc, hb'⟩ := map_raw_cons hb'
    obtain ⟨n, rfl⟩ : ∃ m, n = m + 1 := ⟨n - 1, by simp at hn; omega⟩
    have hf : headBad (eb ++ ⟨.close q, sc⟩ :: rest) = false := bal_fine hb hb' (by rfl)
    have hskip : skip ⟨e :: (ea ++ ec :: (eb ++ ⟨.close q, sc⟩ :: rest)), ps⟩ = (.ok (), ⟨eb ++ ⟨.close q, sc⟩ :: rest, ps⟩) := by
      unfold skip
      simp only [he1]
      have : readToEnd p 0 (ea ++ ec :: (eb ++ ⟨.close q, sc⟩ :: rest)) = some (eb ++ ⟨.close q, sc⟩ :: rest) := by
        rw [readToEnd_bal ha p _ 0 ea ha', readToEnd_close hc]
        simp
      rw [this]
      simp [hf]
    rw [List.cons_append, List.append_assoc, List.cons_append]
    unfold skipTillF
    rw [if_neg (by simp only [List.head?_cons, Option.map_some, he1]; intro e; injection e with e; cases e)]
    refine (bind_ok hskip).trans ?_
    exact ihb n eb ps hb' (by simp at hn; omega)

theorem skipTill_bal {c : List Raw} (h : Bal c) {st : Stack} {q : QName} {sc : Scope} {R : List Raw} {ps : List Bool} :
    skipTill q ⟨annotate ((q, sc) :: st) (c ++ .close q :: R), ps⟩ = (.ok (), ⟨annotate ((q, sc) :: st) (.close q :: R), ps⟩) := by
  obtain ⟨es, h1, h2⟩ := annotate_bal h ((q, sc) :: st)
  rw [h2, annotate_close]
  exact skipTillF_bal h _ es _ h1 (by simp; omega)

/-- what comes first is not an element of a name in the namespace of versions -/
def NoTag (key : String) (st : Stack) (more : List Raw) : Prop := ∀ R, Next (annotate st (more ++ R)) ∧ isTagL nsRevision key (annotate st (more ++ R)) = false

theorem reads_ifLeaf {st : Stack} (h : InNs st nsRevision) {key : String} {x : Option Text} (hx : ∀ t, x = some t → trim t = t) {R : List Raw} (ps : List Bool) (hR : Next (annotate st R))
    (hn : x = none → isTagL nsRevision key (annotate st R) = false) : ifLeaf nsRevision key ⟨annotate st (optRaws (leafRaws key) x ++ R), ps⟩ = (.ok x, ⟨annotate st R, ps⟩) := by
  cases x with
  | none =>
    refine (bind_ok (skipText_next hR)).trans ?_
    exact (bind_ok (isTag_run (s := ⟨_, _⟩) (hn rfl))).trans rfl
  | some t =>
    refine (bind_ok (skipText_next (next_elem _ _ _ _))).trans ?_
    refine (bind_ok (isTag_run (b := true) (tag_elem h _ _ _ ps))).trans ?_
    rw [if_pos rfl]
    have := reads_trimmed (st := st) (ns := nsRevision) (px := none) (key := key) (as := []) (by simpa [declared] using inNs_resolve h key) (flat_written t) R ps hR
    rw [plain_written, hx t rfl] at this
    exact (bind_ok this).trans rfl

/-- the texts of a version have no white space at the ends -/
structure ModuleVersion.Ok (v : ModuleVersion) : Prop where
  name : trim v.name = v.name
  revision : ∀ t, v.revision = some t → trim t = t
  version : ∀ t, v.version = some t → trim t = t

def versionRaws (v : ModuleVersion) (more : List Raw) : List Raw :=
  tagRaws ⟨none, "module-version"⟩ [defaultNs nsRevision] (leafRaws "name" v.name ++ (optRaws (leafRaws "revision") v.revision ++ (optRaws (leafRaws "version") v.version ++ more)))

/-- the stack inside of a version -/
abbrev versionStack (st : Stack) : Stack := (⟨none, "module-version"⟩, declared [defaultNs nsRevision] ++ st.scope) :: st

/-- a version is read, and what comes behind its parts is passed over -/
theorem reads_version {st : Stack} {v : ModuleVersion} (hv : v.Ok) {more : List Raw} (hb : Bal more)
    (hx : ∀ R, Next (annotate (versionStack st) (more ++ .close ⟨none, "module-version"⟩ :: R)))
    (h1 : v.revision = none → v.version = none → ∀ R, isTagL nsRevision "revision" (annotate (versionStack st) (more ++ .close ⟨none, "module-version"⟩ :: R)) = false)
    (h2 : v.version = none → ∀ R, isTagL nsRevision "version" (annotate (versionStack st) (more ++ .close ⟨none, "module-version"⟩ :: R)) = false) :
    Reads readVersion st (versionRaws v more) v := by
  intro R ps hR
  have h' : InNs (versionStack st) nsRevision := rfl
  unfold versionRaws
  rw [tagRaws_append]
  refine (bind_ok (skipText_next (next_start _ _ _ _))).trans ?_
  have hname : ∀ q as X, tagName ⟨annotate st (.start q as :: X), ps⟩ = (.ok q, ⟨annotate st (.start q as :: X), ps⟩) := by
    intro q as X; rw [annotate_start]; rfl
  refine (bind_ok (hname _ _ _)).trans ?_
  simp only [List.append_assoc]
  refine (bind_ok (open_start (ns := nsRevision) (by rfl) (fine_leafRaws _ _ _ _))).trans ?_
  have x2 : Next (annotate (versionStack st) (optRaws (leafRaws "version") v.version ++ (more ++ .close ⟨none, "module-version"⟩ :: R))) := next_opt2 (next_leafRaws _ _) _ (hx R)
  have x1 : Next (annotate (versionStack st) (optRaws (leafRaws "revision") v.revision ++ (optRaws (leafRaws "version") v.version ++ (more ++ .close ⟨none, "module-version"⟩ :: R)))) :=
    next_opt2 (next_leafRaws _ _) _ x2
  refine (bind_ok (skipText_next (next_leafRaws _ _ _ _))).trans ?_
  have hn := reads_trimmed (st := versionStack st) (ns := nsRevision) (px := none) (key := "name") (as := []) (by rfl) (flat_written v.name) _ (true :: ps) x1
  rw [plain_written, hv.name] at hn
  refine (bind_ok hn).trans ?_
  refine (bind_ok (reads_ifLeaf h' hv.revision (true :: ps) x2 fun e => ?_)).trans ?_
  · cases hver : v.version with
    | none => exact h1 e hver R
    | some t => exact other_leafRaws _ (by decide) t _
  refine (bind_ok (reads_ifLeaf h' hv.version (true :: ps) (hx R) fun e => h2 e R)).trans ?_
  refine (bind_ok (skipTill_bal hb)).trans ?_
  exact (bind_ok (close_here (next_fine hR))).trans rfl

/-! ## Identities -/

theorem reads_identity {st : Stack} {ns : Text} {px : Option String} {key : String} {as : List Attr} (hr : (declared as ++ st.scope).resolve ⟨px, key⟩ = .bound ns) {l : List Raw} (hl : Flat l) {n : Text}
    (hi : (declared as ++ st.scope).resolve (splitName (trim (trim (plain l)))).1 = .bound n) :
    Reads (readIdentity ns key) st (tagRaws ⟨px, key⟩ as l) (n, (splitName (trim (trim (plain l)))).2) := by
  intro R ps hR
  refine (bind_ok (open_tag hr hl R ps)).trans ?_
  refine (bind_ok (tagString_flat hl)).trans ?_
  have : resolveIdentity (trim (plain l)) ⟨annotate ((⟨px, key⟩, declared as ++ st.scope) :: st) (.close ⟨px, key⟩ :: R), true :: ps⟩ =
      (.ok (n, (splitName (trim (trim (plain l)))).2), ⟨annotate ((⟨px, key⟩, declared as ++ st.scope) :: st) (.close ⟨px, key⟩ :: R), true :: ps⟩) := by
    unfold resolveIdentity
    simp only [annotate_close, List.head?_cons, Option.map_some, Option.getD_some, hi]
  refine (bind_ok this).trans ?_
  exact (bind_ok (close_here (next_fine hR))).trans rfl

/-! ## Paths -/

theorem head_flat {l : List Raw} (hl : Flat l) (st : Stack) (q : QName) (sc : Scope) (R : List Raw) :
    ((annotate ((q, sc) :: st) (l ++ .close q :: R)).head?.map Ev.scope).getD [] = sc := by
  rw [annotate_flat hl, annotate_close]
  cases l <;> rfl

/-- the bindings that a path keeps -/
def keptBy (path : Text) (sc : Scope) : List (String × Text) := (Scope.bindings sc).filter fun b => b.1.toList ∈ xpathPrefixes .out path

theorem reads_xpath {st : Stack} {ns : Text} {px : Option String} {key : String} {as : List Attr} (hr : (declared as ++ st.scope).resolve ⟨px, key⟩ = .bound ns) {l : List Raw} (hl : Flat l) :
    Reads (readXPath ns key) st (tagRaws ⟨px, key⟩ as l) ⟨keptBy (plain l) (declared as ++ st.scope), trim (plain l)⟩ := by
  intro R ps hR
  have hexp : expectTag ns key ⟨annotate st (tagRaws ⟨px, key⟩ as l ++ R), ps⟩ =
      (.ok as, ⟨annotate ((⟨px, key⟩, declared as ++ st.scope) :: st) (l ++ .close ⟨px, key⟩ :: R), true :: ps⟩) := by
    refine (bind_ok (skipText_next (next_tagRaws _ _ _ _ _))).trans ?_
    refine (bind_ok (isTag_run (b := true) (by rw [tagRaws_append, isTagL_start, hr]; simp))).trans ?_
    rw [if_pos rfl]
    exact open_tag hr hl R ps
  refine (bind_ok hexp).trans ?_
  have hb : bindingsNow ⟨annotate ((⟨px, key⟩, declared as ++ st.scope) :: st) (l ++ .close ⟨px, key⟩ :: R), true :: ps⟩ =
      (.ok (Scope.bindings (declared as ++ st.scope)), ⟨annotate ((⟨px, key⟩, declared as ++ st.scope) :: st) (l ++ .close ⟨px, key⟩ :: R), true :: ps⟩) := by
    unfold bindingsNow
    rw [head_flat hl]
  refine (bind_ok hb).trans ?_
  refine (bind_ok (tagString_flat hl)).trans ?_
  exact (bind_ok (close_here (next_fine hR))).trans rfl

theorem reads_specXPath {k : FilterKind} (hk : k.xpath ≠ k.subtree) {st : Stack} {px : Option String} {as : List Attr} (hr : (declared as ++ st.scope).resolve ⟨px, k.xpath⟩ = .bound k.ns) {l : List Raw} (hl : Flat l) :
    Reads (readSpec k) st (tagRaws ⟨px, k.xpath⟩ as l) (.xpath ⟨keptBy (plain l) (declared as ++ st.scope), trim (plain l)⟩) := by
  intro R ps hR
  refine (bind_ok (skipText_next (next_tagRaws _ _ _ _ _))).trans ?_
  refine (bind_ok (isTag_run (b := false) (by rw [tagRaws_append, isTagL_start]; simp [hk]))).trans ?_
  rw [if_neg (by simp)]
  refine (bind_ok (isTag_run (b := true) (by rw [tagRaws_append, isTagL_start, hr]; simp))).trans ?_
  rw [if_pos rfl]
  exact (bind_ok (reads_xpath hr hl R ps hR)).trans rfl

/-! ## The children of a subscription -/

theorem reads_subLoopF (c : Clock) {st : Stack} {q : QName} {sc : Scope} (R : List Raw) (ps : List Bool) :
    ∀ (k : Kids SubParts) (n : Nat) (a : SubParts), k.length < n → (∀ x ∈ k, Heads x.1 ∧ ∀ a, Reads (stepOf (subTable c) a) ((q, sc) :: st) x.1 (x.2 a)) →
      subLoopF c n a ⟨annotate ((q, sc) :: st) (k.raws ++ .close q :: R), ps⟩ = (.ok (k.run a), ⟨annotate ((q, sc) :: st) (.close q :: R), ps⟩) := by
  intro k
  induction k with
  | nil =>
    intro n a hn _
    obtain ⟨n, rfl⟩ : ∃ m, n = m + 1 := ⟨n - 1, by simp at hn; omega⟩
    refine (bind_ok (skipText_next (next_close _ _ _ _))).trans ?_
    simp only [annotate_close, List.head?_cons, Option.map_some]
    rfl
  | cons x k ih =>
    intro n a hn hk
    obtain ⟨n, rfl⟩ : ∃ m, n = m + 1 := ⟨n - 1, by simp at hn; omega⟩
    obtain ⟨hx, hstep⟩ := hk x List.mem_cons_self
    have hk' := fun y hy => hk y (List.mem_cons_of_mem _ hy)
    have hnext : Next (annotate ((q, sc) :: st) (Kids.raws k ++ .close q :: R)) := next_kids (fun y hy => (hk' y hy).1) _ (next_close _ _ _ _)
    have e : Kids.raws (x :: k) ++ .close q :: R = x.1 ++ (Kids.raws k ++ .close q :: R) := by simp [Kids.raws]
    rw [e]
    refine (bind_ok (skipText_next (next_heads hx _ _))).trans ?_
    have hr := hstep a (Kids.raws k ++ .close q :: R) ps hnext
    have hrest := ih n (x.2 a) (by simp at hn; omega) hk'
    have hhead : ∃ r, ((annotate ((q, sc) :: st) (x.1 ++ (Kids.raws k ++ .close q :: R))).head?.map Ev.raw) = some r ∧ ∀ p, r ≠ .close p := by
      obtain ⟨p, as, rest, h | h⟩ := hx
      · rw [h, List.cons_append, annotate_start]; exact ⟨_, rfl, by simp⟩
      · rw [h, List.cons_append, annotate_empty]; exact ⟨_, rfl, by simp⟩
    generalize hs : (⟨annotate ((q, sc) :: st) (x.1 ++ (Kids.raws k ++ .close q :: R)), ps⟩ : St) = s at hr ⊢
    have hevs : s.evs = annotate ((q, sc) :: st) (x.1 ++ (Kids.raws k ++ .close q :: R)) := by rw [← hs]
    obtain ⟨r, h1, h2⟩ := hhead
    rw [← hevs] at h1
    unfold stepOf at hr
    show (match s.evs.head?.map Ev.raw with | none => _ | some (.close _) => _ | _ => _) = _
    rw [h1]
    have fin : (match (subTable c).at s.evs with
        | some h => (do let b ← h a; subLoopF c n b) s
        | none => (do skip; subLoopF c n a) s) = (.ok (Kids.run (x :: k) a), ⟨annotate ((q, sc) :: st) (.close q :: R), ps⟩) := by
      cases hat : (subTable c).at s.evs with
      | some h =>
        rw [hat] at hr
        exact (bind_ok hr).trans (hrest.trans rfl)
      | none =>
        rw [hat] at hr
        simp only at hr ⊢
        cases hsk : skip s with
        | mk res s' =>
          cases res with
          | ok u =>
            have : (do skip; pure a : P SubParts) s = (.ok a, s') := (bind_ok hsk).trans rfl
            rw [this] at hr
            injection hr with hr1 hr2
            injection hr1 with hr1
            refine (bind_ok hsk).trans ?_
            show subLoopF c n a s' = (.ok (Kids.run k (x.2 a)), _)
            rw [hr2]; conv => lhs; rw [hr1]
            exact hrest
          | err e => rw [bind_err hsk] at hr; injection hr with hr; cases hr
          | fault f => rw [bind_fault hsk] at hr; injection hr with hr; cases hr
    cases r <;> first | exact absurd rfl (h2 _) | exact fin

/-- a subscription whose children are read one after the other -/
theorem reads_subscription (c : Clock) {st : Stack} {px : Option String} {as : List Attr} (hr : (declared as ++ st.scope).resolve ⟨px, "subscription"⟩ = .bound nsSub) {k : Kids SubParts}
    (hk : ∀ x ∈ k, Heads x.1 ∧ Bal x.1 ∧ ∀ a, Reads (stepOf (subTable c) a) ((⟨px, "subscription"⟩, declared as ++ st.scope) :: st) x.1 (x.2 a)) {s : Subscription} (hs : (k.run {}).done = some s) :
    Reads (readSubscription c) st (tagRaws ⟨px, "subscription"⟩ as k.raws) s := by
  intro R ps hR
  rw [tagRaws_append]
  have hnext : Next (annotate ((⟨px, "subscription"⟩, declared as ++ st.scope) :: st) (k.raws ++ .close ⟨px, "subscription"⟩ :: R)) := next_kids (fun x hx => (hk x hx).1) _ (next_close _ _ _ _)
  refine (bind_ok (skipText_next (next_start _ _ _ _))).trans ?_
  refine (bind_ok (open_start hr (next_fine hnext))).trans ?_
  refine (bind_ok (reads_subLoopF c R _ k _ {} (Nat.lt_succ_of_le (kids_length (fun x hx => (hk x hx).1) (fun x hx => (hk x hx).2.1) _ _)) fun x hx => ⟨(hk x hx).1, (hk x hx).2.2⟩)).trans ?_
  refine (bind_ok (close_here (next_fine hR))).trans ?_
  rw [hs]; rfl

end Verif.Xml
