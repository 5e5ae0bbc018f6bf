import Verif.NetconfXml.Subscription
import Verif.NetconfXml.YangLibWrites
import Verif.NetconfXml.YangLibSkip
/-!
# Reading the parts of subscriptions
-/
namespace Verif.Xml
open Verif.Collector (Text trim parseNat)

/-- an element -/
def tagRaws (q : QName) (as : List Attr) (content : List Raw) : List Raw := .start q as :: (content ++ [.close q])

theorem tagRaws_append (q : QName) (as : List Attr) (c R : List Raw) : tagRaws q as c ++ R = .start q as :: (c ++ .close q :: R) := by simp [tagRaws]

theorem bal_tagRaws (q : QName) (as : List Attr) {c : List Raw} (h : Bal c) : Bal (tagRaws q as c) := Bal.tag q as h .nil

theorem next_tagRaws (st : Stack) (q : QName) (as : List Attr) (c R : List Raw) : Next (annotate st (tagRaws q as c ++ R)) := by
  rw [tagRaws_append]; exact next_start _ _ _ _

theorem isTag_run {ns : Text} {key : String} {s : St} {b : Bool} (h : isTagL ns key s.evs = b) : isTag ns key s = (.ok b, s) := by unfold isTag; rw [h]

/-- an element with text is opened -/
theorem open_tag {st : Stack} {ns : Text} {px : Option String} {key : String} {as : List Attr} (hr : (declared as ++ st.scope).resolve ⟨px, key⟩ = .bound ns) {l : List Raw} (hl : Flat l) (R : List Raw)
    (ps : List Bool) : openTag ns key ⟨annotate st (tagRaws ⟨px, key⟩ as l ++ R), ps⟩ =
      (.ok as, ⟨annotate ((⟨px, key⟩, declared as ++ st.scope) :: st) (l ++ .close ⟨px, key⟩ :: R), true :: ps⟩) := by
  rw [tagRaws_append]
  exact open_start hr (fine_flat hl _ (next_fine (next_close _ _ _ _)))

theorem reads_leafOf {α : Type} {st : Stack} {ns : Text} {px : Option String} {key : String} {as : List Attr} (hr : (declared as ++ st.scope).resolve ⟨px, key⟩ = .bound ns) {l : List Raw} (hl : Flat l)
    {f : Text → Option α} {v : α} (hv : f (plain l) = some v) : Reads (leafOf ns key f) st (tagRaws ⟨px, key⟩ as l) v := by
  intro R ps hR
  refine (bind_ok (open_tag hr hl R ps)).trans ?_
  refine (bind_ok (tagString_flat hl)).trans ?_
  rw [hv]
  refine (bind_ok (lift_some _ _ _)).trans ?_
  exact (bind_ok (close_here (next_fine hR))).trans rfl

theorem reads_trimmed {st : Stack} {ns : Text} {px : Option String} {key : String} {as : List Attr} (hr : (declared as ++ st.scope).resolve ⟨px, key⟩ = .bound ns) {l : List Raw} (hl : Flat l) :
    Reads (trimmedLeaf ns key) st (tagRaws ⟨px, key⟩ as l) (trim (plain l)) := by
  intro R ps hR
  refine (bind_ok (open_tag hr hl R ps)).trans ?_
  refine (bind_ok (tagString_flat hl)).trans ?_
  exact (bind_ok (close_here (next_fine hR))).trans rfl

/-! ## Tables -/

/-- the entry of a name -/
def Table.named {α : Type} : Table α → Text → String → Option (α → P α)
  | [], _, _ => none
  | (ns', key', h) :: t, ns, key => if key' = key ∧ ns' = ns then some h else Table.named t ns key

theorem at_tag {α : Type} (t : Table α) {st : Stack} {ns : Text} {q : QName} {as : List Attr} (hr : (declared as ++ st.scope).resolve q = .bound ns) (R : List Raw) :
    t.at (annotate st (.start q as :: R)) = t.named ns q.loc := by
  induction t with
  | nil => rfl
  | cons x t ih =>
    obtain ⟨ns', key', h⟩ := x
    simp only [Table.at, Table.named, isTagL_start, hr, ih]
    by_cases h1 : key' = q.loc <;> by_cases h2 : ns' = ns
    · simp [h1, h2]
    · have h3 : ¬ ns = ns' := fun e => h2 e.symm
      simp [h1, h2, h3]
    · have h3 : ¬ q.loc = key' := fun e => h1 e.symm
      simp [h1, h3]
    · have h3 : ¬ q.loc = key' := fun e => h1 e.symm
      simp [h1, h3]

theorem at_empty {α : Type} (t : Table α) {st : Stack} {ns : Text} {q : QName} {as : List Attr} (hr : (declared as ++ st.scope).resolve q = .bound ns) (R : List Raw) :
    t.at (annotate st (.empty q as :: R)) = t.named ns q.loc := by
  induction t with
  | nil => rfl
  | cons x t ih =>
    obtain ⟨ns', key', h⟩ := x
    simp only [Table.at, Table.named, isTagL_empty, hr, ih]
    by_cases h1 : key' = q.loc <;> by_cases h2 : ns' = ns
    · simp [h1, h2]
    · have h3 : ¬ ns = ns' := fun e => h2 e.symm
      simp [h1, h2, h3]
    · have h3 : ¬ q.loc = key' := fun e => h1 e.symm
      simp [h1, h3]
    · have h3 : ¬ q.loc = key' := fun e => h1 e.symm
      simp [h1, h3]

/-- whether a name in a namespace, or in none, is not in a table -/
def Table.lacks {α : Type} (t : Table α) (r : Resolved) (key : String) : Bool := t.all fun x => !(x.2.1 == key && r == .bound x.1)

theorem at_lacks {α : Type} {t : Table α} {st : Stack} {q : QName} {as : List Attr} (h : t.lacks ((declared as ++ st.scope).resolve q) q.loc = true) (R : List Raw) :
    t.at (annotate st (.start q as :: R)) = none := by
  induction t with
  | nil => rfl
  | cons x t ih =>
    obtain ⟨ns', key', hd⟩ := x
    simp only [Table.lacks, List.all_cons, Bool.and_eq_true, Bool.not_eq_true'] at h
    simp only [Table.at, isTagL_start]
    have : (q.loc == key' && (declared as ++ st.scope).resolve q == .bound ns') = false := by
      rw [← h.1]; congr 1; exact Bool.beq_comm
    rw [this]
    exact ih (by simpa [Table.lacks] using h.2)

theorem at_lacksE {α : Type} {t : Table α} {st : Stack} {q : QName} {as : List Attr} (h : t.lacks ((declared as ++ st.scope).resolve q) q.loc = true) (R : List Raw) :
    t.at (annotate st (.empty q as :: R)) = none := by
  induction t with
  | nil => rfl
  | cons x t ih =>
    obtain ⟨ns', key', hd⟩ := x
    simp only [Table.lacks, List.all_cons, Bool.and_eq_true, Bool.not_eq_true'] at h
    simp only [Table.at, isTagL_empty]
    have : (q.loc == key' && (declared as ++ st.scope).resolve q == .bound ns') = false := by
      rw [← h.1]; congr 1; exact Bool.beq_comm
    rw [this]
    exact ih (by simpa [Table.lacks] using h.2)

theorem at_close {α : Type} {t : Table α} {st : Stack} {q : QName} {sc : Scope} (h : ∀ x ∈ t, x.2.1 ≠ q.loc) (R : List Raw) : t.at (annotate ((q, sc) :: st) (.close q :: R)) = none := by
  induction t with
  | nil => rfl
  | cons x t ih =>
    obtain ⟨ns', key', hd⟩ := x
    have hk := h _ List.mem_cons_self
    simp only [Table.at, isTagL_close]
    rw [if_neg (by simp; intro e; exact absurd e.symm hk)]
    exact ih fun y hy => h y (List.mem_cons_of_mem _ hy)

/-- what is done at one child: what the table says, or nothing -/
def stepOf {α : Type} (t : Table α) (a : α) : P α := fun s =>
  match t.at s.evs with
  | some h => h a s
  | none => (do skip; pure a) s

/-- the first event is a tag that opens something, or is empty -/
def Heads (rs : List Raw) : Prop := ∃ q as rest, rs = .start q as :: rest ∨ rs = .empty q as :: rest

theorem next_heads {rs : List Raw} (h : Heads rs) (st : Stack) (R : List Raw) : Next (annotate st (rs ++ R)) := by
  obtain ⟨q, as, rest, rfl | rfl⟩ := h
  · exact next_start _ _ _ _
  · exact next_empty _ _ _ _

/-- a child that is read by a table, and what reading it does -/
structure Child {α : Type} (t : Table α) (st : Stack) (rs : List Raw) (u : α → α) : Prop where
  heads : Heads rs
  bal : Bal rs
  known : ∀ R, (t.at (annotate st (rs ++ R))).isSome = true
  reads : ∀ a, Reads (stepOf t a) st rs (u a)

/-- a child that no table knows is skipped -/
structure Foreign {α : Type} (t : Table α) (st : Stack) (rs : List Raw) : Prop where
  heads : Heads rs
  bal : Bal rs
  unknown : ∀ R, t.at (annotate st (rs ++ R)) = none
  reads : ∀ a, Reads (stepOf t a) st rs a

theorem child_of {α : Type} {t : Table α} {st : Stack} {ns : Text} {px : Option String} {key : String} {as : List Attr} {c : List Raw} {u : α → α} {h : α → P α} (hb : Bal c)
    (hr : (declared as ++ st.scope).resolve ⟨px, key⟩ = .bound ns) (hn : t.named ns key = some h) (hh : ∀ a, Reads (h a) st (tagRaws ⟨px, key⟩ as c) (u a)) : Child t st (tagRaws ⟨px, key⟩ as c) u := by
  have ha : ∀ R, t.at (annotate st (tagRaws ⟨px, key⟩ as c ++ R)) = some h := fun R => by rw [tagRaws_append, at_tag t hr]; exact hn
  refine ⟨⟨_, _, _, .inl rfl⟩, bal_tagRaws _ _ hb, fun R => by rw [ha]; rfl, fun a R ps hR => ?_⟩
  unfold stepOf
  simp only [ha R]
  exact hh a R ps hR

theorem child_leaf {α β : Type} {t : Table α} {st : Stack} {ns : Text} {px : Option String} {key : String} {as : List Attr} {l : List Raw} {f : Text → Option β} {v : β} {set : α → β → α}
    (hr : (declared as ++ st.scope).resolve ⟨px, key⟩ = .bound ns) (hn : t.named ns key = some fun a => do let v ← leafOf ns key f; return set a v) (hl : Flat l) (hv : f (plain l) = some v) :
    Child t st (tagRaws ⟨px, key⟩ as l) (fun a => set a v) :=
  child_of (bal_flat hl) hr hn fun a R ps hR => (bind_ok (reads_leafOf hr hl hv R ps hR)).trans rfl

theorem skip_bal {c : List Raw} (h : Bal c) {st : Stack} {q : QName} {as : List Attr} {R : List Raw} {ps : List Bool} (hR : headBad (annotate st R) = false) :
    skip ⟨annotate st (tagRaws q as c ++ R), ps⟩ = (.ok (), ⟨annotate st R, ps⟩) := by
  rw [tagRaws_append, annotate_start]
  obtain ⟨es, h1, h2⟩ := annotate_bal h ((q, declared as ++ st.scope) :: st)
  rw [h2, annotate_close]
  unfold skip
  simp only
  rw [readToEnd_bal h q _ 0 es h1, readToEnd_close rfl, if_pos rfl]
  simp [hR]

theorem skip_empty {st : Stack} {q : QName} {as : List Attr} {R : List Raw} {ps : List Bool} (hR : headBad (annotate st R) = false) :
    skip ⟨annotate st (.empty q as :: R), ps⟩ = (.ok (), ⟨annotate st R, ps⟩) := by
  rw [annotate_empty]
  unfold skip next
  simp [hR]

theorem foreign_tag {α : Type} {t : Table α} {st : Stack} {q : QName} {as : List Attr} {c : List Raw} (hb : Bal c) (h : t.lacks ((declared as ++ st.scope).resolve q) q.loc = true) :
    Foreign t st (tagRaws q as c) := by
  have ha : ∀ R, t.at (annotate st (tagRaws q as c ++ R)) = none := fun R => by rw [tagRaws_append]; exact at_lacks h _
  refine ⟨⟨_, _, _, .inl rfl⟩, bal_tagRaws _ _ hb, ha, fun a R ps hR => ?_⟩
  unfold stepOf
  simp only [ha R]
  exact (bind_ok (skip_bal hb (next_fine hR))).trans rfl

theorem foreign_empty {α : Type} {t : Table α} {st : Stack} {q : QName} {as : List Attr} (h : t.lacks ((declared as ++ st.scope).resolve q) q.loc = true) : Foreign t st [.empty q as] := by
  have ha : ∀ R, t.at (annotate st ([.empty q as] ++ R)) = none := fun R => at_lacksE h R
  refine ⟨⟨_, _, _, .inr rfl⟩, Bal.single rfl .nil, ha, fun a R ps hR => ?_⟩
  unfold stepOf
  simp only [ha R]
  exact (bind_ok (skip_empty (next_fine hR))).trans rfl

/-- children of an element, and what reading each of them does -/
abbrev Kids (α : Type) := List (List Raw × (α → α))

def Kids.raws {α : Type} (k : Kids α) : List Raw := k.flatMap Prod.fst
def Kids.run {α : Type} (k : Kids α) (a : α) : α := k.foldl (fun b x => x.2 b) a

theorem next_kids {α : Type} {k : Kids α} (h : ∀ x ∈ k, Heads x.1) (st : Stack) {R : List Raw} (hR : Next (annotate st R)) : Next (annotate st (k.raws ++ R)) := by
  cases k with
  | nil => exact hR
  | cons x k =>
    simp only [Kids.raws, List.flatMap_cons, List.append_assoc]
    exact next_heads (h x List.mem_cons_self) _ _

theorem bal_kids {α : Type} {k : Kids α} (h : ∀ x ∈ k, Bal x.1) : Bal k.raws := bal_flatMap k h

theorem kids_length {α : Type} {k : Kids α} (h : ∀ x ∈ k, Heads x.1) (hb : ∀ x ∈ k, Bal x.1) (st : Stack) (R : List Raw) : k.length ≤ (annotate st (k.raws ++ R)).length :=
  Nat.le_trans (flatMap_length k fun x hx => by obtain ⟨q, as, rest, h | h⟩ := h x hx <;> rw [h] <;> simp) (bal_length (bal_kids hb) st R)

theorem reads_untilOtherF {α : Type} {t : Table α} {st : Stack} {R : List Raw} (hR : Next (annotate st R)) (hno : t.at (annotate st R) = none) (ps : List Bool) :
    ∀ (k : Kids α) (n : Nat) (a : α), k.length < n → (∀ x ∈ k, Child t st x.1 x.2) → untilOtherF t n a ⟨annotate st (k.raws ++ R), ps⟩ = (.ok (k.run a), ⟨annotate st R, ps⟩) := by
  intro k
  induction k with
  | nil =>
    intro n a hn _
    obtain ⟨n, rfl⟩ : ∃ m, n = m + 1 := ⟨n - 1, by simp at hn; omega⟩
    refine (bind_ok (skipText_next hR)).trans ?_
    show (match t.at (annotate st R) with | some h => _ | none => _) = _
    rw [hno]; rfl
  | cons x k ih =>
    intro n a hn hk
    obtain ⟨n, rfl⟩ : ∃ m, n = m + 1 := ⟨n - 1, by simp at hn; omega⟩
    have hx := hk x List.mem_cons_self
    have hk' := fun y hy => hk y (List.mem_cons_of_mem _ hy)
    have hnext : Next (annotate st (Kids.raws k ++ R)) := next_kids (fun y hy => (hk' y hy).heads) st hR
    have e : Kids.raws (x :: k) ++ R = x.1 ++ (Kids.raws k ++ R) := by simp [Kids.raws]
    rw [e]
    refine (bind_ok (skipText_next (next_heads hx.heads _ _))).trans ?_
    obtain ⟨h, hh⟩ := Option.isSome_iff_exists.1 (hx.known (Kids.raws k ++ R))
    have hr := hx.reads a (Kids.raws k ++ R) ps hnext
    unfold stepOf at hr
    simp only [hh] at hr
    show (match t.at (annotate st (x.1 ++ (Kids.raws k ++ R))) with | some h => _ | none => _) = _
    rw [hh]
    refine (bind_ok hr).trans ?_
    exact ih n _ (by simp at hn; omega) hk'

theorem reads_untilOther {α : Type} {t : Table α} {st : Stack} {R : List Raw} (hR : Next (annotate st R)) (hno : t.at (annotate st R) = none) (ps : List Bool) {k : Kids α} (a : α)
    (hk : ∀ x ∈ k, Child t st x.1 x.2) : untilOther t a ⟨annotate st (k.raws ++ R), ps⟩ = (.ok (k.run a), ⟨annotate st R, ps⟩) :=
  reads_untilOtherF hR hno ps k _ a (Nat.lt_succ_of_le (kids_length (fun x hx => (hk x hx).heads) (fun x hx => (hk x hx).bal) st R)) hk

end Verif.Xml
