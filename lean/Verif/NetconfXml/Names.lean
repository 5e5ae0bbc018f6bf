import Verif.NetconfXml.SpecLemmas
/-!
# Names of elements that are copied
-/
namespace Verif.Xml
open Verif.Collector (Text)

/-- tags without prefixes -/
def Unprefixed (c : List Raw) : Prop := ∀ r ∈ c, (∀ q as, r = .start q as → q.pfx = none) ∧ ∀ q as, r = .empty q as → q.pfx = none

theorem find_append (a b : Scope) (p : String) : Scope.find (a ++ b) p = (match Scope.find a p with | some n => some n | none => Scope.find b p) := by
  induction a with
  | nil => rfl
  | cons x a ih =>
    obtain ⟨k, n⟩ := x
    simp only [List.cons_append, Scope.find]
    split
    · rfl
    · exact ih

theorem resolve_default {s1 s2 : Scope} (h : s1.find "" = s2.find "") {q : QName} (hq : q.pfx = none) : s1.resolve q = s2.resolve q := by
  unfold Scope.resolve; rw [hq, h]

theorem names_append (a b : List Ev) : names (a ++ b) = names a ++ names b := by
  induction a with
  | nil => rfl
  | cons e a ih =>
    obtain ⟨r, s⟩ := e
    cases r <;> simp [names, ih]

/-- names without prefixes are the same where the default namespace is -/
theorem names_agree {c : List Raw} (h : Bal c) : Unprefixed c → ∀ st1 st2 : Stack, st1.scope.find "" = st2.scope.find "" →
    ∃ l, ∀ R1 R2, names (annotate st1 (c ++ R1)) = l ++ names (annotate st1 R1) ∧ names (annotate st2 (c ++ R2)) = l ++ names (annotate st2 R2) := by
  induction h with
  | nil => intro _ _ _ _; exact ⟨[], fun _ _ => ⟨rfl, rfl⟩⟩
  | @single r c hr hc ih =>
    intro hu st1 st2 hs
    obtain ⟨l, hl⟩ := ih (fun x hx => hu x (List.mem_cons_of_mem _ hx)) st1 st2 hs
    have hr' := hu r List.mem_cons_self
    cases r with
    | empty q as =>
      refine ⟨((declared as ++ st1.scope).resolve q, q.loc) :: l, fun R1 R2 => ?_⟩
      obtain ⟨h1, h2⟩ := hl R1 R2
      simp only [List.cons_append, annotate_empty]
      have : (declared as ++ st1.scope).resolve q = (declared as ++ st2.scope).resolve q :=
        resolve_default (by rw [find_append, find_append, hs]) (hr'.2 q as rfl)
      simp only [names, h1, h2, this]; exact ⟨trivial, trivial⟩
    | _ =>
      first
      | (simp [Raw.single] at hr; done)
      | (refine ⟨l, fun R1 R2 => ?_⟩
         obtain ⟨h1, h2⟩ := hl R1 R2
         rw [← h1, ← h2]
         cases st1 <;> cases st2 <;> exact ⟨rfl, rfl⟩)
  | tag q as ha hb iha ihb =>
    intro hu st1 st2 hs
    have hq := (hu _ List.mem_cons_self).1 q as rfl
    have hs' : (declared as ++ st1.scope).find "" = (declared as ++ st2.scope).find "" := by rw [find_append, find_append, hs]
    obtain ⟨la, hla⟩ := iha (fun x hx => hu x (List.mem_cons_of_mem _ (List.mem_append_left _ hx))) ((q, declared as ++ st1.scope) :: st1) ((q, declared as ++ st2.scope) :: st2) hs'
    obtain ⟨lb, hlb⟩ := ihb (fun x hx => hu x (List.mem_cons_of_mem _ (List.mem_append_right _ (List.mem_cons_of_mem _ hx)))) st1 st2 hs
    refine ⟨((declared as ++ st1.scope).resolve q, q.loc) :: (la ++ lb), fun R1 R2 => ?_⟩
    have e := resolve_default hs' hq
    simp only [List.cons_append, annotate_start, List.append_assoc]
    obtain ⟨h1, h2⟩ := hlb R1 R2
    have k1 := fun X => (hla X []).1
    have k2 := fun X => (hla [] X).2
    simp only [names, k1, k2, annotate_close, h1, h2, e, and_self]

/-- attributes that declare no default namespace, and that the code does not take for such a declaration -/
def NoDefault (as : List Attr) : Prop := ∀ a ∈ as, a.key.loc ≠ "xmlns" ∧ a.key.loc ≠ "" ∧ a.value.isSome

theorem declared_noDefault {as : List Attr} (h : NoDefault as) : Scope.find (declared as) "" = none := by
  induction as with
  | nil => rfl
  | cons a as ih =>
    obtain ⟨h1, h2, _⟩ := h a List.mem_cons_self
    have := ih fun x hx => h x (List.mem_cons_of_mem _ hx)
    unfold declared
    split
    · next e => simp at e
    · next e =>
      injection e with e1 e2; subst e1; subst e2
      simp at h1
    · next e =>
      injection e with e1 e2; subst e1; subst e2
      rw [find_append, this]
      simp at h2; simp [Scope.find, h2]
    · next e => injection e with _ e2; subst e2; exact this

theorem declared_cons (a : Attr) : ∃ o : Scope, ∀ as, declared (a :: as) = declared as ++ o := by
  obtain ⟨⟨px, l⟩, v⟩ := a
  cases v with
  | none => exact ⟨[], fun as => by rw [declared] <;> simp⟩
  | some v =>
    by_cases h1 : px = some "xmlns"
    · subst h1; exact ⟨[(l, v)], fun as => by rw [declared]⟩
    · by_cases h2 : px = none ∧ l = "xmlns"
      · obtain ⟨rfl, rfl⟩ := h2; exact ⟨[("", v)], fun as => by rw [declared]⟩
      · exact ⟨[], fun as => by
          rw [declared]
          · simp
          · intro w e; simp at e; exact h2 ⟨e.1.1, e.1.2⟩
          · intro p w e; simp at e; exact h1 e.1.1⟩

theorem declared_append (as bs : List Attr) : declared (as ++ bs) = declared bs ++ declared as := by
  induction as with
  | nil => simp [declared]
  | cons a as ih =>
    obtain ⟨o, ho⟩ := declared_cons a
    rw [List.cons_append, ho, ho, ih, List.append_assoc]

/-- one element without prefixes in the default namespace around it is copied with that namespace, and its names stay what they are -/
theorem copy_names {tag : String} {q : QName} {as : List Attr} {inner : List Raw} (hi : Bal inner) (hu : Unprefixed (.start q as :: (inner ++ [.close q]))) (hd : NoDefault as)
    (hn : ∀ p, Raw.close p ∈ inner → p.loc ≠ tag) (hq : q.loc ≠ tag) (h8 : ∀ r ∈ inner, r.utf8 = true) {p : QName} (hp : p.loc = tag) {sc : Scope} {st : Stack} {n : Text} (hns : InNs ((p, sc) :: st) n) (R : List Raw) (ps : List Bool) :
    let c := Raw.start q as :: (inner ++ [.close q])
    let c' := Raw.start q (as ++ [⟨⟨none, "xmlns"⟩, some n⟩]) :: (inner ++ [.close q])
    copyTill tag ⟨annotate ((p, sc) :: st) (c ++ .close p :: R), ps⟩ = (.ok c', ⟨annotate ((p, sc) :: st) (.close p :: R), ps⟩) ∧
      names (annotate ((p, sc) :: st) (c ++ .close p :: R)) = names (annotate [] c') ++ names (annotate ((p, sc) :: st) (.close p :: R)) := by
  intro c c'
  have hqp : q.pfx = none := (hu _ List.mem_cons_self).1 q as rfl
  obtain ⟨qp, ql⟩ := q
  simp only at hqp hq; subst hqp
  have hfind : Scope.find (declared as ++ sc) "" = sc.find "" := by rw [find_append, declared_noDefault hd]
  have hres : (declared as ++ sc).resolve ⟨none, ql⟩ = .bound n := by
    rw [resolve_default (s1 := declared as ++ sc) (s2 := sc) hfind rfl]; exact hns
  have hscn : sc.find "" = some n ∧ n ≠ [] := by
    have h : sc.resolve ⟨none, ""⟩ = .bound n := hns
    unfold Scope.resolve at h
    simp only at h
    split at h
    · simp at h
    · next m hm hne => injection h with e; subst e; exact ⟨hne, fun e => hm (by rw [← e])⟩
    · simp at h
  have hb : Bal c := by have := Bal.tag ⟨none, ql⟩ as hi .nil; exact this
  obtain ⟨es, e1, e2⟩ := annotate_bal hi ((⟨none, ql⟩, declared as ++ sc) :: (p, sc) :: st)
  constructor
  · have hann : annotate ((p, sc) :: st) (c ++ .close p :: R) = ⟨.start ⟨none, ql⟩ as, declared as ++ sc⟩ :: ((es ++ [⟨.close ⟨none, ql⟩, declared as ++ sc⟩]) ++ ⟨.close p, sc⟩ :: annotate st R) := by
      show annotate ((p, sc) :: st) (.start ⟨none, ql⟩ as :: ((inner ++ [.close ⟨none, ql⟩]) ++ .close p :: R)) = _
      rw [annotate_start, List.append_assoc]
      show _ :: annotate ((⟨none, ql⟩, declared as ++ sc) :: (p, sc) :: st) _ = _
      rw [e2, List.singleton_append, annotate_close, annotate_close]
      simp [Stack.scope]
    have hm : ∀ e ∈ es, e.raw ∈ inner := fun e he => by rw [← e1]; exact List.mem_map.2 ⟨e, he, rfl⟩
    have hall := copyL_all hp (sc := sc) (rest := annotate st R) (es ++ [⟨.close ⟨none, ql⟩, declared as ++ sc⟩]) true
      (by
        intro e he
        rcases List.mem_append.1 he with he | he
        · exact bal_good hi _ (hm e he)
        · simp at he; subst he; simp)
      (by
        intro x hx
        rw [List.map_append, e1] at hx
        rcases List.mem_append.1 hx with hx | hx
        · exact hn x hx
        · simp at hx; subst hx; exact hq)
      (by
        intro e he
        rcases List.mem_append.1 he with he | he
        · exact h8 _ (hm e he)
        · simp at he; subst he; rfl) (by simp)
    have hw : withNs (declared as ++ sc) ⟨none, ql⟩ as = some (as ++ [⟨⟨none, "xmlns"⟩, some n⟩]) := by
      unfold withNs
      have v1 : (as.any fun a => a.value.isNone) = false := by
        rw [List.any_eq_false]; intro a ha
        have := (hd a ha).2.2
        cases hv : a.value <;> simp_all
      have v2 : (as.any fun a => a.key.loc == "xmlns") = false := by
        rw [List.any_eq_false]; intro a ha
        simpa using (hd a ha).1
      simp only [v1, v2, Bool.false_eq_true, if_false, hres]
    have hbad : headBad ((es ++ [⟨.close ⟨none, ql⟩, declared as ++ sc⟩]) ++ ⟨.close p, sc⟩ :: annotate st R) = false := by
      rw [List.append_assoc]
      exact headBad_append (fun e he => bal_good hi _ (hm e he)) (by simp)
    have hL : copyL tag false (annotate ((p, sc) :: st) (c ++ .close p :: R)) = (.ok c', ⟨.close p, sc⟩ :: annotate st R) := by
      rw [hann, copyL]
      simp only [Bool.false_eq_true, if_false, hw, hbad, hall]
      simp [Res.map, List.map_append, e1, c']
    have h8' : c'.all Raw.utf8 = true := by
      rw [List.all_eq_true]
      intro r hr
      rcases List.mem_cons.1 hr with rfl | hr
      · simp only [Raw.utf8, List.all_eq_true]
        intro a ha
        rcases List.mem_append.1 ha with ha | ha
        · exact (hd a ha).2.2
        · simp at ha; subst ha; rfl
      · rcases List.mem_append.1 hr with hr | hr
        · exact h8 r hr
        · simp at hr; subst hr; rfl
    unfold copyTill
    simp only [hL, h8', if_true, annotate_close]
  · have hu' : Unprefixed inner := fun x hx => hu x (List.mem_cons_of_mem _ (List.mem_append_left _ hx))
    obtain ⟨l, hl⟩ := names_agree hi hu' (((⟨none, ql⟩ : QName), declared as ++ sc) :: (p, sc) :: st) (((⟨none, ql⟩ : QName), declared (as ++ [(⟨⟨none, "xmlns"⟩, some n⟩ : Attr)]) ++ []) :: [])
      (by
        show Scope.find (declared as ++ sc) "" = Scope.find (declared (as ++ [⟨⟨none, "xmlns"⟩, some n⟩]) ++ []) ""
        rw [hfind, hscn.1, declared_append]; rfl)
    have hres' : Scope.resolve (declared (as ++ [⟨⟨none, "xmlns"⟩, some n⟩]) ++ []) ⟨none, ql⟩ = .bound n := by
      rw [← hres]
      refine resolve_default ?_ rfl
      rw [hfind, hscn.1, declared_append]; rfl
    have h1 := (hl (Raw.close (⟨none, ql⟩ : QName) :: Raw.close p :: R) []).1
    have h2 := (hl [] [Raw.close (⟨none, ql⟩ : QName)]).2
    rw [annotate_close] at h1 h2
    have x1 : annotate ((p, sc) :: st) (c ++ .close p :: R) = ⟨.start ⟨none, ql⟩ as, declared as ++ sc⟩ :: annotate ((⟨none, ql⟩, declared as ++ sc) :: (p, sc) :: st) (inner ++ Raw.close ⟨none, ql⟩ :: .close p :: R) := by
      show annotate ((p, sc) :: st) (.start ⟨none, ql⟩ as :: ((inner ++ [.close ⟨none, ql⟩]) ++ .close p :: R)) = _
      rw [annotate_start, List.append_assoc]; rfl
    have x2 : annotate [] c' = ⟨.start ⟨none, ql⟩ (as ++ [⟨⟨none, "xmlns"⟩, some n⟩]), declared (as ++ [⟨⟨none, "xmlns"⟩, some n⟩]) ++ []⟩ ::
        annotate ((⟨none, ql⟩, declared (as ++ [⟨⟨none, "xmlns"⟩, some n⟩]) ++ []) :: []) (inner ++ [Raw.close ⟨none, ql⟩]) := annotate_start _ _ _ _
    rw [x1, x2]
    simp only [names, h1, h2, hres, hres', annotate]
    simp [names]

end Verif.Xml
