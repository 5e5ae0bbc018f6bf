import Verif.NetconfXml.RoundTrip
/-!
# Attributes and content that is copied
-/
namespace Verif.Xml
open Verif.Collector (Text trim parseNat)

/-- white space as attributes have it -/
def spaced (t : Text) : Text := t.map fun c => if blank c then ' ' else c

theorem normalized_ref (r cs acc : Text) (h : ∀ c ∈ r, c ≠ ';') : normalized (some acc) (r ++ ';' :: cs) = (refersTo (acc ++ r)).bind fun x => (normalized none cs).map fun t => x ++ t := by
  induction r generalizing acc with
  | nil => simp [normalized]
  | cons c r ih =>
    have hc := h c List.mem_cons_self
    have := ih (acc ++ [c]) (fun d hd => h d (List.mem_cons_of_mem _ hd))
    rw [List.cons_append, normalized]
    · simpa using this
    · exact hc

theorem normalized_char (c : Char) (cs : Text) (h : c ≠ '&') : normalized none (c :: cs) = (normalized none cs).map fun t => (if blank c then ' ' else c) :: t := by
  rw [normalized]; exact h

/-- an attribute that is written is read with spaces for its white space -/
theorem normalized_escape (t : Text) : normalized none (escape t) = some (spaced t) := by
  induction t with
  | nil => rfl
  | cons c t ih =>
    have key : ∀ (r : Text) (d : Char), (∀ x ∈ r, x ≠ ';') → refersTo r = some [d] → normalized none ('&' :: (r ++ ';' :: escape t)) = some (d :: spaced t) := by
      intro r d hr hd
      show normalized (some []) (r ++ ';' :: escape t) = _
      rw [normalized_ref _ _ _ hr, List.nil_append, hd, ih]; rfl
    by_cases h1 : c = '<'
    · subst h1; exact key ['l', 't'] _ (by decide) rfl
    by_cases h2 : c = '>'
    · subst h2; exact key ['g', 't'] _ (by decide) rfl
    by_cases h3 : c = '&'
    · subst h3; exact key ['a', 'm', 'p'] _ (by decide) rfl
    by_cases h4 : c = '\''
    · subst h4; exact key ['a', 'p', 'o', 's'] _ (by decide) rfl
    by_cases h5 : c = '"'
    · subst h5; exact key ['q', 'u', 'o', 't'] _ (by decide) rfl
    rw [escape_other _ h1 h2 h3 h4 h5, normalized_char _ _ h3, ih]
    simp [spaced]

/-- no tabs and line ends -/
def OneLine (t : Text) : Prop := ∀ c ∈ t, c ≠ '\t' ∧ c ≠ '\n' ∧ c ≠ '\r'

theorem spaced_line {t : Text} (h : OneLine t) : spaced t = t := by
  unfold spaced
  induction t with
  | nil => rfl
  | cons c t ih =>
    obtain ⟨h1, h2, h3⟩ := h c List.mem_cons_self
    rw [List.map_cons, ih fun d hd => h d (List.mem_cons_of_mem _ hd)]
    congr 1
    by_cases hb : blank c = true
    · rw [if_pos hb]
      simp [blank, h1, h2, h3] at hb; exact hb.symm
    · rw [if_neg hb]

/-- events that open nothing and close nothing, and can be read -/
def Raw.single : Raw → Bool
  | .start _ _ => false
  | .close _ => false
  | .bad => false
  | _ => true

/-- content in which every tag that is opened is closed -/
inductive Bal : List Raw → Prop
  | nil : Bal []
  | single {r : Raw} {c : List Raw} : r.single = true → Bal c → Bal (r :: c)
  | tag (q : QName) (as : List Attr) {a b : List Raw} : Bal a → Bal b → Bal (.start q as :: (a ++ .close q :: b))

theorem annotate_single (st : Stack) {r : Raw} (h : r.single = true) (R : List Raw) : ∃ sc, ∀ R, annotate st (r :: R) = ⟨r, sc⟩ :: annotate st R := by
  cases r <;> simp [Raw.single] at h <;> cases st <;> exact ⟨_, fun _ => rfl⟩

/-- content is read the same whatever follows -/
theorem annotate_bal {c : List Raw} (h : Bal c) : ∀ st : Stack, ∃ es : List Ev, es.map (·.raw) = c ∧ ∀ R, annotate st (c ++ R) = es ++ annotate st R := by
  induction h with
  | nil => intro st; exact ⟨[], rfl, fun _ => rfl⟩
  | @single r c hr _ ih =>
    intro st
    obtain ⟨es, h1, h2⟩ := ih st
    obtain ⟨sc, hs⟩ := annotate_single st hr []
    exact ⟨⟨r, sc⟩ :: es, by simp [h1], fun R => by rw [List.cons_append, hs, h2]; rfl⟩
  | tag q as _ _ iha ihb =>
    intro st
    obtain ⟨ea, ha1, ha2⟩ := iha ((q, declared as ++ st.scope) :: st)
    obtain ⟨eb, hb1, hb2⟩ := ihb st
    refine ⟨⟨.start q as, declared as ++ st.scope⟩ :: (ea ++ ⟨.close q, declared as ++ st.scope⟩ :: eb), by simp [ha1, hb1], fun R => ?_⟩
    rw [List.cons_append, annotate_start, List.append_assoc, ha2, List.cons_append, annotate_close, hb2]
    simp

theorem bal_good {c : List Raw} (h : Bal c) : ∀ r ∈ c, r ≠ .bad := by
  induction h with
  | nil => simp
  | single hr _ ih =>
    intro r hm
    rcases List.mem_cons.1 hm with rfl | hm
    · intro he; rw [he] at hr; simp [Raw.single] at hr
    · exact ih r hm
  | tag q as _ _ iha ihb =>
    intro r hm
    simp only [List.mem_cons, List.mem_append] at hm
    rcases hm with rfl | hm | rfl | hm
    · simp
    · exact iha r hm
    · simp
    · exact ihb r hm

/-- whether the first tag declares a namespace of its own, as the code looks for it -/
def own : List Raw → Bool
  | [] => true
  | .start _ as :: _ => as.any fun a => a.key.loc == "xmlns"
  | _ :: c => own c

/-- content that is copied as it is -/
structure Copyable (tag : String) (c : List Raw) : Prop where
  bal : Bal c
  names : ∀ q, Raw.close q ∈ c → q.loc ≠ tag
  utf8 : ∀ r ∈ c, r.utf8 = true
  own : own c = true

theorem headBad_append {es : List Ev} (h : ∀ e ∈ es, e.raw ≠ .bad) {e : Ev} {rest : List Ev} (he : e.raw ≠ .bad) : headBad (es ++ e :: rest) = false := by
  cases es with
  | nil => simpa [headBad] using he
  | cons x es => simpa [headBad] using h x List.mem_cons_self

theorem copyL_all {tag : String} {q : QName} (hq : q.loc = tag) {sc : Scope} {rest : List Ev} : ∀ (es : List Ev) (w : Bool), (∀ e ∈ es, e.raw ≠ .bad) → (∀ q, Raw.close q ∈ es.map (·.raw) → q.loc ≠ tag) →
    (∀ e ∈ es, e.raw.utf8 = true) → (w = false → own (es.map (·.raw)) = true) →
    copyL tag w (es ++ ⟨.close q, sc⟩ :: rest) = (.ok (es.map (·.raw)), ⟨.close q, sc⟩ :: rest) := by
  intro es
  induction es with
  | nil => intro w _ _ _ _; simp [copyL, hq]
  | cons e es ih =>
    intro w h1 h2 h3 h4
    have hb : headBad (es ++ ⟨.close q, sc⟩ :: rest) = false := headBad_append (fun x hx => h1 x (List.mem_cons_of_mem _ hx)) (by simp)
    have h1' : ∀ x ∈ es, x.raw ≠ .bad := fun x hx => h1 x (List.mem_cons_of_mem _ hx)
    have h2' : ∀ q, Raw.close q ∈ es.map (·.raw) → q.loc ≠ tag := fun q hq => h2 q (by simp only [List.map_cons]; exact List.mem_cons_of_mem _ hq)
    have h3' : ∀ x ∈ es, x.raw.utf8 = true := fun x hx => h3 x (List.mem_cons_of_mem _ hx)
    have hu := h3 e List.mem_cons_self
    obtain ⟨r, s⟩ := e
    cases r with
    | close p =>
      have hp : p.loc ≠ tag := h2 p (by simp)
      have := ih w h1' h2' h3' (fun hw => by simpa [own] using h4 hw)
      simp [copyL, hp, hb, this, Res.map]
    | start p as =>
      cases w with
      | true =>
        have := ih true h1' h2' h3' (by simp)
        simp [copyL, hb, this, Res.map]
      | false =>
        have ho := h4 rfl
        have hn : withNs s p as = some as := by
          have hv : (as.any fun a => a.value.isNone) = false := by
            simp only [Raw.utf8] at hu
            rw [List.any_eq_false]; intro a ha
            have := List.all_eq_true.1 hu a ha
            simp only [Bool.not_eq_true]
            cases hva : a.value <;> simp_all
          unfold withNs
          rw [hv]
          simp only [List.map_cons, own] at ho
          simp only [Bool.false_eq_true, if_false, if_pos ho]
        have := ih true h1' h2' h3' (by simp)
        simp [copyL, hn, hb, this, Res.map]
    | bad => exact absurd rfl (h1 ⟨.bad, s⟩ List.mem_cons_self)
    | _ =>
      have := ih w h1' h2' h3' (fun hw => by simpa [own] using h4 hw)
      simp [copyL, hb, this, Res.map]

/-- content between an opening and a closing tag is copied -/
theorem copy_reads {tag : String} {c : List Raw} (h : Copyable tag c) {st : Stack} {q : QName} {sc : Scope} (hq : q.loc = tag) (R : List Raw) (ps : List Bool) :
    copyTill tag ⟨annotate ((q, sc) :: st) (c ++ .close q :: R), ps⟩ = (.ok c, ⟨annotate ((q, sc) :: st) (.close q :: R), ps⟩) := by
  obtain ⟨es, h1, h2⟩ := annotate_bal h.bal ((q, sc) :: st)
  have hm : ∀ e ∈ es, e.raw ∈ c := fun e he => by rw [← h1]; exact List.mem_map.2 ⟨e, he, rfl⟩
  have := copyL_all hq (sc := sc) (rest := annotate st R) es false (fun e he => bal_good h.bal _ (hm e he)) (fun p hp => h.names p (by rwa [h1] at hp))
    (fun e he => h.utf8 _ (hm e he)) (fun _ => by rw [h1]; exact h.own)
  have hu : c.all Raw.utf8 = true := List.all_eq_true.2 h.utf8
  unfold copyTill
  simp only [h2, annotate_close, this, h1, hu, if_true]

theorem fine_bal {c : List Raw} (h : Bal c) {st : Stack} {q : QName} {sc : Scope} {R : List Raw} : headBad (annotate ((q, sc) :: st) (c ++ .close q :: R)) = false := by
  obtain ⟨es, h1, h2⟩ := annotate_bal h ((q, sc) :: st)
  rw [h2, annotate_close]
  refine headBad_append (fun e he => bal_good h _ ?_) (by simp)
  rw [← h1]; exact List.mem_map.2 ⟨e, he, rfl⟩

end Verif.Xml
