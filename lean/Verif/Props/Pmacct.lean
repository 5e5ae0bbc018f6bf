import Verif.Collector.PmacctLemmas
/-!
# What is published of BMP messages for pmacct
-/
namespace Verif.Props
open Verif Verif.Bgp Verif.Bmp Verif.Pmacct
open Verif.Collector (Text)
open Verif.Collector.MapFile (worth)
open Verif.Xml (joined)

/-! ## AS paths -/

/-- a hop of a path: the number of an autonomous system, or a set of numbers, which counts as one (RFC 4271, 9.1.2.2) -/
inductive Hop where
  | one (n : Nat)
  | set (l : List Nat)
  deriving DecidableEq, Repr

/-- a hop as text -/
def hopText : Hop → Text
  | .one n => num n
  | .set l => '{' :: (joined [' '] (l.map num) ++ ['}'])

/-- the text of a path: its hops, with a space between them -/
def pathText (l : List Hop) : Text := joined [' '] (l.map hopText)

/-- the hops of a segment -/
def segHops (val : α → Nat) (s : Seg α) : List Hop :=
  match s.type with
  | .set => [.set (s.asns.map val)]
  | .sequence => s.asns.map fun a => .one (val a)

/-- the hops of segments -/
def hopsOf (val : α → Nat) (l : List (Seg α)) : List Hop := l.flatMap (segHops val)

/-- the hops of an AS_PATH -/
def pathHops : AsPath → List Hop
  | .as2 l => hopsOf UInt16.toNat l
  | .as4 l => hopsOf UInt32.toNat l

/-- RFC 6793, 4.2.3: the path is the AS4_PATH with the leading hops of the AS_PATH that it is shorter by; an AS4_PATH that is longer is ignored -/
def wholePath (old new : List Hop) : List Hop := if old.length < new.length then old else old.take (old.length - new.length) ++ new

theorem hopText_ne (h : Hop) : hopText h ≠ [] := by
  cases h with
  | one n => exact num_ne n
  | set l => exact List.cons_ne_nil _ _

theorem segText_hops (val : α → Nat) (s : Seg α) : segText val s = joined [' '] ((segHops val s).map hopText) := by
  unfold segText segHops
  cases s.type with
  | set => simp only [List.map_cons, List.map_nil, joined_one, hopText, List.map_map]; rfl
  | sequence => simp only [List.map_map]; rfl

theorem segsText_hops (val : α → Nat) (l : List (Seg α)) : segsText val l = pathText (hopsOf val l) := by
  unfold segsText pathText hopsOf
  have e : l.map (segText val) = (l.map fun s => (segHops val s).map hopText).map (joined [' ']) := by
    rw [List.map_map]; exact List.map_congr_left fun s _ => segText_hops val s
  rw [e, joined_flatten]
  · congr 1
    rw [List.flatMap_def, List.map_flatten, List.map_map]; rfl
  · intro t ht u hu
    obtain ⟨s, _, rfl⟩ := List.mem_map.1 ht
    obtain ⟨h, _, rfl⟩ := List.mem_map.1 hu
    exact hopText_ne h

theorem countSegs_hops (val : α → Nat) (l : List (Seg α)) : countSegs l = (hopsOf val l).length := by
  unfold countSegs hopsOf
  induction l with
  | nil => rfl
  | cons s l ih =>
    rw [List.map_cons, List.sum_cons, ih, List.flatMap_cons, List.length_append]
    congr 1
    unfold segHops
    cases s.type <;> simp

theorem prefixParts_hops (val : α → Nat) (l : List (Seg α)) : ∀ n, ∃ ls : List (List Text),
    (prefixParts val n l).filter (· != []) = (ls.map (joined [' '])).filter (· != []) ∧ ls.flatten = ((hopsOf val l).take n).map hopText ∧ ∀ t ∈ ls, ∀ u ∈ t, u ≠ [] := by
  induction l with
  | nil => intro n; exact ⟨[], by simp [prefixParts, hopsOf]⟩
  | cons s l ih =>
    intro n
    have hcons : hopsOf val (s :: l) = segHops val s ++ hopsOf val l := rfl
    by_cases hn : n = 0
    · subst hn
      exact ⟨[], by simp [prefixParts]⟩
    · cases ht : s.type with
      | set =>
        obtain ⟨ls, h1, h2, h3⟩ := ih (n - 1)
        have hs : segHops val s = [Hop.set (s.asns.map val)] := by unfold segHops; rw [ht]
        refine ⟨[hopText (.set (s.asns.map val))] :: ls, ?_, ?_, ?_⟩
        · rw [prefixParts, if_neg hn, ht]
          show List.filter _ (('{' :: (joined [' '] (s.asns.map fun a => num (val a)) ++ ['}'])) :: prefixParts val (n - 1) l) = _
          rw [List.map_cons, joined_one, List.filter_cons_of_pos (by simp), List.filter_cons_of_pos (by simp [hopText]), h1]
          simp [hopText, Function.comp_def]
        · rw [hcons, hs, List.flatten_cons, h2]
          obtain ⟨k, rfl⟩ : ∃ k, n = k + 1 := ⟨n - 1, by omega⟩
          simp
        · intro t ht' u hu
          rcases List.mem_cons.1 ht' with rfl | ht'
          · rw [List.mem_singleton.1 hu]; exact hopText_ne _
          · exact h3 t ht' u hu
      | sequence =>
        obtain ⟨ls, h1, h2, h3⟩ := ih (n - min n s.asns.length)
        have hs : segHops val s = s.asns.map fun a => Hop.one (val a) := by unfold segHops; rw [ht]
        have hchunk : joined [' '] ((s.asns.take (min n s.asns.length)).map fun a => num (val a)) = joined [' '] (((segHops val s).take n).map hopText) := by
          rw [hs, ← List.map_take, List.map_map]
          congr 1
          have : List.take (min n s.asns.length) s.asns = List.take n s.asns := by
            rw [List.take_eq_take_iff]; omega
          rw [this]; rfl
        refine ⟨((segHops val s).take n).map hopText :: ls, ?_, ?_, ?_⟩
        · rw [prefixParts, if_neg hn, ht]
          simp only [hchunk]
          rw [List.map_cons]
          by_cases he : joined [' '] (((segHops val s).take n).map hopText) = []
          · rw [if_pos he, List.filter_cons_of_neg (by simpa using he), h1]
          · rw [if_neg he, List.filter_cons_of_pos (by simpa using he), List.filter_cons_of_pos (by simpa using he), h1]
        · rw [hcons, List.flatten_cons, h2, List.take_append, List.map_append]
          have e : (segHops val s).length = s.asns.length := by rw [hs, List.length_map]
          congr 3
          rw [e]
          omega
        · intro t ht' u hu
          rcases List.mem_cons.1 ht' with rfl | ht'
          · obtain ⟨h, _, rfl⟩ := List.mem_map.1 hu; exact hopText_ne h
          · exact h3 t ht' u hu

theorem asPathText_hops (p : AsPath) : asPathText p = pathText (pathHops p) := by
  cases p <;> exact segsText_hops _ _

theorem asPathPrefix_hops (n : Nat) (p : AsPath) : asPathPrefix n p = pathText ((pathHops p).take n) := by
  have key : ∀ {α : Type} (val : α → Nat) (l : List (Seg α)), joined [' '] ((prefixParts val n l).filter (· != [])) = pathText ((hopsOf val l).take n) := by
    intro α val l
    obtain ⟨ls, h1, h2, h3⟩ := prefixParts_hops val l n
    rw [h1, joined_flatten _ _ h3, h2]; rfl
  cases p <;> exact key _ _

theorem countAsPath_hops (p : AsPath) : countAsPath p = (pathHops p).length := by
  cases p <;> exact countSegs_hops _ _

theorem pathText_nil {l : List Hop} (h : pathText l = []) : l = [] := by
  cases l with
  | nil => rfl
  | cons x l =>
    exact absurd h (joined_ne (by simp) fun t ht => by obtain ⟨y, _, rfl⟩ := List.mem_map.1 ht; exact hopText_ne y)

/-- C243: the path that is published is the AS_PATH, or the one that RFC 6793 makes of AS_PATH and AS4_PATH: whatever the segments, also where the leading part ends within a segment -/
theorem c243_as_path (p : AsPath) (q : List (Seg UInt32)) :
    mergeAsPath (some p) none = some (pathText (pathHops p)) ∧
    mergeAsPath (some p) (some q) = some (pathText (wholePath (pathHops p) (hopsOf UInt32.toNat q))) := by
  refine ⟨by rw [mergeAsPath, asPathText_hops], ?_⟩
  have hcount : countSegs q = (hopsOf UInt32.toNat q).length := countSegs_hops _ _
  have htail : as4PathText q = pathText (hopsOf UInt32.toNat q) := segsText_hops _ _
  rw [mergeAsPath]
  simp only [hcount, htail, countAsPath_hops, asPathPrefix_hops, asPathText_hops]
  unfold wholePath
  generalize hopsOf UInt32.toNat q = G
  generalize pathHops p = H
  by_cases h : H.length < G.length
  · rw [if_pos h, if_pos h]
  · rw [if_neg h, if_neg h]
    by_cases h1 : pathText (H.take (H.length - G.length)) = []
    · rw [if_pos h1, pathText_nil h1, List.nil_append]
    · rw [if_neg h1]
      by_cases h2 : pathText G = []
      · rw [if_pos h2, pathText_nil h2, List.append_nil, List.length_nil]
      · rw [if_neg h2]
        congr 1
        unfold pathText at h1 h2 ⊢
        rw [List.map_append, joined_append _ _ _ (fun e => h1 (by rw [e]; rfl)) (fun e => h2 (by rw [e]; rfl))]
        rfl

example : mergeAsPath (some (.as2 [⟨.sequence, [100, 23456, 23456]⟩, ⟨.set, [7, 8]⟩])) (some [⟨.sequence, [70000]⟩, ⟨.set, [7, 70001]⟩]) = some "100 23456 70000 {7 70001}".toList := by
  decide +kernel
example : wholePath (pathHops (.as2 [⟨.sequence, [100, 23456, 23456]⟩, ⟨.set, [7, 8]⟩])) (hopsOf UInt32.toNat [⟨.sequence, [70000]⟩, ⟨.set, [7, 70001]⟩]) =
    [.one 100, .one 23456, .one 70000, .set [7, 70001]] := by decide +kernel

/-- C243: an AS4_PATH next to an AS_PATH of four octets must be ignored (RFC 6793, 6); it is not -/
theorem c243_four_octets_disproved : ¬ ∀ (p : List (Seg UInt32)) (q : List (Seg UInt32)), mergeAsPath (some (.as4 p)) (some q) = some (pathText (pathHops (.as4 p))) := by
  intro h
  exact absurd (h [⟨.sequence, [70000, 70001]⟩] [⟨.sequence, [9]⟩]) (by decide +kernel)

/-- the number that stands for autonomous systems of four octets, RFC 6793, 9 -/
def asTrans : UInt16 := 23456

/-- RFC 6793, 4.2.3: an AGGREGATOR of two octets that is not AS_TRANS says that AS4_PATH is to be ignored -/
def IgnoresAs4 (u : Update) : Prop := ∃ a ∈ u.attrs, ∃ n o, a.value = .aggregator (.as2 n o) ∧ n ≠ asTrans

/-- C243: the AS4_PATH is used although the AGGREGATOR says that it is to be ignored -/
theorem c243_aggregator_disproved : ¬ ∀ (sh : Shown) (u : Update) (p : AsPath), IgnoresAs4 u → (attrsOf sh u).asPath = some p → (sharedOf (attrsOf sh u)).asPath = some (pathText (pathHops p)) := by
  intro h
  have := h ⟨fun _ => [], fun _ => [], fun _ => [], fun _ => [], fun _ => [], fun _ => [], fun _ => [], fun _ => []⟩
    ⟨[], [⟨false, true, false, false, .asPath (.as2 [⟨.sequence, [100, 200]⟩])⟩, ⟨true, true, false, false, .aggregator (.as2 200 1)⟩, ⟨true, true, false, false, .as4Path [⟨.sequence, [300]⟩]⟩], []⟩
    (.as2 [⟨.sequence, [100, 200]⟩]) ⟨_, List.mem_cons_of_mem _ (List.mem_cons_self ..), 200, 1, rfl, by decide⟩ rfl
  exact absurd this (by decide +kernel)

/-! ### Reading a path back -/

theorem space_not_dig : ¬ Dig ' ' := by unfold Dig; decide
theorem brace_not_dig : ¬ Dig '{' := by unfold Dig; decide
theorem close_not_dig : ¬ Dig '}' := by unfold Dig; decide

/-- the text of a path, hop by hop -/
theorem pathText_cons (x : Hop) (l : List Hop) : pathText (x :: l) = hopText x ++ (if l = [] then [] else ' ' :: pathText l) := by
  unfold pathText
  rw [List.map_cons, joined_step]
  cases l <;> simp

theorem rest_stops (l : List Hop) : Stops Dig (if l = [] then [] else ' ' :: pathText l) := by
  split
  · exact stops_nil _
  · exact stops_cons space_not_dig

theorem inner_no (l : List Nat) : '}' ∉ joined [' '] (l.map num) := by
  intro h
  rcases Xml.mem_intercalate h with e | ⟨t, ht, hc⟩
  · exact absurd e (by decide)
  · obtain ⟨n, _, rfl⟩ := List.mem_map.1 ht
    exact num_no n close_not_dig hc

theorem rest_inj {l r : List Hop} (ih : pathText l = pathText r → l = r) (h : (if l = [] then [] else ' ' :: pathText l) = (if r = [] then [] else ' ' :: pathText r)) : l = r := by
  by_cases h1 : l = []
  · rw [if_pos h1] at h
    by_cases h2 : r = []
    · rw [h1, h2]
    · rw [if_neg h2] at h; cases h
  · rw [if_neg h1] at h
    by_cases h2 : r = []
    · rw [if_pos h2] at h; cases h
    · rw [if_neg h2] at h
      exact ih (List.cons.inj h).2

/-- C244: paths that are published alike have the same hops, so a path can be read back from its text -/
theorem c244_path_read_back : ∀ (l r : List Hop), pathText l = pathText r → l = r := by
  intro l
  induction l with
  | nil =>
    intro r h
    exact (pathText_nil h.symm).symm
  | cons x l ih =>
    intro r h
    cases r with
    | nil => exact pathText_nil h
    | cons y r =>
      rw [pathText_cons, pathText_cons] at h
      cases x with
      | one n =>
        cases y with
        | one m =>
          obtain ⟨e, h⟩ := num_cut (rest_stops l) (rest_stops r) h
          rw [e, rest_inj (ih r) h]
        | set b =>
          obtain ⟨c, t, hc, hd⟩ := num_head n
          have h : num n ++ _ = '{' :: _ := h
          rw [hc] at h
          exact absurd ((List.cons.inj h).1 ▸ hd) brace_not_dig
      | set a =>
        cases y with
        | one m =>
          obtain ⟨c, t, hc, hd⟩ := num_head m
          have h : '{' :: _ = num m ++ _ := h
          rw [hc] at h
          exact absurd ((List.cons.inj h).1.symm ▸ hd) brace_not_dig
        | set b =>
          have h : '{' :: ((joined [' '] (a.map num) ++ ['}']) ++ _) = '{' :: ((joined [' '] (b.map num) ++ ['}']) ++ _) := h
          have h := (List.cons.inj h).2
          rw [List.append_assoc, List.append_assoc] at h
          obtain ⟨e, h⟩ := cut (P := (· ≠ '}')) (fun c hc e => inner_no a (e ▸ hc)) (fun c hc e => inner_no b (e ▸ hc)) (stops_cons (by simp)) (stops_cons (by simp)) h
          have hl := rest_inj (ih r) (List.cons.inj h).2
          have hn : ∀ (z : List Nat), ∀ t ∈ z.map num, ' ' ∉ t ∧ t ≠ [] := fun z t ht => by
            obtain ⟨n, _, rfl⟩ := List.mem_map.1 ht
            exact ⟨num_no n space_not_dig, num_ne n⟩
          have hab := map_inj (fun _ _ h => num_inj h) (joined_inj (hn a) (hn b) e)
          rw [hab, hl]

example : pathText [.one 1, .one 2] ≠ pathText [.one 12] ∧ pathText [.set [1, 2]] ≠ pathText [.one 1, .one 2] ∧ pathText [.set [1], .set [2]] ≠ pathText [.set [1, 2]] := by decide +kernel

/-- C244: of updates with an AS_PATH and no AS4_PATH that are published with the same path, the paths are the same hop by hop -/
theorem c244_published (p q : AsPath) (h : mergeAsPath (some p) none = mergeAsPath (some q) none) : pathHops p = pathHops q := by
  rw [(c243_as_path p []).1, (c243_as_path q []).1] at h
  exact c244_path_read_back _ _ (Option.some.inj h)

example : mergeAsPath (some (.as2 [⟨.sequence, [1]⟩, ⟨.sequence, [2]⟩])) none = mergeAsPath (some (.as4 [⟨.sequence, [1, 2]⟩])) none := by decide +kernel

end Verif.Props
