import Verif.YangPush.StorageSettled
import Verif.Props.YangPush
/-!
# The cache of YANG libraries: C129 to C133
-/
namespace Verif.Props
open Verif.YangPush Verif.YangPush.Notif Verif.Collector

variable {A X : Type} [DecidableEq A] [DecidableEq X]

/-! ## A cache to try things with -/

namespace YangDemo

/-- a library with a module that has a submodule and a module that is imported only -/
def libraryOf (contentId : String) : Library :=
  ⟨contentId, [⟨"set", [{ name := "a", revision := some "2024-01-01", submodules := [⟨"b", some "2024-01-02"⟩] }], [("c", [{ name := "c", revision := some "2024-01-03" }])]⟩]⟩

def schemasOf : List (String × String) := [("a", "module a"), ("b", "submodule b"), ("c", "module c"), ("d", "module d")]

def putInfo (ip : Nat) (id period : UInt32) (contentId : String) : StoreOp Nat Nat := .put (info ip 50 id period) (libraryOf contentId) schemasOf

theorem tidy (contentId : String) : Tidy (libraryOf contentId) schemasOf where
  listed := by
    intro n r h
    simp only [Lists, libraryOf, List.mem_cons, List.not_mem_nil, or_false, exists_eq_left, false_and, exists_false, reduceCtorEq] at h
    rcases h with (⟨rfl, rfl⟩ | ⟨rfl, rfl⟩) | ⟨rfl, rfl⟩ <;> exact ⟨rfl, rfl⟩
  once := by
    intro n r r' h h'
    simp only [Lists, libraryOf, List.mem_cons, List.not_mem_nil, or_false, exists_eq_left, false_and, exists_false, reduceCtorEq] at h h'
    rcases h with (⟨rfl, rfl⟩ | ⟨rfl, rfl⟩) | ⟨rfl, rfl⟩ <;> rcases h' with (⟨e, rfl⟩ | ⟨e, rfl⟩) | ⟨e, rfl⟩ <;> first | rfl | (exact absurd e (by decide))
  named := by
    intro s hs x hx
    simp only [libraryOf, List.mem_singleton] at hs
    subst hs
    simp only [List.mem_singleton] at hx
    subst hx
    simp
  plain := by
    intro s hs x hx m hm
    simp only [libraryOf, List.mem_singleton] at hs
    subst hs
    simp only [List.mem_singleton] at hx
    subst hx
    simp only [List.mem_singleton] at hm
    subst hm
    rfl
  names := by decide
  uniq := by simp [Uniq, schemasOf]

/-- the caches after histories without restarts -/
def storeAfter (h : List (StoreOp Nat Nat)) : LibCache Nat Nat × Disk Nat Nat :=
  h.foldl (fun (c, d) o => match o with
    | .put i l s => ((putLibrary c d i l s).1, (putLibrary c d i l s).2.1)
    | .dropContent k => removeContent c d k
    | .dropInfo i => removeInfo c d i
    | .restart => (c, d)) (.empty, [])

theorem reach (h : List (StoreOp Nat Nat)) (hn : .restart ∉ h) : Reach h (storeAfter h).1 (storeAfter h).2 := by
  induction h using snoc_induction with
  | nil => exact .nil
  | append_singleton h o ih =>
    have := ih fun hm => hn (by simp [hm])
    unfold storeAfter at this ⊢
    rw [List.foldl_append]
    cases o with
    | put i l s => exact .put i l s this
    | dropContent k => exact .dropContent k this
    | dropInfo i => exact .dropInfo i this
    | restart => exact absurd (by simp) hn

end YangDemo

/-! ## C129: a restart loses nothing -/

/-- **C129**, in part, for caches where no description is given another library while it has one, and libraries whose modules and submodules all have schemas and revisions,
the same wherever they are listed, and whose modules that are imported only have no submodules: a collector can be started again from the disk, whatever order directories come in, and finds the same libraries by description and by content identifier,
with the same schemas. If numbers have one description each and libraries are not removed by content identifier, it finds the same by number. -/
theorem c129_restart_partial {h : List (StoreOp A X)} {c : LibCache A X} {d d' : Disk A X} (hr : Reach h c d) (hs : Settled h) (ht : AllTidy h) (hp : d'.Perm d) :
    ∃ c', fromDisk .empty d' = some c' ∧ (∀ info, c'.getInfo info = c.getInfo info) ∧ (∀ contentId, c'.getContent contentId = c.getContent contentId) ∧
      (∀ r : Ref, r.schemas d' = r.schemas d) ∧ (OneEach h → NoContentDrop h → ∀ ip id, c'.getId ip id = c.getId ip id) := by
  have hi := hr.inv
  obtain ⟨c', hf⟩ := fromDisk_some (c := LibCache.empty) (d := d') fun x hx => by
    obtain ⟨_, i, s, hm, hfiles⟩ := hi.entry x.1 x.2 (lookup_of_mem hi.uniqD (hp.mem_iff.mp hx))
    obtain ⟨m, hm', _⟩ := (ht i _ s hm).load
    rw [hfiles, hm']
    rfl
  have hinfo := restart_info hi (hr.settled hs) hp hf
  refine ⟨c', hf, fun info => hinfo _, fun contentId => ?_, fun r => ?_, fun ho hc ip id => ?_⟩
  · unfold LibCache.getContent
    rw [(hi.restart hp hf).content, hi.content, look_perm hi.uniqD hp]
  · unfold Ref.schemas
    rw [look_perm hi.uniqD hp]
  · have := restart_number hi (hr.numbers hs ho hc) hp hf ip id
    unfold LibCache.getId
    unfold LibCache.number at this
    rw [this]
    cases (c.byId.look ip).bind (·.look id) with
    | none => rfl
    | some i => simp only [Option.map_some, hinfo]

/-- **C129**, the schemas: a library that is found has the schemas that it was put with, for all the modules and submodules that it lists and no others. -/
theorem c129_schemas_partial {h : List (StoreOp A X)} {c : LibCache A X} {d : Disk A X} (hr : Reach h c d) (ht : AllTidy h) {contentId : String} {r : Ref}
    (hc : c.getContent contentId = some r) :
    ∃ i l s m, StoreOp.put i l s ∈ h ∧ l.contentId = contentId ∧ r.contentId = contentId ∧ r.schemas d = some m ∧
      ∀ n, ((∃ revision, Lists l n revision) → (m.look n).isSome ∧ m.look n = s.look n) ∧ ((¬ ∃ revision, Lists l n revision) → m.look n = none) := by
  have hi := hr.inv
  unfold LibCache.getContent at hc
  rw [hi.content] at hc
  obtain ⟨e, he, rfl⟩ := Option.map_eq_some_iff.mp hc
  obtain ⟨hid, i, s, hm, hfiles⟩ := hi.entry _ e he
  obtain ⟨m, h1, h2⟩ := (ht i _ s hm).load
  exact ⟨i, e.library, s, m, hm, hid, rfl, by simp only [Ref.schemas, he, Option.bind_some, hfiles, h1], fun n =>
    ⟨fun hl => ⟨by rw [(h2 n).1 hl]; exact ((ht i _ s hm).listed n _ hl.choose_spec).2, (h2 n).1 hl⟩, (h2 n).2⟩⟩

/-- two descriptions share a library, one of them is removed, and another library is put -/
def cacheHistory : List (StoreOp Nat Nat) :=
  [YangDemo.putInfo 1 7 10 "x", YangDemo.putInfo 2 7 10 "x", YangDemo.putInfo 1 8 10 "y", .dropInfo (YangDemo.info 2 50 7 10), YangDemo.putInfo 2 9 20 "y"]

theorem cacheHistory_settled : Settled cacheHistory := by
  intro h1 h2 i l s e
  have : ∀ n, n < 5 → ∀ i l s, cacheHistory[n]? = some (.put i l s) → assigned (cacheHistory.take n) i.ident = none ∨
      assigned (cacheHistory.take n) i.ident = some l.contentId := by
    intro n hn i l s hm
    have hcases : n = 0 ∨ n = 1 ∨ n = 2 ∨ n = 3 ∨ n = 4 := by omega
    rcases hcases with rfl | rfl | rfl | rfl | rfl <;> simp only [cacheHistory, YangDemo.putInfo, List.getElem?_cons_zero, List.getElem?_cons_succ, Option.some.injEq,
      StoreOp.put.injEq, reduceCtorEq] at hm
    all_goals obtain ⟨rfl, rfl, rfl⟩ := hm; left; decide
  have hlen : h1.length < 5 := by
    have := congrArg List.length e
    simp only [cacheHistory, List.length_cons, List.length_nil, List.length_append] at this
    omega
  have := this h1.length hlen i l s (by rw [e]; simp)
  rwa [e, List.take_left] at this

theorem cacheHistory_tidy : AllTidy cacheHistory := by
  intro i l s hm
  simp only [cacheHistory, YangDemo.putInfo, List.mem_cons, StoreOp.put.injEq, reduceCtorEq, List.not_mem_nil, or_false, false_or] at hm
  rcases hm with ⟨rfl, rfl, rfl⟩ | ⟨rfl, rfl, rfl⟩ | ⟨rfl, rfl, rfl⟩ | ⟨rfl, rfl, rfl⟩ <;> exact YangDemo.tidy _

theorem cacheHistory_each : OneEach cacheHistory := by
  intro i l s i' l' s' h1 h2 e1 e2
  simp only [cacheHistory, YangDemo.putInfo, List.mem_cons, StoreOp.put.injEq, reduceCtorEq, List.not_mem_nil, or_false, false_or] at h1 h2
  rcases h1 with ⟨rfl, rfl, rfl⟩ | ⟨rfl, rfl, rfl⟩ | ⟨rfl, rfl, rfl⟩ | ⟨rfl, rfl, rfl⟩ <;>
    rcases h2 with ⟨rfl, rfl, rfl⟩ | ⟨rfl, rfl, rfl⟩ | ⟨rfl, rfl, rfl⟩ | ⟨rfl, rfl, rfl⟩ <;> first | rfl | exact absurd e1 (by decide) | exact absurd e2 (by decide)

example : Reach cacheHistory (YangDemo.storeAfter cacheHistory).1 (YangDemo.storeAfter cacheHistory).2 ∧ Settled cacheHistory ∧ AllTidy cacheHistory ∧ OneEach cacheHistory ∧
    NoContentDrop cacheHistory ∧ (YangDemo.storeAfter cacheHistory).1.getInfo (YangDemo.info 1 60 7 10) = some ⟨"x", "x"⟩ ∧
    ((fromDisk .empty (YangDemo.storeAfter cacheHistory).2.reverse).bind (·.getInfo (YangDemo.info 1 60 7 10))) = some ⟨"x", "x"⟩ :=
  ⟨YangDemo.reach _ (by decide), cacheHistory_settled, cacheHistory_tidy, cacheHistory_each, by intro cid hm; simp [cacheHistory, YangDemo.putInfo] at hm, by decide +kernel,
    by decide +kernel⟩

/-- **C129** fails of other libraries: one with a module that has no revision is put and found, but a collector cannot be started again, as its file is not found. -/
theorem c129_restart_disproved :
    ∃ (h : List (StoreOp Nat Nat)) (c : LibCache Nat Nat) (d : Disk Nat Nat) (info : SubInfo Nat Nat), Reach h c d ∧ Settled h ∧ (c.getInfo info).isSome ∧
      (∀ i l s, StoreOp.put i l s ∈ h → ∀ n revision, Lists l n revision → (s.look n).isSome) ∧ fromDisk .empty d = none := by
  refine ⟨[.put (YangDemo.info 1 50 7 10) ⟨"x", [⟨"set", [{ name := "a", revision := none }], []⟩]⟩ [("a", "module a")]], _, _, YangDemo.info 1 50 7 10,
    YangDemo.reach _ (by decide), ?_, by decide +kernel, ?_, by decide +kernel⟩
  · intro h1 h2 i l s e
    cases h1 with
    | nil => exact .inl rfl
    | cons _ h1 => simp at e
  · intro i l s hm
    simp only [List.mem_singleton, StoreOp.put.injEq] at hm
    obtain ⟨rfl, rfl, rfl⟩ := hm
    intro n revision hl
    simp only [Lists, List.mem_cons, List.not_mem_nil, or_false, exists_eq_left, false_and, exists_false] at hl
    rw [← hl.1]
    rfl

/-- **C129** fails when a description is given another library: it stays listed with both, and after a restart the order of directories decides which one is found. -/
theorem c129_moved_disproved :
    ∃ (h : List (StoreOp Nat Nat)) (c : LibCache Nat Nat) (d d' : Disk Nat Nat) (info : SubInfo Nat Nat), Reach h c d ∧ AllTidy h ∧ d'.Perm d ∧
      c.getInfo info = some ⟨"y", "y"⟩ ∧ (fromDisk .empty d').bind (·.getInfo info) = some ⟨"x", "x"⟩ := by
  refine ⟨[YangDemo.putInfo 1 7 10 "x", YangDemo.putInfo 1 7 10 "y"], _, _, _, YangDemo.info 1 50 7 10, YangDemo.reach _ (by decide), ?_, List.reverse_perm _, by decide +kernel,
    by decide +kernel⟩
  intro i l s hm
  simp only [YangDemo.putInfo, List.mem_cons, StoreOp.put.injEq, List.not_mem_nil, or_false] at hm
  rcases hm with ⟨rfl, rfl, rfl⟩ | ⟨rfl, rfl, rfl⟩ <;> exact YangDemo.tidy _

/-! ## C130: what is found is what was put last -/

/-- **C130**, in part: a library can be put at all times and its reference is returned. If no description is given another library while it has one, then after any history,
restarts included, what is found for a description is the library put for it last, or nothing if it or its library was removed since. What is found was put for it in any case,
and is found by its content identifier. -/
theorem c130_found_partial {h : List (StoreOp A X)} {c : LibCache A X} {d : Disk A X} (hr : Reach h c d) :
    (∀ info l schemas, (putLibrary c d info l schemas).2.2 = some ⟨l.contentId, l.contentId⟩) ∧
    (Settled h → ∀ info, (c.getInfo info).map (·.contentId) = assigned h info.ident) ∧
    ∀ info r, c.getInfo info = some r → c.getContent r.contentId = some r ∧ ∃ i l s, .put i l s ∈ h ∧ i.ident = info.ident ∧ l.contentId = r.contentId := by
  refine ⟨hr.inv.put_some, fun hs info => (hr.settled hs).has _, fun info r hk => ?_⟩
  obtain ⟨hdir, e, he, i, hi, hident⟩ := hr.inv.info _ r hk
  obtain ⟨l, s, hput, hl⟩ := hr.inv.subs _ e i he hi
  refine ⟨?_, i, l, s, hput, hident, hl⟩
  obtain ⟨a, b⟩ := r
  simp only at hdir he ⊢
  unfold LibCache.getContent
  rw [hr.inv.content, he, hdir]
  rfl

example : Settled cacheHistory ∧ assigned cacheHistory (YangDemo.info 1 60 7 10).ident = some "x" ∧ assigned cacheHistory (YangDemo.info 2 60 7 10).ident = none ∧
    (YangDemo.storeAfter cacheHistory).1.getInfo (YangDemo.info 2 60 7 10) = none :=
  ⟨cacheHistory_settled, by decide +kernel, by decide +kernel, by decide +kernel⟩

/-- **C130** fails when a description is given another library that is there already: its reference is returned, but what is found afterwards is the old one. -/
theorem c130_found_disproved :
    ∃ (h : List (StoreOp Nat Nat)) (c : LibCache Nat Nat) (d : Disk Nat Nat) (info : SubInfo Nat Nat) (l : Library) (s : List (String × String)), Reach h c d ∧ AllTidy h ∧
      Tidy l s ∧ (putLibrary c d info l s).2.2 = some ⟨"y", "y"⟩ ∧ (putLibrary c d info l s).1.getInfo info = some ⟨"x", "x"⟩ := by
  refine ⟨[YangDemo.putInfo 1 7 10 "x", YangDemo.putInfo 2 7 10 "y"], _, _, YangDemo.info 1 50 7 10, YangDemo.libraryOf "y", YangDemo.schemasOf, YangDemo.reach _ (by decide), ?_,
    YangDemo.tidy _, by decide +kernel, by decide +kernel⟩
  intro i l s hm
  simp only [YangDemo.putInfo, List.mem_cons, StoreOp.put.injEq, List.not_mem_nil, or_false] at hm
  rcases hm with ⟨rfl, rfl, rfl⟩ | ⟨rfl, rfl, rfl⟩ <;> exact YangDemo.tidy _

/-! ## C131: what is found by number -/

/-- **C131**, in part, if numbers have one description each, which is not given another library while it has one, and libraries are not removed by content identifier: what is
found for a number of a peer is a description that was put for it, with its library, and nothing is found only if there is no description of that number with a library. -/
theorem c131_number_partial {h : List (StoreOp A X)} {c : LibCache A X} {d : Disk A X} (hr : Reach h c d) (hs : Settled h) (ho : OneEach h) (hc : NoContentDrop h) (ip : A)
    (id : UInt32) :
    match c.getId ip id with
    | some (i, r) => i.peer.ip = ip ∧ i.id = id ∧ (∃ l s, StoreOp.put i l s ∈ h) ∧ r.isSome ∧ r.map (·.contentId) = assigned h i.ident
    | none => ∀ i : SubInfo A X, i.peer.ip = ip → i.id = id → assigned h i.ident = none := by
  have hn := hr.numbers hs ho hc
  have hset := hr.settled hs
  unfold LibCache.getId
  cases hl : (c.byId.look ip).bind (·.look id) with
  | some i =>
    simp only [Option.map_some]
    obtain ⟨h1, h2, k, e, he, hm⟩ := (hn ip id i).mp hl
    exact ⟨h1, h2, (let ⟨l, s, a, _⟩ := hr.inv.subs k e i he hm; ⟨l, s, a⟩), by rw [hset.listed k e i he hm]; rfl, hset.has _⟩
  | none =>
    simp only [Option.map_none]
    intro i h1 h2
    rw [← hset.has]
    cases hk : c.byInfo.look i.ident with
    | none => rfl
    | some r =>
      obtain ⟨_, e, he, j, hj, ej⟩ := hr.inv.info _ r hk
      have := (hn ip id j).mpr ⟨(congrArg Ident.ip ej).trans h1, (congrArg Ident.id ej).trans h2, r.contentId, e, he, hj⟩
      unfold LibCache.number at this
      rw [hl] at this
      cases this

example : (YangDemo.storeAfter cacheHistory).1.getId 2 9 = some (YangDemo.info 2 50 9 20, some ⟨"y", "y"⟩) ∧ (YangDemo.storeAfter cacheHistory).1.getId 2 7 = none := by
  decide +kernel

/-- **C131** fails when a number is described in turns: after a description, another and the first one again, the other one is found. -/
theorem c131_number_disproved :
    ∃ (h : List (StoreOp Nat Nat)) (c : LibCache Nat Nat) (d : Disk Nat Nat) (first second : SubInfo Nat Nat), Reach h c d ∧ Settled h ∧ AllTidy h ∧
      h.getLast? = some (.put first (YangDemo.libraryOf "x") YangDemo.schemasOf) ∧ first.ident ≠ second.ident ∧ first.peer.ip = 1 ∧ first.id = 7 ∧
      c.getId 1 7 = some (second, some ⟨"x", "x"⟩) := by
  refine ⟨[YangDemo.putInfo 1 7 10 "x", YangDemo.putInfo 1 7 20 "x", YangDemo.putInfo 1 7 10 "x"], _, _, YangDemo.info 1 50 7 10, YangDemo.info 1 50 7 20,
    YangDemo.reach _ (by decide), ?_, ?_, rfl, by decide, rfl, rfl, by decide +kernel⟩
  · intro h1 h2 i l s e
    match h1, e with
    | [], _ => exact .inl rfl
    | [a], e =>
      simp only [YangDemo.putInfo, List.cons_append, List.nil_append, List.cons.injEq, StoreOp.put.injEq] at e
      obtain ⟨rfl, ⟨rfl, rfl, rfl⟩, _⟩ := e
      left; decide
    | [a, b], e =>
      simp only [YangDemo.putInfo, List.cons_append, List.nil_append, List.cons.injEq, StoreOp.put.injEq] at e
      obtain ⟨rfl, rfl, ⟨rfl, rfl, rfl⟩, _⟩ := e
      right; decide
    | a :: b :: c :: h1, e => simp at e
  · intro i l s hm
    simp only [YangDemo.putInfo, List.mem_cons, StoreOp.put.injEq, List.not_mem_nil, or_false] at hm
    rcases hm with ⟨rfl, rfl, rfl⟩ | ⟨rfl, rfl, rfl⟩ | ⟨rfl, rfl, rfl⟩ <;> exact YangDemo.tidy _

/-! ## C132: a library that is removed is gone -/

/-- **C132**, in part: a library that is removed by its content identifier is found neither by it nor by any description, and its directory is gone; other libraries are found as
before, by content identifier and by description, and their directories are as before. -/
theorem c132_dropped_partial {h : List (StoreOp A X)} {c : LibCache A X} {d : Disk A X} (hr : Reach h c d) (contentId : String) :
    let c' := (removeContent c d contentId).1
    let d' := (removeContent c d contentId).2
    (∀ other, c'.getContent other = if other = contentId then none else c.getContent other) ∧ (∀ dir, d'.look dir = if dir = contentId then none else d.look dir) ∧
    ∀ info, c'.getInfo info = (c.getInfo info).filter (·.contentId ≠ contentId) := by
  have hi := hr.inv
  simp only
  unfold removeContent
  cases hc : c.byContent.look contentId with
  | none =>
    have hd : d.look contentId = none := by
      have := hi.content contentId
      rw [hc] at this
      simpa using this.symm
    refine ⟨fun other => ?_, fun dir => ?_, fun info => ?_⟩
    · by_cases e : other = contentId
      · rw [if_pos e]; subst e; exact hc
      · rw [if_neg e]
    · by_cases e : dir = contentId
      · rw [if_pos e]; subst e; exact hd
      · rw [if_neg e]
    · cases hk : c.getInfo info with
      | none => rfl
      | some r =>
        obtain ⟨_, e, he, _⟩ := hi.info _ r hk
        rw [Option.filter_some, if_pos]
        simp only [decide_eq_true_eq]
        intro e0
        rw [e0, hd] at he
        cases he
  | some r =>
    have hc' := hc
    rw [hi.content] at hc'
    obtain ⟨e, he, rfl⟩ := Option.map_eq_some_iff.mp hc'
    refine ⟨fun other => ?_, fun dir => ?_, fun info => ?_⟩
    · simp only [LibCache.getContent, lookup_del, eq_comm]
    · simp only [lookup_del, eq_comm]
    · simp only [LibCache.getInfo]
      rw [lookup_filter hi.uniqI]
      cases c.byInfo.look info.ident with
      | none => rfl
      | some r => simp [Option.filter_some]

example : (YangDemo.storeAfter (cacheHistory ++ [.dropContent "y"])).1.getInfo (YangDemo.info 2 50 9 20) = none ∧
    (YangDemo.storeAfter (cacheHistory ++ [.dropContent "y"])).1.getInfo (YangDemo.info 1 50 7 10) = some ⟨"x", "x"⟩ := by decide +kernel

/-- **C132** fails of numbers: they are removed by the content identifier of the router, so that the number of a description whose library was removed is still known, without a
library, and the number of a description whose library was not removed is not. -/
theorem c132_dropped_disproved :
    ∃ (h : List (StoreOp Nat Nat)) (c : LibCache Nat Nat) (d : Disk Nat Nat) (one two : SubInfo Nat Nat), Reach h c d ∧ Settled h ∧ AllTidy h ∧ OneEach h ∧
      c.getId 1 7 = some (one, some ⟨"x", "x"⟩) ∧ (removeContent c d "x").1.getId 1 7 = some (one, none) ∧
      c.getId 1 8 = some (two, some ⟨"router", "router"⟩) ∧ (removeContent c d "router").1.getInfo one = some ⟨"x", "x"⟩ ∧ (removeContent c d "router").1.getId 1 7 = none := by
  refine ⟨[YangDemo.putInfo 1 7 10 "x", YangDemo.putInfo 1 8 10 "router"], _, _, YangDemo.info 1 50 7 10, YangDemo.info 1 50 8 10, YangDemo.reach _ (by decide), ?_, ?_, ?_,
    by decide +kernel, by decide +kernel, by decide +kernel, by decide +kernel, by decide +kernel⟩
  · intro h1 h2 i l s e
    match h1, e with
    | [], _ => exact .inl rfl
    | [a], e =>
      simp only [YangDemo.putInfo, List.cons_append, List.nil_append, List.cons.injEq, StoreOp.put.injEq] at e
      obtain ⟨rfl, ⟨rfl, rfl, rfl⟩, _⟩ := e
      left; decide
    | a :: b :: h1, e => simp at e
  · intro i l s hm
    simp only [YangDemo.putInfo, List.mem_cons, StoreOp.put.injEq, List.not_mem_nil, or_false] at hm
    rcases hm with ⟨rfl, rfl, rfl⟩ | ⟨rfl, rfl, rfl⟩ <;> exact YangDemo.tidy _
  · intro i l s i' l' s' h1 h2 e1 e2
    simp only [YangDemo.putInfo, List.mem_cons, StoreOp.put.injEq, List.not_mem_nil, or_false] at h1 h2
    rcases h1 with ⟨rfl, rfl, rfl⟩ | ⟨rfl, rfl, rfl⟩ <;> rcases h2 with ⟨rfl, rfl, rfl⟩ | ⟨rfl, rfl, rfl⟩ <;> first | rfl | exact absurd e2 (by decide)

/-! ## C133: a description that is removed is gone, and its library if it was the last one -/

/-- **C133**, in part: a description that is removed is not found; others are found as before. The library is kept, with the files of its modules, as long as another description
has it, and its directory is gone otherwise; other libraries are as before. -/
theorem c133_removed_partial {h : List (StoreOp A X)} {c : LibCache A X} {d : Disk A X} (hr : Reach h c d) (info : SubInfo A X) :
    let c' := (removeInfo c d info).1
    let d' := (removeInfo c d info).2
    (∀ other, Alike other info → c'.getInfo other = none) ∧ (∀ other, ¬ Alike other info → c'.getInfo other = c.getInfo other) ∧
    ∀ contentId, (c.getInfo info).map (·.contentId) = some contentId →
      (∀ other, other ≠ contentId → c'.getContent other = c.getContent other ∧ d'.look other = d.look other) ∧
      ((∃ other, ¬ Alike other info ∧ (c.getInfo other).map (·.contentId) = some contentId) →
        c'.getContent contentId = c.getContent contentId ∧ ∀ r : Ref, r.schemas d' = r.schemas d) ∧
      ((∀ k, k ≠ info.ident → (c.byInfo.look k).map (·.contentId) ≠ some contentId) → c'.getContent contentId = none ∧ d'.look contentId = none) := by
  have hal : ∀ a b : SubInfo A X, Alike a b ↔ b.ident = a.ident := by
    intro a b
    constructor
    · rintro ⟨h1, h2, h3, h4, h5, h6, h7, h8, h9, h10⟩
      simp only [SubInfo.ident, h1, h2, h3, h4, h5, h6, h7, h8, h9, h10]
    · intro h
      have h' := h.symm
      simp only [SubInfo.ident, Ident.mk.injEq] at h'
      exact h'
  have hi := hr.inv
  simp only
  cases hk : c.byInfo.look info.ident with
  | none =>
    have he : removeInfo c d info = (c, d) := by unfold removeInfo; simp only [hk]
    rw [he]
    refine ⟨fun other e => ?_, fun _ _ => rfl, fun contentId hc => ?_⟩
    · unfold LibCache.getInfo; rw [← (hal _ _).mp e, hk]
    · simp only [LibCache.getInfo, hk] at hc
      simp at hc
  | some r =>
    obtain ⟨hdir, e, he, j, hj, ej⟩ := hi.info _ r hk
    have hcr : c.byContent.look r.contentId = some ⟨r.contentId, r.contentId⟩ := by rw [hi.content, he]; rfl
    have hany : (del c.byInfo info.ident).any (fun x => x.2.contentId = r.contentId) = true ↔
        ∃ k, k ≠ info.ident ∧ (c.byInfo.look k).map (·.contentId) = some r.contentId := by
      rw [List.any_eq_true]
      constructor
      · rintro ⟨x, hx, hc⟩
        have := lookup_of_mem (hi.uniqI.del info.ident) (k := x.1) (v := x.2) hx
        rw [lookup_del] at this
        split at this
        · cases this
        · rename_i hne
          exact ⟨x.1, Ne.symm hne, by rw [this]; simpa using hc⟩
      · rintro ⟨k, hne, hc⟩
        obtain ⟨q, hq, hc⟩ := Option.map_eq_some_iff.mp hc
        exact ⟨(k, q), mem_of_lookup (m := del c.byInfo info.ident) (by rw [lookup_del, if_neg (Ne.symm hne)]; exact hq), by simpa using hc⟩
    have hget : ∀ other : SubInfo A X, (removeInfo c d info).1.getInfo other = if info.ident = other.ident then none else c.getInfo other := by
      intro other
      have : (removeInfo c d info).1.byInfo = del c.byInfo info.ident := by
        unfold removeInfo
        simp only [hk]
        split <;> rfl
      unfold LibCache.getInfo
      rw [this, lookup_del]
    refine ⟨fun other e => by rw [hget, if_pos ((hal _ _).mp e)], fun other e => by rw [hget, if_neg fun e' => e ((hal _ _).mpr e')], fun contentId hc => ?_⟩
    simp only [LibCache.getInfo, hk, Option.map_some, Option.some.injEq] at hc
    subst hc
    by_cases hused : (del c.byInfo info.ident).any (fun x => x.2.contentId = r.contentId) = true
    · have hrem : removeInfo c d info = ({ c with byInfo := del c.byInfo info.ident, byId := c.delId info },
          put d r.contentId { e with subs := e.subs.filter fun j => j.ident ≠ info.ident }) := by
        unfold removeInfo
        simp only [hk, hused, if_true, hcr, removeSub, he]
      rw [hrem]
      refine ⟨fun other hne => ⟨rfl, by rw [lookup_put, if_neg (Ne.symm hne)]⟩, fun _ => ⟨rfl, fun q => ?_⟩, fun hno => ?_⟩
      · simp only [Ref.schemas, lookup_put]
        split
        · rename_i e0; rw [← e0, he]; rfl
        · rfl
      · obtain ⟨k, hne, hc⟩ := hany.mp hused
        exact absurd hc (hno k hne)
    · have hrem : removeInfo c d info = ({ byInfo := del c.byInfo info.ident, byContent := del c.byContent r.contentId, byId := c.delId info }, del d r.contentId) := by
        unfold removeInfo
        simp only [hk, hcr, Option.isSome_some, if_true]
        rw [if_neg hused]
      rw [hrem]
      refine ⟨fun other hne => ⟨by simp only [LibCache.getContent, lookup_del, if_neg (Ne.symm hne)], by simp only [lookup_del, if_neg (Ne.symm hne)]⟩, fun ⟨other, hne, hc⟩ => ?_,
        fun _ => ⟨by simp only [LibCache.getContent, lookup_del, if_true], by simp only [lookup_del, if_true]⟩⟩
      exact absurd (hany.mpr ⟨other.ident, fun e => hne ((hal _ _).mpr e.symm), hc⟩) hused

example : (YangDemo.storeAfter (cacheHistory.take 3)).1.getInfo (YangDemo.info 2 50 7 10) = some ⟨"x", "x"⟩ ∧
    (YangDemo.storeAfter (cacheHistory.take 4)).1.getInfo (YangDemo.info 2 50 7 10) = none ∧
    (YangDemo.storeAfter (cacheHistory.take 4)).1.getContent "x" = some ⟨"x", "x"⟩ ∧
    (YangDemo.storeAfter (cacheHistory.take 4 ++ [.dropInfo (YangDemo.info 1 50 7 10)])).1.getContent "x" = none := by decide +kernel

/-- **C133** fails of numbers: when a number was described otherwise since, removing the old description makes the new one be not found by number. -/
theorem c133_removed_disproved :
    ∃ (h : List (StoreOp Nat Nat)) (c : LibCache Nat Nat) (d : Disk Nat Nat) (old new : SubInfo Nat Nat), Reach h c d ∧ ¬ Alike new old ∧
      c.getId 1 7 = some (new, some ⟨"x", "x"⟩) ∧ (removeInfo c d old).1.getInfo new = some ⟨"x", "x"⟩ ∧ (removeInfo c d old).1.getId 1 7 = none := by
  refine ⟨[YangDemo.putInfo 1 7 10 "x", YangDemo.putInfo 1 7 20 "x"], _, _, YangDemo.info 1 50 7 10, YangDemo.info 1 50 7 20, YangDemo.reach _ (by decide), ?_, by decide +kernel,
    by decide +kernel, by decide +kernel⟩
  intro h
  have h8 := h.2.2.2.2.2.2.2.1
  exact absurd h8 (by decide)

end Verif.Props
