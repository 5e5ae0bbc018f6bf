import Verif.Collector.OptionsLemmas
import Verif.Props.EnrichActor
/-!
# What exporters tell in option records

C106 to C109.
-/
namespace Verif.Props
open Collector Collector.Hist Collector.Announce
open Flow (Field Ie DataRecord FlowSet IpfixPacket NetflowPacket ScopeField)

namespace Opt106
/-- the entries of a map in the order in which they were inserted -/
def inserted : MapOrder := ⟨id, fun _ => .refl _⟩
/-- and in the reverse order -/
def reversed : MapOrder := ⟨List.reverse, fun _ => List.reverse_perm _⟩
/-- an order in which two particular entries are exchanged -/
def exchanged : MapOrder where
  run m := if m.map (·.2) = [.known 0 46 (.unsigned32 1), .known 0 46 (.unsigned32 2)] then m.reverse else m
  perm m := by split; exact List.reverse_perm _; exact .refl _
end Opt106

section
variable {A : Type}

/-! ## C106 -/

/-- C106: whatever the order of the entries of hash maps, the operations from a packet are, for each of its option records in turn, one update for each thing
that the record tells, for the exporter and the domain of the packet -/
theorem c106_told (ord : MapOrder) (weight : UInt8) (ip : A) (p : Info) :
    Told ip (domainOf p) weight (announcements p) (packetOps ord weight ip p) := packet_told ord weight ip p

theorem told_mem {ip : A} {dom : UInt32} {weight : UInt8} {rs : List (List Field × List Field)} {ops : List (Op A Field Ie)} (h : Told ip dom weight rs ops)
    {scope fields s f : List Field} (hr : (scope, fields) ∈ rs) (ht : Tells scope fields s f) : ∃ o ∈ ops, Updates ip dom weight s f o := by
  induction h with
  | nil => simp at hr
  | @cons scope' fields' rs ops l g h1 h2 h3 _ ih =>
    rcases List.mem_cons.mp hr with e | hr
    · obtain ⟨rfl, rfl⟩ := Prod.mk.injEq .. ▸ e
      have hm := (h2 s f).mpr ht
      exact ⟨_, List.mem_append_left _ (List.mem_map_of_mem hm), h3 _ hm⟩
    · obtain ⟨o, ho, hu⟩ := ih hr
      exact ⟨o, List.mem_append_right _ ho, hu⟩

theorem mem_told {ip : A} {dom : UInt32} {weight : UInt8} {rs : List (List Field × List Field)} {ops : List (Op A Field Ie)} (h : Told ip dom weight rs ops)
    {o : Op A Field Ie} (ho : o ∈ ops) : ∃ scope fields s f, (scope, fields) ∈ rs ∧ Tells scope fields s f ∧ Updates ip dom weight s f o := by
  induction h with
  | nil => simp at ho
  | @cons scope' fields' rs ops l g h1 h2 h3 _ ih =>
    rcases List.mem_append.mp ho with ho | ho
    · obtain ⟨⟨s, f⟩, hm, rfl⟩ := List.mem_map.mp ho
      exact ⟨_, _, s, f, List.mem_cons_self .., (h2 s f).mp hm, h3 _ hm⟩
    · obtain ⟨scope, fields, s, f, hr, ht, hu⟩ := ih ho
      exact ⟨scope, fields, s, f, List.mem_cons_of_mem _ hr, ht, hu⟩

/-- C106: each operation comes from an option record that tells it, and each thing that a record tells leads to an operation -/
theorem c106_each (ord : MapOrder) (weight : UInt8) (ip : A) (p : Info) :
    (∀ o ∈ packetOps ord weight ip p, ∃ scope fields s f, (scope, fields) ∈ announcements p ∧ Tells scope fields s f ∧ Updates ip (domainOf p) weight s f o) ∧
    (∀ scope fields s f, (scope, fields) ∈ announcements p → Tells scope fields s f → ∃ o ∈ packetOps ord weight ip p, Updates ip (domainOf p) weight s f o) :=
  ⟨fun _ ho => mem_told (c106_told ord weight ip p) ho, fun _ _ _ _ hr ht => told_mem (c106_told ord weight ip p) hr ht⟩

/-- a packet of domain 5 with a template, a flow record, and option records for the interface 3, for the sampling of selector 9, and for a VRF -/
def c106Packet : Info := .ipfix ⟨⟨0, 0⟩, 1, 5,
  [.template [],
   .data 256 [⟨[], [.known 0 10 (.unsigned32 3)]⟩,
     ⟨[.known 0 14 (.unsigned32 3), .known 0 10 (.unsigned32 3), .known 0 144 (.unsigned32 7)], [.known 0 83 (.string "uplink"), .known 0 82 (.string "eth0")]⟩],
   .data 257 [⟨[.known 0 302 (.unsigned64 9)], [.known 0 210 (.octetArray [0]), .known 0 34 (.unsigned32 1000)]⟩],
   .data 258 [⟨[.known 0 235 (.unsigned32 8)], [.known 0 236 (.string "red")]⟩]]⟩

example : packetOps Opt106.inserted 16 (1 : Nat) c106Packet =
    [.upsert 1 ⟨5, some [.known 0 10 (.unsigned32 3)]⟩ 16 [.known 3746 8 (.string "eth0"), .known 3746 10 (.string "uplink")],
     .upsert 1 ⟨5, some [.known 0 14 (.unsigned32 3)]⟩ 16 [.known 3746 9 (.string "eth0"), .known 3746 11 (.string "uplink")],
     .upsert 1 ⟨5, some [.known 0 302 (.unsigned64 9)]⟩ 16 [.known 0 34 (.unsigned32 1000)],
     .upsert 1 ⟨5, some [.known 0 235 (.unsigned32 8)]⟩ 16 [.known 3746 13 (.string "red")]] := by decide

/-! ## C107 -/

/-- no two fields of the same element -/
def Distinct (fs : List Field) : Prop := (fs.map Field.ie).Nodup

/-- the value survives, or the same one that came later -/
theorem survives_refreshed {ops : List (Op A Field Ie)} {a b : List (Op A Field Ie)} {o : Op A Field Ie} {p : Place A Field Ie} {w : UInt8} {g : Field}
    (he : ops = a ++ o :: b) (ho : Puts o p w g) (hd : ∀ o' ∈ b, ∀ w', w ≤ w' → ¬ Drops o' p w')
    (hp : ∀ o' ∈ b, ∀ w' f', w ≤ w' → Puts o' p w' f' → f' = g) : ∃ w', w ≤ w' ∧ Survives ops p w' g := by
  induction b using snoc_induction generalizing ops with
  | nil => exact ⟨w, UInt8.le_refl _, a, o, [], he, ho, by simp⟩
  | append_singleton b o' ih =>
    obtain ⟨w', hw, hs⟩ := ih (ops := a ++ o :: b) rfl (fun x hx => hd x (List.mem_append_left _ hx)) (fun x hx => hp x (List.mem_append_left _ hx))
    have hops : ops = (a ++ o :: b) ++ [o'] := by simp [he]
    have hm : o' ∈ b ++ [o'] := by simp
    by_cases hE : Ends o' p w'
    · obtain ⟨w2, hw2, ⟨f', hf⟩ | hdrop⟩ := hE
      · have hle := UInt8.le_trans hw hw2
        obtain rfl := hp o' hm w2 f' hle hf
        exact ⟨w2, hle, a ++ o :: b, o', [], hops, hf, by simp⟩
      · exact absurd hdrop (hd o' hm w2 (UInt8.le_trans hw hw2))
    · rw [hops]
      exact ⟨w', hw, (survives_snoc _ _ _ _ _).mpr (.inl ⟨hs, hE⟩)⟩

theorem distinct_filter {fs : List Field} (h : Distinct fs) {g : Field} (hg : g ∈ fs) : (fs.filter fun f => ie f = (ie g : Ie)) = [g] := by
  induction fs with
  | nil => simp at hg
  | cons a fs ih =>
    obtain ⟨h1, h2⟩ := List.nodup_cons.mp (show (Field.ie a :: fs.map Field.ie).Nodup from h)
    rcases List.mem_cons.mp hg with rfl | hg
    · rw [List.filter_cons_of_pos (by simp)]
      congr 1
      rw [List.filter_eq_nil_iff]
      intro b hb hc
      exact h1 (List.mem_map.mpr ⟨b, hb, of_decide_eq_true hc⟩)
    · rw [List.filter_cons_of_neg]
      · exact ih h2 hg
      · intro hc
        exact h1 (List.mem_map.mpr ⟨g, hg, by have := of_decide_eq_true hc; exact this.symm⟩)

theorem distinct_perm {a b : List Field} (h : Distinct b) (hp : a.Perm b) : Distinct a := ((hp.map Field.ie).nodup_iff).mpr h

variable [DecidableEq A] [FieldOrd Field Ie]

theorem nth_distinct {fs : List Field} (h : Distinct fs) {i : Ie} {n : Nat} {g : Field} (hn : nth fs i n = some g) : g ∈ fs ∧ ie g = i ∧ n = 0 := by
  unfold nth at hn
  have hm := List.mem_filter.mp (List.mem_of_getElem? hn)
  have hi : (ie g : Ie) = i := by simpa using hm.2
  subst hi
  rw [distinct_filter h hm.1] at hn
  refine ⟨hm.1, rfl, ?_⟩
  cases n with
  | zero => rfl
  | succ n => simp at hn

theorem nth_zero_first (fs : List Field) (i : Ie) : nth fs i 0 = first fs i := by
  rw [← look_first, mapFields_lookup]; rfl

omit [DecidableEq A] [FieldOrd Field Ie] in
theorem packetOps_upsert {ord : MapOrder} {weight : UInt8} {ip : A} {p : Info} {o : Op A Field Ie} (h : o ∈ packetOps ord weight ip p) :
    ∃ ip' s w f, o = .upsert ip' s w f := by
  obtain ⟨_, _, _, _, _, _, s', f', rfl, _⟩ := mem_told (c106_told ord weight ip p) h
  exact ⟨_, _, _, _, rfl⟩

/-- C107: what an option record tells is added to the exporter's flow records of the domain that have the fields of the scope. It stays so until something of
equal or higher weight deletes it or says something else about the same element for such records. The scope may not have two fields of one element, nor may
what is told. -/
theorem c107_added_partial (ord : MapOrder) (weight : UInt8) (ip : A) (p : Info) (scope fields s f : List Field) (g : Field) (record : List Field)
    (pre post : List (Op A Field Ie)) (hr : (scope, fields) ∈ announcements p) (ht : Tells scope fields s f) (hg : g ∈ f) (hs : Distinct s) (hf : Distinct f)
    (hrec : ∀ h ∈ s, first record (Field.ie h) = some h)
    (hrival : ∀ o ∈ pre ++ packetOps ord weight ip p ++ post, ∀ (q : Place A Field Ie) (w : UInt8) (h : Field), Puts o q w h → q.ip = ip → q.ie = Field.ie g → q.index = 0 →
      Applies (domainOf p) record q.domain q.scope → weight ≤ w → h = g)
    (hdrop : ∀ o ∈ post, ∀ (q : Place A Field Ie) (w : UInt8), q.ip = ip → q.ie = Field.ie g → Applies (domainOf p) record q.domain q.scope → weight ≤ w → ¬ Drops o q w)
    (res : Option (List Field)) (h : (Cache.run (pre ++ packetOps ord weight ip p ++ post)).Returns ip (domainOf p) record res) :
    ∃ l, res = some l ∧ g ∈ l := by
  obtain ⟨o, ho, s', f', rfl, ps, pf⟩ := (c106_each ord weight ip p).2 _ _ _ _ hr ht
  have hs' := distinct_perm hs ps
  have hf' := distinct_perm hf pf
  let q : Place A Field Ie := ⟨ip, domainOf p, s', Field.ie g, 0⟩
  have hput : Puts (.upsert ip ⟨domainOf p, some s'⟩ weight f') q weight g := by
    refine ⟨_, _, _, rfl, ⟨rfl, rfl, rfl⟩, ?_⟩
    show (f'.filter fun x => ie x = (ie g : Ie))[0]? = some g
    rw [distinct_filter hf' (pf.mem_iff.mpr hg)]; rfl
  have happ : Applies (domainOf p) record q.domain q.scope := by
    refine ⟨.inr rfl, fun i n x hx => ?_⟩
    obtain ⟨hm, rfl, rfl⟩ := nth_distinct hs' hx
    rw [nth_zero_first]
    exact hrec x (ps.mem_iff.mp hm)
  obtain ⟨b1, b2, hb⟩ := List.append_of_mem ho
  obtain ⟨w', hw, hsurv⟩ := survives_refreshed (ops := pre ++ packetOps ord weight ip p ++ post) (a := pre ++ b1) (b := b2 ++ post)
    (by rw [hb]; simp) hput
    (by
      intro o' ho' w' hw'
      rcases List.mem_append.mp ho' with ho' | ho'
      · have : o' ∈ packetOps ord weight ip p := by rw [hb]; simp [ho']
        obtain ⟨_, _, _, _, rfl⟩ := packetOps_upsert this
        rintro (⟨_, _, _, h, -⟩ | ⟨_, _, h, -⟩) <;> simp at h
      · exact hdrop o' ho' q w' rfl rfl happ hw')
    (by
      intro o' ho' w' f' hw' hp'
      refine hrival o' ?_ q w' f' hp' rfl rfl rfl happ hw'
      rcases List.mem_append.mp ho' with ho' | ho'
      · rw [hb]; simp [ho']
      · simp [ho'])
  obtain ⟨l, x, hl, hx, -, q', w2, hw2, ha2, e1, e2, e3, hh⟩ := c89_complete _ q _ _ _ _ happ hsurv res h
  obtain ⟨pre', o2, post', he, hp2, -⟩ := hh.1
  have := hrival o2 (by rw [he]; simp) q' w2 x hp2 e1 e2 e3 ha2 (UInt8.le_trans hw hw2)
  subst this
  exact ⟨l, hl, hx⟩

end

section
local instance : FieldOrd Field Ie := En95.fieldOrd
open Opt106

theorem c106_interface : Tells [.known 0 14 (.unsigned32 3), .known 0 10 (.unsigned32 3), .known 0 144 (.unsigned32 7)]
    [.known 0 83 (.string "uplink"), .known 0 82 (.string "eth0")] [.known 0 10 (.unsigned32 3)]
    [.known 3746 8 (.string "eth0"), .known 3746 10 (.string "uplink")] := by
  refine .thing (t := interfaces) (way := .ingress) (n := 3) (.interface ?_ ⟨⟨.ingress, ?_⟩, _, List.mem_cons_self .., ?_⟩) rfl ?_ (by decide)
  · simp [Samples, Has, iana, Field.ie, Flow.Value.kind]
  · exact ⟨.known 0 10 (.unsigned32 3), by simp, rfl⟩
  · exact ⟨.known 0 82 (.string "eth0"), by simp, rfl⟩
  · intro way m h
    cases way <;> (simp [first, interfaces, Way.pick, iana, Field.ie, Flow.Value.kind] at h; exact h.symm)

/-- a flow record through the interface 3 of the exporter gets its name -/
example : Tells [.known 0 14 (.unsigned32 3), .known 0 10 (.unsigned32 3), .known 0 144 (.unsigned32 7)]
      [.known 0 83 (.string "uplink"), .known 0 82 (.string "eth0")] [.known 0 10 (.unsigned32 3)] [.known 3746 8 (.string "eth0"), .known 3746 10 (.string "uplink")] ∧
    (Cache.run (packetOps inserted 16 (1 : Nat) c106Packet)).Returns 1 5 [.known 0 2 (.unsigned64 100), .known 0 10 (.unsigned32 3), .known 0 14 (.unsigned32 4)]
      (some [.known 3746 8 (.string "eth0"), .known 3746 10 (.string "uplink")]) :=
  ⟨c106_interface, .inr ⟨by decide +kernel, _, rfl, by decide +kernel⟩⟩

/-- an option record of an exporter's domain 5 -/
def c107Option (scope fields : List Field) : Info := .ipfix ⟨⟨0, 0⟩, 1, 5, [.data 256 [⟨scope, fields⟩]]⟩

/-- C107 fails otherwise. Names for the different interfaces of both ways are dropped. A name that comes with the sampling of the interface does not become the name of the
ingress interface. Sampling announced for the observation domain is not known for the flows of that domain. And with two fields of one element in the scope it is up to
the order of a hash map whether a flow record with these fields gets what is told. -/
theorem c107_disproved :
    packetOps inserted 16 (1 : Nat) (c107Option [.known 0 10 (.unsigned32 3), .known 0 14 (.unsigned32 4)] [.known 0 82 (.string "eth0")]) = [] ∧
    (Cache.run (packetOps inserted 16 (1 : Nat) (c107Option [.known 0 10 (.unsigned32 3)] [.known 0 82 (.string "eth0"), .known 0 34 (.unsigned32 10)]))).Returns 1 5
      [.known 0 10 (.unsigned32 3)] (some [.known 0 82 (.string "eth0"), .known 0 34 (.unsigned32 10)]) ∧
    (Cache.run (packetOps inserted 16 (1 : Nat) (c107Option [.known 0 149 (.unsigned32 5)] [.known 0 34 (.unsigned32 10)]))).Returns 1 5
      [.known 0 2 (.unsigned64 100)] none ∧
    (Cache.run (packetOps inserted 16 (1 : Nat) (c107Option [.known 0 46 (.unsigned32 1), .known 0 46 (.unsigned32 2)] [.known 0 34 (.unsigned32 10)]))).Returns 1 5
      [.known 0 46 (.unsigned32 1), .known 0 46 (.unsigned32 2)] (some [.known 0 34 (.unsigned32 10)]) ∧
    (Cache.run (packetOps exchanged 16 (1 : Nat) (c107Option [.known 0 46 (.unsigned32 1), .known 0 46 (.unsigned32 2)] [.known 0 34 (.unsigned32 10)]))).Returns 1 5
      [.known 0 46 (.unsigned32 1), .known 0 46 (.unsigned32 2)] none := by
  refine ⟨by decide, .inr ⟨by decide +kernel, _, rfl, by decide +kernel⟩, .inl ⟨by decide +kernel, rfl⟩, .inr ⟨by decide +kernel, _, rfl, by decide +kernel⟩,
    .inl ⟨by decide +kernel, rfl⟩⟩

end

/-! ## C108 -/

section
variable {A : Type}

/-- C108: option records of NetFlow have the effect of those of IPFIX, their scope translated: packets of any kind with the same option records and the same
domain lead to the same operations -/
theorem c108_same (ord : MapOrder) (weight : UInt8) (ip : A) (p q : Info) (hd : domainOf p = domainOf q) (ha : announcements p = announcements q) :
    packetOps ord weight ip p = packetOps ord weight ip q := by
  rw [packetOps_eq, packetOps_eq, hd, ha]

theorem translateAll_mem {s : List ScopeField} {l : List Field} (h : translateAll s = some l) (f : Field) :
    f ∈ l ↔ ∃ x ∈ s, ∃ m, translate x = some m ∧ f ∈ m := by
  unfold translateAll at h
  split at h
  · rename_i hall
    simp only [Option.some.injEq] at h
    subst h
    simp only [List.mem_flatMap]
    constructor
    · rintro ⟨x, hx, hf⟩
      have := List.all_eq_true.mp hall x hx
      cases ht : translate x with
      | none => rw [ht] at this; simp at this
      | some m => rw [ht] at hf; exact ⟨x, hx, m, ht, hf⟩
    · rintro ⟨x, hx, m, ht, hf⟩
      exact ⟨x, hx, by rw [ht]; exact hf⟩
  · simp at h

theorem translate_ie {x : ScopeField} {m : List Field} (h : translate x = some m) {f : Field} (hf : f ∈ m) :
    (∃ i, x = .interface i ∧ (f = .known 0 10 (.unsigned32 i) ∨ f = .known 0 14 (.unsigned32 i))) ∨ ∃ c, f = .known 0 141 (.unsigned32 c) := by
  cases x <;> simp [translate] at h
  · subst h; simp at hf
  · subst h; simp at hf; exact .inl ⟨_, rfl, hf⟩
  · subst h; simp at hf; exact .inr ⟨_, hf⟩

theorem first_unique {fs : List Field} {i : Ie} {f : Field} (hm : f ∈ fs) (hi : Field.ie f = i) (hu : ∀ g ∈ fs, Field.ie g = i → g = f) : first fs i = some f := by
  cases h : first fs i with
  | none => exact absurd ⟨f, hm, hi⟩ (first_none.mp h)
  | some g => rw [hu g (List.mem_of_find?_eq_some h) (first_ie h)]

/-- C108: an option record of NetFlow that names an interface tells the name for the flows that come in through it and for those that go out through it,
if it does not also tell of sampling or of another interface -/
theorem c108_interface_partial (ord : MapOrder) (weight : UInt8) (ip : A) (p : NetflowPacket) (r : DataRecord ScopeField) (i : UInt32) (name : String) (l : List Field)
    (hr : r ∈ options p.sets) (hl : translateAll r.scope = some l) (hi : .interface i ∈ r.scope) (hu : ∀ j, .interface j ∈ r.scope → j = i)
    (hn : first r.fields (iana 82 .string) = some (.known 0 82 (.string name))) (hS : ¬ Samples r.fields)
    (h10 : ¬ Has r.fields (iana 10 .unsigned32)) (h14 : ¬ Has r.fields (iana 14 .unsigned32)) :
    (∃ s f, .upsert ip ⟨p.source, some (s)⟩ weight f ∈ packetOps ord weight ip (.netflow p) ∧
      (∀ x, x ∈ s ↔ x = .known 0 10 (.unsigned32 i) ∨ ∃ c, .lineCard c ∈ r.scope ∧ x = .known 0 141 (.unsigned32 c)) ∧ .known 3746 8 (.string name) ∈ f) ∧
    (∃ s f, .upsert ip ⟨p.source, some (s)⟩ weight f ∈ packetOps ord weight ip (.netflow p) ∧
      (∀ x, x ∈ s ↔ x = .known 0 14 (.unsigned32 i) ∨ ∃ c, .lineCard c ∈ r.scope ∧ x = .known 0 141 (.unsigned32 c)) ∧ .known 3746 9 (.string name) ∈ f) := by
  have hmem := translateAll_mem hl
  have hcases : ∀ f ∈ l, (f = .known 0 10 (.unsigned32 i) ∨ f = .known 0 14 (.unsigned32 i)) ∨ ∃ c, f = .known 0 141 (.unsigned32 c) := by
    intro f hf
    obtain ⟨x, hx, m, ht, hfm⟩ := (hmem f).mp hf
    rcases translate_ie ht hfm with ⟨j, rfl, h⟩ | h
    · obtain rfl := hu j hx
      exact .inl h
    · exact .inr h
  have hin : .known 0 10 (.unsigned32 i) ∈ l := (hmem _).mpr ⟨_, hi, _, rfl, by simp⟩
  have hout : .known 0 14 (.unsigned32 i) ∈ l := (hmem _).mpr ⟨_, hi, _, rfl, by simp⟩
  have hnot : ∀ j k, (j ≠ 10 ∧ j ≠ 14 ∧ j ≠ 141) → ¬ Has l (iana j k) := by
    rintro j k ⟨h1, h2, h3⟩ ⟨f, hf, he⟩
    rcases hcases f hf with (rfl | rfl) | ⟨c, rfl⟩ <;> simp [iana, Field.ie] at he
    · exact h1 he.1.symm
    · exact h2 he.1.symm
    · exact h3 he.1.symm
  have hS' : ¬ Samples (l ++ r.fields) := by
    unfold Samples at hS ⊢
    simp only [has_append, hnot 34 _ (by decide), hnot 50 _ (by decide), hnot 305 _ (by decide), hnot 306 _ (by decide), hnot 307 _ (by decide), hnot 308 _ (by decide),
      hnot 309 _ (by decide), hnot 310 _ (by decide), hnot 311 _ (by decide), false_or]
    exact hS
  have f10 : first (l ++ r.fields) (iana 10 .unsigned32) = some (.known 0 10 (.unsigned32 i)) := by
    refine first_unique (List.mem_append_left _ hin) rfl fun g hg he => ?_
    rcases List.mem_append.mp hg with hg | hg
    · rcases hcases g hg with (rfl | rfl) | ⟨c, rfl⟩
      · rfl
      · simp [iana, Field.ie] at he
      · simp [iana, Field.ie] at he
    · exact absurd ⟨g, hg, he⟩ h10
  have f14 : first (l ++ r.fields) (iana 14 .unsigned32) = some (.known 0 14 (.unsigned32 i)) := by
    refine first_unique (List.mem_append_left _ hout) rfl fun g hg he => ?_
    rcases List.mem_append.mp hg with hg | hg
    · rcases hcases g hg with (rfl | rfl) | ⟨c, rfl⟩
      · simp [iana, Field.ie] at he
      · rfl
      · simp [iana, Field.ie] at he
    · exact absurd ⟨g, hg, he⟩ h14
  have hab : About (l ++ r.fields) (some interfaces) := by
    refine .interface hS' ⟨⟨.ingress, _, List.mem_append_left _ hin, rfl⟩, _, List.mem_cons_self .., ?_⟩
    exact ⟨_, List.mem_append_right _ (List.mem_of_find?_eq_some hn), rfl⟩
  have hann : (l, r.fields) ∈ announcements (.netflow p) := List.mem_filterMap.mpr ⟨r, hr, by rw [hl]; rfl⟩
  have agree : ∀ way' m, first (l ++ r.fields) (iana (interfaces.number way') .unsigned32) = some (.known 0 (interfaces.number way') (.unsigned32 m)) → m = i := by
    intro way' m h
    cases way'
    · have := f10.symm.trans h
      simp at this; exact this.2.symm
    · have := f14.symm.trans h
      simp at this; exact this.2.symm
  have hattr : ∀ way, .known 3746 (Way.pick 8 9 way) (.string name) ∈ interfaces.attributesFor way r.fields := by
    intro way
    unfold Thing.attributesFor
    refine List.mem_filterMap.mpr ⟨_, List.mem_cons_self .., ?_⟩
    simp only [hn]
  have hrest : ∀ x, x ∈ without [iana (interfaces.number .ingress) .unsigned32, iana (interfaces.number .egress) .unsigned32, padding, process] l ↔
      ∃ c, .lineCard c ∈ r.scope ∧ x = .known 0 141 (.unsigned32 c) := by
    intro x
    unfold without
    rw [List.mem_filter]
    constructor
    · rintro ⟨hx, hk⟩
      rcases hcases x hx with (rfl | rfl) | ⟨c, rfl⟩
      · simp [interfaces, Way.pick, iana, Field.ie, Flow.Value.kind] at hk
      · simp [interfaces, Way.pick, iana, Field.ie, Flow.Value.kind] at hk
      · refine ⟨c, ?_, rfl⟩
        obtain ⟨y, hy, m, ht, hm⟩ := (hmem _).mp hx
        cases y <;> simp [translate] at ht <;> subst ht <;> simp at hm
        subst hm; exact hy
    · rintro ⟨c, hc, rfl⟩
      exact ⟨(hmem _).mpr ⟨_, hc, _, rfl, by simp⟩, by simp [interfaces, Way.pick, iana, padding, process, Field.ie, Flow.Value.kind]⟩
  have go : ∀ way, first (l ++ r.fields) (iana (interfaces.number way) .unsigned32) = some (.known 0 (interfaces.number way) (.unsigned32 i)) →
      ∃ s f, .upsert ip ⟨p.source, some (s)⟩ weight f ∈ packetOps ord weight ip (.netflow p) ∧
        (∀ x, x ∈ s ↔ x = .known 0 (interfaces.number way) (.unsigned32 i) ∨ ∃ c, .lineCard c ∈ r.scope ∧ x = .known 0 141 (.unsigned32 c)) ∧
        .known 3746 (Way.pick 8 9 way) (.string name) ∈ f := by
    intro way hw
    have ht : Tells l r.fields _ _ := .thing (way := way) hab hw agree (List.ne_nil_of_mem (hattr way))
    obtain ⟨o, ho, s', f', rfl, ps, pf⟩ := (c106_each ord weight ip (.netflow p)).2 _ _ _ _ hann ht
    refine ⟨s', f', ho, fun x => ?_, pf.mem_iff.mpr (hattr way)⟩
    rw [ps.mem_iff, List.mem_cons, hrest]
  exact ⟨go .ingress f10, go .egress f14⟩

/-- an option record of NetFlow for interface 3 -/
def c108Packet (fields : List Field) : NetflowPacket := ⟨0, ⟨0, 0⟩, 1, 5, [.data 256 [⟨[.system 1, .interface 3, .lineCard 2], fields⟩]]⟩

example : packetOps Opt106.inserted 16 (1 : Nat) (.netflow (c108Packet [.known 0 82 (.string "eth0")])) =
    [.upsert 1 ⟨5, some [.known 0 10 (.unsigned32 3), .known 0 141 (.unsigned32 2)]⟩ 16 [.known 3746 8 (.string "eth0")],
     .upsert 1 ⟨5, some [.known 0 14 (.unsigned32 3), .known 0 141 (.unsigned32 2)]⟩ 16 [.known 3746 9 (.string "eth0")]] := by decide

end

section
local instance : FieldOrd Field Ie := En95.fieldOrd

/-- an option record of NetFlow for the scope of an interface -/
def c108Sampling : Info := .netflow ⟨0, ⟨0, 0⟩, 1, 5, [.data 256 [⟨[.interface 3], [.known 0 34 (.unsigned32 1000)]⟩]]⟩

/-- C108 fails for sampling: what a record of NetFlow tells for the scope of an interface holds only for flows that both come in and go out through it, so that
neither the flows that come in there nor those that go out there get it -/
theorem c108_disproved :
    packetOps Opt106.inserted 16 (1 : Nat) c108Sampling = [.upsert 1 ⟨5, some [.known 0 10 (.unsigned32 3), .known 0 14 (.unsigned32 3)]⟩ 16 [.known 0 34 (.unsigned32 1000)]] ∧
    (Cache.run (packetOps Opt106.inserted 16 (1 : Nat) c108Sampling)).Returns 1 5 [.known 0 10 (.unsigned32 3), .known 0 14 (.unsigned32 4)] none ∧
    (Cache.run (packetOps Opt106.inserted 16 (1 : Nat) c108Sampling)).Returns 1 5 [.known 0 10 (.unsigned32 4), .known 0 14 (.unsigned32 3)] none ∧
    (Cache.run (packetOps Opt106.inserted 16 (1 : Nat) c108Sampling)).Returns 1 5 [.known 0 10 (.unsigned32 3), .known 0 14 (.unsigned32 3)]
      (some [.known 0 34 (.unsigned32 1000)]) :=
  ⟨by decide, .inl ⟨by decide +kernel, rfl⟩, .inl ⟨by decide +kernel, rfl⟩, .inr ⟨by decide +kernel, _, rfl, by decide +kernel⟩⟩

end

/-! ## C109 -/

section
variable {A σ η : Type}

/-- all the operations that packets lead to -/
def toldBy (ord : MapOrder) (weight : UInt8) (addr : σ → A) (ps : List (σ × Info)) : List (Op A Field Ie) :=
  ps.flatMap fun x => packetOps ord weight (addr x.1) x.2

theorem copies [DecidableEq η] {handles : List η} (hh : handles.Nodup) (o : Op A Field Ie) (cache : η) :
    ((handles.map fun h => (h, o)).filter fun x => x.1 = cache).map (·.2) = if cache ∈ handles then [o] else [] := by
  induction handles with
  | nil => simp
  | cons a as ih =>
    obtain ⟨h1, h2⟩ := List.nodup_cons.mp hh
    rw [List.map_cons]
    by_cases ha : a = cache
    · subst ha
      rw [List.filter_cons_of_pos (by simp), List.map_cons, ih h2]
      simp [h1]
    · rw [List.filter_cons_of_neg (by simpa using ha), ih h2]
      simp [Ne.symm ha]

/-- C109: each cache gets operations of the packets that came, in their order, none twice -/
theorem c109_order [DecidableEq η] (ord : MapOrder) (weight : UInt8) (addr : σ → A) (handles : List η) (hh : handles.Nodup) (ps : List (σ × Info))
    (out : List (η × Op A Field Ie)) (h : OptionsRuns ord weight addr handles ps out) (cache : η) :
    ((out.filter fun x => x.1 = cache).map (·.2)).Sublist (toldBy ord weight addr ps) := by
  induction h with
  | stop => simp
  | @packet peer p ps sent out hs _ ih =>
    rw [List.filter_append, List.map_append]
    show List.Sublist _ (List.flatMap _ (_ :: _))
    rw [List.flatMap_cons]
    refine List.Sublist.append ?_ ih
    refine ((hs.filter _).map _).trans ?_
    generalize packetOps ord weight (addr peer) p = ops
    induction ops with
    | nil => simp
    | cons o ops ih2 =>
      rw [List.flatMap_cons, List.filter_append, List.map_append]
      rw [copies hh]
      split
      · exact ih2.cons_cons o
      · exact List.Sublist.trans ih2 (List.sublist_cons_self ..)

/-- C109: and it gets all of them if each can be handed over before the actor stops -/
theorem c109_all [DecidableEq η] (ord : MapOrder) (weight : UInt8) (addr : σ → A) (handles : List η) (hh : handles.Nodup) (ps : List (σ × Info)) :
    ∃ out, OptionsRuns ord weight addr handles ps out ∧ ∀ cache ∈ handles, (out.filter fun x => x.1 = cache).map (·.2) = toldBy ord weight addr ps := by
  induction ps with
  | nil => exact ⟨[], .stop, by simp [toldBy]⟩
  | cons x ps ih =>
    obtain ⟨out, h1, h2⟩ := ih
    refine ⟨_, .packet (List.Sublist.refl _) h1, fun cache hc => ?_⟩
    rw [List.filter_append, List.map_append, h2 cache hc]
    show _ = List.flatMap _ (_ :: _)
    rw [List.flatMap_cons]
    congr 1
    generalize packetOps ord weight (addr x.1) x.2 = ops
    induction ops with
    | nil => rfl
    | cons o ops ih2 => rw [List.flatMap_cons, List.filter_append, List.map_append, copies hh, ih2, if_pos hc]; rfl

theorem recordOps_nil (ord : MapOrder) (weight : UInt8) (ip : A) (dom : UInt32) (scope fields : List Field) (h : ∀ s f, ¬ Tells scope fields s f) :
    recordOps ord weight ip dom (classify (.new scope fields)) = [] := by
  obtain ⟨l, g, -, h2, -, h4⟩ := record_told ord weight ip dom scope fields
  have : l = [] := by
    cases l with
    | nil => rfl
    | cons u l => exact absurd ((h2 u.1 u.2).mp (List.mem_cons_self ..)) (h _ _)
  rw [h4, this]; rfl

/-- C109: a record that tells nothing, as one that cannot be made sense of, makes no difference to the others -/
theorem c109_skipped (ord : MapOrder) (weight : UInt8) (ip : A) (p q : Info) (before after : List (List Field × List Field)) (scope fields : List Field)
    (hd : domainOf p = domainOf q) (hp : announcements p = before ++ (scope, fields) :: after) (hq : announcements q = before ++ after)
    (h : ∀ s f, ¬ Tells scope fields s f) : packetOps ord weight ip p = packetOps ord weight ip q := by
  rw [packetOps_eq, packetOps_eq, hp, hq, hd, List.flatMap_append, List.flatMap_append, List.flatMap_cons, recordOps_nil _ _ _ _ _ _ h]
  rfl

/-- names for the different interfaces of both ways tell nothing -/
example : ∀ s f, ¬ Tells [.known 0 10 (.unsigned32 3), .known 0 14 (.unsigned32 4)] [.known 0 82 (.string "eth0")] s f := by
  intro s f h
  obtain ⟨l, g, -, h2, -, h4⟩ := record_told Opt106.inserted 16 (1 : Nat) 5 [.known 0 10 (.unsigned32 3), .known 0 14 (.unsigned32 4)] [.known 0 82 (.string "eth0")]
  have hm := (h2 s f).mpr h
  have : recordOps Opt106.inserted 16 (1 : Nat) 5 (classify (.new [.known 0 10 (.unsigned32 3), .known 0 14 (.unsigned32 4)] [.known 0 82 (.string "eth0")])) = [] := by decide
  rw [this] at h4
  have : l = [] := by simpa using h4.symm
  rw [this] at hm; simp at hm

/-- operations of which the second cache misses one -/
def c109Sent : List (Bool × Op Nat Field Ie) :=
  [(true, .upsert 1 ⟨5, some [.known 0 10 (.unsigned32 3)]⟩ 16 [.known 3746 8 (.string "eth0"), .known 3746 10 (.string "uplink")]),
   (true, .upsert 1 ⟨5, some [.known 0 14 (.unsigned32 3)]⟩ 16 [.known 3746 9 (.string "eth0"), .known 3746 11 (.string "uplink")]),
   (false, .upsert 1 ⟨5, some [.known 0 14 (.unsigned32 3)]⟩ 16 [.known 3746 9 (.string "eth0"), .known 3746 11 (.string "uplink")])]

example : OptionsRuns Opt106.inserted 16 (id : Nat → Nat) [true, false] [(1, c106Packet), (1, c106Packet)] (c109Sent ++ []) :=
  .packet (List.isSublist_iff_sublist.mp (by decide)) .stop

end

end Verif.Props
