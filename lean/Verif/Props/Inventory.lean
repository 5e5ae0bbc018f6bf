import Verif.Collector.SonataLemmas
import Verif.Collector.LabelLemmas
import Verif.Props.EnrichActor
/-!
# Enrichment from an inventory, and labels of YANG push messages

C115 to C119.
-/
namespace Verif.Props
open Collector Collector.Hist Collector.MapFile Collector.Inventory
open Flow (Field Value Ie)

section
variable {A : Type}

theorem sonata_puts (weight : UInt8) (n : SonataNode A) (p : Place A Field Ie) (w : UInt8) (f : Field) : Puts (sonataSet weight n) p w f ↔ Told weight n p w f := by
  obtain ⟨ip, dom, sc, i, k⟩ := p
  unfold Puts Told sonataSet At
  constructor
  · rintro ⟨_, _, _, e, ⟨h1, h2, h3⟩, h4⟩
    simp only [Op.upsert.injEq] at e
    obtain ⟨rfl, rfl, rfl, rfl⟩ := e
    simp only at h1 h2 h3 h4
    subst h1 h2
    simp only [Option.getD_none] at h3
    subst h3
    refine ⟨rfl, rfl, rfl, rfl, ?_⟩
    unfold nth at h4
    by_cases e1 : (Ie.known 3746 5 .string) = i
    · subst e1
      have : ([Field.known 3746 5 (.string n.hostname), .known 3746 6 (.string n.platform)].filter fun f => ie f = (Ie.known 3746 5 .string)) = [.known 3746 5 (.string n.hostname)] := by rfl
      rw [this] at h4
      cases k with
      | zero => simp at h4; exact ⟨rfl, .inl ⟨rfl, h4.symm⟩⟩
      | succ k => simp at h4
    · by_cases e2 : (Ie.known 3746 6 .string) = i
      · subst e2
        have : ([Field.known 3746 5 (.string n.hostname), .known 3746 6 (.string n.platform)].filter fun f => ie f = (Ie.known 3746 6 .string)) = [.known 3746 6 (.string n.platform)] := by rfl
        rw [this] at h4
        cases k with
        | zero => simp at h4; exact ⟨rfl, .inr ⟨rfl, h4.symm⟩⟩
        | succ k => simp at h4
      · have g1 : ie (Field.known 3746 5 (.string n.hostname)) = (Ie.known 3746 5 .string) := rfl
        have g2 : ie (Field.known 3746 6 (.string n.platform)) = (Ie.known 3746 6 .string) := rfl
        rw [List.filter_cons, List.filter_cons, g1, g2] at h4
        simp [e1, e2] at h4
  · rintro ⟨rfl, h1, h2, h3, h4, h5⟩
    simp only at h1 h2 h3 h4 h5
    subst h1 h2 h3 h4
    refine ⟨_, _, _, rfl, ⟨rfl, rfl, rfl⟩, ?_⟩
    rcases h5 with ⟨rfl, rfl⟩ | ⟨rfl, rfl⟩ <;> rfl

theorem sonata_remove_puts (weight : UInt8) (a : A) (p : Place A Field Ie) (w : UInt8) (f : Field) : ¬ Puts (sonataRemove weight a) p w f := by
  rintro ⟨_, _, _, e, -⟩
  simp [sonataRemove] at e

theorem told_ends_remove {weight : UInt8} {n : SonataNode A} {p : Place A Field Ie} {w : UInt8} {f : Field} (h : Puts (sonataSet weight n) p w f) :
    Ends (sonataRemove weight n.loopback) p w := by
  obtain ⟨rfl, h1, h2, h3, -, h5⟩ := (sonata_puts _ _ _ _ _).mp h
  refine ⟨w, UInt8.le_refl _, .inr (.inl ⟨_, _, _, rfl, ⟨h1.symm, h2.symm, h3.symm⟩, ?_⟩)⟩
  rcases h5 with ⟨e, -⟩ | ⟨e, -⟩ <;> rw [e] <;> simp

theorem told_ends_set {weight : UInt8} {n n' : SonataNode A} {p : Place A Field Ie} {w : UInt8} {f : Field} (h : Puts (sonataSet weight n) p w f)
    (hl : n'.loopback = n.loopback) : Ends (sonataSet weight n') p w := by
  obtain ⟨rfl, h1, h2, h3, h4, h5⟩ := (sonata_puts _ _ _ _ _).mp h
  rcases h5 with ⟨e, -⟩ | ⟨e, -⟩
  · exact ⟨w, UInt8.le_refl _, .inl ⟨_, (sonata_puts _ _ _ _ _).mpr ⟨rfl, h1.trans hl.symm, h2, h3, h4, .inl ⟨e, rfl⟩⟩⟩⟩
  · exact ⟨w, UInt8.le_refl _, .inl ⟨_, (sonata_puts _ _ _ _ _).mpr ⟨rfl, h1.trans hl.symm, h2, h3, h4, .inr ⟨e, rfl⟩⟩⟩⟩

theorem remove_ends_told {weight : UInt8} {n : SonataNode A} {a : A} {p : Place A Field Ie} {w : UInt8} {f : Field} (h : Puts (sonataSet weight n) p w f)
    (he : Ends (sonataRemove weight a) p w) : a = n.loopback := by
  obtain ⟨-, h1, -⟩ := (sonata_puts _ _ _ _ _).mp h
  obtain ⟨w', -, ⟨f', hp⟩ | ⟨_, _, _, e, ha, -⟩ | ⟨_, _, e, -⟩⟩ := he
  · exact absurd hp (sonata_remove_puts _ _ _ _ _)
  · simp only [sonataRemove, Op.delete.injEq] at e
    rw [← h1, ← ha.1, e.1]
  · simp [sonataRemove] at e

theorem set_ends_told {weight : UInt8} {n n' : SonataNode A} {p : Place A Field Ie} {w : UInt8} {f : Field} (h : Puts (sonataSet weight n) p w f)
    (he : Ends (sonataSet weight n') p w) : n'.loopback = n.loopback := by
  obtain ⟨-, h1, -⟩ := (sonata_puts _ _ _ _ _).mp h
  obtain ⟨w', -, ⟨f', hp⟩ | ⟨_, _, _, e, -⟩ | ⟨_, _, e, -⟩⟩ := he
  · rw [← ((sonata_puts _ _ _ _ _).mp hp).2.1, h1]
  · simp [sonataSet] at e
  · simp [sonataSet] at e
end

section
variable {A : Type} [DecidableEq A]

/-! ## C115 -/

/-- C115: what is held of flows comes from another source, or is what the last message about a node says that is in the inventory -/
theorem c115_nothing_stale (weight : UInt8) (ms : List (Option (SonataData A))) (others hist : List (Op A Field Ie)) (hi : Interleave (sonataOps weight ms) others hist)
    (p : Place A Field Ie) (w : UInt8) (f : Field) (hs : Survives hist p w f) : (∃ id n, Listed ms id n ∧ Told weight n p w f) ∨ Survives others p w f := by
  rcases interleave_survives hi hs with h | h
  · obtain ⟨id, n, h1, h2⟩ := inventory_sound (puts := Puts) (ends := Ends) (valid := Op.valid) (remove := sonataRemove weight) (set := sonataSet weight)
      (fun _ => rfl) (fun _ => rfl) (fun _ _ _ _ h => told_ends_remove h) (fun _ _ _ _ _ h hl => told_ends_set h hl) (fun _ _ _ _ => sonata_remove_puts _ _ _ _ _) ms p w f h
    exact .inl ⟨id, n, h1, (sonata_puts _ _ _ _ _).mp h2⟩
  · exact .inr h

section
local instance inventoryOrd1 : FieldOrd Field Ie := En95.fieldOrd

/-- C115: what is added to a flow record comes from another source, or is the name or the platform of the node in the inventory with the address of the exporter -/
theorem c115_returned (weight : UInt8) (ms : List (Option (SonataData A))) (others hist : List (Op A Field Ie)) (hi : Interleave (sonataOps weight ms) others hist)
    (ip : A) (dom : UInt32) (record l : List Field) (hr : (Cache.run hist).Returns ip dom record (some l)) (f : Field) (hf : f ∈ l) :
    (∃ id n, Listed ms id n ∧ n.loopback = ip ∧ (f = .known 3746 5 (.string n.hostname) ∨ f = .known 3746 6 (.string n.platform))) ∨
      ∃ p w, p.ip = ip ∧ Applies dom record p.domain p.scope ∧ Survives others p w f := by
  obtain ⟨p, w, h1, h2, h3⟩ := c89_sound hist ip dom record l hr f hf
  rcases c115_nothing_stale weight ms others hist hi p w f h3 with ⟨id, n, hn, -, hip, -, -, -, h⟩ | h
  · refine .inl ⟨id, n, hn, hip.symm.trans h1, ?_⟩
    rcases h with ⟨-, h⟩ | ⟨-, h⟩
    · exact .inl h
    · exact .inr h
  · exact .inr ⟨p, w, h1, h2, h⟩
end

/-! ## C116 -/

/-- C116, if no two nodes have the same address at the same time: what a node in the inventory is, is known of its flows, unless another source ends it -/
theorem c116_known_partial (weight : UInt8) (ms : List (Option (SonataData A))) (hd : Distinct ms) (others hist : List (Op A Field Ie))
    (hi : Interleave (sonataOps weight ms) others hist) (id : UInt32) (n : SonataNode A) (hl : Listed ms id n) (p : Place A Field Ie) (w : UInt8) (f : Field)
    (ht : Told weight n p w f) (ho : ∀ o ∈ others, ¬ Ends o p w) : Survives hist p w f :=
  survives_interleave hi (inventory_complete (puts := Puts) (ends := Ends) (valid := Op.valid) (remove := sonataRemove weight) (set := sonataSet weight)
    (fun _ => rfl) (fun _ => rfl) (fun _ _ _ _ _ h he => remove_ends_told h he) (fun _ _ _ _ _ h he => set_ends_told h he) ms hd id n hl p w f
    ((sonata_puts _ _ _ _ _).mpr ht)) ho
end

namespace Inv115
def n1 : SonataNode Nat := ⟨"zbl1", 1, "vendor X"⟩
def n2 : SonataNode Nat := ⟨"zbl2", 1, "vendor Y"⟩
def n3 : SonataNode Nat := ⟨"zbl1", 2, "vendor X"⟩
/-- a node is replaced by another one with the same address before the old one is deleted -/
def replaced : List (Option (SonataData Nat)) := [some ⟨.insert, 1, some n1⟩, none, some ⟨.insert, 2, some n2⟩, some ⟨.update, 2, none⟩, some ⟨.delete, 1, none⟩]
/-- a node gets another address -/
def moved : List (Option (SonataData Nat)) := [some ⟨.insert, 1, some n1⟩, some ⟨.update, 1, some n3⟩]
def place (a : Nat) : Place Nat Field Ie := ⟨a, 0, [], .known 3746 5 .string, 0⟩

theorem listed : Listed replaced 2 n2 := by
  refine ⟨[some ⟨.insert, 1, some n1⟩, none], ⟨.insert, 2, some n2⟩, [some ⟨.update, 2, none⟩, some ⟨.delete, 1, none⟩], rfl, by decide, rfl, rfl, ?_⟩
  rintro m hm ⟨d, rfl, h1, h2⟩
  simp only [List.mem_cons, Option.some.injEq, List.not_mem_nil, or_false] at hm
  rcases hm with rfl | rfl
  · simp at h2
  · simp at h1
theorem told : Told 50 n2 (place 1) 50 (.known 3746 5 (.string "zbl2")) := ⟨rfl, rfl, rfl, rfl, rfl, .inl ⟨rfl, rfl⟩⟩
theorem only {id : UInt32} {n : SonataNode Nat} (h : Listed replaced id n) : id = 2 := by
  obtain ⟨pre, d, post, e, h1, h2, h3, h4⟩ := h
  rcases pre with _ | ⟨a, pre⟩
  · simp only [replaced, List.nil_append, List.cons.injEq, Option.some.injEq] at e
    obtain ⟨rfl, rfl⟩ := e
    exact absurd ⟨_, rfl, h2, .inl rfl⟩ (h4 (some ⟨.delete, 1, none⟩) (by simp))
  · rcases pre with _ | ⟨b, pre⟩
    · simp [replaced] at e
    · rcases pre with _ | ⟨c, pre⟩
      · simp only [replaced, List.cons_append, List.nil_append, List.cons.injEq, Option.some.injEq] at e
        obtain ⟨-, -, rfl, rfl⟩ := e
        exact h2.symm
      · rcases pre with _ | ⟨c, pre⟩
        · simp only [replaced, List.cons_append, List.nil_append, List.cons.injEq, Option.some.injEq] at e
          obtain ⟨-, -, -, rfl, rfl⟩ := e
          simp at h3
        · rcases pre with _ | ⟨c, pre⟩
          · simp only [replaced, List.cons_append, List.nil_append, List.cons.injEq, Option.some.injEq] at e
            obtain ⟨-, -, -, -, rfl, rfl⟩ := e
            exact absurd rfl h1
          · simp [replaced] at e
theorem ops : sonataOps 50 replaced = [sonataSet 50 n1, sonataSet 50 n2, sonataRemove 50 1] := by decide +kernel
theorem moves : sonataOps 50 moved = [sonataSet 50 n1, sonataRemove 50 1, sonataSet 50 n3] := by decide +kernel
end Inv115

/-- C116 does not hold in general: what a node is, is not known although it is the only one in the inventory and no other source has ever sent anything, because another
node that had the same address was deleted -/
theorem c116_known_disproved : ¬ ∀ (weight : UInt8) (ms : List (Option (SonataData Nat))) (id : UInt32) (n : SonataNode Nat), Listed ms id n →
    (∀ id' n', Listed ms id' n' → id' = id) → ∀ p w f, Told weight n p w f → Survives (sonataOps weight ms) p w f := by
  intro hall
  have h := hall 50 _ 2 _ Inv115.listed (fun _ _ h => Inv115.only h) _ _ _ Inv115.told
  rw [Inv115.ops] at h
  rcases (survives_append [sonataSet 50 Inv115.n1, sonataSet 50 Inv115.n2] [sonataRemove 50 1] _ _ _).mp h with h | ⟨-, h⟩
  · obtain ⟨o, ho, hp⟩ := survives_mem h
    simp only [List.mem_singleton] at ho
    subst ho
    exact sonata_remove_puts _ _ _ _ _ hp
  · exact h _ (List.mem_singleton.mpr rfl) (told_ends_remove ((sonata_puts 50 Inv115.n2 _ _ _).mpr Inv115.told))

/-- a node that got another address: the old address is not known any more, and the new one is -/
example : ∃ id n, Listed Inv115.moved id n ∧ Told 50 n (Inv115.place 2) 50 (.known 3746 5 (.string "zbl1")) ∧
    Survives (sonataOps 50 Inv115.moved) (Inv115.place 2) 50 (.known 3746 5 (.string "zbl1")) := by
  refine ⟨1, Inv115.n3, ⟨[some ⟨.insert, 1, some Inv115.n1⟩], ⟨.update, 1, some Inv115.n3⟩, [], rfl, by decide, rfl, rfl, by simp⟩, ⟨rfl, rfl, rfl, rfl, rfl, .inl ⟨rfl, rfl⟩⟩, ?_⟩
  rw [Inv115.moves]
  exact ⟨[sonataSet 50 Inv115.n1, sonataRemove 50 1], _, [], rfl, (sonata_puts 50 Inv115.n3 _ _ _).mpr ⟨rfl, rfl, rfl, rfl, rfl, .inl ⟨rfl, rfl⟩⟩, by simp⟩

/-- in it no two nodes have the same address -/
example : Distinct Inv115.moved := by
  rintro ms' ⟨t, e⟩ id n id' n' h h' -
  have key : ∀ {id n}, Listed ms' id n → id = 1 := by
    rintro id n ⟨pre, d, post, rfl, h1, h2, h3, -⟩
    have hm : some d ∈ Inv115.moved := by rw [← e]; simp
    simp only [Inv115.moved, List.mem_cons, Option.some.injEq, List.not_mem_nil, or_false] at hm
    rcases hm with rfl | rfl <;> exact h2.symm
  rw [key h, key h']

/-! ## C117 -/

section
open LabelHist YangPush
variable {A X V M : Type} [DecidableEq A]

/-- C117: after any history of operations, messages from an address are labelled with the value of the highest weight that was brought for each name and that nothing
ended, and only with these -/
theorem c117_labels (ops : List (LabelOp A V)) (ip : A) (res : Option (List (Label V))) (h : LabelsOf (ops.foldl applyLabels []) ip res) : LabelHist.Answers ops ip res :=
  answers_run ops ip res h

theorem telemetries_from {manifest : M} {c : List (A × LabelMap V)} {es : List (LabelEvent A X V)} {outs : List (Option String × SubInfo A X × Telemetry A X V M)}
    (h : Telemetries manifest c es outs) (before : List (LabelEvent A X V)) (hc : c = (labelOps before).foldl applyLabels []) :
    outs.map (fun o => (o.1, o.2.1, o.2.2.payload)) = (notificationsOf es).map (fun n => (n.1, n.2.1, some n.2.2.json)) ∧
    ∀ pre cid info d post, es = pre ++ .notification cid info d :: post → d.contents ≠ none →
      ∃ t, outs[(notificationsOf pre).length]? = some (cid, info, t) ∧ LabelHist.Answers (labelOps (before ++ pre)) info.peer.ip t.labels ∧
        t.nodeTime = some d.eventTime ∧ t.exportAddress = info.peer.ip ∧ t.exportPort = some info.peer.port ∧ t.collectorManifest = some manifest ∧ t.payload = some d.json := by
  induction h generalizing before with
  | nil => exact ⟨rfl, fun pre cid info d post e => by simp at e⟩
  | @op c o es outs h ih =>
    obtain ⟨h1, h2⟩ := ih (before ++ [.op o]) (by subst hc; simp [labelOps])
    refine ⟨h1, fun pre cid info d post e hd => ?_⟩
    cases pre with
    | nil => simp at e
    | cons x pre =>
      simp only [List.cons_append, List.cons.injEq] at e
      obtain ⟨rfl, e⟩ := e
      have := h2 pre cid info d post e hd
      rw [List.append_assoc] at this
      exact this
  | @skip c cid info d es outs hd h ih =>
    obtain ⟨h1, h2⟩ := ih (before ++ [.notification cid info d]) (by subst hc; simp [labelOps])
    refine ⟨by simpa [notificationsOf, hd] using h1, fun pre cid' info' d' post e hd' => ?_⟩
    cases pre with
    | nil =>
      simp only [List.nil_append, List.cons.injEq, LabelEvent.notification.injEq] at e
      obtain ⟨⟨-, -, rfl⟩, -⟩ := e
      exact absurd hd hd'
    | cons x pre =>
      simp only [List.cons_append, List.cons.injEq] at e
      obtain ⟨rfl, e⟩ := e
      have := h2 pre cid' info' d' post e hd'
      rw [List.append_assoc] at this
      simpa [notificationsOf, hd] using this
  | @send c cid info d es outs labels now hd hl h ih =>
    obtain ⟨h1, h2⟩ := ih (before ++ [.notification cid info d]) (by subst hc; simp [labelOps])
    have hs : d.contents.isSome = true := Option.isSome_iff_ne_none.mpr hd
    refine ⟨by simpa [notificationsOf, hs, telemetryOf] using h1, fun pre cid' info' d' post e hd' => ?_⟩
    cases pre with
    | nil =>
      simp only [List.nil_append, List.cons.injEq, LabelEvent.notification.injEq] at e
      obtain ⟨⟨rfl, rfl, rfl⟩, -⟩ := e
      refine ⟨_, rfl, ?_, rfl, rfl, rfl, rfl, rfl⟩
      rw [List.append_nil]
      subst hc
      exact answers_run _ _ _ hl
    | cons x pre =>
      simp only [List.cons_append, List.cons.injEq] at e
      obtain ⟨rfl, e⟩ := e
      have := h2 pre cid' info' d' post e hd'
      rw [List.append_assoc] at this
      simpa [notificationsOf, hs] using this

/-- C117: there is one message for each notification with contents, in their order, with the same payload, and it has the labels that the operations before it say -/
theorem c117_messages {manifest : M} {es : List (LabelEvent A X V)} {outs : List (Option String × SubInfo A X × Telemetry A X V M)} (h : Telemetries manifest [] es outs) :
    outs.map (fun o => (o.1, o.2.1, o.2.2.payload)) = (notificationsOf es).map (fun n => (n.1, n.2.1, some n.2.2.json)) ∧
    ∀ pre cid info d post, es = pre ++ .notification cid info d :: post → d.contents ≠ none →
      ∃ t, outs[(notificationsOf pre).length]? = some (cid, info, t) ∧ LabelHist.Answers (labelOps pre) info.peer.ip t.labels ∧
        t.nodeTime = some d.eventTime ∧ t.exportAddress = info.peer.ip ∧ t.exportPort = some info.peer.port ∧ t.collectorManifest = some manifest ∧ t.payload = some d.json :=
  telemetries_from h [] rfl

namespace Labels117
def ops : List (LabelOp Nat Nat) := [.upsert 1 10 [⟨"site", 1⟩, ⟨"site", 2⟩, ⟨"rack", 3⟩], .upsert 1 5 [⟨"site", 4⟩], .delete 1 9 ["site"], .delete 1 10 ["rack"], .upsert 2 1 [⟨"site", 9⟩]]
def info : SubInfo Nat Nat := ⟨⟨9, 10000⟩, none, ⟨1, 50000⟩, 7, { datastore := some "operational", datastoreXpath := some "/a" }, none, some .udpNotif, some .cbor, none, none, [], "c"⟩
def update : Decoded Nat := ⟨1, 2, false, 1000, some (.update 7), 77⟩
end Labels117

/-- a label that was brought twice and that neither a lower weight nor a deletion with a lower weight changed -/
example : LabelsOf (Labels117.ops.foldl applyLabels []) 1 (some [⟨"site", 2⟩]) := ⟨_, List.Perm.refl _, rfl⟩
example : Held Labels117.ops (1, "site") 10 2 := by
  have := answers_run Labels117.ops 1 (some [⟨"site", 2⟩]) ⟨_, List.Perm.refl _, rfl⟩
  rcases this with ⟨h, -⟩ | ⟨l, h, -, -, h4⟩
  · simp at h
  · simp only [Option.some.injEq] at h
    subst h
    obtain ⟨w, hw⟩ := (h4 ⟨"site", 2⟩).mp (by simp)
    have hs : Survives Labels117.ops (1, "site") 10 2 := by
      refine ⟨[], _, _, rfl, ⟨[⟨"site", 1⟩], [⟨"rack", 3⟩], rfl, by simp⟩, ?_⟩
      rintro o ho ⟨w', hw, ⟨v, pre, post, e, -⟩ | ⟨ns, e, hn⟩ | e⟩ <;> subst e <;> simp at ho
      · rcases ho with ⟨rfl, -⟩
        exact absurd hw (by decide)
      · rcases ho with ⟨rfl, -⟩ | ⟨rfl, rfl⟩
        · exact absurd hw (by decide)
        · simp at hn
    have : w = 10 := by
      refine UInt8.le_antisymm ?_ (hw.2 _ _ hs)
      obtain ⟨pre, o, post, e, ⟨a, b, rfl, -⟩, -⟩ := hw.1
      have hm : (LabelOp.upsert 1 w (a ++ ⟨"site", 2⟩ :: b) : LabelOp Nat Nat) ∈ Labels117.ops := by rw [e]; simp
      simp [Labels117.ops] at hm
      rcases hm with ⟨rfl, -⟩ | ⟨rfl, -⟩ <;> decide
    rw [← this]; exact hw
example : Telemetries "m" [] [.notification none Labels117.info Labels117.update, .op (.upsert 1 10 [⟨"site", 1⟩]), .notification (some "c") Labels117.info Labels117.update]
    [(none, Labels117.info, telemetryOf "m" 5 none Labels117.info Labels117.update), (some "c", Labels117.info, telemetryOf "m" 6 (some [⟨"site", (1 : Nat)⟩]) Labels117.info Labels117.update)] :=
  .send 5 (by decide) rfl (.op (.send 6 (by decide) ⟨_, List.Perm.refl _, rfl⟩ .nil))

/-! ## C118 -/

/-- the metadata of a message tells what the subscription is -/
def MetaFaithful (i : SubInfo A X) (m : SubMeta X) : Prop :=
  m.id = some i.id ∧ m.stopTime = i.stopTime ∧ m.transport = i.transport ∧ m.encoding = i.encoding ∧ m.purpose = i.purpose ∧ m.trigger = i.trigger ∧ m.modules = i.models ∧
    m.contentId = some i.contentId

/-- C118 does not hold in general: a message of a subscription with CBOR says that it is encoded as JSON -/
theorem c118_metadata_disproved : ¬ ∀ (es : List (LabelEvent Nat Nat Nat)) (outs : List (Option String × SubInfo Nat Nat × Telemetry Nat Nat Nat String)), Telemetries "m" [] es outs →
    ∀ o ∈ outs, ∀ m, o.2.2.subscription = some m → MetaFaithful o.2.1 m := by
  intro hall
  have := hall [.notification none Labels117.info Labels117.update] [(none, Labels117.info, telemetryOf "m" 5 none Labels117.info Labels117.update)]
    (.send 5 (by decide) rfl .nil) _ (List.mem_singleton.mpr rfl) (SubMeta.ofInfo Labels117.info) (by decide +kernel)
  have h := this.2.2.2.1
  simp [SubMeta.ofInfo, Labels117.info] at h

/-- C118, if the subscription is for JSON over UDP: messages have metadata unless the subscription is not known, and it tells what the subscription is; its filters are those
of the target -/
theorem c118_metadata_partial {manifest : M} {c : List (A × LabelMap V)} {es : List (LabelEvent A X V)} {outs : List (Option String × SubInfo A X × Telemetry A X V M)}
    (h : Telemetries manifest c es outs) (o : Option String × SubInfo A X × Telemetry A X V M) (ho : o ∈ outs) :
    (o.2.2.subscription = none ↔ o.2.1.contentId = "EMPTY") ∧
    ∀ m, o.2.2.subscription = some m → (o.2.1.transport = some .udpNotif → o.2.1.encoding = some .json → MetaFaithful o.2.1 m) ∧
      m.id = some o.2.1.id ∧ m.stopTime = o.2.1.stopTime ∧ m.purpose = o.2.1.purpose ∧ m.trigger = o.2.1.trigger ∧ m.modules = o.2.1.models ∧ m.contentId = some o.2.1.contentId ∧
      m.filter.stream = o.2.1.target.stream ∧ m.filter.datastore = o.2.1.target.datastore ∧
      (∀ x, o.2.1.target.streamXpath = none ∨ o.2.1.target.datastoreXpath = none →
        (m.filter.xpath = some x ↔ o.2.1.target.streamXpath = some x ∨ o.2.1.target.datastoreXpath = some x)) ∧
      (∀ x, o.2.1.target.streamSubtree = none ∨ o.2.1.target.datastoreSubtree = none →
        (m.filter.subtree = some x ↔ o.2.1.target.streamSubtree = some x ∨ o.2.1.target.datastoreSubtree = some x)) := by
  have hex : ∃ now labels d, o.2.2 = telemetryOf manifest now labels o.2.1 d := by
    induction h with
    | nil => simp at ho
    | op _ ih => exact ih ho
    | skip _ _ ih => exact ih ho
    | @send c cid info d es outs labels now hd hl h ih =>
      rcases List.mem_cons.mp ho with rfl | ho
      · exact ⟨now, labels, d, rfl⟩
      · exact ih ho
  obtain ⟨now, labels, d, e⟩ := hex
  rw [e]
  generalize o.2.1 = i
  refine ⟨?_, ?_⟩
  · simp [telemetryOf, SubInfo.isEmpty]
  · intro m hm
    have : m = SubMeta.ofInfo i := by
      simp only [telemetryOf] at hm
      split at hm
      · simpa using hm.symm
      · simp at hm
    subst this
    refine ⟨fun h1 h2 => ⟨rfl, rfl, h1.symm, h2.symm, rfl, rfl, rfl, rfl⟩, rfl, rfl, rfl, rfl, rfl, rfl, rfl, rfl, ?_, ?_⟩
    · intro x hx
      show (i.target.streamXpath <|> i.target.datastoreXpath) = some x ↔ _
      rcases hx with hx | hx <;> rw [hx] <;> simp
    · intro x hx
      show (i.target.streamSubtree <|> i.target.datastoreSubtree) = some x ↔ _
      rcases hx with hx | hx <;> rw [hx] <;> simp

example : Telemetries "m" ([] : List (Nat × LabelMap Nat)) [.notification none { Labels117.info with encoding := some .json } Labels117.update]
    [(none, { Labels117.info with encoding := some .json }, telemetryOf "m" 5 none { Labels117.info with encoding := some .json } Labels117.update)] := .send 5 (by decide) rfl .nil
end

/-! ## C119 -/

section
open LabelHist
variable {A V : Type} [DecidableEq A]

omit [DecidableEq A] in
theorem labels_puts (string : String → V) (weight : UInt8) (n : SonataNode A) (p : A × String) (w : UInt8) (v : V) :
    LabelHist.Puts (sonataLabelsSet string weight n) p w v ↔ Labelled string weight n p w v := by
  obtain ⟨ip, name⟩ := p
  unfold LabelHist.Puts Labelled sonataLabelsSet
  constructor
  · rintro ⟨pre, post, e, hne⟩
    simp only [LabelOp.upsert.injEq] at e
    obtain ⟨rfl, rfl, e⟩ := e
    refine ⟨rfl, rfl, ?_⟩
    rcases pre with _ | ⟨a, pre⟩
    · simp only [List.nil_append, List.cons.injEq, Label.mk.injEq] at e
      exact .inl ⟨e.1.1.symm, e.1.2.symm⟩
    · rcases pre with _ | ⟨b, pre⟩
      · simp only [List.cons_append, List.nil_append, List.cons.injEq, Label.mk.injEq] at e
        exact .inr ⟨e.2.1.1.symm, e.2.1.2.symm⟩
      · simp at e
  · rintro ⟨rfl, h1, h2⟩
    simp only at h1 h2
    subst h1
    rcases h2 with ⟨rfl, rfl⟩ | ⟨rfl, rfl⟩
    · exact ⟨[], [⟨"platform_id", string n.platform⟩], rfl, by simp⟩
    · exact ⟨[⟨"node_id", string n.hostname⟩], [], rfl, by simp⟩

omit [DecidableEq A] in
theorem labels_remove_puts (weight : UInt8) (a : A) (p : A × String) (w : UInt8) (v : V) : ¬ LabelHist.Puts (sonataLabelsRemove weight a) p w v := by
  rintro ⟨pre, post, e, -⟩
  simp [sonataLabelsRemove] at e

/-- C119: messages of YANG push are only labelled with what another source says or with what the last message about a node says that is in the inventory -/
theorem c119_nothing_stale (string : String → V) (weight : UInt8) (ms : List (Option (SonataData A))) (others hist : List (LabelOp A V))
    (hi : Interleave (sonataLabels string weight ms) others hist) (p : A × String) (w : UInt8) (v : V) (hs : LabelHist.Survives hist p w v) :
    (∃ id n, Listed ms id n ∧ Labelled string weight n p w v) ∨ LabelHist.Survives others p w v := by
  rcases interleave_in (puts := LabelHist.Puts) (ends := LabelHist.Ends) hi hs with h | h
  · obtain ⟨id, n, h1, h2⟩ := inventory_sound (puts := LabelHist.Puts) (ends := LabelHist.Ends) (valid := LabelOp.valid) (remove := sonataLabelsRemove weight)
      (set := sonataLabelsSet string weight) (fun _ => rfl) (fun _ => rfl) (fun n p w f h => by
        obtain ⟨rfl, h1, h2⟩ := (labels_puts _ _ _ _ _ _).mp h
        refine ⟨w, UInt8.le_refl _, .inr (.inl ⟨_, by rw [h1]; rfl, ?_⟩)⟩
        rcases h2 with ⟨e, -⟩ | ⟨e, -⟩ <;> rw [e] <;> simp) (fun n n' p w f h hl => by
        obtain ⟨rfl, h1, h2⟩ := (labels_puts _ _ _ _ _ _).mp h
        rcases h2 with ⟨e, -⟩ | ⟨e, -⟩
        · exact ⟨w, UInt8.le_refl _, .inl ⟨_, (labels_puts _ _ _ _ _ _).mpr ⟨rfl, h1.trans hl.symm, .inl ⟨e, rfl⟩⟩⟩⟩
        · exact ⟨w, UInt8.le_refl _, .inl ⟨_, (labels_puts _ _ _ _ _ _).mpr ⟨rfl, h1.trans hl.symm, .inr ⟨e, rfl⟩⟩⟩⟩)
      (fun _ _ _ _ => labels_remove_puts _ _ _ _ _) ms p w v h
    exact .inl ⟨id, n, h1, (labels_puts _ _ _ _ _ _).mp h2⟩
  · exact .inr h

/-- C119, if no two nodes have the same address at the same time: messages are labelled with what a node in the inventory is, unless another source ends it or has a value
of a higher weight -/
theorem c119_known_partial (string : String → V) (weight : UInt8) (ms : List (Option (SonataData A))) (hd : Distinct ms) (others hist : List (LabelOp A V))
    (hi : Interleave (sonataLabels string weight ms) others hist) (id : UInt32) (n : SonataNode A) (hl : Listed ms id n) (res : Option (List (Label V)))
    (hr : LabelsOf (hist.foldl applyLabels []) n.loopback res)
    (ho : ∀ name w' v, ¬ LabelHist.Survives others (n.loopback, name) w' v ∧ ∀ o ∈ others, ¬ LabelHist.Ends o (n.loopback, name) weight) :
    ∃ l, res = some l ∧ ∀ x, x ∈ l ↔ x = ⟨"node_id", string n.hostname⟩ ∨ x = ⟨"platform_id", string n.platform⟩ := by
  have key : ∀ name v, (name = "node_id" ∧ v = string n.hostname) ∨ (name = "platform_id" ∧ v = string n.platform) → LabelHist.Survives hist (n.loopback, name) weight v := by
    intro name v hv
    refine in_interleave (puts := LabelHist.Puts) (ends := LabelHist.Ends) hi ?_ (ho name weight v).2
    refine inventory_complete (puts := LabelHist.Puts) (ends := LabelHist.Ends) (valid := LabelOp.valid) (remove := sonataLabelsRemove weight)
      (set := sonataLabelsSet string weight) (fun _ => rfl) (fun _ => rfl) (fun n a p w f h he => ?_) (fun n n' p w f h he => ?_) ms hd id n hl _ _ _
      ((labels_puts _ _ _ _ _ _).mpr ⟨rfl, rfl, hv⟩)
    · obtain ⟨-, h1, -⟩ := (labels_puts _ _ _ _ _ _).mp h
      obtain ⟨w', -, ⟨v', hp⟩ | ⟨ns, e, -⟩ | e⟩ := he
      · exact absurd hp (labels_remove_puts _ _ _ _ _)
      · simp only [sonataLabelsRemove, LabelOp.delete.injEq] at e
        rw [← h1, e.1]
      · simp [sonataLabelsRemove] at e
    · obtain ⟨-, h1, -⟩ := (labels_puts _ _ _ _ _ _).mp h
      obtain ⟨w', -, ⟨v', hp⟩ | ⟨ns, e, -⟩ | e⟩ := he
      · rw [← ((labels_puts _ _ _ _ _ _).mp hp).2.1, h1]
      · simp [sonataLabelsSet] at e
      · simp [sonataLabelsSet] at e
  have only : ∀ name w v, LabelHist.Survives hist (n.loopback, name) w v → w = weight ∧ ((name = "node_id" ∧ v = string n.hostname) ∨ (name = "platform_id" ∧ v = string n.platform)) := by
    intro name w v hs
    rcases c119_nothing_stale string weight ms others hist hi _ _ _ hs with ⟨id', n', h1, rfl, h2, h3⟩ | h
    · have : id' = id := hd ms (List.prefix_refl _) _ _ _ _ h1 hl h2.symm
      subst this
      rw [listed_unique h1 hl] at h3
      exact ⟨rfl, h3⟩
    · exact absurd h (ho _ _ _).1
  rcases answers_run hist n.loopback res hr with ⟨-, h⟩ | ⟨l, h, -, -, h4⟩
  · exact absurd (key "node_id" _ (.inl ⟨rfl, rfl⟩)) (h _ _ _)
  · refine ⟨l, h, fun x => ?_⟩
    rw [h4]
    constructor
    · rintro ⟨w, hw⟩
      rcases (only _ _ _ hw.1).2 with ⟨h1, h2⟩ | ⟨h1, h2⟩
      · exact .inl (by cases x; simp_all)
      · exact .inr (by cases x; simp_all)
    · rintro (rfl | rfl)
      · exact ⟨weight, key _ _ (.inl ⟨rfl, rfl⟩), fun w' v' h => by rw [(only _ _ _ h).1]; exact UInt8.le_refl _⟩
      · exact ⟨weight, key _ _ (.inr ⟨rfl, rfl⟩), fun w' v' h => by rw [(only _ _ _ h).1]; exact UInt8.le_refl _⟩
end

/-- C119 does not hold in general: a node in the inventory, the only one with its address, does not label messages, because another node that had the same address was deleted -/
theorem c119_known_disproved : ¬ ∀ (weight : UInt8) (ms : List (Option (SonataData Nat))) (id : UInt32) (n : SonataNode Nat), Listed ms id n →
    (∀ id' n', Listed ms id' n' → id' = id) → ∀ res, LabelsOf ((sonataLabels (V := String) (fun x => x) weight ms).foldl applyLabels []) n.loopback res → res ≠ none := by
  intro hall
  refine hall 50 _ 2 _ Inv115.listed (fun _ _ h => Inv115.only h) none ?_ rfl
  show LabelsOf _ 1 none
  have : ((sonataLabels (V := String) (fun x => x) 50 Inv115.replaced).foldl applyLabels []) = [] := by decide +kernel
  rw [this]
  rfl

/-- a node that got another address labels the messages from there -/
example : LabelsOf ((sonataLabels (V := String) (fun x => x) 50 Inv115.moved).foldl applyLabels []) 2 (some [⟨"node_id", "zbl1"⟩, ⟨"platform_id", "vendor X"⟩]) ∧
    LabelsOf ((sonataLabels (V := String) (fun x => x) 50 Inv115.moved).foldl applyLabels []) 1 none := by
  have : ((sonataLabels (V := String) (fun x => x) 50 Inv115.moved).foldl applyLabels []) =
      [(2, [("node_id", ⟨⟨"node_id", "zbl1"⟩, 50⟩), ("platform_id", ⟨⟨"platform_id", "vendor X"⟩, 50⟩)])] := by decide +kernel
  rw [this]
  exact ⟨⟨_, List.Perm.refl _, rfl⟩, rfl⟩

end Verif.Props
