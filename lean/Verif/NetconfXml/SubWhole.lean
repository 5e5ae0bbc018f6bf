import Verif.NetconfXml.Subtree
import Verif.NetconfXml.YangLibRound
/-!
# Subscriptions: what is written, and what is read back of it
-/
namespace Verif.Xml
open Verif.Collector (Text trim parseNat)

/-! ## What is kept -/

/-- a time without what is below a second -/
def Time.whole (t : Time) : Time := ⟨t.secs, 0⟩

/-- a time that is read back to the second -/
def TimeOk (c : Clock) (t : Time) : Prop := c.read (c.format t.secs) = some t.whole

def Trigger.kept : Trigger → Trigger
  | .periodic p a => .periodic p (a.map Time.whole)
  | .onChange d s e => .onChange d s (e.filter (!·.isEmpty))

def SubTarget.kept : SubTarget → SubTarget
  | .stream n f r b => .stream n f (r.map Time.whole) b
  | t => t

/-- what is left of a subscription that is written and read -/
def Subscription.kept (s : Subscription) : Subscription :=
  { s with target := s.target.kept, stop := s.stop.map Time.whole, transport := s.transport.filter (· ≠ .unknown), encoding := s.encoding.filter (· ≠ .unknown),
           publishers := (s.publishers.filter (!·.isEmpty)).map (·.take 1), trigger := s.trigger.map Trigger.kept, versions := s.versions.filter (!·.isEmpty) }

def Trigger.Ok (c : Clock) : Trigger → Prop
  | .periodic p a => (∀ n, p = some n → n < 2 ^ 32) ∧ ∀ t, a = some t → TimeOk c t
  | .onChange d _ _ => ∀ n, d = some n → n < 2 ^ 32

/-- a filter that is a reference, a path or a subtree -/
def Selection.Ok : Selection → Prop
  | .byReference _ => True
  | .inline (.xpath f) => f.Ok
  | .inline (.subtree f) => f.Ok "datastore-subtree-filter" ∧ f.Ok "stream-subtree-filter"

def SubTarget.Ok (c : Clock) : SubTarget → Prop
  | .stream n f r _ => trim n = n ∧ f.Ok ∧ ∀ t, r = some t → TimeOk c t
  | .datastore d f => d.Ok ∧ f.Ok

structure Subscription.Ok (c : Clock) (s : Subscription) : Prop where
  id : s.id < 2 ^ 32
  target : s.target.Ok c
  stop : ∀ t, s.stop = some t → TimeOk c t
  dscp : ∀ n, s.dscp = some n → n < 2 ^ 8
  weighting : ∀ n, s.weighting = some n → n < 2 ^ 8
  dependency : ∀ n, s.dependency = some n → n < 2 ^ 32
  purpose : ∀ t, s.purpose = some t → trim t = t
  publishers : ∀ l, s.publishers = some l → ∀ n ∈ l, n < 2 ^ 32
  trigger : ∀ t, s.trigger = some t → t.Ok c
  versions : ∀ l, s.versions = some l → ∀ v ∈ l, v.Ok
  contentId : ∀ t, s.contentId = some t → trim t = t

/-! ## Children -/

/-- a child that is there or not -/
def optKid {α β γ : Type} (x : Option α) (raws : α → List Raw) (set : β → Option γ → β) (g : α → γ) : Kids β := x.toList.map fun t => (raws t, fun a => set a (some (g t)))

theorem raws_optKid {α β γ : Type} (x : Option α) (raws : α → List Raw) (set : β → Option γ → β) (g : α → γ) : (optKid x raws set g).raws = optRaws raws x := by
  cases x <;> simp [optKid, Kids.raws, optRaws]

theorem run_optKid {α β γ : Type} {x : Option α} {raws : α → List Raw} {set : β → Option γ → β} {g : α → γ} {a : β} (h : set a none = a) : (optKid x raws set g).run a = set a (x.map g) := by
  cases x <;> simp [optKid, Kids.run, h]

theorem run_append {β : Type} (k l : Kids β) (a : β) : Kids.run (k ++ l) a = l.run (k.run a) := by simp [Kids.run]
theorem raws_append {β : Type} (k l : Kids β) : Kids.raws (k ++ l) = k.raws ++ l.raws := by simp [Kids.raws]

theorem all_optKid {α β γ : Type} {P : List Raw × (β → β) → Prop} {x : Option α} {raws : α → List Raw} {set : β → Option γ → β} {g : α → γ} (h : ∀ t, x = some t → P (raws t, fun a => set a (some (g t)))) :
    ∀ k ∈ optKid x raws set g, P k := by
  intro k hk
  cases x with
  | none => simp [optKid] at hk
  | some t => simp [optKid] at hk; subst hk; exact h t rfl

/-! ## Triggers -/

def periodicKids (c : Clock) (p : Option Nat) (a : Option Time) : Kids (Option Nat × Option Time) :=
  optKid p (fun n => leafRaws "period" (decimal n)) (fun a v => (v, a.2)) id ++ optKid a (fun t => leafRaws "anchor-time" (c.format t.secs)) (fun a v => (a.1, v)) Time.whole

def onChangeKids (d : Option Nat) (s : Option Bool) (e : Option (List Change)) : Kids OnChange :=
  optKid d (fun n => leafRaws "dampening-period" (decimal n)) (fun a v => { a with dampening := v }) id ++
  (optKid s (fun b => leafRaws "sync-on-start" (if b then "true".toList else "false".toList)) (fun a v => { a with sync := v }) id ++
   (e.getD []).map fun x => (leafRaws "excluded-change" (Change.name x).toList, fun a => { a with excluded := some (a.excluded.getD [] ++ [x]) }))

theorem run_excluded (l : List Change) (a : OnChange) :
    Kids.run (l.map fun x => (leafRaws "excluded-change" (Change.name x).toList, fun a : OnChange => { a with excluded := some (a.excluded.getD [] ++ [x]) })) a =
      { a with excluded := if l.isEmpty then a.excluded else some (a.excluded.getD [] ++ l) } := by
  induction l generalizing a with
  | nil => simp [Kids.run]
  | cons x l ih =>
    rw [List.map_cons, ← List.singleton_append, run_append, ih]
    cases l <;> simp [Kids.run]

def triggerRaws (c : Clock) : Trigger → List Raw
  | .periodic p a => tagRaws ⟨none, "periodic"⟩ [defaultNs nsPush] (periodicKids c p a).raws
  | .onChange d s e => tagRaws ⟨none, "on-change"⟩ [defaultNs nsPush] (onChangeKids d s e).raws

theorem fresh_trigger (c : Clock) {bs : Bindings} (h : nsPrefix nsPush bs = none) (t : Trigger) : Fresh (writeTrigger c t) bs (triggerRaws c t) := by
  cases t with
  | periodic p a =>
    refine fresh_aroundW h ?_
    rw [periodicKids, raws_append, raws_optKid, raws_optKid]
    exact writes_seq (writes_opt (fun _ => writes_leafNs (pfx_head _ _) _ _) _) (writes_opt (fun _ => writes_leafNs (pfx_head _ _) _ _) _)
  | onChange d s e =>
    refine fresh_aroundW h ?_
    rw [onChangeKids, raws_append, raws_append, raws_optKid, raws_optKid]
    refine writes_seq (writes_opt (fun _ => writes_leafNs (pfx_head _ _) _ _) _) (writes_seq (writes_opt (fun _ => writes_leafNs (pfx_head _ _) _ _) _) ?_)
    cases e with
    | none => intro out; simp [writeOpt, pure, Kids.raws]
    | some l =>
      have : Kids.raws ((Option.getD (some l) []).map fun x => (leafRaws "excluded-change" (Change.name x).toList, fun a : OnChange => { a with excluded := some (a.excluded.getD [] ++ [x]) })) =
          l.flatMap fun x => leafRaws "excluded-change" (Change.name x).toList := by simp [Kids.raws, List.flatMap_map]
      rw [this]
      exact writes_all (fun x => writes_leafNs (pfx_head _ _) _ _) l

theorem readEnum_change (x : Change) : readEnum Change.names (trim (Change.name x).toList) = some x := by cases x <;> decide +kernel
theorem readEnum_state (x : SubState) : readEnum SubState.names (trim (SubState.name x).toList) = some x := by cases x <;> decide +kernel

theorem child_leafIn {α β : Type} {t : Table α} {st : Stack} {ns : Text} {key : String} {f : Text → Option β} {x : Text} {v : β} {set : α → β → α} (hin : InNs st ns)
    (hn : t.named ns key = some fun a => do let v ← leafOf ns key f; return set a v) (hv : f x = some v) : Child t st (leafRaws key x) (fun a => set a v) :=
  child_leaf (as := []) (by simpa [declared] using inNs_resolve hin key) hn (flat_written x) (by rw [plain_written]; exact hv)

theorem named_period (c : Clock) : (periodicTable c).named nsPush "period" = some fun a => do let v ← leafOf nsPush "period" (fun t => parseNat (2 ^ 32) (trim t)); return (some v, a.2) := rfl
theorem named_anchor (c : Clock) : (periodicTable c).named nsPush "anchor-time" = some fun a => do let v ← leafOf nsPush "anchor-time" c.read; return (a.1, some v) := rfl

theorem named_dampening : onChangeTable.named nsPush "dampening-period" = some fun a => do let v ← leafOf nsPush "dampening-period" (fun t => parseNat (2 ^ 32) (trim t)); return { a with dampening := some v } := rfl
theorem named_sync : onChangeTable.named nsPush "sync-on-start" = some fun a => do let v ← leafOf nsPush "sync-on-start" (fun t => some (trim t == "true".toList)); return { a with sync := some v } := rfl
theorem named_excluded : onChangeTable.named nsPush "excluded-change" = some fun a => do
    let v ← leafOf nsPush "excluded-change" (fun t => readEnum Change.names (trim t))
    return { a with excluded := some (a.excluded.getD [] ++ [v]) } := rfl

theorem kid_period (c : Clock) {st : Stack} (hin : InNs st nsPush) {n : Nat} (h : n < 2 ^ 32) : Child (periodicTable c) st (leafRaws "period" (decimal n)) (fun a => (some n, a.2)) :=
  child_leafIn (f := fun t => parseNat (2 ^ 32) (trim t)) (set := fun (a : Option Nat × Option Time) v => (some v, a.2)) hin (named_period c) (parse_decimal h)
theorem kid_anchor (c : Clock) {st : Stack} (hin : InNs st nsPush) {x : Text} {t : Time} (h : c.read x = some t) : Child (periodicTable c) st (leafRaws "anchor-time" x) (fun a => (a.1, some t)) :=
  child_leafIn (set := fun a v => (a.1, some v)) hin (named_anchor c) h
theorem kid_dampening {st : Stack} (hin : InNs st nsPush) {n : Nat} (h : n < 2 ^ 32) : Child onChangeTable st (leafRaws "dampening-period" (decimal n)) (fun a => { a with dampening := some n }) :=
  child_leafIn (f := fun t => parseNat (2 ^ 32) (trim t)) (set := fun (a : OnChange) v => { a with dampening := some v }) hin named_dampening (parse_decimal h)
theorem kid_sync {st : Stack} (hin : InNs st nsPush) (t : Text) : Child onChangeTable st (leafRaws "sync-on-start" t) (fun a => { a with sync := some (trim t == "true".toList) }) :=
  child_leafIn (f := fun t => some (trim t == "true".toList)) (set := fun (a : OnChange) v => { a with sync := some v }) hin named_sync rfl
theorem kid_excluded {st : Stack} (hin : InNs st nsPush) (x : Change) :
    Child onChangeTable st (leafRaws "excluded-change" (Change.name x).toList) (fun a => { a with excluded := some (a.excluded.getD [] ++ [x]) }) :=
  child_leafIn (f := fun t => readEnum Change.names (trim t)) (set := fun (a : OnChange) v => { a with excluded := some (a.excluded.getD [] ++ [v]) }) hin named_excluded (readEnum_change x)

theorem run_periodic (c : Clock) (p : Option Nat) (a : Option Time) : (periodicKids c p a).run (none, none) = (p, a.map Time.whole) := by cases p <;> cases a <;> rfl

theorem run_onChange (d : Option Nat) (s : Option Bool) (e : Option (List Change)) : (onChangeKids d s e).run {} = ⟨d, s, e.filter (!·.isEmpty)⟩ := by
  rw [onChangeKids, run_append, run_append, run_excluded]
  cases d <;> cases s <;> cases e <;> (try rename_i l; cases l) <;> rfl

theorem sync_read (b : Bool) : (trim (if b then "true".toList else "false".toList) == "true".toList) = b := by cases b <;> decide +kernel

theorem reads_trigger (c : Clock) (st : Stack) {t : Trigger} (h : t.Ok c) : Reads (readTrigger c) st (triggerRaws c t) t.kept := by
  cases t with
  | periodic p a =>
    have hin : InNs ((⟨none, "periodic"⟩, declared [defaultNs nsPush] ++ st.scope) :: st) nsPush := rfl
    have := reads_periodicMore c (st := st) (px := none) (as := [defaultNs nsPush]) (by rfl) (k := periodicKids c p a) ?_ .nil (.inl rfl)
    · rw [List.append_nil, run_periodic] at this
      exact this
    · intro x hx
      rcases List.mem_append.mp hx with hx | hx
      · exact all_optKid (P := fun x => Child _ _ x.1 x.2) (fun n hn => kid_period c hin (h.1 n hn)) x hx
      · exact all_optKid (P := fun x => Child _ _ x.1 x.2) (fun n hn => kid_anchor c hin (h.2 n hn)) x hx
  | onChange d s e =>
    have hin : InNs ((⟨none, "on-change"⟩, declared [defaultNs nsPush] ++ st.scope) :: st) nsPush := rfl
    have := reads_onChangeMore c (st := st) (px := none) (as := [defaultNs nsPush]) (by rfl) (k := onChangeKids d s e) ?_ .nil (.inl rfl)
    · rw [List.append_nil, run_onChange] at this
      exact this
    · intro x hx
      rcases List.mem_append.mp hx with hx | hx
      · exact all_optKid (P := fun x => Child _ _ x.1 x.2) (fun n hn => kid_dampening hin (h n hn)) x hx
      rcases List.mem_append.mp hx with hx | hx
      · refine all_optKid (P := fun x => Child _ _ x.1 x.2) (fun b hb => ?_) x hx
        have := kid_sync hin (if b then "true".toList else "false".toList)
        rw [sync_read] at this
        exact this
      · obtain ⟨y, hy, rfl⟩ := List.mem_map.mp hx
        exact kid_excluded hin y

end Verif.Xml
