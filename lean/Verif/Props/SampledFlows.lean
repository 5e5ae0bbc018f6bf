import Verif.Props.FlowOptions
import Verif.Props.Renormalization
/-!
# From an option record that announces sampling to the counters of flow records

C110.
-/
namespace Verif.Props
open Collector Collector.Hist Collector.Announce Collector.Sampling
open Flow (Field Ie)

section
variable {A : Type} [DecidableEq A] [FieldOrd Field Ie]

/-- one of the elements by which sampling is described: 34, 35, 49, 50, 304 to 306 and 309 to 311 -/
def OfSampling (f : Field) : Prop := ∃ id v, f = .known 0 id v ∧ id ∈ ([34, 35, 49, 50, 304, 305, 306, 309, 310, 311] : List UInt16)

theorem last_split {α : Type} [DecidableEq α] {g : α} {fs : List α} (h : g ∈ fs) : ∃ pre post, fs = pre ++ g :: post ∧ g ∉ post := by
  induction fs with
  | nil => simp at h
  | cons a fs ih =>
    by_cases hm : g ∈ fs
    · obtain ⟨pre, post, rfl, hn⟩ := ih hm
      exact ⟨a :: pre, post, rfl, hn⟩
    · rcases List.mem_cons.mp h with rfl | h
      · exact ⟨[], fs, rfl, hm⟩
      · exact absurd h hm

theorem says_only {k : UInt32} {fs : List Field} (hg : samplingInterval.field k ∈ fs) (hu : ∀ f ∈ fs, OfSampling f → f = samplingInterval.field k) :
    Announces fs (.every k) := by
  have silent : ∀ {α : Type} (e : Element α), e.id ≠ 34 → e.id ∈ ([34, 35, 49, 50, 304, 305, 306, 309, 310, 311] : List UInt16) → e.Silent fs := by
    intro α e hne hm w hw
    have := hu _ hw ⟨e.id, e.value w, rfl, hm⟩
    simp only [Element.field, Field.known.injEq] at this
    exact hne this.2.1
  refine .implied (silent _ (by decide) (by decide)) (silent _ (by decide) (by decide)) (silent _ (by decide) (by decide))
    (.sampling (.inl (silent _ (by decide) (by decide))) (.inl (silent _ (by decide) (by decide))) (silent _ (by decide) (by decide)) (silent _ (by decide) (by decide)) ?_)
  obtain ⟨pre, post, rfl, hn⟩ := last_split hg
  refine ⟨pre, post, rfl, fun w hw => ?_⟩
  have := hu (samplingInterval.field w) (by simp [hw]) ⟨34, .unsigned32 w, rfl, by decide⟩
  rw [this] at hw
  exact hn hw

/-- C110: if an option record of an exporter tells that one packet of each `k` was selected, and nothing else is told about sampling for a flow record of the same
domain with the fields of the scope, then each of its counters is multiplied by `k` on the way through enrichment and renormalization, as long as the
product is less than `2^53` -/
theorem c110_multiplied_partial (ord : MapOrder) (weight : UInt8) (ip : A) (p : Info) (scope fields s f : List Field) (k : UInt32) (record : List Field) (writer : Field)
    (pre post : List (Op A Field Ie)) (hr : (scope, fields) ∈ announcements p) (ht : Tells scope fields s f) (hg : samplingInterval.field k ∈ f)
    (hs : Distinct s) (hf : Distinct f) (hrec : ∀ h ∈ s, first record (Field.ie h) = some h)
    (hsilent : ∀ x ∈ record, ¬ OfSampling x) (hw : ¬ OfSampling writer)
    (honly : ∀ o ∈ pre ++ packetOps ord weight ip p ++ post, ∀ (q : Place A Field Ie) (w : UInt8) (h : Field), Puts o q w h → q.ip = ip →
      Applies (domainOf p) record q.domain q.scope → OfSampling h → h = samplingInterval.field k)
    (hdrop : ∀ o ∈ post, ∀ (q : Place A Field Ie) (w : UInt8), q.ip = ip → q.ie = (samplingInterval.field k).ie →
      Applies (domainOf p) record q.domain q.scope → weight ≤ w → ¬ Drops o q w)
    (res : Option (List Field)) (h : (Cache.run (pre ++ packetOps ord weight ip p ++ post)).Returns ip (domainOf p) record res) :
    ∃ r : UInt64 → UInt64, ChangedBy (record ++ (res.getD [] ++ [writer])) r ∧ ∀ c : UInt64, c.toNat * k.toNat < 2 ^ 53 → (r c).toNat = c.toNat * k.toNat := by
  have hput_ie : ∀ (o : Op A Field Ie) (q : Place A Field Ie) (w : UInt8) (x : Field), Puts o q w x → Field.ie x = q.ie := by
    rintro o q w x ⟨_, _, fs, -, -, hn⟩
    have := List.mem_filter.mp (List.mem_of_getElem? hn)
    exact of_decide_eq_true this.2
  obtain ⟨l, rfl, hl⟩ := c107_added_partial ord weight ip p scope fields s f (samplingInterval.field k) record pre post hr ht hg hs hf hrec
    (fun o ho q w x hp h1 h2 _ h4 _ => by
      refine honly o ho q w x hp h1 h4 ?_
      have := (hput_ie o q w x hp).trans h2
      obtain ⟨n, rfl⟩ := ie_unsigned32 (i := 34) this
      exact ⟨34, _, rfl, by decide⟩) hdrop res h
  have hann : Announces (record ++ ((some l).getD [] ++ [writer])) (.every k) := by
    refine says_only (by simp [hl]) fun x hx ho => ?_
    simp only [Option.getD_some, List.mem_append, List.mem_singleton] at hx
    rcases hx with hx | hx | rfl
    · exact absurd ho (hsilent x hx)
    · obtain ⟨q, w, hq, ha, pre', o, post', he, hp, -⟩ := c89_sound _ _ _ _ _ h x hx
      exact honly o (by rw [he]; simp) q w x hp hq ha ho
    · exact absurd ho hw
  obtain ⟨r, h1, h2⟩ := c101_scaled_partial _ _ _ _ hann .every
  refine ⟨r, h1, fun c hc => ?_⟩
  have := (h2 c).2.1 (Nat.one_dvd _)
  rw [Nat.div_one] at this
  exact this hc

end

section
local instance : FieldOrd Field Ie := En95.fieldOrd

/-- one of 1000 packets is selected by selector 9 -/
def c110Packet : Info := .ipfix ⟨⟨0, 0⟩, 1, 5, [.data 257 [⟨[.known 0 302 (.unsigned64 9)], [.known 0 34 (.unsigned32 1000)]⟩]]⟩

/-- a flow record of that selector -/
def c110Record : List Field := [.known 0 302 (.unsigned64 9), .known 0 2 (.unsigned64 7), .known 0 1 (.unsigned64 900)]

theorem c110_tells : Tells [.known 0 302 (.unsigned64 9)] [.known 0 34 (.unsigned32 1000)] [.known 0 302 (.unsigned64 9)] [.known 0 34 (.unsigned32 1000)] :=
  .plain (.sampling (.inl ⟨.known 0 34 (.unsigned32 1000), by simp, rfl⟩)) (by decide)

example : (Cache.run (packetOps Opt106.reversed 16 (1 : Nat) c110Packet)).Returns 1 5 c110Record (some [.known 0 34 (.unsigned32 1000)]) ∧
    renormFields (c110Record ++ ([.known 0 34 (.unsigned32 1000)] ++ [.unknown 1 1 []])) =
      [.known 0 302 (.unsigned64 9), .known 0 2 (.unsigned64 7000), .known 0 1 (.unsigned64 900000), .known 0 34 (.unsigned32 1000), .unknown 1 1 [], mark] :=
  ⟨.inr ⟨by decide +kernel, _, rfl, by decide +kernel⟩, by decide +kernel⟩

/-- the hypotheses hold for it -/
example : ∃ r : UInt64 → UInt64, ChangedBy (c110Record ++ ([.known 0 34 (.unsigned32 1000)] ++ [.unknown 1 1 []])) r ∧
    ∀ c : UInt64, c.toNat * 1000 < 2 ^ 53 → (r c).toNat = c.toNat * 1000 := by
  have hops : packetOps Opt106.inserted 16 (1 : Nat) c110Packet = [.upsert 1 ⟨5, some [.known 0 302 (.unsigned64 9)]⟩ 16 [.known 0 34 (.unsigned32 1000)]] := by decide
  refine c110_multiplied_partial Opt106.inserted 16 (1 : Nat) c110Packet _ _ _ _ 1000 c110Record (.unknown 1 1 []) [] [] (by simp [c110Packet, announcements, options]) c110_tells
    (by decide) (by simp [Distinct]) (by simp [Distinct]) ?_ ?_ ?_ ?_ (by simp) (some _) (.inr ⟨by decide +kernel, _, rfl, by decide +kernel⟩)
  · intro h hh
    obtain rfl := List.mem_singleton.mp hh
    decide
  · rintro x hx ⟨id, v, rfl, hid⟩
    simp [c110Record] at hx
    rcases hx with ⟨rfl, -⟩ | ⟨rfl, -⟩ | ⟨rfl, -⟩ <;> revert hid <;> decide
  · rintro ⟨id, v, h, -⟩; simp at h
  · intro o ho q w h hp _ _ _
    rw [hops] at ho
    obtain rfl := by simpa using ho
    obtain ⟨_, _, _, he, -, hn⟩ := hp
    simp only [Op.upsert.injEq] at he
    obtain ⟨-, -, -, rfl⟩ := he
    have := List.mem_filter.mp (List.mem_of_getElem? hn)
    exact List.mem_singleton.mp this.1

/-- C110 fails for sampling by time and for what is announced for a whole observation domain: the counters stay as they are -/
theorem c110_disproved :
    (∃ res, (Cache.run (packetOps Opt106.inserted 16 (1 : Nat) (c107Option [.known 0 302 (.unsigned64 9)] [.known 0 307 (.unsigned32 1), .known 0 308 (.unsigned32 99)]))).Returns 1 5
        c110Record res ∧ res = some [.known 0 307 (.unsigned32 1), .known 0 308 (.unsigned32 99)] ∧ renormFields (c110Record ++ res.getD []) = c110Record ++ res.getD []) ∧
    (∃ res, (Cache.run (packetOps Opt106.inserted 16 (1 : Nat) (c107Option [.known 0 149 (.unsigned32 5)] [.known 0 34 (.unsigned32 1000)]))).Returns 1 5
        c110Record res ∧ res = none ∧ renormFields (c110Record ++ res.getD []) = c110Record) :=
  ⟨⟨_, .inr ⟨by decide +kernel, _, rfl, by decide +kernel⟩, rfl, by decide +kernel⟩, ⟨_, .inl ⟨by decide +kernel, rfl⟩, rfl, by decide +kernel⟩⟩

end

end Verif.Props
