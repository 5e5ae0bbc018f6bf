import Verif.Collector.Actor
import Verif.Props.Enrichment
/-!
# Packets that pass the enrichment actor

C95.
-/
namespace Verif.Props
open Collector Collector.Hist
open Flow (Field DataRecord FlowSet IpfixPacket NetflowPacket)

namespace En95

/-! A linear order of fields, for the examples. -/

def timeCode (t : Flow.Time) : List Nat := [if t.secs < 0 then 1 else 0, t.secs.natAbs, t.nanos]

def valueCode : Flow.Value → List Nat
  | .octetArray v => 0 :: v.map UInt8.toNat
  | .mpls v => [1, v.toNat]
  | .unsigned8 v => [2, v.toNat]
  | .unsigned16 v => [3, v.toNat]
  | .tcpControlBits v => [4, v.toNat]
  | .unsigned32 v => [5, v.toNat]
  | .unsigned64 v => [6, v.toNat]
  | .unsigned256 v => [7, v.toNat]
  | .signed32 v => [8, v.toBitVec.toNat]
  | .float64 v => [9, v.toNat]
  | .boolean v => [10, v.toNat]
  | .macAddress v => [11, v.toNat]
  | .string v => 12 :: v.toList.map Char.toNat
  | .seconds t => 13 :: timeCode t
  | .millis t => 14 :: timeCode t
  | .micros t => 15 :: timeCode t
  | .nanos t => 16 :: timeCode t
  | .ipv4 v => [17, v.toNat]
  | .ipv6 v => [18, v.toNat]
  | .basicList v => 19 :: v.map UInt8.toNat
  | .subTemplateList v => 20 :: v.map UInt8.toNat
  | .subTemplateMultiList v => 21 :: v.map UInt8.toNat

def fieldCode : Field → List Nat
  | .known p i v => 0 :: p.toNat :: i.toNat :: valueCode v
  | .vendorUnknown p i v => 1 :: p.toNat :: i.toNat :: v.map UInt8.toNat
  | .unknown p i v => 2 :: p.toNat :: i.toNat :: v.map UInt8.toNat

theorem map_inj {α β : Type} {f : α → β} (hf : ∀ a b, f a = f b → a = b) {l l' : List α} (h : l.map f = l'.map f) : l = l' := by
  induction l generalizing l' with
  | nil => simpa using h.symm
  | cons a l ih =>
    cases l' with
    | nil => simp at h
    | cons b l' =>
      simp only [List.map_cons, List.cons.injEq] at h
      rw [hf _ _ h.1, ih h.2]

theorem bytes_inj {l l' : Bytes} (h : l.map UInt8.toNat = l'.map UInt8.toNat) : l = l' := map_inj (fun _ _ h => UInt8.toNat_inj.mp h) h

theorem timeCode_inj {a b : Flow.Time} (h : timeCode a = timeCode b) : a = b := by
  obtain ⟨s, n⟩ := a
  obtain ⟨s', n'⟩ := b
  simp only [timeCode, List.cons.injEq, and_true] at h
  obtain ⟨h1, h2, rfl⟩ := h
  have : s = s' := by split at h1 <;> split at h1 <;> omega
  rw [this]

theorem valueCode_inj {a b : Flow.Value} (h : valueCode a = valueCode b) : a = b := by
  cases a <;> cases b <;> simp only [valueCode, List.cons.injEq, Nat.reduceEqDiff, false_and, and_true, true_and, reduceCtorEq] at h <;>
    first
      | rw [bytes_inj h]
      | rw [timeCode_inj h]
      | rw [UInt8.toNat_inj.mp h]
      | rw [UInt16.toNat_inj.mp h]
      | rw [UInt32.toNat_inj.mp h]
      | rw [UInt64.toNat_inj.mp h]
      | rw [BitVec.eq_of_toNat_eq h]
      | rw [Int32.toBitVec_inj.mp (BitVec.eq_of_toNat_eq h)]
      | rw [String.toList_inj.mp (map_inj (fun _ _ h => Char.toNat_inj.mp h) h)]
      | (rename_i x y; cases x <;> cases y <;> first | rfl | simp at h)

theorem fieldCode_inj {a b : Field} (h : fieldCode a = fieldCode b) : a = b := by
  cases a <;> cases b <;> simp only [fieldCode, List.cons.injEq, Nat.reduceEqDiff, false_and, true_and, reduceCtorEq, Nat.zero_ne_one, Nat.one_ne_zero] at h
  · rw [UInt32.toNat_inj.mp h.1, UInt16.toNat_inj.mp h.2.1, valueCode_inj h.2.2]
  · rw [UInt32.toNat_inj.mp h.1, UInt16.toNat_inj.mp h.2.1, bytes_inj h.2.2]
  · rw [UInt32.toNat_inj.mp h.1, UInt16.toNat_inj.mp h.2.1, bytes_inj h.2.2]

def kindCode (k : Flow.Kind) : Nat := k.ctorIdx

theorem kindCode_inj {a b : Flow.Kind} (h : kindCode a = kindCode b) : a = b := by
  cases a <;> cases b <;> first | rfl | exact absurd h (by decide)

def ieCode : Flow.Ie → List Nat
  | .known p i k => [0, p.toNat, i.toNat, kindCode k]
  | .vendorUnknown p i => [1, p.toNat, i.toNat, 0]
  | .unknown p i => [2, p.toNat, i.toNat, 0]

theorem ieCode_inj {a b : Flow.Ie} {l l' : List Nat} (h : ieCode a ++ l = ieCode b ++ l') : a = b ∧ l = l' := by
  cases a <;> cases b <;> simp only [ieCode, List.cons_append, List.nil_append, List.cons.injEq, Nat.reduceEqDiff, false_and, true_and, reduceCtorEq, Nat.zero_ne_one,
    Nat.one_ne_zero] at h
  · exact ⟨by rw [UInt32.toNat_inj.mp h.1, UInt16.toNat_inj.mp h.2.1, kindCode_inj h.2.2.1], h.2.2.2⟩
  · exact ⟨by rw [UInt32.toNat_inj.mp h.1, UInt16.toNat_inj.mp h.2.1], h.2.2⟩
  · exact ⟨by rw [UInt32.toNat_inj.mp h.1, UInt16.toNat_inj.mp h.2.1], h.2.2⟩

def code (a : FieldRef Flow.Ie × Field) : List Nat := ieCode a.1.ie ++ a.1.index :: fieldCode a.2

/-- an order such as the one derived for the fields of scopes -/
def fieldOrd : FieldOrd Field Flow.Ie where
  lt a b := En89.lexLt (code a) (code b)
  irrefl _ := En89.lexLt_irrefl _
  trans h1 h2 := En89.lexLt_trans h1 h2
  total h hne := En89.lexLt_total h fun e => hne (by
    rename_i a b
    obtain ⟨⟨a1, a2⟩, a3⟩ := a
    obtain ⟨⟨b1, b2⟩, b3⟩ := b
    obtain ⟨h1, h2⟩ := ieCode_inj e
    simp only [List.cons.injEq] at h1 h2
    obtain ⟨rfl, h2⟩ := h2
    rw [h1, fieldCode_inj h2])

end En95

section
variable {A σ κ φ : Type} [DecidableEq A] [FieldOrd Field Flow.Ie]

/-- the records that are to be sent for those of a set: records of options are left out, the others have what the history of operations gives them and then the
name of the collector behind their own fields -/
inductive RecordsForwarded (ops : List (Op A Field Flow.Ie)) (writer : Field) (ip : A) (dom : UInt32) : List (DataRecord φ) → List (DataRecord φ) → Prop where
  | nil : RecordsForwarded ops writer ip dom [] []
  | options {r l l'} : r.scope ≠ [] → RecordsForwarded ops writer ip dom l l' → RecordsForwarded ops writer ip dom (r :: l) l'
  | record {r res l l'} : r.scope = [] → Answers (Best ops ip dom r.fields) res → RecordsForwarded ops writer ip dom l l' →
      RecordsForwarded ops writer ip dom (r :: l) (⟨[], r.fields ++ (res.getD [] ++ [writer])⟩ :: l')

/-- the sets that are to be sent: those of data only -/
inductive SetsForwarded (ops : List (Op A Field Flow.Ie)) (writer : Field) (ip : A) (dom : UInt32) : List (FlowSet κ φ) → List (FlowSet κ φ) → Prop where
  | nil : SetsForwarded ops writer ip dom [] []
  | template {t l l'} : SetsForwarded ops writer ip dom l l' → SetsForwarded ops writer ip dom (.template t :: l) l'
  | options {t l l'} : SetsForwarded ops writer ip dom l l' → SetsForwarded ops writer ip dom (.options t :: l) l'
  | data {id rs rs' l l'} : RecordsForwarded ops writer ip dom rs rs' → SetsForwarded ops writer ip dom l l' →
      SetsForwarded ops writer ip dom (.data id rs :: l) (.data id rs' :: l')

/-- the packet that is to be sent, with the same header -/
def Forwarded (ops : List (Op A Field Flow.Ie)) (writer : Field) (ip : A) : Info → Info → Prop
  | .ipfix p, .ipfix q => q.exportTime = p.exportTime ∧ q.sequence = p.sequence ∧ q.domain = p.domain ∧ SetsForwarded ops writer ip p.domain p.sets q.sets
  | .netflow p, .netflow q => q.sysUpTime = p.sysUpTime ∧ q.unixTime = p.unixTime ∧ q.sequence = p.sequence ∧ q.source = p.source ∧
      SetsForwarded ops writer ip p.source p.sets q.sets
  | _, _ => False

/-- the operations among the events -/
def opsOf : List (Event A σ) → List (Op A Field Flow.Ie)
  | [] => []
  | .op o :: es => o :: opsOf es
  | .flow _ _ :: es => opsOf es

/-- the packets among the events -/
def flowsOf : List (Event A σ) → List (σ × Info)
  | [] => []
  | .op _ :: es => flowsOf es
  | .flow s p :: es => (s, p) :: flowsOf es

theorem records_forwarded {ops : List (Op A Field Flow.Ie)} {writer : Field} {get : Get A} (hg : ∀ ip dom fs, (Cache.run ops).Returns ip dom fs (get ip dom fs))
    (ip : A) (dom : UInt32) (rs : List (DataRecord φ)) :
    RecordsForwarded ops writer ip dom rs ((rs.filter fun r => r.scope.isEmpty).map fun r => withFields r (fieldsFor get writer ip dom r.fields)) := by
  induction rs with
  | nil => exact .nil
  | cons r rs ih =>
    obtain ⟨s, fs⟩ := r
    cases s with
    | nil => exact .record rfl ((returns_run _ _ _ _ _).mp (hg ip dom fs)) ih
    | cons x s => exact .options (by simp) ih

theorem sets_forwarded {ops : List (Op A Field Flow.Ie)} {writer : Field} {get : Get A} (hg : ∀ ip dom fs, (Cache.run ops).Returns ip dom fs (get ip dom fs))
    (ip : A) (dom : UInt32) (l : List (FlowSet κ φ)) : SetsForwarded ops writer ip dom l (l.filterMap (enrichSet get writer ip dom)) := by
  induction l with
  | nil => exact .nil
  | cons x l ih =>
    cases x with
    | template t => exact .template ih
    | options t => exact .options ih
    | data id rs => exact .data (records_forwarded hg ip dom rs) ih

theorem enrich_forwarded {ops : List (Op A Field Flow.Ie)} {writer : Field} {get : Get A} (hg : ∀ ip dom fs, (Cache.run ops).Returns ip dom fs (get ip dom fs))
    (ip : A) (p : Info) : Forwarded ops writer ip p (enrich get writer ip p) := by
  cases p with
  | ipfix p => exact ⟨rfl, rfl, rfl, sets_forwarded hg ip _ _⟩
  | netflow p => exact ⟨rfl, rfl, rfl, rfl, sets_forwarded hg ip _ _⟩

theorem runs_forwarded {addr : σ → A} {writer : Field} {ops : List (Op A Field Flow.Ie)} {es : List (Event A σ)} {out : List (σ × Info)}
    (h : Runs addr writer (Cache.run ops) es out) :
    out.length = (flowsOf es).length ∧
      ∀ pre peer p post, es = pre ++ .flow peer p :: post →
        ∃ q, out[(flowsOf pre).length]? = some (peer, q) ∧ Forwarded (ops ++ opsOf pre) writer (addr peer) p q := by
  generalize hc : Cache.run ops = c at h
  induction h generalizing ops with
  | nil => exact ⟨rfl, fun pre peer p post h => by simp at h⟩
  | @op c o es out h ih =>
    subst hc
    obtain ⟨h1, h2⟩ := ih (run_snoc ops o)
    refine ⟨h1, fun pre peer p post e => ?_⟩
    cases pre with
    | nil => simp at e
    | cons x pre =>
      simp only [List.cons_append, List.cons.injEq] at e
      obtain ⟨rfl, e⟩ := e
      obtain ⟨q, g1, g2⟩ := h2 pre peer p post e
      refine ⟨q, g1, ?_⟩
      have : ops ++ opsOf (.op o :: pre) = (ops ++ [o]) ++ opsOf pre := by simp [opsOf]
      rw [this]; exact g2
  | @flow c peer1 p1 es out get hg h ih =>
    subst hc
    obtain ⟨h1, h2⟩ := ih rfl
    refine ⟨by simp [flowsOf, h1], fun pre peer p post e => ?_⟩
    cases pre with
    | nil =>
      simp only [List.nil_append, List.cons.injEq, Event.flow.injEq] at e
      obtain ⟨⟨rfl, rfl⟩, rfl⟩ := e
      exact ⟨_, rfl, by simpa [opsOf] using enrich_forwarded hg (addr peer1) p1⟩
    | cons x pre =>
      simp only [List.cons_append, List.cons.injEq] at e
      obtain ⟨rfl, e⟩ := e
      obtain ⟨q, g1, g2⟩ := h2 pre peer p post e
      exact ⟨q, by simpa [flowsOf] using g1, by simpa [opsOf] using g2⟩

/-- C95: for each packet the actor sends one to the same peer, in the order in which they came; it has the header, and the data records without scope, each with
its own fields, then what the operations received before give for it, and then the name of the collector -/
theorem c95_forwarded (addr : σ → A) (writer : Field) (es : List (Event A σ)) (out : List (σ × Info)) (h : Runs addr writer [] es out) :
    out.length = (flowsOf es).length ∧
      ∀ pre peer p post, es = pre ++ .flow peer p :: post → ∃ q, out[(flowsOf pre).length]? = some (peer, q) ∧ Forwarded (opsOf pre) writer (addr peer) p q := by
  have := runs_forwarded (ops := []) (h : Runs addr writer (Cache.run []) es out)
  simpa using this

/-- the actor can always go on -/
theorem c95_runs (addr : σ → A) (writer : Field) (es : List (Event A σ)) : ∃ out, Runs addr writer [] es out := by
  have key : ∀ ops, ∃ out, Runs addr writer (Cache.run ops) es out := by
    induction es with
    | nil => exact fun ops => ⟨[], .nil⟩
    | cons e es ih =>
      intro ops
      cases e with
      | op o =>
        obtain ⟨out, h⟩ := ih (ops ++ [o])
        rw [run_snoc] at h
        exact ⟨out, .op h⟩
      | flow peer p =>
        obtain ⟨out, h⟩ := ih ops
        have hg := fun ip dom fs => c90_total ops ip dom fs
        exact ⟨_, .flow (fun ip dom fs => Classical.choose (hg ip dom fs)) (fun ip dom fs => Classical.choose_spec (hg ip dom fs)) h⟩
  exact key []

/-- C95: what a record had is kept, at the front and in order -/
theorem c95_kept {ops : List (Op A Field Flow.Ie)} {writer : Field} {ip : A} {dom : UInt32} {rs rs' : List (DataRecord φ)} (h : RecordsForwarded ops writer ip dom rs rs') :
    rs'.length = (rs.filter fun r => r.scope.isEmpty).length ∧
      ∀ (i : Nat) (r r' : DataRecord φ), (rs.filter fun r => r.scope.isEmpty)[i]? = some r → rs'[i]? = some r' → r.fields <+: r'.fields ∧ r'.fields.getLast? = some writer ∧ r'.scope = [] := by
  induction h with
  | nil => simp
  | @options r l l' hs h ih => rw [List.filter_cons_of_neg (by simpa using hs)]; exact ih
  | @record r res l l' hs ha h ih =>
    rw [List.filter_cons_of_pos (by simpa using hs)]
    refine ⟨by simp [ih.1], fun i r1 r2 h1 h2 => ?_⟩
    cases i with
    | zero =>
      simp only [List.getElem?_cons_zero, Option.some.injEq] at h1 h2
      subst h1; subst h2
      exact ⟨List.prefix_append _ _, by simp, rfl⟩
    | succ i => exact ih.2 i r1 r2 (by simpa using h1) (by simpa using h2)

end

section
local instance : FieldOrd Field Flow.Ie := En95.fieldOrd
/-- a name for an interface -/
def c95Op : Op Nat Field Flow.Ie := .upsert 1 ⟨0, some [.known 0 10 (.unsigned32 3)]⟩ 8 [.known 0 82 (.string "x")]
/-- a packet with a template, a record of options and a record of that interface -/
def c95Packet : IpfixPacket :=
  ⟨⟨0, 0⟩, 1, 2, [.template [], .data 256 [⟨[.known 0 1 (.unsigned8 1)], []⟩, ⟨[], [.known 0 10 (.unsigned32 3)]⟩]]⟩

example : ∃ q, Runs id (.unknown 1 1 []) [] [.op c95Op, .flow 1 (.ipfix c95Packet)] [(1, .ipfix q)] ∧
    q.sets = [.data 256 [⟨[], [.known 0 10 (.unsigned32 3), .known 0 82 (.string "x"), .unknown 1 1 []]⟩]] := by
  have hg := fun ip dom fs => c90_total [c95Op] ip dom fs
  refine ⟨_, .op (.flow (fun ip dom fs => if ip = 1 ∧ dom = 2 ∧ fs = [.known 0 10 (.unsigned32 3)] then some [.known 0 82 (.string "x")] else
    Classical.choose (hg ip dom fs)) (fun ip dom fs => ?_) .nil), ?_⟩
  · by_cases h : ip = 1 ∧ dom = 2 ∧ fs = [.known 0 10 (.unsigned32 3)]
    · simp only [h]
      exact .inr ⟨by decide, _, rfl, by decide⟩
    · simp only [h, if_false]
      exact Classical.choose_spec (hg ip dom fs)
  · simp [enrichIpfix, c95Packet, List.filterMap_cons, enrichSet, fieldsFor, withFields]
end

end Verif.Props
