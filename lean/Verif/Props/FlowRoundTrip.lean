import Verif.Flow.FitLemmas
import Verif.Flow.RoundTripLemmas
import Verif.Props.FlowCodec
/-!
# C76, C77, C78, C79: flow fields and packets, written and read back
-/
namespace Verif.Props
open Verif Flow Flow24

/-! ## C76 -/

/-- C76: a field that fits its length is written to as many octets as announced, and read back from them whatever follows.
What does not fit is left out, see `Flow.Fits`. -/
theorem c76_written_partial {l : UInt16} {f : Field} (h : f.Fits l) :
    ∃ w, f.write (some l) = .ok w ∧ w.length = f.len (some l) ∧ (l ≠ 65535 → w.length = l.toNat) ∧
      ∀ rest o, Field.parse f.ie l ⟨w ++ rest, o⟩ = (.ok f, ⟨rest, o + w.length⟩) := by
  obtain ⟨w, h1, h2, h3⟩ := field_write h
  exact ⟨w, h1, h3, fun hl => by rw [h3, fits_len h hl], fun rest o => h2.run rest o⟩

/-- C76: a field that was decoded is written with the length it was decoded with, and decoded again as it was. Left out are micro- and
nanoseconds, and lists and elements of unknown vendors of variable length. -/
theorem c76_decoded_partial {ie : Ie} {l : UInt16} {r r' : Reader} {f : Field} (h : Field.parse ie l r = (.ok f, r')) (hk : Kept ie l) :
    ∃ w, f.write (some l) = .ok w ∧ w.length = f.len (some l) ∧
      ∀ rest o, Field.parse ie l ⟨w ++ rest, o⟩ = (.ok f, ⟨rest, o + w.length⟩) := by
  obtain ⟨rfl, hf⟩ := field_fits h hk
  obtain ⟨w, h1, h2, h3⟩ := field_write hf
  exact ⟨w, h1, h3, fun rest o => h2.run rest o⟩

/-- C76 is false of decoded values: half a second is written as half a second less a fraction and decoded as one nanosecond less,
a list of variable length is written without its length, and so is an element of an unknown vendor not decoded with one -/
theorem c76_disproved :
    (Value.parse .micros 8 ⟨[0, 0, 0, 5, 128, 0, 0, 0], 0⟩ = (.ok (.micros ⟨5, 500000000⟩), ⟨[], 8⟩) ∧
      Value.write (.micros ⟨5, 500000000⟩) (some 8) = .ok [0, 0, 0, 5, 127, 255, 255, 255] ∧
      Value.parse .micros 8 ⟨[0, 0, 0, 5, 127, 255, 255, 255], 0⟩ = (.ok (.micros ⟨5, 499999999⟩), ⟨[], 8⟩)) ∧
    (Value.parse .basicList 65535 ⟨[3, 7, 8, 9], 0⟩ = (.ok (.basicList [7, 8, 9]), ⟨[], 4⟩) ∧
      Value.write (.basicList [7, 8, 9]) (some 65535) = .ok [7, 8, 9] ∧
      (Value.parse .basicList 65535 ⟨[7, 8, 9], 0⟩).1 = .err (.parse (.eof 1 7 2))) ∧
    (Field.write (.unknown 9 1 [7]) (some 65535) = .ok [1, 7] ∧
      (Field.parse (.unknown 9 1) 65535 ⟨[1, 7], 0⟩).1 = .err (.parse (.eof 0 65535 2))) := by
  decide +kernel

/-- C76 is false of values of the caller, none of which is refused: a text with a NUL is cut, octets which are too few are filled up and too many are not cut,
an integer which is too large loses its first octets and one of 256 bits its last. Writing the latter with 33 octets panics. -/
theorem c76_values_disproved :
    (Value.write (.string "a\x00b") (some 4) = .ok [97, 0, 98, 0] ∧
      Value.parse .string 4 ⟨[97, 0, 98, 0], 0⟩ = (.ok (.string "a"), ⟨[], 4⟩)) ∧
    (Value.write (.octetArray [7]) (some 2) = .ok [7, 0] ∧
      Value.parse .octetArray 2 ⟨[7, 0], 0⟩ = (.ok (.octetArray [7, 0]), ⟨[], 2⟩)) ∧
    (Value.write (.octetArray [7, 8, 9]) (some 2) = .ok [7, 8, 9] ∧ Value.len (.octetArray [7, 8, 9]) (some 2) = 2) ∧
    (Value.write (.unsigned32 0x01020304) (some 2) = .ok [3, 4] ∧
      Value.parse .unsigned32 2 ⟨[3, 4], 0⟩ = (.ok (.unsigned32 0x0304), ⟨[], 2⟩)) ∧
    (Value.write (.unsigned256 5) (some 1) = .ok [0] ∧ Value.parse .unsigned256 1 ⟨[0], 0⟩ = (.ok (.unsigned256 0), ⟨[], 1⟩)) ∧
    Value.write (.unsigned256 5) (some 33) = .fault .panic := by
  decide +kernel

/-- without a template, an element that no registry knows is written with a length prefix which is not counted -/
theorem c76_length_disproved :
    Field.write (.vendorUnknown 9 1 [7]) none = .ok [1, 7] ∧ Field.len (.vendorUnknown 9 1 [7]) none = 1 := by
  decide +kernel

/-- a negative number of two octets, and a text of variable length -/
example : Field.Fits 2 (.known 0 5 (.signed32 (-300))) ∧ Field.Fits 65535 (.known 0 82 (.string "eth0")) := by
  refine ⟨?_, ?_⟩
  · simp only [Field.Fits, Fits]; decide
  · simp only [Field.Fits, Fits]; decide +kernel
example : Field.write (.known 0 5 (.signed32 (-300))) (some 2) = .ok [254, 212] := by decide +kernel
example : Field.parse (.known 0 82 .string) 6 ⟨[101, 116, 104, 0, 7, 7, 9], 0⟩ = (.ok (.known 0 82 (.string "eth")), ⟨[9], 6⟩) ∧
    Kept (.known 0 82 .string) 6 := ⟨by decide +kernel, trivial⟩

/-! ## C77 -/

theorem header_bytes (n : UInt16) (y : Bytes) : ((u16be 10 ++ (u16be n ++ y)).drop 2).take 2 = u16be n := by
  show (u16be n ++ y).take 2 = u16be n
  rw [List.take_append_of_le_length (by simp), List.take_of_length_le (by simp)]

/-- C77: an IPFIX message whose export time is a number of seconds, whose templates are valid and whose data fits them is
written to as many octets as announced, and read back from them by every codec which knew the templates the message does not bring
along, whatever follows; the codec has learnt the templates of the message then. The sender has to know the templates of data with
reduced lengths, as it does not learn those of the message. -/
theorem c77_partial {reg : Registry} {c c' : FlowCodec} {p : IpfixPacket}
    (ht : 0 ≤ p.exportTime.secs ∧ p.exportTime.secs < 2 ^ 32 ∧ p.exportTime.nanos = 0)
    (h : SetsFit reg c.ipfix.shapes c'.ipfix.shapes p.sets) (hl : p.len c.ipfix < 65536) :
    ∃ w, FlowCodec.encode c (.ipfix p) = .ok w ∧ w.length = p.len c.ipfix ∧ (w.drop 2).take 2 = u16be (UInt16.ofNat w.length) ∧
      ∃ m', (∀ rest, FlowCodec.decode reg c' (w ++ rest) = (.out (.ok (.ipfix p)), { c' with ipfix := m' }, rest)) ∧
        ∀ id, m'.shapes id = (lastDef (p.sets.flatMap FlowSet.defs) id).or (c'.ipfix.shapes id) := by
  obtain ⟨w, m', h1, h2, h3, h4⟩ := ipfix_write ht h hl
  refine ⟨w, h1, h2, ?_, m', h3, h4⟩
  obtain ⟨y, hy⟩ : ∃ y, w = u16be 10 ++ (u16be (UInt16.ofNat (p.len c.ipfix)) ++ y) := by
    have h1' : IpfixPacket.write c.ipfix p = .ok w := h1
    unfold IpfixPacket.write at h1'
    cases hs : writeAll (ipfixSetWrite c.ipfix) p.sets with
    | ok v =>
      rw [hs] at h1'
      injection h1' with h5
      exact ⟨_, by rw [← h5]; simp only [List.append_assoc]; rfl⟩
    | err e => rw [hs] at h1'; cases h1'
    | fault e => rw [hs] at h1'; cases h1'
  rw [h2]
  exact (congrArg (fun x : Bytes => (x.drop 2).take 2) hy).trans (header_bytes _ _)

namespace Flow77

/-- the template 256: the octets in three octets, a protocol and a name -/
def specs : List Spec := [⟨.known 0 1 .unsigned64, 3⟩, ⟨.known 0 4 .unsigned8, 1⟩, ⟨.known 0 82 .string, 65535⟩]
/-- a record of it -/
def record : DataRecord Field := ⟨[], [.known 0 1 (.unsigned64 65537), .known 0 4 (.unsigned8 6), .known 0 82 (.string "a")]⟩
/-- a message with the template and a record -/
def both : IpfixPacket := ⟨⟨1, 0⟩, 2, 3, [.template [⟨256, specs⟩], .data 256 [record]]⟩
/-- a codec that knows the template -/
def knows : FlowCodec := ⟨HMap.empty, HMap.empty.insert 256 { scope := [], fields := specs }⟩

/-- the same without reduced lengths -/
def full : List Spec := [⟨.known 0 1 .unsigned64, 8⟩, ⟨.known 0 4 .unsigned8, 1⟩, ⟨.known 0 82 .string, 65535⟩]

end Flow77
open Flow77

/-- what a message of the codec `c` becomes for the codec `c'`, with the octets left -/
def resent (reg : Registry) (c c' : FlowCodec) (x : FlowInfo) : Option (Dec FlowErr FlowInfo × Bytes) :=
  match FlowCodec.encode c x with
  | .ok w => some ((FlowCodec.decode reg c' w).1, (FlowCodec.decode reg c' w).2.2)
  | _ => none

/-- C77 is false of a new codec: it writes the template with three octets for a number and the number with eight, as it
does not learn the templates it writes; one record becomes two. A record without fields disappears, and so does the fraction of the export time. -/
theorem c77_disproved :
    resent reg .new .new (.ipfix both) = some (.out (.ok (.ipfix ⟨⟨1, 0⟩, 2, 3, [.template [⟨256, specs⟩],
      .data 256 [⟨[], [.known 0 1 (.unsigned64 0), .known 0 4 (.unsigned8 0), .known 0 82 (.string "")]⟩, record]]⟩)), []) ∧
    resent reg .new .new (.ipfix ⟨⟨1, 5⟩, 2, 3, [.template [⟨256, []⟩], .data 256 [⟨[], []⟩]]⟩) =
      some (.out (.ok (.ipfix ⟨⟨1, 0⟩, 2, 3, [.template [⟨256, []⟩], .data 256 []]⟩)), []) := by
  decide +kernel

theorem specs_valid : (⟨256, specs⟩ : TemplateRecord).Valid reg where
  id := by decide
  count := by decide
  fields s hs := by
    simp only [specs, List.mem_cons, List.not_mem_nil, or_false] at hs
    rcases hs with rfl | rfl | rfl <;> exact ⟨by decide, by decide, by decide⟩

theorem full_valid : (⟨256, full⟩ : TemplateRecord).Valid reg where
  id := by decide
  count := by decide
  fields s hs := by
    simp only [full, List.mem_cons, List.not_mem_nil, or_false] at hs
    rcases hs with rfl | rfl | rfl <;> exact ⟨by decide, by decide, by decide⟩

theorem record_specs : RecordFits ([], specs) record := by
  refine ⟨trivial, ⟨rfl, ?_⟩, ⟨rfl, ?_⟩, ⟨rfl, ?_⟩, trivial⟩
  · simp only [Field.Fits, Fits]; decide
  · rfl
  · simp only [Field.Fits, Fits]; decide +kernel

theorem record_full : RecordFits ([], full) record := by
  refine ⟨trivial, ⟨rfl, ?_⟩, ⟨rfl, ?_⟩, ⟨rfl, ?_⟩, trivial⟩
  · simp only [Field.Fits, Fits]; decide
  · rfl
  · simp only [Field.Fits, Fits]; decide +kernel

/-- the message which fails for a new codec meets the hypotheses of `c77_partial` when the sender knows the template, and with lengths that are not
reduced it does for new codecs -/
example : SetsFit reg knows.ipfix.shapes FlowCodec.new.ipfix.shapes both.sets ∧ both.len knows.ipfix < 65536 := by
  refine ⟨⟨?_, ⟨by decide, _, .inl rfl, rfl, by decide, ?_⟩, trivial⟩, by decide +kernel⟩
  · intro t ht
    obtain rfl : t = ⟨256, specs⟩ := by simpa using ht
    exact specs_valid
  · intro r hr
    obtain rfl : r = record := by simpa using hr
    exact record_specs
example : SetsFit reg FlowCodec.new.ipfix.shapes FlowCodec.new.ipfix.shapes [.template [⟨256, full⟩], .data 256 [record, record]] := by
  refine ⟨?_, ⟨by decide, _, .inr ⟨rfl, ?_⟩, rfl, by decide, ?_⟩, trivial⟩
  · intro t ht
    obtain rfl : t = ⟨256, full⟩ := by simpa using ht
    exact full_valid
  · intro s hs
    change s ∈ full at hs
    simp only [full, List.mem_cons, List.not_mem_nil, or_false] at hs
    rcases hs with rfl | rfl | rfl <;> simp [Spec.Full]
  · intro r hr
    obtain rfl : r = record := by simpa using hr
    exact record_full
example : resent reg knows .new (.ipfix both) = some (.out (.ok (.ipfix both)), []) := by decide +kernel

/-! ## C78 -/

/-- C78: a NetFlow v9 packet whose time is a number of seconds, whose sets are not empty, whose templates are valid and
whose data fits them is written to as many octets as announced, and read back by every codec which knew the templates the packet does not bring along.
The count of the header is the number of its records. -/
theorem c78_partial {reg : Registry} {c c' : FlowCodec} {p : NetflowPacket}
    (ht : 0 ≤ p.unixTime.secs ∧ p.unixTime.secs < 2 ^ 32 ∧ p.unixTime.nanos = 0)
    (h : NetflowSetsFit reg c.netflow.shapes c'.netflow.shapes p.sets) (hl : ∀ s ∈ p.sets, netflowSetLen c.netflow s < 65536)
    (hn : (p.sets.map FlowSet.records).sum < 65536) :
    ∃ w, FlowCodec.encode c (.netflow p) = .ok w ∧ w.length = 20 + (p.sets.map (netflowSetLen c.netflow)).sum ∧
      ∃ m', FlowCodec.decode reg c' w = (.out (.ok (.netflow p)), { c' with netflow := m' }, []) ∧
        ∀ id, m'.shapes id = (lastDef (p.sets.flatMap FlowSet.defs) id).or (c'.netflow.shapes id) := by
  obtain ⟨w, m', h1, h2, h3, h4⟩ := netflow_write ht h hl hn
  exact ⟨w, h1, h2, m', h3, h4⟩

namespace Flow78

/-- the template with this id: a protocol and an address -/
def template (id : UInt16) : TemplateRecord := ⟨id, [⟨.known 0 4 .unsigned8, 1⟩, ⟨.known 0 8 .ipv4, 4⟩]⟩
/-- a record of it -/
def flow (a : UInt32) : DataRecord ScopeField := ⟨[], [.known 0 4 (.unsigned8 6), .known 0 8 (.ipv4 a)]⟩

end Flow78
open Flow78

/-- C78 is false of packets with empty sets, which are left in the buffer, and of packets with two templates in a set when another packet follows: the
header counts both templates and the reader takes one from the count, so that it goes on with the header of the next packet -/
theorem c78_disproved :
    resent reg .new .new (.netflow ⟨9, ⟨1, 0⟩, 2, 3, [.template []]⟩) =
      some (.out (.ok (.netflow ⟨9, ⟨1, 0⟩, 2, 3, []⟩)), [0, 0, 0, 4]) ∧
    ∃ w, FlowCodec.encode .new (.netflow ⟨9, ⟨1, 0⟩, 2, 3, [.template [template 256, template 257]]⟩) = .ok w ∧
      (FlowCodec.decode reg .new (w ++ w)).1 = .out (.err (.netflow (.set (.invalidSetId 48 9)))) ∧
      (FlowCodec.decode reg .new (w ++ w)).2.2 = [] :=
  ⟨by decide +kernel, _, rfl, by decide +kernel, by decide +kernel⟩

theorem template_valid (id : UInt16) (h : 256 ≤ id.toNat) : (template id).Valid reg where
  id := h
  count := show 2 < 65536 by decide
  fields s hs := by
    simp only [template, List.mem_cons, List.not_mem_nil, or_false] at hs
    rcases hs with rfl | rfl <;> exact ⟨by decide, by decide, by decide⟩

theorem flow_fits (id : UInt16) (a : UInt32) : NetflowRecordFits ([], (template id).fields) (flow a) := by
  refine ⟨trivial, ⟨⟨rfl, rfl⟩, ⟨rfl, rfl⟩, trivial⟩, fun s hs => ?_⟩
  simp only [template, List.mem_cons, List.not_mem_nil, or_false] at hs
  rcases hs with rfl | rfl <;> decide

/-- two templates and three records, for new codecs -/
example : NetflowSetsFit reg FlowCodec.new.netflow.shapes FlowCodec.new.netflow.shapes
    [.template [template 256, template 257], .data 257 [flow 1, flow 2], .data 256 [flow 3]] := by
  have hf : ∀ s ∈ (template 256).fields, s.Full := fun s hs => by
    simp only [template, List.mem_cons, List.not_mem_nil, or_false] at hs
    rcases hs with rfl | rfl <;> trivial
  refine ⟨⟨by simp, fun t ht => ?_⟩, ⟨by simp, by decide, _, .inr ⟨rfl, fun s hs => (List.not_mem_nil (show s ∈ [] from hs)).elim, hf⟩, rfl, by decide, fun r hr => ?_⟩,
    ⟨by simp, by decide, _, .inr ⟨rfl, fun s hs => (List.not_mem_nil (show s ∈ [] from hs)).elim, hf⟩, rfl, by decide, fun r hr => ?_⟩, trivial⟩
  · simp only [List.mem_cons, List.not_mem_nil, or_false] at ht
    rcases ht with rfl | rfl <;> exact template_valid _ (by decide)
  · simp only [List.mem_cons, List.not_mem_nil, or_false] at hr
    rcases hr with rfl | rfl <;> exact flow_fits 257 _
  · simp only [List.mem_cons, List.not_mem_nil, or_false] at hr
    subst hr; exact flow_fits 256 _

/-! ## C79 -/

/-- C79: with alignment, a set of templates or of options templates takes a multiple of four octets, and so does a set of data with an even number of octets -/
theorem c79_partial {m : Templates ScopeSpec} {s : FlowSet ScopeSpec ScopeField} {w : Bytes} (h : netflowSetWrite m true s = .ok w)
    (hs : ∀ id l, s = .data id l → ∃ v, writeAll (netflowRecordWrite (m id)) l = .ok v ∧ v.length = (l.map (netflowRecordLen (m id))).sum ∧
      v.length % 2 = 0) : w.length % 4 = 0 := by
  have hl : ∀ {α : Type} (l : List α) (f : α → Nat) (n : Nat), (∀ a, f a % n = 0) → (l.map f).sum % n = 0 := by
    intro α l f n hf
    induction l with
    | nil => simp
    | cons a l ih => rw [List.map_cons, List.sum_cons, Nat.add_mod, hf, ih]; simp
  have hsp : ∀ s : Spec, s.len % 4 = 0 := fun s => by unfold Spec.len; split <;> rfl
  have hsc : ∀ s : ScopeSpec, s.len % 4 = 0 := fun s => by unfold ScopeSpec.len; split <;> rfl
  cases s with
  | template l =>
    have h4 := hl l TemplateRecord.len 4 fun t => by
      have := hl t.fields Spec.len 4 hsp
      unfold TemplateRecord.len; omega
    injection h with h
    rw [← h]
    simp only [List.length_append, length_u16be, List.length_replicate]
    rw [sum_flatten_length _ _ _ fun a _ => length_template a]
    show (2 + 2 + (l.map TemplateRecord.len).sum + (4 + (l.map TemplateRecord.len).sum) % 4) % 4 = 0
    omega
  | options l =>
    have h4 := hl l netflowOptionsLen 2 fun t => by
      have := hl t.fields Spec.len 4 hsp
      have := hl t.scope ScopeSpec.len 4 hsc
      unfold netflowOptionsLen; omega
    injection h with h
    rw [← h]
    simp only [List.length_append, length_u16be, List.length_replicate]
    rw [sum_flatten_length _ _ _ fun a _ => length_netflowOptions a]
    show (2 + 2 + (l.map netflowOptionsLen).sum + (4 + (l.map netflowOptionsLen).sum) % 4) % 4 = 0
    omega
  | data id l =>
    obtain ⟨v, h1, h2, h3⟩ := hs id l rfl
    have h : ((Res.ok (u16be id ++ u16be _)).cat (writeAll (netflowRecordWrite (m id)) l)).cat
      (.ok (List.replicate ((4 + (l.map (netflowRecordLen (m id))).sum) % 4) 0)) = .ok w := h
    rw [h1] at h
    injection h with h
    rw [← h]
    simp only [List.length_append, length_u16be, List.length_replicate]
    omega

/-- C79 is false: a set of nine octets is padded by one octet, and not by three; and two records of one octet are padded by two octets, which
the reader takes for records and rejects the packet -/
theorem c79_disproved :
    netflowSetWrite HMap.empty true (.data 256 [flow 7]) = .ok [1, 0, 0, 10, 6, 0, 0, 0, 7, 0] ∧
    (let p : NetflowPacket := ⟨9, ⟨1, 0⟩, 2, 3, [.template [⟨256, [⟨.known 0 4 .unsigned8, 1⟩]⟩],
        .data 256 [⟨[], [.known 0 4 (.unsigned8 6)]⟩, ⟨[], [.known 0 4 (.unsigned8 17)]⟩]]⟩
      ∃ w, NetflowPacket.write HMap.empty true p = .ok w ∧
        (FlowCodec.decode reg .new w).1 = .out (.err (.netflow (.invalidCount 2 3)))) :=
  ⟨by decide +kernel, _, rfl, by decide +kernel⟩

/-- two records of five octets -/
example : netflowSetWrite HMap.empty true (.data 256 [flow 7, flow 8]) = .ok [1, 0, 0, 16, 6, 0, 0, 0, 7, 6, 0, 0, 0, 8, 0, 0] := by
  decide +kernel

/-! ## C83 -/

/-- C83: octets of zero behind the records of an IPFIX data set, fewer than a record takes, are ignored -/
theorem c83_ipfix_partial {reg : Registry} {m : Templates Spec} {t : Template Spec} {id : UInt16} {l : List (DataRecord Field)} {pad : Nat}
    (hid : 256 ≤ id.toNat) (ht : m.shapes id = some t.shape) (hp : pad < ipfixSize t.shape) (hl : ∀ r ∈ l, RecordFits t.shape r) :
    ∃ w, writeAll (ipfixRecordWrite (some t)) l = .ok w ∧ (4 + (w ++ List.replicate pad 0).length < 65536 →
      ∀ rest o, ∃ m', FlowSet.parse reg ipfix (⟨set id (w ++ List.replicate pad 0) ++ rest, o⟩, m) =
        (.ok (.data id l), (⟨rest, o + (4 + (w ++ List.replicate pad 0).length)⟩, m')) ∧ m'.shapes = m.shapes) := by
  obtain ⟨w, h1, -, h2⟩ := ipfixData_write (reg := reg) hid ht (by omega) hl
  refine ⟨w, h1, fun h3 rest o => ?_⟩
  obtain ⟨r, m', h4, h5⟩ := h2 o (o + 4) pad hp
  have := set_write reg (d := ipfix) (id := id) (by
    rintro ⟨-, -, hlt⟩
    have := UInt16.lt_iff_toNat_lt.mp hlt
    have : (256 : UInt16).toNat = 256 := rfl
    omega) h3 h4 rest
  refine ⟨m', ?_, funext fun i => h5 i⟩
  rw [← this]; unfold Flow24.set; simp only [List.append_assoc]

/-- C83: the same for NetFlow -/
theorem c83_netflow_partial {reg : Registry} {m : Templates ScopeSpec} {t : Template ScopeSpec} {id : UInt16} {l : List (DataRecord ScopeField)} {pad : Nat}
    (hid : 256 ≤ id.toNat) (ht : m.shapes id = some t.shape) (hp : pad < netflowSize t.shape) (hl : ∀ r ∈ l, NetflowRecordFits t.shape r) :
    ∃ w, writeAll (netflowRecordWrite (some t)) l = .ok w ∧ (4 + (w ++ List.replicate pad 0).length < 65536 →
      ∀ rest o, ∃ m', FlowSet.parse reg netflow (⟨set id (w ++ List.replicate pad 0) ++ rest, o⟩, m) =
        (.ok (.data id l), (⟨rest, o + (4 + (w ++ List.replicate pad 0).length)⟩, m')) ∧ m'.shapes = m.shapes) := by
  obtain ⟨w, h1, -, h2⟩ := netflowData_write (reg := reg) hid ht (by omega) hl
  refine ⟨w, h1, fun h3 rest o => ?_⟩
  obtain ⟨r, m', h4, h5⟩ := h2 o (o + 4) pad hp
  have := set_write reg (d := netflow) (id := id) (by
    rintro ⟨-, -, hlt⟩
    have := UInt16.lt_iff_toNat_lt.mp hlt
    have : (256 : UInt16).toNat = 256 := rfl
    omega) h3 h4 rest
  refine ⟨m', ?_, funext fun i => h5 i⟩
  rw [← this]; unfold Flow24.set; simp only [List.append_assoc]

/-- C83 is false of template sets, of both protocols: the padding, which RFC 7011 (section 3.3.1) and RFC 3954 (section 5.2) allow, is taken
for a template. What follows the zeros of an IPFIX data set is ignored though it is not padding. -/
theorem c83_disproved :
    (FlowCodec.decode reg .new (message (set 2 (tplA ++ [0, 0])))).1 = .out (.err (.ipfix (.set (.record (.invalidTemplateId 32 0))))) ∧
    (FlowSet.parse reg netflow (⟨set 0 (tplA ++ [0, 0, 0, 0]), 0⟩, HMap.empty)).1 = .err (.record (.invalidTemplateId 16 0)) ∧
    (FlowSet.parse reg ipfix (⟨set 256 [6, 1, 2, 3, 4, 0, 9, 9], 0⟩, HMap.empty.insert 256 { scope := [], fields := (template 256).fields })).1 =
      .ok (.data 256 [⟨[], [.known 0 4 (.unsigned8 6), .known 0 8 (.ipv4 0x01020304)]⟩]) := by
  decide +kernel

/-- two records of five octets and three octets of padding -/
example : (FlowSet.parse reg ipfix (⟨set 256 [6, 0, 0, 0, 1, 6, 0, 0, 0, 2, 0, 0, 0], 0⟩,
    HMap.empty.insert 256 { scope := [], fields := (template 256).fields })).1 =
      .ok (.data 256 [⟨[], [.known 0 4 (.unsigned8 6), .known 0 8 (.ipv4 1)]⟩, ⟨[], [.known 0 4 (.unsigned8 6), .known 0 8 (.ipv4 2)]⟩]) := by
  decide +kernel

end Verif.Props
