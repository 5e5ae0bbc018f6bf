import Verif.Props.BgpMsg
/-!
# C55, C56: what is lost when a malformed capability or path attribute is skipped
-/
namespace Verif.Props
open Verif Verif.Bgp CParser

/-! ## Capabilities -/

/-- **C55 is false.** A multiprotocol capability with an AFI that is not known is six octets long, but reading resumes in
the middle of it, and the four-octet AS capability that follows, which decodes well on its own, is lost: the OPEN is
accepted without it. -/
theorem c55_disproved : ∃ (bad good : Bytes) (x : Cap),
    bad.length = 2 + (bad[1]!).toNat ∧ parseCap ⟨good, 0⟩ = (.ok x, ⟨[], good.length⟩) ∧
    ∃ m s, parseOpen lenientCtx (⟨openOctets 1 180 0x0a000001 [bad ++ good], 0⟩, .none) = (.ok m, s) ∧ x ∉ m.caps :=
  ⟨[1, 4, 0, 99, 0, 1], [65, 4, 0, 0, 0, 7], .fourOctetAs 7, rfl, by decide +kernel,
    ⟨1, 180, 0x0a000001, [[.unrecognized 0 [65], .unrecognized 4 [], .unrecognized 0 []]]⟩,
    (⟨[], 24⟩, ⟨[], [], [.mpe (.undefAfi 14 99), .parse (.eof 24 1 0)], []⟩), by decide +kernel, by decide +kernel⟩

/-- **C55 (part).** Well-formed capabilities before the first malformed one are all kept, in order, whatever follows
them, and none of them leaves an error behind. -/
theorem c55_before_partial (c : MsgCtx) (hc : c.failCap = false) (l : List Cap) (h : ∀ x ∈ l, x.Fits) (rest : Bytes)
    (o : Nat) (g : Ignored) :
    ∃ l' es, cmany (capStep c) (⟨rest, o + (l.map Cap.bytes).flatten.length⟩, g) =
        (.ok l', (⟨[], o + (l.map Cap.bytes).flatten.length + rest.length⟩, { g with caps := g.caps ++ es })) ∧
      cmany (capStep c) (⟨(l.map Cap.bytes).flatten ++ rest, o⟩, g) =
        (.ok (l ++ l'), (⟨[], o + (l.map Cap.bytes).flatten.length + rest.length⟩, { g with caps := g.caps ++ es })) := by
  obtain ⟨k, hk⟩ := capRun_exists ⟨rest, o + (l.map Cap.bytes).flatten.length⟩
  refine ⟨oks k, errs k, caps_lenient hc hk g, ?_⟩
  have hrun : CapRun ⟨(l.map Cap.bytes).flatten ++ rest, o⟩ (l.map .ok ++ k) := by
    induction l generalizing o with
    | nil => simpa using hk
    | cons x l ih =>
      obtain ⟨_, hr, _, hne⟩ := Cap.facts (h x (by simp))
      refine .ok (r' := ⟨(l.map Cap.bytes).flatten ++ rest, o + x.bytes.length⟩) (by simp [hne]) ?_ (ih (fun y hy => h y (by simp [hy])) _ ?_)
      · rw [List.map_cons, List.flatten_cons, List.append_assoc]; exact hr.run _ _
      · simpa [Nat.add_assoc] using hk
  have ho : oks (l.map .ok ++ k) = l ++ oks k := by
    clear hrun hk h
    induction l with
    | nil => rfl
    | cons x l ih => rw [List.map_cons, List.cons_append, oks, ih]; rfl
  have he : errs (l.map .ok ++ k) = errs k := by
    clear hrun hk h ho
    induction l with
    | nil => rfl
    | cons x l ih => rw [List.map_cons, List.cons_append, errs, ih]
  rw [caps_lenient hc hrun g, ho, he]
  simp [Nat.add_assoc]

example : ∃ l : List Cap, (∀ x ∈ l, x.Fits) ∧ l.length = 2 :=
  ⟨[.routeRefresh, .fourOctetAs 7], by simp [Cap.Fits], rfl⟩

/-! ## Path attributes -/

/-- **C56 is false.** An ORIGIN flagged as optional is skipped together with the LOCAL_PREF that follows it: the error is
found when the value has been read, and then the length of the next attribute is skipped. -/
theorem c56_flags_disproved :
    (parseMsg lenientCtx (⟨frameOf 30 2 [0, 0, 0, 7, 0x40, 5, 4, 0, 0, 0, 100], 0⟩, .none)).1 =
      .ok (.update ⟨[], [⟨false, true, false, false, .localPref 100⟩], []⟩) ∧
    (parseMsg lenientCtx (⟨frameOf 34 2 [0, 0, 0, 11, 0x80, 1, 1, 0, 0x40, 5, 4, 0, 0, 0, 100], 0⟩, .none)).1 =
      .ok (.update ⟨[], [], []⟩) := by
  constructor <;> decide +kernel

/-- **C56 is false.** When the malformed attribute is the last one, the same mistake makes the whole UPDATE fail. -/
theorem c56_last_disproved :
    (parseMsg lenientCtx (⟨frameOf 27 2 [0, 0, 0, 4, 0x80, 1, 1, 0], 0⟩, .none)).1 =
      .err (.update (.parse (.eof 27 1 0))) := by
  decide +kernel

/-- an attribute that lenient parsing skips exactly: the step over it consumes exactly its octets, adds one error and
returns no attribute, whatever follows -/
def SkippedExactly (c : MsgCtx) (w : Bytes) : Prop :=
  ∀ rest o g, ∃ e, attrStep c (⟨w ++ rest, o⟩, g) =
    (.ok none, (⟨rest, o + w.length⟩, { g with attrs := g.attrs ++ [e] }))

/-- an item of an attribute list: an attribute, or the octets of one that is skipped -/
def itemBytes : PathAttr ⊕ Bytes → Bytes
  | .inl a => a.bytes
  | .inr w => w
def itemAttr : PathAttr ⊕ Bytes → Option PathAttr
  | .inl a => some a
  | .inr _ => none

/-- **C56 (part).** As long as every malformed attribute is one that is skipped exactly, only the malformed ones are lost:
the result is the well-formed attributes in order, with one error recorded for each of the others. -/
theorem c56_partial (c : MsgCtx) (l : List (PathAttr ⊕ Bytes))
    (h : ∀ x ∈ l, match x with | .inl a => a.WF c.attr | .inr w => w ≠ [] ∧ SkippedExactly c w) (o : Nat) (g : Ignored) :
    ∃ es, es.length = (l.filter Sum.isRight).length ∧
      cmany (attrStep c) (⟨(l.map itemBytes).flatten, o⟩, g) =
        (.ok (l.filterMap itemAttr), (⟨[], o + (l.map itemBytes).flatten.length⟩, { g with attrs := g.attrs ++ es })) := by
  induction l generalizing o g with
  | nil => exact ⟨[], rfl, by rw [cmany_nil _ _ rfl]; simp⟩
  | cons x l ih =>
    have hx := h x (by simp)
    have ht := fun y hy => h y (List.mem_cons_of_mem x hy)
    cases x with
    | inl a =>
      obtain ⟨es, hes, hr⟩ := ih ht (o + a.bytes.length) g
      have hs := (creads_attrStep c hx).run (l.map itemBytes).flatten o g
      have hne : a.bytes.length ≠ 0 := by
        have := attr_ne_nil a
        simpa using this
      refine ⟨es, by simpa using hes, ?_⟩
      rw [List.map_cons, List.flatten_cons, show itemBytes (.inl a) = a.bytes from rfl]
      rw [cmany_cons (by simp; intro h; simp [h] at hne) hs (by simp; omega), hr]
      simp [itemAttr, Nat.add_assoc]
    | inr w =>
      obtain ⟨e, hs⟩ := hx.2 (l.map itemBytes).flatten o g
      have hne := List.length_pos_iff.mpr hx.1
      obtain ⟨es, hes, hr⟩ := ih ht (o + w.length) { g with attrs := g.attrs ++ [e] }
      refine ⟨e :: es, by rw [List.filter_cons_of_pos rfl, List.length_cons, List.length_cons, hes], ?_⟩
      rw [List.map_cons, List.flatten_cons, show itemBytes (.inr w) = w from rfl]
      rw [cmany_cons (by simp [hx.1]) hs (by simp; omega), hr]
      rw [List.filterMap_cons_none rfl]
      simp [Nat.add_assoc]

/-- an ORIGIN with an undefined value is skipped exactly -/
theorem skipped_origin (c : MsgCtx) (hc : c.failAttr = false) (f v : UInt8) (hf : hasBit f 0x10 = false) (hv : 3 ≤ v.toNat) :
    SkippedExactly c [f, 1, 1, v] := by
  intro rest o g
  have ho : Origin.ofCode v = none := by
    unfold Origin.ofCode
    rw [if_neg (by rintro rfl; simp at hv), if_neg (by rintro rfl; simp at hv), if_neg (by rintro rfl; simp at hv)]
  refine ⟨.origin (.undefined (o + 3) v), ?_⟩
  have hp : parseAttr c.attr ⟨[f, 1, 1, v] ++ rest, o⟩ = (.err (.origin (.undefined (o + 3) v)), ⟨rest, o + 4⟩) := by
    unfold parseAttr
    rw [Parser.bind_ok (Parser.getOffset_run _),
      Parser.bind_ok (p := Parser.mapErr AttrErr.parse readU8) (r' := ⟨[1, 1, v] ++ rest, o + 1⟩) (a := f) rfl,
      Parser.bind_ok (p := Parser.mapErr AttrErr.parse readU8) (r' := ⟨[1, v] ++ rest, o + 2⟩) (a := 1) rfl]
    refine Parser.bind_err ?_ _
    unfold attrValue
    rw [if_pos rfl, hf]
    have h1 : parseOrigin false ⟨1 :: v :: rest, o + 2⟩ = (.err (.undefined (o + 3) v), ⟨rest, o + 4⟩) := by
      unfold parseOrigin
      rw [Parser.bind_ok (Parser.getOffset_run _),
        Parser.bind_ok (p := attrLen OriginErr.parse false) (r' := ⟨v :: rest, o + 3⟩) (a := .u8 1) rfl, if_pos (by decide),
        Parser.bind_ok (Parser.getOffset_run _),
        Parser.bind_ok (p := Parser.mapErr OriginErr.parse readU8) (r' := ⟨rest, o + 4⟩) (a := v) rfl, ho]
      rfl
    show (AttrValue.origin <$> Parser.mapErr AttrErr.origin (parseOrigin false)) ⟨1 :: v :: rest, o + 2⟩ = _
    rw [Parser.map_run, Parser.mapErr_run, h1]
    rfl
  unfold attrStep
  rw [CParser.bind_ok (attempt_err hp g)]
  simp only [hc, Bool.false_eq_true, if_false]
  rfl

/-- an AS_PATH whose first segment has an undefined type is skipped exactly -/
theorem skipped_asPath (c : MsgCtx) (hc : c.failAttr = false) (f l t : UInt8) (v : Bytes) (hf : hasBit f 0x10 = false)
    (hl : l.toNat = (t :: v).length) (ht : t ≠ 1 ∧ t ≠ 2) : SkippedExactly c (f :: 2 :: l :: t :: v) := by
  intro rest o g
  have ho : SegType.ofCode t = none := by
    unfold SegType.ofCode
    rw [if_neg ht.1, if_neg ht.2]
  refine ⟨.asPath (.undefinedType (o + 3) t), ?_⟩
  have hseg : ∀ {α : Type} (rd : Parser ParseError α) (w : Nat),
      attrMany .parse false (parseSeg rd w) ⟨l :: ((t :: v) ++ rest), o + 2⟩ =
        (.err (.undefinedType (o + 3) t), ⟨rest, o + 3 + l.toNat⟩) := by
    intro α rd w
    have hs : parseSeg rd w ⟨t :: v, o + 3⟩ = (.err (.undefinedType (o + 3) t), ⟨v, o + 4⟩) := by
      unfold parseSeg
      rw [Parser.bind_ok (Parser.getOffset_run _),
        Parser.bind_ok (p := Parser.mapErr AsPathErr.parse readU8) (r' := ⟨v, o + 4⟩) (a := t) rfl, ho]
      rfl
    unfold attrMany attrSlice
    rw [if_neg (by decide), Parser.bind_ok (a := ⟨t :: v, o + 3⟩) (r' := ⟨rest, o + 3 + l.toNat⟩)]
    · refine Parser.bind_err ?_ _
      rw [Parser.onSub_run, many_run, parseAll_eq, if_neg (by simp), hs]
    · rw [Parser.bind_ok (p := Parser.mapErr AsPathErr.parse readU8) (r' := ⟨(t :: v) ++ rest, o + 3⟩) (a := l) rfl,
        Parser.mapErr_run, takeSlice_append hl.symm]
      rfl
  have hp : parseAttr c.attr ⟨f :: 2 :: l :: ((t :: v) ++ rest), o⟩ =
      (.err (.asPath (.undefinedType (o + 3) t)), ⟨rest, o + 3 + l.toNat⟩) := by
    unfold parseAttr
    rw [Parser.bind_ok (Parser.getOffset_run _),
      Parser.bind_ok (p := Parser.mapErr AttrErr.parse readU8) (r' := ⟨2 :: l :: ((t :: v) ++ rest), o + 1⟩) (a := f) rfl,
      Parser.bind_ok (p := Parser.mapErr AttrErr.parse readU8) (r' := ⟨l :: ((t :: v) ++ rest), o + 2⟩) (a := 2) rfl]
    refine Parser.bind_err ?_ _
    unfold attrValue
    rw [if_neg (by decide), if_pos rfl, hf]
    unfold parseAsPath
    cases c.attr.asn4
    · rw [if_neg (by decide), Parser.map_run, Parser.mapErr_run, Parser.map_run, hseg]; rfl
    · rw [if_pos rfl, Parser.map_run, Parser.mapErr_run, Parser.map_run, hseg]; rfl
  unfold attrStep
  rw [show (f :: 2 :: l :: t :: v) ++ rest = f :: 2 :: l :: ((t :: v) ++ rest) from rfl, CParser.bind_ok (attempt_err hp g)]
  simp only [hc, Bool.false_eq_true, if_false]
  rw [show o + (f :: 2 :: l :: t :: v).length = o + 3 + l.toNat by rw [hl]; simp; omega]
  rfl

/-- an AS_PATH with segment type 9 between two good attributes -/
example : ∃ l : List (PathAttr ⊕ Bytes), (l.filter Sum.isRight).length = 1 ∧ (l.filterMap itemAttr).length = 2 ∧
    ∀ x ∈ l, match x with | .inl a => a.WF lenientCtx.attr | .inr w => w ≠ [] ∧ SkippedExactly lenientCtx w := by
  refine ⟨[.inl ⟨false, true, false, false, .localPref 100⟩, .inr [0x40, 2, 2, 9, 0],
    .inl ⟨false, true, false, false, .origin .igp⟩], rfl, rfl, ?_⟩
  intro x hx
  simp only [List.mem_cons, List.not_mem_nil, or_false] at hx
  rcases hx with rfl | rfl | rfl
  · exact ⟨trivial, by decide, rfl⟩
  · exact ⟨by simp, skipped_asPath _ rfl 0x40 2 9 [0] (by decide) rfl (by decide)⟩
  · exact ⟨trivial, by decide, rfl⟩

end Verif.Props
