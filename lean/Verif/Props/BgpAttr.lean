import Verif.Bgp.AttrLemmas
import Verif.Props.BgpLs
/-!
# C49, C50, C51, C52 — path attributes
-/
namespace Verif.Props
open Verif Verif.Bgp Parser

/-! ## C49: round trip -/

/-- **C49 (round trip).** A well formed attribute is written in exactly `len()` octets, and parsing these in the same
context, whatever follows, gives back the attribute and leaves what follows. -/
theorem c49_roundtrip_partial (c : AttrCtx) (a : PathAttr) (h : a.WF c) : WriteRoundTrips (parseAttr c) a a.write a.len :=
  ⟨_, PathAttr.write_eq h, .of (reads_attr h) (PathAttr.length_bytes h)⟩

/-- four-octet AS numbers, no labels, no ADD-PATH -/
def plainCtx : AttrCtx := ⟨true, fun _ => none, fun _ => none⟩

/-- AS_PATH with two segments; MP_REACH_NLRI with IPv6 prefixes and a link-local next hop -/
example : PathAttr.WF plainCtx ⟨false, true, false, false, .asPath (.as4 [⟨.sequence, [65536, 1]⟩, ⟨.set, [7]⟩])⟩ := by
  refine ⟨⟨rfl, ?_⟩, by decide, rfl⟩
  intro s hs; simp at hs; rcases hs with rfl | rfl <;> exact ⟨by decide, by decide⟩
example : PathAttr.WF plainCtx ⟨true, false, false, true,
    .mpReach (.uni6 1 (some 2) [⟨none, ⟨[0x20, 1, 0xd, 0xb8, 0, 0, 0, 0, 0, 0, 0, 0, 0, 0, 0, 0], 32⟩⟩])⟩ := by
  refine ⟨⟨?_, trivial⟩, by decide, rfl⟩
  intro a ha; simp at ha; subst ha
  exact ⟨⟨⟨by decide, by decide⟩, by decide⟩, by decide, rfl⟩

/-- **C49 is false without the extended-length flag and more than 255 octets**: the crate accepts the attribute, writes a
two-octet length that is one short, and reads back an empty attribute. -/
theorem c49_long_disproved : ∃ a : PathAttr, PathAttr.make a.optional a.transitive a.partialBit a.ext a.value = .ok a ∧
    ∃ b, a.write = .ok b ∧ b.length ≠ a.len ∧ (∀ r, parseAttr plainCtx ⟨b, 0⟩ ≠ (.ok a, r)) ∧
      ∃ a' r, parseAttr plainCtx ⟨b, 0⟩ = (.ok a', r) ∧ a' ≠ a :=
  ⟨⟨true, true, false, false, .unknown 99 (List.replicate 256 0)⟩, rfl,
    0xC0 :: 99 :: 0 :: 0xFF :: List.replicate 256 0, by decide +kernel, by decide +kernel,
    fun r h => by
      have : (parseAttr plainCtx ⟨0xC0 :: 99 :: 0 :: 0xFF :: List.replicate 256 0, 0⟩).1 =
        .ok ⟨true, true, false, false, .unknown 99 []⟩ := by decide +kernel
      rw [h] at this; exact absurd (Res.ok.inj this) (by decide +kernel),
    ⟨true, true, false, false, .unknown 99 []⟩, ⟨0xFF :: List.replicate 256 0, 3⟩, by decide +kernel, by decide +kernel⟩

/-- **C49 is false for `MP_REACH_NLRI` of an unknown family**: the length counts a reserved octet that is not written, so
what is decoded cannot be encoded again. -/
theorem c49_unknown_reach_disproved : ∃ (w : Bytes) (a : PathAttr) (r : Reader), parseAttr plainCtx ⟨w, 0⟩ = (.ok a, r) ∧ r.buf = [] ∧
    ∃ b e r', a.write = .ok b ∧ b.length ≠ a.len ∧ parseAttr plainCtx ⟨b, 0⟩ = (.err e, r') :=
  ⟨[0x80, 14, 5, 0, 3, 1, 7, 7], ⟨true, false, false, false, .mpReach (.unknown ⟨3, by decide⟩ ⟨1, by decide⟩ [7, 7])⟩,
    ⟨[], 8⟩, by decide +kernel, rfl, [0x80, 14, 6, 0, 3, 1, 7, 7], .mpReach (.parse (.eof 3 6 5)), ⟨[0, 3, 1, 7, 7], 3⟩,
    by decide +kernel, by decide +kernel, by decide +kernel⟩

/-- **C49 is false for an IPv4 next hop with a link-local address beside it** and for AS path segments with no AS number:
the crate writes both, and rejects them as a reader. -/
theorem c49_hop_disproved : ∃ (a : PathAttr), PathAttr.make a.optional a.transitive a.partialBit a.ext a.value = .ok a ∧
    ∃ b e r, a.write = .ok b ∧ parseAttr plainCtx ⟨b, 0⟩ = (.err e, r) :=
  ⟨⟨true, false, false, false, .mpReach (.uni4 (.v4 1) (some 1) [])⟩, rfl,
    [0x80, 14, 25, 0, 1, 1, 20, 0, 0, 0, 1, 0, 0, 0, 0, 0, 0, 0, 0, 0, 0, 0, 0, 0, 0, 0, 1, 0],
    .mpReach (.ipAddr .ipv4Unicast (.invalidLength 6 20)), ⟨[], 28⟩, by decide +kernel, by decide +kernel⟩
theorem c49_segment_disproved : ∃ (a : PathAttr), PathAttr.make a.optional a.transitive a.partialBit a.ext a.value = .ok a ∧
    ∃ b e r, a.write = .ok b ∧ parseAttr plainCtx ⟨b, 0⟩ = (.err e, r) :=
  ⟨⟨false, true, false, false, .asPath (.as4 [⟨.sequence, []⟩])⟩, rfl, [0x40, 2, 2, 2, 0],
    .asPath (.zeroSegment 4), ⟨[], 5⟩, by decide +kernel, by decide +kernel⟩

/-! ## C50: no panic -/

/-- **C50**: whatever the octets, position and negotiated options, parsing a path attribute gives an attribute or an error,
if at most 7 labels (VPN) or 10 labels (labeled unicast) were negotiated; a parsed attribute takes at least 3 octets. -/
theorem c50_no_fault_partial (c : AttrCtx) (hc : c.LimOk) (r : Reader) : (parseAttr c r).1.isFault = false ∧
    ∀ a r', parseAttr c r = (.ok a, r') → r'.buf.length + 3 ≤ r.buf.length := by
  refine ⟨(safe_parseAttr hc).noFault r, fun a r' h => ?_⟩
  have := (safe_parseAttr hc).out r
  rw [h] at this
  obtain ⟨n, hn, h1, rfl⟩ := this
  simp; omega

/-- the hypothesis holds with nothing negotiated, and with the maximum allowed -/
example : plainCtx.LimOk := by unfold AttrCtx.LimOk; decide
example : AttrCtx.LimOk ⟨false, fun _ => some 7, fun _ => some true⟩ := by unfold AttrCtx.LimOk; decide

/-- **C50 is false when more labels are negotiated**: with 8 labels for IPv4 VPN an attribute panics the decoder. -/
theorem c50_disproved : ∃ (c : AttrCtx) (w : Bytes), c.lim .ipv4MplsLabeledVpn = 8 ∧
    (parseAttr c ⟨w, 0⟩).1 = .fault .panic :=
  ⟨⟨true, fun _ => some 8, fun _ => none⟩,
    [0x90, 15, 1, 3, 0, 1, 128] ++ (255 :: ((List.replicate 7 [0, 1, 0]).flatten ++ [0, 1, 1] ++ List.replicate 231 0)),
    rfl, by decide +kernel⟩

/-! ## C51: an attribute takes exactly the octets its length announces -/

/-- on success `p` consumes a length field and exactly the octets it announces -/
def Framed {ε α : Type} (ext : Bool) (p : Parser ε α) : Prop :=
  ∀ r a r', p r = (.ok a, r') → ∃ v : Bytes, v.length ≤ maxAttr ext ∧ r.buf = lenOctets ext v.length ++ (v ++ r'.buf)

theorem Framed.mapErr {ε ε' α : Type} {ext : Bool} {p : Parser ε α} (g : ε → ε') (h : Framed ext p) :
    Framed ext (Parser.mapErr g p) := fun _ _ _ hr => h _ _ _ (mapErr_eq_ok.mp hr)
theorem Framed.map {ε α β : Type} {ext : Bool} {p : Parser ε α} (g : α → β) (h : Framed ext p) :
    Framed ext (g <$> p) := fun _ _ _ hr => let ⟨_, h1, _⟩ := map_eq_ok.mp hr; h _ _ _ h1
theorem Framed.ite {ε α : Type} {ext : Bool} {c : Prop} [Decidable c] {p q : Parser ε α} (hp : Framed ext p)
    (hq : Framed ext q) : Framed ext (if c then p else q) := by split <;> assumption

theorem framed_attrSlice {ε : Type} (g : ParseError → ε) (ext : Bool) : Framed ext (attrSlice g ext) := by
  intro r s r' h
  unfold attrSlice at h
  cases ext with
  | true =>
    obtain ⟨l, r1, h1, h2⟩ := bind_eq_ok.mp (show (Parser.mapErr g readU16 >>= fun l => Parser.mapErr g (takeSlice l.toNat)) r = _ from h)
    obtain ⟨h1, _⟩ := readU16_eq_ok.mp (mapErr_eq_ok.mp h1)
    obtain ⟨h3, h4, _⟩ := takeSlice_eq_ok.mp (mapErr_eq_ok.mp h2)
    refine ⟨s.buf, ?_, ?_⟩
    · rw [h4]; exact Nat.le_of_lt_succ l.toNat_lt
    · rw [h1, h3, h4]; simp [lenOctets]
  | false =>
    obtain ⟨l, r1, h1, h2⟩ := bind_eq_ok.mp (show (Parser.mapErr g readU8 >>= fun l => Parser.mapErr g (takeSlice l.toNat)) r = _ from h)
    obtain ⟨h1, _⟩ := readU8_eq_ok.mp (mapErr_eq_ok.mp h1)
    obtain ⟨h3, h4, _⟩ := takeSlice_eq_ok.mp (mapErr_eq_ok.mp h2)
    refine ⟨s.buf, ?_, ?_⟩
    · rw [h4]; exact Nat.le_of_lt_succ l.toNat_lt
    · rw [h1, h3, h4]; simp [lenOctets]

/-- what runs after the slice does not move the enclosing reader -/
theorem framed_slice {ε α : Type} {g : ParseError → ε} {ext : Bool} {f : Reader → Parser ε α}
    (hf : ∀ s r a r', f s r = (.ok a, r') → r = r') : Framed ext (attrSlice g ext >>= f) := by
  intro r a r' h
  obtain ⟨s, r1, h1, h2⟩ := bind_eq_ok.mp h
  cases hf _ _ _ _ h2
  exact framed_attrSlice g ext _ _ _ h1

theorem framed_sub {ε α : Type} {g : ParseError → ε} {ext : Bool} {p : Parser ε α} :
    Framed ext (attrSlice g ext >>= fun d => onSub d p >>= fun x => pure x.1) := by
  refine framed_slice fun s r a r' h => ?_
  obtain ⟨x, r1, h1, h2⟩ := bind_eq_ok.mp h
  rw [(onSub_eq_ok'.mp h1).2]; exact (pure_eq_ok.mp h2).2

theorem attrLen_ok {ε : Type} {g : ParseError → ε} {ext : Bool} {r r' : Reader} {l : AttrLen}
    (h : attrLen g ext r = (.ok l, r')) : l.toNat ≤ maxAttr ext ∧ r.buf = lenOctets ext l.toNat ++ r'.buf ∧
      ∀ n, l.is n = true → l.toNat = n := by
  unfold attrLen at h
  cases ext with
  | true =>
    obtain ⟨x, h1, rfl⟩ := map_eq_ok.mp (show (AttrLen.u16 <$> Parser.mapErr g readU16) r = _ from h)
    obtain ⟨h1, _⟩ := readU16_eq_ok.mp (mapErr_eq_ok.mp h1)
    refine ⟨Nat.le_of_lt_succ x.toNat_lt, ?_, fun n hn => by simpa [AttrLen.is, AttrLen.toNat] using hn⟩
    rw [h1]; simp [lenOctets, AttrLen.toNat]
  | false =>
    obtain ⟨x, h1, rfl⟩ := map_eq_ok.mp (show (AttrLen.u8 <$> Parser.mapErr g readU8) r = _ from h)
    obtain ⟨h1, _⟩ := readU8_eq_ok.mp (mapErr_eq_ok.mp h1)
    refine ⟨Nat.le_of_lt_succ x.toNat_lt, ?_, fun n hn => by simpa [AttrLen.is, AttrLen.toNat] using hn⟩
    rw [h1]; simp [lenOctets, AttrLen.toNat]

theorem framed_fixed {α : Type} {n : Nat} {ext : Bool} {p : Parser ParseError α}
    (hp : ∀ r a r', p r = (.ok a, r') → ∃ v : Bytes, v.length = n ∧ r.buf = v ++ r'.buf) :
    Framed ext (fixedAttr n ext p) := by
  intro r a r' h
  unfold fixedAttr at h
  obtain ⟨o, r0, h0, h⟩ := bind_eq_ok.mp h
  obtain ⟨_, rfl⟩ := getOffset_eq_ok.mp h0
  obtain ⟨l, r1, h1, h⟩ := bind_eq_ok.mp h
  obtain ⟨hl, hb, hn⟩ := attrLen_ok h1
  rcases ite_eq_ok.mp h with ⟨hi, h⟩ | ⟨_, h⟩
  · obtain ⟨v, hv, e⟩ := hp _ _ _ (mapErr_eq_ok.mp h)
    have := hn _ hi
    exact ⟨v, by rw [hv, ← this]; exact hl, by rw [hb, e, hv, this]⟩
  · exact (fail_eq_ok.mp h).elim

theorem framed_unknown (code : UInt8) (ext : Bool) : Framed ext (parseUnknownAttr code ext) := by
  intro r a r' h
  unfold parseUnknownAttr at h
  obtain ⟨l, r1, h1, h⟩ := bind_eq_ok.mp h
  obtain ⟨hl, hb, -⟩ := attrLen_ok h1
  obtain ⟨n, r2, h2, h⟩ := bind_eq_ok.mp h
  obtain ⟨_, rfl⟩ := getRemaining_eq_ok.mp h2
  rcases ite_eq_ok.mp h with ⟨_, h⟩ | ⟨_, h⟩
  · obtain ⟨o, r3, h3, h⟩ := bind_eq_ok.mp h
    rcases ite_eq_ok.mp h with ⟨_, h⟩ | ⟨_, h⟩
    · exact (panic_eq_ok.mp h).elim
    · exact (fail_eq_ok.mp h).elim
  · obtain ⟨v, r3, h3, h⟩ := bind_eq_ok.mp h
    obtain ⟨e, hv, _⟩ := readBytes_eq_ok.mp (mapErr_eq_ok.mp h3)
    obtain ⟨_, rfl⟩ := pure_eq_ok.mp h
    exact ⟨v, by rw [hv]; exact hl, by rw [hb, e, hv]⟩

theorem u32_takes {r r' : Reader} {a : UInt32} (h : readU32 r = (.ok a, r')) :
    ∃ v : Bytes, v.length = 4 ∧ r.buf = v ++ r'.buf := ⟨_, length_u32be a, (readU32_eq_ok.mp h).1⟩

theorem framed_aggregator (ext asn4 : Bool) : Framed ext (parseAggregator ext asn4) := by
  unfold parseAggregator
  refine Framed.ite (framed_fixed fun r a r' h => ?_) (framed_fixed fun r a r' h => ?_)
  · obtain ⟨x, r1, h1, h⟩ := bind_eq_ok.mp h
    obtain ⟨y, r2, h2, h⟩ := bind_eq_ok.mp h
    obtain ⟨_, rfl⟩ := pure_eq_ok.mp h
    refine ⟨u32be x ++ u32be y, by simp, ?_⟩
    rw [(readU32_eq_ok.mp h1).1, (readU32_eq_ok.mp h2).1]; simp
  · obtain ⟨x, r1, h1, h⟩ := bind_eq_ok.mp h
    obtain ⟨y, r2, h2, h⟩ := bind_eq_ok.mp h
    obtain ⟨_, rfl⟩ := pure_eq_ok.mp h
    refine ⟨u16be x ++ u32be y, by simp, ?_⟩
    rw [(readU16_eq_ok.mp h1).1, (readU32_eq_ok.mp h2).1]; simp

theorem framed_origin (ext : Bool) : Framed ext (parseOrigin ext) := by
  intro r a r' h
  unfold parseOrigin at h
  obtain ⟨o, r0, h0, h⟩ := bind_eq_ok.mp h
  obtain ⟨_, rfl⟩ := getOffset_eq_ok.mp h0
  obtain ⟨l, r1, h1, h⟩ := bind_eq_ok.mp h
  obtain ⟨hl, hb, hn⟩ := attrLen_ok h1
  rcases ite_eq_ok.mp h with ⟨hi, h⟩ | ⟨_, h⟩
  · obtain ⟨o, r2, h2, h⟩ := bind_eq_ok.mp h
    obtain ⟨_, rfl⟩ := getOffset_eq_ok.mp h2
    obtain ⟨x, r3, h3, h⟩ := bind_eq_ok.mp h
    obtain ⟨_, rfl⟩ := ofOption_eq_ok.mp h
    have := hn _ hi
    exact ⟨[x], le_maxAttr ext (by simp), by rw [hb, (readU8_eq_ok.mp (mapErr_eq_ok.mp h3)).1, this]; rfl⟩
  · exact (fail_eq_ok.mp h).elim

theorem framed_mpUnreach (c : AttrCtx) (ext : Bool) : Framed ext (parseMpUnreach c ext) := by
  refine framed_slice fun s r a r' h => ?_
  obtain ⟨o, r0, h0, h⟩ := bind_eq_ok.mp h
  obtain ⟨_, rfl⟩ := getOffset_eq_ok.mp h0
  obtain ⟨x, r1, h1, h2⟩ := bind_eq_ok.mp h
  rw [(onSub_eq_ok'.mp h1).2]; exact (pure_eq_ok.mp h2).2

theorem framed_attrValue (c : AttrCtx) (ext : Bool) (code : UInt8) : Framed ext (attrValue c ext code) := by
  unfold attrValue
  refine Framed.ite (.map _ (.mapErr _ (framed_origin ext))) ?_
  refine Framed.ite (.map _ (.mapErr _ ?_)) ?_
  · unfold parseAsPath; exact Framed.ite (.map _ framed_sub) (.map _ framed_sub)
  refine Framed.ite (.map _ (.mapErr _ framed_sub)) ?_
  iterate 3 refine Framed.ite (.map _ (.mapErr _ (framed_fixed fun _ _ _ h => u32_takes h))) ?_
  refine Framed.ite (.map _ (.mapErr _ (framed_fixed fun _ _ _ h => ?_))) ?_
  · obtain ⟨_, rfl⟩ := pure_eq_ok.mp h
    exact ⟨[], rfl, rfl⟩
  refine Framed.ite (.map _ (.mapErr _ (framed_aggregator _ _))) ?_
  iterate 7 refine Framed.ite (.map _ (.mapErr _ framed_sub)) ?_
  refine Framed.ite (.map _ (.mapErr _ (framed_mpUnreach c ext))) ?_
  iterate 2 refine Framed.ite (.map _ (.mapErr _ framed_sub)) ?_
  refine Framed.ite (.map _ (.mapErr _ ?_)) (Framed.ite (.map _ (.mapErr _ ?_)) (.mapErr _ (framed_unknown _ _)))
  · unfold parseLsAttrs; exact framed_sub
  · unfold parseSid; exact framed_sub

/-! ## C52: the flags of a decoded attribute -/

/-- the categories of RFC 4271 section 5 -/
inductive Category where
  | wellKnown | optionalTransitive | optionalNonTransitive
  deriving DecidableEq

/-- the category the registry gives to the attribute types the crate decodes (RFC 4271, 1997, 4456, 4760, 4360, 6793,
5701, 7311, 9552, 8092, 9234, 8669); `none` for other codes -/
def category (code : UInt8) : Option Category :=
  if code = 1 ∨ code = 2 ∨ code = 3 ∨ code = 5 ∨ code = 6 then some .wellKnown
  else if code = 7 ∨ code = 8 ∨ code = 16 ∨ code = 17 ∨ code = 25 ∨ code = 32 ∨ code = 35 ∨ code = 40 then
    some .optionalTransitive
  else if code = 4 ∨ code = 9 ∨ code = 10 ∨ code = 14 ∨ code = 15 ∨ code = 26 ∨ code = 29 then some .optionalNonTransitive
  else none

/-- RFC 4271 section 4.3: Optional and Transitive are fixed by the category, and Partial is 0 for well-known and
optional non-transitive attributes -/
def flagsAllowed : Category → Bool → Bool → Bool → Prop
  | .wellKnown, opt, trans, part => opt = false ∧ trans = true ∧ part = false
  | .optionalTransitive, opt, trans, _ => opt = true ∧ trans = true
  | .optionalNonTransitive, opt, trans, part => opt = true ∧ trans = false ∧ part = false

/-- the decoded value carries the code it was dispatched on -/
theorem attrValue_code {c : AttrCtx} {ext : Bool} {code : UInt8} {r r' : Reader} {v : AttrValue}
    (h : attrValue c ext code r = (.ok v, r')) : v.code = code ∧ (v.known = false → category code = none) := by
  unfold attrValue at h
  iterate 20
    rcases ite_eq_ok.mp h with ⟨rfl, h⟩ | ⟨_, h⟩
    · obtain ⟨_, _, rfl⟩ := map_eq_ok.mp h
      exact ⟨rfl, fun h => by cases h⟩
  refine ⟨?_, fun _ => ?_⟩
  · unfold parseUnknownAttr at h
    obtain ⟨l, r1, h1, h⟩ := bind_eq_ok.mp (mapErr_eq_ok.mp h)
    obtain ⟨n, r2, h2, h⟩ := bind_eq_ok.mp h
    rcases ite_eq_ok.mp h with ⟨_, h⟩ | ⟨_, h⟩
    · obtain ⟨o, r3, h3, h⟩ := bind_eq_ok.mp h
      rcases ite_eq_ok.mp h with ⟨_, h⟩ | ⟨_, h⟩
      · exact (panic_eq_ok.mp h).elim
      · exact (fail_eq_ok.mp h).elim
    · obtain ⟨v, r3, h3, h⟩ := bind_eq_ok.mp h
      obtain ⟨rfl, _⟩ := pure_eq_ok.mp h
      rfl
  · unfold category
    simp_all

theorem make_ok {o t p e : Bool} {v : AttrValue} {a : PathAttr} (h : PathAttr.make o t p e v = .ok a) :
    a = ⟨o, t, p, e, v⟩ ∧ flagBad v.canOptional o = false ∧ flagBad v.canTransitive t = false ∧
      flagBad v.canPartial p = false := by
  unfold PathAttr.make at h
  split at h
  · simp at h
  split at h
  · simp at h
  split at h
  · simp at h
  · simp_all

theorem flags_allowed {o t p : Bool} {v : AttrValue} {k : Category} (hk : category v.code = some k)
    (hu : v.known = true) (h1 : flagBad v.canOptional o = false) (h2 : flagBad v.canTransitive t = false)
    (h3 : flagBad v.canPartial p = false) : flagsAllowed k o t p := by
  cases v <;> simp [AttrValue.known] at hu <;> simp [AttrValue.code, category] at hk <;> subst hk <;>
    simp_all [flagsAllowed, flagBad, AttrValue.canOptional, AttrValue.canTransitive, AttrValue.canPartial]

/-- the parts of a successful parse -/
theorem parseAttr_ok {c : AttrCtx} {r r' : Reader} {a : PathAttr} (h : parseAttr c r = (.ok a, r')) :
    ∃ (f : UInt8) (r1 : Reader), r.buf = f :: a.value.code :: r1.buf ∧ r1.offset = r.offset + 2 ∧
      attrValue c a.ext a.value.code r1 = (.ok a.value, r') ∧
      PathAttr.make (hasBit f 0x80) (hasBit f 0x40) (hasBit f 0x20) (hasBit f 0x10) a.value = .ok a := by
  unfold parseAttr at h
  obtain ⟨o, r0, h0, h⟩ := bind_eq_ok.mp h
  obtain ⟨_, rfl⟩ := getOffset_eq_ok.mp h0
  obtain ⟨f, r1, h1, h⟩ := bind_eq_ok.mp h
  obtain ⟨code, r2, h2, h⟩ := bind_eq_ok.mp h
  obtain ⟨v, r3, h3, h⟩ := bind_eq_ok.mp h
  have hc := (attrValue_code h3).1
  rw [mapErr_eq_ok, readU8_eq_ok] at h1 h2
  rcases ha' : PathAttr.make (hasBit f 0x80) (hasBit f 0x40) (hasBit f 0x20) (hasBit f 0x10) v with e | a'
  · simp only [ha'] at h
    exact (fail_eq_ok.mp h).elim
  · simp only [ha'] at h
    obtain ⟨rfl, rfl⟩ := pure_eq_ok.mp h
    obtain ⟨rfl, _⟩ := make_ok ha'
    refine ⟨f, r2, ?_, ?_, ?_, ha'⟩
    · rw [h1.1, h2.1, hc]
    · rw [h2.2, h1.2]
    · subst hc; exact h3

/-- **C51**: a decoded attribute took exactly: the flags octet, whose four high bits are its flags; its type code; a length
of one octet, or two with the extended-length flag; and as many octets as that length says. -/
theorem c51_framing (c : AttrCtx) (r r' : Reader) (a : PathAttr) (h : parseAttr c r = (.ok a, r')) :
    ∃ (f : UInt8) (v : Bytes), r.buf = f :: a.value.code :: (lenOctets a.ext v.length ++ (v ++ r'.buf)) ∧
      v.length ≤ (if a.ext then 65535 else 255) ∧
      a.optional = f.toBitVec.getLsbD 7 ∧ a.transitive = f.toBitVec.getLsbD 6 ∧
      a.partialBit = f.toBitVec.getLsbD 5 ∧ a.ext = f.toBitVec.getLsbD 4 := by
  obtain ⟨f, r1, h1, _, h2, h3⟩ := parseAttr_ok h
  obtain ⟨v, hv, e⟩ := framed_attrValue _ _ _ _ _ _ h2
  have ha := (make_ok h3).1
  have bit : ∀ f : UInt8, hasBit f 0x80 = f.toBitVec.getLsbD 7 ∧ hasBit f 0x40 = f.toBitVec.getLsbD 6 ∧
      hasBit f 0x20 = f.toBitVec.getLsbD 5 ∧ hasBit f 0x10 = f.toBitVec.getLsbD 4 := by
    have : ∀ n : Fin 256, hasBit (UInt8.ofNat n) 0x80 = (UInt8.ofNat n).toBitVec.getLsbD 7 ∧
      hasBit (UInt8.ofNat n) 0x40 = (UInt8.ofNat n).toBitVec.getLsbD 6 ∧
      hasBit (UInt8.ofNat n) 0x20 = (UInt8.ofNat n).toBitVec.getLsbD 5 ∧
      hasBit (UInt8.ofNat n) 0x10 = (UInt8.ofNat n).toBitVec.getLsbD 4 := by decide +kernel
    intro f
    have := this ⟨f.toNat, f.toNat_lt⟩
    rwa [UInt8.ofNat_toNat] at this
  obtain ⟨b1, b2, b3, b4⟩ := bit f
  refine ⟨f, v, by rw [h1, e], hv, ?_⟩
  rw [← b1, ← b2, ← b3, ← b4, ha]; exact ⟨rfl, rfl, rfl, rfl⟩

/-- **C52**: an attribute of a type the crate decodes is only accepted with the flags of its category. -/
theorem c52_flags (c : AttrCtx) (r r' : Reader) (a : PathAttr) (h : parseAttr c r = (.ok a, r')) (k : Category)
    (hk : category a.value.code = some k) : flagsAllowed k a.optional a.transitive a.partialBit := by
  obtain ⟨f, r1, _, _, h2, h3⟩ := parseAttr_ok h
  obtain ⟨ha, h4, h5, h6⟩ := make_ok h3
  have hu : a.value.known = true := by
    cases hu : a.value.known with
    | true => rfl
    | false => rw [(attrValue_code h2).2 hu] at hk; cases hk
  have := flags_allowed hk hu h4 h5 h6
  rw [ha]; exact this

/-- COMMUNITIES as 0xC0 is accepted; the same octets with the optional flag cleared are not -/
example : (parseAttr plainCtx ⟨[0xC0, 8, 4, 0, 1, 0, 2, 9], 0⟩) =
    (.ok ⟨true, true, false, false, .communities [0x10002]⟩, ⟨[9], 7⟩) := by decide +kernel
example : (parseAttr plainCtx ⟨[0x40, 8, 4, 0, 1, 0, 2, 9], 0⟩).1 =
    .err (.invalid 0 (.optional false) true 8) := by decide +kernel

/-! ## C53: AS paths -/

theorem times_length {ε α : Type} {p : Parser ε α} : ∀ {n : Nat} {r r' : Reader} {l : List α},
    times p n r = (.ok l, r') → l.length = n
  | 0, r, r', l, h => by obtain ⟨rfl, _⟩ := pure_eq_ok.mp h; rfl
  | n + 1, r, r', l, h => by
    obtain ⟨a, r1, h1, h⟩ := bind_eq_ok.mp h
    obtain ⟨l', r2, h2, h⟩ := bind_eq_ok.mp h
    obtain ⟨rfl, _⟩ := pure_eq_ok.mp h
    rw [List.length_cons, times_length h2]

theorem seg_decoded {α : Type} {rd : Parser ParseError α} {w : Nat} {r r' : Reader} {s : Seg α}
    (h : parseSeg rd w r = (.ok s, r')) : s.WF := by
  unfold parseSeg at h
  obtain ⟨o, r0, h0, h⟩ := bind_eq_ok.mp h
  obtain ⟨c, r1, h1, h⟩ := bind_eq_ok.mp h
  obtain ⟨t, r2, h2, h⟩ := bind_eq_ok.mp h
  obtain ⟨o2, r3, h3, h⟩ := bind_eq_ok.mp h
  obtain ⟨n, r4, h4, h⟩ := bind_eq_ok.mp h
  rcases ite_eq_ok.mp h with ⟨_, h⟩ | ⟨hn, h⟩
  · exact (fail_eq_ok.mp h).elim
  obtain ⟨rem, r5, h5, h⟩ := bind_eq_ok.mp h
  rcases ite_eq_ok.mp h with ⟨_, h⟩ | ⟨_, h⟩
  · exact (fail_eq_ok.mp h).elim
  obtain ⟨l, r6, h6, h⟩ := bind_eq_ok.mp h
  obtain ⟨rfl, _⟩ := pure_eq_ok.mp h
  have e := times_length h6
  have : n.toNat ≠ 0 := fun h0 => hn (UInt8.toNat_inj.mp h0)
  have := n.toNat_lt
  exact ⟨by show 1 ≤ l.length; omega, by show l.length ≤ 255; omega⟩

theorem attrMany_forall {ε α : Type} {g : ParseError → ε} {ext : Bool} {p : Parser ε α} {Q : α → Prop}
    (hQ : ∀ r a r', p r = (.ok a, r') → Q a) {r r' : Reader} {l : List α}
    (h : attrMany g ext p r = (.ok l, r')) : ∀ a ∈ l, Q a := by
  obtain ⟨d, r1, h1, h⟩ := bind_eq_ok.mp h
  obtain ⟨x, r2, h2, h⟩ := bind_eq_ok.mp h
  obtain ⟨rfl, _⟩ := pure_eq_ok.mp h
  have := (onSub_eq_ok'.mp h2).1
  rw [many_run] at this
  exact parseAll_forall hQ this

/-- what the context promises about a decoded AS path: AS numbers of the negotiated width in segments of 1 to 255 -/
def AsPathOk (asn4 : Bool) : AttrValue → Prop
  | .asPath (.as2 l) => asn4 = false ∧ ∀ s ∈ l, 1 ≤ s.asns.length ∧ s.asns.length ≤ 255
  | .asPath (.as4 l) => asn4 = true ∧ ∀ s ∈ l, 1 ≤ s.asns.length ∧ s.asns.length ≤ 255
  | .as4Path l => ∀ s ∈ l, 1 ≤ s.asns.length ∧ s.asns.length ≤ 255
  | .aggregator (.as2 ..) => asn4 = false
  | .aggregator (.as4 ..) => asn4 = true
  | _ => True

/-- **C53**: AS_PATH and AGGREGATOR are decoded with the negotiated AS number width, AS4_PATH with four octets, and no
decoded segment is empty. -/
theorem c53_as_width (c : AttrCtx) (r r' : Reader) (a : PathAttr) (h : parseAttr c r = (.ok a, r')) :
    AsPathOk c.asn4 a.value := by
  obtain ⟨f, r1, _, _, h, _⟩ := parseAttr_ok h
  generalize a.value.code = code at h
  unfold attrValue at h
  rcases ite_eq_ok.mp h with ⟨_, h⟩ | ⟨_, h⟩
  · obtain ⟨_, _, h⟩ := map_eq_ok.mp h
    rw [← h]; trivial
  rcases ite_eq_ok.mp h with ⟨_, h⟩ | ⟨_, h⟩
  · obtain ⟨_, h1, h⟩ := map_eq_ok.mp h
    rw [← h]
    unfold parseAsPath at h1
    rcases ite_eq_ok.mp (mapErr_eq_ok.mp h1) with ⟨h4, h1⟩ | ⟨h4, h1⟩
    · obtain ⟨l, h2, rfl⟩ := map_eq_ok.mp h1
      exact ⟨h4, attrMany_forall (fun _ _ _ h => seg_decoded h) h2⟩
    · obtain ⟨l, h2, rfl⟩ := map_eq_ok.mp h1
      exact ⟨by simpa using h4, attrMany_forall (fun _ _ _ h => seg_decoded h) h2⟩
  rcases ite_eq_ok.mp h with ⟨_, h⟩ | ⟨_, h⟩
  · obtain ⟨_, h1, h⟩ := map_eq_ok.mp h
    rw [← h]
    exact attrMany_forall (fun _ _ _ h => seg_decoded h) (mapErr_eq_ok.mp h1)
  iterate 4
    rcases ite_eq_ok.mp h with ⟨_, h⟩ | ⟨_, h⟩
    · obtain ⟨_, _, h⟩ := map_eq_ok.mp h
      rw [← h]; trivial
  rcases ite_eq_ok.mp h with ⟨_, h⟩ | ⟨_, h⟩
  · obtain ⟨g, h1, h⟩ := map_eq_ok.mp h
    rw [← h]
    unfold parseAggregator at h1
    have key : ∀ {α : Type} {n : Nat} {p : Parser ParseError α} {r r' : Reader} {x : α},
        fixedAttr n a.ext p r = (.ok x, r') → ∃ r r', p r = (.ok x, r') := by
      intro α n p r r' x h
      unfold fixedAttr at h
      obtain ⟨o, r0, h0, h⟩ := bind_eq_ok.mp h
      obtain ⟨l, r1, h1, h⟩ := bind_eq_ok.mp h
      rcases ite_eq_ok.mp h with ⟨_, h⟩ | ⟨_, h⟩
      · exact ⟨_, _, mapErr_eq_ok.mp h⟩
      · exact (fail_eq_ok.mp h).elim
    rcases ite_eq_ok.mp (mapErr_eq_ok.mp h1) with ⟨h4, h1⟩ | ⟨h4, h1⟩
    · obtain ⟨_, _, h1⟩ := key h1
      obtain ⟨x, r1, _, h⟩ := bind_eq_ok.mp h1
      obtain ⟨y, r2, _, h⟩ := bind_eq_ok.mp h
      obtain ⟨rfl, _⟩ := pure_eq_ok.mp h
      exact h4
    · obtain ⟨_, _, h1⟩ := key h1
      obtain ⟨x, r1, _, h⟩ := bind_eq_ok.mp h1
      obtain ⟨y, r2, _, h⟩ := bind_eq_ok.mp h
      obtain ⟨rfl, _⟩ := pure_eq_ok.mp h
      simpa [AsPathOk] using h4
  iterate 12
    rcases ite_eq_ok.mp h with ⟨_, h⟩ | ⟨_, h⟩
    · obtain ⟨_, _, h⟩ := map_eq_ok.mp h
      rw [← h]; trivial
  unfold parseUnknownAttr at h
  obtain ⟨l, r1, h1, h⟩ := bind_eq_ok.mp (mapErr_eq_ok.mp h)
  obtain ⟨n, r2, h2, h⟩ := bind_eq_ok.mp h
  rcases ite_eq_ok.mp h with ⟨_, h⟩ | ⟨_, h⟩
  · obtain ⟨o, r3, h3, h⟩ := bind_eq_ok.mp h
    rcases ite_eq_ok.mp h with ⟨_, h⟩ | ⟨_, h⟩
    · exact (panic_eq_ok.mp h).elim
    · exact (fail_eq_ok.mp h).elim
  · obtain ⟨v, r3, h3, h⟩ := bind_eq_ok.mp h
    obtain ⟨h, _⟩ := pure_eq_ok.mp h
    rw [← h]; trivial

/-- the same octets under the two contexts -/
example : (parseAttr plainCtx ⟨[0x40, 2, 6, 2, 1, 0, 1, 0, 0], 0⟩).1 =
    .ok ⟨false, true, false, false, .asPath (.as4 [⟨.sequence, [65536]⟩])⟩ := by decide +kernel
example : (parseAttr { plainCtx with asn4 := false } ⟨[0x40, 2, 6, 2, 2, 0, 1, 0, 0], 0⟩).1 =
    .ok ⟨false, true, false, false, .asPath (.as2 [⟨.sequence, [1, 0]⟩])⟩ := by decide +kernel

end Verif.Props
