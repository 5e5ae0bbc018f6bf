import Verif.Core.Loop
import Verif.Bgp.CapsLemmas
/-!
# Information elements and their values

`F` stands for `crates/flow-pkt/src`, `G` for `crates/ipfix-code-generator/src/generator.rs`. The enums `IE` and `Field`
and their parsers and writers are generated at build time by `G` from the IANA registry and the vendors' registries, one
arm per element, all arms of a data type alike. Here an element is its enterprise number, its id and the kind of its
values; the registries are a parameter (`Registry`), so what is proved holds for every registry.

Sub-registry enums (protocol numbers and so on) are lossless images of integers (`generator_sub_registries.rs:23-300`) and
are modelled as these integers. The types `signed8`, `signed16`, `signed64` and `float32`, which no element of the
registries has, are left out.
-/
namespace Verif.Flow
open Parser

/-- The data types of elements, `F/ie.rs:14-110`, as the generator tells them apart: an `octetArray` may be an MPLS label
stack entry (`[u8; 3]`, `G:2753`) and the `unsigned16` element `tcpControlBits` is kept as flags (`G:1416`). -/
inductive Kind where
  | octetArray | mpls | unsigned8 | unsigned16 | tcpControlBits | unsigned32 | unsigned64 | unsigned256 | signed32
  | float64 | boolean | macAddress | string | seconds | millis | micros | nanos | ipv4 | ipv6
  | basicList | subTemplateList | subTemplateMultiList
  deriving DecidableEq, Repr

/-- `chrono::DateTime<Utc>`: seconds since 1970 and nanoseconds; a leap second has more than `10^9` of them -/
structure Time where
  secs : Int
  nanos : Nat
  deriving DecidableEq, Repr

/-- `Utc.timestamp_opt(secs, nanos)` of chrono 0.4.45 -/
def Time.make (secs : Int) (nanos : Nat) : Option Time :=
  if -8334601228800 ≤ secs ∧ secs ≤ 8210266876799 ∧ (nanos < 1000000000 ∨ (nanos < 2000000000 ∧ secs % 60 = 59)) then
    some ⟨secs, nanos⟩
  else none

/-- The content of a generated `Field` variant, `G:2720-2751`. `f64` is kept as its bits. -/
inductive Value where
  | octetArray (v : Bytes)
  | mpls (v : BitVec 24)
  | unsigned8 (v : UInt8)
  | unsigned16 (v : UInt16)
  | tcpControlBits (v : UInt8)
  | unsigned32 (v : UInt32)
  | unsigned64 (v : UInt64)
  | unsigned256 (v : BitVec 256)
  | signed32 (v : Int32)
  | float64 (bits : UInt64)
  | boolean (v : Bool)
  | macAddress (v : BitVec 48)
  | string (v : String)
  | seconds (t : Time)
  | millis (t : Time)
  | micros (t : Time)
  | nanos (t : Time)
  | ipv4 (v : UInt32)
  | ipv6 (v : BitVec 128)
  | basicList (v : Bytes)
  | subTemplateList (v : Bytes)
  | subTemplateMultiList (v : Bytes)
  deriving DecidableEq, Repr

def Value.kind : Value → Kind
  | octetArray _ => .octetArray | mpls _ => .mpls | unsigned8 _ => .unsigned8 | unsigned16 _ => .unsigned16
  | tcpControlBits _ => .tcpControlBits | unsigned32 _ => .unsigned32 | unsigned64 _ => .unsigned64
  | unsigned256 _ => .unsigned256 | signed32 _ => .signed32 | float64 _ => .float64 | boolean _ => .boolean
  | macAddress _ => .macAddress | string _ => .string | seconds _ => .seconds | millis _ => .millis | micros _ => .micros
  | nanos _ => .nanos | ipv4 _ => .ipv4 | ipv6 _ => .ipv6 | basicList _ => .basicList
  | subTemplateList _ => .subTemplateList | subTemplateMultiList _ => .subTemplateMultiList

/-- The generated enum `IE`: an element of a registry, an element missing in the registry of a known vendor
(`vendor::IE::Unknown`, `G:271-303`), and an element of an unknown enterprise (`IE::Unknown`, `G:390-429`) -/
inductive Ie where
  | known (pen : UInt32) (id : UInt16) (kind : Kind)
  | vendorUnknown (pen : UInt32) (id : UInt16)
  | unknown (pen : UInt32) (id : UInt16)
  deriving DecidableEq, Repr

/-- `IE::pen`, `G:432-578` -/
def Ie.pen : Ie → UInt32 | known p _ _ => p | vendorUnknown p _ => p | unknown p _ => p
/-- `IE::id`, `G:432-578` -/
def Ie.id : Ie → UInt16 | known _ i _ => i | vendorUnknown _ i => i | unknown _ i => i

/-- The registries the code is generated from: IANA's and, for the enterprise numbers of known vendors, theirs -/
structure Registry where
  iana : UInt16 → Option Kind
  vendor : UInt32 → Option (UInt16 → Option Kind)

/-- `IE::try_from((pen, code))`, `G:390-429`, `G:271-303`; `none` is `IEError::UndefinedIANAIE` -/
def Registry.tryFrom (reg : Registry) (pen : UInt32) (code : UInt16) : Option Ie :=
  if pen = 0 then (reg.iana code).map (.known 0 code)
  else match reg.vendor pen with
    | some v =>
      match v (code &&& 0x7FFF) with
      | some k => some (.known pen (code &&& 0x7FFF) k)
      | none => some (.vendorUnknown pen (code &&& 0x7FFF))
    | none => some (.unknown pen code)

/-- `InformationElementTemplate::length_range`, `F/ie.rs:114-150`, by kind: first and last length -/
def Kind.lengthRange : Kind → Option (Nat × Nat)
  | .octetArray | .mpls | .string | .basicList | .subTemplateList | .subTemplateMultiList => none
  | .unsigned8 | .boolean => some (1, 1)
  | .unsigned16 | .tcpControlBits => some (1, 2)
  | .unsigned32 | .signed32 => some (1, 4)
  | .unsigned64 => some (1, 8)
  | .unsigned256 => some (1, 32)
  | .float64 | .millis | .micros | .nanos => some (8, 8)
  | .macAddress => some (6, 6)
  | .seconds | .ipv4 => some (4, 4)
  | .ipv6 => some (16, 16)

/-- the same for an element; unknown ones are `octetArray` (`G:245-250`, `G:432-578`) -/
def Ie.lengthRange : Ie → Option (Nat × Nat)
  | known _ _ k => k.lengthRange
  | vendorUnknown _ _ | unknown _ _ => none

/-- `FieldSpecifier`, `F/lib.rs:141-144` -/
structure Spec where
  ie : Ie
  length : UInt16
  deriving DecidableEq, Repr

/-- `range.contains(&length)` -/
def inRange (r : Option (Nat × Nat)) (n : UInt16) : Bool :=
  match r with
  | none => true
  | some (a, b) => a ≤ n.toNat && n.toNat ≤ b

/-- `FieldSpecifierParsingError`, `F/wire/deserializer/mod.rs:33-47` -/
inductive SpecErr where
  | parse (e : ParseError)
  | undefinedIana (code : UInt16)
  | invalidLength (length : UInt16) (ie : Ie)
  deriving DecidableEq, Repr

/-- `FieldSpecifier::new`, `F/lib.rs:147-154` -/
def Spec.new (ie : Ie) (length : UInt16) : Parser SpecErr Spec :=
  if inRange ie.lengthRange length then pure ⟨ie, length⟩ else fail (.invalidLength length ie)

/-- `FieldSpecifier::parse`, `F/wire/deserializer/mod.rs:53-66` -/
def Spec.parse (reg : Registry) : Parser SpecErr Spec := do
  let code ← mapErr .parse readU16
  let length ← mapErr .parse readU16
  if code &&& 0x8000 ≠ 0 then do
    let pen ← mapErr .parse readU32
    let ie ← ofOption (.undefinedIana (code &&& 0x7FFF)) (reg.tryFrom pen (code &&& 0x7FFF))
    Spec.new ie length
  else do
    let ie ← ofOption (.undefinedIana code) (reg.tryFrom 0 code)
    Spec.new ie length

/-- `FieldSpecifier::len`, `F/wire/serializer/mod.rs:49-51` -/
def Spec.len (s : Spec) : Nat := 4 + if s.ie.pen = 0 then 0 else 4

/-- `FieldSpecifier::write`, `F/wire/serializer/mod.rs:53-70` -/
def Spec.write (s : Spec) : Bytes :=
  (if s.ie.pen = 0 then u16be s.ie.id else u16be (s.ie.id ||| 0x8000)) ++
    u16be s.length ++ (if s.ie.pen ≠ 0 then u32be s.ie.pen else [])

/-! ## Values -/

/-- `FieldParsingError`, `G:2852-2867`, `G:2941-2957`; the names of elements and the texts of errors are left out, and the
wrapper for errors of vendors' elements too -/
inductive FieldErr where
  | parse (e : ParseError)
  | invalidLength (offset : Nat) (length : UInt16)
  | timestamp (offset : Nat) (seconds : UInt32)
  | timestampMillis (offset : Nat) (millis : UInt64)
  | timestampFraction (offset : Nat) (seconds fraction : UInt32)
  | utf8 (offset : Nat)
  deriving DecidableEq, Repr

/-- the length prefix of a variable-length value, `G:1641-1646`: one octet, or 255 and three octets -/
def readVarLen : Parser ParseError Nat := do
  let s ← readU8
  if s = 255 then do let n ← readUnsigned32 3; pure n.toNat else pure s.toNat

/-- `generate_vec_u8_deserializer`, `G:1775-1793` -/
def readOctets (length : UInt16) : Parser ParseError Bytes := do
  let n ← if length = 65535 then readVarLen else pure length.toNat
  readBytes n

/-- the text before the first NUL of a fixed-length string, `G:1657-1661` -/
def untilNul (b : Bytes) : Bytes := b.takeWhile (· ≠ 0)

/-- `generate_string_deserializer`, `G:1635-1672` -/
def readString (length : UInt16) : Parser FieldErr String :=
  if length = 65535 then do
    let n ← mapErr .parse readVarLen
    let off ← getOffset
    let b ← mapErr .parse (readBytes n)
    ofOption (.utf8 off) (Bgp.ofUtf8 b)
  else do
    let off ← getOffset
    let b ← mapErr .parse (readBytes length.toNat)
    ofOption (.utf8 off) (Bgp.ofUtf8 (untilNul b))

/-- the integer next to `p/q`, ties to even -/
def rne (p q : Nat) : Nat :=
  let d := p / q
  let r := p % q
  if 2 * r < q then d else if q < 2 * r then d + 1 else d + d % 2

/-- `p as f64 / q as f64` for exact `p` and `q`, `0 < p ≤ q`: the significand (53 bits) and the number of places by which it
is shifted to the right -/
def f64div (p q : Nat) : Nat × Nat :=
  let e := 52 + q.log2 - p.log2
  let e := if p * 2 ^ e / q < 2 ^ 52 then e + 1 else e
  (rne (p * 2 ^ e) q, e)

/-- an integer rounded to 53 bits -/
def f64int (n : Nat) : Nat :=
  let k := n.log2 + 1 - 53
  rne n (2 ^ k) * 2 ^ k

/-- `(1_000_000_000f64 * (fraction as f64 / u32::MAX as f64)) as u32`, `G:1761`, with IEEE 754 rounding to nearest -/
def fractionNanos (fraction : UInt32) : Nat :=
  if fraction = 0 then 0
  else
    let (m, e) := f64div fraction.toNat 4294967295
    f64int (1000000000 * m) / 2 ^ e

/-- fails unless the length is `n` -/
def exactly (n : Nat) (length : UInt16) : Parser FieldErr Unit :=
  if length.toNat ≠ n then do
    let off ← getOffset
    fail (.invalidLength off length)
  else pure ()

/-- fails if the length is more than `n` -/
def atMost (n : Nat) (length : UInt16) : Parser FieldErr Unit :=
  if n < length.toNat then do
    let off ← getOffset
    fail (.invalidLength off length)
  else pure ()

/-- `generate_date_time_micro`, `G:1748-1773`, used for nanoseconds too -/
def readFraction (length : UInt16) : Parser FieldErr Time := do
  exactly 8 length
  let off ← getOffset
  let seconds ← mapErr .parse readU32
  let fraction ← mapErr .parse readU32
  ofOption (.timestampFraction off seconds fraction) (Time.make seconds.toNat (fractionNanos fraction))

/-- `generate_u16_deserializer`, `G:1453-1466` -/
def readShort (length : UInt16) : Parser FieldErr UInt16 :=
  if length = 1 then do let v ← mapErr .parse readU8; pure v.toUInt16
  else if length = 2 then mapErr .parse readU16
  else do
    let off ← getOffset
    fail (.invalidLength off length)

/-- `generate_ie_deserializer`, `G:1809-1850` -/
def Value.parse (k : Kind) (length : UInt16) : Parser FieldErr Value :=
  match k with
  | .octetArray => do let v ← mapErr .parse (readOctets length); pure (.octetArray v)
  | .mpls => do
    exactly 3 length
    let v ← mapErr .parse (readArray 3)
    pure (.mpls (BitVec.ofNat 24 (beVal v)))
  | .unsigned8 => do
    exactly 1 length
    let v ← mapErr .parse readU8
    pure (.unsigned8 v)
  | .unsigned16 => do let v ← readShort length; pure (.unsigned16 v)
  | .tcpControlBits => do let v ← readShort length; pure (.tcpControlBits v.toUInt8)
  | .unsigned32 => do
    atMost 4 length
    let v ← mapErr .parse (readUnsigned32 length.toNat)
    pure (.unsigned32 v)
  | .unsigned64 => do
    atMost 8 length
    let v ← mapErr .parse (readUnsigned64 length.toNat)
    pure (.unsigned64 v)
  | .unsigned256 => do
    atMost 32 length
    let v ← mapErr .parse (readPadded 32 length.toNat)
    pure (.unsigned256 (BitVec.ofNat 256 (beVal v)))
  | .signed32 => do
    atMost 8 length
    let v ← mapErr .parse (readSigned32 length.toNat)
    pure (.signed32 v)
  | .float64 => do
    exactly 8 length
    let v ← mapErr .parse readU64
    pure (.float64 v)
  | .boolean => do
    exactly 1 length
    let v ← mapErr .parse readU8
    pure (.boolean (v != 0))
  | .macAddress => do
    exactly 6 length
    let v ← mapErr .parse (readArray 6)
    pure (.macAddress (BitVec.ofNat 48 (beVal v)))
  | .string => do let v ← readString length; pure (.string v)
  | .seconds => do
    exactly 4 length
    let off ← getOffset
    let s ← mapErr .parse readU32
    let t ← ofOption (.timestamp off s) (Time.make s.toNat 0)
    pure (.seconds t)
  | .millis => do
    exactly 8 length
    let off ← getOffset
    let m ← mapErr .parse readU64
    let i := m.toBitVec.toInt
    let t ← ofOption (.timestampMillis off m) (Time.make (i / 1000) ((i % 1000).toNat * 1000000))
    pure (.millis t)
  | .micros => do let t ← readFraction length; pure (.micros t)
  | .nanos => do let t ← readFraction length; pure (.nanos t)
  | .ipv4 => do
    exactly 4 length
    let v ← mapErr .parse readU32
    pure (.ipv4 v)
  | .ipv6 => do
    exactly 16 length
    let v ← mapErr .parse readU128
    pure (.ipv6 v)
  | .basicList => do let v ← mapErr .parse (readOctets length); pure (.basicList v)
  | .subTemplateList => do let v ← mapErr .parse (readOctets length); pure (.subTemplateList v)
  | .subTemplateMultiList => do let v ← mapErr .parse (readOctets length); pure (.subTemplateMultiList v)

/-- `FieldWritingError::InvalidLength`, `G:2355-2360`, `G:3494-3500`; writing into memory does not fail otherwise -/
inductive FieldWriteErr where
  | invalidLength (length : UInt16)
  deriving DecidableEq, Repr

/-- the length prefix as it is written, `G:2008-2015`: `len as u32` without its first octet -/
def lenPrefix (n : Nat) : Bytes := if n < 255 then [UInt8.ofNat n] else 255 :: beBytes 3 n

/-- the number of octets of the prefix, as computed by `len` -/
def lenPrefixLen (n : Nat) : Nat := if n < 255 then 1 else 4

/-- a value followed by zeros up to the length, `G:2018-2024`; a longer value is not cut -/
def zeroFill (v : Bytes) (n : UInt16) : Bytes := v ++ List.replicate (n.toNat - v.length) 0

/-- octets, with the length prefix when it is variable: `G:2001-2028`, `G:2249-2274`; `bare` is what is written without a template -/
def writeOctets (bare : Bool) (v : Bytes) : Option UInt16 → Bytes
  | none => if bare then v else lenPrefix v.length ++ v
  | some n => if n = 65535 then lenPrefix v.length ++ v else zeroFill v n

/-- an integer of `w` octets: its last octets, `G:2051-2064` -/
def writeInt (w n : Nat) : Option UInt16 → Res FieldWriteErr Bytes
  | none => .ok (beBytes w n)
  | some l => if w < l.toNat then .err (.invalidLength l) else .ok ((beBytes w n).drop (w - l.toNat))

/-- `timestamp() as u32`, then the fraction, `G:2289-2299` -/
def writeFraction (t : Time) : Bytes :=
  u32be (UInt32.ofNat (t.secs % 4294967296).toNat) ++ u32be (UInt32.ofNat (t.nanos * 4294967295 / 1000000000))

/-- `Field::write`, `G:1997-2348` for vendors and `G:3010-3360` for IANA, alike -/
def Value.write (v : Value) (length : Option UInt16) : Res FieldWriteErr Bytes :=
  match v with
  | octetArray v => .ok (writeOctets true v length)
  | mpls v => .ok (writeOctets true (beBytes 3 v.toNat) length)
  | unsigned8 v => .ok [v]
  | unsigned16 v => writeInt 2 v.toNat length
  | tcpControlBits v => writeInt 2 v.toNat length
  | unsigned32 v => writeInt 4 v.toNat length
  | unsigned64 v => writeInt 8 v.toNat length
  | unsigned256 v =>
    match length with
    | none => .ok (beBytes 32 v.toNat)
    | some l => if 32 < l.toNat then .fault .panic else .ok ((beBytes 32 v.toNat).take l.toNat)
  | signed32 v => writeInt 4 v.toBitVec.toNat length
  | float64 v => writeInt 8 v.toNat length
  | boolean v => .ok [if v then 1 else 0]
  | macAddress v => .ok (beBytes 6 v.toNat)
  | string v => .ok (writeOctets false (Bgp.utf8 v) length)
  | seconds t => .ok (u32be (UInt32.ofNat (t.secs % 4294967296).toNat))
  | millis t => .ok (u64be (UInt64.ofNat ((t.secs * 1000 + (t.nanos / 1000000 : Nat)) % 18446744073709551616).toNat))
  | micros t => .ok (writeFraction t)
  | nanos t => .ok (writeFraction t)
  | ipv4 v => .ok (u32be v)
  | ipv6 v => .ok (u128be v)
  | basicList v => .ok v
  | subTemplateList v => .ok v
  | subTemplateMultiList v => .ok v

/-- the length computed for octets, `G:1872-1890` (`bare`), `G:1936-1960` -/
def octetsLen (bare : Bool) (n : Nat) : Option UInt16 → Nat
  | none => if bare then n else lenPrefixLen n + n
  | some l => if l = 65535 then lenPrefixLen n + n else l.toNat

/-- `Field::len`, `G:1869-1993`, `G:3363-3488` -/
def Value.len (v : Value) (length : Option UInt16) : Nat :=
  match v with
  | octetArray v => octetsLen true v.length length
  | mpls _ => octetsLen true 3 length
  | unsigned8 _ | boolean _ => 1
  | unsigned16 _ | tcpControlBits _ => (length.map (·.toNat)).getD 2
  | unsigned32 _ | signed32 _ => (length.map (·.toNat)).getD 4
  | unsigned64 _ | float64 _ => (length.map (·.toNat)).getD 8
  | unsigned256 _ => (length.map (·.toNat)).getD 32
  | macAddress _ => 6
  | string v => octetsLen false (Bgp.utf8 v).length length
  | seconds _ | ipv4 _ => 4
  | millis _ | micros _ | nanos _ => 8
  | ipv6 _ => 16
  | basicList v | subTemplateList v | subTemplateMultiList v => v.length

/-! ## Fields -/

/-- The generated enum `Field`, `G:767-771`, `G:2499-2503`; the value of an element of a registry and the octets of an
unknown one -/
inductive Field where
  | known (pen : UInt32) (id : UInt16) (v : Value)
  | vendorUnknown (pen : UInt32) (id : UInt16) (v : Bytes)
  | unknown (pen : UInt32) (id : UInt16) (v : Bytes)
  deriving DecidableEq, Repr

/-- `Field::ie`, `G:772-781`, `G:2506-2512` -/
def Field.ie : Field → Ie
  | known p i v => .known p i v.kind
  | vendorUnknown p i _ => .vendorUnknown p i
  | unknown p i _ => .unknown p i

/-- `Field::parse`, `G:2869-2897`, `G:2959-2978` -/
def Field.parse (ie : Ie) (length : UInt16) : Parser FieldErr Field :=
  match ie with
  | .known p i k => do let v ← Value.parse k length; pure (.known p i v)
  | .vendorUnknown p i => do let v ← mapErr .parse (readOctets length); pure (.vendorUnknown p i v)
  | .unknown p i => do let v ← mapErr .parse (readBytes length.toNat); pure (.unknown p i v)

/-- `Field::write`, `G:2387-2412`, `G:3528-3554` -/
def Field.write (f : Field) (length : Option UInt16) : Res FieldWriteErr Bytes :=
  match f with
  | known _ _ v => v.write length
  | vendorUnknown _ _ v => .ok (writeOctets false v length)
  | unknown _ _ v => .ok (writeOctets false v length)

/-- `Field::len`, `G:2365-2385`, `G:3505-3526` -/
def Field.len (f : Field) (length : Option UInt16) : Nat :=
  match f with
  | known _ _ v => v.len length
  | vendorUnknown _ _ v => octetsLen true v.length length
  | unknown _ _ v => octetsLen true v.length length

/-- the fields of a record, one after the other, `F/wire/deserializer/ipfix.rs:344-365` -/
def parseFields : List Spec → Parser FieldErr (List Field)
  | [] => pure []
  | s :: ss => do
    let f ← Field.parse s.ie s.length
    let fs ← parseFields ss
    pure (f :: fs)

end Verif.Flow
