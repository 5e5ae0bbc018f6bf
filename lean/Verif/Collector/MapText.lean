import Verif.Collector.FlowOptions
/-!
# Lines of the maps of pmacct

`M` stands for `crates/collector/src/inputs/files/formats/pmacct_maps.rs` and `L` for `crates/collector/src/inputs/files/handlers.rs`. A text is the list of its
characters. The functions on texts of the standard library are modelled as far as they are used; how `IpAddr::from_str` reads an address is a parameter, and the
texts of errors are left out.
-/
namespace Verif.Collector
open Flow (Field Value Ie)

/-- `str` -/
abbrev Text := List Char

/-- `char::is_whitespace`: the property White_Space of Unicode -/
def isSpace (c : Char) : Bool :=
  (9 ≤ c.toNat && c.toNat ≤ 13) || c.toNat == 0x20 || c.toNat == 0x85 || c.toNat == 0xA0 || c.toNat == 0x1680 || (0x2000 ≤ c.toNat && c.toNat ≤ 0x200A) ||
  c.toNat == 0x2028 || c.toNat == 0x2029 || c.toNat == 0x202F || c.toNat == 0x205F || c.toNat == 0x3000

/-- `str::trim_start` -/
def trimStart (t : Text) : Text := t.dropWhile isSpace

/-- `str::trim` -/
def trim (t : Text) : Text := (trimStart (trimStart t).reverse).reverse

/-- `str::split` at the characters with `p`: the pieces between them, one more than there are such characters -/
def splitAt (p : Char → Bool) : Text → List Text
  | [] => [[]]
  | c :: cs =>
    if p c then [] :: splitAt p cs
    else
      match splitAt p cs with
      | [] => [[c]]
      | x :: xs => (c :: x) :: xs

/-- `str::split_whitespace` -/
def splitWhitespace (t : Text) : List Text := (splitAt isSpace t).filter fun w => !w.isEmpty

/-- `str::split_once` at a character -/
def splitOnce (c : Char) : Text → Option (Text × Text)
  | [] => none
  | d :: ds => if d = c then some ([], ds) else (splitOnce c ds).map fun x => (d :: x.1, x.2)

/-- `str::lines`: without an empty piece at the end and without a carriage return before a line feed -/
def textLines (t : Text) : List Text :=
  match (splitAt (· == '\n') t).reverse with
  | [] => []
  | last :: rest => (rest.reverse.map fun l => if l.getLast? = some '\r' then l.dropLast else l) ++ (if last.isEmpty then [] else [last])

/-- the value of a digit -/
def digit (c : Char) : Option Nat := if c.isDigit then some (c.toNat - 48) else none

/-- digits of a number below a bound; there may be none -/
def digits (bound : Nat) (acc : Nat) : Text → Option Nat
  | [] => some acc
  | c :: cs =>
    match digit c with
    | none => none
    | some v => if acc * 10 + v < bound then digits bound (acc * 10 + v) cs else none

/-- `from_str` of unsigned integers below a bound: digits with an optional plus sign -/
def parseNat (bound : Nat) : Text → Option Nat
  | [] => none
  | ['+'] => none
  | '+' :: cs => digits bound 0 cs
  | cs => digits bound 0 cs

/-- an octet in `Ipv4Addr::from_str`: at most three digits, and no zero before others -/
def parseOctet (t : Text) : Option UInt8 :=
  match t with
  | [] => none
  | '0' :: _ :: _ => none
  | _ => if t.length ≤ 3 then (digits 256 0 t).map UInt8.ofNat else none

/-- `Ipv4Addr::from_str` -/
def parseIpv4 (t : Text) : Option (List UInt8) :=
  match splitAt (· == '.') t with
  | [a, b, c, d] => do
    let a ← parseOctet a
    let b ← parseOctet b
    let c ← parseOctet c
    let d ← parseOctet d
    return [a, b, c, d]
  | _ => none

/-- `PmacctMapEntryScope`, `M:121-125` -/
inductive MapScope where
  | into (n : UInt32)
  | out (n : UInt32)
  | vpn (n : UInt32)
  deriving DecidableEq, Repr

/-- `PmacctMapEntry`, `M:91-95` -/
structure MapEntry (A : Type) where
  id : Text
  ip : A
  scope : Option MapScope
  deriving DecidableEq, Repr

/-- `PmacctMapError`, `M:65-86`, without the texts -/
inductive MapError where
  | rd
  | ip
  | numeric
  | key
  | scopes
  | missing
  | element
  deriving DecidableEq, Repr

variable {A : Type}

/-- the variables of `parse_line`, `M:141-145` -/
structure MapVars (A : Type) where
  id : Option Text := none
  ip : Option A := none
  into : Option UInt32 := none
  out : Option UInt32 := none
  vpn : Option UInt32 := none

/-- `parse::<u32>` with `map_err` -/
def parseU32 (t : Text) : Except MapError UInt32 :=
  match parseNat 4294967296 t with
  | some n => .ok (UInt32.ofNat n)
  | none => .error .numeric

/-- the body of the loop of `parse_line`, `M:148-190` -/
def mapWord (addr : Text → Option A) (v : MapVars A) (w : Text) : Except MapError (MapVars A) :=
  match splitOnce '=' w with
  | none => .ok v
  | some (key, value) =>
    if key = ['i', 'd'] then .ok { v with id := some value }
    else if key = ['i', 'p'] then
      match addr value with
      | some a => .ok { v with ip := some a }
      | none => .error .ip
    else if key = ['i', 'n'] then do
      let n ← parseU32 value
      return { v with into := some n }
    else if key = ['o', 'u', 't'] then do
      let n ← parseU32 value
      return { v with out := some n }
    else if key = "mpls_vpn_id".toList then do
      let n ← parseU32 value
      return { v with vpn := some n }
    else .error .key

/-- the loop of `parse_line`, `M:147-191` -/
def mapWords (addr : Text → Option A) : List Text → MapVars A → Except MapError (MapVars A)
  | [], v => .ok v
  | w :: ws, v => do mapWords addr ws (← mapWord addr v w)

/-- the end of `parse_line`, `M:193-213` -/
def MapVars.entry (v : MapVars A) : Except MapError (MapEntry A) :=
  match v.id, v.ip with
  | some id, some ip =>
    match v.into, v.out, v.vpn with
    | some n, none, none => .ok ⟨id, ip, some (.into n)⟩
    | none, some n, none => .ok ⟨id, ip, some (.out n)⟩
    | none, none, some n => .ok ⟨id, ip, some (.vpn n)⟩
    | none, none, none => .ok ⟨id, ip, none⟩
    | _, _, _ => .error .scopes
  | _, _ => .error .missing

/-- `PmacctMapEntry::parse_line`, `M:134-214` -/
def parseLine (addr : Text → Option A) (line : Text) : Except MapError (Option (MapEntry A)) :=
  match trim line with
  | [] => .ok none
  | c :: cs =>
    if c = '!' ∨ c = '#' then .ok none
    else do
      let v ← mapWords addr (splitWhitespace (c :: cs)) {}
      let e ← v.entry
      return some e

/-- `u16::to_be_bytes` -/
def be16 (n : Nat) : List UInt8 := [UInt8.ofNat (n / 256), UInt8.ofNat n]

/-- `u32::to_be_bytes` -/
def be32 (n : Nat) : List UInt8 := [UInt8.ofNat (n / 16777216), UInt8.ofNat (n / 65536), UInt8.ofNat (n / 256), UInt8.ofNat n]

/-- the route distinguisher of `parse_field_from_string`, `M:225-298` -/
def parseRd (value : Text) : Option (List UInt8) :=
  match splitAt (· == ':') value with
  | [kind, admin, assigned] => do
    let k ← parseNat 65536 kind
    if k = 0 then
      let a ← parseNat 65536 admin
      let n ← parseNat 4294967296 assigned
      return be16 k ++ be16 a ++ be32 n
    else if k = 1 then
      let a ← parseIpv4 admin
      let n ← parseNat 65536 assigned
      return be16 k ++ a ++ be16 n
    else if k = 2 then
      let a ← parseNat 4294967296 admin
      let n ← parseNat 65536 assigned
      return be16 k ++ be32 a ++ be16 n
    else none
  | _ => none

/-- `parse_field_from_string`, `M:223-312` -/
def parseField (ie : Ie) (value : Text) : Except MapError Field :=
  if ie = .known 0 90 .octetArray then
    match parseRd value with
    | some rd => .ok (.known 0 90 (.octetArray rd))
    | none => .error .rd
  else if ie = .known 0 50 .unsigned32 then
    match parseNat 4294967296 value with
    | some n => .ok (.known 0 50 (.unsigned32 (UInt32.ofNat n)))
    | none => .error .numeric
  else .error .element

/-- `LineChangeType`, `files/mod.rs:84-87`, and `EnrichmentOperationType`, to which it is converted -/
inductive Change where
  | added
  | removed
  deriving DecidableEq, Repr

/-- `create_operation`, `L:250-279` -/
def createOperation (ip : A) (scope : Scope Field) (weight : UInt8) (field : Field) : Change → Op A Field Ie
  | .added => .upsert ip scope weight [field]
  | .removed => .delete ip scope weight [Field.ie field]

/-- the element for a direction, `L:294-298`, `L:312-316`, `L:330-341`: `id` is that of NetGauze for the route distinguisher -/
def directed (id : UInt16) : Field → Field
  | .known 0 90 (.octetArray rd) => .known 3746 id (.octetArray rd)
  | f => f

/-- `try_into_enrichment_operations`, `L:283-379` -/
def MapEntry.operations (e : MapEntry A) (ie : Ie) (change : Change) (weight : UInt8) : Except MapError (List (Op A Field Ie)) := do
  let f ← parseField ie e.id
  match e.scope with
  | some (.into n) => return [createOperation e.ip ⟨0, some [.known 0 10 (.unsigned32 n)]⟩ weight (directed 14 f) change]
  | some (.out n) => return [createOperation e.ip ⟨0, some [.known 0 14 (.unsigned32 n)]⟩ weight (directed 15 f) change]
  | some (.vpn n) => return [createOperation e.ip ⟨0, some [.known 0 234 (.unsigned32 n)]⟩ weight (directed 14 f) change,
      createOperation e.ip ⟨0, some [.known 0 235 (.unsigned32 n)]⟩ weight (directed 15 f) change]
  | none => return [createOperation e.ip ⟨0, none⟩ weight f change]

/-- `handle_line` of `PmacctMapsHandler`, `L:196-231`; `none` for a line that is reported as wrong -/
def mapsLine (addr : Text → Option A) (ie : Ie) (weight : UInt8) (line : Text) (change : Change) : Option (List (Op A Field Ie)) :=
  match parseLine addr line with
  | .ok (some e) =>
    match e.operations ie change weight with
    | .ok ops => some (ops.filter Op.valid)
    | .error _ => none
  | .ok none => some []
  | .error _ => none

/-- `handle_line` of `FlowUpsertsHandler`, `L:57-89`: `json` is how `serde_json` reads an `UpsertPayload` -/
def jsonLine (json : Text → Option (A × Scope Field × UInt8 × List Field)) (line : Text) (change : Change) : Option (List (Op A Field Ie)) :=
  match json line with
  | none => none
  | some (ip, scope, weight, fields) =>
    if fields.isEmpty then some []
    else
      match change with
      | .added => some [.upsert ip scope weight fields]
      | .removed => some [(Op.upsert ip scope weight fields : Op A Field Ie).undo]

end Verif.Collector
