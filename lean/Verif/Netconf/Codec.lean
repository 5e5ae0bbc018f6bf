import Verif.Core.Stream
import Verif.Bgp.Caps
/-!
# The framing of NETCONF over SSH

`C` stands for `crates/netconf-proto/src/codec.rs`. What is inside of a message (`xml_deserialize`, `xml_serialize`, `quick_xml`) is a
parameter, `Xml`.
-/
namespace Verif.Netconf

/-- `HELLO_TERMINATOR`, `C:29`: `]]>]]>` -/
def helloTerminator : Bytes := [93, 93, 62, 93, 93, 62]
/-- `CHUNK_START`, `C:30`: `\n#` -/
def chunkStart : Bytes := [10, 35]
/-- `MESSAGE_TERMINATOR`, `C:31`: `\n##\n` -/
def messageTerminator : Bytes := [10, 35, 35, 10]
/-- `MAX_CHUNK_SIZE`, `C:34` -/
def maxChunkSize : Nat := 4294967295

/-- What is left open: `Hello::xml_deserialize` and whether a hello has the capability `base:1.1`, `NetConfMessage::xml_deserialize`
with the creation of the parser before each, and `xml_serialize` without the framing (for a hello with `XML_HEADER` in front, `C:28`, `C:246-247`). They
are functions of the octets of the message; that they panic is excluded. -/
structure Xml (H M ε : Type) where
  readHello : Bytes → Except ε H
  base11 : H → Bool
  readMessage : Bytes → Except ε M
  writeHello : H → Bytes
  writeMessage : M → Bytes

/-- `NetConfMessage`, by the framing that `encode` chooses -/
inductive Item (H M : Type) where
  | hello (h : H)
  | message (m : M)
  deriving DecidableEq, Repr

/-- `SshCodecError`, `C:63-78`; the input/output errors of `decode` are distinguished by their text -/
inductive SshErr (ε : Type) where
  | noBase11
  | noChunkStart
  | noNewline
  | invalidSize (n : Nat)
  | utf8
  | int
  | xml (e : ε)
  deriving DecidableEq, Repr

/-- `SshCodec`, `C:42-45` -/
structure SshCodec where
  inHello : Bool
  buf : Bytes
  deriving DecidableEq, Repr

/-- `SshCodec::new`, `C:48-53` -/
def SshCodec.new : SshCodec := ⟨true, []⟩

/-- `windows(pat.len()).position(|w| w == pat)`, `C:130-132` -/
def position (pat : Bytes) : Bytes → Option Nat
  | [] => if pat.isPrefixOf [] then some 0 else none
  | x :: b => if pat.isPrefixOf (x :: b) then some 0 else (position pat b).map (· + 1)

/-- the value of decimal digits, read from the left -/
def digitsValue : Nat → Bytes → Option Nat
  | acc, [] => some acc
  | acc, x :: b => if 48 ≤ x.toNat ∧ x.toNat ≤ 57 then digitsValue (10 * acc + (x.toNat - 48)) b else none

/-- `str::parse::<usize>` of at most 10 octets, which do not overflow: an optional plus sign and at least one digit -/
def parseUsize : Bytes → Option Nat
  | [] => none
  | x :: b => if x = 43 then (if b = [] then none else digitsValue 0 b) else digitsValue 0 (x :: b)

/-- what an iteration of the loop finds at the start of the buffer -/
inductive Chunk (ε : Type) where
  | wait
  | err (e : SshErr ε)
  | chunk (data rest : Bytes)
  deriving DecidableEq, Repr

/-- an iteration of the loop up to the chunk, `C:158-213`; the 13 octets are `CHUNK_START.len() + MAX_CHUNK_SIZE_LEN + 1` -/
def nextChunk {ε : Type} (src : Bytes) : Chunk ε :=
  if src.length < 13 then .wait
  else if !chunkStart.isPrefixOf src then .err .noChunkStart
  else
    match ((src.drop 2).take 11).idxOf? 10 with
    | none => .err .noNewline
    | some pos =>
      let digits := (src.drop 2).take pos
      if (Bgp.ofUtf8 digits).isNone then .err .utf8
      else
        match parseUsize digits with
        | none => .err .int
        | some size =>
          if size = 0 ∨ maxChunkSize < size then .err (.invalidSize size)
          else if src.length < 2 + pos + 1 + size then .wait
          else .chunk ((src.drop (2 + pos + 1)).take size) (src.drop (2 + pos + 1 + size))

variable {H M ε : Type}

/-- the loop over chunks, `C:157-230`; the number bounds the iterations, running out of it is an endless loop. The terminator stays in
the buffer when the message is refused. -/
def chunks (xml : Xml H M ε) : Nat → Bytes → Bytes → Dec (SshErr ε) (Item H M) × SshCodec × Bytes
  | 0, buf, src => (.out (.fault .hang), ⟨false, buf⟩, src)
  | n + 1, buf, src =>
    match nextChunk src with
    | .wait => (.wait, ⟨false, buf⟩, src)
    | .err e => (.out (.err e), ⟨false, buf⟩, src)
    | .chunk data rest =>
      if messageTerminator.isPrefixOf rest then
        match xml.readMessage (buf ++ data) with
        | .error e => (.out (.err (.xml e)), ⟨false, []⟩, rest)
        | .ok m => (.out (.ok (.message m)), ⟨false, []⟩, rest.drop 4)
      else chunks xml n (buf ++ data) rest

/-- `SshCodec::decode`, `C:128-231`. With fewer than six octets of a hello the loop is entered, and asks for more; it leaves `in_hello` alone. -/
def SshCodec.decode (xml : Xml H M ε) : Decode SshCodec (SshErr ε) (Item H M) := fun c src =>
  if c.inHello ∧ 6 ≤ src.length then
    match position helloTerminator src with
    | none => (.wait, c, src)
    | some pos =>
      match xml.readHello (src.take pos) with
      | .error e => (.out (.err (.xml e)), c, src.drop (pos + 6))
      | .ok h =>
        if xml.base11 h then (.out (.ok (.hello h)), ⟨false, c.buf⟩, src.drop (pos + 6))
        else (.out (.err .noBase11), c, src.drop (pos + 6))
  else
    let (x, c', rest) := chunks xml (src.length + 1) c.buf src
    (x, { c' with inHello := c.inHello }, rest)

/-- `format!("{size}")`, `C:251` -/
def decimal (n : Nat) : Bytes := (Nat.toDigits 10 n).map fun c => UInt8.ofNat c.toNat

/-- `SshCodec::encode`, `C:236-256`: the octets appended -/
def SshCodec.encode (xml : Xml H M ε) : Item H M → Bytes
  | .hello h => xml.writeHello h ++ helloTerminator
  | .message m => chunkStart ++ decimal (xml.writeMessage m).length ++ [10] ++ xml.writeMessage m ++ messageTerminator

end Verif.Netconf
