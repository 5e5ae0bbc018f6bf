import Verif.NetconfXml.Parser
import Verif.NetconfXml.Writer
import Verif.NetconfXml.Capability
/-!
# Messages of NETCONF in XML

`P` stands for `crates/netconf-proto/src/protocol.rs` and `C` for `crates/netconf-proto/src/capabilities.rs`. The YANG library of a reply is a parameter: it is read and
written by other code. A hash set of capabilities is the list of them, in some order.
-/
namespace Verif.Xml
open Verif.Collector (Text trim parseNat)

/-- the value that one of the names of an enumeration has -/
def readEnum {α : Type} (vals : List (String × α)) (t : Text) : Option α := (vals.find? fun v => v.1.toList == t).map (·.2)

/-- the characters of a number -/
def decimal (n : Nat) : Text := (toString n).toList

/-- `parse::<u32>` -/
def readU32 (t : Text) : Option UInt32 := (parseNat (2 ^ 32) t).map UInt32.ofNat

/-! ## Hello -/

/-- `Hello`, `P:107-113` -/
structure Hello (D : Type) where
  sessionId : Option UInt32
  capabilities : List (Cap D)

/-- `Capability::xml_deserialize`, `C:290-300` -/
def readCapability {D : Type} (dates : Dates D) : P (Cap D) := do
  let _ ← openTag nsNetconf "capability"
  let body ← tagString
  let cap ← lift .invalidValue (Cap.read dates body)
  close
  return cap

/-- `Capability::xml_serialize`, `C:302-315` -/
def writeCapability {D : Type} (dates : Dates D) (c : Cap D) : W Unit := leaf "capability" (written (c.show' dates))

/-- the declaration of XML, if there is one, `P:56-58` -/
def skipDecl : P Unit := fun s =>
  match s.evs with
  | ⟨.decl, _⟩ :: _ => skip s
  | _ => (.ok (), s)

/-- `Hello::xml_deserialize`, `P:132-158` -/
def readHello {D : Type} (dates : Dates D) : P (Hello D) := do
  skipDecl
  skipText
  let _ ← openTag nsNetconf "hello"
  skipText
  let _ ← openTag nsNetconf "capabilities"
  let caps ← collect (readCapability dates)
  close
  let id ← do
    match ← maybeOpen nsNetconf "session-id" with
    | some _ =>
      let v ← lift .int (readU32 (← tagString))
      close
      pure (some v)
    | none => pure none
  close
  return ⟨id, caps⟩

/-- the capabilities, one behind the other -/
def writeAll {α : Type} (f : α → W Unit) : List α → W Unit
  | [] => pure ()
  | a :: as => do f a; writeAll f as

/-- `Hello::xml_serialize`, `P:160-185` -/
def writeHello {D : Type} (dates : Dates D) (h : Hello D) : W Unit := do
  let e ← createElement "hello"
  let c ← createElement "capabilities"
  write [.start e.1 e.2]
  write [.start c.1 c.2]
  writeAll (writeCapability dates) h.capabilities
  write [.close c.1]
  match h.sessionId with
  | some n => leaf "session-id" (written (decimal n.toNat))
  | none => pure ()
  write [.close e.1]

/-! ## Operations -/

/-- `ConfigSource`, `P:396-405` -/
inductive Source where
  | candidate | running | startup
  deriving DecidableEq, Repr
/-- `ConfigTarget`, `P:450-456` -/
inductive Target where
  | candidate | running
  deriving DecidableEq, Repr
/-- `ConfigUpdateDefaultOperation`, `P:500-526` -/
inductive DefaultOp where
  | merge | replace | none'
  deriving DecidableEq, Repr
/-- `ConfigEditTestOption`, `P:569-586` -/
inductive TestOption where
  | testThenSet | set | testOnly
  deriving DecidableEq, Repr
/-- `ConfigErrorOption`, `P:630-640` -/
inductive ErrorOption where
  | stop | continue' | rollback
  deriving DecidableEq, Repr
/-- `YangSchemaFormat`, `P:326-341` -/
inductive SchemaFormat where
  | xsd | yang | yin | rng | rnc
  deriving DecidableEq, Repr
/-- `Filter`, `P:686-689` -/
inductive Filter where
  | subtree (content : List Raw)
  | xpath (select : Text)
  deriving DecidableEq, Repr
/-- `EditConfig`, `P:746-752` -/
inductive EditContent where
  | config (content : List Raw)
  | url (t : Text)
  deriving DecidableEq, Repr

/-- `WellKnownOperation`, `P:803-846` -/
inductive Op where
  | getConfig (source : Source) (filter : Filter)
  | editConfig (target : Target) (op : DefaultOp) (test : Option TestOption) (error : Option ErrorOption) (content : EditContent)
  | get (filter : Filter)
  | getYangLibrary
  | closeSession
  | getSchema (identifier : Text) (version : Option Text) (format : Option SchemaFormat)
  deriving DecidableEq, Repr

/-- `RpcOperation`, `P:224-233` -/
inductive RpcOp where
  | raw (content : List Raw)
  | wellKnown (op : Op)
  deriving DecidableEq, Repr

/-- `Rpc`, `P:201-204` -/
structure Rpc where
  messageId : Text
  operation : RpcOp
  deriving DecidableEq, Repr

/-- `extract_attribute`, `P:235-258`: the first attribute with the local name whose value can be read -/
def attrOf (name : String) : List Attr → Option Text
  | [] => none
  | a :: as =>
    if a.key.loc = name then
      match a.value.bind (normalized none) with
      | some v => some v
      | none => attrOf name as
    else attrOf name as

/-- the length in octets -/
def utf8Length (t : Text) : Nat := (t.map fun c => c.utf8Size).sum

/-- `extract_message_id`, `P:266-277` -/
def messageId (as : List Attr) : P (Option Text) :=
  match attrOf "message-id" as with
  | some v => if utf8Length v > 4095 then raise .invalidValue else pure (some v)
  | none => pure none

/-- an enumeration in an element, as in `P:343-362`: `open`, `tag_string`, `trim`, the value, `close` -/
def readChoice {α : Type} (ns : Text) (tag : String) (vals : List (String × α)) : P α := do
  skipText
  let _ ← openTag ns tag
  let t ← tagString
  let v ← lift .invalidValue (readEnum vals (trim t))
  close
  return v

def SchemaFormat.names : List (String × SchemaFormat) := [("xsd", .xsd), ("yang", .yang), ("yin", .yin), ("rng", .rng), ("rnc", .rnc)]
def DefaultOp.names : List (String × DefaultOp) := [("merge", .merge), ("replace", .replace), ("none", .none')]
def TestOption.names : List (String × TestOption) := [("test-then-set", .testThenSet), ("set", .set), ("test-only", .testOnly)]
def ErrorOption.names : List (String × ErrorOption) := [("stop-on-error", .stop), ("continue-on-error", .continue'), ("rollback-on-error", .rollback)]

def SchemaFormat.name : SchemaFormat → String
  | .xsd => "xsd" | .yang => "yang" | .yin => "yin" | .rng => "rng" | .rnc => "rnc"
def DefaultOp.name : DefaultOp → String
  | .merge => "merge" | .replace => "replace" | .none' => "none"
def TestOption.name : TestOption → String
  | .testThenSet => "test-then-set" | .set => "set" | .testOnly => "test-only"
def ErrorOption.name : ErrorOption → String
  | .stop => "stop-on-error" | .continue' => "continue-on-error" | .rollback => "rollback-on-error"

/-- `YangSchemaFormat::xml_deserialize`, `P:343-363` -/
def readFormat : P SchemaFormat := readChoice nsMonitoring "format" SchemaFormat.names
/-- `ConfigUpdateDefaultOperation::xml_deserialize`, `P:528-546` -/
def readDefaultOp : P DefaultOp := readChoice nsNetconf "default-operation" DefaultOp.names
/-- `ConfigEditTestOption::xml_deserialize`, `P:588-606` -/
def readTestOption : P TestOption := readChoice nsNetconf "test-option" TestOption.names
/-- `ConfigErrorOption::xml_deserialize`, `P:642-660` -/
def readErrorOption : P ErrorOption := readChoice nsNetconf "error-option" ErrorOption.names

/-- `YangSchemaFormat::xml_serialize`, `P:365-393` -/
def writeFormat (f : SchemaFormat) : W Unit := within nsMonitoring (leafNs nsMonitoring "format" (written f.name.toList))
/-- `ConfigUpdateDefaultOperation::xml_serialize`, `P:548-563` -/
def writeDefaultOp (o : DefaultOp) : W Unit := leaf "default-operation" (written o.name.toList)
/-- `ConfigEditTestOption::xml_serialize`, `P:608-625` -/
def writeTestOption (o : TestOption) : W Unit := leaf "test-option" (written o.name.toList)
/-- `ConfigErrorOption::xml_serialize`, `P:662-683` -/
def writeErrorOption (o : ErrorOption) : W Unit := leaf "error-option" (written o.name.toList)

/-- `ConfigSource::xml_deserialize`, `P:407-430` -/
def readSource : P Source := do
  skipText
  let _ ← openTag nsNetconf "source"
  let v ← do
    if (← maybeOpen nsNetconf "candidate").isSome then pure Source.candidate
    else if (← maybeOpen nsNetconf "running").isSome then pure Source.running
    else if (← maybeOpen nsNetconf "startup").isSome then pure Source.startup
    else raise (.wrongToken "<candidate/>, <running/>, <startup/>")
  close
  close
  return v

def Source.name : Source → String
  | .candidate => "candidate" | .running => "running" | .startup => "startup"

/-- `ConfigSource::xml_serialize`, `P:432-447` -/
def writeSource (s : Source) : W Unit := leaf "source" [.empty ⟨none, s.name⟩ []]

/-- `ConfigTarget::xml_deserialize`, `P:458-478` -/
def readTarget : P Target := do
  skipText
  let _ ← openTag nsNetconf "target"
  let v ← do
    if (← maybeOpen nsNetconf "candidate").isSome then pure Target.candidate
    else if (← maybeOpen nsNetconf "running").isSome then pure Target.running
    else raise (.wrongToken "<candidate/> or <running/>")
  close
  close
  return v

def Target.name : Target → String
  | .candidate => "candidate" | .running => "running"

/-- `ConfigTarget::xml_serialize`, `P:480-494` -/
def writeTarget (t : Target) : W Unit := leaf "target" [.empty ⟨none, t.name⟩ []]

/-- `Filter::xml_deserialize`, `P:691-716` -/
def readFilter : P Filter := do
  skipText
  let as ← openTag nsNetconf "filter"
  let ty := (attrOf "type" as).getD "subtree".toList
  let f ← do
    if ty = "subtree".toList then
      let c ← copyTill "filter"
      pure (Filter.subtree c)
    else if ty = "xpath".toList then
      let t ← lift .missingAttribute (attrOf "select" as)
      pure (Filter.xpath t)
    else raise .invalidValue
  close
  return f

/-- `Filter::xml_serialize`, `P:718-742` -/
def writeFilter (f : Filter) : W Unit := do
  let e ← createElement "filter"
  match f with
  | .subtree c =>
    write [.start e.1 (e.2 ++ [⟨⟨none, "type"⟩, some (escape "subtree".toList)⟩])]
    write c
  | .xpath t => write [.start e.1 (e.2 ++ [⟨⟨none, "type"⟩, some (escape "xpath".toList)⟩, ⟨⟨none, "select"⟩, some (escape t)⟩])]
  write [.close e.1]

/-- `EditConfig::xml_deserialize`, `P:754-773` -/
def readEditContent : P EditContent := do
  skipText
  if (← maybeOpen nsNetconf "url").isSome then
    let t ← tagString
    close
    return .url t
  else if (← maybeOpen nsNetconf "config").isSome then
    let c ← copyTill "config"
    close
    return .config c
  else raise (.wrongToken "<url/> or <config/>")

/-- `EditConfig::xml_serialize`, `P:775-796` -/
def writeEditContent : EditContent → W Unit
  | .config c => leaf "config" c
  | .url t => leaf "url" (written t)

/-- a parser whose error of a certain text means that there is nothing, as in `P:886-894` -/
def optional {α : Type} (expecting : String) (p : P α) : P (Option α) := fun s =>
  match p s with
  | (.ok a, s') => (.ok (some a), s')
  | (.err (.wrongToken x), s') => if x = expecting then (.ok none, s') else (.err (.wrongToken x), s')
  | (.err e, s') => (.err e, s')
  | (.fault f, s') => (.fault f, s')

/-- `parse_get_config`, `P:853-862` -/
def readGetConfig : P Op := do
  skipText
  let s ← readSource
  let f ← readFilter
  close
  return .getConfig s f

/-- `parse_edit_config`, `P:881-921` -/
def readEditConfig : P Op := do
  skipText
  let t ← readTarget
  let d ← optional "<default-operation>" readDefaultOp
  let o ← optional "<test-option>" readTestOption
  let e ← optional "<error-option>" readErrorOption
  let c ← readEditContent
  close
  return .editConfig t (d.getD .merge) o e c

/-- `parse_get`, `P:945-951` -/
def readGet : P Op := do
  skipText
  let f ← readFilter
  close
  return .get f

/-- `parse_get_schema`, `P:964-998` -/
def readGetSchema : P Op := do
  skipText
  let _ ← openTag nsMonitoring "identifier"
  let i ← tagString
  close
  let v ← do
    match ← maybeOpen nsMonitoring "version" with
    | some _ =>
      let v ← tagString
      close
      pure (some (trim v))
    | none => pure none
  let f ← optional "<format>" readFormat
  close
  return .getSchema (trim i) v f

/-- `WellKnownOperation::xml_deserialize`, `P:1040-1071` -/
def readOp : P Op := do
  skipText
  if (← maybeOpen nsNetconf "get-config").isSome then readGetConfig
  else if (← maybeOpen nsNetconf "edit-config").isSome then readEditConfig
  else if (← maybeOpen nsNetconf "get").isSome then readGet
  else if (← maybeOpen nsNetconf "close-session").isSome then
    close
    return .closeSession
  else if (← maybeOpen nsMonitoring "get-schema").isSome then readGetSchema
  else raise .recoverable

/-- an element around what something writes -/
def around (name : String) (body : W Unit) : W Unit := do
  let e ← createElement name
  write [.start e.1 e.2]
  body
  write [.close e.1]

/-- what is written if there is something -/
def writeOpt {α : Type} (f : α → W Unit) : Option α → W Unit
  | some a => f a
  | none => pure ()

/-- the subtree of `GetYangLibrary`, `P:1095-1098` -/
def libraryFilter : List Raw :=
  [.start ⟨none, "yang-library"⟩ [⟨⟨none, "xmlns"⟩, some nsYangLibrary⟩], .text "\n                    ".toList, .close ⟨none, "yang-library"⟩, .text "\n                    ".toList,
   .start ⟨none, "modules-state"⟩ [⟨⟨none, "xmlns"⟩, some nsYangLibrary⟩], .text "\n                    ".toList, .close ⟨none, "modules-state"⟩]

/-- `WellKnownOperation::xml_serialize`, `P:1073-1122`, with `P:864-876`, `P:923-943`, `P:953-962` and `P:1000-1037` -/
def writeOp : Op → W Unit
  | .getConfig s f => around "get-config" (do writeSource s; writeFilter f)
  | .editConfig t d o e c => around "edit-config" (do writeTarget t; writeDefaultOp d; writeOpt writeTestOption o; writeOpt writeErrorOption e; writeEditContent c)
  | .get f => around "get" (writeFilter f)
  | .getYangLibrary => around "get" (writeFilter (.subtree libraryFilter))
  | .closeSession => do
    let e ← createElement "close-session"
    write [.empty e.1 e.2]
  | .getSchema i v f => within nsMonitoring (do
    let e ← createNs nsMonitoring "get-schema"
    write [.start e.1 e.2]
    leafNs nsMonitoring "identifier" (written i)
    writeOpt (fun v => leafNs nsMonitoring "version" (written v)) v
    writeOpt writeFormat f
    write [.close e.1])

/-- `Rpc::xml_deserialize`, `P:279-302` -/
def readRpc : P Rpc := do
  skipText
  let as ← openTag nsNetconf "rpc"
  let id ← do
    match ← messageId as with
    | some v => pure v
    | none => raise .missingAttribute
  let op ← fun s =>
    match readOp s with
    | (.ok o, s') => (.ok (RpcOp.wellKnown o), s')
    | (.err .recoverable, s') => (do return RpcOp.raw (← copyTill "rpc") : P RpcOp) s'
    | (.err e, s') => (.err e, s')
    | (.fault f, s') => (.fault f, s')
  return ⟨id, op⟩

/-- `Rpc::xml_serialize`, `P:304-323` -/
def writeRpc (r : Rpc) : W Unit := do
  let e ← createElement "rpc"
  write [.start e.1 (e.2 ++ [⟨⟨none, "message-id"⟩, some (escape r.messageId)⟩])]
  match r.operation with
  | .raw c => write c
  | .wellKnown o => writeOp o
  write [.close e.1]

/-! ## Replies -/

/-- `ErrorType`, `P:1627-1637` -/
inductive ErrorType where
  | transport | rpc | protocol | application
  deriving DecidableEq, Repr
/-- `ErrorTag`, `P:1704-1746` -/
inductive ErrorTag where
  | inUse | invalidValue | tooBig | missingAttribute | badAttribute | unknownAttribute | missingElement | badElement | unknownElement | unknownNamespace
  | accessDenied | lockDenied | resourceDenied | rollbackFailed | dataExists | dataMissing | operationNotSupported | operationFailed | partialOperation | malformedMessage
  deriving DecidableEq, Repr
/-- `ErrorSeverity`, `P:1795-1801` -/
inductive Severity where
  | error | warning
  deriving DecidableEq, Repr

def ErrorType.name : ErrorType → String
  | .transport => "transport" | .rpc => "rpc" | .protocol => "protocol" | .application => "application"
def ErrorType.names : List (String × ErrorType) := [("transport", .transport), ("rpc", .rpc), ("protocol", .protocol), ("application", .application)]

def ErrorTag.name : ErrorTag → String
  | .inUse => "in-use" | .invalidValue => "invalid-value" | .tooBig => "too-big" | .missingAttribute => "missing-attribute" | .badAttribute => "bad-attribute"
  | .unknownAttribute => "unknown-attribute" | .missingElement => "missing-element" | .badElement => "bad-element" | .unknownElement => "unknown-element"
  | .unknownNamespace => "unknown-namespace" | .accessDenied => "access-denied" | .lockDenied => "lock-denied" | .resourceDenied => "resource-denied"
  | .rollbackFailed => "rollback-failed" | .dataExists => "data-exists" | .dataMissing => "data-missing" | .operationNotSupported => "operation-not-supported"
  | .operationFailed => "operation-failed" | .partialOperation => "partial-operation" | .malformedMessage => "malformed-message"
def ErrorTag.names : List (String × ErrorTag) :=
  [("in-use", .inUse), ("invalid-value", .invalidValue), ("too-big", .tooBig), ("missing-attribute", .missingAttribute), ("bad-attribute", .badAttribute),
   ("unknown-attribute", .unknownAttribute), ("missing-element", .missingElement), ("bad-element", .badElement), ("unknown-element", .unknownElement),
   ("unknown-namespace", .unknownNamespace), ("access-denied", .accessDenied), ("lock-denied", .lockDenied), ("resource-denied", .resourceDenied),
   ("rollback-failed", .rollbackFailed), ("data-exists", .dataExists), ("data-missing", .dataMissing), ("operation-not-supported", .operationNotSupported),
   ("operation-failed", .operationFailed), ("partial-operation", .partialOperation), ("malformed-message", .malformedMessage)]

def Severity.name : Severity → String
  | .error => "error" | .warning => "warning"
def Severity.names : List (String × Severity) := [("error", .error), ("warning", .warning)]

/-- `ErrorInfoValue`, `P:1946-1953` -/
structure InfoValue where
  badAttribute : Option Text
  badElement : Option Text
  okElement : Option Text
  errElement : Option Text
  noopElement : Option Text
  badNamespace : Option Text
  deriving DecidableEq, Repr

/-- `ErrorInfo`, `P:1865-1868` -/
inductive ErrorInfo where
  | sessionId (n : UInt32)
  | values (vs : List InfoValue)
  deriving DecidableEq, Repr

/-- `RpcError`, `P:1424-1436`, with the text of `ErrorMessage`, `P:1569-1573` -/
structure RpcError where
  type : ErrorType
  tag : ErrorTag
  severity : Severity
  appTag : Option Text
  path : Option Text
  message : Option Text
  info : Option ErrorInfo
  deriving DecidableEq, Repr

/-- `WellKnownRpcResponse`, `P:1319-1323` -/
inductive Response (Y : Type) where
  | yangSchema (schema : Text)
  | yangLibrary (y : Y)
  | data (content : List Raw)
  deriving DecidableEq, Repr

/-- `RpcResponse`, `P:1313-1316` -/
inductive RpcResponse (Y : Type) where
  | raw (content : List Raw)
  | wellKnown (r : Response Y)
  deriving DecidableEq, Repr

/-- `RpcReplyContent`, `P:1251-1260` -/
inductive ReplyContent (Y : Type) where
  | ok
  | errorsAndData (errors : List RpcError) (responses : RpcResponse Y)
  deriving DecidableEq, Repr

/-- `RpcReply`, `P:1146-1149` -/
structure Reply (Y : Type) where
  messageId : Option Text
  reply : ReplyContent Y
  deriving DecidableEq, Repr

/-- how a YANG library is read and written, `yanglib.rs` -/
structure Library (Y : Type) where
  read : P Y
  write : Y → W Unit

/-- an enumeration in an element, without trimming, as in `P:1639-1651` -/
def readExact {α : Type} (tag : String) (vals : List (String × α)) : P α := do
  skipText
  let _ ← openTag nsNetconf tag
  let t ← tagString
  let v ← lift .invalidValue (readEnum vals t)
  close
  return v

/-- an optional text, with errors of opening forgotten, as in `P:1496-1499` -/
def readOptional (tag : String) : P (Option Text) := do
  if ← opens nsNetconf tag then
    let t ← tagString
    close
    return some t
  else return none

/-- `ErrorInfoValue::xml_deserialize`, `P:1955-2010` -/
def readInfoValue : P InfoValue := do
  let a ← readOptional "bad-attribute"
  let b ← readOptional "bad-element"
  let c ← readOptional "ok-element"
  let d ← readOptional "err-element"
  let e ← readOptional "noop-element"
  let f ← readOptional "bad-namespace"
  if a.isNone && b.isNone && c.isNone && d.isNone && e.isNone && f.isNone then raise .recoverable
  else return ⟨a, b, c, d, e, f⟩

/-- the loop behind the values of `error-info`, `P:1886-1897`, with a bound for the steps -/
def skipToInfoEnd : Nat → P Unit
  | 0 => fun s => (.fault .hang, s)
  | n + 1 => fun s =>
    match s.evs with
    | ⟨.close q, sc⟩ :: _ =>
      if sc.resolve q = .bound nsNetconf ∧ q.loc = "error-info" then (.ok (), s) else (do skip; skipToInfoEnd n : P Unit) s
    | _ => (do skip; skipToInfoEnd n : P Unit) s

/-- `ErrorInfo::xml_deserialize`, `P:1870-1899` -/
def readErrorInfo : P ErrorInfo := do
  let _ ← openTag nsNetconf "error-info"
  if ← opens nsNetconf "session-id" then
    let n ← lift .int (readU32 (← tagString))
    close
    close
    return .sessionId n
  else
    let vs ← collect readInfoValue
    fun s => skipToInfoEnd (s.evs.length + 1) s
    close
    return .values vs

/-- `ErrorMessage::xml_deserialize`, `P:1575-1587` -/
def readErrorMessage : P Text := do
  skipText
  let _ ← openTag nsNetconf "error-message"
  let t ← tagString
  close
  return t

/-- what is read if the current tag is of a name, as in `P:1507-1509` -/
def ifTag {α : Type} (tag : String) (p : P α) : P (Option α) := do
  if ← isTag nsNetconf tag then some <$> p else return none

/-- `RpcError::xml_deserialize`, `P:1487-1518` -/
def readRpcError : P RpcError := do
  let _ ← openTag nsNetconf "rpc-error"
  let ty ← readExact "error-type" ErrorType.names
  let tag ← readExact "error-tag" ErrorTag.names
  let sev ← readExact "error-severity" Severity.names
  let app ← readOptional "error-app-tag"
  let path ← readOptional "error-path"
  skipText
  let msg ← ifTag "error-message" readErrorMessage
  skipText
  let info ← ifTag "error-info" readErrorInfo
  close
  return ⟨ty, tag, sev, app, path, msg, info⟩

/-- `ErrorInfoValue::xml_serialize`, `P:2012-2055` -/
def writeInfoValue (v : InfoValue) : W Unit := do
  writeOpt (fun t => leaf "bad-attribute" (asIs t)) v.badAttribute
  writeOpt (fun t => leaf "bad-element" (asIs t)) v.badElement
  writeOpt (fun t => leaf "ok-element" (asIs t)) v.okElement
  writeOpt (fun t => leaf "err-element" (asIs t)) v.errElement
  writeOpt (fun t => leaf "noop-element" (asIs t)) v.noopElement
  writeOpt (fun t => leaf "bad-namespace" (asIs t)) v.badNamespace

/-- `ErrorInfo::xml_serialize`, `P:1901-1927` -/
def writeErrorInfo (i : ErrorInfo) : W Unit := around "error-info" (
  match i with
  | .sessionId n => leaf "session-id" (written (decimal n.toNat))
  | .values vs => writeAll writeInfoValue vs)

/-- `RpcError::xml_serialize`, `P:1520-1557`, with `P:1589-1602`, `P:1653-1664`, `P:1762-1773` and `P:1819-1830` -/
def writeRpcError (e : RpcError) : W Unit := around "rpc-error" (do
  leaf "error-type" (asIs e.type.name.toList)
  leaf "error-tag" (asIs e.tag.name.toList)
  leaf "error-severity" (asIs e.severity.name.toList)
  writeOpt (fun t => leaf "error-app-tag" (asIs t)) e.appTag
  writeOpt (fun t => leaf "error-path" (asIs t)) e.path
  writeOpt (fun t => leaf "error-message" (asIs t)) e.message
  writeOpt writeErrorInfo e.info)

/-- `str::replace` of a text that is not empty: the number is of the characters of an occurrence that are still to be passed -/
def replaceGo (old new : Text) : Nat → Text → Text
  | _, [] => []
  | k + 1, _ :: cs => replaceGo old new k cs
  | 0, c :: cs => if old.isPrefixOf (c :: cs) then new ++ replaceGo old new (old.length - 1) cs else c :: replaceGo old new 0 cs

/-- `str::replace` -/
def replaceAll (old new t : Text) : Text := replaceGo old new 0 t

/-- `decode_html_entities`, `P:33-44` -/
def decodeEntities (t : Text) : Text :=
  let r (o : String) (n : Char) (t : Text) : Text := replaceAll o.toList [n] t
  r "&#62;" '>' (r "&#60;" '<' (r "&#38;" '&' (r "&#39;" '\'' (r "&#34;" '"' (r "&gt;" '>' (r "&lt;" '<' (r "&amp;" '&' (r "&apos;" '\'' (r "&quot;" '"' t)))))))))

/-- `WellKnownRpcResponse::xml_deserialize`, `P:1325-1356` -/
def readResponse {Y : Type} (lib : Library Y) : P (Response Y) := do
  skipText
  if (← maybeOpen nsMonitoring "data").isSome then
    let t ← tagString
    close
    return .yangSchema (decodeEntities t)
  else if (← maybeOpen nsNetconf "data").isSome then
    skipText
    if ← isTag nsYangLibrary "yang-library" then
      return .yangLibrary (← lib.read)
    else
      let c ← copyTill "data"
      close
      return .data c
  else raise .recoverable

/-- `WellKnownRpcResponse::xml_serialize`, `P:1358-1399` -/
def writeResponse {Y : Type} (lib : Library Y) : Response Y → W Unit
  | .yangSchema t => within nsMonitoring (leafNs nsMonitoring "data" (written t))
  | .yangLibrary y => around "data" (lib.write y)
  | .data c => leaf "data" c

/-- `RpcReply::xml_deserialize`, `P:1171-1199` -/
def readReply {Y : Type} (lib : Library Y) : P (Reply Y) := do
  skipText
  let as ← openTag nsNetconf "rpc-reply"
  let id ← messageId as
  if ← opens nsNetconf "ok" then
    close
    return ⟨id, .ok⟩
  else
    let errors ← collectTag nsNetconf "rpc-error" readRpcError
    let r ← fun s =>
      match readResponse lib s with
      | (.ok r, s') => (.ok (RpcResponse.wellKnown r), s')
      | (.err .recoverable, s') => (do return RpcResponse.raw (← copyTill "rpc-reply") : P (RpcResponse Y)) s'
      | (.err e, s') => (.err e, s')
      | (.fault f, s') => (.fault f, s')
    close
    return ⟨id, .errorsAndData errors r⟩

/-- `RpcReply::xml_serialize`, `P:1201-1237` -/
def writeReply {Y : Type} (lib : Library Y) (r : Reply Y) : W Unit := do
  let e ← createElement "rpc-reply"
  write [.start e.1 (e.2 ++ (match r.messageId with | some v => [⟨⟨none, "message-id"⟩, some (escape v)⟩] | none => []))]
  match r.reply with
  | .ok => do
    let o ← createElement "ok"
    write [.empty o.1 o.2]
  | .errorsAndData es rs => do
    writeAll writeRpcError es
    match rs with
    | .raw c => write c
    | .wellKnown w => writeResponse lib w
  write [.close e.1]

/-! ## Messages -/

/-- `NetConfMessage`, `P:47-51` -/
inductive Message (D Y : Type) where
  | hello (h : Hello D)
  | rpc (r : Rpc)
  | reply (r : Reply Y)

/-- `NetConfMessage::xml_deserialize`, `P:53-77` -/
def readMessage {D Y : Type} (dates : Dates D) (lib : Library Y) : P (Message D Y) := do
  skipDecl
  skipText
  fun s =>
    match s.evs with
    | ⟨.start q _, _⟩ :: _ =>
      if q.loc = "hello" then (Message.hello <$> readHello dates) s
      else if q.loc = "rpc" then (Message.rpc <$> readRpc) s
      else if q.loc = "rpc-reply" then (Message.reply <$> readReply lib) s
      else (.err .invalidValue, s)
    | _ => (.err (.wrongToken "<hello>, <rpc>, or <rpc-reply>"), s)

/-- `NetConfMessage::xml_serialize`, `P:79-87` -/
def writeMessage {D Y : Type} (dates : Dates D) (lib : Library Y) : Message D Y → W Unit
  | .hello h => writeHello dates h
  | .rpc r => writeRpc r
  | .reply r => writeReply lib r

/-- a message that is written by `XmlWriter::new` and read again -/
def again {D Y : Type} (dates : Dates D) (lib : Library Y) (m : Message D Y) : Option (Res PErr (Message D Y)) :=
  (output (writeMessage dates lib m) .new).map fun rs => run (readMessage dates lib) (annotate [] rs)

end Verif.Xml
