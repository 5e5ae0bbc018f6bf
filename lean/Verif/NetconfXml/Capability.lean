import Verif.Collector.MapText
/-!
# Capabilities

`C` stands for `crates/netconf-proto/src/capabilities.rs`. How chrono reads and writes a date is a parameter. The texts of errors are left out.
-/
namespace Verif.Xml
open Verif.Collector (Text splitAt splitOnce trim)

/-- `chrono::NaiveDate` with `from_str` and `Display` -/
structure Dates (D : Type) where
  parse : Text → Option D
  show' : D → Text

/-- `UrlScheme`, `C:429-447` -/
inductive Scheme where
  | http | https | ftp | sftp | file | scp
  deriving DecidableEq, Repr

/-- `Display` of `UrlScheme`, `C:429-447` -/
def Scheme.name : Scheme → String
  | .http => "http" | .https => "https" | .ftp => "ftp" | .sftp => "sftp" | .file => "file" | .scp => "scp"

def Scheme.all : List Scheme := [.http, .https, .ftp, .sftp, .file, .scp]

/-- a scheme, `C:131-143` -/
def Scheme.read (t : Text) : Option Scheme := Scheme.all.find? fun s => s.name.toList == t

/-- `StandardCapability`, `C:350-367`, without `Url` -/
inductive Std where
  | writableRunning | candidate | confirmedCommit10 | confirmedCommit11 | rollbackOnError | validate10 | validate11 | startup | xpath | notification
  | interleave | partialLock | withDefaults | time | withOperationalDefaults
  deriving DecidableEq, Repr

/-- `Capability`, `C:52-67`, `NetconfVersion`, `C:320-325`, `YangLibrary`, `C:329-345`, and `YangCapability`, `C:451-457` -/
inductive Cap (D : Type) where
  | base10
  | base11
  | library10 (revision : D) (moduleSetId : Text)
  | library11 (revision : D) (contentId : Text)
  | std (s : Std)
  | url (schemes : List Scheme)
  | yang (urn name : Text) (revision : Option D) (features deviations : List Text)
  | custom (t : Text)
  deriving DecidableEq, Repr

/-- the names of capabilities without parameters, `C:23-43` and `C:369-424` -/
def Std.name : Std → String
  | .writableRunning => "urn:ietf:params:netconf:capability:writable-running:1.0"
  | .candidate => "urn:ietf:params:netconf:capability:candidate:1.0"
  | .confirmedCommit10 => "urn:ietf:params:netconf:capability:confirmed-commit:1.0"
  | .confirmedCommit11 => "urn:ietf:params:netconf:capability:confirmed-commit:1.1"
  | .rollbackOnError => "urn:ietf:params:netconf:capability:rollback-on-error:1.0"
  | .validate10 => "urn:ietf:params:netconf:capability:validate:1.0"
  | .validate11 => "urn:ietf:params:netconf:capability:validate:1.1"
  | .startup => "urn:ietf:params:netconf:capability:startup:1.0"
  | .xpath => "urn:ietf:params:netconf:capability:xpath:1.0"
  | .notification => "urn:ietf:params:netconf:capability:notification:1.0"
  | .interleave => "urn:ietf:params:netconf:capability:interleave:1.0"
  | .partialLock => "urn:ietf:params:netconf:capability:partial-lock:1.0"
  | .withDefaults => "urn:ietf:params:netconf:capability:with-defaults:1.0"
  | .time => "urn:ietf:params:netconf:capability:time:1.0"
  | .withOperationalDefaults => "urn:ietf:params:netconf:capability:with-operational-defaults:1.0"

def Std.all : List Std :=
  [.writableRunning, .candidate, .confirmedCommit10, .confirmedCommit11, .rollbackOnError, .validate10, .validate11, .startup, .xpath, .notification,
   .interleave, .partialLock, .withDefaults, .time, .withOperationalDefaults]

def nameBase10 : Text := "urn:ietf:params:netconf:base:1.0".toList
def nameBase11 : Text := "urn:ietf:params:netconf:base:1.1".toList
/-- `CAP_URL`, `C:31` -/
def nameUrl : Text := "urn:ietf:params:netconf:capability:url:1.0".toList
/-- `CAP_YANG_LIBRARY_V_1_0`, `C:40` -/
def nameLibrary10 : Text := "urn:ietf:params:netconf:capability:yang-library:1.0".toList
/-- `CAP_YANG_LIBRARY_V_1_1`, `C:41` -/
def nameLibrary11 : Text := "urn:ietf:params:netconf:capability:yang-library:1.1".toList

/-- the capabilities that are recognised by their whole text, `C:96-119` -/
def exactCap {D : Type} (t : Text) : Option (Cap D) :=
  if t = nameBase10 then some .base10
  else if t = nameBase11 then some .base11
  else (Std.all.find? fun s => s.name.toList == t).map .std

/-- `str::strip_prefix` -/
def stripPre (p t : Text) : Option Text := if p.isPrefixOf t then some (t.drop p.length) else none

/-- the schemes, or an error, `C:130-145` -/
def readSchemes : List Text → Option (List Scheme)
  | [] => some []
  | t :: ts => (Scheme.read t).bind fun s => (readSchemes ts).map (s :: ·)

/-- the parameters of the capabilities of YANG library, `C:160-183` and `C:202-225`: those without `=` are passed over, and others than the two are errors -/
def libraryParams {D : Type} (dates : Dates D) (key : String) : List Text → Option D → Option Text → Option (Option D × Option Text)
  | [], r, i => some (r, i)
  | p :: ps, r, i =>
    match splitOnce '=' p with
    | none => libraryParams dates key ps r i
    | some (k, v) =>
      if k = "revision".toList then (dates.parse v).bind fun d => libraryParams dates key ps (some d) i
      else if k = key.toList then libraryParams dates key ps r (some v)
      else none

/-- what is gathered of a YANG capability, `C:245-248` -/
structure YangParams (D : Type) where
  name : Option Text := none
  revision : Option D := none
  features : List Text := []
  deviations : List Text := []

/-- the parameters of a YANG capability, `C:250-273`: the outer `none` is an error, the inner one an unknown parameter, which makes the capability custom -/
def yangParams {D : Type} (dates : Dates D) : List Text → YangParams D → Option (Option (YangParams D))
  | [], y => some (some y)
  | p :: ps, y =>
    match splitOnce '=' p with
    | none => yangParams dates ps y
    | some (k, v) =>
      if k = "module".toList then yangParams dates ps { y with name := some v }
      else if k = "revision".toList then (dates.parse v).bind fun d => yangParams dates ps { y with revision := some d }
      else if k = "features".toList then yangParams dates ps { y with features := splitAt (· == ',') v }
      else if k = "deviations".toList then yangParams dates ps { y with deviations := splitAt (· == ',') v }
      else some none

/-- the capability of a YANG module or a custom one, `C:235-285` -/
def readModule {D : Type} (dates : Dates D) (s : Text) : Option (Cap D) :=
  let cap := trim s
  if "urn".toList.isPrefixOf cap || "http://".toList.isPrefixOf cap || "https://".toList.isPrefixOf cap then
    match splitOnce '?' cap with
    | none => some (.custom s)
    | some (urn, params) =>
      match yangParams dates (splitAt (· == '&') params) {} with
      | none => none
      | some none => some (.custom s)
      | some (some y) => y.name.map fun n => .yang urn n y.revision y.features y.deviations
  else some (.custom s)

/-- a capability of YANG library, `C:151-192` and `C:193-234` -/
def readLibrary {D : Type} (dates : Dates D) (pre : Text) (key : String) (mk : D → Text → Cap D) (s : Text) : Option (Cap D) :=
  ((stripPre pre s).bind (stripPre ['?'])).bind fun params =>
    (libraryParams dates key (splitAt (· == '&') params) none none).bind fun x => x.1.bind fun d => x.2.map (mk d)

/-- `Capability::from_str`, `C:92-288`; `none` is an error -/
def Cap.read {D : Type} (dates : Dates D) (s : Text) : Option (Cap D) :=
  match exactCap (trim s) with
  | some c => some c
  | none =>
    if nameUrl.isPrefixOf s then
      ((stripPre nameUrl (trim s)).bind (stripPre "?scheme=".toList)).bind fun t => (readSchemes (splitAt (· == ',') t)).map .url
    else if nameLibrary10.isPrefixOf s then readLibrary dates nameLibrary10 "module-set-id" .library10 s
    else if nameLibrary11.isPrefixOf s then readLibrary dates nameLibrary11 "content-id" .library11 s
    else readModule dates s

/-- `join` -/
def joined (sep : Text) (ts : List Text) : Text := List.intercalate sep ts

/-- `Display` of `Capability`, `C:52-67`, `C:320-345`, `C:369-424` and `C:493-520` -/
def Cap.show' {D : Type} (dates : Dates D) : Cap D → Text
  | .base10 => nameBase10
  | .base11 => nameBase11
  | .library10 r i => nameLibrary10 ++ "?revision=".toList ++ dates.show' r ++ "&module-set-id=".toList ++ i
  | .library11 r i => nameLibrary11 ++ "?revision=".toList ++ dates.show' r ++ "&content-id=".toList ++ i
  | .std s => s.name.toList
  | .url ss => nameUrl ++ "?scheme=".toList ++ joined [','] (ss.map fun s => s.name.toList)
  | .yang urn n r fs ds =>
    urn ++ ['?'] ++ joined ['&']
      (["module=".toList ++ n] ++ (match r with | some d => ["revision=".toList ++ dates.show' d] | none => []) ++
       (if fs.isEmpty then [] else ["features=".toList ++ joined [','] fs]) ++ (if ds.isEmpty then [] else ["deviations=".toList ++ joined [','] ds]))
  | .custom t => t

end Verif.Xml
