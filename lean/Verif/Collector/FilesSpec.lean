import Verif.Collector.FileInput
import Verif.Collector.OptionsSpec
/-!
# What files for the enrichment say

Texts are described by how they are put together; nothing here refers to the functions that take them apart. The types of the configuration and of what is found
at a path are those of the model.
-/
namespace Verif.Collector.MapFile
open Flow (Field Value Ie)
open Announce (Way iana)

/-- white space of Unicode -/
def Space (c : Char) : Prop :=
  c.toNat ∈ [0x9, 0xA, 0xB, 0xC, 0xD, 0x20, 0x85, 0xA0, 0x1680, 0x2000, 0x2001, 0x2002, 0x2003, 0x2004, 0x2005, 0x2006, 0x2007, 0x2008, 0x2009, 0x200A,
    0x2028, 0x2029, 0x202F, 0x205F, 0x3000]

/-- the number that digits denote -/
def worth : Text → Nat
  | [] => 0
  | c :: cs => (c.toNat - '0'.toNat) * 10 ^ cs.length + worth cs

/-- a number in decimal digits, perhaps with a plus sign and with leading zeros -/
def Decimal (t : Text) (n : Nat) : Prop := ∃ ds, ds ≠ [] ∧ (∀ c ∈ ds, '0' ≤ c ∧ c ≤ '9') ∧ (t = ds ∨ t = '+' :: ds) ∧ n = worth ds

/-- a number in a certain number of octets, the most significant one first -/
def octets : Nat → Nat → List UInt8
  | 0, _ => []
  | n + 1, v => octets n (v / 256) ++ [UInt8.ofNat v]

/-- an IPv4 address as four decimal numbers -/
def Quad (t : Text) (v : List UInt8) : Prop :=
  ∃ a b c d : UInt8, v = [a, b, c, d] ∧
    t = Nat.toDigits 10 a.toNat ++ '.' :: (Nat.toDigits 10 b.toNat ++ '.' :: (Nat.toDigits 10 c.toNat ++ '.' :: Nat.toDigits 10 d.toNat))

/-- route distinguishers of RFC 4364, section 4.2, as `type:administrator:number` and in octets -/
inductive Rd : Text → List UInt8 → Prop where
  | asn {k a n x y} : Decimal k 0 → Decimal a x → x < 2 ^ 16 → Decimal n y → y < 2 ^ 32 → Rd (k ++ ':' :: (a ++ ':' :: n)) (octets 2 0 ++ octets 2 x ++ octets 4 y)
  | ip {k a n v y} : Decimal k 1 → Quad a v → Decimal n y → y < 2 ^ 16 → Rd (k ++ ':' :: (a ++ ':' :: n)) (octets 2 1 ++ v ++ octets 2 y)
  | asn4 {k a n x y} : Decimal k 2 → Decimal a x → x < 2 ^ 32 → Decimal n y → y < 2 ^ 16 → Rd (k ++ ':' :: (a ++ ':' :: n)) (octets 2 2 ++ octets 4 x ++ octets 2 y)

/-- the words of a text -/
inductive Words : Text → List Text → Prop where
  | none {s} : (∀ c ∈ s, Space c) → Words s []
  | word {s w t ws} : (∀ c ∈ s, Space c) → w ≠ [] → (∀ c ∈ w, ¬ Space c) → (∀ c, t.head? = some c → Space c) → Words t ws → Words (s ++ (w ++ t)) (w :: ws)

/-- a word `key=value` -/
def setting (key : String) (value : Text) : Text := key.toList ++ '=' :: value

/-- the last value that is given to a key -/
def Given (ws : List Text) (key : String) (value : Text) : Prop :=
  ∃ before after, ws = before ++ setting key value :: after ∧ ∀ v, setting key v ∉ after

/-- no value is given to a key -/
def Absent (ws : List Text) (key : String) : Prop := ∀ v, setting key v ∉ ws

variable {A κ : Type}

/-- a word that is no setting, or a setting that is known and has a value of its kind -/
def Sound (addr : Text → Option A) (w : Text) : Prop :=
  '=' ∉ w ∨ (∃ v, w = setting "id" v) ∨ (∃ v a, w = setting "ip" v ∧ addr v = some a) ∨
  ∃ key ∈ ["in", "out", "mpls_vpn_id"], ∃ v n, w = setting key v ∧ Decimal v n ∧ n < 2 ^ 32

/-- at most one scope is given, and it is this one -/
def Scoped (ws : List Text) (s : Option MapScope) : Prop :=
  match s with
  | none => Absent ws "in" ∧ Absent ws "out" ∧ Absent ws "mpls_vpn_id"
  | some (.into n) => (∃ v, Given ws "in" v ∧ Decimal v n.toNat) ∧ Absent ws "out" ∧ Absent ws "mpls_vpn_id"
  | some (.out n) => Absent ws "in" ∧ (∃ v, Given ws "out" v ∧ Decimal v n.toNat) ∧ Absent ws "mpls_vpn_id"
  | some (.vpn n) => Absent ws "in" ∧ Absent ws "out" ∧ ∃ v, Given ws "mpls_vpn_id" v ∧ Decimal v n.toNat

/-- a line of a map gives an identifier to flows from an exporter -/
def Assigns (addr : Text → Option A) (line id : Text) (ip : A) (s : Option MapScope) : Prop :=
  ∃ w ws, Words line (w :: ws) ∧ w.head? ≠ some '!' ∧ w.head? ≠ some '#' ∧ (∀ w' ∈ w :: ws, Sound addr w') ∧
    Given (w :: ws) "id" id ∧ (∃ v, Given (w :: ws) "ip" v ∧ addr v = some ip) ∧ Scoped (w :: ws) s

/-- the flows of a scope: the fields that they have, and for packets on which way the identifier is -/
def flowsOf : Option MapScope → List (Option (List Field) × Option Way)
  | none => [(none, none)]
  | some (.into n) => [(some [.known 0 10 (.unsigned32 n)], some .ingress)]
  | some (.out n) => [(some [.known 0 14 (.unsigned32 n)], some .egress)]
  | some (.vpn n) => [(some [.known 0 234 (.unsigned32 n)], some .ingress), (some [.known 0 235 (.unsigned32 n)], some .egress)]

/-- the field that an identifier becomes: a route distinguisher, under the element for the way if there is one, or the interval of a sampler -/
inductive Becomes : Ie → Text → Option Way → Field → Prop where
  | rd {id v} : Rd id v → Becomes (iana 90 .octetArray) id none (.known 0 90 (.octetArray v))
  | rdOn {id v way} : Rd id v → Becomes (iana 90 .octetArray) id (some way) (.known 3746 (Way.pick 14 15 way) (.octetArray v))
  | sampler {id way} {n : UInt32} : Decimal id n.toNat → Becomes (iana 50 .unsigned32) id way (.known 0 50 (.unsigned32 n))

/-- a line of a file brings this upsert -/
inductive Brings (addr : Text → Option A) (json : Text → Option (A × Scope Field × UInt8 × List Field)) : FileFormat → Text → Op A Field Ie → Prop where
  | json {l ip s w fs} : json l = some (ip, s, w, fs) → fs ≠ [] → Brings addr json .flowUpserts l (.upsert ip s w fs)
  | map {ie weight l id ip s fs way f} : Assigns addr l id ip s → (fs, way) ∈ flowsOf s → Becomes ie id way f →
      Brings addr json (.pmacctMaps ie weight) l (.upsert ip ⟨0, fs⟩ weight [f])

/-- a line of a text, without the white space around it; comments are no lines, nor is nothing -/
def LineOf (t l : Text) : Prop :=
  (∃ a s s' b, t = a ++ (s ++ l ++ s') ++ b ∧ '\n' ∉ s ++ l ++ s' ∧ (∀ c, a.getLast? = some c → c = '\n') ∧ (∀ c, b.head? = some c → c = '\n') ∧
    (∀ c ∈ s ++ s', Space c)) ∧
  l ≠ [] ∧ (∀ c, l.head? = some c → ¬ Space c ∧ c ≠ '#' ∧ c ≠ '!') ∧ (∀ c, l.getLast? = some c → ¬ Space c) ∧ ¬ ['/', '/'] <+: l

variable [DecidableEq κ]

/-- what there is at a path, after all that was told -/
def latest (found : κ → Found) (es : List (κ × Notice)) (path : κ) : Found :=
  es.foldl (fun f e => if e.1 = path then (match e.2 with | .changed g => g | .removed => .nothing) else f) (found path)

/-- the line stands in a file of the configuration, which has this format -/
def Stands (config : List (κ × FileFormat)) (found : κ → Found) (es : List (κ × Notice)) (path : κ) (format : FileFormat) (l : Text) : Prop :=
  (path, format) ∈ config ∧ ∃ t, latest found es path = .content t ∧ LineOf t l

/-- the files bring the upsert now -/
def Now (addr : Text → Option A) (json : Text → Option (A × Scope Field × UInt8 × List Field)) (config : List (κ × FileFormat)) (found : κ → Found)
    (es : List (κ × Notice)) (path : κ) (l : Text) (o : Op A Field Ie) : Prop :=
  ∃ format, Stands config found es path format l ∧ Brings addr json format l o

/-- two upserts are about the same element for the same exporter, domain and scope -/
def Shares (o o' : Op A Field Ie) : Prop :=
  ∃ ip s w fs s' w' fs', o = .upsert ip s w fs ∧ o' = .upsert ip s' w' fs' ∧ s.domain = s'.domain ∧ s.fields.getD [] = s'.fields.getD [] ∧
    ∃ f ∈ fs, ∃ g ∈ fs', Field.ie f = Field.ie g

/-- different lines are never about the same at the same time -/
def Apart (addr : Text → Option A) (json : Text → Option (A × Scope Field × UInt8 × List Field)) (config : List (κ × FileFormat)) (found : κ → Found)
    (es : List (κ × Notice)) : Prop :=
  ∀ es', es' <+: es → ∀ path l o path' l' o', Now addr json config found es' path l o → Now addr json config found es' path' l' o' → Shares o o' →
    path = path' ∧ l = l'

/-- operations come in the order of two sources -/
inductive Interleave {α : Type} : List α → List α → List α → Prop where
  | nil : Interleave [] [] []
  | left {a l m n} : Interleave l m n → Interleave (a :: l) m (a :: n)
  | right {a l m n} : Interleave l m n → Interleave l (a :: m) (a :: n)

end Verif.Collector.MapFile
