import Verif.YangPush.Validation
/-!
# What the validation of YANG push notifications is to do

The words the theorems are stated with. They speak of the events and of what is sent, not of what the actor remembers.
-/
namespace Verif.YangPush.Notif
open Collector

variable {A X P L C : Type}

/-- a packet from a peer about a subscription -/
def About (env : Env X P L C) (r : Request A P) (ip : A) (id : UInt32) : Prop :=
  r.peer.ip = ip ∧ ∃ d k, env.decode r.packet = some d ∧ d.contents = some k ∧ k.id = id

/-- a packet that starts or modifies a subscription, as `s` says -/
def Begins (env : Env X P L C) (r : Request A P) (s : Started X) : Prop :=
  ∃ d, env.decode r.packet = some d ∧ (d.contents = some (.started s) ∨ d.contents = some (.modified s))

/-- a packet describes a subscription: it starts or modifies it and names its modules. One more is added to them, that of subscribed notifications. -/
def Describes (env : Env X P L C) (r : Request A P) (info : SubInfo A X) : Prop :=
  ∃ s modules, Begins env r s ∧ s.modules = some modules ∧ info.collector = r.collector ∧ info.interface = r.interface ∧ info.peer = r.peer ∧ info.id = s.id ∧
    info.target = s.target ∧ info.stopTime = s.stopTime ∧ info.transport = s.transport ∧ info.encoding = s.encoding ∧ info.purpose = s.purpose ∧
    info.trigger = s.trigger ∧ info.models = modules ++ [⟨"ietf-subscribed-notifications", none, none⟩] ∧ info.contentId = s.contentId.getD ""

/-- a packet that starts or modifies a subscription without naming its modules -/
def Nameless (env : Env X P L C) (r : Request A P) : Prop := ∃ s, Begins env r s ∧ s.modules = none

/-- two descriptions of one subscription: they may differ in the port of the peer and in where the packets came to -/
def Alike (a b : SubInfo A X) : Prop :=
  a.peer.ip = b.peer.ip ∧ a.id = b.id ∧ a.target = b.target ∧ a.stopTime = b.stopTime ∧ a.transport = b.transport ∧ a.encoding = b.encoding ∧
    a.purpose = b.purpose ∧ a.trigger = b.trigger ∧ a.models = b.models ∧ a.contentId = b.contentId

/-- a response about a subscription of a peer -/
def For (resp : Response A X L) (ip : A) (id : UInt32) : Prop := resp.info.peer.ip = ip ∧ resp.info.id = id

/-- the last response about a subscription of a peer -/
def LastFor (es : List (Event A X P L)) (ip : A) (id : UInt32) (resp : Response A X L) : Prop :=
  ∃ before after, es = before ++ .response resp :: after ∧ For resp ip id ∧ ∀ other, .response other ∈ after → ¬ For other ip id

/-- the last description of a subscription of a peer -/
def LastDescribed (env : Env X P L C) (es : List (Event A X P L)) (ip : A) (id : UInt32) (info : SubInfo A X) : Prop :=
  ∃ before after r, es = before ++ .packet r :: after ∧ Describes env r info ∧ info.peer.ip = ip ∧ info.id = id ∧
    ∀ r' info', .packet r' ∈ after → Describes env r' info' → ¬ (info'.peer.ip = ip ∧ info'.id = id)

/-- a history in which a subscription of a peer is always described as `info` says: the first packet about it describes it, and other descriptions and responses are alike -/
def SteadyFor (env : Env X P L C) (es : List (Event A X P L)) (ip : A) (id : UInt32) (info : SubInfo A X) : Prop :=
  (∀ r i, .packet r ∈ es → Describes env r i → i.peer.ip = ip → i.id = id → Alike i info) ∧ (∀ resp, .response resp ∈ es → For resp ip id → Alike resp.info info) ∧
  (∀ before r after, es = before ++ .packet r :: after → About env r ip id → (∀ r', .packet r' ∈ before → ¬ About env r' ip id) → ∃ i, Describes env r i)

/-- a history in which each subscription is always described in the same way -/
def Steady (env : Env X P L C) (es : List (Event A X P L)) : Prop := ∀ ip id, ∃ info, SteadyFor env es ip id info

/-- the schemas of a response allow the payload of a packet -/
def Allows (env : Env X P L C) (resp : Response A X L) (d : Decoded X) (packet : P) : Prop :=
  ∃ lib ctx, resp.library = some lib ∧ env.load lib = some ctx ∧ (if d.legacy then env.parseOp ctx packet else env.parse ctx packet) = true

/-- the notifications that are received -/
def received (env : Env X P L C) : List (Event A X P L) → List (Decoded X)
  | [] => []
  | .packet r :: es => (env.decode r.packet).toList ++ received env es
  | .response _ :: es => received env es

/-- the notifications that are forwarded -/
def forwarded : List (Output A X P) → List (Decoded X)
  | [] => []
  | .forward _ _ d :: os => d :: forwarded os
  | _ :: os => forwarded os

/-- the notifications that are dropped with a warning -/
def reported (env : Env X P L C) : List (Output A X P) → List (Decoded X)
  | [] => []
  | .dropped _ r :: os => (env.decode r.packet).toList ++ reported env os
  | _ :: os => reported env os

/-- the packets that are held until there is a response -/
def held (c : PeerCache A X P C) : List (Request A P) := c.flatMap fun x => x.2.flatMap fun y => y.2.packets

/-- the notifications that are held -/
def waiting (env : Env X P L C) (c : PeerCache A X P C) : List (Decoded X) := (held c).filterMap fun r => env.decode r.packet

/-- the peer that something sent is about -/
def _root_.Verif.YangPush.Output.peer : Output A X P → A
  | .lookupInfo info => info.peer.ip
  | .lookupId _ _ peer _ => peer.ip
  | .forward _ info _ => info.peer.ip
  | .dropped _ r => r.peer.ip

/-- the peer that something received is about -/
def _root_.Verif.YangPush.Event.peer : Event A X P L → A
  | .packet r => r.peer.ip
  | .response resp => resp.info.peer.ip

/-- whether something sent is a lookup of a subscription of a peer -/
def _root_.Verif.YangPush.Output.looksUp [DecidableEq A] (ip : A) (id : UInt32) : Output A X P → Bool
  | .lookupInfo info => info.peer.ip = ip ∧ info.id = id
  | .lookupId _ _ peer i => peer.ip = ip ∧ i = id
  | .forward _ _ _ => false
  | .dropped _ _ => false

variable [DecidableEq A] [DecidableEq X]

/-- what is remembered after the events -/
def after (env : Env X P L C) (es : List (Event A X P L)) : PeerCache A X P C := (validationRun env [] es).1

/-- what is sent with an event, after those that came before -/
def sentWith (env : Env X P L C) (es : List (Event A X P L)) (e : Event A X P L) : List (Output A X P) := (step env (after env es) e).2

/-- all that is sent -/
def sent (env : Env X P L C) (es : List (Event A X P L)) : List (Output A X P) := (validationRun env [] es).2

end Verif.YangPush.Notif
