import Verif.NetconfClient.Client
import Verif.NetconfXml.Filters
/-!
# How the NETCONF client gets subscriptions and filters

`N` stands for `crates/netconf-proto/src/client.rs`. In `Client.lean` what is read from the data of replies is a parameter; here it is what the readers of subscriptions and of filters take from it. Data are the events
that quick-xml gives for them, with white space at the ends of texts left out, `N:736-737` and `N:776-777`. A reader that would not come to an end is taken for one that fails.
-/
namespace Verif.NcClient
open Verif.Xml
open Verif.Collector (Text)

/-- `XmlParser::new`, and what is read -/
def parsed {D α : Type} (p : P α) (c : List Raw) : Client D (α × St) :=
  if headBad (annotate [] c) then fail .parsing
  else
    match p ⟨annotate [] c, []⟩ with
    | (.ok a, s) => pure (a, s)
    | _ => fail .parsing

/-- `get_yang_push_filters`, `N:716-747`; what is cached is never set, `N:405-406` -/
def pushFilters {D : Type} : Client D FilterSet := do
  match ← ask (.wellKnown (.get (.subtree [.empty ⟨none, "filters"⟩ [⟨⟨none, "xmlns"⟩, some nsSub⟩]]))) with
  | some (.wellKnown (.data c)) => do
    let f ← parsed readFilters c
    return f.1
  | _ => fail .unexpected

/-- the filter of a name among those of datastores, `N:785` -/
def filterNamed (f : FilterSet) (name : Text) : Option NamedFilter := (f.selections.find? fun b => b.1 = name).map Prod.snd

/-- a reference to a filter of a datastore is replaced with the filter, `N:781-797`; one of a stream stays -/
def replaced {D : Type} (s : Subscription) : Client D Subscription :=
  match s.target with
  | .datastore store (.byReference name) => do
    let fs ← pushFilters
    match filterNamed fs name with
    | some f => return { s with target := .datastore store (.inline f.spec) }
    | none => return s
  | _ => pure s

/-- the tag of subscriptions and the first of them, `N:778-780`; another tag is `WrongToken`, `N:801-807` -/
def readFirst (k : Clock) : P Subscription := do
  if ← isTag nsSub "subscriptions" then
    let _ ← openTag nsSub "subscriptions"
    readSubscription k
  else fun s => (.err (.wrongToken "subscriptions"), s)

/-- `get_yang_push_subscription_by_id`, `N:749-814`: the closing tag is read when the filter is there, `N:799` -/
def pushSubscription {D : Type} (k : Clock) (id : Nat) : Client D Subscription := do
  match ← ask (.wellKnown (.get (.subtree (subscriptionSubtree id)))) with
  | some (.wellKnown (.data c)) => do
    let f ← parsed (readFirst k) c
    let s ← replaced f.1
    match close f.2 with
    | (.ok _, _) => return s
    | _ => fail .parsing
  | _ => fail .unexpected

end Verif.NcClient
