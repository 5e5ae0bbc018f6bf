import Verif.YangPush.CacheActor
import Verif.YangPush.StorageSettled
import Verif.YangPush.ValidationSpec
/-! # What the actor of the cache is to do -/
namespace Verif.YangPush.Cache
open Collector Notif

variable {A X S : Type}

/-- fetchers are honest, with whatever happens -/
def HonestEvent : Event A X S → Prop
  | .lookupInfoOnce i _ r => Honest (.info i) r
  | .lookupIdOnce c f p n _ r => Honest (.id c f p n) r
  | .ended job (some r) => Honest job r
  | _ => True

section Counts
variable [DecidableEq S]

/-- one for each lookup of one who asks -/
def asks (s : S) : Event A X S → Nat
  | .lookupInfo _ t _ => if t = s then 1 else 0
  | .lookupInfoOnce _ t _ => if t = s then 1 else 0
  | .lookupId _ _ _ _ t _ => if t = s then 1 else 0
  | .lookupIdOnce _ _ _ _ t _ => if t = s then 1 else 0
  | .lookupContent _ t => if t = s then 1 else 0
  | _ => 0

/-- one for each answer to one who asks -/
def tells (s : S) : Out A X S → Nat
  | .answer t _ => if t = s then 1 else 0
  | .content t _ _ => if t = s then 1 else 0
  | .fetch _ => 0

/-- the number of lookups -/
def asked (s : S) (es : List (Event A X S)) : Nat := (es.map (asks s)).sum

/-- the number of answers -/
def told (s : S) (os : List (Out A X S)) : Nat := (os.map (tells s)).sum

end Counts

/-- what happens does not lose the lookups of `s`: its workers are started in time, it does not ask by number over a one-shot channel, and it is not closed -/
def Lossless (s : S) : Event A X S → Prop
  | .lookupInfo _ t starts => t = s → starts = true
  | .lookupId _ _ _ _ t starts => t = s → starts = true
  | .lookupIdOnce _ _ _ _ t _ => t ≠ s
  | .cleanup closed => s ∉ closed
  | _ => True

/-- no worker panics -/
def NoPanic : Event A X S → Prop
  | .ended _ none => False
  | _ => True

/-- nothing makes those who wait be forgotten while a worker is at work for them: nobody is removed as closed, and one-shot lookups do not fail. Those who ask with a description
have one. -/
def Orderly : Event A X S → Prop
  | .cleanup _ => False
  | .lookupInfo i _ _ => i.contentId ≠ "EMPTY"
  | .lookupInfoOnce _ _ (.failed _) => False
  | .lookupIdOnce _ _ _ _ _ (.failed _) => False
  | _ => True

/-- not a one-shot lookup -/
def Queued : Event A X S → Prop
  | .lookupInfoOnce _ _ _ => False
  | .lookupIdOnce _ _ _ _ _ _ => False
  | _ => True

/-- nothing is removed -/
def NoDrops (h : List (StoreOp A X)) : Prop := (∀ cid, StoreOp.dropContent cid ∉ h) ∧ ∀ i, StoreOp.dropInfo i ∉ h

/-- a library was put for a description, before or as a worker brought it -/
def Brought (h : List (StoreOp A X)) (es : List (Event A X S)) (i : SubInfo A X) (l : Library) (schemas : List (String × String)) : Prop :=
  .put i l schemas ∈ h ∨ (∃ job, .ended job (some (.fetched i l schemas)) ∈ es) ∨ (∃ j s, .lookupInfoOnce j s (.fetched i l schemas) ∈ es) ∨
    ∃ c f p n s, .lookupIdOnce c f p n s (.fetched i l schemas) ∈ es

/-- a worker failed for a description -/
def Failed (es : List (Event A X S)) (i : SubInfo A X) : Prop :=
  (∃ job, .ended job (some (.failed i)) ∈ es) ∨ (∃ j s, .lookupInfoOnce j s (.failed i) ∈ es) ∨ ∃ c f p n s, .lookupIdOnce c f p n s (.failed i) ∈ es

/-- one asked for what an answer is about: for a description that is alike, or for a number of a peer -/
def Wanted (es : List (Event A X S)) (s : S) (info : SubInfo A X) : Prop :=
  (∃ i b, .lookupInfo i s b ∈ es ∧ (Alike info i ∨ i.contentId = "EMPTY" ∧ info.peer.ip = i.peer.ip ∧ info.id = i.id)) ∨
  (∃ i r, .lookupInfoOnce i s r ∈ es ∧ Alike info i) ∨
  (∃ c f p n b, .lookupId c f p n s b ∈ es ∧ info.peer.ip = p.ip ∧ info.id = n) ∨
  ∃ c f p n r, .lookupIdOnce c f p n s r ∈ es ∧ info.peer.ip = p.ip ∧ info.id = n

/-- an answer fits: it was asked for, its library was put for a description that is alike, and if there is none a worker failed -/
def Fitting (h : List (StoreOp A X)) (es : List (Event A X S)) : Out A X S → Prop
  | .answer s resp => Wanted es s resp.info ∧ resp.contentId = resp.library.map (·.contentId) ∧ (resp.library = none → Failed es resp.info) ∧
      ∀ r, resp.library = some r → ∃ i l schemas, Brought h es i l schemas ∧ Alike i resp.info ∧ l.contentId = r.contentId
  | .content s contentId r => .lookupContent contentId s ∈ es ∧ ∀ r', r = some r' → r'.contentId = contentId ∧ ∃ i l schemas, Brought h es i l schemas ∧ l.contentId = contentId
  | .fetch job => (∃ i s b, .lookupInfo i s b ∈ es ∧ job = .info i) ∨ (∃ i s r, .lookupInfoOnce i s r ∈ es ∧ job = .info i) ∨
      (∃ c f p n s b, .lookupId c f p n s b ∈ es ∧ job = .id c f p n) ∨ ∃ c f p n s r, .lookupIdOnce c f p n s r ∈ es ∧ job = .id c f p n

end Verif.YangPush.Cache
