import Verif.UdpNotif.Notification
import Verif.UdpNotif.JsonLemmas
/-!
# Notifications of YANG-Push as JSON
-/
namespace Verif.Props
open Verif.Notif

/-! ## Which values are written and read back -/

/-- dates can be read back -/
def GoodDates (d : Dates) : Prop := ∀ t, d.parse (d.text t) = some t

/-- fields that augment a structure: an object with each name once, and with none of some names -/
def Extra (names : List String) (j : Json) : Prop := ∃ x, j = .obj x ∧ norm (.obj x) = .obj x ∧ Free names x

/-- a value that is a field of its own: each name once, and not `null`, which is no value -/
def Value (o : Option Json) : Prop := ∀ j, o = some j → norm j = j ∧ j ≠ .null

/-- numbers of 32 bits -/
def Fits32 (o : Option Nat) : Prop := ∀ n, o = some n → n < 4294967296
/-- numbers of 8 bits -/
def Fits8 (o : Option Nat) : Prop := ∀ n, o = some n → n < 256

/-- a trigger whose numbers fit -/
def TriggerFits : Trigger → Prop
  | .periodic p _ => Fits32 p
  | .onChange p _ _ => Fits32 p

/-- a description of a subscription that is of its types -/
structure StartedFits (s : Started) : Prop where
  id : s.id < 4294967296
  subtree : Value s.target.streamSubtree
  dsSubtree : Value s.target.datastoreSubtree
  dscp : Fits8 s.dscp
  weighting : Fits8 s.weighting
  dependency : Fits32 s.dependency
  publishers : ∀ l, s.publishers = some l → ∀ n ∈ l, n < 4294967296
  trigger : ∀ t, s.trigger = some t → TriggerFits t
  extra : Extra (startedNames ++ targetNames) s.extra
  single : s.trigger = none → Extra triggerNames s.extra

/-- a notification that is of its types -/
def VariantFits : Variant → Prop
  | .started s => StartedFits s
  | .modified s => StartedFits s
  | .terminated t => t.id < 4294967296 ∧ Extra ["id", "reason"] t.extra
  | .update u => u.id < 4294967296 ∧ norm u.contents = u.contents ∧ Extra ["id", "datastore-contents"] u.extra
  | .change u => u.id < 4294967296 ∧ norm u.contents = u.contents ∧ Extra ["id", "datastore-changes"] u.extra

/-- a payload that is of its types -/
def PayloadFits : Payload → Prop
  | .envelope e => Fits32 e.sequence ∧ (∀ v, e.contents = some v → VariantFits v) ∧ Extra envelopeNames e.extra
  | .legacy l => (∀ v, l.notification = some v → VariantFits v) ∧ Extra legacyNames l.extra ∧ (l.notification = none → Extra variantNames l.extra)

/-! ## Fields -/

theorem readOpt_of {α : Type} {p : Json → Option α} {f : α → Json} {o : Option α} {n : List String} {m : Members} (h : valuesOf n m = (o.map f).toList) (hp : ∀ a, o = some a → p (f a) = some a ∧ f a ≠ .null) : readOpt p n m = some o := by
  unfold readOpt
  rw [h]
  cases o with
  | none => rfl
  | some a =>
    obtain ⟨h1, h2⟩ := hp a rfl
    show readNull p (f a) = _
    unfold readNull
    split
    · next e => exact absurd e h2
    · rw [h1]; rfl

theorem readReq_of {α : Type} {p : Json → Option α} {v : Json} {a : α} {n : List String} {m : Members} (h : valuesOf n m = [v]) (hp : p v = some a) : readReq p n m = some a := by
  unfold readReq; rw [h]; exact hp

theorem readNat_json {b n : Nat} (h : n < b) : readNat b (natJson n) = some n := by
  unfold readNat natJson
  simp only
  rw [if_pos ⟨by omega, by omega⟩]
  simp

theorem readAll_map {α : Type} {p : Json → Option α} {f : α → Json} (l : List α) (h : ∀ a ∈ l, p (f a) = some a) : readAll p (l.map f) = some l := by
  induction l with
  | nil => rfl
  | cons a l ih =>
    rw [List.map_cons, readAll, h a (by simp), ih fun b hb => h b (by simp [hb])]
    rfl

theorem transport_name (t : Transport) : Transport.ofName t.name = t := by cases t <;> decide
theorem encoding_name (t : Encoding) : Encoding.ofName t.name = t := by cases t <;> decide
theorem change_name (c : Change) : Change.ofName c.name = some c := by cases c <;> decide

theorem version_back (v : Version) : readVersion (writeVersion v) = some v := by
  unfold readVersion writeVersion
  simp only
  rw [readReq_of (v := .str v.name) (a := v.name) (by simp [valuesOf_append, valuesOf_cons, valuesOf_putOpt, valuesOf_nil]) rfl,
    readOpt_of (f := .str) (o := v.revision) (by simp [valuesOf_append, valuesOf_cons, valuesOf_putOpt, valuesOf_nil]) (fun a _ => ⟨rfl, by simp⟩),
    readOpt_of (f := .str) (o := v.version) (by simp [valuesOf_append, valuesOf_cons, valuesOf_putOpt, valuesOf_nil]) (fun a _ => ⟨rfl, by simp⟩)]
  rfl

theorem trigger_back {d : Dates} (hd : GoodDates d) (t : Trigger) (h : TriggerFits t) : readTrigger d (writeTrigger d t) = some t := by
  cases t with
  | periodic p a =>
    unfold readTrigger writeTrigger
    simp only [if_true]
    rw [readOpt_of (f := natJson) (o := p) (by simp [valuesOf_append, valuesOf_putOpt]) (fun a e => ⟨readNat_json (h a e), by simp [natJson]⟩),
      readOpt_of (f := fun t => .str (d.text t)) (o := a) (by simp [valuesOf_append, valuesOf_putOpt]) (fun a _ => ⟨hd a, by simp⟩)]
    rfl
  | onChange p s e =>
    unfold readTrigger writeTrigger
    simp only [if_true]
    rw [if_neg (by decide),
      readOpt_of (f := natJson) (o := p) (by simp [valuesOf_append, valuesOf_putOpt]) (fun a e => ⟨readNat_json (h a e), by simp [natJson]⟩),
      readOpt_of (f := .bool) (o := s) (by simp [valuesOf_append, valuesOf_putOpt]) (fun a _ => ⟨rfl, by simp⟩),
      readOpt_of (f := fun l => .arr (l.map fun c => .str c.name)) (o := e) (by simp [valuesOf_append, valuesOf_putOpt]) (fun l _ => ⟨readAll_map (p := readChange) (f := fun c : Change => .str c.name) l (fun c _ => change_name c), by simp⟩)]
    rfl

theorem writeTrigger_name (d : Dates) (t : Trigger) : (writeTrigger d t).1 ∈ triggerNames := by
  cases t <;> simp [writeTrigger, triggerNames]

theorem trigger_free {n : List String} (h : ∀ x ∈ n, x ∉ triggerNames) (d : Dates) (o : Option Trigger) : Free n ((o.map (writeTrigger d)).toList) := by
  intro x hx he
  cases o with
  | none => cases hx
  | some t =>
    simp only [Option.map_some, Option.toList_some, List.mem_singleton] at hx
    subst hx
    exact h _ he (writeTrigger_name d t)

theorem target_free {n : List String} (h : ∀ x ∈ n, x ∉ targetNames) (d : Dates) (t : Target) : Free n (writeTarget d t) := by
  have aux : ∀ {α : Type} (k : String) (f : α → Json) (o : Option α) (x : String × Json), x ∈ putOpt k f o → x.1 = k := by
    intro α k f o x hx
    cases o with
    | none => cases hx
    | some a => simp only [putOpt, List.mem_singleton] at hx; subst hx; rfl
  intro x hx he
  refine h _ he ?_
  unfold writeTarget at hx
  simp only [List.mem_append] at hx
  unfold targetNames
  rcases hx with (((((hx | hx) | hx) | hx) | hx) | hx) | hx <;> (rw [aux _ _ _ x hx]; simp)

theorem target_back {d : Dates} (hd : GoodDates d) (t : Target) (h1 : Value t.streamSubtree) (h2 : Value t.datastoreSubtree) (x : Members) (hx : Free targetNames x) : readTarget d (writeTarget d t ++ x) = some t := by
  have hv : ∀ k ∈ targetNames, valuesOf [k] x = [] := fun k hk => valuesOf_free (free_sub hx (by simpa using hk))
  unfold readTarget writeTarget
  rw [readOpt_of (f := .str) (o := t.stream) (by simp [valuesOf_append, valuesOf_putOpt, hv "stream" (by decide)]) (fun a _ => ⟨rfl, by simp⟩),
    readOpt_of (p := readAny) (f := id) (o := t.streamSubtree) (by simp [valuesOf_append, valuesOf_putOpt, hv "stream-subtree-filter" (by decide)]) (fun a e => ⟨congrArg some (h1 a e).1, (h1 a e).2⟩),
    readOpt_of (f := .str) (o := t.streamXpath) (by simp [valuesOf_append, valuesOf_putOpt, hv "stream-xpath-filter" (by decide)]) (fun a _ => ⟨rfl, by simp⟩),
    readOpt_of (f := fun t => .str (d.text t)) (o := t.replayStart) (by simp [valuesOf_append, valuesOf_putOpt, hv "replay-start-time" (by decide)]) (fun a _ => ⟨hd a, by simp⟩),
    readOpt_of (f := .str) (o := t.datastore) (by simp [valuesOf_append, valuesOf_putOpt, hv "ietf-yang-push:datastore" (by decide)]) (fun a _ => ⟨rfl, by simp⟩),
    readOpt_of (p := readAny) (f := id) (o := t.datastoreSubtree) (by simp [valuesOf_append, valuesOf_putOpt, hv "datastore-subtree-filter" (by decide)]) (fun a e => ⟨congrArg some (h2 a e).1, (h2 a e).2⟩),
    readOpt_of (f := .str) (o := t.datastoreXpath) (by simp [valuesOf_append, valuesOf_putOpt, hv "ietf-yang-push:datastore-xpath-filter" (by decide)]) (fun a _ => ⟨rfl, by simp⟩)]
  rfl

/-- what is written of a subscription, with what augments it -/
def startedMembers (d : Dates) (s : Started) (x : Members) : Members := [("id", natJson s.id)] ++ writeTarget d s.target ++ putOpt "stop-time" (fun t => .str (d.text t)) s.stopTime ++ putOpt "dscp" natJson s.dscp ++ putOpt "weighting" natJson s.weighting ++
    putOpt "dependency" natJson s.dependency ++ putOpt "transport" (fun t => .str t.name) s.transport ++ putOpt "encoding" (fun t => .str t.name) s.encoding ++ putOpt "purpose" .str s.purpose ++
    putOpt "ietf-distributed-notif:message-publisher-id" (fun l => .arr (l.map natJson)) s.publishers ++ (s.trigger.map (writeTrigger d)).toList ++
    putOpt "ietf-yang-push-revision:module-version" (fun l => .arr (l.map writeVersion)) s.versions ++ putOpt "ietf-yang-push-revision:yang-library-content-id" .str s.contentId ++ x

theorem without_started (d : Dates) (s : Started) (x : Members) (hx : Free startedNames x) : without startedNames (startedMembers d s x) = writeTarget d s.target ++ ((s.trigger.map (writeTrigger d)).toList ++ x) := by
  unfold startedMembers
  simp only [without_append, without_putOpt, without_free hx, without_free (trigger_free (n := startedNames) (by decide) d s.trigger), without_free (target_free (n := startedNames) (by decide) d s.target), without_cons, without_nil]
  simp [startedNames]

set_option maxHeartbeats 2000000 in
theorem started_back {d : Dates} (hd : GoodDates d) (s : Started) (h : StartedFits s) : ∃ j, writeStarted d s = some j ∧ readStarted d j = some s := by
  obtain ⟨x, ex, nx, fx⟩ := h.extra
  have fs : Free startedNames x := free_sub fx (fun _ h => List.mem_append_left _ h)
  have ft : Free targetNames x := free_sub fx (fun _ h => List.mem_append_right _ h)
  refine ⟨.obj (startedMembers d s x), by unfold writeStarted; rw [ex]; rfl, ?_⟩
  have hv : ∀ k ∈ startedNames, valuesOf [k] x = [] := fun k hk => valuesOf_free (free_sub fs (by simpa using hk))
  have ht : ∀ k ∈ startedNames, valuesOf [k] (writeTarget d s.target) = [] := fun k hk => valuesOf_free (target_free (n := [k]) (by
    intro y hy; simp only [List.mem_singleton] at hy; subst hy
    exact (by decide : ∀ y ∈ startedNames, y ∉ targetNames) _ hk) d s.target)
  have hg : ∀ k ∈ startedNames, valuesOf [k] ((s.trigger.map (writeTrigger d)).toList) = [] := fun k hk => valuesOf_free (trigger_free (n := [k]) (by
    intro y hy; simp only [List.mem_singleton] at hy; subst hy
    exact (by decide : ∀ y ∈ startedNames, y ∉ triggerNames) _ hk) d s.trigger)
  have hw := without_started d s x fs
  have hrest : startedRest d (startedMembers d s x) = (s.trigger, x) := by
    unfold startedRest readFlat
    rw [hw, without_append, without_append, without_free ft, without_free (trigger_free (n := targetNames) (by decide) d s.trigger)]
    have : without targetNames (writeTarget d s.target) = [] := by
      unfold writeTarget
      simp only [without_append, without_putOpt]
      simp [targetNames]
    rw [this, List.nil_append]
    cases hs : s.trigger with
    | none =>
      obtain ⟨y, ey, _, fy⟩ := h.single hs
      rw [ex] at ey
      injection ey with ey
      subst ey
      rw [show ((none : Option Trigger).map (writeTrigger d)).toList ++ x = x from rfl, takeFirst_free fy]
    | some t =>
      rw [show ((some t).map (writeTrigger d)).toList ++ x = writeTrigger d t :: x from rfl, takeFirst, if_pos (writeTrigger_name d t)]
      simp only [trigger_back hd t (h.trigger t hs)]
  have htarget : readTarget d (without startedNames (startedMembers d s x)) = some s.target := by
    rw [hw]
    exact target_back hd s.target h.subtree h.dsSubtree _ (by
      intro y hy he
      rcases List.mem_append.1 hy with hy | hy
      · exact trigger_free (n := targetNames) (by decide) d s.trigger y hy he
      · exact ft y hy he)
  unfold readStarted
  simp only
  rw [htarget, hrest]
  have v : ∀ k ∈ startedNames, valuesOf [k] (startedMembers d s x) = valuesOf [k] ([("id", natJson s.id)] ++ putOpt "stop-time" (fun t => .str (d.text t)) s.stopTime ++ putOpt "dscp" natJson s.dscp ++ putOpt "weighting" natJson s.weighting ++
      putOpt "dependency" natJson s.dependency ++ putOpt "transport" (fun t => .str t.name) s.transport ++ putOpt "encoding" (fun t => .str t.name) s.encoding ++ putOpt "purpose" .str s.purpose ++
      putOpt "ietf-distributed-notif:message-publisher-id" (fun l => .arr (l.map natJson)) s.publishers ++ putOpt "ietf-yang-push-revision:module-version" (fun l => .arr (l.map writeVersion)) s.versions ++
      putOpt "ietf-yang-push-revision:yang-library-content-id" .str s.contentId) := by
    intro k hk
    unfold startedMembers
    simp only [valuesOf_append, hv k hk, ht k hk, hg k hk, List.append_nil]
  rw [readReq_of (v := natJson s.id) (a := s.id) (by rw [v _ (by decide)]; simp [valuesOf_append, valuesOf_putOpt, valuesOf_cons, valuesOf_nil]) (readNat_json h.id),
    readOpt_of (f := fun t => .str (d.text t)) (o := s.stopTime) (by rw [v _ (by decide)]; simp [valuesOf_append, valuesOf_putOpt, valuesOf_cons, valuesOf_nil]) (fun a _ => ⟨hd a, by simp⟩),
    readOpt_of (f := natJson) (o := s.dscp) (by rw [v _ (by decide)]; simp [valuesOf_append, valuesOf_putOpt, valuesOf_cons, valuesOf_nil]) (fun a e => ⟨readNat_json (h.dscp a e), by simp [natJson]⟩),
    readOpt_of (f := natJson) (o := s.weighting) (by rw [v _ (by decide)]; simp [valuesOf_append, valuesOf_putOpt, valuesOf_cons, valuesOf_nil]) (fun a e => ⟨readNat_json (h.weighting a e), by simp [natJson]⟩),
    readOpt_of (f := natJson) (o := s.dependency) (by rw [v _ (by decide)]; simp [valuesOf_append, valuesOf_putOpt, valuesOf_cons, valuesOf_nil]) (fun a e => ⟨readNat_json (h.dependency a e), by simp [natJson]⟩),
    readOpt_of (f := fun t : Transport => .str t.name) (o := s.transport) (by rw [v _ (by decide)]; simp [valuesOf_append, valuesOf_putOpt, valuesOf_cons, valuesOf_nil]) (fun a _ => ⟨congrArg some (transport_name a), by simp⟩),
    readOpt_of (f := fun t : Encoding => .str t.name) (o := s.encoding) (by rw [v _ (by decide)]; simp [valuesOf_append, valuesOf_putOpt, valuesOf_cons, valuesOf_nil]) (fun a _ => ⟨congrArg some (encoding_name a), by simp⟩),
    readOpt_of (f := .str) (o := s.purpose) (by rw [v _ (by decide)]; simp [valuesOf_append, valuesOf_putOpt, valuesOf_cons, valuesOf_nil]) (fun a _ => ⟨rfl, by simp⟩),
    readOpt_of (f := fun l => .arr (l.map natJson)) (o := s.publishers) (by rw [v _ (by decide)]; simp [valuesOf_append, valuesOf_putOpt, valuesOf_cons, valuesOf_nil]) (fun l e => ⟨readAll_map l (fun n hn => readNat_json (h.publishers l e n hn)), by simp⟩),
    readOpt_of (f := fun l => .arr (l.map writeVersion)) (o := s.versions) (by rw [v _ (by decide)]; simp [valuesOf_append, valuesOf_putOpt, valuesOf_cons, valuesOf_nil]) (fun l _ => ⟨readAll_map l (fun n _ => version_back n), by simp⟩),
    readOpt_of (f := .str) (o := s.contentId) (by rw [v _ (by decide)]; simp [valuesOf_append, valuesOf_putOpt, valuesOf_cons, valuesOf_nil]) (fun a _ => ⟨rfl, by simp⟩)]
  simp only [Option.bind_some, Option.map_some]
  rw [nx, ← ex]

theorem terminated_back (t : Terminated) (h1 : t.id < 4294967296) (h2 : Extra ["id", "reason"] t.extra) : ∃ j, writeTerminated t = some j ∧ readTerminated j = some t := by
  obtain ⟨x, ex, nx, fx⟩ := h2
  refine ⟨_, by unfold writeTerminated; rw [ex]; rfl, ?_⟩
  have v1 : valuesOf ["id"] x = [] := valuesOf_free (free_sub fx (by simp))
  have v2 : valuesOf ["reason"] x = [] := valuesOf_free (free_sub fx (by simp))
  unfold readTerminated
  simp only
  rw [readReq_of (v := natJson t.id) (a := t.id) (by simp [valuesOf_cons, v1]) (readNat_json h1), readReq_of (v := .str t.reason) (a := t.reason) (by simp [valuesOf_cons, v2]) rfl]
  have : without ["id", "reason"] ([("id", natJson t.id), ("reason", .str t.reason)] ++ x) = x := by simp [without_cons, without_free fx]
  simp only [Option.bind_some, Option.map_some]
  rw [this, nx, ← ex]

theorem update_back (name : String) (hn : name ≠ "id") (u : Update) (h1 : u.id < 4294967296) (h2 : norm u.contents = u.contents) (h3 : Extra ["id", name] u.extra) : ∃ j, writeUpdate name u = some j ∧ readUpdate name j = some u := by
  obtain ⟨x, ex, nx, fx⟩ := h3
  refine ⟨_, by unfold writeUpdate; rw [ex]; rfl, ?_⟩
  have v1 : valuesOf ["id"] x = [] := valuesOf_free (free_sub fx (by simp))
  have v2 : valuesOf [name] x = [] := valuesOf_free (free_sub fx (by simp))
  have hn' : "id" ≠ name := hn.symm
  unfold readUpdate
  simp only
  rw [readReq_of (v := natJson u.id) (a := u.id) (by simp [valuesOf_cons, v1, hn]) (readNat_json h1), readReq_of (p := readAny) (v := u.contents) (a := u.contents) (by simp [valuesOf_cons, v2, hn']) (congrArg some h2)]
  have : without ["id", name] ([("id", natJson u.id), (name, u.contents)] ++ x) = x := by simp [without_cons, without_free fx]
  simp only [Option.bind_some, Option.map_some]
  rw [this, nx, ← ex]

theorem variant_back {d : Dates} (hd : GoodDates d) (v : Variant) (h : VariantFits v) : ∃ y, writeVariant d v = some y ∧ readVariant d y = some v ∧ y.1 ∈ variantNames := by
  cases v with
  | started s =>
    obtain ⟨j, h1, h2⟩ := started_back hd s h
    exact ⟨_, by rw [writeVariant, h1]; rfl, by unfold readVariant; simp [h2], by simp [variantNames]⟩
  | modified s =>
    obtain ⟨j, h1, h2⟩ := started_back hd s h
    exact ⟨_, by rw [writeVariant, h1]; rfl, by unfold readVariant; simp [h2], by simp [variantNames]⟩
  | terminated t =>
    obtain ⟨j, h1, h2⟩ := terminated_back t h.1 h.2
    exact ⟨_, by rw [writeVariant, h1]; rfl, by unfold readVariant; simp [h2], by simp [variantNames]⟩
  | update u =>
    obtain ⟨j, h1, h2⟩ := update_back "datastore-contents" (by decide) u h.1 h.2.1 h.2.2
    exact ⟨_, by rw [writeVariant, h1]; rfl, by unfold readVariant; simp [h2], by simp [variantNames]⟩
  | change u =>
    obtain ⟨j, h1, h2⟩ := update_back "datastore-changes" (by decide) u h.1 h.2.1 h.2.2
    exact ⟨_, by rw [writeVariant, h1]; rfl, by unfold readVariant; simp [h2], by simp [variantNames]⟩

theorem contents_back {d : Dates} (hd : GoodDates d) (c : Option Variant) (h : ∀ v, c = some v → VariantFits v) :
    ∃ y, writeContents d c = some y ∧ (∀ v, c = some v → ∃ z, y = some z ∧ readVariant d z = some v ∧ z.1 ∈ variantNames) ∧ (c = none → y = none) := by
  cases c with
  | none => exact ⟨none, rfl, (by simp), fun _ => rfl⟩
  | some v =>
    obtain ⟨y, h1, h2, h3⟩ := variant_back hd v (h v rfl)
    refine ⟨some y, by rw [writeContents, h1]; rfl, ?_, by simp⟩
    intro v' e
    injection e with e
    exact ⟨y, rfl, e ▸ h2, h3⟩

/-- C263: what is written of a payload that is of its types is read back as the same payload -/
theorem c263_read_back {d : Dates} (hd : GoodDates d) (p : Payload) (h : PayloadFits p) : ∃ j, writePayload d p = some j ∧ readPayload d j = some p := by
  cases p with
  | envelope e =>
    obtain ⟨h1, h2, x, ex, nx, fx⟩ := h
    obtain ⟨y, w1, w2, w3⟩ := contents_back hd e.contents h2
    have hv : ∀ n, (∀ k ∈ n, k ∈ envelopeNames) → valuesOf n x = [] := fun n hn => valuesOf_free (free_sub fx hn)
    refine ⟨_, by rw [writePayload, writeEnvelope, w1, ex]; rfl, ?_⟩
    unfold readPayload readTagged
    show (readEnvelope d _).map Payload.envelope = _
    unfold readEnvelope
    simp only
    rw [readReq_of (v := .str (d.text e.time)) (a := e.time) (by simp [valuesOf_append, valuesOf_cons, valuesOf_nil, valuesOf_putOpt, hv ["event-time"] (by decide)]) (hd _),
      readOpt_of (f := .str) (o := e.hostname) (by simp [valuesOf_append, valuesOf_cons, valuesOf_nil, valuesOf_putOpt, hv ["hostname"] (by decide)]) (fun a _ => ⟨rfl, by simp⟩),
      readOpt_of (f := natJson) (o := e.sequence) (by simp [valuesOf_append, valuesOf_cons, valuesOf_nil, valuesOf_putOpt, hv ["sequence-number"] (by decide)]) (fun a e => ⟨readNat_json (h1 a e), by simp [natJson]⟩)]
    have hc : readOpt (readTagged (readVariant d)) ["contents", "notification-contents"] ([("event-time", .str (d.text e.time))] ++ putOpt "hostname" .str e.hostname ++ putOpt "sequence-number" natJson e.sequence ++ putOpt "contents" (fun y => .obj [y]) y ++ x) =
        some e.contents := by
      unfold readOpt
      have : valuesOf ["contents", "notification-contents"] ([("event-time", .str (d.text e.time))] ++ putOpt "hostname" .str e.hostname ++ putOpt "sequence-number" natJson e.sequence ++ putOpt "contents" (fun y => .obj [y]) y ++ x) =
          (y.map fun y => .obj [y]).toList := by
        simp [valuesOf_append, valuesOf_cons, valuesOf_nil, valuesOf_putOpt, hv ["contents", "notification-contents"] (by decide)]
      rw [this]
      cases hcc : e.contents with
      | none => rw [w3 hcc]; rfl
      | some v =>
        obtain ⟨z, hz, hz2, _⟩ := w2 v hcc
        rw [hz]
        show (readVariant d z).map some = _
        rw [hz2]; rfl
    rw [hc]
    have hw : without envelopeNames ([("event-time", .str (d.text e.time))] ++ putOpt "hostname" .str e.hostname ++ putOpt "sequence-number" natJson e.sequence ++ putOpt "contents" (fun y => .obj [y]) y ++ x) = x := by
      simp only [without_append, without_putOpt, without_free fx, without_cons, without_nil]
      simp [envelopeNames]
    simp only [Option.bind_some, Option.map_some]
    rw [hw, nx, ← ex]
  | legacy e =>
    obtain ⟨h2, ⟨x, ex, nx, fx⟩, h3⟩ := h
    obtain ⟨y, w1, w2, w3⟩ := contents_back hd e.notification h2
    have hv : ∀ n, (∀ k ∈ n, k ∈ legacyNames) → valuesOf n x = [] := fun n hn => valuesOf_free (free_sub fx hn)
    have fy : ∀ n, (∀ k ∈ n, k ∉ variantNames) → Free n y.toList := by
      intro n hn z hz he
      cases hcc : e.notification with
      | none => rw [w3 hcc] at hz; cases hz
      | some v =>
        obtain ⟨w, hw, _, hw3⟩ := w2 v hcc
        rw [hw] at hz
        simp only [Option.toList_some, List.mem_singleton] at hz
        subst hz
        exact hn _ he hw3
    refine ⟨_, by rw [writePayload, writeLegacy, w1, ex]; rfl, ?_⟩
    unfold readPayload readTagged
    show (readLegacy d _).map Payload.legacy = _
    unfold readLegacy
    simp only
    rw [readReq_of (v := .str (d.text e.time)) (a := e.time) (by simp [valuesOf_append, valuesOf_cons, valuesOf_nil, valuesOf_putOpt, hv ["eventTime"] (by decide), valuesOf_free (fy ["eventTime"] (by decide))]) (hd _),
      readOpt_of (f := .str) (o := e.sysName) (by simp [valuesOf_append, valuesOf_cons, valuesOf_nil, valuesOf_putOpt, hv ["ietf-notification-sequencing:sysName"] (by decide), valuesOf_free (fy ["ietf-notification-sequencing:sysName"] (by decide))])
        (fun a _ => ⟨rfl, by simp⟩)]
    have hw : without legacyNames ([("eventTime", .str (d.text e.time))] ++ putOpt "ietf-notification-sequencing:sysName" .str e.sysName ++ y.toList ++ x) = y.toList ++ x := by
      simp only [without_append, without_putOpt, without_free fx, without_free (fy legacyNames (by decide)), without_cons, without_nil]
      simp [legacyNames]
    have hr : legacyRest d ([("eventTime", .str (d.text e.time))] ++ putOpt "ietf-notification-sequencing:sysName" .str e.sysName ++ y.toList ++ x) = (e.notification, x) := by
      unfold legacyRest readFlat
      rw [hw]
      cases hcc : e.notification with
      | none =>
        obtain ⟨z, ez, _, fz⟩ := h3 hcc
        rw [ex] at ez
        injection ez with ez
        subst ez
        rw [w3 hcc]
        rw [show (none : Option (String × Json)).toList ++ x = x from rfl, takeFirst_free fz]
      | some v =>
        obtain ⟨z, hz, hz2, hz3⟩ := w2 v hcc
        rw [hz]
        rw [show (some z).toList ++ x = z :: x from rfl, takeFirst, if_pos hz3]
        simp only [hz2]
    simp only [Option.bind_some, Option.map_some]
    rw [hr, nx, ← ex]

end Verif.Props
