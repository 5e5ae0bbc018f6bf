import Verif.Collector.JsonRecords
/-!
# Records that JSON publishers make of messages (C300)
-/
namespace Verif.Props
open Verif.Notif Verif.JsonRecords

/-- the value of a member, the first if there are several -/
def memberOf (k : String) : Members → Option Json
  | [] => none
  | (k', v) :: m => if k' = k then some v else memberOf k m

theorem record_insert (m : Members) (k : String) (v : Json) (k' : String) : memberOf k' (insertM m k v) = if k' = k then some v else memberOf k' m := by
  induction m with
  | nil =>
    simp only [insertM, memberOf]
    by_cases h : k = k'
    · simp [h]
    · rw [if_neg h, if_neg fun e => h e.symm]
  | cons x m ih =>
    obtain ⟨a, b⟩ := x
    simp only [insertM]
    by_cases ha : a = k
    · rw [if_pos ha]
      subst ha
      simp only [memberOf]
      by_cases h : a = k'
      · simp [h]
      · rw [if_neg h, if_neg fun e => h e.symm, if_neg h]
    · rw [if_neg ha]
      simp only [memberOf, ih]
      by_cases h : a = k'
      · subst h; simp [ha]
      · simp [h]

/-- C300: a raw notification is published if and only if its media type is JSON, XML or CBOR and its payload can be read as that. -/
theorem c300_published (r : Readers) {m : Msg} {o : Members} (hd : m.doc = some (.obj o)) (writer : String) :
    (rawNotification r m writer).isSome ↔ (m.media = .json ∧ (r.json m.payload).isSome) ∨ (m.media = .xml ∧ (r.utf8 m.payload).isSome) ∨ (m.media = .cbor ∧ (r.cbor m.payload).isSome) := by
  unfold rawNotification payloadOf
  rw [hd]
  cases hm : m.media <;> simp

/-- C300: the record has the address of the peer as its key, tells the writer and the payload as it was read, and has all else as it was. -/
theorem c300_record (r : Readers) {m : Msg} {o : Members} (hd : m.doc = some (.obj o)) {writer : String} {rec : Record} (h : rawNotification r m writer = some rec) :
    rec.1 = .str m.peer ∧ ∃ o', rec.2 = .obj o' ∧ memberOf "writer_id" o' = some (.str writer) ∧
      (m.media = .json → memberOf "payload" o' = r.json m.payload) ∧ (m.media = .xml → memberOf "payload" o' = (r.utf8 m.payload).map .str) ∧ (m.media = .cbor → memberOf "payload" o' = r.cbor m.payload) ∧
      ∀ k, k ≠ "writer_id" → k ≠ "payload" → memberOf k o' = memberOf k o := by
  unfold rawNotification at h
  rw [hd] at h
  simp only [Option.map_eq_some_iff] at h
  obtain ⟨p, hp, rfl⟩ := h
  have hw : ¬ "writer_id" = "payload" := by decide
  refine ⟨rfl, _, rfl, ?_, fun hm => ?_, fun hm => ?_, fun hm => ?_, fun k h1 h2 => ?_⟩
  · rw [record_insert, if_neg hw, record_insert, if_pos rfl]
  all_goals try (rw [record_insert, if_pos rfl, ← hp]; simp only [payloadOf, hm])
  rw [record_insert, if_neg h2, record_insert, if_neg h1]

/-- C300, in part: records of other messages have the address as their key and the message as their value. -/
theorem c300_plain_partial (m : Msg) (writer : String) (d : Json) (hd : m.doc = some d) : ∃ rec, plain m writer = some rec ∧ rec.1 = .str m.peer ∧ rec.2 = d := by
  unfold plain
  rw [hd]
  exact ⟨_, rfl, rfl, rfl⟩

/-- C300 is false: these records do not tell which writer made them. -/
theorem c300_writer_disproved (m : Msg) (a b : String) : plain m a = plain m b := rfl

/-- a notification with a payload of three octets -/
def recordSample : Msg := ⟨"10.0.0.1", .xml, [60, 97, 62], some (.obj [("media_type", .str "YangDataXml"), ("payload", .arr [.int 60, .int 97, .int 62])])⟩

example : rawNotification ⟨fun _ => none, fun _ => some "<a>", fun _ => none⟩ recordSample "w" = some (.str "10.0.0.1", .obj [("media_type", .str "YangDataXml"), ("payload", .str "<a>"), ("writer_id", .str "w")]) := by
  simp [rawNotification, payloadOf, recordSample, insertM]

example : rawNotification ⟨fun _ => none, fun _ => some "<a>", fun _ => none⟩ { recordSample with media := .priv 1 } "w" = none := rfl

end Verif.Props
