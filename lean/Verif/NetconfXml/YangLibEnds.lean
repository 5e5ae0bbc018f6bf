import Verif.NetconfXml.YangLib
import Verif.NetconfXml.EndsMessages
/-!
# Reading the YANG library of a device ends
-/
namespace Verif.Xml
open Verif.Collector (Text trim)

theorem eats_name (key : String) : Eats (readName key) :=
  fun n => (safe_skipText n).bind fun _ => (t_open nsYangLibrary key n).bind fun _ => in_textLeaf (f := trim) n

theorem safe_revision : Safe readRevision := by
  unfold readRevision
  refine safe_skipText.bind fun _ => safe_maybe (fun a n => ?_) (safe_pure _)
  exact in_text (fun t => safe_close.bind fun _ => safe_pure _) n

theorem t_leavesF (ns : Text) (key : String) (f : Nat) : ∀ n, T (fun s => s.evs.length < f ∧ AtMost n s) (leavesF ns key f) fun _ => AtMost n := by
  induction f with
  | zero => intro n s _ h; exact absurd h.1 (by omega)
  | succ f ih =>
    intro n s hd hs
    have hl : s.evs.length < f + 1 := hs.1
    have hn : s.evs.length ≤ n := hs.2
    have : T (AtMost s.evs.length) (leavesF ns key (f + 1)) fun _ => AtMost n := by
      refine (t_maybe ns key s.evs.length).bind fun o => ?_
      cases o with
      | none => exact (T.pure (Q := fun _ => AtMost n) []).mono (fun s' h => Nat.le_trans h.2 hn) fun _ _ x => x
      | some a =>
        refine T.mono (Pre := Opened s.evs.length) ?_ (fun s' h => h.1 rfl) fun _ _ x => x
        refine (t_tagString _).bind fun t => (t_close _).bind fun _ => (safe_skipText.fewer _).bind fun _ => ?_
        refine ((ih n).mono (fun s' h => ⟨?_, ?_⟩) fun _ _ x => x).bind fun _ => T.pure (Q := fun _ => AtMost n) _
        · exact Nat.lt_of_lt_of_le h (Nat.le_of_lt_succ hl)
        · exact Nat.le_trans (Nat.le_of_lt h) hn
    exact this s hd (Nat.le_refl _)

theorem safe_leaves (ns : Text) (key : String) : Safe (leaves ns key) := fun n s hd hs => t_leavesF ns key _ n s hd ⟨Nat.lt_succ_self _, hs⟩

theorem t_whileTagF {α : Type} (key : String) {p : P α} (hp : Eats p) (f : Nat) : ∀ n, T (fun s => s.evs.length < f ∧ AtMost n s) (whileTagF key p f) fun _ => AtMost n := by
  induction f with
  | zero => intro n s _ h; exact absurd h.1 (by omega)
  | succ f ih =>
    intro n s hd hs
    have hl : s.evs.length < f + 1 := hs.1
    have hn : s.evs.length ≤ n := hs.2
    have : T (AtMost s.evs.length) (whileTagF key p (f + 1)) fun _ => AtMost n := by
      refine T.bind (Q := fun _ => AtMost s.evs.length) (fun s' _ h => ⟨List.suffix_rfl, h⟩) fun b => ?_
      cases b with
      | false => exact (T.pure (Q := fun _ => AtMost n) []).mono (fun s' h => Nat.le_trans h hn) fun _ _ x => x
      | true =>
        refine (hp _).bind fun v => (safe_skipText.fewer _).bind fun _ => ?_
        refine ((ih n).mono (fun s' h => ⟨?_, ?_⟩) fun _ _ x => x).bind fun _ => T.pure (Q := fun _ => AtMost n) _
        · exact Nat.lt_of_lt_of_le h (Nat.le_of_lt_succ hl)
        · exact Nat.le_trans (Nat.le_of_lt h) hn
    exact this s hd (Nat.le_refl _)

theorem safe_whileTag {α : Type} (key : String) {p : P α} (hp : Eats p) : Safe (whileTag key p) := fun n s hd hs => t_whileTagF key hp _ n s hd ⟨Nat.lt_succ_self _, hs⟩

/-- an element is opened, its name is read, then something safe: fewer events are left -/
theorem eats_open {β : Type} {key key' : String} {f : Text → P β} (h : ∀ t, Safe (f t)) : Eats (do skipText; let _ ← openTag nsYangLibrary key; let n ← readName key'; f n) := by
  intro n
  refine (safe_skipText n).bind fun _ => (t_open nsYangLibrary key n).bind fun _ => ?_
  exact ((eats_name key' n).mono (fun _ => opened_atMost) fun _ _ x => x).bind fun t => (h t).fewer n

theorem eats_submodule : Eats readSubmodule :=
  eats_open fun _ => safe_revision.bind fun _ => (safe_leaves _ _).bind fun _ => safe_close.bind fun _ => safe_pure _

theorem eats_module : Eats readYModule :=
  eats_open fun _ => safe_revision.bind fun _ => (eats_name _).safe.bind fun _ => (safe_leaves _ _).bind fun _ => (safe_whileTag _ eats_submodule).bind fun _ =>
    (safe_leaves _ _).bind fun _ => (safe_leaves _ _).bind fun _ => (safe_leaves _ _).bind fun _ => safe_close.bind fun _ => safe_pure _

theorem eats_import : Eats readImport :=
  eats_open fun _ => safe_revision.bind fun _ => (eats_name _).safe.bind fun _ => (safe_leaves _ _).bind fun _ => (safe_whileTag _ eats_submodule).bind fun _ =>
    safe_close.bind fun _ => safe_pure _

theorem eats_set : Eats readSet :=
  eats_open fun _ => safe_skipText.bind fun _ => (safe_whileTag _ eats_module).bind fun _ => (safe_whileTag _ eats_import).bind fun _ => safe_close.bind fun _ => safe_pure _

theorem eats_setName : Eats readSetName := fun n => (t_open nsYangLibrary "module-set" n).bind fun _ => in_textLeaf (f := trim) n

theorem eats_schema : Eats readSchema :=
  eats_open fun _ => safe_skipText.bind fun _ => (safe_whileTag _ eats_setName).bind fun _ => safe_close.bind fun _ => safe_pure _

theorem t_resolve {Q : St → Prop} (t : Text) : T Q (resolveIdentity t) fun _ => Q := by
  intro s _ hs
  unfold resolveIdentity
  split <;> exact ⟨List.suffix_rfl, by first | exact hs | trivial⟩

theorem eats_store : Eats readStore := by
  intro n
  refine (safe_skipText n).bind fun _ => (t_open nsYangLibrary "datastore" n).bind fun _ => ?_
  refine ((safe_skipText n).mono (fun _ => opened_atMost) fun _ _ x => x).bind fun _ => (t_open nsYangLibrary "name" n).bind fun _ => ?_
  refine (t_tagString n).bind fun t => (t_resolve _).bind fun id => (t_close n).bind fun _ => (safe_skipText.fewer n).bind fun _ => ?_
  refine Safe.fewer ?_ n
  refine safe_open fun _ n => in_text (fun u => ?_) n
  exact safe_close.bind fun _ => safe_close.bind fun _ => safe_pure _

theorem t_childrenF (q : QName) (f : Nat) : ∀ n a, T (fun s => s.evs.length < f ∧ AtMost n s) (childrenF q f a) fun _ => AtMost n := by
  induction f with
  | zero => intro n a s _ h; exact absurd h.1 (by omega)
  | succ f ih =>
    intro n a s hd hs
    have hl : s.evs.length < f + 1 := hs.1
    have hn : s.evs.length ≤ n := hs.2
    have again : ∀ b, T (Fewer s.evs.length) (childrenF q f b) fun _ => AtMost n := fun b =>
      (ih n b).mono (fun s' h => ⟨Nat.lt_of_lt_of_le h (Nat.le_of_lt_succ hl), Nat.le_trans (Nat.le_of_lt h) hn⟩) fun _ _ x => x
    unfold childrenF
    split
    · exact ⟨List.suffix_rfl, hn⟩
    · split
      · exact ((eats_set s.evs.length).bind fun x => (safe_skipText.fewer _).bind fun _ => again _) s hd (Nat.le_refl _)
      · split
        · exact ((eats_schema s.evs.length).bind fun x => (safe_skipText.fewer _).bind fun _ => again _) s hd (Nat.le_refl _)
        · split
          · exact ((eats_store s.evs.length).bind fun x => (safe_skipText.fewer _).bind fun _ => again _) s hd (Nat.le_refl _)
          · split
            · exact ((t_open nsYangLibrary "content-id" s.evs.length).bind fun _ => (t_tagString _).bind fun t => (t_close _).bind fun _ => (safe_skipText.fewer _).bind fun _ => again _) s hd (Nat.le_refl _)
            · exact ⟨List.suffix_rfl, trivial⟩

theorem safe_children (q : QName) : Safe (children q) := fun n s hd hs => t_childrenF q _ n {} s hd ⟨Nat.lt_succ_self _, hs⟩

theorem safe_tagName : Safe tagName := by
  refine Safe.of fun s hd => ?_
  unfold tagName
  split <;> exact ⟨List.suffix_rfl, by simp⟩

/-- reading a YANG library has no faults -/
theorem safe_yangLibrary : Safe readYangLibrary := by
  unfold readYangLibrary
  refine safe_skipDecl.bind fun _ => safe_skipText.bind fun _ => safe_tagName.bind fun q => safe_open fun _ n => safe_in ?_ n
  exact safe_skipText.bind fun _ => (safe_children q).bind fun a => (safe_lift _ _).bind fun _ => safe_close.bind fun _ => safe_pure _

end Verif.Xml
