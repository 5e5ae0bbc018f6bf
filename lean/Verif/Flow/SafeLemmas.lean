import Verif.Flow.Codec
/-!
# Flow packets are decoded without panic and without end

Every field consumes at least the length its template gives (one octet if that is variable), so that the loops over the
records of a set make progress whatever the templates are.
-/
namespace Verif.Flow
open Parser

/-- the least number of octets of a field of that length -/
def minLen (length : UInt16) : Nat := if length = 65535 then 1 else length.toNat

theorem minLen_le (length : UInt16) : minLen length ≤ length.toNat := by
  unfold minLen
  split
  · subst_vars; decide
  · omega

theorem safe_readUnsigned32 (len : Nat) : Safe len (readUnsigned32 len) := by
  unfold readUnsigned32
  refine safe_ite (fun h => h ▸ safe_pure _) fun _ => ?_
  refine safe_ite (fun h => h ▸ safe_map _ (safe_readArray _)) fun _ => ?_
  refine safe_ite (fun h => h ▸ safe_map _ (safe_readArray _)) fun _ => ?_
  refine safe_ite (fun h => h ▸ safe_map _ (safe_readArray _)) fun _ => ?_
  refine safe_ite (fun h => h ▸ safe_map _ (safe_readArray _)) fun _ => ?_
  exact ⟨fun _ => trivial⟩

theorem safe_readUnsigned64 (len : Nat) : Safe len (readUnsigned64 len) := by
  unfold readUnsigned64
  refine safe_ite (fun h => h ▸ safe_pure _) fun _ => ?_
  refine safe_ite (fun h => h ▸ safe_map _ (safe_readArray _)) fun _ => ?_
  refine safe_ite (fun h => h ▸ safe_map _ (safe_readArray _)) fun _ => ?_
  refine safe_ite (fun h => h ▸ safe_map _ (safe_readArray _)) fun _ => ?_
  refine safe_ite (fun h => h ▸ safe_map _ (safe_readArray _)) fun _ => ?_
  refine safe_ite (fun h => h ▸ safe_map _ (safe_readArray _)) fun _ => ?_
  refine safe_ite (fun h => h ▸ safe_map _ (safe_readArray _)) fun _ => ?_
  refine safe_ite (fun h => h ▸ safe_map _ (safe_readArray _)) fun _ => ?_
  refine safe_ite (fun h => h ▸ safe_map _ (safe_readArray _)) fun _ => ?_
  exact ⟨fun _ => trivial⟩

theorem safe_readSigned32 (len : Nat) : Safe len (readSigned32 len) :=
  safe_bind_l (safe_readUnsigned32 len) fun _ => safe_pure _

theorem safe_readPadded' (n len : Nat) : Safe len (readPadded n len) := by
  refine ⟨fun r => ?_⟩
  unfold readPadded
  by_cases h : len > n
  · rw [if_pos h]; trivial
  · rw [if_neg h]
    exact (safe_bind_l (safe_readBytes len) fun _ => safe_pure _).out r

variable {ε β : Type}

theorem safe_exactly {k n : Nat} {length : UInt16} {f : Unit → Parser FieldErr β} (h : length.toNat = n → Safe k (f ())) :
    Safe k (exactly n length >>= f) := by
  unfold exactly
  by_cases hn : length.toNat = n
  · rw [if_neg (by simpa using hn)]; exact safe_bind_r (safe_pure _) fun _ => h hn
  · rw [if_pos hn]
    exact ⟨fun _ => trivial⟩

theorem safe_atMost {k n : Nat} {length : UInt16} {f : Unit → Parser FieldErr β} (h : length.toNat ≤ n → Safe k (f ())) :
    Safe k (atMost n length >>= f) := by
  unfold atMost
  by_cases hn : length.toNat ≤ n
  · rw [if_neg (by omega)]; exact safe_bind_r (safe_pure _) fun _ => h hn
  · rw [if_pos (by omega)]
    exact ⟨fun _ => trivial⟩

theorem safe_readVarLen : Safe 1 readVarLen :=
  safe_bind_l safe_readU8 fun _ => safe_ite (fun _ => safe_bind_l (safe_readUnsigned32 3).zero fun _ => safe_pure _)
    fun _ => safe_pure _

theorem safe_readOctets (length : UInt16) : Safe (minLen length) (readOctets length) := by
  unfold readOctets minLen
  by_cases h : length = 65535
  · rw [if_pos h, if_pos h]
    exact safe_bind_l safe_readVarLen fun n => (safe_readBytes n).zero
  · rw [if_neg h, if_neg h]
    refine ⟨fun r => ?_⟩
    rw [bind_ok (pure_run _ _)]
    exact (safe_readBytes _).out r

theorem safe_readString (length : UInt16) : Safe (minLen length) (readString length) := by
  unfold readString minLen
  by_cases h : length = 65535
  · rw [if_pos h, if_pos h]
    exact safe_bind_l (safe_mapErr _ safe_readVarLen) fun n => by psafe
  · rw [if_neg h, if_neg h]
    exact safe_bind_r safe_getOffset fun _ => safe_bind_l (safe_mapErr _ (safe_readBytes _)) fun _ => safe_ofOption _ _

theorem safe_readFraction (length : UInt16) : Safe (minLen length) (readFraction length) := by
  refine safe_exactly fun h => Safe.mono (k := 8) ?_ (h ▸ minLen_le length)
  exact safe_bind_r safe_getOffset fun _ => safe_bind (j := 4) (k := 4) (safe_mapErr _ safe_readU32) fun _ =>
    safe_bind_l (safe_mapErr _ safe_readU32) fun _ => safe_ofOption _ _

theorem safe_readShort (length : UInt16) : Safe (minLen length) (readShort length) := by
  unfold readShort
  refine safe_ite (fun h => ?_) fun _ => safe_ite (fun h => ?_) fun _ => ?_
  · subst h; exact safe_bind_l (safe_mapErr _ safe_readU8) fun _ => safe_pure _
  · subst h; exact safe_mapErr _ safe_readU16
  · exact safe_bind_r safe_getOffset fun _ => safe_fail _ _

theorem safe_value (k : Kind) (length : UInt16) : Safe (minLen length) (Value.parse k length) := by
  have hm := minLen_le length
  cases k <;> unfold Value.parse <;> simp only
  · exact safe_bind_l (safe_mapErr _ (safe_readOctets _)) fun _ => safe_pure _
  · exact safe_exactly fun h => Safe.mono (k := 3) (safe_bind_l (safe_mapErr _ (safe_readArray _)) fun _ => safe_pure _) (by omega)
  · exact safe_exactly fun h => Safe.mono (k := 1) (safe_bind_l (safe_mapErr _ safe_readU8) fun _ => safe_pure _) (by omega)
  · exact safe_bind_l (safe_readShort _) fun _ => safe_pure _
  · exact safe_bind_l (safe_readShort _) fun _ => safe_pure _
  · exact safe_atMost fun _ => Safe.mono (safe_bind_l (safe_mapErr _ (safe_readUnsigned32 _)) fun _ => safe_pure _) hm
  · exact safe_atMost fun _ => Safe.mono (safe_bind_l (safe_mapErr _ (safe_readUnsigned64 _)) fun _ => safe_pure _) hm
  · exact safe_atMost fun _ => Safe.mono (safe_bind_l (safe_mapErr _ (safe_readPadded' _ _)) fun _ => safe_pure _) hm
  · exact safe_atMost fun _ => Safe.mono (safe_bind_l (safe_mapErr _ (safe_readSigned32 _)) fun _ => safe_pure _) hm
  · exact safe_exactly fun h => Safe.mono (k := 8) (safe_bind_l (safe_mapErr _ safe_readU64) fun _ => safe_pure _) (by omega)
  · exact safe_exactly fun h => Safe.mono (k := 1) (safe_bind_l (safe_mapErr _ safe_readU8) fun _ => safe_pure _) (by omega)
  · exact safe_exactly fun h => Safe.mono (k := 6) (safe_bind_l (safe_mapErr _ (safe_readArray _)) fun _ => safe_pure _) (by omega)
  · exact safe_bind_l (safe_readString _) fun _ => safe_pure _
  · exact safe_exactly fun h => Safe.mono (k := 4) (safe_bind_r safe_getOffset fun _ =>
      safe_bind_l (safe_mapErr _ safe_readU32) fun _ => safe_bind_r (safe_ofOption _ _) fun _ => safe_pure _) (by omega)
  · exact safe_exactly fun h => Safe.mono (k := 8) (safe_bind_r safe_getOffset fun _ =>
      safe_bind_l (safe_mapErr _ safe_readU64) fun _ => safe_bind_r (safe_ofOption _ _) fun _ => safe_pure _) (by omega)
  · exact safe_bind_l (safe_readFraction _) fun _ => safe_pure _
  · exact safe_bind_l (safe_readFraction _) fun _ => safe_pure _
  · exact safe_exactly fun h => Safe.mono (k := 4) (safe_bind_l (safe_mapErr _ safe_readU32) fun _ => safe_pure _) (by omega)
  · exact safe_exactly fun h => Safe.mono (k := 16) (safe_bind_l (safe_mapErr _ safe_readU128) fun _ => safe_pure _) (by omega)
  · exact safe_bind_l (safe_mapErr _ (safe_readOctets _)) fun _ => safe_pure _
  · exact safe_bind_l (safe_mapErr _ (safe_readOctets _)) fun _ => safe_pure _
  · exact safe_bind_l (safe_mapErr _ (safe_readOctets _)) fun _ => safe_pure _

theorem safe_field (ie : Ie) (length : UInt16) : Safe (minLen length) (Field.parse ie length) := by
  cases ie <;> unfold Field.parse <;> simp only
  · exact safe_bind_l (safe_value _ _) fun _ => safe_pure _
  · exact safe_bind_l (safe_mapErr _ (safe_readOctets _)) fun _ => safe_pure _
  · exact Safe.mono (safe_bind_l (safe_mapErr _ (safe_readBytes _)) fun _ => safe_pure _) (minLen_le _)

theorem safe_fields (l : List Spec) : Safe (l.map fun s => minLen s.length).sum (parseFields l) := by
  induction l with
  | nil => exact safe_pure _
  | cons s l ih =>
    exact safe_bind (safe_field _ _) fun _ => safe_bind_l ih fun _ => safe_pure _

theorem Spec.minLength_eq (s : Spec) : s.minLength = minLen s.length := rfl

theorem safe_ipfixRecord (t : Template Spec) :
    Safe ((t.scope.map Spec.minLength).sum + (t.fields.map Spec.minLength).sum) (ipfixRecord t) :=
  safe_bind (safe_mapErr _ (safe_fields _)) fun _ => safe_bind_l (safe_mapErr _ (safe_fields _)) fun _ => safe_pure _

theorem safe_skipZeros : Safe 0 skipZeros := by
  suffices ∀ n, Safe 0 (skipZerosF n) from ⟨fun r => (this r.buf.length).out r⟩
  intro n
  induction n with
  | zero => exact safe_pure _
  | succ n ih =>
    refine ⟨fun r => ?_⟩
    unfold skipZerosF
    obtain ⟨_ | ⟨b, bs⟩, o⟩ := r
    · exact Adv.refl _
    · simp only [peekU8]
      split
      · exact (safe_bind_l (safe_mapErr _ safe_readU8).zero fun _ => ih).out _
      · exact Adv.refl _

theorem safe_checkPadding : Safe 0 checkPadding := by
  suffices ∀ n, Safe 0 (checkPaddingF n) from ⟨fun r => (this r.buf.length).out r⟩
  intro n
  induction n with
  | zero => exact safe_pure _
  | succ n ih => unfold checkPaddingF; psafe [ih]

section
variable {σ κ φ : Type}
open CParser

theorem csafe_getCtx : CSafe 0 (getCtx : CParser σ ε σ) := ⟨fun r _ => Adv.refl r⟩

theorem csafe_ipfixRecords (id : UInt16) (t : Template Spec) : CSafe 0 (ipfixRecords id t) := by
  unfold ipfixRecords
  simp only
  have ht : ∀ l, CSafe 0 (do
      CParser.modify fun m => Templates.count m id
      CParser.lift skipZeros
      pure l : CParser (Templates Spec) SetErr (List (DataRecord Field))) := fun _ =>
    csafe_bind_r (csafe_modify _) fun _ => csafe_bind_r (csafe_lift safe_skipZeros) fun _ => csafe_pure _
  refine csafe_ite (fun h => csafe_bind_r (csafe_rows h fun r g _ => ?_) ht) fun _ => csafe_bind_r (csafe_pure _) ht
  exact (csafe_lift ((safe_ipfixRecord t).mono h)).out r g

theorem safe_templateId : Safe 2 parseTemplateId :=
  safe_bind_r safe_getOffset fun _ => safe_bind_r (safe_mapErr _ safe_peekU16) fun _ =>
    safe_ite (fun _ => safe_fail _ _) fun _ => safe_mapErr _ safe_readU16

theorem safe_specNew (ie : Ie) (n : UInt16) : Safe 0 (Spec.new ie n) := safe_ite (fun _ => safe_pure _) fun _ => safe_fail _ _

theorem safe_spec (reg : Registry) : Safe 4 (Spec.parse reg) := by
  refine safe_bind (j := 2) (k := 2) (safe_mapErr _ safe_readU16) fun _ => safe_bind_l (safe_mapErr _ safe_readU16) fun _ => ?_
  refine safe_ite (fun _ => ?_) fun _ => ?_
  · exact safe_bind_l (safe_mapErr _ safe_readU32).zero fun _ => safe_bind_r (safe_ofOption _ _) fun _ => safe_specNew _ _
  · exact safe_bind_r (safe_ofOption _ _) fun _ => safe_specNew _ _

theorem safe_specs (reg : Registry) (n : Nat) : Safe (4 * n) (parseSpecs reg n) := by
  induction n with
  | zero => exact safe_pure _
  | succ n ih =>
    rw [Nat.mul_succ, Nat.add_comm]
    exact safe_bind (safe_mapErr _ (safe_spec reg)) fun _ => safe_bind_l ih fun _ => safe_pure _

theorem csafe_templateRecord (reg : Registry) : CSafe 4 (TemplateRecord.parse (κ := κ) reg) :=
  csafe_bind (j := 2) (k := 2) (csafe_lift safe_templateId) fun _ =>
    csafe_bind_l (csafe_lift (safe_mapErr _ safe_readU16)) fun _ =>
      csafe_bind_r (csafe_lift (safe_specs reg _).zero) fun _ => csafe_bind_r (csafe_modify _) fun _ => csafe_pure _

theorem csafe_ipfixOptions (reg : Registry) : CSafe 4 (ipfixOptions reg) :=
  csafe_bind (j := 2) (k := 2) (csafe_lift safe_templateId) fun _ =>
    csafe_bind_l (csafe_lift (safe_mapErr _ safe_readU16)) fun _ =>
      csafe_bind_r (csafe_lift safe_getOffset) fun _ => csafe_bind_r (csafe_lift (safe_mapErr _ safe_peekU16)) fun _ =>
        csafe_ite (fun _ => csafe_fail _ _) fun _ =>
          csafe_bind_r (csafe_lift (safe_mapErr _ safe_readU16).zero) fun _ =>
            csafe_bind_r (csafe_lift (safe_specs reg _).zero) fun _ =>
              csafe_bind_r (csafe_lift (safe_specs reg _).zero) fun _ => csafe_bind_r (csafe_modify _) fun _ => csafe_pure _

/-- what a dialect has to guarantee -/
structure Dialect.Sound (d : Dialect κ φ) : Prop where
  optionsRecord : ∀ reg, CSafe 4 (d.optionsRecord reg)
  records : ∀ id t, CSafe 0 (d.records id t)

theorem csafe_content (reg : Registry) {d : Dialect κ φ} (hd : d.Sound) (off : Nat) (id : UInt16) :
    CSafe 0 (FlowSet.content reg d off id) := by
  unfold FlowSet.content
  refine csafe_ite (fun _ => ?_) fun _ => csafe_ite (fun _ => ?_) fun _ => csafe_bind_r csafe_getCtx fun m => ?_
  · exact csafe_bind_r (csafe_rows (by omega) fun r g _ =>
      ((csafe_mapErr _ (csafe_templateRecord reg)).mono (by omega)).out r g) fun _ => csafe_pure _
  · exact csafe_bind_r (csafe_rows (by omega) fun r g _ =>
      ((csafe_mapErr _ (hd.optionsRecord reg)).mono (by omega)).out r g) fun _ =>
        csafe_bind_r (csafe_lift safe_checkPadding) fun _ => csafe_pure _
  · cases m id with
    | none => exact csafe_fail _ _
    | some t => exact csafe_bind_r (hd.records id t) fun _ => csafe_pure _

theorem csafe_set (reg : Registry) {d : Dialect κ φ} (hd : d.Sound) : CSafe 4 (FlowSet.parse reg d) := by
  unfold FlowSet.parse
  refine csafe_bind_r (csafe_lift safe_getOffset) fun _ => csafe_bind_r (csafe_lift (safe_mapErr _ safe_peekU16)) fun _ => ?_
  refine csafe_ite (fun _ => csafe_fail _ _) fun _ => ?_
  refine csafe_bind (j := 2) (k := 2) (csafe_lift (safe_mapErr _ safe_readU16)) fun _ => ?_
  refine csafe_bind_r (csafe_lift safe_getOffset) fun _ => csafe_bind_r (csafe_lift (safe_mapErr _ safe_peekU16)) fun _ => ?_
  refine csafe_ite (fun _ => csafe_fail _ _) fun _ => ?_
  refine csafe_bind_l (csafe_lift (safe_mapErr _ safe_readU16)) fun _ => ?_
  refine csafe_bind_r (csafe_lift (safe_mapErr _ (safe_takeSlice _)).zero) fun _ => ?_
  exact csafe_bind_r (csafe_onSub _ (csafe_content reg hd _ _)) fun _ => csafe_pure _

theorem ipfix_sound : ipfix.Sound := ⟨csafe_ipfixOptions, csafe_ipfixRecords⟩

theorem safe_scopeSpec : Safe 4 ScopeSpec.parse := by
  refine safe_bind_r safe_getOffset fun _ => ?_
  refine safe_bind (j := 2) (k := 2) (safe_mapErr _ safe_readU16) fun _ => safe_bind_l (safe_mapErr _ safe_readU16) fun _ => ?_
  split
  · exact safe_bind_l (safe_mapErr _ safe_readU32).zero fun _ => safe_ite (fun _ => safe_pure _) fun _ => safe_fail _ _
  · exact safe_bind_r (safe_pure _) fun _ => safe_ite (fun _ => safe_pure _) fun _ => safe_fail _ _

theorem safe_readReduced (length : UInt16) : Safe length.toNat (readReduced length) :=
  safe_atMost fun _ => safe_bind_l (safe_mapErr _ (safe_readUnsigned64 _)) fun _ => safe_pure _

theorem safe_scopeField (ie : ScopeIe) (length : UInt16) : Safe length.toNat (ScopeField.parse ie length) := by
  cases ie <;> unfold ScopeField.parse <;> simp only
  case unknown => exact safe_bind_l (safe_mapErr _ (safe_readBytes _)) fun _ => safe_pure _
  case system => exact safe_bind_l (safe_readReduced _) fun _ => safe_pure _
  case interface => exact safe_bind_l (safe_readReduced _) fun _ => safe_pure _
  case lineCard => exact safe_bind_l (safe_readReduced _) fun _ => safe_pure _
  case cache => exact safe_bind_l (safe_mapErr _ (safe_readBytes _)) fun _ => safe_pure _
  case template => exact safe_bind_l (safe_mapErr _ (safe_readBytes _)) fun _ => safe_pure _

theorem safe_scopeFields (l : List ScopeSpec) : Safe (l.map (·.length.toNat)).sum (parseScopeFields l) := by
  induction l with
  | nil => exact safe_pure _
  | cons s l ih => exact safe_bind (safe_scopeField _ _) fun _ => safe_bind_l ih fun _ => safe_pure _

theorem minLen_pos {length : UInt16} (h : 0 < length.toNat) : 0 < minLen length := by
  unfold minLen; split <;> omega

theorem sum_minLen_pos {l : List Spec} (h : 0 < (l.map (·.length.toNat)).sum) :
    0 < (l.map fun s => minLen s.length).sum := by
  induction l with
  | nil => exact h
  | cons s l ih =>
    simp only [List.map_cons, List.sum_cons] at h ⊢
    by_cases hs : 0 < s.length.toNat
    · have := minLen_pos hs; omega
    · have := ih (by omega); omega

/-- a record of a NetFlow template that is not empty consumes something -/
theorem safe_netflowRecord (t : Template ScopeSpec)
    (h : 0 < (t.scope.map (·.length.toNat)).sum + (t.fields.map (·.length.toNat)).sum) : Safe 1 (netflowRecord t) := by
  refine Safe.mono (safe_bind (safe_mapErr _ (safe_scopeFields _)) fun _ =>
    safe_bind_l (safe_mapErr _ (safe_fields t.fields)) fun _ => safe_pure _) ?_
  by_cases hs : 0 < (t.scope.map (·.length.toNat)).sum
  · omega
  · have := sum_minLen_pos (l := t.fields) (by omega); omega

theorem csafe_netflowRecords (id : UInt16) (t : Template ScopeSpec) : CSafe 0 (netflowRecords id t) := by
  unfold netflowRecords
  simp only
  have ht : ∀ l, CSafe 0 (do
      CParser.lift checkPadding
      pure l : CParser (Templates ScopeSpec) SetErr (List (DataRecord ScopeField))) := fun _ =>
    csafe_bind_r (csafe_lift safe_checkPadding) fun _ => csafe_pure _
  refine csafe_ite (fun h => csafe_bind_r (csafe_rows h fun r g _ => ?_) ht) fun _ => csafe_bind_r (csafe_pure _) ht
  exact (csafe_bind_l (csafe_lift (safe_netflowRecord t h)) fun _ =>
    csafe_bind_r (csafe_modify _) fun _ => csafe_pure _).out r g

theorem csafe_netflowOptions (reg : Registry) : CSafe 4 (netflowOptions reg) :=
  csafe_bind (j := 2) (k := 2) (csafe_lift safe_templateId) fun _ =>
    csafe_bind_l (csafe_lift (safe_mapErr _ safe_readU16)) fun _ =>
      csafe_bind_r (csafe_lift (safe_mapErr _ safe_readU16).zero) fun _ =>
        csafe_bind_r (csafe_lift (safe_mapErr _ (safe_takeSlice _)).zero) fun _ =>
          csafe_bind_r (csafe_lift (safe_mapErr _ (safe_takeSlice _)).zero) fun _ =>
            csafe_bind_r (csafe_lift (safe_onSub _ (safe_many (safe_scopeSpec.mono (by omega))))) fun _ =>
              csafe_bind_r (csafe_lift (safe_onSub _ (safe_many ((safe_mapErr _ (safe_spec reg)).mono (by omega))))) fun _ =>
                csafe_bind_r (csafe_modify _) fun _ => csafe_pure _

theorem netflow_sound : netflow.Sound := ⟨csafe_netflowOptions, csafe_netflowRecords⟩

theorem safe_version (v : UInt16) : Safe 2 (parseVersion v) :=
  safe_bind_r (safe_mapErr _ safe_peekU16) fun _ => safe_ite (fun _ => safe_bind_r safe_getOffset fun _ => safe_fail _ _)
    fun _ => safe_bind_l (safe_mapErr _ safe_readU16) fun _ => safe_pure _

theorem safe_time : Safe 4 parseTime :=
  safe_bind_r (safe_mapErr _ safe_peekU32) fun _ => safe_bind_r safe_getOffset fun _ => safe_bind_r (safe_ofOption _ _)
    fun _ => safe_bind_l (safe_mapErr _ safe_readU32) fun _ => safe_pure _

theorem csafe_ipfixBody (reg : Registry) : CSafe 0 (ipfixBody reg) :=
  csafe_bind_r (csafe_lift safe_time.zero) fun _ => csafe_bind_r (csafe_lift (safe_mapErr _ safe_readU32).zero) fun _ =>
    csafe_bind_r (csafe_lift (safe_mapErr _ safe_readU32).zero) fun _ =>
      csafe_bind_r (csafe_rows (by omega) fun r g _ =>
        ((csafe_mapErr _ (csafe_set reg ipfix_sound)).mono (by omega)).out r g) fun _ => csafe_pure _

/-- IPFIX packets, for every registry and all templates learnt so far -/
theorem csafe_ipfix (reg : Registry) : CSafe 4 (IpfixPacket.parse reg) := by
  unfold IpfixPacket.parse
  refine csafe_bind (j := 2) (k := 2) (csafe_lift (safe_version 10)) fun _ => ?_
  refine csafe_bind_r (csafe_lift (safe_mapErr _ safe_peekU16)) fun _ => csafe_bind_r (csafe_lift safe_getOffset) fun _ => ?_
  refine csafe_ite (fun _ => csafe_fail _ _) fun _ => ?_
  refine csafe_bind_l (csafe_lift (safe_mapErr _ safe_readU16)) fun _ => ?_
  refine csafe_bind_r (csafe_lift (safe_mapErr _ (safe_takeSlice _)).zero) fun _ => ?_
  exact csafe_bind_r (csafe_onSub _ (csafe_ipfixBody reg)) fun _ => csafe_pure _

theorem csafe_netflowStep (reg : Registry) (o : Nat) (c : UInt16) (i : Nat) : CSafe 4 (netflowStep reg o c i) :=
  csafe_bind_l (csafe_mapErr _ (csafe_set reg netflow_sound)) fun _ =>
    csafe_ite (fun _ => csafe_fail _ _) fun _ => csafe_pure _

/-- NetFlow v9 packets -/
theorem csafe_netflow (reg : Registry) : CSafe 20 (NetflowPacket.parse reg) := by
  unfold NetflowPacket.parse
  refine csafe_bind (j := 2) (k := 18) (csafe_lift (safe_version 9)) fun _ => csafe_bind_r (csafe_lift safe_getOffset) fun _ => ?_
  refine csafe_bind (j := 2) (k := 16) (csafe_lift (safe_mapErr _ safe_readU16)) fun _ => ?_
  refine csafe_bind (j := 4) (k := 12) (csafe_lift (safe_mapErr _ safe_readU32)) fun _ => ?_
  refine csafe_bind (j := 4) (k := 8) (csafe_lift safe_time) fun _ => ?_
  refine csafe_bind (j := 4) (k := 4) (csafe_lift (safe_mapErr _ safe_readU32)) fun _ => ?_
  refine csafe_bind_l (csafe_lift (safe_mapErr _ safe_readU32)) fun _ => ?_
  refine csafe_bind_r (csafe_loop (fun _ => by simp) (fun i r g _ => ?_) _) fun _ => csafe_pure _
  exact ((csafe_netflowStep reg _ _ i).mono (by omega)).out r g
end

end Verif.Flow
