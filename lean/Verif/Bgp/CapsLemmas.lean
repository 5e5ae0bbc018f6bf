import Verif.Bgp.Caps
import Verif.Core.Fwd
import Verif.Core.Inv
/-!
# Lemmas about capability parsing and writing
-/
namespace Verif.Bgp
open Verif Parser

theorem ofUtf8_utf8 (s : String) : ofUtf8 (utf8 s) = some s := by
  unfold ofUtf8 utf8 String.fromUTF8?
  simp only [Array.toArray_toList]
  have : (⟨s.toByteArray.data⟩ : ByteArray) = s.toByteArray := rfl
  rw [this, dif_pos s.isValidUTF8]
  rfl

theorem utf8_of_ofUtf8 {b : Bytes} {s : String} (h : ofUtf8 b = some s) : utf8 s = b := by
  unfold ofUtf8 String.fromUTF8? at h
  split at h
  · simp only [Option.some.injEq] at h
    rw [← h]; rfl
  · simp at h

theorem Role.ofU8_toU8 (r : Role) : Role.ofU8 r.toU8 = some r := by cases r <;> decide

theorem reads_checkCapLen (e : UInt8) (mk) : Reads (checkCapLen e mk) () [e] :=
  ⟨fun bs o => by simp [checkCapLen]⟩

theorem flag_bit (b : Bool) : (((if b then (0x80 : UInt8) else 0) &&& 0x80) == 0x80) = b := by
  cases b <;> decide

theorem length_grFamily (f : GrFamily) : f.write.length = 4 := by simp [GrFamily.write]
theorem length_llgrFamily (f : LlgrFamily) : f.write.length = 7 := by simp [LlgrFamily.write]
theorem length_addPathFamily (f : AddPathFamily) : f.write.length = 4 := by simp [AddPathFamily.write]
theorem length_enhEncoding (f : EnhEncoding) : f.write.length = 6 := by simp [EnhEncoding.write]
theorem length_multipleLabel (f : MultipleLabel) : f.write.length = 4 := by simp [MultipleLabel.write]

theorem reads_grFamily (f : GrFamily) : Reads parseGrFamily f f.write := by
  unfold parseGrFamily
  refine (Reads.takeSlice (v := f.write) (w := []) (length_grFamily f) fun o => ?_).congr rfl (by simp)
  refine Reads.onSub' (a := f) ?_ fun s' _ => Reads.pure _
  refine Reads.congr (a := f) (v := (u16be f.family.afi ++ [f.family.safi]) ++ ([if f.forwarding then 0x80 else 0] ++ [])) ?_
    rfl (by simp [GrFamily.write])
  refine Reads.bind (reads_family f.family) ?_
  refine Reads.bind ((reads_u8 _).mapErr _) ?_
  rw [flag_bit]
  exact Reads.pure _

theorem reads_llgrFamily (f : LlgrFamily) (h : f.staleTime.toNat < 2 ^ 24) :
    Reads parseLlgrFamily f f.write := by
  unfold parseLlgrFamily
  refine (Reads.takeSlice (v := f.write) (w := []) (length_llgrFamily f) fun o => ?_).congr rfl (by simp)
  refine Reads.onSub' (a := f) ?_ fun s' _ => Reads.pure _
  refine Reads.congr (a := f) (v := (u16be f.family.afi ++ [f.family.safi]) ++
    ([if f.forwarding then 0x80 else 0] ++ ((u32be f.staleTime).drop 1 ++ []))) ?_
    rfl (by simp [LlgrFamily.write])
  refine Reads.bind ((reads_family f.family).mapErr _) ?_
  refine Reads.bind ((reads_u8 _).mapErr _) ?_
  refine Reads.bind ((reads_array (b := (u32be f.staleTime).drop 1) (by simp)).mapErr _) ?_
  rw [flag_bit]
  have : 0 :: (u32be f.staleTime).drop 1 = u32be f.staleTime := by
    simp only [u32be, beBytes, List.drop_succ_cons, List.drop_zero, List.cons.injEq, and_true]
    rw [Nat.div_eq_of_lt (by simpa using h)]; rfl
  rw [this, u32of_u32be]
  exact Reads.pure _

theorem reads_addPathFamily (f : AddPathFamily) : Reads parseAddPathFamily f f.write := by
  unfold parseAddPathFamily
  obtain ⟨t, s, r⟩ := f
  obtain ⟨v, hv⟩ : ∃ v : UInt8, v = ((if s then 1 else 0) * 2) ||| (if r then 1 else 0) := ⟨_, rfl⟩
  have h3 : ¬ v > 3 := by subst hv; revert s r; decide
  have hs : (v &&& 2 == 2) = s := by subst hv; revert s r; decide
  have hr : (v &&& 1 == 1) = r := by subst hv; revert s r; decide
  refine Reads.congr (v := (u16be t.afi ++ [t.safi]) ++ ([v] ++ [])) ?_ rfl (by simp [AddPathFamily.write, hv])
  refine Reads.bind ((reads_family t).mapErr _) ?_
  refine Reads.bind ((reads_u8 _).mapErr _) ?_
  refine Reads.getOffset fun o => Reads.ite_neg h3 ?_
  rw [hs, hr]
  exact Reads.pure _

theorem reads_enhEncoding (f : EnhEncoding) : Reads parseEnhEncoding f f.write := by
  unfold parseEnhEncoding
  refine (Reads.takeSlice (v := f.write) (w := []) (length_enhEncoding f) fun o => ?_).congr rfl (by simp)
  refine Reads.onSub' (a := f) ?_ fun s' _ => Reads.pure _
  have hs : f.family.safi.toUInt16.toUInt8 = f.family.safi := by simp
  refine Reads.congr (v := u16be f.family.afi ++ (u16be f.family.safi.toUInt16 ++ ([] ++ ([] ++
    (u16be f.nextHopAfi.val ++ []))))) ?_ rfl (by simp [EnhEncoding.write])
  refine Reads.bind (reads_afi f.family.afi') ?_
  refine Reads.bind ((reads_u16 f.family.safi.toUInt16).mapErr _) ?_
  refine Reads.getOffset fun o => ?_
  refine Reads.bind (Reads.ofOption (a := f.family.safi') (by rw [hs]; exact safiOf_val f.family.safi')) ?_
  refine Reads.bind (Reads.ofOption f.family.ofAfiSafi_self) ?_
  refine Reads.bind (reads_afi f.nextHopAfi) ?_
  exact Reads.pure _

theorem reads_multipleLabel (f : MultipleLabel) : Reads parseMultipleLabel f f.write := by
  unfold parseMultipleLabel
  refine Reads.congr (v := (u16be f.family.afi ++ [f.family.safi]) ++ ([f.count] ++ [])) ?_ rfl
    (by simp [MultipleLabel.write])
  refine Reads.bind (reads_family f.family) ?_
  refine Reads.bind ((reads_u8 f.count).mapErr _) ?_
  exact Reads.pure _

theorem grHeader_fields (r n : Bool) (t : UInt16) (h : t.toNat < 4096) :
    (grHeader r n t &&& 0x8000 == 0x8000) = r ∧ (grHeader r n t &&& 0x4000 == 0x4000) = n ∧
      grHeader r n t &&& 0x0fff = t := by
  have ht : t &&& 0x0fff = t := by
    apply UInt16.toNat_inj.mp
    rw [UInt16.toNat_and]
    exact (Nat.and_two_pow_sub_one_eq_mod t.toNat 12).trans (Nat.mod_eq_of_lt h)
  have h8 : t &&& 0x8000 = 0 := by
    rw [← ht, UInt16.and_assoc]; exact UInt16.and_zero
  have h4 : t &&& 0x4000 = 0 := by
    rw [← ht, UInt16.and_assoc]; exact UInt16.and_zero
  have key : ∀ (x : UInt16), grHeader r n t &&& x =
      ((if r then (0x8000 : UInt16) else 0) &&& x) ||| ((if n then (0x4000 : UInt16) else 0) &&& x) ||| (t &&& x) := by
    intro x
    apply UInt16.toNat_inj.mp
    simp only [grHeader, UInt16.toNat_and, UInt16.toNat_or, Nat.and_or_distrib_right]
  refine ⟨?_, ?_, ?_⟩
  · rw [key, h8]; cases r <;> cases n <;> decide
  · rw [key, h4]; cases r <;> cases n <;> decide
  · rw [key, ht]
    have : ((if r then (0x8000 : UInt16) else 0) &&& 0x0fff) ||| ((if n then (0x4000 : UInt16) else 0) &&& 0x0fff)
        = 0 := by cases r <;> cases n <;> decide
    rw [this, UInt16.zero_or]

/-- a one-octet length field followed by that many octets, handed to a sub-parser as a slice -/
theorem len_byte {n : Nat} {v : Bytes} (h : v.length = n) (hn : n ≤ 255) :
    v.length = (UInt8.ofNat n).toNat := by rw [UInt8.toNat_ofNat_le hn, h]

theorem reads_gracefulRestart (r n : Bool) (t : UInt16) (l : List GrFamily) (ht : t.toNat < 4096)
    (hl : 2 + 4 * l.length ≤ 255) :
    Reads parseGracefulRestart (.gracefulRestart r n t l)
      (UInt8.ofNat (2 + 4 * l.length) :: (u16be (grHeader r n t) ++ (l.map GrFamily.write).flatten)) := by
  unfold parseGracefulRestart
  refine Reads.u8_cons ?_
  have hlen : (u16be (grHeader r n t) ++ (l.map GrFamily.write).flatten).length = 2 + 4 * l.length := by
    rw [List.length_append, length_u16be, length_flatten_const _ 4 _ fun a _ => length_grFamily a]
  refine (Reads.takeSlice (w := []) (len_byte hlen hl) fun o => ?_).congr rfl (by simp)
  refine Reads.onSub (s' := ⟨[], o + (2 + 4 * l.length)⟩) (a := .gracefulRestart r n t l) ?_ (Reads.pure _)
  rw [bind_ok (((reads_u16 _).mapErr _).run _ o)]
  rw [bind_ok (p := many parseGrFamily)
    (parseAll_reads parseGrFamily GrFamily.write l (fun f _ => reads_grFamily f)
      (fun f _ h => by have := length_grFamily f; rw [h] at this; simp at this) _)]
  obtain ⟨h1, h2, h3⟩ := grHeader_fields r n t ht
  rw [h1, h2, h3, pure_run]
  rw [length_flatten_const _ 4 _ fun a _ => length_grFamily a]
  simp [Nat.add_assoc]

theorem reads_slice_many {ε : Type} {α : Type} {p : Parser ε α} {wr : α → Bytes} {l : List α}
    {f : List α × Reader → Parser ε Cap} {c : Cap} {o : Nat}
    (hp : ∀ a ∈ l, Reads p a (wr a)) (hne : ∀ a ∈ l, wr a ≠ [])
    (hf : ∀ s', f (l, s') = (pure c : Parser ε Cap)) :
    Reads (onSub ⟨(l.map wr).flatten, o⟩ (many p) >>= f) c [] := by
  refine Reads.onSub (parseAll_reads p wr l hp hne o) ?_
  rw [hf]; exact Reads.pure c

theorem reads_llgr (l : List LlgrFamily) (ht : ∀ f ∈ l, f.staleTime.toNat < 2 ^ 24)
    (hl : 7 * l.length ≤ 255) :
    Reads parseLlgr (.llgr l) (UInt8.ofNat (7 * l.length) :: (l.map LlgrFamily.write).flatten) := by
  unfold parseLlgr
  refine Reads.getOffset fun o => Reads.u8_cons (Reads.ite_neg ?_ ?_)
  · intro h; apply h
    apply UInt8.toNat_inj.mp
    rw [UInt8.toNat_mod, UInt8.toNat_ofNat_le hl]
    show 7 * l.length % 7 = 0
    omega
  · have hlen := length_flatten_const LlgrFamily.write 7 l fun a _ => length_llgrFamily a
    refine (Reads.takeSlice (w := []) (len_byte hlen hl) fun o => ?_).congr rfl (by simp)
    exact reads_slice_many (fun f hf => reads_llgrFamily f (ht f hf))
      (fun f _ h => by have := length_llgrFamily f; rw [h] at this; simp at this) fun s' => rfl

theorem reads_addPath (l : List AddPathFamily) (hl : 4 * l.length ≤ 255) :
    Reads parseAddPath (.addPath l) (UInt8.ofNat (4 * l.length) :: (l.map AddPathFamily.write).flatten) := by
  unfold parseAddPath
  refine Reads.u8_cons ?_
  have hlen := length_flatten_const AddPathFamily.write 4 l fun a _ => length_addPathFamily a
  refine (Reads.takeSlice (w := []) (len_byte hlen hl) fun o => ?_).congr rfl (by simp)
  exact reads_slice_many (fun f hf => reads_addPathFamily f)
    (fun f _ h => by have := length_addPathFamily f; rw [h] at this; simp at this) fun s' => rfl

theorem reads_enh (l : List EnhEncoding) (hl : 6 * l.length ≤ 255) :
    Reads parseEnh (.extendedNextHop l) (UInt8.ofNat (6 * l.length) :: (l.map EnhEncoding.write).flatten) := by
  unfold parseEnh
  refine Reads.u8_cons ?_
  have hlen := length_flatten_const EnhEncoding.write 6 l fun a _ => length_enhEncoding a
  refine (Reads.takeSlice (w := []) (len_byte hlen hl) fun o => ?_).congr rfl (by simp)
  exact reads_slice_many (fun f hf => reads_enhEncoding f)
    (fun f _ h => by have := length_enhEncoding f; rw [h] at this; simp at this) fun s' => rfl

theorem reads_name (field : String) (s : String) (h : (utf8 s).length ≤ 255) :
    Reads (readName field) s (UInt8.ofNat (utf8 s).length :: utf8 s) := by
  unfold readName
  refine Reads.u8_cons (Reads.getOffset fun o => ?_)
  refine (((reads_bytes (by rw [UInt8.toNat_ofNat_le h])).mapErr _).bind
    (Reads.ofOption (ofUtf8_utf8 s))).congr rfl (by simp)

theorem reads_fqdn (h d : String) (hl : 2 + (utf8 h).length + (utf8 d).length ≤ 255) :
    Reads parseFqdn (.fqdn h d) (UInt8.ofNat (2 + (utf8 h).length + (utf8 d).length) ::
      (UInt8.ofNat (utf8 h).length :: utf8 h ++ UInt8.ofNat (utf8 d).length :: utf8 d)) := by
  unfold parseFqdn
  refine Reads.u8_cons ?_
  have hlen : (UInt8.ofNat (utf8 h).length :: utf8 h ++ UInt8.ofNat (utf8 d).length :: utf8 d).length =
      2 + (utf8 h).length + (utf8 d).length := by simp; omega
  refine (Reads.takeSlice (w := []) (len_byte hlen hl) fun o => ?_).congr rfl (by simp)
  refine Reads.onSub' (a := .fqdn h d) ?_ fun s' _ => Reads.pure _
  refine Reads.congr (v := (UInt8.ofNat (utf8 h).length :: utf8 h) ++
    ((UInt8.ofNat (utf8 d).length :: utf8 d) ++ [])) ?_ rfl (by simp)
  refine Reads.bind (reads_name "hostname" h (by omega)) ?_
  refine Reads.bind (reads_name "domain name" d (by omega)) ?_
  exact Reads.pure _

theorem reads_role (r : Role) : Reads parseRole (.role r) [1, r.toU8] := by
  unfold parseRole
  refine (reads_checkCapLen 1 _).bind (w := [r.toU8]) ?_
  refine Reads.peekU8 (Reads.getOffset fun o => ?_)
  exact (Reads.ofOption r.ofU8_toU8).bind (((reads_u8 _).mapErr _).bind (Reads.pure _))

theorem reads_fourOctetAs (a : UInt32) : Reads parseFourOctetAs (.fourOctetAs a) (4 :: u32be a) := by
  unfold parseFourOctetAs
  refine Reads.congr (v := [4] ++ (u32be a ++ [])) ?_ rfl (by simp)
  refine Reads.bind (reads_checkCapLen 4 _) ?_
  refine Reads.bind ((reads_u32 a).mapErr _) ?_
  exact Reads.pure _

theorem reads_mpe (t : AddressType) : Reads parseMpe (.mpe t) (4 :: (u16be t.afi ++ [0, t.safi])) := by
  unfold parseMpe
  refine Reads.congr (v := [4] ++ (u16be t.afi ++ ([0] ++ ([t.safi] ++ ([] ++ []))))) ?_ rfl (by simp)
  refine Reads.bind (reads_checkCapLen 4 _) ?_
  refine Reads.bind ((reads_afi t.afi').mapErr _) ?_
  refine Reads.bind ((reads_u8 0).mapErr _) ?_
  refine Reads.bind ((reads_safi t.safi').mapErr _) ?_
  refine Reads.getOffset fun o => ?_
  refine Reads.bind (Reads.ofOption t.ofAfiSafi_self) ?_
  exact Reads.pure _

theorem reads_opaque (v : Bytes) (h : v.length ≤ 255) : Reads parseOpaque v (UInt8.ofNat v.length :: v) := by
  unfold parseOpaque
  refine Reads.u8_cons ?_
  exact (reads_bytes (by rw [UInt8.toNat_ofNat_le h])).mapErr _

/-! ## Safety -/

theorem safe_checkCapLen (e : UInt8) (mk) : Safe 1 (checkCapLen e mk) := by
  refine ⟨fun r => ?_⟩
  obtain ⟨_ | ⟨b, bs⟩, o⟩ := r
  · trivial
  · unfold checkCapLen
    simp only
    split
    · exact ⟨1, by omega, by simp, by simp⟩
    · trivial

theorem safe_mpe : Safe 0 parseMpe := by
  unfold parseMpe
  refine safe_bind_r (safe_checkCapLen _ _).zero fun _ => safe_bind_r (safe_mapErr _ safe_readAfi.zero) fun _ =>
    safe_bind_r (safe_mapErr _ safe_readU8.zero) fun _ => safe_bind_r (safe_mapErr _ safe_readSafi.zero) fun _ =>
    safe_bind_r safe_getOffset fun _ => safe_bind_r (safe_ofOption _ _) fun _ => safe_pure _

theorem safe_grFamily : Safe 1 parseGrFamily := by
  unfold parseGrFamily
  refine (safe_bind_l (k := 4) (safe_mapErr _ (safe_takeSlice 4)) fun _ => ?_).mono (by omega)
  psafe [safe_readFamily.zero]

theorem safe_gracefulRestart : Safe 0 parseGracefulRestart := by
  unfold parseGracefulRestart
  psafe [safe_grFamily]

theorem safe_llgrFamily : Safe 1 parseLlgrFamily := by
  unfold parseLlgrFamily
  refine (safe_bind_l (k := 7) (safe_mapErr _ (safe_takeSlice 7)) fun _ => ?_).mono (by omega)
  psafe [safe_readFamily.zero]

theorem safe_llgr : Safe 0 parseLlgr := by
  unfold parseLlgr
  psafe [safe_llgrFamily]

theorem safe_addPathFamily : Safe 1 parseAddPathFamily := by
  unfold parseAddPathFamily
  refine (safe_bind_l (k := 3) (safe_mapErr _ safe_readFamily) fun _ => ?_).mono (by omega)
  psafe

theorem safe_addPath : Safe 0 parseAddPath := by
  unfold parseAddPath
  psafe [safe_addPathFamily]

theorem safe_enhEncoding : Safe 1 parseEnhEncoding := by
  unfold parseEnhEncoding
  refine (safe_bind_l (k := 6) (safe_mapErr _ (safe_takeSlice 6)) fun _ => ?_).mono (by omega)
  psafe [safe_readAfi.zero]

theorem safe_enh : Safe 0 parseEnh := by
  unfold parseEnh
  psafe [safe_enhEncoding]

theorem safe_fqdn : Safe 0 parseFqdn := by
  unfold parseFqdn readName
  psafe

theorem safe_role : Safe 0 parseRole := by
  unfold parseRole
  psafe [(safe_checkCapLen _ _).zero]

theorem safe_fourOctetAs : Safe 0 parseFourOctetAs := by
  unfold parseFourOctetAs
  psafe [(safe_checkCapLen _ _).zero]

theorem safe_opaque : Safe 0 parseOpaque := by
  unfold parseOpaque
  psafe

theorem safe_multipleLabel : Safe 1 parseMultipleLabel := by
  unfold parseMultipleLabel
  refine (safe_bind_l (k := 3) safe_readFamily fun _ => ?_).mono (by omega)
  psafe

theorem safe_cap : Safe 1 parseCap := by
  unfold parseCap capBody
  refine safe_bind_l (safe_mapErr _ safe_readU8) fun code => ?_
  psafe [safe_mpe, (safe_checkCapLen _ _).zero, safe_enh, safe_role, safe_gracefulRestart, safe_fourOctetAs,
    safe_addPath, safe_llgr, safe_fqdn, safe_opaque, safe_multipleLabel]

/-! ## The whole capability -/

/-- codes `parseCap` interprets itself -/
def decodedCodes : List UInt8 := [1, 2, 5, 6, 8, 9, 64, 65, 69, 70, 71, 73, 128]

/-- The values the wire format can carry: bit fields within their width, the value within the 255 octets the
length octet can announce, and an opaque code that is not one with a meaning of its own. The multiple-labels
capability is left out: it is written without a length octet. -/
def Cap.Fits : Cap → Prop
  | .gracefulRestart _ _ t l => t.toNat < 2 ^ 12 ∧ 2 + 4 * l.length ≤ 255
  | .llgr l => (∀ f ∈ l, f.staleTime.toNat < 2 ^ 24) ∧ 7 * l.length ≤ 255
  | .fqdn h d => 2 + (utf8 h).length + (utf8 d).length ≤ 255
  | .addPath l => 4 * l.length ≤ 255
  | .extendedNextHop l => 6 * l.length ≤ 255
  | .experimental _ v => v.length ≤ 255
  | .unrecognized c v => v.length ≤ 255 ∧ c ∉ decodedCodes ∧ ¬ (239 ≤ c.toNat ∧ c.toNat ≤ 254)
  | .multipleLabels _ => False
  | _ => True

theorem u8_ofNat_succ_sub (n : Nat) : UInt8.ofNat (1 + n) - 1 = UInt8.ofNat n := by
  apply UInt8.toNat_inj.mp
  rw [UInt8.toNat_sub, UInt8.toNat_ofNat', UInt8.toNat_ofNat']
  show (256 - 1 + (1 + n) % 256) % 256 = n % 256
  omega

theorem writeFqdn_ok {h d : String} (hl : 2 + (utf8 h).length + (utf8 d).length ≤ 255) :
    writeFqdn h d = .ok (UInt8.ofNat (utf8 h).length :: utf8 h ++ UInt8.ofNat (utf8 d).length :: utf8 d) := by
  unfold writeFqdn
  rw [if_neg (by omega), if_neg (by omega)]

theorem parseCap_cons (code : UInt8) (bs : Bytes) (o : Nat) :
    parseCap ⟨code :: bs, o⟩ = capBody code ⟨bs, o + 1⟩ := by
  unfold parseCap
  rw [bind_ok (p := mapErr _ _) (mapErr_ok (readU8_cons code) _)]

theorem reads_cap_dispatch {code : UInt8} {c : Cap} {w : Bytes} (hp : Reads (capBody code) c w) :
    Reads parseCap c (code :: w) :=
  ⟨fun bs o => by rw [List.cons_append, parseCap_cons, hp.run]; simp; omega⟩

theorem reads_empty (mk) (c : Cap) : Reads (do checkCapLen 0 mk; pure c) c [0] :=
  (reads_checkCapLen 0 mk).bind (Reads.pure c)

/-- round trip, length accounting and the length octet of every capability that fits -/
theorem cap_roundtrip (c : Cap) (h : c.Fits) :
    ∃ v : Bytes, v.length ≤ 255 ∧ c.write = .ok (c.code :: UInt8.ofNat v.length :: v) ∧
      Reads parseCap c (c.code :: UInt8.ofNat v.length :: v) := by
  cases c with
  | mpe t =>
    refine ⟨u16be t.afi ++ [0, t.safi], by simp, by simp [Cap.write, Cap.code], reads_cap_dispatch ?_⟩
    simpa [Cap.code] using (show Reads (capBody 1) _ _ from reads_mpe t)
  | routeRefresh => exact ⟨[], by simp, rfl, reads_cap_dispatch (reads_empty _ _)⟩
  | enhancedRouteRefresh => exact ⟨[], by simp, rfl, reads_cap_dispatch (reads_empty _ _)⟩
  | ciscoRouteRefresh => exact ⟨[], by simp, rfl, reads_cap_dispatch (reads_empty _ _)⟩
  | extendedMessage => exact ⟨[], by simp, rfl, reads_cap_dispatch (reads_empty _ _)⟩
  | gracefulRestart r n t l =>
    obtain ⟨h1, h2⟩ := h
    have hlen : (u16be (grHeader r n t) ++ (l.map GrFamily.write).flatten).length = 2 + 4 * l.length := by
      rw [List.length_append, length_u16be, length_flatten_const _ 4 _ fun a _ => length_grFamily a]
    have he : 4 + 4 * l.length - 2 = 2 + 4 * l.length := by omega
    refine ⟨u16be (grHeader r n t) ++ (l.map GrFamily.write).flatten, by omega, ?_, reads_cap_dispatch ?_⟩
    · rw [hlen]; simp [Cap.write, Cap.code, Cap.valueLen, he]
    · rw [hlen]; exact (reads_gracefulRestart r n t l h1 h2).mapErr _
  | llgr l =>
    obtain ⟨h1, h2⟩ := h
    have hlen := length_flatten_const LlgrFamily.write 7 l fun a _ => length_llgrFamily a
    refine ⟨(l.map LlgrFamily.write).flatten, by omega, ?_, reads_cap_dispatch ?_⟩
    · rw [hlen]; simp [Cap.write, Cap.code, Cap.valueLen]
    · rw [hlen]; exact reads_llgr l h1 h2
  | fqdn h' d =>
    have h : 2 + (utf8 h').length + (utf8 d).length ≤ 255 := h
    have hlen : (UInt8.ofNat (utf8 h').length :: utf8 h' ++ UInt8.ofNat (utf8 d).length :: utf8 d).length =
        2 + (utf8 h').length + (utf8 d).length := by simp; omega
    refine ⟨UInt8.ofNat (utf8 h').length :: utf8 h' ++ UInt8.ofNat (utf8 d).length :: utf8 d, by omega, ?_,
      reads_cap_dispatch ?_⟩
    · rw [hlen]; simp [Cap.write, Cap.code, Cap.valueLen, writeFqdn_ok h, Res.map]
    · rw [hlen]; exact reads_fqdn h' d h
  | addPath l =>
    have hlen := length_flatten_const AddPathFamily.write 4 l fun a _ => length_addPathFamily a
    have h : 4 * l.length ≤ 255 := h
    refine ⟨(l.map AddPathFamily.write).flatten, by omega, ?_, reads_cap_dispatch ?_⟩
    · rw [hlen]; simp [Cap.write, Cap.code, Cap.valueLen]
    · rw [hlen]; exact reads_addPath l h
  | multipleLabels l => exact h.elim
  | role r =>
    exact ⟨[r.toU8], by simp, rfl, reads_cap_dispatch (reads_role r)⟩
  | fourOctetAs a =>
    refine ⟨u32be a, by simp, by simp [Cap.write, Cap.code], reads_cap_dispatch ?_⟩
    simpa [Cap.code] using (show Reads (capBody 65) _ _ from reads_fourOctetAs a)
  | extendedNextHop l =>
    have hlen := length_flatten_const EnhEncoding.write 6 l fun a _ => length_enhEncoding a
    have h : 6 * l.length ≤ 255 := h
    refine ⟨(l.map EnhEncoding.write).flatten, by omega, ?_, reads_cap_dispatch ?_⟩
    · have h0 : ¬ UInt8.ofNat (1 + 6 * l.length) = 0 := by
        intro hc
        have := congrArg UInt8.toNat hc
        rw [UInt8.toNat_ofNat'] at this
        have h00 : (0 : UInt8).toNat = 0 := rfl
        omega
      unfold Cap.write
      simp only [if_neg h0, u8_ofNat_succ_sub, hlen]
      rfl
    · rw [hlen]; exact (reads_enh l h).mapErr _
  | experimental c v =>
    have h : v.length ≤ 255 := h
    refine ⟨v, h, by simp [Cap.write, Cap.code, Cap.valueLen], reads_cap_dispatch ?_⟩
    have hc := c.property
    show Reads (capBody c.val) _ _
    have ne : ∀ k : UInt8, k.toNat < 239 → ¬ c.val = k := by
      intro k hk e; rw [e] at hc; omega
    unfold capBody
    rw [if_neg (ne 1 (by decide)), if_neg (ne 2 (by decide)), if_neg (ne 5 (by decide)), if_neg (ne 128 (by decide)),
      if_neg (ne 6 (by decide)), if_neg (ne 8 (by decide)), if_neg (ne 9 (by decide)), if_neg (ne 64 (by decide)),
      if_neg (ne 65 (by decide)), if_neg (ne 69 (by decide)), if_neg (ne 70 (by decide)), if_neg (ne 71 (by decide)),
      if_neg (ne 73 (by decide)), dif_pos hc]
    rw [← List.append_nil (UInt8.ofNat _ :: v)]
    exact Reads.bind (reads_opaque v h) (Reads.pure _)
  | unrecognized c v =>
    obtain ⟨h, h2, h3⟩ := h
    refine ⟨v, h, by simp [Cap.write, Cap.code, Cap.valueLen], reads_cap_dispatch ?_⟩
    show Reads (capBody c) _ _
    have ne : ∀ k : UInt8, k ∈ decodedCodes → ¬ c = k := fun k hk e => h2 (e ▸ hk)
    unfold capBody
    rw [if_neg (ne 1 (by decide)), if_neg (ne 2 (by decide)), if_neg (ne 5 (by decide)), if_neg (ne 128 (by decide)),
      if_neg (ne 6 (by decide)), if_neg (ne 8 (by decide)), if_neg (ne 9 (by decide)), if_neg (ne 64 (by decide)),
      if_neg (ne 65 (by decide)), if_neg (ne 69 (by decide)), if_neg (ne 70 (by decide)), if_neg (ne 71 (by decide)),
      if_neg (ne 73 (by decide)), dif_neg h3]
    rw [← List.append_nil (UInt8.ofNat _ :: v)]
    exact Reads.bind (reads_opaque v h) (Reads.pure _)

/-- `len()` is the number of octets written, for every capability other than multiple labels, also when the
length octet is truncated -/
theorem cap_len (c : Cap) (hm : ∀ l, c ≠ .multipleLabels l) {w : Bytes} (h : c.write = .ok w) :
    w.length = c.len := by
  cases c with
  | multipleLabels l => exact (hm l rfl).elim
  | fqdn h' d =>
    simp only [Cap.write, writeFqdn] at h
    split at h
    · simp [Res.map] at h
    · split at h
      · simp [Res.map] at h
      · simp only [Res.map, Res.ok.injEq] at h
        rw [← h]; simp [Cap.len, Cap.valueLen]; omega
  | extendedNextHop l =>
    simp only [Cap.write] at h
    split at h
    · simp at h
    · simp only [Res.ok.injEq] at h
      have := length_flatten_const EnhEncoding.write 6 l fun a _ => length_enhEncoding a
      rw [← h]; simp only [Cap.len, Cap.valueLen, List.length_append, this]; simp
  | gracefulRestart r n t l =>
    have := length_flatten_const GrFamily.write 4 l fun a _ => length_grFamily a
    simp only [Cap.write, Res.ok.injEq] at h
    rw [← h]; simp only [Cap.len, Cap.valueLen, List.length_append, this]; simp; omega
  | llgr l =>
    have := length_flatten_const LlgrFamily.write 7 l fun a _ => length_llgrFamily a
    simp only [Cap.write, Res.ok.injEq] at h
    rw [← h]; simp only [Cap.len, Cap.valueLen, List.length_append, this]; simp
  | addPath l =>
    have := length_flatten_const AddPathFamily.write 4 l fun a _ => length_addPathFamily a
    simp only [Cap.write, Res.ok.injEq] at h
    rw [← h]; simp only [Cap.len, Cap.valueLen, List.length_append, this]; simp
  | _ =>
    simp only [Cap.write, Res.ok.injEq] at h
    rw [← h]; simp [Cap.len, Cap.valueLen]; try omega

/-! ## The cursor also moves forward when a capability is rejected -/

theorem fwd_readAfi : Fwd readAfi := by unfold readAfi; pfwd
theorem fwd_readSafi : Fwd readSafi := by unfold readSafi; pfwd
theorem fwd_readFamily : Fwd readFamily := by unfold readFamily; pfwd [fwd_readAfi, fwd_readSafi]

theorem fwd_checkCapLen (e : UInt8) (mk) : Fwd (checkCapLen e mk) := by
  refine ⟨fun r => ?_⟩
  obtain ⟨_ | ⟨b, bs⟩, o⟩ := r
  · exact Adv.refl _
  · unfold checkCapLen
    simp only
    split
    · exact ⟨1, by omega, by simp, by simp⟩
    · exact Adv.refl _

theorem fwd_opaque : Fwd parseOpaque := by unfold parseOpaque; pfwd

theorem fwd_cap : Fwd parseCap := by
  unfold parseCap capBody parseMpe parseEnh parseMultipleLabel parseRole parseGracefulRestart parseFourOctetAs parseAddPath
    parseLlgr parseFqdn
  pfwd [fwd_readAfi, fwd_readSafi, fwd_readFamily, fwd_checkCapLen _ _, fwd_opaque]

/-- whatever the outcome, a capability takes at least its code octet -/
theorem cap_adv {r : Reader} (h : r.buf ≠ []) : Adv 1 r (parseCap r).2 := by
  obtain ⟨_ | ⟨c, bs⟩, o⟩ := r
  · exact (h rfl).elim
  · have h1 : Adv 1 ⟨c :: bs, o⟩ ⟨bs, o + 1⟩ := ⟨1, by omega, by simp, by simp⟩
    rw [parseCap_cons]
    refine h1.trans (k := 0) (Fwd.adv ?_ _)
    unfold capBody parseMpe parseEnh parseMultipleLabel parseRole parseGracefulRestart parseFourOctetAs parseAddPath
      parseLlgr parseFqdn
    pfwd [fwd_readAfi, fwd_readSafi, fwd_readFamily, fwd_checkCapLen _ _, fwd_opaque]

/-! ## What the decoder returns -/

/-- a loop whose elements take at least `k` octets collects at most `length / k` of them -/
theorem parseAll_count {ε α : Type} {p : Parser ε α} {k : Nat} (hp : Safe k p) {r r' : Reader} {l : List α}
    (h : parseAll p r = (.ok l, r')) : k * l.length ≤ r.buf.length := by
  refine parseAll_ok_induction (Q := fun r l _ => k * l.length ≤ r.buf.length) (fun _ _ => by simp) ?_ h
  intro r a r1 as r2 h1 _ _ ih
  have := (hp.adv h1).length
  simp only [List.length_cons, Nat.mul_succ]; omega

theorem safe_grFamily4 : Safe 4 parseGrFamily := by
  unfold parseGrFamily
  refine safe_bind_l (k := 4) (safe_mapErr _ (safe_takeSlice 4)) fun _ => ?_
  psafe [safe_readFamily.zero]
theorem safe_llgrFamily7 : Safe 7 parseLlgrFamily := by
  unfold parseLlgrFamily
  refine safe_bind_l (k := 7) (safe_mapErr _ (safe_takeSlice 7)) fun _ => ?_
  psafe [safe_readFamily.zero]
theorem safe_addPathFamily4 : Safe 4 parseAddPathFamily := by
  unfold parseAddPathFamily
  refine safe_bind (j := 3) (k := 1) (safe_mapErr _ safe_readFamily) fun _ => ?_
  refine safe_bind_l (safe_mapErr _ safe_readU8) fun _ => ?_
  psafe
theorem safe_enhEncoding6 : Safe 6 parseEnhEncoding := by
  unfold parseEnhEncoding
  refine safe_bind_l (k := 6) (safe_mapErr _ (safe_takeSlice 6)) fun _ => ?_
  psafe [safe_readAfi.zero]

theorem safe_readName (f : String) : Safe 1 (readName f) := by
  unfold readName
  refine safe_bind_l (safe_mapErr _ safe_readU8) fun _ => ?_
  psafe

/-- what `readName` takes is one octet and the name -/
theorem readName_length {f : String} {r r' : Reader} {s : String} (h : readName f r = (.ok s, r')) :
    r.buf.length = 1 + (utf8 s).length + r'.buf.length := by
  simp only [readName, bind_eq_ok, mapErr_eq_ok, readU8_eq_ok, getOffset_eq_ok, readBytes_eq_ok,
    ofOption_eq_ok] at h
  obtain ⟨n, r1, ⟨h1, _⟩, o, r2, ⟨_, rfl⟩, b, r3, ⟨h2, _, _⟩, h3, rfl⟩ := h
  rw [h1, List.length_cons, h2, List.length_append, utf8_of_ofUtf8 h3]; omega

theorem llgrFamily_stale {r r' : Reader} {f : LlgrFamily} (h : parseLlgrFamily r = (.ok f, r')) :
    f.staleTime.toNat < 2 ^ 24 := by
  simp only [parseLlgrFamily, bind_eq_ok, mapErr_eq_ok, takeSlice_eq_ok, onSub_eq_ok', readU8_eq_ok,
    readArray_eq_ok, pure_eq_ok] at h
  obtain ⟨_, _, _, x, _, ⟨⟨_, _, _, _, _, _, st, _, ⟨_, hst, _⟩, hx, _⟩, _⟩, rfl, _⟩ := h
  rw [← hx]
  show (u32of (0 :: st)).toNat < 2 ^ 24
  rw [u32of_toNat (by simp [hst])]
  have h1 := beVal_lt st
  rw [hst] at h1
  simp only [beVal]
  have h0 : (0 : UInt8).toNat = 0 := rfl
  rw [h0, Nat.zero_mul, Nat.zero_add]
  exact h1

theorem and_0fff_lt (x : UInt16) : (x &&& 0x0fff).toNat < 2 ^ 12 := by
  rw [UInt16.toNat_and]
  have := Nat.and_two_pow_sub_one_eq_mod x.toNat 12
  have h : (0x0fff : UInt16).toNat = 2 ^ 12 - 1 := rfl
  rw [h, this]
  exact Nat.mod_lt _ (by decide)

theorem u8_le (x : UInt8) : x.toNat ≤ 255 := by have := x.toNat_lt; omega

theorem opaque_length {r r' : Reader} {v : Bytes} (h : parseOpaque r = (.ok v, r')) : v.length ≤ 255 := by
  simp only [parseOpaque, bind_eq_ok, mapErr_eq_ok, readU8_eq_ok, readBytes_eq_ok] at h
  obtain ⟨n, _, _, _, hn, _⟩ := h
  rw [hn]; exact u8_le n

/-- every capability the decoder returns, other than multiple labels, fits its wire format -/
theorem decoded_fits {r r' : Reader} {c : Cap} (h : parseCap r = (.ok c, r'))
    (hm : ∀ l, c ≠ .multipleLabels l) : c.Fits := by
  obtain ⟨_ | ⟨code, bs⟩, o⟩ := r
  · unfold parseCap at h; simp at h
  rw [parseCap_cons] at h
  unfold capBody at h
  simp only [ite_eq_ok] at h
  rcases h with ⟨h0, h⟩ | ⟨n1, h⟩
  · simp only [parseMpe, bind_eq_ok, pure_eq_ok] at h
    obtain ⟨_, _, _, _, _, _, _, _, _, _, _, _, _, _, _, t, _, _, rfl, _⟩ := h
    trivial
  rcases h with ⟨h0, h⟩ | ⟨n2, h⟩
  · simp only [bind_eq_ok, pure_eq_ok] at h
    obtain ⟨_, _, _, rfl, _⟩ := h; trivial
  rcases h with ⟨h0, h⟩ | ⟨n5, h⟩
  · simp only [parseEnh, bind_eq_ok, mapErr_eq_ok, takeSlice_eq_ok, onSub_eq_ok', pure_eq_ok, many_run] at h
    obtain ⟨len, _, _, s, _, ⟨_, hs, _, _⟩, x, _, ⟨hx, _⟩, rfl, _⟩ := h
    have := parseAll_count safe_enhEncoding6 hx
    have := u8_le len
    show 6 * x.1.length ≤ 255
    omega
  rcases h with ⟨h0, h⟩ | ⟨n128, h⟩
  · simp only [bind_eq_ok, pure_eq_ok] at h
    obtain ⟨_, _, _, rfl, _⟩ := h; trivial
  rcases h with ⟨h0, h⟩ | ⟨n6, h⟩
  · simp only [bind_eq_ok, pure_eq_ok] at h
    obtain ⟨_, _, _, rfl, _⟩ := h; trivial
  rcases h with ⟨h0, h⟩ | ⟨n8, h⟩
  · simp only [bind_eq_ok, pure_eq_ok] at h
    obtain ⟨l, _, _, rfl, _⟩ := h; exact (hm l rfl).elim
  rcases h with ⟨h0, h⟩ | ⟨n9, h⟩
  · simp only [parseRole, bind_eq_ok, pure_eq_ok] at h
    obtain ⟨_, _, _, _, _, _, _, _, _, _, _, _, _, _, _, rfl, _⟩ := h
    trivial
  rcases h with ⟨h0, h⟩ | ⟨n64, h⟩
  · simp only [parseGracefulRestart, bind_eq_ok, mapErr_eq_ok, takeSlice_eq_ok, onSub_eq_ok', pure_eq_ok, many_run,
      readU16_eq_ok] at h
    obtain ⟨len, _, _, s, _, ⟨_, hs, _, _⟩, x, _, ⟨⟨hd, r1, ⟨hb, _⟩, l, r2, hl, hx, _⟩, _⟩, hc, _⟩ := h
    have := parseAll_count safe_grFamily4 hl
    have := u8_le len
    rw [hb, List.length_append, length_u16be] at hs
    rw [← hc, ← hx]
    exact ⟨and_0fff_lt hd, by omega⟩
  rcases h with ⟨h0, h⟩ | ⟨n65, h⟩
  · simp only [parseFourOctetAs, bind_eq_ok, pure_eq_ok] at h
    obtain ⟨_, _, _, _, _, _, rfl, _⟩ := h
    trivial
  rcases h with ⟨h0, h⟩ | ⟨n69, h⟩
  · simp only [parseAddPath, bind_eq_ok, mapErr_eq_ok, takeSlice_eq_ok, onSub_eq_ok', pure_eq_ok, many_run] at h
    obtain ⟨len, _, _, s, _, ⟨_, hs, _, _⟩, x, _, ⟨hx, _⟩, rfl, _⟩ := h
    have := parseAll_count safe_addPathFamily4 hx
    have := u8_le len
    show 4 * x.1.length ≤ 255
    omega
  rcases h with ⟨h0, h⟩ | ⟨n70, h⟩
  · simp only [bind_eq_ok, pure_eq_ok] at h
    obtain ⟨_, _, _, rfl, _⟩ := h; trivial
  rcases h with ⟨h0, h⟩ | ⟨n71, h⟩
  · simp only [parseLlgr, bind_eq_ok, mapErr_eq_ok, takeSlice_eq_ok, onSub_eq_ok', pure_eq_ok, many_run, ite_eq_ok,
      fail_eq_ok, and_false, false_or] at h
    obtain ⟨_, _, _, len, _, _, _, s, _, ⟨_, hs, _, _⟩, x, _, ⟨hx, _⟩, rfl, _⟩ := h
    have := parseAll_count safe_llgrFamily7 hx
    have := u8_le len
    exact ⟨parseAll_forall (fun _ _ _ => llgrFamily_stale) hx, by omega⟩
  rcases h with ⟨h0, h⟩ | ⟨n73, h⟩
  · simp only [parseFqdn, bind_eq_ok, mapErr_eq_ok, takeSlice_eq_ok, onSub_eq_ok', pure_eq_ok] at h
    obtain ⟨len, _, _, s, _, ⟨_, hs, _, _⟩, x, _, ⟨⟨hn, _, h1, dn, _, h2, hx, _⟩, _⟩, hc, _⟩ := h
    have := readName_length h1
    have := readName_length h2
    have := u8_le len
    rw [← hc, ← hx]
    show 2 + (utf8 hn).length + (utf8 dn).length ≤ 255
    omega
  split at h
  · simp only [bind_eq_ok, pure_eq_ok] at h
    obtain ⟨v, _, hv, rfl, _⟩ := h
    exact opaque_length hv
  · rename_i hexp
    simp only [bind_eq_ok, pure_eq_ok] at h
    obtain ⟨v, _, hv, rfl, _⟩ := h
    exact ⟨opaque_length hv, by simp [decodedCodes, *], hexp⟩

end Verif.Bgp
