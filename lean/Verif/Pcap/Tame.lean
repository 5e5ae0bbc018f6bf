import Verif.Pcap.Streams
import Verif.Props.BgpCodec
import Verif.Props.BmpCodec
import Verif.Props.FlowCodec
import Verif.Props.UdpNotif
/-!
# The four decoders come to an end
-/
namespace Verif.Pcap
open Verif Collector

/-! ## BGP -/

/-- the limits of labels of a codec are in order -/
def BgpFine (s : Bgp.Codec) : Prop := s.ctx.attr.LimOk

theorem bgp_ok_progress (s : Bgp.Codec) (hs : BgpFine s) (b b' : Bytes) (x : Bgp.Msg × Bgp.Ignored) (s' : Bgp.Codec)
    (h : s.decode b = (.out (.ok x), s', b')) : b'.length < b.length := by
  obtain ⟨h1, h2, h3, h4, h5, h6⟩ := Bgp.decode_out h
  have hl : (s.ctx.setAsn4 s.asn4).attr.LimOk := hs
  have := (Bgp.csafe_parseMsg hl).out ⟨b.take (Bgp.declared b), 0⟩ .none
  rcases hp : Bgp.parseMsg (s.ctx.setAsn4 s.asn4) (⟨b.take (Bgp.declared b), 0⟩, .none) with ⟨m | e | f, ⟨r, d⟩⟩
  · rw [hp] at this
    obtain ⟨n, hn, hn', _⟩ := this
    simp only [List.length_take] at hn'
    rw [h3, List.length_drop]; omega
  · rw [hp] at h6; simp at h6
  · rw [hp] at h6; simp at h6

theorem bgp_noFault (s : Bgp.Codec) (hs : BgpFine s) (b b' : Bytes) (f : Fault) (s' : Bgp.Codec) : s.decode b ≠ (.out (.fault f), s', b') := by
  intro h
  obtain ⟨h1, h2, h3, h4, h5, h6⟩ := Bgp.decode_out h
  have hl : (s.ctx.setAsn4 s.asn4).attr.LimOk := hs
  have := (Bgp.csafe_parseMsg hl).noFault (⟨b.take (Bgp.declared b), 0⟩, .none)
  rcases hp : Bgp.parseMsg (s.ctx.setAsn4 s.asn4) (⟨b.take (Bgp.declared b), 0⟩, .none) with ⟨m | e | f, ⟨r, d⟩⟩
  · rw [hp] at h6; simp at h6
  · rw [hp] at h6; simp at h6
  · rw [hp] at this; simp at this

theorem bgp_fine_next {s s' : Bgp.Codec} {b b' : Bytes} {x : Res Bgp.MsgErr (Bgp.Msg × Bgp.Ignored)} (hs : BgpFine s) (h : s.decode b = (.out x, s', b')) : BgpFine s' := by
  obtain ⟨_, _, _, h4, _⟩ := Bgp.decode_out h
  unfold BgpFine; rw [h4]; exact hs

theorem tame_bgp : Tame Bgp.Codec.decode (fun s _ => BgpFine s) (fun s _ => BgpFine s) (fun _ => True) where
  more _ _ _ h _ := h
  empty _ h := h
  wait s b s' b' h hd := by obtain ⟨rfl, _⟩ := Bgp.decode_wait hd; exact h
  ok s b x s' b' h hd := ⟨bgp_fine_next h hd, bgp_ok_progress s h b b' x s' hd⟩
  err s b e s' b' h hd := bgp_fine_next h hd

theorem bgp_emptyWaits : EmptyWaits Bgp.Codec.decode := by
  intro s x s' b' h
  rw [Bgp.decode_short s (b := []) (.inl (by decide))] at h
  simp only [Prod.mk.injEq] at h
  exact .inl ⟨h.1.symm, h.2.1.symm, h.2.2.symm⟩

/-! ## BMP -/

theorem bmp_ok_progress (ord : Nat → Bmp.Order) (s : Bmp.Codec) (b : Bytes) (x : Bmp.BmpMsg) (s' : Bmp.Codec) (b' : Bytes)
    (h : Bmp.Codec.decode ord s b = (.out (.ok x), s', b')) : b'.length < b.length := by
  obtain ⟨h1, h2, h3, _⟩ := Props.c29_message ord s s' b b' x h
  rw [h3, List.length_drop]; omega

/-- an error leaves the flag down -/
theorem bmp_err_flag (ord : Nat → Bmp.Order) (s : Bmp.Codec) (b : Bytes) (hr : Bmp.Ready s b) (e : Bmp.BmpErr) (s' : Bmp.Codec) (b' : Bytes)
    (h : Bmp.Codec.decode ord s b = (.out (.err e), s', b')) : s'.inMessage = false := by
  unfold Bmp.Codec.decode at h
  split at h
  · rename_i hc
    cases hv : b.head? with
    | none => rw [hv] at h; simp at h
    | some v =>
      rw [hv] at h
      simp only at h
      by_cases hver : (Bmp.Version.ofCode v).isNone
      · rw [if_pos hver] at h
        simp only [Prod.mk.injEq] at h
        rw [← h.2.1]
        cases hm : s.inMessage with
        | false => rfl
        | true =>
          obtain ⟨_, ⟨w, h1, h2⟩, _⟩ := hr hm
          rw [hv] at h1
          cases h1
          rw [Option.isNone_iff_eq_none] at hver
          rw [hver] at h2; simp at h2
      · rw [if_neg hver] at h
        split at h
        · simp at h
        · split at h
          · simp only [Prod.mk.injEq] at h; rw [← h.2.1]
          · split at h
            · simp at h
            · simp only [Prod.mk.injEq] at h; rw [← h.2.1]; exact (Bmp.frame_flag _ _ _).2
  · simp at h

theorem tame_bmp (ord : Nat → Bmp.Order) : Tame (Bmp.Codec.decode ord) Bmp.Ready Bmp.Ready (fun _ => True) where
  more s b p h _ := fun hm => (h hm).append p
  empty _ h := h
  wait s b s' b' h hd := (Bmp.decode_sim ord h hd).2.1
  ok s b x s' b' h hd := ⟨(Bmp.decode_sim ord h hd).2.1, bmp_ok_progress ord s b x s' b' hd⟩
  err s b e s' b' h hd := fun hm => by rw [bmp_err_flag ord s b h e s' b' hd] at hm; cases hm

theorem bmp_emptyWaits (ord : Nat → Bmp.Order) : EmptyWaits (Bmp.Codec.decode ord) := by
  intro s x s' b' h
  unfold Bmp.Codec.decode at h
  split at h
  · simp only [List.head?_nil, Prod.mk.injEq] at h
    exact .inr ⟨_, h.1.symm⟩
  · simp only [Prod.mk.injEq] at h
    exact .inl ⟨h.1.symm, h.2.1.symm, h.2.2.symm⟩

/-! ## Flow -/

theorem tame_flow (reg : Flow.Registry) : Tame (Flow.FlowCodec.decode reg) (fun _ _ => True) (fun _ _ => True) (fun _ => True) where
  more _ _ _ h _ := h
  empty _ h := h
  wait _ _ _ _ h _ := h
  ok _ _ _ _ _ h hd := ⟨h, Props.c24_progress hd⟩
  err _ _ _ _ _ h _ := h

/-! ## UDP-notif -/

theorem notif_wait {clock : Nat → Nat} {s s' : UdpNotif.Codec × Nat} {b b' : Bytes} (h : udpNotifDecode clock s b = (.wait, s', b')) :
    UdpNotif.decode s.1 (clock s.2) b = (.ok none, s'.1, b') := by
  unfold udpNotifDecode at h
  rcases hd : UdpNotif.decode s.1 (clock s.2) b with ⟨(_ | p) | e | f, c, r⟩ <;> rw [hd] at h <;> simp at h
  obtain ⟨rfl, rfl⟩ := h
  rfl

theorem notif_out {clock : Nat → Nat} {s s' : UdpNotif.Codec × Nat} {b b' : Bytes} {x : Res UdpNotif.CodecError UdpNotif.Packet}
    (h : udpNotifDecode clock s b = (.out x, s', b')) : UdpNotif.decode s.1 (clock s.2) b = (x.map some, s'.1, b') := by
  unfold udpNotifDecode at h
  rcases hd : UdpNotif.decode s.1 (clock s.2) b with ⟨(_ | p) | e | f, c, r⟩ <;> rw [hd] at h <;> simp at h
  all_goals
    obtain ⟨rfl, rfl, rfl⟩ := h
    rfl

/-- the flag of the codec of UDP-notif and what is in the buffer -/
def NotifReady (s : UdpNotif.Codec × Nat) (b : Bytes) : Prop := s.1.inMessage = true → 2 ≤ b.length
/-- the same between packets -/
def NotifKept (s : UdpNotif.Codec × Nat) (b : Bytes) : Prop := s.1.inMessage = true → b = [] ∨ 2 ≤ b.length

theorem tame_notif (clock : Nat → Nat) : Tame (udpNotifDecode clock) NotifReady NotifKept (fun p => 2 ≤ p.length) where
  more s b p _ hp := fun _ => by rw [List.length_append]; omega
  empty s h := fun _ => .inl rfl
  wait s b s' b' h hd := by
    have hw := notif_wait hd
    intro hm
    rcases UdpNotif.decode_cases s.1 (clock s.2) b with ⟨e, h1, _⟩ | ⟨e, h1, h2⟩ | ⟨h2, ⟨_, _, _, e⟩ | e | ⟨p, hp, hwf, -, e⟩⟩
    all_goals rw [e] at hw; simp only [Prod.mk.injEq] at hw
    · rw [← hw.2.1, h1] at hm; cases hm
    · cases hw.1
    · cases hw.1
    · right; rw [← hw.2.2]; exact h2
    · left; exact hw.2.2.symm
  ok s b x s' b' h hd := by
    have hw := notif_out hd
    rcases UdpNotif.decode_cases s.1 (clock s.2) b with ⟨e, h1, _⟩ | ⟨e, h1, h2⟩ | ⟨h2, ⟨_, _, _, e⟩ | e | ⟨p, hp, hwf, -, e⟩⟩
    all_goals rw [e] at hw; simp only [Prod.mk.injEq, Res.map] at hw
    · cases hw.1
    · cases hw.1
    · cases hw.1
    · cases hw.1
    · refine ⟨?_, by rw [← hw.2.2]; simp; omega⟩
      intro hm
      rw [← hw.2.1, UdpNotif.tryReassemble_inMessage] at hm
      cases hm
  err s b e s' b' h hd := fun _ => .inl rfl

theorem notif_noFault (clock : Nat → Nat) (s s' : UdpNotif.Codec × Nat) (b b' : Bytes) (h : NotifReady s b) (f : Fault) :
    udpNotifDecode clock s b ≠ (.out (.fault f), s', b') := by
  intro hd
  have hw := notif_out hd
  have := (Props.c18_fault_iff s.1 (clock s.2) b).1 (by rw [hw]; rfl)
  have := h this.1
  omega

end Verif.Pcap
