import Verif.Pcap.Clean
import Verif.Props.PcapReading
import Verif.Props.BmpMsg
import Verif.Props.FlowCodec
/-!
# C198–C205: decoding captures
-/
namespace Verif.Props
open Verif Verif.Pcap Verif.Collector

/-! ## Packets used in examples -/

/-- a datagram from 10.0.0.1 -/
def datagram (sport dport : UInt16) (b : Bytes) : Pcap.Packet := .udp4 anyMisc4 0x0a000001 0x0a000002 sport dport 0 b
/-- a segment from 10.0.0.1 -/
def segment (sport dport : UInt16) (b : Bytes) : Pcap.Packet := .tcp4 anyMisc4 0x0a000001 0x0a000002 anyTcp sport dport b
/-- the flow of a packet of those -/
def flowFrom (sport dport : UInt16) : Pcap.Flow := (datagram sport dport []).item.flow
/-- KEEPALIVE -/
def keepAlive : Bytes := frameOf 19 4 []
/-- an UPDATE that announces the network 224.0.0.0/4, of multicast -/
def badUpdate : Bytes := frameOf 25 2 [0, 0, 0, 0, 4, 224]
/-- the message of `c69_stateless_disproved` -/
def eightFrame : Bytes :=
  bmpFrame 4 (0 :: ((peerAt false 7).write ++ ([0, 1, 0, 5, 0, 0, 8, 0, 1, 128, 8] ++ ([0, 4] ++ (u16be 286 ++ ([0, 0] ++ eightMsg))))))
/-- a packet of UDP-notif with a payload -/
def notif (media : UInt8) (id : UInt8) (payload : Bytes) : Bytes :=
  [0x20 + media, 12] ++ u16be (UInt16.ofNat (12 + payload.length)) ++ [0, 0, 0, 1, 0, 0, 0, id] ++ payload
/-- one that says that its header has 13 octets and that it has 12 of them -/
def shortNotif : Bytes := [0x21, 13, 0, 12, 0, 0, 0, 1, 0, 0, 0, 1]
/-- libraries for which JSON starts with `{`, and everything is text -/
def anyPayloads : Payloads Nat := ⟨fun b => if b.head? = some 0x7b then some b.length else none, fun b => some b.length, fun _ => none⟩
/-- the lines are written without numbers and there is no limit -/
def plainRun : Pcap.Config := ⟨none, false⟩
/-- an IPFIX message without sets -/
def ipfixEmpty : Bytes := [0, 10, 0, 16, 0, 0, 0, 1, 0, 0, 0, 2, 0, 0, 0, 3]
/-- the first four octets of an IPFIX message of 32 -/
def ipfixCut : Bytes := [0, 10, 0, 32]

instance (p : Pcap.Packet) : Decidable p.Fits := by
  cases p <;> simp only [Pcap.Packet.Fits] <;> infer_instance

instance {ε α : Type} (os : List (Res ε α)) : Decidable (AllOk os) := by unfold AllOk; infer_instance

/-- whether a line is a message -/
def NotifLine.isMessage {J : Type} : NotifLine J → Bool
  | .message .. => true
  | .error _ => false

/-- how many lines are messages -/
def messagesIn {J : Type} (ls : List (Option Nat × NotifLine J)) : Nat := (ls.filter fun l => NotifLine.isMessage l.2).length

/-! ## C198 -/

/-- C198 for BGP: a capture that is read to its end is decoded to its end. -/
theorem c198_bgp (lib : Lib) (c : Pcap.Config) (ports : List UInt16) (es : List Event) (hr : (readAll lib (.new es)).2 = true) :
    (load lib c (bgpHandler ports) es).2 = .finished := by
  rw [load_end ?_ hr, bgp_done]
  intro x hx
  exact ⟨_, bgpLine_eq _ _ (decodeAll_noFault _ _ _ x hx)⟩

/-- C198 for flows: a capture that is read to its end is decoded to its end. -/
theorem c198_flow (lib : Lib) (c : Pcap.Config) (reg : Verif.Flow.Registry) (ports : List UInt16) (es : List Event) (hr : (readAll lib (.new es)).2 = true) :
    (load lib c (flowHandler reg ports) es).2 = .finished := by
  rw [load_end ?_ hr, flow_done]
  intro x hx
  obtain ⟨j, hj, _⟩ := plainLine_eq x.2.1 x.2.2 (decodeAll_noFault _ _ _ x hx)
  exact ⟨j, hj⟩

/-- C198 for BMP, in part: it does not go on for ever, and when the decoder does not panic the run is decoded to its end. -/
theorem c198_bmp_partial (lib : Lib) (c : Pcap.Config) (ord : Nat → Bmp.Order) (ports : List UInt16) (es : List Event) :
    (load lib c (bmpHandler ord ports) es).2 ≠ .stuck ∧
    ((readAll lib (.new es)).2 = true → ((bmpHandler ord ports).decodeAll ((readAll lib (.new es)).1.takeWhile c.within) []).2 ≠ .panic →
      (load lib c (bmpHandler ord ports) es).2 = .finished) := by
  refine ⟨load_not_stuck (bmp_not_stuck ord ports _), fun hr hp => ?_⟩
  rw [load_end ?_ hr]
  · have := bmp_not_stuck ord ports ((readAll lib (.new es)).1.takeWhile c.within)
    revert this hp
    cases ((bmpHandler ord ports).decodeAll ((readAll lib (.new es)).1.takeWhile c.within) []).2 <;> simp
  · intro x hx
    obtain ⟨j, hj, _⟩ := plainLine_eq x.2.1 x.2.2 (decodeAll_noFault _ _ _ x hx)
    exact ⟨j, hj⟩

/-- the payload of a packet is what its media type says, and its options have names -/
def Legible {J : Type} (x : Payloads J) : Res UdpNotif.CodecError UdpNotif.Packet → Prop
  | .ok p => (readable x p).isSome = true
  | _ => True

/-- C198 for UDP-notif, in part: datagrams of at least two octets whose payloads can be read. -/
theorem c198_notif_partial {J : Type} (lib : Lib) (c : Pcap.Config) (clock : Nat → Nat) (x : Payloads J) (ports : List UInt16) (es : List Event)
    (hr : (readAll lib (.new es)).2 = true)
    (hp : ∀ y ∈ (readAll lib (.new es)).1, y.2.proto = .udp → y.2.flow.dport ∈ ports → 2 ≤ y.2.payload.length)
    (hl : ∀ y ∈ ((udpNotifHandler clock x ports).decodeAll ((readAll lib (.new es)).1.takeWhile c.within) []).1, Legible x y.2.2) :
    (load lib c (udpNotifHandler clock x ports) es).2 = .finished := by
  rw [load_end ?_ hr, notif_done]
  · intro y hy ht
    have ht : y.2.proto = .udp ∧ y.2.flow.dport ∈ ports := of_decide_eq_true ht
    exact hp y (List.takeWhile_sublist _ |>.subset hy) ht.1 ht.2
  · intro y hy
    have h1 := decodeAll_noFault _ _ _ y hy
    have h2 := hl y hy
    obtain ⟨n, k, r⟩ := y
    rcases r with p | e | f
    · obtain ⟨j, hj⟩ := Option.isSome_iff_exists.1 h2
      exact ⟨.message k p j, by show notifLine x k (.ok p) = _; simp only [notifLine]; rw [hj]⟩
    · exact ⟨.error e, rfl⟩
    · simp at h1

/-- C198 does not hold of BMP: one message is enough. -/
theorem c198_bmp_disproved (lib : Lib) (hlib : lib.Faithful) :
    readAll lib (.new (captureOf [segment 40001 1790 eightFrame])) = ([(1, (segment 40001 1790 eightFrame).item)], true) ∧
    load lib plainRun (bmpHandler (fun _ => asIs) [1790]) (captureOf [segment 40001 1790 eightFrame]) = ([], .panicked) := by
  have hp : ∀ p ∈ [segment 40001 1790 eightFrame], p.Fits := by decide +kernel
  refine ⟨read_capture hlib _ hp, ?_⟩
  rw [load_capture hlib rfl _ _ hp]
  decide +kernel

/-- C198 does not hold of UDP-notif: a packet that says that its header is longer than itself, then two datagrams of one octet. -/
theorem c198_notif_disproved (lib : Lib) (hlib : lib.Faithful) (clock : Nat → Nat) :
    (load lib plainRun (udpNotifHandler clock anyPayloads [10003]) (captureOf [datagram 40000 10003 shortNotif, datagram 40000 10003 [0], datagram 40000 10003 [0]])).2 = .panicked := by
  rw [load_capture hlib rfl _ _ (by decide +kernel)]
  rfl

/-- a segment with two messages and one that is cut, and one for another port -/
example : ((load Ref.lib plainRun (bgpHandler [179]) (captureOf [segment 40001 179 (keepAlive ++ keepAlive), segment 40001 22 [1], segment 40001 179 [0, 1]])).1.length,
    (load Ref.lib plainRun (bgpHandler [179]) (captureOf [segment 40001 179 (keepAlive ++ keepAlive), segment 40001 22 [1], segment 40001 179 [0, 1]])).2) = (2, .finished) := by
  rw [load_capture Ref.faithful rfl _ _ (by decide +kernel)]
  decide +kernel

/-! ## C199 -/

/-- C199 for BGP: whatever the segments and whatever is between them, what comes out for a flow is what the decoder makes of the octets of its segments
one after the other, when they are all well formed. -/
theorem c199_bgp (ports : List UInt16) (is : List (Nat × Item)) (k : Pcap.Flow) {os : List (Res Bgp.MsgErr (Bgp.Msg × Bgp.Ignored))} {s' : Bgp.Codec} {b' : Bytes}
    (hd : Drains Bgp.Codec.decode (bgpHandler ports).init ((bgpHandler ports).payloadsOf k is).flatten os s' b') (hos : AllOk os) :
    (bgpHandler ports).resultsFor k is = os :=
  results_stream bgp_emptyWaits bgp_progress (bgp_done ports is) ((c08_chunks _ _ _ _ _).2 hd) hos

/-- C199 for BMP, for a run that ends. -/
theorem c199_bmp (ord : Nat → Bmp.Order) (ports : List UInt16) (is : List (Nat × Item)) (hr : ((bmpHandler ord ports).decodeAll is []).2 = .done) (k : Pcap.Flow)
    {os : List (Res Bmp.BmpErr Bmp.BmpMsg)} {s' : Bmp.Codec} {b' : Bytes}
    (hd : Drains (Bmp.Codec.decode ord) .new ((bmpHandler ord ports).payloadsOf k is).flatten os s' b') (hos : AllOk os) :
    (bmpHandler ord ports).resultsFor k is = os :=
  results_stream (bmp_emptyWaits ord) (bmp_ok_progress ord) hr ((c30_chunks ord _ _ rfl _ _ _).2 hd) hos

/-- three segments that cut two messages in the middle, and a segment of another flow in between -/
def cutSegments : List (Nat × Item) :=
  [(1, (segment 40001 179 (keepAlive.take 7)).item), (2, (segment 40002 179 (keepAlive.take 5)).item), (3, (segment 40001 179 (keepAlive.drop 7 ++ keepAlive.take 3)).item),
    (6, (segment 40001 179 (keepAlive.drop 3)).item)]

example : (bgpHandler [179]).resultsFor (flowFrom 40001 179) cutSegments = [.ok (.keepAlive, .none), .ok (.keepAlive, .none)] := by
  refine c199_bgp [179] cutSegments _ (s' := (bgpHandler [179]).init) (b' := []) ?_ (by decide)
  exact .item (b1 := keepAlive) rfl rfl (.item (b1 := []) rfl rfl (.wait rfl))

/-- C199 does not hold of segments that are sent again: the same octets of the stream, captured twice, are two messages. -/
theorem c199_disproved (lib : Lib) (hlib : lib.Faithful) :
    ∃ p, p = segment 40001 179 keepAlive ∧ (load lib plainRun (bgpHandler [179]) (captureOf [p])).1.length = 1 ∧
      (load lib plainRun (bgpHandler [179]) (captureOf [p, p])).1.length = 2 := by
  refine ⟨_, rfl, ?_, ?_⟩ <;> rw [load_capture hlib rfl _ _ (by decide +kernel)] <;> decide +kernel

/-- nor of segments that were captured in another order than that of their sequence numbers -/
theorem c199_disproved_order :
    (bgpHandler [179]).resultsFor (flowFrom 40001 179) [(1, (segment 40001 179 (keepAlive.drop 18)).item), (2, (segment 40001 179 (keepAlive.take 18)).item)]
      ≠ (bgpHandler [179]).resultsFor (flowFrom 40001 179) [(1, (segment 40001 179 (keepAlive.take 18)).item), (2, (segment 40001 179 (keepAlive.drop 18)).item)] := by
  unfold Handler.resultsFor
  rw [compute_eq, compute_eq]
  decide +kernel

/-! ## C200 -/

/-- C200 for BGP: what comes out for a flow, with the numbers of the frames, is what comes out of a capture with only the packets of that flow. -/
theorem c200_bgp (ports : List UInt16) (is : List (Nat × Item)) (k : Pcap.Flow) :
    ((bgpHandler ports).decodeAll is []).1.filter (fun x => decide (x.2.1 = k)) = ((bgpHandler ports).decodeAll (is.filter fun x => decide (x.2.flow = k)) []).1 :=
  (decodeAll_flow _ k is [] [] rfl (bgp_done ports is)).2

/-- C200 for flows: so it is for templates, too. -/
theorem c200_flow (reg : Verif.Flow.Registry) (ports : List UInt16) (is : List (Nat × Item)) (k : Pcap.Flow) :
    ((flowHandler reg ports).decodeAll is []).1.filter (fun x => decide (x.2.1 = k)) = ((flowHandler reg ports).decodeAll (is.filter fun x => decide (x.2.flow = k)) []).1 :=
  (decodeAll_flow _ k is [] [] rfl (flow_done reg ports is)).2

/-- C200 for BMP and UDP-notif (and any handler), in part: for runs that end. -/
theorem c200_partial {σ ε α J : Type} (h : Handler σ ε α J) (is : List (Nat × Item)) (k : Pcap.Flow) (hd : (h.decodeAll is []).2 = .done) :
    (h.decodeAll is []).1.filter (fun x => decide (x.2.1 = k)) = (h.decodeAll (is.filter fun x => decide (x.2.flow = k)) []).1 :=
  (decodeAll_flow h k is [] [] rfl hd).2

/-- C200 does not hold of UDP-notif: three datagrams of a sender take the message of another one with them. -/
theorem c200_disproved (lib : Lib) (hlib : lib.Faithful) :
    ∃ bad good, bad = [datagram 40000 10003 shortNotif, datagram 40000 10003 [0], datagram 40000 10003 [0]] ∧ good = datagram 40001 10003 (notif 1 1 [0x7b, 0x7d]) ∧
      messagesIn (load lib plainRun (udpNotifHandler (fun _ => 0) anyPayloads [10003]) (captureOf [good])).1 = 1 ∧
      messagesIn (load lib plainRun (udpNotifHandler (fun _ => 0) anyPayloads [10003]) (captureOf (bad ++ [good]))).1 = 0 := by
  refine ⟨_, _, rfl, rfl, ?_, ?_⟩ <;> rw [load_capture hlib rfl _ _ (by decide +kernel)] <;> decide +kernel

example : ((bgpHandler [179]).decodeAll cutSegments []).1.filter (fun x => decide (x.2.1 = flowFrom 40001 179)) =
    [(3, flowFrom 40001 179, .ok (.keepAlive, .none)), (6, flowFrom 40001 179, .ok (.keepAlive, .none))] := by
  rw [compute_eq]; decide +kernel

/-! ## C201 -/

/-- C201, in part: when no datagram, decoded with the codec of its flow and nothing in front, leaves octets behind, each is decoded on its own. -/
theorem c201_partial {σ ε α J : Type} (h : Handler σ ε α J) (is : List (Nat × Item)) (hl : (h.alone is []).left = false) :
    h.decodeAll is [] = ((h.alone is []).results, (h.alone is []).stop) :=
  alone_eq h is [] [] (fun _ => rfl) hl

/-- as `alone`, by recursion on the number of octets, for examples -/
theorem alone_step {σ ε α J : Type} (h : Handler σ ε α J) (n : Nat) (i : Item) (is : List (Nat × Item)) (t : List (Pcap.Flow × σ)) :
    h.alone ((n, i) :: is) t = if h.takes i then
      match decodeRounds h.dec i.payload.length ((t.look i.flow).getD h.init) i.payload with
      | (rs, .done, s, b) =>
        ⟨rs.map (fun x => (n, i.flow, x)) ++ (h.alone is (put t i.flow s)).results, (h.alone is (put t i.flow s)).stop, !b.isEmpty || (h.alone is (put t i.flow s)).left⟩
      | (_, st, _) => ⟨[], st, false⟩
    else h.alone is t := by
  rw [Handler.alone, ← decodeRounds_eq h.dec _ _ i.payload (Nat.le_refl _)]
  rfl

example : ((flowHandler Flow24.reg [4739]).alone [(1, (datagram 40000 4739 ipfixEmpty).item), (3, (datagram 40001 4739 ipfixEmpty).item), (4, (datagram 40000 4739 ipfixEmpty).item)] []).left = false := by
  rw [alone_step, alone_step, alone_step]
  decide +kernel

/-- C201 does not hold: a datagram that is cut is kept, and put in front of the next one of its sender, which is lost. -/
theorem c201_disproved :
    ∃ cut whole, cut = (datagram 40000 4739 ipfixCut).item ∧ whole = (datagram 40000 4739 ipfixEmpty).item ∧
      (((flowHandler Flow24.reg [4739]).decodeAll [(1, whole)] []).1.map fun x => x.2.2.isOk) = [true] ∧
      (((flowHandler Flow24.reg [4739]).decodeAll [(1, cut), (2, whole)] []).1.map fun x => x.2.2.isOk) = [] := by
  refine ⟨_, _, rfl, rfl, ?_, ?_⟩ <;> rw [compute_eq] <;> decide +kernel

/-! ## C202 -/

/-- C202: with a limit, what is written is what comes out of the packets of the frames up to that number, and of all of them. -/
theorem c202_lines {σ ε α J : Type} (lib : Lib) (h : Handler σ ε α J) (n : Nat) (b : Bool) (es : List Event) :
    (load lib ⟨some n, b⟩ h es).1 = (h.linesOf ⟨some n, b⟩ (h.decodeAll ((readAll lib (.new es)).1.filter fun x => decide (x.1 ≤ n)) []).1).1 := by
  rw [load_eq]
  have hs := (c193_once lib es).1
  have : ∀ l : List (Nat × Item), l.Pairwise (fun a b => a.1 < b.1) → l.takeWhile (Pcap.Config.within ⟨some n, b⟩) = l.filter fun x => decide (x.1 ≤ n) := by
    intro l hl
    induction l with
    | nil => rfl
    | cons x l ih =>
      obtain ⟨h1, h2⟩ := List.pairwise_cons.1 hl
      by_cases hx : x.1 ≤ n
      · rw [List.takeWhile_cons_of_pos (by simpa [Pcap.Config.within] using hx), List.filter_cons_of_pos (by simpa using hx), ih h2]
      · rw [List.takeWhile_cons_of_neg (by simpa [Pcap.Config.within] using hx), List.filter_cons_of_neg (by simpa using hx), eq_comm, List.filter_eq_nil_iff]
        intro y hy
        have := h1 y hy
        simp only [decide_eq_true_eq]; omega
  simp only [this _ hs]

/-- C202: the number of a line is that of the frame in which its message ended; it is that of a frame of the capture whose packet the handler takes, and not
above the limit. -/
theorem c202_numbers {σ ε α J : Type} (lib : Lib) (c : Pcap.Config) (h : Handler σ ε α J) (es : List Event) (x : Option Nat × J) (hx : x ∈ (load lib c h es).1) :
    if c.showFrame then ∃ i, i ∈ (readAll lib (.new es)).1 ∧ x.1 = some i.1 ∧ h.takes i.2 = true ∧ ∀ m, c.inputSize = some m → i.1 ≤ m
    else x.1 = none := by
  rw [load_eq] at hx
  simp only at hx
  have h1 : ∀ rs : List (Nat × Pcap.Flow × Res ε α), x ∈ (h.linesOf c rs).1 → ∃ r ∈ rs, x.1 = if c.showFrame then some r.1 else none := by
    intro rs hx
    induction rs with
    | nil => simp [Handler.linesOf] at hx
    | cons r rs ih =>
      obtain ⟨n, f, r⟩ := r
      cases hl : h.line f r with
      | ok j =>
        rw [linesOf_ok hl] at hx
        rcases List.mem_cons.1 hx with rfl | hx
        · exact ⟨_, List.mem_cons_self, rfl⟩
        · obtain ⟨r, hr, e⟩ := ih hx
          exact ⟨r, List.mem_cons_of_mem _ hr, e⟩
      | err e => exact e.elim
      | fault e => rw [linesOf_fault hl] at hx; simp at hx
  obtain ⟨r, hr, e⟩ := h1 _ hx
  have h2 : ∀ (is : List (Nat × Item)) (t : Peers σ), r ∈ (h.decodeAll is t).1 → ∃ i ∈ is, i.1 = r.1 ∧ h.takes i.2 = true := by
    intro is
    induction is with
    | nil => intro t hr; simp [Handler.decodeAll] at hr
    | cons y is ih =>
      obtain ⟨n, i⟩ := y
      intro t hr
      rw [Handler.decodeAll] at hr
      cases hi : h.takes i with
      | false =>
        rw [decode_skip hi] at hr
        simp only [List.map_nil, List.nil_append] at hr
        obtain ⟨i', h1, h2⟩ := ih _ hr
        exact ⟨i', List.mem_cons_of_mem _ h1, h2⟩
      | true =>
        rcases hd : h.decode i t with ⟨rs, st, t'⟩
        rw [hd] at hr
        cases st with
        | done =>
          rcases List.mem_append.1 hr with hr | hr
          · obtain ⟨z, _, rfl⟩ := List.mem_map.1 hr
            exact ⟨_, List.mem_cons_self, rfl, hi⟩
          · obtain ⟨i', h1, h2⟩ := ih _ hr
            exact ⟨i', List.mem_cons_of_mem _ h1, h2⟩
        | panic => simp at hr
        | stuck => simp at hr
  obtain ⟨i, hi, h3, h4⟩ := h2 _ _ hr
  split
  · rename_i hs
    rw [if_pos hs] at e
    refine ⟨i, (List.takeWhile_sublist _).subset hi, by rw [e, h3], h4, fun m hm => ?_⟩
    have : c.within i = true := List.all_eq_true.1 List.all_takeWhile i hi
    simpa [Pcap.Config.within, hm] using this
  · rename_i hs
    rw [if_neg hs] at e
    exact e

/-- the second of three frames is not for BGP; with a limit of two one line is written, with its number -/
example : ((load Ref.lib ⟨some 2, true⟩ (bgpHandler [179]) (captureOf [segment 40001 179 keepAlive, segment 40001 22 [1], segment 40001 179 keepAlive])).1.map (·.1)) = [some 1] := by
  rw [c202_lines, read_capture Ref.faithful _ (by decide +kernel), compute_eq]
  decide +kernel

/-- C202 does not hold of how a run ends: the reader looks behind the frame of the limit for the next packet, and a packet of GRE there makes it panic. -/
theorem c202_disproved (lib : Lib) (hlib : lib.Faithful) :
    ∃ es, es = captureOf [segment 40001 179 keepAlive] ++ [.legacy greFrame greFrame.length] ∧ (load lib ⟨some 1, false⟩ (bgpHandler [179]) (captureOf [segment 40001 179 keepAlive])).2 = .finished ∧
      (load lib ⟨some 1, false⟩ (bgpHandler [179]) es).2 = .panicked := by
  refine ⟨_, rfl, ?_, ?_⟩
  · exact c198_bgp _ _ _ _ (by rw [read_capture hlib _ (by decide +kernel)])
  · have hread : readAll lib (.new (captureOf [segment 40001 179 keepAlive] ++ [.legacy greFrame greFrame.length])) = ([(1, (segment 40001 179 keepAlive).item)], false) := by
      generalize hes : captureOf [segment 40001 179 keepAlive] ++ [.legacy greFrame greFrame.length] = es
      have h0 : outcomeAt lib es 0 = .ok none := by subst hes; rfl
      have h1 : outcomeAt lib es 1 = .ok (some (segment 40001 179 keepAlive).item) := by
        have := outcome_packet hlib (es := es) (k := 1) (l := 1) (d := etherFrame addresses [] (segment 40001 179 keepAlive).etherType ((segment 40001 179 keepAlive).octets []))
          ⟨⟨_, 0, by subst hes; rfl, rfl, by subst hes; rfl⟩⟩ (p := segment 40001 179 keepAlive) (by decide +kernel) (ts := []) (by simp) (by simp) (.ethernet addresses rfl)
        simpa [segment, Packet.isUdp4, Packet.item] using this
      have h2 : outcomeAt lib es 2 = .fault .panic := by
        rw [outcome_frame (l := 1) (d := greFrame) ⟨⟨_, 0, by subst hes; rfl, rfl, by subst hes; rfl⟩⟩]
        unfold greFrame
        rw [parse_captured hlib (ts := []) (by simp) (by simp) (t := 0x0800) (.inl rfl) (b := ipv4Packet anyMisc4 0x0a000001 0x0a000002 47 [0, 0, 8, 0, 0x45] [])
          (.ethernet macs rfl)]
        simp only [parseL3, if_true]
        rw [hlib.gre4 _ _ _ _ (by decide) (by decide) rfl]
        rfl
      rw [c193_first_panic lib es 2 (by
        intro k hk
        rcases k with _ | _ | k
        · rw [h0]; rfl
        · rw [h1]; rfl
        · omega) (by rw [h2]; rfl)]
      have e0 : foundAt lib es 0 = none := by unfold foundAt; rw [h0]
      have e1 : foundAt lib es 1 = some (1, (segment 40001 179 keepAlive).item) := by
        unfold foundAt; rw [h1]; subst hes; rfl
      simp [List.range, List.range.loop, e0, e1]
    rw [load_eq, hread]
    simp only [compute_eq]
    decide +kernel

/-! ## C203 -/

/-- C203, in part: of the results of a packet all but the last are messages; after an error nothing is kept of the flow's octets, so that the next packet starts anew. -/
theorem c203_partial {σ ε α : Type} (d : Decode σ ε α) (s : σ) (b : Bytes) (pre post : List (Res ε α)) (e : ε) (h : (decodeBuffer d s b).1 = pre ++ .err e :: post) :
    post = [] ∧ AllOk pre ∧ (decodeBuffer d s b).2.2.2 = [] := by
  generalize hn : b.length = n
  induction n using Nat.strongRecOn generalizing s b pre with
  | _ n ih =>
    by_cases hb : b = []
    · subst hb; rw [decodeBuffer_nil] at h; simp at h
    · rw [decodeBuffer_step _ s hb] at h ⊢
      rcases hd : d s b with ⟨_ | x | e' | f, s', b'⟩
      · rw [hd] at h; simp at h
      · rw [hd] at h
        simp only at h ⊢
        split at h
        · rename_i hp
          rw [if_pos hp]
          cases pre with
          | nil => simp at h
          | cons y pre =>
            simp only [List.cons_append, List.cons.injEq] at h
            obtain ⟨i1, i2, i3⟩ := ih b'.length (by omega) s' b' pre h.2 rfl
            refine ⟨i1, ?_, i3⟩
            intro o ho
            rcases List.mem_cons.1 ho with rfl | ho
            · rw [← h.1]; rfl
            · exact i2 o ho
        · cases pre with
          | nil => simp at h
          | cons y pre => simp at h
      · rw [hd] at h
        cases pre with
        | nil => simp only [List.nil_append, List.cons.injEq] at h; exact ⟨h.2.symm, by intro o ho; simp at ho, rfl⟩
        | cons y pre => simp at h
      · rw [hd] at h; simp at h

/-- C203 does not hold: the message behind a malformed one is decoded when it comes in a segment of its own, and lost when it comes in the same. -/
theorem c203_disproved :
    ∃ bad good, bad = frameOf 19 9 [] ∧ good = keepAlive ∧
      (((bgpHandler [179]).decodeAll [(1, (segment 40001 179 bad).item), (2, (segment 40001 179 good).item)] []).1.map fun x => x.2.2.isOk) = [false, true] ∧
      (((bgpHandler [179]).decodeAll [(1, (segment 40001 179 (bad ++ good)).item)] []).1.map fun x => x.2.2.isOk) = [false] := by
  refine ⟨_, _, rfl, rfl, ?_, ?_⟩ <;> rw [compute_eq] <;> decide +kernel

/-! ## C204 -/

/-- what the payload of a packet is written as: JSON and CBOR as the values they are, XML as its text, and others not at all -/
inductive Rendered {J : Type} (x : Payloads J) (p : UdpNotif.Packet) : Option J → Prop where
  | json {j : J} : p.mediaType = .yangDataJson → x.json p.payload = some j → Rendered x p (some j)
  | xml {j : J} : p.mediaType = .yangDataXml → x.utf8 p.payload = some j → Rendered x p (some j)
  | cbor {j : J} : p.mediaType = .yangDataCbor → x.cbor p.payload = some j → Rendered x p (some j)
  | other : p.mediaType ≠ .yangDataJson → p.mediaType ≠ .yangDataXml → p.mediaType ≠ .yangDataCbor → Rendered x p none

theorem rendered_of {J : Type} {x : Payloads J} {p : UdpNotif.Packet} {j : Option J} (h : readable x p = some j) : Rendered x p j := by
  unfold readable at h
  split at h
  · cases h
  · split at h
    · next hm => obtain ⟨v, hv, rfl⟩ := Option.map_eq_some_iff.1 h; exact .json hm hv
    · next hm => obtain ⟨v, hv, rfl⟩ := Option.map_eq_some_iff.1 h; exact .xml hm hv
    · next hm => obtain ⟨v, hv, rfl⟩ := Option.map_eq_some_iff.1 h; exact .cbor hm hv
    · next h1 h2 h3 => cases h; exact .other h1 h2 h3

/-- C204, in part: as long as the payloads can be read, there is a line for each result, in order: the packet with its payload in its place, or the error. -/
theorem c204_partial {J : Type} (clock : Nat → Nat) (x : Payloads J) (ports : List UInt16) (c : Pcap.Config) (is : List (Nat × Item))
    (hl : ∀ y ∈ ((udpNotifHandler clock x ports).decodeAll is []).1, Legible x y.2.2) (i : Nat) (n : Nat) (k : Pcap.Flow) :
    (∀ p, ((udpNotifHandler clock x ports).decodeAll is []).1[i]? = some (n, k, .ok p) → ∃ j, Rendered x p j ∧
      ((udpNotifHandler clock x ports).linesOf c ((udpNotifHandler clock x ports).decodeAll is []).1).1[i]? = some (if c.showFrame then some n else none, .message k p j)) ∧
    (∀ e, ((udpNotifHandler clock x ports).decodeAll is []).1[i]? = some (n, k, .err e) →
      ((udpNotifHandler clock x ports).linesOf c ((udpNotifHandler clock x ports).decodeAll is []).1).1[i]? = some (if c.showFrame then some n else none, .error e)) := by
  have hf := decodeAll_noFault (udpNotifHandler clock x ports) is []
  generalize ((udpNotifHandler clock x ports).decodeAll is []).1 = rs at hl hf
  induction rs generalizing i with
  | nil => simp
  | cons r rs ih =>
    obtain ⟨m, f, r⟩ := r
    have hl1 := hl _ List.mem_cons_self
    have hf1 := hf _ List.mem_cons_self
    have hj : ∃ j, (udpNotifHandler clock x ports).line f r = .ok j ∧ (∀ p, r = .ok p → ∃ v, Rendered x p v ∧ j = .message f p v) ∧ (∀ e, r = .err e → j = .error e) := by
      rcases r with p | e | g
      · obtain ⟨v, hv⟩ := Option.isSome_iff_exists.1 hl1
        refine ⟨.message f p v, by show notifLine x f (.ok p) = _; simp only [notifLine]; rw [hv], ?_, by simp⟩
        intro q hq; cases hq; exact ⟨v, rendered_of hv, rfl⟩
      · exact ⟨.error e, rfl, by simp, by intro e' h; cases h; rfl⟩
      · simp at hf1
    obtain ⟨j, h1, h2, h3⟩ := hj
    rw [linesOf_ok h1]
    cases i with
    | zero =>
      simp only [List.getElem?_cons_zero, Option.some.injEq, Prod.mk.injEq]
      refine ⟨?_, ?_⟩
      · rintro p ⟨rfl, rfl, rfl⟩
        obtain ⟨v, hv, rfl⟩ := h2 p rfl
        exact ⟨v, hv, rfl, rfl⟩
      · rintro e ⟨rfl, rfl, rfl⟩
        exact ⟨rfl, h3 e rfl⟩
    | succ i =>
      simp only [List.getElem?_cons_succ]
      exact ih i (fun y hy => hl y (List.mem_cons_of_mem _ hy)) (fun y hy => hf y (List.mem_cons_of_mem _ hy))

/-- C204 does not hold: a payload that is not what its media type says ends the run, and the packets behind it are lost. -/
theorem c204_disproved (lib : Lib) (hlib : lib.Faithful) :
    ∃ good bad, good = datagram 40001 10003 (notif 1 1 [0x7b, 0x7d]) ∧ bad = datagram 40000 10003 (notif 1 1 [0x21]) ∧
      messagesIn (load lib plainRun (udpNotifHandler (fun _ => 0) anyPayloads [10003]) (captureOf [good, good])).1 = 2 ∧
      messagesIn (load lib plainRun (udpNotifHandler (fun _ => 0) anyPayloads [10003]) (captureOf [good, bad, good])).1 = 1 ∧
      (load lib plainRun (udpNotifHandler (fun _ => 0) anyPayloads [10003]) (captureOf [good, bad, good])).2 = .panicked := by
  refine ⟨_, _, rfl, rfl, ?_, ?_, ?_⟩ <;> rw [load_capture hlib rfl _ _ (by decide +kernel)] <;> decide +kernel

/-- nor of options without a name: they are legal in a packet, and no key of JSON -/
theorem c204_disproved_option (lib : Lib) (hlib : lib.Faithful) :
    (load lib plainRun (udpNotifHandler (fun _ => 0) anyPayloads [10003])
      (captureOf [datagram 40000 10003 ([0x21, 15, 0, 17, 0, 0, 0, 1, 0, 0, 0, 1] ++ [77, 3, 9] ++ [0x7b, 0x7d])])).2 = .panicked := by
  rw [load_capture hlib rfl _ _ (by decide +kernel)]; decide +kernel

/-! ## C205 -/

theorem lastOk_snoc {ε α : Type} (c : Bool) (q : List (Res ε α)) (x : α) : lastOk c (q ++ [.ok x]) = true := by
  induction q generalizing c with
  | nil => rfl
  | cons y q ih => exact ih _

/-- C205, in part: a message that is the first of its flow, or that comes directly behind another message of it, is written as itself, with its flow. -/
theorem c205_partial (ports : List UInt16) (is : List (Nat × Item)) (k : Pcap.Flow) (pre post : List (Res Bgp.MsgErr (Bgp.Msg × Bgp.Ignored))) (m : Bgp.Msg) (g : Bgp.Ignored)
    (h : (bgpHandler ports).resultsFor k is = pre ++ .ok (m, g) :: post) (hp : pre = [] ∨ ∃ q x, pre = q ++ [.ok x]) :
    (bgpHandler ports).line k (.ok (m, g)) = .ok (.message k m) := by
  rw [(resultsFor_eq (bgp_done ports is) k).1] at h
  have hc := clean_run ports k (is.filter fun x => decide (x.2.flow = k) && (bgpHandler ports).takes x.2) [] (fun x hx => by
    have := (List.mem_filter.1 hx).2
    simp only [Bool.and_eq_true, decide_eq_true_eq] at this
    exact this.1) ⟨rfl, rfl, rfl, rfl⟩ true (fun _ => rfl)
  rw [h] at hc
  have hg : g = .none := by
    refine clean_at (x := (m, g)) hc ?_
    rcases hp with rfl | ⟨q, x, rfl⟩
    · rfl
    · exact lastOk_snoc _ _ _
  subst hg
  rfl

/-- C205 does not hold of a message behind a malformed one: the KEEPALIVE is decoded and a line is written that says something else. -/
theorem c205_disproved :
    (((bgpHandler [179]).decodeAll [(1, (segment 40001 179 badUpdate).item), (2, (segment 40001 179 keepAlive).item)] []).1.map fun x =>
      match bgpLine x.2.1 x.2.2 with
      | .ok (.message _ _) => 0
      | .ok .unexpected => 1
      | .ok (.error _) => 2
      | _ => 3) = [2, 1] := by
  rw [compute_eq]; decide +kernel

example : (bgpHandler [179]).line (flowFrom 40001 179) (.ok (.keepAlive, .none)) = .ok (.message (flowFrom 40001 179) .keepAlive) := by
  refine c205_partial [179] cutSegments (flowFrom 40001 179) [.ok (.keepAlive, .none)] [] .keepAlive .none ?_ (.inr ⟨[], _, rfl⟩)
  refine c199_bgp [179] cutSegments _ (s' := (bgpHandler [179]).init) (b' := []) ?_ (by decide)
  exact .item (b1 := keepAlive) rfl rfl (.item (b1 := []) rfl rfl (.wait rfl))

end Verif.Props
