import Verif.Service.DatagramUsage
import Verif.Props.FlowCodec
import Verif.Props.UdpNotif
/-!
# C167–C176: the actors that receive datagrams, of UDP-notif and of flows
-/
namespace Verif.Props
open Verif Verif.Service Verif.Collector

variable {σ π : Type}

namespace Dgram
open Flow24

def p1 : Addr := ⟨1, 1000⟩
def p2 : Addr := ⟨2, 2000⟩
/-- all channels are open, all sends are done -/
def dgram (now : Nat) (p : Addr) (b : Bytes) : Event := .datagram now p b (fun _ _ => false) fun _ => .sent
/-- a message with template 256 -/
def tpl : Bytes := message (set 2 tplA)
/-- a message with a record of template 256 -/
def record : Bytes := message (set 256 [6, 10, 0, 0, 1])
/-- who gets what, for the examples -/
def told (x : List (Addr × Flow.FlowInfo × Sending)) : List (Addr × Sending) := x.map fun o => (o.1, o.2.2)
/-- a hash for the examples -/
def hash : Nat → Nat := fun x => x

end Dgram
open Dgram

/-- the first subscriptions get 1, 2, …: the one asked for after `pre` -/
def subscriptionId (pre : List Event) : UInt32 := UInt32.ofNat (subscriptions pre + 1)

theorem subscriptionId_toNat {pre : List Event} (h : subscriptions pre + 1 < 2 ^ 32) : (subscriptionId pre).toNat = subscriptions pre + 1 := by
  unfold subscriptionId
  rw [UInt32.toNat_ofNat']
  omega

/-- the actor at the time it takes a subscription, and after -/
theorem at_subscribe (codec : Codec σ π) (hash : Nat → Nat) (i : Nat) (ad : Addr) {pre post : List Event} {chans : List Chan} {heard : Bool}
    (hr : Runs codec hash (Actor.new i ad) (pre ++ [.command (.subscribe chans heard)]))
    (hn : subscriptions (pre ++ .command (.subscribe chans heard) :: post) + 1 < 2 ^ 32) :
    ∃ a : Actor σ, ((Actor.new i ad).run codec hash (pre ++ [.command (.subscribe chans heard)])).1 = a ∧ Sound a ∧
      a.next.toNat = subscriptions pre + 2 ∧
      Agrees codec a (knowledge codec (fun _ => codec.fresh) pre) ∧
      a.subscribers.look (subscriptionId pre) = (if heard then some chans else none) ∧
      ((Actor.new i ad).run codec hash (pre ++ [.command (.subscribe chans heard)])).2.1 =
        ((Actor.new i ad).run codec hash pre).2.1 ++ (if heard then [.subscribed ((Actor.new i ad).run codec hash pre).1.id (subscriptionId pre)] else []) := by
  rw [subscriptions_append, subscriptions_cons] at hn
  have hone : subscriptions [Event.command (.subscribe chans heard)] = 1 := rfl
  rw [hone] at hn
  obtain ⟨h1, h2⟩ := runs_append hr
  have hnext : (Actor.new i ad : Actor σ).next.toNat = 1 := rfl
  obtain ⟨h3, h4⟩ := run_sound pre (sound_new i ad) (by rw [hnext]; exact Nat.one_pos) (by rw [hnext]; omega) h1
  rw [hnext] at h4
  have h5 := run_agrees pre (agrees_new codec i ad) h1
  have hid : ((Actor.new i ad).run codec hash pre).1.next = subscriptionId pre := UInt32.toNat.inj (by
    rw [h4, subscriptionId_toNat (by omega)]; omega)
  rw [run_append _ _ h1]
  refine ⟨_, rfl, ?_⟩
  generalize ((Actor.new i ad).run codec hash pre).1 = a at *
  cases heard with
  | true =>
    have hst := step_subscribe (codec := codec) (hash := hash) a chans
    obtain ⟨h6, h7⟩ := step_sound h3 (by omega) (by rw [hone]; omega) hst
    rw [run_cons_of hst]
    simp only [Actor.run, List.append_nil]
    refine ⟨h6, by rw [h7, h4, hone]; omega, h5, ?_, by rw [hid]; rfl⟩
    rw [← hid]
    show (put a.subscribers a.next chans).look a.next = _
    rw [lookup_put, if_pos rfl]; rfl
  | false =>
    have hst : a.step codec hash (.command (.subscribe chans false)) =
      ({ a with next := a.next + 1, subscribers := del (put a.subscribers a.next chans) a.next }, [], none) := rfl
    obtain ⟨h6, h7⟩ := step_sound h3 (by omega) (by rw [hone]; omega) hst
    rw [run_cons_of hst]
    simp only [Actor.run, List.append_nil]
    refine ⟨h6, by rw [h7, h4, hone]; omega, h5, ?_, by simp⟩
    rw [← hid]
    show (del (put a.subscribers a.next chans) a.next).look a.next = _
    rw [lookup_del, if_pos rfl]; rfl

/-! ## C167 -/

/-- C167: a subscriber is sent everything that is decoded after it subscribed, once and in order, as long as it does not unsubscribe and one of
its channels is open whenever something is decoded; nothing is sent to it before -/
theorem c167_delivered (codec : Codec σ π) (hash : Nat → Nat) (i : Nat) (ad : Addr) {pre post : List Event} {chans : List Chan}
    (hn : subscriptions (pre ++ .command (.subscribe chans true) :: post) + 1 < 2 ^ 32)
    (hr : Runs codec hash (Actor.new i ad) (pre ++ .command (.subscribe chans true) :: post))
    (hst : Stays (subscriptionId pre) post)
    (ho : Open (subscriptionId pre) chans (messages codec (knowledge codec (fun _ => codec.fresh) pre) post)) :
    ∃ before after x, ((Actor.new i ad).run codec hash (pre ++ .command (.subscribe chans true) :: post)).2.1 =
        before ++ .subscribed x (subscriptionId pre) :: after ∧
      offersTo (subscriptionId pre) before = [] ∧
      offersTo (subscriptionId pre) after =
        (messages codec (knowledge codec (fun _ => codec.fresh) pre) post).map fun m => (m.peer, m.content, m.sending (subscriptionId pre)) := by
  have hsplit : pre ++ .command (.subscribe chans true) :: post = (pre ++ [.command (.subscribe chans true)]) ++ post := by simp
  rw [hsplit] at hr
  obtain ⟨hr1, hr2⟩ := runs_append hr
  obtain ⟨a, ha, h1, h2, h3, h4, h5⟩ := at_subscribe (post := post) codec hash i ad hr1 hn
  rw [ha] at hr2
  have hn' := hn
  rw [subscriptions_append, subscriptions_cons] at hn'
  have hone : subscriptions [Event.command (.subscribe chans true)] = 1 := rfl
  obtain ⟨h6, -⟩ := run_offers post h3 h1 (by omega) (by omega) hr2 h4 hst ho
  rw [hsplit, run_append _ _ hr1, h5, ha]
  refine ⟨((Actor.new i ad).run codec hash pre).2.1, (a.run codec hash post).2.1, ((Actor.new i ad).run codec hash pre).1.id, by simp, ?_, h6⟩
  exact run_before pre (sound_new i ad) Nat.one_pos (by show 1 + _ < _; omega) (by
    rw [subscriptionId_toNat (by omega)]; show 1 + _ ≤ _; omega)

/-- templates of two peers and two records: the subscriber that comes after the templates gets both, in order -/
example : told (offersTo 1 ((Actor.new 7 ⟨0, 0⟩).run (flow Flow24.reg) hash
      ([dgram 0 p1 tpl, dgram 0 p2 tpl] ++ .command (.subscribe [5] true) :: [dgram 1 p2 record, .command .peers, dgram 2 p1 record])).2.1) =
    [(p2, .sent), (p1, .sent)] := by decide +kernel

/-! ## C168 -/

/-- C168: nothing is sent to a subscriber once it has unsubscribed -/
theorem c168_unsubscribed (codec : Codec σ π) (hash : Nat → Nat) (i : Nat) (ad : Addr) {pre post : List Event} {s : UInt32}
    (hn : subscriptions (pre ++ .command (.unsubscribe s) :: post) + 1 < 2 ^ 32) (hs : s.toNat ≤ subscriptions pre)
    (hr : Runs codec hash (Actor.new i ad) pre) :
    ∃ after, ((Actor.new i ad).run codec hash (pre ++ .command (.unsubscribe s) :: post)).2.1 = ((Actor.new i ad).run codec hash pre).2.1 ++ after ∧
      offersTo s after = [] := by
  rw [subscriptions_append, subscriptions_cons] at hn
  have hnext : (Actor.new i ad : Actor σ).next.toNat = 1 := rfl
  obtain ⟨h3, h4⟩ := run_sound pre (sound_new i ad) (by rw [hnext]; exact Nat.one_pos) (by rw [hnext]; omega) hr
  rw [hnext] at h4
  rw [run_append _ _ hr]
  refine ⟨_, rfl, ?_⟩
  generalize ((Actor.new i ad).run codec hash pre).1 = a at *
  simp only [Actor.run]
  rcases hst : a.step codec hash (.command (.unsubscribe s)) with ⟨a', out, x | _⟩
  · have ho := (step_command_offers hst).1 s
    obtain ⟨h5, h6⟩ := step_sound h3 (by omega) (by omega) hst
    simp only
    rw [offersTo_append, ho, List.nil_append]
    refine run_gone post h5 (by omega) (by omega) ?_ (by omega)
    simp [Actor.step, Actor.handle] at hst
    obtain ⟨rfl, -⟩ := hst
    show (del a.subscribers s).look s = none
    rw [lookup_del, if_pos rfl]
  · exact (step_command_offers hst).1 s

/-- C168: nothing is sent to a subscriber that did not hear that it is subscribed, nor once something was decoded while all its channels were
closed -/
theorem c168_closed (codec : Codec σ π) (hash : Nat → Nat) (i : Nat) (ad : Addr) {pre mid post : List Event} {chans : List Chan} {heard : Bool}
    {now : Nat} {p : Addr} {b : Bytes} {closed : UInt32 → Chan → Bool} {sending : UInt32 → Sending} {x : π} {st : σ}
    (hn : subscriptions (pre ++ .command (.subscribe chans heard) :: (mid ++ .datagram now p b closed sending :: post)) + 1 < 2 ^ 32)
    (hr : Runs codec hash (Actor.new i ad) (pre ++ .command (.subscribe chans heard) :: mid))
    (hd : codec.decode now (knowledge codec (fun _ => codec.fresh) (pre ++ .command (.subscribe chans heard) :: mid) p) b = (.packet x, st))
    (hc : heard = false ∨ ∀ c ∈ chans, closed (subscriptionId pre) c = true) :
    ∃ after, ((Actor.new i ad).run codec hash (pre ++ .command (.subscribe chans heard) :: (mid ++ .datagram now p b closed sending :: post))).2.1 =
        ((Actor.new i ad).run codec hash (pre ++ .command (.subscribe chans heard) :: mid)).2.1 ++ after ∧
      offersTo (subscriptionId pre) after = [] := by
  have hsplit : ∀ l, pre ++ .command (.subscribe chans heard) :: l = (pre ++ [.command (.subscribe chans heard)]) ++ l := by simp
  have hfull : pre ++ .command (.subscribe chans heard) :: (mid ++ .datagram now p b closed sending :: post) =
      (pre ++ .command (.subscribe chans heard) :: mid) ++ .datagram now p b closed sending :: post := by simp
  have hag := run_agrees _ (agrees_new codec i ad) hr
  have hr0 := hr
  rw [hsplit] at hr
  obtain ⟨hr1, hr2⟩ := runs_append hr
  obtain ⟨a, ha, h1, h2, h3, h4, h5⟩ := at_subscribe (post := mid ++ .datagram now p b closed sending :: post) codec hash i ad hr1 hn
  rw [ha] at hr2
  have hn' := hn
  rw [subscriptions_append, subscriptions_cons, subscriptions_append, subscriptions_cons] at hn'
  have hone : subscriptions [Event.command (.subscribe chans heard)] = 1 := rfl
  have hzero : subscriptions [Event.datagram now p b closed sending] = 0 := rfl
  have hid := subscriptionId_toNat (pre := pre) (by omega)
  obtain ⟨h6, h7⟩ := run_sound mid h1 (by omega) (by omega) hr2
  have h8 := run_same mid h1 (by omega) (by omega) hr2 (s := subscriptionId pre) (by omega)
  rw [hfull, run_append _ _ hr0]
  refine ⟨_, rfl, ?_⟩
  have hstate : ((Actor.new i ad).run codec hash (pre ++ .command (.subscribe chans heard) :: mid)).1 = (a.run codec hash mid).1 := by
    rw [hsplit, run_append _ _ hr1, ha]
  rw [hstate] at hag ⊢
  generalize (a.run codec hash mid).1 = c at *
  rw [← hag p] at hd
  rw [run_cons_of (step_packet hd)]
  simp only
  have hrem : (remaining closed c.subscribers).look (subscriptionId pre) = none := by
    rw [look_remaining h6.uniq]
    rcases h8 with h8 | h8 <;> rw [h8]
    · rw [h4]
      cases heard with
      | false => rfl
      | true =>
        have hc := hc.resolve_left (by simp)
        simp only [if_true, Option.filter]
        rw [if_neg]
        simp only [Bool.not_eq_true', Bool.not_eq_false, List.all_eq_true]
        exact hc
    · rfl
  obtain ⟨h9, h10⟩ := step_sound (codec := codec) (hash := hash) h6 (by omega) (by omega) (step_packet hd (closed := closed) (sending := sending))
  rw [offersTo_append, offersTo_deliver (show Uniq (remaining closed c.subscribers) from Uniq.filter h6.uniq _) (remaining_ne _ _), hrem]
  have hnx : c.next.toNat = _ := h7
  refine run_gone post h9 ?_ ?_ hrem ?_
  · show 0 < c.next.toNat; omega
  · have := subscriptions_cons (.datagram now p b closed sending) post
    show c.next.toNat + _ < _
    omega
  · show _ < c.next.toNat; omega

/-- the first subscriber unsubscribes, the channel of the second is closed after one message -/
example : let es := [Event.command (.subscribe [5] true), .command (.subscribe [6] true), dgram 0 p1 tpl, .command (.unsubscribe 1), dgram 1 p1 record,
      .datagram 2 p1 record (fun s _ => s = 2) fun _ => .sent, dgram 3 p1 record]
    told (offersTo 1 ((Actor.new 7 ⟨0, 0⟩).run (flow Flow24.reg) hash es).2.1) = [(p1, .sent)] ∧
    told (offersTo 2 ((Actor.new 7 ⟨0, 0⟩).run (flow Flow24.reg) hash es).2.1) = [(p1, .sent), (p1, .sent)] := by decide +kernel

/-! ## C169 -/

/-- C169: the counters count the datagrams, those that were decoded, and the sends by how they ended. Not claimed: that a datagram that is not
decoded is counted as malformed, see `c169_disproved` -/
theorem c169_partial (codec : Codec σ π) (hash : Nat → Nat) (i : Nat) (ad : Addr) {es : List Event} (hr : Runs codec hash (Actor.new i ad) es) :
    let a := ((Actor.new i ad).run codec hash es).1
    let out := ((Actor.new i ad).run codec hash es).2.1
    a.received = es.countP Event.isDatagram ∧ a.decoded = (messages codec (fun _ => codec.fresh) es).length ∧
    a.sent = (sendings out).countP (fun h => decide (h = .sent)) ∧ a.sent + a.dropped = (sendings out).length ∧
    a.malformed + a.decoded ≤ a.received := by
  obtain ⟨h1, h2, h3, h4, h5⟩ := run_counts es (agrees_new codec i ad) hr
  have hz : (Actor.new i ad : Actor σ).received = 0 ∧ (Actor.new i ad : Actor σ).decoded = 0 ∧ (Actor.new i ad : Actor σ).sent = 0 ∧
    (Actor.new i ad : Actor σ).dropped = 0 ∧ (Actor.new i ad : Actor σ).malformed = 0 := ⟨rfl, rfl, rfl, rfl, rfl⟩
  obtain ⟨z1, z2, z3, z4, z5⟩ := hz
  rw [z1, Nat.zero_add] at h1
  rw [z2, Nat.zero_add] at h2
  rw [z3, Nat.zero_add] at h3
  rw [z4, Nat.zero_add] at h4
  rw [z5, z2] at h5
  refine ⟨h1, h2, h3, ?_, by omega⟩
  show ((Actor.new i ad).run codec hash es).1.sent + ((Actor.new i ad).run codec hash es).1.dropped = _
  rw [h3, h4]
  have hnot : (fun h : Sending => !decide (h = .sent)) = fun h => decide ¬ (decide (h = Sending.sent) = true) := by
    funext h; cases h <;> rfl
  rw [hnot]
  exact (List.length_eq_countP_add_countP _).symm

/-- C169: a datagram that is cut short is neither counted as decoded nor as malformed, by the actor of UDP-notif and by that of flows -/
theorem c169_disproved :
    (let a := ((Actor.new 7 ⟨0, 0⟩).run (flow Flow24.reg) hash [dgram 0 p1 [0, 10, 0, 20, 1]]).1
     (a.received, a.decoded, a.malformed) = (1, 0, 0)) ∧
    (let a := ((Actor.new 7 ⟨0, 0⟩).run udpNotif hash [dgram 0 p1 [33, 12, 0, 13, 0, 0, 0, 1, 0, 0, 0, 2]]).1
     (a.received, a.decoded, a.malformed) = (1, 0, 0)) := by decide +kernel

example : let a := ((Actor.new 7 ⟨0, 0⟩).run (flow Flow24.reg) hash [.command (.subscribe [5] true), dgram 0 p1 tpl, dgram 1 p1 [0, 9],
      .datagram 2 p1 record (fun _ _ => false) (fun _ => .full), dgram 3 p2 (Flow24.message [9, 9])]).1
    (a.received, a.decoded, a.malformed, a.sent, a.dropped) = (4, 2, 1, 1, 1) := by decide +kernel

/-! ## C170 -/

/-- C170: what a subscriber is sent of a peer is what a decoder makes of the datagrams of that peer alone, whatever other peers send -/
theorem c170_independent (codec : Codec σ π) (hash : Nat → Nat) (i : Nat) (ad : Addr) {post : List Event} {chans : List Chan}
    (hn : subscriptions post + 2 < 2 ^ 32)
    (hr : Runs codec hash (Actor.new i ad) (.command (.subscribe chans true) :: post))
    (hst : Stays 1 post) (ho : Open 1 chans (messages codec (fun _ => codec.fresh) post)) (p : Addr) :
    (offersTo 1 ((Actor.new i ad).run codec hash (.command (.subscribe chans true) :: post)).2.1).filterMap
        (fun o => if o.1 = p then some o.2.1 else none) = listen codec codec.fresh (fromPeer p post) := by
  obtain ⟨before, after, x, h1, h2, h3⟩ := c167_delivered codec hash i ad (pre := []) (post := post) (chans := chans)
    (by rw [List.nil_append, subscriptions_cons]; show 1 + _ + 1 < _; omega) hr hst ho
  have hid : subscriptionId [] = 1 := rfl
  rw [hid] at h1 h2 h3
  rw [List.nil_append] at h1
  rw [h1, offersTo_append, h2, List.nil_append]
  have : offersTo 1 (Effect.subscribed x 1 :: after) = offersTo 1 after := rfl
  rw [this, h3, ← messages_fromPeer codec p post fun _ => codec.fresh, List.filterMap_map]
  have hk : knowledge codec (fun _ => codec.fresh) [] = fun _ => codec.fresh := rfl
  rw [hk]
  generalize messages codec (fun _ => codec.fresh) post = ms
  induction ms with
  | nil => rfl
  | cons m ms ih =>
    by_cases hm : m.peer = p
    · simp [hm] at ih ⊢; exact ih
    · simp [hm] at ih ⊢; exact ih

/-- the records of the second peer are not decoded with the template of the first -/
example : let es := [dgram 0 p1 tpl, dgram 1 p2 record, dgram 2 p1 record]
    (listen (flow Flow24.reg) .new (fromPeer p1 es)).length = 2 ∧ (listen (flow Flow24.reg) .new (fromPeer p2 es)).length = 0 ∧
    told (offersTo 1 ((Actor.new 7 ⟨0, 0⟩).run (flow Flow24.reg) hash (.command (.subscribe [5] true) :: es)).2.1) =
      [(p1, .sent), (p1, .sent)] := by decide +kernel

/-! ## C171 -/

theorem flow_noPanics (reg : Flow.Registry) (now : Nat) (c : Flow.FlowCodec) (b : Bytes) : ((flow reg).decode now c b).1 ≠ .panics := by
  show (match Flow.FlowCodec.decode reg c b with
    | (.out (.ok p), c', _) => (Decoded.packet p, c')
    | (.wait, c', _) => (.nothing, c')
    | (.out (.err _), c', _) => (.malformed, c')
    | (.out (.fault _), c', _) => (.panics, c')).1 ≠ _
  rcases h : Flow.FlowCodec.decode reg c b with ⟨_ | (p | e | f), c', b'⟩
  · simp
  · simp
  · simp
  · exact absurd (c28_noFault reg c c' b b' _ h) (by simp [Res.isFault])

/-- C171: nothing that peers send ends the actor of flows -/
theorem c171_flow (reg : Flow.Registry) (hash : Nat → Nat) (i : Nat) (ad : Addr) (es : List Event) (h : ∀ e ∈ es, e.ends = false) :
    ((Actor.new i ad).run (flow reg) hash es).2.2 = none := run_ends (flow_noPanics reg) es _ h

/-- C171: two datagrams of one peer end the actor of UDP-notif for all: the subscriber does not get what another peer sends -/
theorem c171_disproved : ∃ e1 e2 e3 : Event, e1.ends = false ∧ e2.ends = false ∧ e3.ends = false ∧
    ((Actor.new 7 ⟨0, 0⟩).run udpNotif hash [.command (.subscribe [5] true), e1, e2, e3]).2.2 = some .panicked ∧
    offersTo 1 ((Actor.new 7 ⟨0, 0⟩).run udpNotif hash [.command (.subscribe [5] true), e1, e2, e3]).2.1 = [] ∧
    (offersTo 1 ((Actor.new 7 ⟨0, 0⟩).run udpNotif hash [.command (.subscribe [5] true), e3]).2.1).length = 1 :=
  ⟨dgram 0 p1 [33, 12, 0, 13, 0, 0, 0, 1, 0, 0, 0, 2], dgram 1 p1 [33], dgram 2 p2 [33, 12, 0, 13, 0, 0, 0, 1, 0, 0, 0, 2, 123], by decide +kernel⟩

/-- C171: the actor of UDP-notif is not ended by what peers send, but by a datagram of one octet from a peer it has heard of since it was purged -/
theorem c171_partial (hash : Nat → Nat) (i : Nat) (ad : Addr) (es : List Event)
    (h : ((Actor.new i ad).run udpNotif hash es).2.2 = some .panicked) :
    ∃ pre now p b closed sending post, es = pre ++ .datagram now p b closed sending :: post ∧ b.length < 2 ∧ Heard p pre := by
  obtain ⟨pre, now, p, b, c, s, post, rfl, hd⟩ := run_panics es (agrees_new udpNotif i ad) h
  have hd' : (match UdpNotif.decode (knowledge udpNotif (fun _ => udpNotif.fresh) pre p) now b with
    | (.ok (some p), c', _) => (Decoded.packet p, c')
    | (.ok none, c', _) => (.nothing, c')
    | (.err _, c', _) => (.malformed, c')
    | (.fault _, c', _) => (.panics, c')).1 = .panics := hd
  have hf : (UdpNotif.decode (knowledge udpNotif (fun _ => udpNotif.fresh) pre p) now b).1.isFault = true := by
    rcases hx : UdpNotif.decode (knowledge udpNotif (fun _ => udpNotif.fresh) pre p) now b with ⟨(_ | q) | e | f, c', b'⟩ <;>
      rw [hx] at hd' <;> first | (simp at hd'; done) | rfl
  obtain ⟨h1, h2⟩ := (c18_fault_iff _ _ _).1 hf
  refine ⟨pre, now, p, b, c, s, post, rfl, h2, Classical.byContradiction fun hh => ?_⟩
  rw [knowledge_fresh udpNotif p pre _ (Or.inl rfl) hh] at h1
  cases h1

/-- events that do not end the actor of UDP-notif have a packet, garbage and a cut datagram -/
example : ((Actor.new 7 ⟨0, 0⟩).run udpNotif hash [dgram 0 p1 [33], dgram 0 p1 [33, 12, 0, 13, 0, 0, 0, 1, 0, 0, 0, 2], dgram 1 p1 [1, 2, 3, 4],
    dgram 2 p1 [33, 12, 0, 13, 0, 0, 0, 1, 0, 0, 0, 2, 123]]).2.2 = none := by decide +kernel

/-! ## C172 -/

/-- C172: what is sent to a subscriber with several channels is sent to one of them, the same for all packets from an IP address -/
theorem c172_shards (codec : Codec σ π) (hash : Nat → Nat) (i : Nat) (ad : Addr) {post : List Event} {chans : List Chan}
    (hn : subscriptions post + 2 < 2 ^ 32)
    (hr : Runs codec hash (Actor.new i ad) (.command (.subscribe chans true) :: post))
    (hst : Stays 1 post) (ho : Open 1 chans (messages codec (fun _ => codec.fresh) post)) :
    ∃ shard : Nat → Chan, channelsTo 1 ((Actor.new i ad).run codec hash (.command (.subscribe chans true) :: post)).2.1 =
        (messages codec (fun _ => codec.fresh) post).map (fun m => (m.peer, shard m.peer.ip)) ∧
      ∀ m ∈ messages codec (fun _ => codec.fresh) post, shard m.peer.ip ∈ chans := by
  have hn' : subscriptions ([] ++ .command (.subscribe chans true) :: post) + 1 < 2 ^ 32 := by
    rw [List.nil_append, subscriptions_cons]; show 1 + _ + 1 < _; omega
  have hsplit : Event.command (.subscribe chans true) :: post = ([] ++ [.command (.subscribe chans true)]) ++ post := rfl
  rw [hsplit] at hr ⊢
  obtain ⟨hr1, hr2⟩ := runs_append hr
  obtain ⟨a, ha, h1, h2, h3, h4, h5⟩ := at_subscribe (post := post) codec hash i ad hr1 hn'
  rw [ha] at hr2
  have hz : subscriptions [] = 0 := rfl
  rw [hz] at h2
  have hs1 : subscriptionId [] = 1 := rfl
  rw [hs1] at h4 h5
  obtain ⟨-, h6⟩ := run_offers post h3 h1 (by omega) (by omega) hr2 h4 hst ho
  have hk : knowledge codec (fun _ => codec.fresh) [] = fun _ => codec.fresh := rfl
  rw [hk] at h6
  rw [run_append _ _ hr1, h5, ha]
  simp only
  rw [channelsTo_append, h6]
  have hpre : channelsTo 1 (((Actor.new i ad).run codec hash []).2.1 ++
      (if True then [Effect.subscribed ((Actor.new i ad).run codec hash []).1.id 1] else []) : List (Effect σ π)) = [] := rfl
  rw [hpre, List.nil_append]
  generalize messages codec (fun _ => codec.fresh) post = ms at ho
  refine ⟨fun ip => (pick hash ⟨ip, 0⟩ chans).getD 0, ?_⟩
  have key : ∀ m ∈ ms, ∃ c ∈ chans, pick hash m.peer chans = some c := fun m hm => by
    obtain ⟨c, hc, -⟩ := ho m hm
    exact pick_some hash m.peer (fun e => by rw [e] at hc; cases hc)
  constructor
  · clear h6 ho
    induction ms with
    | nil => rfl
    | cons m ms ih =>
      obtain ⟨c, -, hc⟩ := key m (List.mem_cons_self ..)
      simp only at ih
      simp only [List.filterMap_cons, hc, List.map_cons]
      rw [ ih fun x hx => key x (List.mem_cons_of_mem _ hx),
        show pick hash ⟨m.peer.ip, 0⟩ chans = some c from (pick_ip hash rfl chans).trans hc]
      rfl
  · intro m hm
    obtain ⟨c, hm', hc⟩ := key m hm
    show (pick hash ⟨m.peer.ip, 0⟩ chans).getD 0 ∈ chans
    rw [show pick hash ⟨m.peer.ip, 0⟩ chans = some c from (pick_ip hash rfl chans).trans hc]
    exact hm'

/-- two ports of one address go to one channel, another address to another -/
example : channelsTo 1 ((Actor.new 7 ⟨0, 0⟩).run (flow Flow24.reg) hash (.command (.subscribe [5, 6] true) ::
    [dgram 0 p1 tpl, dgram 1 p2 tpl, dgram 1 ⟨1, 77⟩ tpl])).2.1 = [(p1, 6), (p2, 5), (⟨1, 77⟩, 6)] := by decide +kernel

/-! ## C173 -/

/-- C173: a peer is only reported as unused if nothing was decoded from it for longer than the duration asked for -/
theorem c173_unused (codec : Codec σ π) (hash : Nat → Nat) (i : Nat) (ad : Addr) {es : List Event} {now dur : Nat} {l : List Addr}
    (hr : Runs codec hash (Actor.new i ad) es) (hc : Clock es)
    (h : ((Actor.new i ad).run codec hash (es ++ [.command (.purgeUnused now dur)])).2.1 = ((Actor.new i ad).run codec hash es).2.1 ++ [.unusedPurged l])
    (p : Addr) (hp : p ∈ l) : ∀ t ∈ usedAt codec (fun _ => codec.fresh) p es, t + dur < now := by
  have hu : Uniq (Actor.new i ad : Actor σ).usage := List.Pairwise.nil
  obtain ⟨T, -, -, hi⟩ := run_idle es (T := 0) (L := []) (p := p) (agrees_new codec i ad) hu hr
    ⟨(fun _ h => nomatch h), (fun _ h => nomatch h), fun _ _ _ _ h => nomatch h⟩ hc (fun _ _ => Nat.zero_le _)
  have hu' := run_uniqUsage es (agrees_new codec i ad) hu hr
  rw [run_append _ _ hr] at h
  generalize ((Actor.new i ad).run codec hash es).1 = a at *
  rcases hst : a.step codec hash (.command (.purgeUnused now dur)) with ⟨a', out, x⟩
  have hrun : (a.run codec hash [.command (.purgeUnused now dur)]).2.1 = out := by
    simp only [Actor.run, hst]; cases x <;> simp
  simp only at h
  rw [hrun] at h
  have ho := List.append_cancel_left h
  obtain ⟨now', dur', u, he, hm, hun⟩ := step_reported hst (p := p) ⟨l, by rw [ho]; exact List.mem_singleton.2 rfl, hp⟩
  simp only [Event.command.injEq, Command.purgeUnused.injEq] at he
  obtain ⟨rfl, rfl⟩ := he
  unfold Usage.unused at hun
  simp only [Bool.and_eq_true, decide_eq_true_eq] at hun
  intro t ht
  have := hi.zero u (lookup_of_mem hu' hm) hun.2 t ht
  omega

example : let es := [dgram 0 p1 tpl, dgram 1 p2 tpl, Event.command (.purgeUnused 100 10), dgram 150 p2 record]
    ((Actor.new 7 ⟨0, 0⟩).run (flow Flow24.reg) hash (es ++ [.command (.purgeUnused 200 10)])).2.1.getLast? =
      some (.unusedPurged [p1]) ∧ usedAt (flow Flow24.reg) (fun _ => .new) p1 es = [0] ∧
    usedAt (flow Flow24.reg) (fun _ => .new) p2 es = [1, 150] ∧ Clock es := by
  refine ⟨?_, by decide +kernel, by decide +kernel, ?_⟩
  · have : ∀ x : Option (Effect Flow.FlowCodec Flow.FlowInfo), (match x with | some (.unusedPurged [q]) => decide (q = p1) | _ => false) = true →
        x = some (.unusedPurged [p1]) := by
      intro x hx
      split at hx
      · rw [of_decide_eq_true hx]
      · cases hx
    exact this _ (by decide +kernel)
  · unfold Clock; decide +kernel

/-! ## C174 -/

/-- C174: a peer that was purged by its address is forgotten: it is not listed, and its decoder is a fresh one. Not so for peers that were purged
because they are unused, see `c174_disproved` -/
theorem c174_partial (codec : Codec σ π) (hash : Nat → Nat) (i : Nat) (ad : Addr) {es : List Event} {p : Addr}
    (hr : Runs codec hash (Actor.new i ad) es) :
    ∃ before l x y z, ((Actor.new i ad).run codec hash (es ++ [.command (.purge p), .command (.state p), .command .peers])).2.1 =
      before ++ [.purged x, .state y codec.fresh, .peers z l] ∧ p ∉ l := by
  have hr' : Runs codec hash (Actor.new i ad) (es ++ [.command (.purge p)]) := by
    unfold Runs
    rw [run_append _ _ hr]
    simp only [Actor.run, Actor.step, Actor.handle]
    by_cases hp : (((Actor.new i ad).run codec hash es).1.clients.look p).isSome
    · rw [if_pos hp]
    · rw [if_neg hp]
  obtain ⟨hu, hcl⟩ := run_clients p _ (a := Actor.new i ad) (codec := codec) (hash := hash) List.Pairwise.nil hr'
  have hlast : (fromPeer p (es ++ [.command (.purge p)])).getLast? = some none := by rw [fromPeer_append]; simp [fromPeer]
  rw [hlast] at hcl
  have hout : ∃ x, ((Actor.new i ad).run codec hash (es ++ [.command (.purge p)])).2.1 = ((Actor.new i ad).run codec hash es).2.1 ++ [.purged x] := by
    rw [run_append _ _ hr]
    simp only [Actor.run, Actor.step, Actor.handle]
    by_cases hp : (((Actor.new i ad).run codec hash es).1.clients.look p).isSome
    · rw [if_pos hp]; exact ⟨_, rfl⟩
    · rw [if_neg hp]; exact ⟨_, rfl⟩
  obtain ⟨x, hx⟩ := hout
  have hsplit : es ++ [.command (.purge p), .command (.state p), .command .peers] =
      (es ++ [.command (.purge p)]) ++ [.command (.state p), .command .peers] := by simp
  rw [hsplit, run_append _ _ hr', hx]
  generalize ((Actor.new i ad).run codec hash (es ++ [.command (.purge p)])).1 = a at *
  have hnone : a.clients.look p = none := by
    cases h : a.clients.look p with
    | none => rfl
    | some v => rw [h] at hcl; cases hcl
  refine ⟨((Actor.new i ad).run codec hash es).2.1, a.clients.map (·.1), x, a.id, a.id, ?_, ?_⟩
  · simp [Actor.run, Actor.step, Actor.handle, hnone]
  · rw [mem_keys hu, hnone]; simp

/-- C174: a peer that is reported as purged because it is unused is still listed, and what it sends next is decoded with the template it sent
before -/
theorem c174_disproved :
    let es : List Event := [.command (.subscribe [5] true), dgram 0 p1 tpl, .command (.purgeUnused 100 10), .command (.purgeUnused 200 10)]
    let out : List (Effect Flow.FlowCodec Flow.FlowInfo) :=
      ((Actor.new 7 ⟨0, 0⟩).run (flow Flow24.reg) hash (es ++ [.command .peers, dgram 300 p1 record])).2.1
    (match (out[3]? : Option (Effect Flow.FlowCodec Flow.FlowInfo)) with | some (.unusedPurged l) => decide (l = [p1]) | _ => false) = true ∧
    (match (out[4]? : Option (Effect Flow.FlowCodec Flow.FlowInfo)) with | some (.peers _ l) => decide (l = [p1]) | _ => false) = true ∧
    (match (out[5]? : Option (Effect Flow.FlowCodec Flow.FlowInfo)) with
      | some (.offer 1 5 p (.ipfix m) .sent) => decide (p = p1) && decide (m.sets.length = 1)
      | _ => false) = true := by decide +kernel

/-- a purge by address: the record is not decoded -/
example : told (offersTo 1 ((Actor.new 7 ⟨0, 0⟩).run (flow Flow24.reg) hash ([.command (.subscribe [5] true), dgram 0 p1 tpl, .command (.purge p1), dgram 300 p1 record])).2.1) =
    [(p1, .sent)] := by decide +kernel

/-! ## C175 -/

/-- C175: a peer of which something was decoded and that is then silent is reported by the second of two purges that are further apart than the
duration asked for, or before. Not claimed for peers of which nothing was decoded, see `c175_never` -/
theorem c175_partial (codec : Codec σ π) (hash : Nat → Nat) (i : Nat) (ad : Addr) {es1 es2 : List Event} {t1 t2 dur : Nat} {p : Addr}
    (hr : Runs codec hash (Actor.new i ad) (es1 ++ .command (.purgeUnused t1 dur) :: (es2 ++ [.command (.purgeUnused t2 dur)])))
    (hc : Clock es1) (h1 : ∀ t ∈ es1.filterMap Event.time, t + dur < t1) (h2 : t1 + dur < t2)
    (hp : ∀ e ∈ es1 ++ es2, e ≠ .command (.purge p))
    (hu1 : usedAt codec (fun _ => codec.fresh) p es1 ≠ [])
    (hu2 : usedAt codec (knowledge codec (fun _ => codec.fresh) es1) p es2 = []) :
    Reported p ((Actor.new i ad).run codec hash (es1 ++ .command (.purgeUnused t1 dur) :: (es2 ++ [.command (.purgeUnused t2 dur)]))).2.1 := by
  have hu : Uniq (Actor.new i ad : Actor σ).usage := List.Pairwise.nil
  obtain ⟨hr1, hr2⟩ := runs_append hr
  have hk := run_agrees es1 (agrees_new codec i ad) hr1
  have huq := run_uniqUsage es1 (agrees_new codec i ad) hu hr1
  obtain ⟨T, -, hT, hi⟩ := run_idle es1 (T := 0) (L := []) (p := p) (agrees_new codec i ad) hu hr1
    ⟨(fun _ h => nomatch h), (fun _ h => nomatch h), fun _ _ _ _ h => nomatch h⟩ hc (fun _ _ => Nat.zero_le _)
  have hkept := run_kept es1 (agrees_new codec i ad) hu hr1 (fun e he => hp e (List.mem_append_left _ he)) (Or.inr hu1)
  rw [run_append _ _ hr1, reported_append]
  rcases hkept with hkept | hkept
  · exact Or.inl hkept
  right
  generalize ((Actor.new i ad).run codec hash es1).1 = a at *
  obtain ⟨a', out, hst, hr3, he⟩ := runs_cons hr2
  rw [he]
  simp only
  rw [reported_append]
  obtain ⟨u, hl⟩ := Option.isSome_iff_exists.1 hkept
  have hlt : u.lastSet + dur < t1 := by
    have := hi.last u hl
    rcases hT with rfl | hT
    · cases hus : usedAt codec (fun _ => codec.fresh) p es1 with
      | nil => exact absurd hus hu1
      | cons x xs =>
        have := h1 x (usedAt_mem codec p es1 (fun _ => codec.fresh) x (hus ▸ List.mem_cons_self ..))
        omega
    · have := h1 T hT; omega
  have hsu := step_usage hk huq hst p
  have hstep : Reported p out ∨ a'.usage.look p = some ⟨t1, 0⟩ := by
    obtain ⟨-, ⟨now, ht, e1, e2⟩ | ⟨e0, e1, e2⟩ | ⟨now, d, e0, e1, e2, e3⟩ | ⟨e1, e2, e3⟩⟩ := hsu
    · rw [usedAt_command] at e1; cases e1
    · cases e0
    · cases e0
      by_cases hz : u.count = 0
      · exact Or.inl (e3 ⟨u, hl, by simp [Usage.unused, hz]; omega⟩)
      · right
        rw [e2, hl]
        have h1 : u.unused t1 dur = false := by simp [Usage.unused, hz]
        simp only [Option.bind_some, h1, Usage.reset]
        rw [if_neg (by simp), if_pos ⟨by omega, by omega⟩]
    · exact absurd rfl (e3.2 t1 dur)
  rcases hstep with hstep | hstep
  · exact Or.inl hstep
  right
  have hk' : Agrees codec a' (knowledge codec (fun _ => codec.fresh) es1) := step_agrees hk hst
  obtain ⟨hr4, hr5⟩ := runs_append hr3
  rw [run_append _ _ hr4, reported_append]
  rcases run_zero es2 hk' hsu.1 hr4 (fun e he => hp e (List.mem_append_right _ he)) hu2 hstep with h | h
  · exact Or.inl h
  right
  have huq' := run_uniqUsage es2 hk' hsu.1 hr4
  have hk'' := run_agrees es2 hk' hr4
  generalize (a'.run codec hash es2).1 = c at *
  obtain ⟨c', out', hst', -, he'⟩ := runs_cons hr5
  rw [he']
  simp only
  rw [reported_append]
  left
  obtain ⟨-, ⟨now, ht, e1, e2⟩ | ⟨e0, e1, e2⟩ | ⟨now, d, e0, e1, e2, e3⟩ | ⟨e1, e2, e3⟩⟩ := step_usage hk'' huq' hst' p
  · rw [usedAt_command] at e1; cases e1
  · cases e0
  · cases e0
    exact e3 ⟨_, h, by simp [Usage.unused]; omega⟩
  · exact absurd rfl (e3.2 t2 dur)

example : let es1 := [dgram 0 p1 tpl, dgram 1 p2 tpl]
    let es2 := [dgram 150 p2 record]
    usedAt (flow Flow24.reg) (fun _ => .new) p1 es1 ≠ [] ∧
    usedAt (flow Flow24.reg) (knowledge (flow Flow24.reg) (fun _ => .new) es1) p1 es2 = [] ∧
    Clock es1 ∧ (∀ t ∈ es1.filterMap Event.time, t + 10 < 100) ∧
    ((Actor.new 7 ⟨0, 0⟩).run (flow Flow24.reg) hash (es1 ++ .command (.purgeUnused 100 10) :: (es2 ++ [.command (.purgeUnused 200 10)]))).2.2 = none := by
  refine ⟨by decide +kernel, by decide +kernel, ?_, by decide +kernel, by decide +kernel⟩
  unfold Clock; decide +kernel

/-- C175: a peer of which nothing is ever decoded is never reported as unused, however long it is silent -/
theorem c175_never (codec : Codec σ π) (hash : Nat → Nat) (i : Nat) (ad : Addr) {es : List Event} {p : Addr}
    (h : usedAt codec (fun _ => codec.fresh) p es = []) : ¬ Reported p ((Actor.new i ad).run codec hash es).2.1 :=
  run_neverUsed es (agrees_new codec i ad) List.Pairwise.nil h rfl

/-- C175: so a peer that sent one malformed datagram stays listed after purges at any times -/
theorem c175_disproved : ∃ e : Event, e.isDatagram = true ∧ ∀ t1 t2 dur,
    ¬ Reported p1 ((Actor.new 7 ⟨0, 0⟩).run (flow Flow24.reg) hash [e, .command (.purgeUnused t1 dur), .command (.purgeUnused t2 dur), .command .peers]).2.1 ∧
    (.peers 7 [p1]) ∈ ((Actor.new 7 ⟨0, 0⟩).run (flow Flow24.reg) hash [e, .command (.purgeUnused t1 dur), .command (.purgeUnused t2 dur), .command .peers]).2.1 := by
  refine ⟨dgram 0 p1 (Flow24.message [9, 9]), rfl, fun t1 t2 dur => ⟨c175_never _ _ _ _ ?_, ?_⟩⟩
  · have : ∀ c : Command, (∀ q, c ≠ .purge q) → ∀ k es, usedAt (flow Flow24.reg) k p1 (.command c :: es) = usedAt (flow Flow24.reg) k p1 es := by
      intro c hc k es
      cases c <;> first | rfl | exact absurd rfl (hc _)
    rw [usedAt_cons, this _ (fun _ h => by cases h), this _ (fun _ h => by cases h), this _ (fun _ h => by cases h)]
    decide +kernel
  · have hd : ((flow Flow24.reg).decode 0 .new (Flow24.message [9, 9])).1 = .malformed := by decide +kernel
    rcases hx : (flow Flow24.reg).decode 0 .new (Flow24.message [9, 9]) with ⟨y, s⟩
    rw [hx] at hd
    have hd : y = .malformed := hd
    subst hd
    have hst := step_malformed (codec := flow Flow24.reg) (hash := hash) (a := Actor.new 7 ⟨0, 0⟩) (now := 0) (p := p1)
      (closed := fun _ _ => false) (sending := fun _ => .sent) hx
    unfold dgram
    rw [run_cons_of hst]
    simp [Actor.run, Actor.step, Actor.handle, Actor.purgeUnused, Actor.new, put]

/-! ## C176 -/

/-- C176: the peers that are listed are those heard of since they were purged by their address, each once -/
theorem c176_peers (codec : Codec σ π) (hash : Nat → Nat) (i : Nat) (ad : Addr) {es : List Event} (hr : Runs codec hash (Actor.new i ad) es) :
    ∃ x l, ((Actor.new i ad).run codec hash (es ++ [.command .peers])).2.1 = ((Actor.new i ad).run codec hash es).2.1 ++ [.peers x l] ∧
      l.Nodup ∧ ∀ p, p ∈ l ↔ Heard p es := by
  rw [run_append _ _ hr]
  refine ⟨_, _, by simp [Actor.run, Actor.step, Actor.handle]; exact ⟨rfl, rfl⟩, ?_, ?_⟩
  · have hu := (run_clients p1 es (a := Actor.new i ad) (codec := codec) (hash := hash) List.Pairwise.nil hr).1
    exact List.Pairwise.map _ (fun _ _ h => h) hu
  · intro p
    obtain ⟨hu, hcl⟩ := run_clients p es (a := Actor.new i ad) (codec := codec) (hash := hash) List.Pairwise.nil hr
    rw [mem_keys hu, hcl]
    unfold Heard
    cases (fromPeer p es).getLast? with
    | none => simp [Actor.new]
    | some x => cases x <;> simp

example : (match ((Actor.new 7 ⟨0, 0⟩).run (flow Flow24.reg) hash ([dgram 0 p1 tpl, dgram 1 p2 [1], dgram 2 ⟨3, 3⟩ tpl, .command (.purge p1), .command .peers])).2.1.getLast? with
    | some (.peers 7 l) => decide (l = [p2, ⟨3, 3⟩]) | _ => false) = true := by decide +kernel

end Verif.Props
