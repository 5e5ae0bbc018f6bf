import Verif.YangPush.ValidationPeers
/-!
# The validation of YANG push notifications: C120 to C128
-/
namespace Verif.Props
open Verif.YangPush Verif.YangPush.Notif Verif.Collector

variable {A X P L C : Type} [DecidableEq A] [DecidableEq X]

/-! ## A collector to try things with -/

namespace YangDemo

/-- packets are what they are decoded to, except for those of one publisher; schemas are numbers, and payloads are to be that number, or the next one when they are legacy -/
def env (maxPeer maxSub : Nat) : Env Nat (Decoded Nat) Nat Nat where
  decode p := if p.publisher = 99 then none else some p
  load l := if l = 0 then none else some l
  parse c p := p.json == c
  parseOp c p := p.json == c + 1
  maxPeer
  maxSub

def note (message : UInt32) (json : Nat) (k : Contents Nat) : Decoded Nat := ⟨1, message, false, 0, some k, json⟩

def start (id : UInt32) (period : UInt32) (modules : Option (List ModuleVersion)) : Started Nat :=
  ⟨id, { datastore := some "operational" }, none, none, none, none, some (.periodic (some period) none), modules, some "router"⟩

def from_ (ip : Nat) (port : UInt16) (p : Decoded Nat) : Request Nat (Decoded Nat) := ⟨⟨100, 9000⟩, none, ⟨ip, port⟩, p⟩

def packet (ip : Nat) (port : UInt16) (p : Decoded Nat) : Event Nat Nat (Decoded Nat) Nat := .packet (from_ ip port p)

/-- what a subscription of a peer is described as -/
def info (ip : Nat) (port : UInt16) (id period : UInt32) : SubInfo Nat Nat :=
  (buildInfo (from_ ip port (note 0 0 (.update id))) (start id period (some []))).getD (.empty ⟨100, 9000⟩ none ⟨ip, port⟩ id)

def answer (ip : Nat) (port : UInt16) (id period : UInt32) (schema : Nat) : Event Nat Nat (Decoded Nat) Nat := .response ⟨some "schemas", info ip port id period, some schema⟩

def started (message : UInt32) (id period : UInt32) : Decoded Nat := note message 5 (.started (start id period (some [])))
def unnamed (message : UInt32) (id : UInt32) : Decoded Nat := note message 5 (.started (start id 10 none))
def update (message : UInt32) (json : Nat) (id : UInt32) : Decoded Nat := note message json (.update id)

end YangDemo

/-! ## C120: a notification with a content identifier was validated -/

/-- **C120**: a notification that is forwarded with a content identifier was received from the peer and about the subscription it is said to be of, and the schemas of the last
response about that subscription allow it; the content identifier is that of the response, and the description is alike. -/
theorem c120_validated (env : Env X P L C) (es : List (Event A X P L)) (e : Event A X P L) {contentId : String} {info : SubInfo A X} {d : Decoded X}
    (h : .forward (some contentId) info d ∈ sentWith env es e) :
    ∃ r resp, .packet r ∈ es ++ [e] ∧ env.decode r.packet = some d ∧ About env r info.peer.ip info.id ∧ LastFor (es ++ [e]) info.peer.ip info.id resp ∧
      resp.contentId = some contentId ∧ Alike resp.info info ∧ Allows env resp d r.packet ∧ info.contentId ≠ "EMPTY" := by
  obtain ⟨c, r, hg, hr, ho⟩ := (agrees_step (agrees_after env es) e).2 _ h
  obtain ⟨k, en, hd, hk, he, hs, h1, h2, hv⟩ := process_forward hg.placed ho
  rcases verdict_cases env en info d r with ⟨hv', _⟩ | ⟨cid, ctx, hcid, hctx, hne, ⟨hval, hv'⟩ | ⟨_, hv'⟩⟩
  · rw [hv'] at hv
    simp at hv
  · rw [hv'] at hv
    simp only [List.mem_singleton, Output.forward.injEq, Option.some.injEq, and_true] at hv
    subst hv
    obtain ⟨resp, hl, hc, hi, hx⟩ := hg.content _ _ _ he _ hcid
    have hsame := (alike_iff _ _).mp hs
    have hplace := hg.placed _ _ _ he
    have hkey : info.peer.ip = r.peer.ip ∧ info.id = k.id := ⟨hsame.1.symm.trans hplace.1, hsame.2.1.symm.trans hplace.2⟩
    refine ⟨r, resp, hr, hd, ⟨hkey.1.symm, d, k, hd, hk, hkey.2.symm⟩, by rw [hkey.1, hkey.2]; exact hl, hc, by rw [← hi]; exact hsame, ?_, ?_⟩
    · rw [hx] at hctx
      cases hlib : resp.library with
      | none => rw [hlib] at hctx; cases hctx
      | some lib =>
        rw [hlib, Option.bind_some] at hctx
        refine ⟨lib, ctx, hlib, hctx, ?_⟩
        unfold validate at hval
        cases hleg : d.legacy <;> simp [hleg] at hval ⊢ <;> exact hval
    · simpa [SubInfo.isEmpty] using hne
  · rw [hv'] at hv
    simp at hv

/-- **C120**, once schemas are there: after a response about a subscription of which there were packets and that is not described otherwise, a notification is forwarded with
the content identifier of the response when its schemas allow it, and dropped with a warning when they do not. -/
theorem c120_decided (env : Env X P L C) {before later : List (Event A X P L)} {resp : Response A X L} {r : Request A P} {d : Decoded X} {lib : L} {ctx : C}
    {contentId : String}
    (hsome : ∃ r, .packet r ∈ before ∧ About env r resp.info.peer.ip resp.info.id)
    (hbefore : ∀ info, LastDescribed env before resp.info.peer.ip resp.info.id info → Alike info resp.info)
    (hlater : ∀ r' info, .packet r' ∈ later ++ [.packet r] → Describes env r' info → info.peer.ip = resp.info.peer.ip → info.id = resp.info.id → Alike info resp.info)
    (hlast : ∀ other, .response other ∈ later → ¬ For other resp.info.peer.ip resp.info.id)
    (hlib : resp.library = some lib) (hload : env.load lib = some ctx) (hcid : resp.contentId = some contentId) (hne : resp.info.contentId ≠ "EMPTY")
    (hr : About env r resp.info.peer.ip resp.info.id) (hd : env.decode r.packet = some d) (hn : ¬ Nameless env r) :
    ∃ info, Alike info resp.info ∧ (info = resp.info ∨ Describes env r info) ∧ sentWith env (before ++ .response resp :: later) (.packet r) =
      if (if d.legacy then env.parseOp ctx r.packet else env.parse ctx r.packet) then [.forward (some contentId) info d] else [.dropped .invalid r] := by
  have hans : Answered env resp (after env (before ++ .response resp :: later)) :=
    answered_after hsome hbefore (fun r' hr' info hd' => hlater r' info (List.mem_append_left _ hr') hd') hlast
  obtain ⟨hp, e, he, h1, h2, h3⟩ := hans
  obtain ⟨hip, d', k, hd', hk, hid⟩ := hr
  rw [hd] at hd'
  cases hd'
  have he' : (after env (before ++ .response resp :: later)).entry r.peer.ip k.id = some e := by rw [hip, hid]; exact he
  have hkey : e.info.peer.ip = resp.info.peer.ip ∧ e.info.id = resp.info.id := by rw [h2]; exact ⟨rfl, rfl⟩
  obtain ⟨info, hs, hi1, hi2, hout⟩ := process_verdict hp hd hk he' hn (by
    intro info hdesc
    have hab := about_unique (describes_about hdesc) ⟨hip, d, k, hd, hk, hid⟩
    rw [h2]
    exact (alike_iff _ _).mpr (alike_symm (hlater r info (List.mem_append_right _ (List.mem_singleton.mpr rfl)) hdesc hab.1 hab.2)))
  have halike : Alike resp.info info := by rw [← h2]; exact (alike_iff _ _).mp hs
  refine ⟨info, alike_symm halike, ?_, ?_⟩
  · cases hst : k.starts with
    | none => exact .inl (by rw [hi1 hst, h2])
    | some s => exact .inr (hi2 (by rw [hst]; simp))
  · show (process env _ r).2 = _
    rw [hout]
    have hemp : info.isEmpty = false := by
      have : info.contentId = resp.info.contentId := halike.2.2.2.2.2.2.2.2.2.symm
      simp [SubInfo.isEmpty, this, hne]
    unfold verdict
    rw [h1, h3, hlib, hcid, hemp]
    simp only [Option.isSome_some, if_true, Option.bind_some, hload]
    unfold validate
    cases hleg : d.legacy <;> simp

/-- a subscription is started, there is a response, then an update that the schemas allow and one that they do not -/
def yangHistory : List (Event Nat Nat (Decoded Nat) Nat) :=
  [YangDemo.packet 1 50 (YangDemo.started 1 7 10), YangDemo.answer 1 50 7 10 5, YangDemo.packet 1 50 (YangDemo.update 2 5 7), YangDemo.packet 1 50 (YangDemo.update 3 6 7)]

example : sent (YangDemo.env 3 3) yangHistory =
    [.lookupInfo (YangDemo.info 1 50 7 10), .forward (some "schemas") (YangDemo.info 1 50 7 10) (YangDemo.started 1 7 10),
      .forward (some "schemas") (YangDemo.info 1 50 7 10) (YangDemo.update 2 5 7), .dropped .invalid (YangDemo.from_ 1 50 (YangDemo.update 3 6 7))] := by
  decide +kernel

example : .forward (some "schemas") (YangDemo.info 1 50 7 10) (YangDemo.update 2 5 7) ∈
    sentWith (YangDemo.env 3 3) [YangDemo.packet 1 50 (YangDemo.started 1 7 10), YangDemo.answer 1 50 7 10 5] (YangDemo.packet 1 50 (YangDemo.update 2 5 7)) := by
  decide +kernel

/-! ## C121: at most once -/

/-- **C121**: of the notifications with any property, those that are forwarded, dropped with a warning or still held are not more than those that were received. -/
theorem c121_once (env : Env X P L C) (es : List (Event A X P L)) (q : Decoded X → Bool) :
    (forwarded (sent env es)).countP q + (reported env (sent env es)).countP q + (waiting env (after env es)).countP q ≤ (received env es).countP q := by
  have := told_after env q es
  rw [waiting_hits]
  exact this

/-- so a notification is forwarded at most as often as it is received -/
theorem c121_count [DecidableEq (Decoded X)] (env : Env X P L C) (es : List (Event A X P L)) (d : Decoded X) :
    (forwarded (sent env es)).count d ≤ (received env es).count d := by
  have := c121_once env es (· == d)
  unfold List.count
  omega

example : (forwarded (sent (YangDemo.env 3 3) yangHistory)).count (YangDemo.started 1 7 10) = 1 ∧ (received (YangDemo.env 3 3) yangHistory).count (YangDemo.started 1 7 10) = 1 := by
  decide +kernel

/-! ## C122: nothing is lost -/

/-- **C122** where it holds: when subscriptions are always described in the same way, each notification is forwarded, dropped with a warning or still held. What is missing:
other histories, see `c122_lost_disproved`. -/
theorem c122_lost_partial (env : Env X P L C) (es : List (Event A X P L)) (hs : Steady env es) (q : Decoded X → Bool) :
    (forwarded (sent env es)).countP q + (reported env (sent env es)).countP q + (waiting env (after env es)).countP q = (received env es).countP q := by
  have := told_steady (env := env) q (I := fun ip id => Classical.choose (hs ip id)) (es := es) (fun ip id => Classical.choose_spec (hs ip id))
  rw [waiting_hits]
  exact this

/-- an update that comes before its subscription is started, and a start that comes before that subscription is modified, are lost without a warning -/
theorem c122_lost_disproved :
    (∃ es : List (Event Nat Nat (Decoded Nat) Nat), YangDemo.update 1 5 7 ∈ received (YangDemo.env 3 3) es ∧
      YangDemo.update 1 5 7 ∉ forwarded (sent (YangDemo.env 3 3) es) ∧ YangDemo.update 1 5 7 ∉ reported (YangDemo.env 3 3) (sent (YangDemo.env 3 3) es) ∧
      YangDemo.update 1 5 7 ∉ waiting (YangDemo.env 3 3) (after (YangDemo.env 3 3) es)) ∧
    (∃ es : List (Event Nat Nat (Decoded Nat) Nat), YangDemo.started 1 7 10 ∈ received (YangDemo.env 3 3) es ∧
      YangDemo.started 1 7 10 ∉ forwarded (sent (YangDemo.env 3 3) es) ∧ YangDemo.started 1 7 10 ∉ reported (YangDemo.env 3 3) (sent (YangDemo.env 3 3) es) ∧
      YangDemo.started 1 7 10 ∉ waiting (YangDemo.env 3 3) (after (YangDemo.env 3 3) es)) := by
  refine ⟨⟨[YangDemo.packet 1 50 (YangDemo.update 1 5 7), YangDemo.packet 1 50 (YangDemo.started 2 7 10), YangDemo.answer 1 50 7 10 5], ?_⟩,
    ⟨[YangDemo.packet 1 50 (YangDemo.started 1 7 10), YangDemo.packet 1 50 (YangDemo.note 2 5 (.modified (YangDemo.start 7 20 (some [])))),
      YangDemo.answer 1 50 7 20 5], ?_⟩⟩ <;> decide +kernel

/-! ## C123: order -/

/-- **C123** where it holds: with a packet nothing but its notification is forwarded, and with a response at most one notification, one that was received about the subscription
of the response. What is missing: that the notification did not have to wait, so that others have gone before it, see `c123_order_disproved`. -/
theorem c123_order_partial (env : Env X P L C) (es : List (Event A X P L)) :
    (∀ r, forwarded (sentWith env es (.packet r)) = [] ∨ forwarded (sentWith env es (.packet r)) = (env.decode r.packet).toList) ∧
    (∀ resp, (forwarded (sentWith env es (.response resp))).length ≤ 1 ∧ ∀ d ∈ forwarded (sentWith env es (.response resp)),
      ∃ r, .packet r ∈ es ∧ env.decode r.packet = some d ∧ About env r resp.info.peer.ip resp.info.id) := by
  refine ⟨fun r => ?_, fun resp => ?_⟩
  · rcases forwarded_process (env := env) (c := after env es) r with h | ⟨h, _⟩
    · exact .inl h
    · exact .inr h
  · unfold sentWith
    simp only [step, respond]
    cases hc : (after env es).entry resp.info.peer.ip resp.info.id with
    | none => exact ⟨Nat.zero_le _, by intro d h; cases h⟩
    | some e =>
      obtain ⟨h1, h2⟩ := forwarded_processAll (env := env) e.packets ((after env es).set resp.info.peer.ip resp.info.id (.answered env resp))
      refine ⟨Nat.le_trans h1 (onePlain_after env es _ _ _ hc), ?_⟩
      intro d hd
      obtain ⟨r, hr, hdec⟩ := h2 d hd
      obtain ⟨h3, h4⟩ := (agrees_after env es).packets _ _ _ hc r hr
      exact ⟨r, h4, hdec, h3⟩

/-- the notifications of a subscription are not forwarded in their order, and one that comes while schemas are being looked up does not wait for them: it is forwarded without
being validated, though the schemas would not allow it -/
theorem c123_order_disproved :
    ∃ es : List (Event Nat Nat (Decoded Nat) Nat), Steady (YangDemo.env 3 3) es ∧
      received (YangDemo.env 3 3) es = [YangDemo.started 1 7 10, YangDemo.update 2 6 7] ∧
      forwarded (sent (YangDemo.env 3 3) es) = [YangDemo.update 2 6 7, YangDemo.started 1 7 10] ∧
      Output.forward none (YangDemo.info 1 50 7 10) (YangDemo.update 2 6 7) ∈ sent (YangDemo.env 3 3) es := by
  refine ⟨[YangDemo.packet 1 50 (YangDemo.started 1 7 10), YangDemo.packet 1 50 (YangDemo.update 2 6 7), YangDemo.answer 1 50 7 10 5], ?_, ?_⟩
  · intro ip id
    have hdesc : Describes (YangDemo.env 3 3) (YangDemo.from_ 1 50 (YangDemo.started 1 7 10)) (YangDemo.info 1 50 7 10) :=
      describes_iff.mpr ⟨YangDemo.start 7 10 (some []), ⟨YangDemo.started 1 7 10, by decide +kernel, .inl rfl⟩, by decide +kernel⟩
    refine ⟨YangDemo.info 1 50 7 10, ?_, ?_, ?_⟩
    · intro r i hr hd _ _
      simp only [YangDemo.packet, YangDemo.answer, List.mem_cons, Event.packet.injEq, List.mem_nil_iff, or_false, reduceCtorEq] at hr
      rcases hr with rfl | rfl
      · rw [describes_unique hd hdesc]
        exact alike_refl _
      · obtain ⟨s, hb, _⟩ := describes_iff.mp hd
        obtain ⟨d, hdec, h⟩ := hb
        have : d = YangDemo.update 2 6 7 := by
          have h' : (YangDemo.env 3 3).decode (YangDemo.from_ 1 50 (YangDemo.update 2 6 7)).packet = some (YangDemo.update 2 6 7) := by decide +kernel
          rw [h'] at hdec
          cases hdec
          rfl
        subst this
        rcases h with h | h <;> simp [YangDemo.update, YangDemo.note] at h
    · intro resp hr _
      simp only [YangDemo.packet, YangDemo.answer, List.mem_cons, Event.response.injEq, List.mem_nil_iff, or_false, reduceCtorEq, false_or] at hr
      subst hr
      exact alike_refl _
    · intro before r after he ha hn
      cases before with
      | nil =>
        simp only [YangDemo.packet, YangDemo.answer, List.nil_append, List.cons.injEq, Event.packet.injEq] at he
        obtain ⟨rfl, _⟩ := he
        exact ⟨_, hdesc⟩
      | cons b before =>
        simp only [YangDemo.packet, YangDemo.answer, List.cons_append, List.cons.injEq] at he
        obtain ⟨rfl, he⟩ := he
        cases before with
        | nil =>
          simp only [List.nil_append, List.cons.injEq, Event.packet.injEq] at he
          obtain ⟨rfl, _⟩ := he
          exfalso
          refine hn _ (List.mem_cons_self ..) ?_
          have hk : (7 : UInt32) = id := by
            obtain ⟨_, d, k, hd, hk, hid⟩ := ha
            have h' : (YangDemo.env 3 3).decode (YangDemo.from_ 1 50 (YangDemo.update 2 6 7)).packet = some (YangDemo.update 2 6 7) := by decide +kernel
            rw [h'] at hd
            cases hd
            cases hk
            exact hid
          subst hk
          obtain ⟨hip, _⟩ := ha
          exact ⟨hip, YangDemo.started 1 7 10, .started (YangDemo.start 7 10 (some [])), by decide +kernel, rfl, rfl⟩
        | cons b' before =>
          simp only [List.cons_append, List.cons.injEq] at he
          obtain ⟨_, he⟩ := he
          cases before with
          | nil => simp at he
          | cons b'' before => simp at he
  · decide +kernel

/-! ## C124: limits -/

/-- **C124** where it holds: not more packets are held for a peer, or for a subscription of a peer, than the limit and one more. What is missing: the limit itself, and that of
the subscriptions that are remembered, see `c124_limits_disproved`. -/
theorem c124_limits_partial (env : Env X P L C) (es : List (Event A X P L)) (ip : A) :
    (((after env es).look ip).getD []).total ≤ env.maxPeer + 1 ∧ ∀ id e, (after env es).entry ip id = some e → e.packets.length ≤ env.maxSub + 1 :=
  ⟨(limited_after env es).1 ip, (limited_after env es).2 ip⟩

/-- one packet more than the limits is held; and when a peer is at its limit, each further subscription is remembered and looked up even so -/
theorem c124_limits_disproved :
    (∃ es : List (Event Nat Nat (Decoded Nat) Nat), (((after (YangDemo.env 1 9) es).look 1).getD []).total = 2) ∧
    (∃ es : List (Event Nat Nat (Decoded Nat) Nat), ((after (YangDemo.env 9 1) es).entry 1 7).map (·.packets.length) = some 2) ∧
    (∃ es : List (Event Nat Nat (Decoded Nat) Nat), (((after (YangDemo.env 0 0) es).look 1).getD []).length = 4 ∧
      (reported (YangDemo.env 0 0) (sent (YangDemo.env 0 0) es)).length = 3 ∧ (sent (YangDemo.env 0 0) es).length = 7) := by
  refine ⟨⟨[YangDemo.packet 1 50 (YangDemo.update 1 5 7), YangDemo.packet 1 50 (YangDemo.update 1 5 8)], ?_⟩,
    ⟨[YangDemo.packet 1 50 (YangDemo.unnamed 1 7), YangDemo.packet 1 50 (YangDemo.unnamed 2 7), YangDemo.packet 1 50 (YangDemo.unnamed 3 7)], ?_⟩,
    ⟨[YangDemo.packet 1 50 (YangDemo.update 1 5 7), YangDemo.packet 1 50 (YangDemo.update 1 5 8), YangDemo.packet 1 50 (YangDemo.update 1 5 9),
      YangDemo.packet 1 50 (YangDemo.update 1 5 10)], ?_⟩⟩ <;> decide +kernel

/-! ## C125: peers and publishers -/

/-- **C125** where it holds: what is sent about a peer is what would be sent if nothing had come from or about other addresses. What is missing: that publishers at one address do
not interfere either, see `c125_publishers_disproved`. -/
theorem c125_peers_partial (env : Env X P L C) (es : List (Event A X P L)) (ip : A) :
    (sent env es).filter (fun o => o.peer = ip) = sent env (es.filter fun e => e.peer = ip) := (peers_after env es ip).2

example : (sent (YangDemo.env 3 3) (YangDemo.packet 2 50 (YangDemo.update 9 5 7) :: yangHistory)).filter (fun o => o.peer = 1) = sent (YangDemo.env 3 3) yangHistory := by
  decide +kernel

/-- the update of a publisher is validated with the schemas for the subscription of another one at the same address that has the same number, and dropped -/
theorem c125_publishers_disproved :
    ∃ (es : List (Event Nat Nat (Decoded Nat) Nat)) (u : Decoded Nat), u.publisher = 2 ∧
      (.dropped .invalid (YangDemo.from_ 1 60 u)) ∈ sentWith (YangDemo.env 3 3) es (YangDemo.packet 1 60 u) ∧
      (∀ r, .packet r ∈ es → r.packet.publisher = 1 ∧ r.peer = ⟨1, 50⟩) ∧
      sentWith (YangDemo.env 3 3) [] (YangDemo.packet 1 60 u) = [.lookupId ⟨100, 9000⟩ none ⟨1, 60⟩ 7] := by
  refine ⟨[YangDemo.packet 1 50 (YangDemo.started 1 7 10), YangDemo.answer 1 50 7 10 5], ⟨2, 1, false, 0, some (.update 7), 6⟩, rfl, by decide +kernel, ?_, by decide +kernel⟩
  intro r hr
  simp only [YangDemo.packet, YangDemo.answer, List.mem_cons, Event.packet.injEq, List.mem_nil_iff, or_false, reduceCtorEq] at hr
  subst hr
  exact ⟨rfl, rfl⟩

/-! ## C126: where a notification came from -/

/-- **C126** where it holds: what a packet is forwarded with has the address that it came from and the subscription that it is about; and when it describes the subscription, the
port too. What is missing: the port of other notifications, see `c126_source_disproved`. -/
theorem c126_source_partial (env : Env X P L C) (es : List (Event A X P L)) (e : Event A X P L) {contentId : Option String} {info : SubInfo A X} {d : Decoded X}
    (h : .forward contentId info d ∈ sentWith env es e) :
    ∃ r, .packet r ∈ es ++ [e] ∧ env.decode r.packet = some d ∧ About env r info.peer.ip info.id ∧ (∀ s, Begins env r s → Describes env r info ∧ info.peer = r.peer) := by
  obtain ⟨c, r, hg, hr, ho⟩ := (agrees_step (agrees_after env es) e).2 _ h
  obtain ⟨k, en, hd, hk, he, hs, h1, h2, hv⟩ := process_forward hg.placed ho
  have hsame := (alike_iff _ _).mp hs
  have hplace := hg.placed _ _ _ he
  refine ⟨r, hr, hd, ⟨(hsame.1.symm.trans hplace.1).symm, d, k, hd, hk, (hsame.2.1.symm.trans hplace.2).symm⟩, ?_⟩
  intro s hb
  obtain ⟨d', k', hd', hk', hs'⟩ := begins_iff.mp hb
  rw [hd] at hd'
  cases hd'
  rw [hk] at hk'
  cases hk'
  have hdesc := h2 s hs'
  obtain ⟨s', _, hi⟩ := describes_iff.mp hdesc
  exact ⟨hdesc, (buildInfo_some hi).2.2⟩

example : .forward none (YangDemo.info 1 50 7 10) (YangDemo.update 2 5 7) ∈
    sentWith (YangDemo.env 3 3) [YangDemo.packet 1 50 (YangDemo.started 1 7 10)] (YangDemo.packet 1 50 (YangDemo.update 2 5 7)) := by
  decide +kernel

/-- a notification is forwarded with a port that it did not come from, that of the packet that started the subscription -/
theorem c126_source_disproved :
    ∃ (es : List (Event Nat Nat (Decoded Nat) Nat)) (info : SubInfo Nat Nat),
      sentWith (YangDemo.env 3 3) es (YangDemo.packet 1 51 (YangDemo.update 2 5 7)) = [.forward (some "schemas") info (YangDemo.update 2 5 7)] ∧ info.peer.port = 50 :=
  ⟨[YangDemo.packet 1 50 (YangDemo.started 1 7 10), YangDemo.answer 1 50 7 10 5], YangDemo.info 1 50 7 10, by decide +kernel, by decide +kernel⟩

/-! ## C127: schemas are looked up once -/

/-- **C127** where it holds: when subscriptions are always described in the same way, and with their modules, each is looked up at most once. What is missing: other histories, see
`c127_lookups_disproved`. -/
theorem c127_lookups_partial (env : Env X P L C) (es : List (Event A X P L)) (hs : Steady env es) (hn : ∀ r, .packet r ∈ es → ¬ Nameless env r) (ip : A) (id : UInt32) :
    (sent env es).countP (·.looksUp ip id) ≤ 1 :=
  (lookups_steady (env := env) (I := fun ip id => Classical.choose (hs ip id)) (fun ip id => Classical.choose_spec (hs ip id)) hn ip id).1

/-- the answers to lookups -/
def yangAnswers : Nat → List (Event Nat Nat (Decoded Nat) Nat)
  | 0 => []
  | n + 1 => yangAnswers n ++ [YangDemo.answer 1 50 7 10 5]

/-- one packet that starts a subscription without naming its modules is looked up again with each answer, so that there is no end of it; with two packets each answer makes for
two more lookups -/
theorem c127_lookups_disproved :
    (∀ n, (sent (YangDemo.env 3 3) (YangDemo.packet 1 50 (YangDemo.unnamed 1 7) :: yangAnswers n)).countP (·.looksUp 1 7) = n + 1) ∧
    (∀ n, (sent (YangDemo.env 3 3) (YangDemo.packet 1 50 (YangDemo.unnamed 1 7) :: YangDemo.packet 1 50 (YangDemo.unnamed 2 7) :: yangAnswers n)).countP (·.looksUp 1 7) =
      2 * n + 2) := by
  have snoc : ∀ (es : List (Event Nat Nat (Decoded Nat) Nat)) n, es ++ yangAnswers (n + 1) = (es ++ yangAnswers n) ++ [YangDemo.answer 1 50 7 10 5] := by
    intro es n
    simp [yangAnswers]
  constructor
  · have key : ∀ n, after (YangDemo.env 3 3) ([YangDemo.packet 1 50 (YangDemo.unnamed 1 7)] ++ yangAnswers (n + 1)) =
          [(1, [(7, ⟨some "schemas", YangDemo.info 1 50 7 10, some 5, [YangDemo.from_ 1 50 (YangDemo.unnamed 1 7)]⟩)])] ∧
        (sent (YangDemo.env 3 3) ([YangDemo.packet 1 50 (YangDemo.unnamed 1 7)] ++ yangAnswers (n + 1))).countP (·.looksUp 1 7) = n + 2 := by
      intro n
      induction n with
      | zero => exact ⟨rfl, by decide +kernel⟩
      | succ n ih =>
        rw [snoc, after_snoc, sent_snoc, List.countP_append, ih.2]
        unfold sentWith
        rw [ih.1]
        exact ⟨rfl, by rfl⟩
    intro n
    cases n with
    | zero => decide +kernel
    | succ n => exact (key n).2
  · have key : ∀ n, after (YangDemo.env 3 3) ([YangDemo.packet 1 50 (YangDemo.unnamed 1 7), YangDemo.packet 1 50 (YangDemo.unnamed 2 7)] ++ yangAnswers (n + 1)) =
          [(1, [(7, ⟨some "schemas", YangDemo.info 1 50 7 10, some 5, [YangDemo.from_ 1 50 (YangDemo.unnamed 1 7), YangDemo.from_ 1 50 (YangDemo.unnamed 2 7)]⟩)])] ∧
        (sent (YangDemo.env 3 3) ([YangDemo.packet 1 50 (YangDemo.unnamed 1 7), YangDemo.packet 1 50 (YangDemo.unnamed 2 7)] ++ yangAnswers (n + 1))).countP (·.looksUp 1 7) =
          2 * n + 4 := by
      intro n
      induction n with
      | zero => exact ⟨rfl, by decide +kernel⟩
      | succ n ih =>
        rw [snoc, after_snoc, sent_snoc, List.countP_append, ih.2]
        unfold sentWith
        rw [ih.1]
        exact ⟨rfl, by rfl⟩
    intro n
    cases n with
    | zero => decide +kernel
    | succ n => exact (key n).2

/-! ## C128: responses let notifications out -/

/-- **C128** where it holds: with a response about a subscription that is not described otherwise, each notification that is held for it is forwarded, or dropped with a warning
because the schemas do not allow it. What is missing: notifications that start or modify a subscription without naming its modules, see `c128_released_disproved`. -/
theorem c128_released_partial (env : Env X P L C) (es : List (Event A X P L)) (resp : Response A X L)
    (hbefore : ∀ info, LastDescribed env es resp.info.peer.ip resp.info.id info → Alike info resp.info) {e : CachedSub A X P C} {r : Request A P}
    (he : (after env es).entry resp.info.peer.ip resp.info.id = some e) (hr : r ∈ e.packets) (hn : ¬ Nameless env r) :
    ∃ d, env.decode r.packet = some d ∧ ((∃ contentId info, Alike info resp.info ∧ .forward contentId info d ∈ sentWith env es (.response resp)) ∨
      .dropped .invalid r ∈ sentWith env es (.response resp)) := by
  have hg := agrees_after env es
  have hagree : ∀ r ∈ e.packets, Agreeing env resp r := by
    intro r hr info hd h1 h2
    obtain ⟨i, hi⟩ := lastDescribed_exists (hg.packets _ _ _ he r hr).2 hd
    have h3 := (heldOk_after env es _ _ _ he r hr).2 info hd i hi
    rw [h1, h2] at hi
    exact alike_trans (alike_symm h3) (hbefore i hi)
  obtain ⟨c', hq, hmem⟩ := processAll_mem (env := env) (Q := Answered env resp) (R := Agreeing env resp) (fun c r hq hr => answered_process hq hr) e.packets
    ((after env es).set resp.info.peer.ip resp.info.id (.answered env resp))
    ⟨placed_set hg.placed ⟨rfl, rfl⟩, _, by rw [entry_set, if_pos ⟨rfl, rfl⟩], rfl, rfl, rfl⟩ hagree r hr
  have hsent : sentWith env es (.response resp) = (processAll env ((after env es).set resp.info.peer.ip resp.info.id (.answered env resp)) e.packets).2 := by
    unfold sentWith
    simp only [step, respond, he]
  rw [hsent]
  obtain ⟨hip, d, k, hd, hk, hid⟩ := (hg.packets _ _ _ he r hr).1
  obtain ⟨hp, e', he', h1, h2, h3⟩ := hq
  obtain ⟨info, hs, _, _, hout⟩ := process_verdict hp hd hk (by rw [hip, hid]; exact he') hn (by
    intro info hdesc
    have hab := about_unique (describes_about hdesc) ⟨hip, d, k, hd, hk, hid⟩
    rw [h2]
    exact (alike_iff _ _).mpr (alike_symm (hagree r hr info hdesc hab.1 hab.2)))
  have halike : Alike info resp.info := by rw [← h2]; exact alike_symm ((alike_iff _ _).mp hs)
  refine ⟨d, hd, ?_⟩
  rcases verdict_cases env e' info d r with ⟨hv, _⟩ | ⟨cid, _, _, _, _, ⟨_, hv⟩ | ⟨_, hv⟩⟩
  · exact .inl ⟨none, info, halike, hmem _ (by rw [hout, hv]; exact List.mem_singleton.mpr rfl)⟩
  · exact .inl ⟨some cid, info, halike, hmem _ (by rw [hout, hv]; exact List.mem_singleton.mpr rfl)⟩
  · exact .inr (hmem _ (by rw [hout, hv]; exact List.mem_singleton.mpr rfl))

example : ∃ e, (after (YangDemo.env 3 3) [YangDemo.packet 1 50 (YangDemo.update 1 5 7)]).entry 1 7 = some e ∧ YangDemo.from_ 1 50 (YangDemo.update 1 5 7) ∈ e.packets ∧
    sentWith (YangDemo.env 3 3) [YangDemo.packet 1 50 (YangDemo.update 1 5 7)] (YangDemo.answer 1 50 7 10 5) =
      [.forward (some "schemas") (YangDemo.info 1 50 7 10) (YangDemo.update 1 5 7)] :=
  ⟨_, rfl, by decide +kernel, by decide +kernel⟩

/-- a notification that starts or modifies a subscription without naming its modules is never forwarded, whatever comes -/
theorem c128_released_disproved (env : Env X P L C) (es : List (Event A X P L)) {d : Decoded X} (h : d ∈ forwarded (sent env es)) {s : Started X}
    (hd : d.contents = some (.started s) ∨ d.contents = some (.modified s)) : s.modules ≠ none := by
  have mem : ∀ (os : List (Output A X P)), d ∈ forwarded os → ∃ cid info, .forward cid info d ∈ os := by
    intro os
    induction os with
    | nil => intro h; cases h
    | cons o os ih =>
      intro h
      cases o with
      | forward cid info d' =>
        simp only [forwarded, List.mem_cons] at h
        rcases h with rfl | h
        · exact ⟨cid, info, List.mem_cons_self ..⟩
        · obtain ⟨c, i, h⟩ := ih h
          exact ⟨c, i, List.mem_cons_of_mem _ h⟩
      | lookupInfo _ => obtain ⟨c, i, h⟩ := ih h; exact ⟨c, i, List.mem_cons_of_mem _ h⟩
      | lookupId _ _ _ _ => obtain ⟨c, i, h⟩ := ih h; exact ⟨c, i, List.mem_cons_of_mem _ h⟩
      | dropped _ _ => obtain ⟨c, i, h⟩ := ih h; exact ⟨c, i, List.mem_cons_of_mem _ h⟩
  induction es using snoc_induction with
  | nil => cases h
  | append_singleton es e ih =>
    rw [sent_snoc, forwarded_append, List.mem_append] at h
    rcases h with h | h
    · exact ih h
    · obtain ⟨cid, info, ho⟩ := mem _ h
      obtain ⟨r, hr, hdec, _, hdesc⟩ := c126_source_partial env es e ho
      obtain ⟨hdsc, _⟩ := hdesc s ⟨d, hdec, hd⟩
      intro hm
      exact nameless_describes ⟨s, ⟨d, hdec, hd⟩, hm⟩ info hdsc

example : YangDemo.started 1 7 10 ∈ forwarded (sent (YangDemo.env 3 3) yangHistory) := by decide +kernel

end Verif.Props
