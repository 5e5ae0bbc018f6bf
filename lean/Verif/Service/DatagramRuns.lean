import Verif.Service.DatagramLemmas

namespace Verif.Service
open Verif Verif.Collector

variable {σ π : Type}

/-- commands hand out nothing -/
theorem step_command_offers {codec : Codec σ π} {hash : Nat → Nat} {a a' : Actor σ} {c : Command} {out : List (Effect σ π)} {x : Option Ending}
    (h : a.step codec hash (.command c) = (a', out, x)) : (∀ s, offersTo s out = []) ∧ (∀ s, channelsTo s out = []) ∧ sendings out = [] ∧
      a'.received = a.received ∧ a'.decoded = a.decoded ∧ a'.malformed = a.malformed ∧ a'.sent = a.sent ∧ a'.dropped = a.dropped := by
  cases c with
  | shutdown => simp [Actor.step, Actor.handle] at h; obtain ⟨rfl, rfl, -⟩ := h; simp [offersTo, channelsTo, sendings]
  | subscribe chans heard =>
    simp only [Actor.step, Actor.handle] at h
    cases heard <;> simp at h <;> obtain ⟨rfl, rfl, -⟩ := h <;> simp [offersTo, channelsTo, sendings]
  | unsubscribe i =>
    simp [Actor.step, Actor.handle] at h; obtain ⟨rfl, rfl, -⟩ := h
    split <;> simp [offersTo, channelsTo, sendings]
  | purgeUnused now dur => simp [Actor.step, Actor.handle, Actor.purgeUnused] at h; obtain ⟨rfl, rfl, -⟩ := h; simp [offersTo, channelsTo, sendings]
  | purge p =>
    simp only [Actor.step, Actor.handle] at h
    by_cases hp : (a.clients.look p).isSome
    · rw [if_pos hp] at h; simp at h; obtain ⟨rfl, rfl, -⟩ := h; simp [offersTo, channelsTo, sendings]
    · rw [if_neg hp] at h; simp at h; obtain ⟨rfl, rfl, -⟩ := h; simp [offersTo, channelsTo, sendings]
  | localAddr => simp [Actor.step, Actor.handle] at h; obtain ⟨rfl, rfl, -⟩ := h; simp [offersTo, channelsTo, sendings]
  | peers => simp [Actor.step, Actor.handle] at h; obtain ⟨rfl, rfl, -⟩ := h; simp [offersTo, channelsTo, sendings]
  | state p => simp [Actor.step, Actor.handle] at h; obtain ⟨rfl, rfl, -⟩ := h; simp [offersTo, channelsTo, sendings]

/-- what a command does to the subscribers -/
theorem step_command_look {codec : Codec σ π} {hash : Nat → Nat} {a a' : Actor σ} {c : Command} {out : List (Effect σ π)} {x : Option Ending}
    (h : a.step codec hash (.command c) = (a', out, x)) (s : UInt32) (hc : ∀ i, c = .unsubscribe i → i ≠ s) (hn : a.next ≠ s) :
    a'.subscribers.look s = a.subscribers.look s := by
  cases c with
  | shutdown => simp [Actor.step, Actor.handle] at h; obtain ⟨rfl, rfl, -⟩ := h; rfl
  | subscribe chans heard =>
    simp only [Actor.step, Actor.handle] at h
    cases heard <;> simp at h <;> obtain ⟨rfl, rfl, -⟩ := h
    · show (del (put a.subscribers a.next chans) a.next).look s = _
      rw [lookup_del, if_neg hn, lookup_put, if_neg hn]
    · show (put a.subscribers a.next chans).look s = _
      rw [lookup_put, if_neg hn]
  | unsubscribe i =>
    simp [Actor.step, Actor.handle] at h; obtain ⟨rfl, rfl, -⟩ := h
    show (del a.subscribers i).look s = _
    rw [lookup_del, if_neg (hc i rfl)]
  | purgeUnused now dur => simp [Actor.step, Actor.handle, Actor.purgeUnused] at h; obtain ⟨rfl, rfl, -⟩ := h; rfl
  | purge p =>
    simp only [Actor.step, Actor.handle] at h
    by_cases hp : (a.clients.look p).isSome
    · rw [if_pos hp] at h; simp at h; obtain ⟨rfl, rfl, -⟩ := h; rfl
    · rw [if_neg hp] at h; simp at h; obtain ⟨rfl, rfl, -⟩ := h; rfl
  | localAddr => simp [Actor.step, Actor.handle] at h; obtain ⟨rfl, rfl, -⟩ := h; rfl
  | peers => simp [Actor.step, Actor.handle] at h; obtain ⟨rfl, rfl, -⟩ := h; rfl
  | state p => simp [Actor.step, Actor.handle] at h; obtain ⟨rfl, rfl, -⟩ := h; rfl

theorem messages_command (codec : Codec σ π) (k : Addr → σ) (c : Command) : messages codec k [.command c] = [] := by
  cases c <;> rfl

/-- what a round hands out to a subscriber that stays -/
theorem step_offers {codec : Codec σ π} {hash : Nat → Nat} {a a' : Actor σ} {k : Addr → σ} {e : Event} {out : List (Effect σ π)}
    (hk : Agrees codec a k) (hs : Sound a) (h : a.step codec hash e = (a', out, none)) {s : UInt32} {cs : List Chan}
    (hl : a.subscribers.look s = some cs) (hst : Stays s [e]) (ho : Open s cs (messages codec k [e])) :
    a'.subscribers.look s = some cs ∧
    offersTo s out = (messages codec k [e]).map (fun m => (m.peer, m.content, m.sending s)) ∧
    channelsTo s out = (messages codec k [e]).filterMap (fun m => (pick hash m.peer cs).map fun c => (m.peer, c)) := by
  cases e with
  | noCommands => simp [Actor.step] at h
  | socketError => simp [Actor.step] at h
  | socketDown => simp [Actor.step] at h
  | datagram now p b closed sending =>
    simp only [messages] at ho ⊢
    rw [← hk p] at ho ⊢
    rcases hd : codec.decode now ((a.clients.look p).getD codec.fresh) b with ⟨x | _ | _ | _, st⟩ <;> rw [hd] at ho
    · rw [step_packet hd] at h
      obtain ⟨rfl, h'⟩ := Prod.mk.inj h
      obtain ⟨rfl, -⟩ := Prod.mk.inj h'
      have hr : (remaining closed a.subscribers).look s = some cs := by
        rw [look_remaining hs.uniq, hl]
        obtain ⟨c, hc, hcl⟩ := ho ⟨p, x, closed, sending⟩ (List.mem_singleton.2 rfl)
        simp only [Option.filter]
        rw [if_pos]
        simp only [Bool.not_eq_true', List.all_eq_false]
        exact ⟨c, hc, by simp at hcl ⊢; exact hcl⟩
      refine ⟨hr, ?_, ?_⟩
      · rw [offersTo_deliver (show Uniq (remaining closed a.subscribers) from Uniq.filter hs.uniq _) (remaining_ne _ _), hr]; rfl
      · rw [channelsTo_deliver (show Uniq (remaining closed a.subscribers) from Uniq.filter hs.uniq _) (remaining_ne _ _), hr]
        simp only [Option.bind_some, List.filterMap_cons, List.filterMap_nil]
        cases pick hash p cs <;> rfl
    · rw [step_nothing hd] at h
      obtain ⟨rfl, h'⟩ := Prod.mk.inj h
      obtain ⟨rfl, -⟩ := Prod.mk.inj h'
      exact ⟨hl, rfl, rfl⟩
    · rw [step_malformed hd] at h
      obtain ⟨rfl, h'⟩ := Prod.mk.inj h
      obtain ⟨rfl, -⟩ := Prod.mk.inj h'
      exact ⟨hl, rfl, rfl⟩
    · rw [step_panics hd] at h; simp at h
  | command c =>
    obtain ⟨h1, h2, -⟩ := step_command_offers h
    rw [messages_command, h1, h2]
    refine ⟨?_, rfl, rfl⟩
    rw [step_command_look h s (fun i hi => hst _ (List.mem_singleton.2 rfl) i (by rw [hi])) ?_, hl]
    intro e
    have : s.toNat < a.next.toNat := (hs.given _ (mem_of_lookup hl)).2
    rw [e] at this
    omega

/-- what is handed out to a subscriber that stays -/
theorem run_offers {codec : Codec σ π} {hash : Nat → Nat} (es : List Event) : ∀ {a : Actor σ} {k : Addr → σ}, Agrees codec a k → Sound a →
    0 < a.next.toNat → a.next.toNat + subscriptions es < 2 ^ 32 → Runs codec hash a es → ∀ {s : UInt32} {cs : List Chan},
    a.subscribers.look s = some cs → Stays s es → Open s cs (messages codec k es) →
    offersTo s (a.run codec hash es).2.1 = (messages codec k es).map (fun m => (m.peer, m.content, m.sending s)) ∧
    channelsTo s (a.run codec hash es).2.1 = (messages codec k es).filterMap (fun m => (pick hash m.peer cs).map fun c => (m.peer, c)) := by
  induction es with
  | nil => intro a k _ _ _ _ _ s cs _ _ _; exact ⟨rfl, rfl⟩
  | cons e es ih =>
    intro a k hk hs hp hn hr s cs hl hst ho
    obtain ⟨a', out, hst', hr', he⟩ := runs_cons hr
    rw [subscriptions_cons] at hn
    rw [messages_cons] at ho ⊢
    obtain ⟨h1, h2⟩ := step_sound hs hp (by omega) hst'
    obtain ⟨h3, h4, h5⟩ := step_offers hk hs hst' hl (fun x hx => hst x (List.mem_cons.2 (Or.inl (List.mem_singleton.1 hx))))
      (fun m hm => ho m (List.mem_append_left _ hm))
    obtain ⟨h6, h7⟩ := ih (step_agrees hk hst') h1 (by omega) (by omega) hr' h3 (fun x hx => hst x (List.mem_cons_of_mem _ hx))
      (fun m hm => ho m (List.mem_append_right _ hm))
    rw [he]
    exact ⟨by rw [offersTo_append, h4, h6, List.map_append], by rw [channelsTo_append, h5, h7, List.filterMap_append]⟩

/-- nothing is handed out to who is no subscriber -/
theorem step_none {codec : Codec σ π} {hash : Nat → Nat} {a a' : Actor σ} {e : Event} {out : List (Effect σ π)} {x : Option Ending}
    (hs : Sound a) (h : a.step codec hash e = (a', out, x)) {s : UInt32} (hl : a.subscribers.look s = none) :
    offersTo s out = [] ∧ (a.next ≠ s → a'.subscribers.look s = none) := by
  cases e with
  | noCommands => simp [Actor.step] at h; obtain ⟨rfl, rfl, -⟩ := h; exact ⟨rfl, fun _ => hl⟩
  | socketError => simp [Actor.step] at h; obtain ⟨rfl, rfl, -⟩ := h; exact ⟨rfl, fun _ => hl⟩
  | socketDown => simp [Actor.step] at h; obtain ⟨rfl, rfl, -⟩ := h; exact ⟨rfl, fun _ => hl⟩
  | datagram now p b closed sending =>
    rcases hd : codec.decode now ((a.clients.look p).getD codec.fresh) b with ⟨x | _ | _ | _, st⟩
    · rw [step_packet hd] at h
      obtain ⟨rfl, h'⟩ := Prod.mk.inj h
      obtain ⟨rfl, -⟩ := Prod.mk.inj h'
      have hr : (remaining closed a.subscribers).look s = none := by rw [look_remaining hs.uniq, hl]; rfl
      exact ⟨by rw [offersTo_deliver (show Uniq (remaining closed a.subscribers) from Uniq.filter hs.uniq _) (remaining_ne _ _), hr]; rfl, fun _ => hr⟩
    · rw [step_nothing hd] at h
      obtain ⟨rfl, h'⟩ := Prod.mk.inj h
      obtain ⟨rfl, -⟩ := Prod.mk.inj h'
      exact ⟨rfl, fun _ => hl⟩
    · rw [step_malformed hd] at h
      obtain ⟨rfl, h'⟩ := Prod.mk.inj h
      obtain ⟨rfl, -⟩ := Prod.mk.inj h'
      exact ⟨rfl, fun _ => hl⟩
    · rw [step_panics hd] at h
      obtain ⟨rfl, h'⟩ := Prod.mk.inj h
      obtain ⟨rfl, -⟩ := Prod.mk.inj h'
      exact ⟨rfl, fun _ => hl⟩
  | command c =>
    refine ⟨(step_command_offers h).1 s, fun hn => ?_⟩
    by_cases hc : ∃ i, c = .unsubscribe i ∧ i = s
    · obtain ⟨i, rfl, rfl⟩ := hc
      simp [Actor.step, Actor.handle] at h; obtain ⟨rfl, -⟩ := h
      show (del a.subscribers i).look i = _
      rw [lookup_del, if_pos rfl]
    · rw [step_command_look h s (fun i hi e => hc ⟨i, hi, e⟩) hn, hl]

/-- an identifier that was given out and is no subscriber stays so -/
theorem run_gone {codec : Codec σ π} {hash : Nat → Nat} (es : List Event) : ∀ {a : Actor σ}, Sound a →
    0 < a.next.toNat → a.next.toNat + subscriptions es < 2 ^ 32 → ∀ {s : UInt32},
    a.subscribers.look s = none → s.toNat < a.next.toNat → offersTo s (a.run codec hash es).2.1 = [] := by
  induction es with
  | nil => intro a _ _ _ s _ _; rfl
  | cons e es ih =>
    intro a hs hp hn s hl hlt
    rw [subscriptions_cons] at hn
    simp only [Actor.run]
    rcases hst : a.step codec hash e with ⟨a', out, _ | x⟩
    · obtain ⟨h1, h2⟩ := step_sound hs hp (by omega) hst
      obtain ⟨h3, h4⟩ := step_none hs hst hl
      simp only
      rw [offersTo_append, h3, ih h1 (by omega) (by omega) (h4 fun e => by rw [e] at hlt; omega) (by omega)]
      rfl
    · exact (step_none hs hst hl).1

/-- an identifier that is not given out yet is no subscriber -/
theorem run_before {codec : Codec σ π} {hash : Nat → Nat} (es : List Event) : ∀ {a : Actor σ}, Sound a →
    0 < a.next.toNat → a.next.toNat + subscriptions es < 2 ^ 32 → ∀ {s : UInt32},
    a.next.toNat + subscriptions es ≤ s.toNat → offersTo s (a.run codec hash es).2.1 = [] := by
  induction es with
  | nil => intro a _ _ _ s _; rfl
  | cons e es ih =>
    intro a hs hp hn s hlt
    rw [subscriptions_cons] at hn hlt
    have hl : a.subscribers.look s = none := look_eq_none fun y hy e => by
      have := (hs.given y hy).2
      rw [← e] at this
      omega
    simp only [Actor.run]
    rcases hst : a.step codec hash e with ⟨a', out, _ | x⟩
    · obtain ⟨h1, h2⟩ := step_sound hs hp (by omega) hst
      obtain ⟨h3, h4⟩ := step_none hs hst hl
      simp only
      rw [offersTo_append, h3, ih h1 (by omega) (by omega) (by omega)]
      rfl
    · exact (step_none hs hst hl).1

/-- a subscription whose reply is received -/
theorem step_subscribe {codec : Codec σ π} {hash : Nat → Nat} (a : Actor σ) (chans : List Chan) :
    a.step codec hash (.command (.subscribe chans true)) =
      ({ a with next := a.next + 1, subscribers := put a.subscribers a.next chans }, [.subscribed a.id a.next], none) := rfl

/-! ### what is counted -/

theorem sendings_append (x y : List (Effect σ π)) : sendings (x ++ y) = sendings x ++ sendings y := by simp [sendings]

theorem sendings_deliver (hash : Nat → Nat) (peer : Addr) (p : π) (sending : UInt32 → Sending) {subs : List (UInt32 × List Chan)}
    (hn : ∀ x ∈ subs, x.2 ≠ []) : sendings (deliver hash peer p sending subs : List (Effect σ π)) = subs.map fun x => sending x.1 := by
  induction subs with
  | nil => rfl
  | cons x rest ih =>
    obtain ⟨c, -, hc⟩ := pick_some hash peer (hn x (List.mem_cons_self ..))
    have ih := ih fun y hy => hn y (List.mem_cons_of_mem _ hy)
    simp only [sendings, deliver, List.filterMap_cons, hc, Option.map_some, List.map_cons] at ih ⊢
    rw [ih]

/-- the counters after a round -/
theorem step_counts {codec : Codec σ π} {hash : Nat → Nat} {a a' : Actor σ} {k : Addr → σ} {e : Event} {out : List (Effect σ π)}
    (hk : Agrees codec a k) (h : a.step codec hash e = (a', out, none)) :
    a'.received = a.received + [e].countP Event.isDatagram ∧ a'.decoded = a.decoded + (messages codec k [e]).length ∧
    a'.sent = a.sent + (sendings out).countP (fun h => decide (h = .sent)) ∧
    a'.dropped = a.dropped + (sendings out).countP (fun h => !decide (h = .sent)) ∧
    a'.malformed + a'.decoded ≤ a.malformed + a.decoded + [e].countP Event.isDatagram := by
  cases e with
  | noCommands => simp [Actor.step] at h
  | socketError => simp [Actor.step] at h
  | socketDown => simp [Actor.step] at h
  | datagram now p b closed sending =>
    simp only [messages]
    rw [← hk p]
    have hc : [Event.datagram now p b closed sending].countP Event.isDatagram = 1 := rfl
    rw [hc]
    rcases hd : codec.decode now ((a.clients.look p).getD codec.fresh) b with ⟨x | _ | _ | _, st⟩
    · rw [step_packet hd] at h
      obtain ⟨rfl, h'⟩ := Prod.mk.inj h
      obtain ⟨rfl, -⟩ := Prod.mk.inj h'
      rw [sendings_deliver _ _ _ _ (remaining_ne _ _), List.countP_map, List.countP_map]
      refine ⟨rfl, rfl, rfl, rfl, ?_⟩
      show a.malformed + (a.decoded + 1) ≤ _
      omega
    · rw [step_nothing hd] at h
      obtain ⟨rfl, h'⟩ := Prod.mk.inj h
      obtain ⟨rfl, -⟩ := Prod.mk.inj h'
      exact ⟨rfl, rfl, rfl, rfl, Nat.le_add_right _ _⟩
    · rw [step_malformed hd] at h
      obtain ⟨rfl, h'⟩ := Prod.mk.inj h
      obtain ⟨rfl, -⟩ := Prod.mk.inj h'
      refine ⟨rfl, rfl, rfl, rfl, ?_⟩
      show a.malformed + 1 + a.decoded ≤ _
      omega
    · rw [step_panics hd] at h; simp at h
  | command c =>
    obtain ⟨-, -, h1, h2, h3, h4, h5, h6⟩ := step_command_offers h
    rw [messages_command, h1, h2, h3, h4, h5, h6]
    exact ⟨rfl, rfl, rfl, rfl, Nat.le_refl _⟩

theorem run_counts {codec : Codec σ π} {hash : Nat → Nat} (es : List Event) : ∀ {a : Actor σ} {k : Addr → σ}, Agrees codec a k →
    Runs codec hash a es →
    (a.run codec hash es).1.received = a.received + es.countP Event.isDatagram ∧
    (a.run codec hash es).1.decoded = a.decoded + (messages codec k es).length ∧
    (a.run codec hash es).1.sent = a.sent + (sendings (a.run codec hash es).2.1).countP (fun h => decide (h = .sent)) ∧
    (a.run codec hash es).1.dropped = a.dropped + (sendings (a.run codec hash es).2.1).countP (fun h => !decide (h = .sent)) ∧
    (a.run codec hash es).1.malformed + (a.run codec hash es).1.decoded ≤ a.malformed + a.decoded + es.countP Event.isDatagram := by
  induction es with
  | nil => intro a k _ _; exact ⟨rfl, rfl, rfl, rfl, Nat.le_refl _⟩
  | cons e es ih =>
    intro a k hk hr
    obtain ⟨a', out, hs, hr', he⟩ := runs_cons hr
    obtain ⟨h1, h2, h3, h4, h5⟩ := step_counts hk hs
    obtain ⟨i1, i2, i3, i4, i5⟩ := ih (step_agrees hk hs) hr'
    rw [he, messages_cons, show e :: es = [e] ++ es from rfl, List.countP_append, List.length_append]
    simp only
    rw [sendings_append, List.countP_append, List.countP_append, i1, i2, i3, i4, h1, h2, h3, h4]
    rw [i2] at i5
    exact ⟨by omega, by omega, by omega, by omega, by omega⟩

/-! ### peers -/

theorem messages_fromPeer (codec : Codec σ π) (p : Addr) (es : List Event) : ∀ k : Addr → σ,
    ((messages codec k es).filter fun m => decide (m.peer = p)).map (·.content) = listen codec (k p) (fromPeer p es) := by
  induction es with
  | nil => intro k; rfl
  | cons e es ih =>
    intro k
    cases e with
    | noCommands => exact ih k
    | socketError => exact ih k
    | socketDown => exact ih k
    | datagram now q b closed sending =>
      simp only [messages, fromPeer]
      by_cases hq : q = p
      · subst hq
        rw [if_pos rfl]
        simp only [listen]
        have hat : ∀ s, at' k q s q = s := fun s => by simp [at']
        rcases hd : codec.decode now (k q) b with ⟨x | _ | _ | _, st⟩
        · simp only [List.filter_cons, decide_true, if_true, List.map_cons]
          rw [ih, hat]
        · simp only; rw [ih, hat]
        · simp only; rw [ih, hat]
        · simp only; rw [ih, hat]
      · rw [if_neg hq]
        have hat : ∀ s, at' k q s p = k p := fun s => by simp [at', Ne.symm hq]
        rcases hd : codec.decode now (k q) b with ⟨x | _ | _ | _, st⟩
        · simp only [List.filter_cons, hq, decide_false, Bool.false_eq_true, if_false]
          rw [ih, hat]
        · simp only; rw [ih, hat]
        · simp only; rw [ih, hat]
        · simp only; rw [ih, hat]
    | command c =>
      cases c with
      | purge q =>
        simp only [messages, fromPeer]
        by_cases hq : q = p
        · subst hq; rw [if_pos rfl, ih]; simp [listen, at']
        · rw [if_neg hq, ih]; simp [at', Ne.symm hq]
      | _ => exact ih k

/-- what commands and datagrams do not do -/
theorem step_ends {codec : Codec σ π} {hash : Nat → Nat} (hc : ∀ now s b, (codec.decode now s b).1 ≠ .panics) (a : Actor σ) {e : Event}
    (he : e.ends = false) : ∃ a' out, a.step codec hash e = (a', out, none) := by
  cases e with
  | noCommands => simp [Event.ends] at he
  | socketError => simp [Event.ends] at he
  | socketDown => simp [Event.ends] at he
  | datagram now p b closed sending =>
    rcases hd : codec.decode now ((a.clients.look p).getD codec.fresh) b with ⟨x | _ | _ | _, st⟩
    · exact ⟨_, _, step_packet hd⟩
    · exact ⟨_, _, step_nothing hd⟩
    · exact ⟨_, _, step_malformed hd⟩
    · exact absurd (by rw [hd]) (hc now _ b)
  | command c =>
    cases c with
    | shutdown => simp [Event.ends] at he
    | subscribe chans heard => cases heard <;> exact ⟨_, _, rfl⟩
    | purge p =>
      simp only [Actor.step, Actor.handle]
      by_cases hp : (a.clients.look p).isSome
      · rw [if_pos hp]; exact ⟨_, _, rfl⟩
      · rw [if_neg hp]; exact ⟨_, _, rfl⟩
    | _ => exact ⟨_, _, rfl⟩

theorem run_ends {codec : Codec σ π} {hash : Nat → Nat} (hc : ∀ now s b, (codec.decode now s b).1 ≠ .panics) (es : List Event) :
    ∀ (a : Actor σ), (∀ e ∈ es, e.ends = false) → Runs codec hash a es := by
  induction es with
  | nil => intro a _; rfl
  | cons e es ih =>
    intro a h
    obtain ⟨a', out, hs⟩ := step_ends (hash := hash) hc a (h e (List.mem_cons_self ..))
    unfold Runs
    rw [run_cons_of hs]
    exact ih a' fun x hx => h x (List.mem_cons_of_mem _ hx)

/-- a panic is one of the decoder -/
theorem run_panics {codec : Codec σ π} {hash : Nat → Nat} (es : List Event) : ∀ {a : Actor σ} {k : Addr → σ}, Agrees codec a k →
    (a.run codec hash es).2.2 = some .panicked → ∃ pre now p b closed sending post, es = pre ++ .datagram now p b closed sending :: post ∧
      (codec.decode now (knowledge codec k pre p) b).1 = .panics := by
  induction es with
  | nil => intro a k _ h; simp [Actor.run] at h
  | cons e es ih =>
    intro a k hk h
    simp only [Actor.run] at h
    rcases hst : a.step codec hash e with ⟨a', out, _ | x⟩ <;> rw [hst] at h
    · obtain ⟨pre, now, p, b, c, s, post, rfl, hd⟩ := ih (step_agrees hk hst) h
      exact ⟨e :: pre, now, p, b, c, s, post, rfl, by rw [knowledge_cons]; exact hd⟩
    · simp only [Option.some.injEq] at h
      subst h
      cases e with
      | noCommands => simp [Actor.step] at hst
      | socketError => simp [Actor.step] at hst
      | socketDown => simp [Actor.step] at hst
      | datagram now p b closed sending =>
        refine ⟨[], now, p, b, closed, sending, es, rfl, ?_⟩
        show (codec.decode now (k p) b).1 = _
        rw [← hk p]
        rcases hd : codec.decode now ((a.clients.look p).getD codec.fresh) b with ⟨x | _ | _ | _, st⟩
        · rw [step_packet hd] at hst; simp at hst
        · rw [step_nothing hd] at hst; simp at hst
        · rw [step_malformed hd] at hst; simp at hst
        · rfl
      | command c =>
        cases c with
        | shutdown => simp [Actor.step, Actor.handle] at hst
        | subscribe chans heard => cases heard <;> simp [Actor.step, Actor.handle] at hst
        | purge p =>
          simp only [Actor.step, Actor.handle] at hst
          by_cases hp : (a.clients.look p).isSome
          · rw [if_pos hp] at hst; simp at hst
          · rw [if_neg hp] at hst; simp at hst
        | unsubscribe i => simp [Actor.step, Actor.handle] at hst
        | purgeUnused now dur => simp [Actor.step, Actor.handle, Actor.purgeUnused] at hst
        | localAddr => simp [Actor.step, Actor.handle] at hst
        | peers => simp [Actor.step, Actor.handle] at hst
        | state p => simp [Actor.step, Actor.handle] at hst

end Verif.Service
