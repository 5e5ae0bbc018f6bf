import Verif.Service.DatagramSpec

namespace Verif.Service
open Verif Verif.Collector

variable {σ π : Type}

theorem pick_some (hash : Nat → Nat) (peer : Addr) {chans : List Chan} (h : chans ≠ []) :
    ∃ c ∈ chans, pick hash peer chans = some c := by
  unfold pick
  have hl : 0 < chans.length := List.length_pos_iff.2 h
  by_cases h1 : chans.length = 1
  · rw [if_pos h1]
    exact ⟨chans[0], List.getElem_mem _, List.getElem?_eq_getElem hl⟩
  · rw [if_neg h1, if_neg (by omega)]
    have := Nat.mod_lt (hash peer.ip) hl
    exact ⟨chans[hash peer.ip % chans.length], List.getElem_mem _, List.getElem?_eq_getElem this⟩

theorem pick_ip (hash : Nat → Nat) {p q : Addr} (h : p.ip = q.ip) (chans : List Chan) : pick hash p chans = pick hash q chans := by
  unfold pick; rw [h]

/-- what is handed out -/
def deliver (hash : Nat → Nat) (peer : Addr) (p : π) (sending : UInt32 → Sending) (subs : List (UInt32 × List Chan)) :
    List (Effect σ π) :=
  subs.filterMap fun y => (pick hash peer y.2).map fun c => .offer y.1 c peer p (sending y.1)

theorem sendAll_some (hash : Nat → Nat) (peer : Addr) (p : π) (sending : UInt32 → Sending) (subs : List (UInt32 × List Chan)) :
    ∀ a : Actor σ, (∀ x ∈ subs, x.2 ≠ []) →
      Actor.sendAll hash peer p sending subs a =
        some ({ a with sent := a.sent + subs.countP (fun x => decide (sending x.1 = .sent)),
                       dropped := a.dropped + subs.countP (fun x => !decide (sending x.1 = .sent)) },
          deliver hash peer p sending subs) := by
  induction subs with
  | nil => intro a _; rfl
  | cons x rest ih =>
    intro a h
    obtain ⟨c, -, hc⟩ := pick_some hash peer (h x (List.mem_cons_self ..))
    obtain ⟨id, chans⟩ := x
    simp only [Actor.sendAll] at *
    rw [hc]
    simp only
    rw [ih _ fun y hy => h y (List.mem_cons_of_mem _ hy)]
    simp only [Option.some.injEq, Prod.mk.injEq]
    refine ⟨?_, ?_⟩
    · by_cases hs : sending id = .sent
      · simp only [hs, if_true, List.countP_cons, decide_true, Bool.not_true, Bool.false_eq_true, if_false]
        congr 1 <;> omega
      · simp only [hs, if_false, List.countP_cons, decide_false, Bool.not_false, Bool.false_eq_true, if_true]
        congr 1 <;> omega
    · simp [deliver, hc]

/-- the subscribers left when something is handed out -/
def remaining (closed : UInt32 → Chan → Bool) (subs : List (UInt32 × List Chan)) : List (UInt32 × List Chan) :=
  subs.filter fun x => !x.2.all (closed x.1)

theorem remaining_ne (closed : UInt32 → Chan → Bool) (subs : List (UInt32 × List Chan)) : ∀ x ∈ remaining closed subs, x.2 ≠ [] := by
  intro x hx e
  have := (List.mem_filter.1 hx).2
  rw [e] at this
  simp at this

/-- a round with a datagram that is decoded -/
theorem step_packet {codec : Codec σ π} {hash : Nat → Nat} {a : Actor σ} {now : Nat} {p : Addr} {b : Bytes}
    {closed : UInt32 → Chan → Bool} {sending : UInt32 → Sending} {x : π} {s : σ}
    (h : codec.decode now ((a.clients.look p).getD codec.fresh) b = (.packet x, s)) :
    a.step codec hash (.datagram now p b closed sending) =
      ({ a with
          subscribers := remaining closed a.subscribers
          usage := put a.usage p ⟨((a.usage.look p).getD ⟨now, 0⟩).lastSet, ((a.usage.look p).getD ⟨now, 0⟩).count + 1⟩
          clients := put a.clients p s
          received := a.received + 1
          decoded := a.decoded + 1
          sent := a.sent + (remaining closed a.subscribers).countP (fun x => decide (sending x.1 = .sent))
          dropped := a.dropped + (remaining closed a.subscribers).countP (fun x => !decide (sending x.1 = .sent)) },
        deliver hash p x sending (remaining closed a.subscribers), none) := by
  unfold Actor.step Actor.decodePkt
  simp only
  rw [h]
  simp only [Actor.handleDecoded]
  rw [show (List.filter (fun x : UInt32 × List Chan => !x.2.all (closed x.1)) a.subscribers) = remaining closed a.subscribers from rfl,
    sendAll_some _ _ _ _ _ _ (remaining_ne closed a.subscribers)]

theorem step_nothing {codec : Codec σ π} {hash : Nat → Nat} {a : Actor σ} {now : Nat} {p : Addr} {b : Bytes}
    {closed : UInt32 → Chan → Bool} {sending : UInt32 → Sending} {s : σ}
    (h : codec.decode now ((a.clients.look p).getD codec.fresh) b = (.nothing, s)) :
    a.step codec hash (.datagram now p b closed sending) =
      ({ a with clients := put a.clients p s, received := a.received + 1 }, [], none) := by
  unfold Actor.step Actor.decodePkt
  simp only
  rw [h]

theorem step_malformed {codec : Codec σ π} {hash : Nat → Nat} {a : Actor σ} {now : Nat} {p : Addr} {b : Bytes}
    {closed : UInt32 → Chan → Bool} {sending : UInt32 → Sending} {s : σ}
    (h : codec.decode now ((a.clients.look p).getD codec.fresh) b = (.malformed, s)) :
    a.step codec hash (.datagram now p b closed sending) =
      ({ a with clients := put a.clients p s, received := a.received + 1, malformed := a.malformed + 1 }, [], none) := by
  unfold Actor.step Actor.decodePkt
  simp only
  rw [h]

theorem step_panics {codec : Codec σ π} {hash : Nat → Nat} {a : Actor σ} {now : Nat} {p : Addr} {b : Bytes}
    {closed : UInt32 → Chan → Bool} {sending : UInt32 → Sending} {s : σ}
    (h : codec.decode now ((a.clients.look p).getD codec.fresh) b = (.panics, s)) :
    a.step codec hash (.datagram now p b closed sending) = ({ a with received := a.received + 1 }, [], some .panicked) := by
  unfold Actor.step Actor.decodePkt
  simp only
  rw [h]

/-- the relation between an actor and what its decoders know -/
def Agrees (codec : Codec σ π) (a : Actor σ) (k : Addr → σ) : Prop := ∀ p, (a.clients.look p).getD codec.fresh = k p

theorem agrees_new (codec : Codec σ π) (i : Nat) (ad : Addr) : Agrees codec (Actor.new i ad) fun _ => codec.fresh := fun _ => rfl

theorem agrees_put {codec : Codec σ π} {a a' : Actor σ} {k : Addr → σ} (h : Agrees codec a k) {p : Addr} {s : σ}
    (e : a'.clients = put a.clients p s) : Agrees codec a' (at' k p s) := by
  intro q
  rw [e, lookup_put, at']
  by_cases hq : p = q
  · subst hq; simp
  · rw [if_neg hq, if_neg (Ne.symm hq)]; exact h q

theorem agrees_del {codec : Codec σ π} {a a' : Actor σ} {k : Addr → σ} (h : Agrees codec a k) {p : Addr}
    (e : a'.clients = del a.clients p) : Agrees codec a' (at' k p codec.fresh) := by
  intro q
  rw [e, lookup_del, at']
  by_cases hq : p = q
  · subst hq; simp
  · rw [if_neg hq, if_neg (Ne.symm hq)]; exact h q

theorem agrees_same {codec : Codec σ π} {a a' : Actor σ} {k : Addr → σ} (h : Agrees codec a k) (e : a'.clients = a.clients) :
    Agrees codec a' k := by intro q; rw [e]; exact h q

theorem at'_self (k : Addr → σ) (p : Addr) : at' k p (k p) = k := by
  funext q; unfold at'; split <;> simp [*]

theorem runs_nil (codec : Codec σ π) (hash : Nat → Nat) (a : Actor σ) : Runs codec hash a [] := rfl

theorem runs_cons {codec : Codec σ π} {hash : Nat → Nat} {a : Actor σ} {e : Event} {es : List Event}
    (h : Runs codec hash a (e :: es)) : ∃ a' out, a.step codec hash e = (a', out, none) ∧ Runs codec hash a' es ∧
      a.run codec hash (e :: es) = ((a'.run codec hash es).1, out ++ (a'.run codec hash es).2.1, none) := by
  unfold Runs at h
  simp only [Actor.run] at h ⊢
  rcases hs : a.step codec hash e with ⟨a', out, x | _⟩
  · rw [hs] at h
    simp only at h ⊢
    exact ⟨a', out, rfl, h, by rw [h]⟩
  · rw [hs] at h; simp at h

theorem run_cons_of {codec : Codec σ π} {hash : Nat → Nat} {a a' : Actor σ} {e : Event} {es : List Event} {out : List (Effect σ π)}
    (h : a.step codec hash e = (a', out, none)) :
    a.run codec hash (e :: es) = ((a'.run codec hash es).1, out ++ (a'.run codec hash es).2.1, (a'.run codec hash es).2.2) := by
  simp only [Actor.run, h]

theorem run_append {codec : Codec σ π} {hash : Nat → Nat} (es fs : List Event) : ∀ {a : Actor σ}, Runs codec hash a es →
    a.run codec hash (es ++ fs) = (((a.run codec hash es).1.run codec hash fs).1,
      (a.run codec hash es).2.1 ++ ((a.run codec hash es).1.run codec hash fs).2.1, ((a.run codec hash es).1.run codec hash fs).2.2) := by
  induction es with
  | nil => intro a _; simp [Actor.run]
  | cons e es ih =>
    intro a h
    obtain ⟨a', out, hs, hr, he⟩ := runs_cons h
    rw [List.cons_append, run_cons_of hs, ih hr, he, List.append_assoc]

theorem runs_append {codec : Codec σ π} {hash : Nat → Nat} {es fs : List Event} : ∀ {a : Actor σ}, Runs codec hash a (es ++ fs) →
    Runs codec hash a es ∧ Runs codec hash (a.run codec hash es).1 fs := by
  induction es with
  | nil => intro a h; exact ⟨rfl, h⟩
  | cons e es ih =>
    intro a h
    obtain ⟨a', out, hs, hr, -⟩ := runs_cons h
    obtain ⟨h1, h2⟩ := ih hr
    refine ⟨?_, ?_⟩
    · unfold Runs; rw [run_cons_of hs]; exact h1
    · rw [run_cons_of hs]; exact h2

/-- what a round does to decoders and what is decoded in it -/
theorem step_agrees {codec : Codec σ π} {hash : Nat → Nat} {a a' : Actor σ} {k : Addr → σ} {e : Event} {out : List (Effect σ π)}
    (hk : Agrees codec a k) (h : a.step codec hash e = (a', out, none)) : Agrees codec a' (knowledge codec k [e]) := by
  cases e with
  | noCommands => simp [Actor.step] at h
  | socketError => simp [Actor.step] at h
  | socketDown => simp [Actor.step] at h
  | datagram now p b closed sending =>
    simp only [knowledge]
    rw [← hk p]
    rcases hd : codec.decode now ((a.clients.look p).getD codec.fresh) b with ⟨x | _ | _ | _, s⟩
    · rw [step_packet hd] at h; obtain ⟨rfl, -⟩ := Prod.mk.inj h; exact agrees_put hk rfl
    · rw [step_nothing hd] at h; obtain ⟨rfl, -⟩ := Prod.mk.inj h; exact agrees_put hk rfl
    · rw [step_malformed hd] at h; obtain ⟨rfl, -⟩ := Prod.mk.inj h; exact agrees_put hk rfl
    · rw [step_panics hd] at h; simp at h
  | command c =>
    cases c with
    | shutdown => simp [Actor.step, Actor.handle] at h
    | subscribe chans heard =>
      simp only [Actor.step, Actor.handle] at h
      cases heard <;> simp at h <;> obtain ⟨rfl, -⟩ := h <;> exact agrees_same hk rfl
    | unsubscribe i => simp [Actor.step, Actor.handle] at h; obtain ⟨rfl, -⟩ := h; exact agrees_same hk rfl
    | purgeUnused now dur => simp [Actor.step, Actor.handle, Actor.purgeUnused] at h; obtain ⟨rfl, -⟩ := h; exact agrees_same hk rfl
    | purge p =>
      simp only [Actor.step, Actor.handle] at h
      by_cases hp : (a.clients.look p).isSome
      · rw [if_pos hp] at h; simp at h; obtain ⟨rfl, -⟩ := h; exact agrees_del hk rfl
      · rw [if_neg hp] at h; simp at h; obtain ⟨rfl, -⟩ := h
        simp only [knowledge]
        have : k p = codec.fresh := by rw [← hk p]; simp at hp; rw [hp]; rfl
        rw [← this, at'_self]; exact hk
    | localAddr => simp [Actor.step, Actor.handle] at h; obtain ⟨rfl, -⟩ := h; exact hk
    | peers => simp [Actor.step, Actor.handle] at h; obtain ⟨rfl, -⟩ := h; exact hk
    | state p => simp [Actor.step, Actor.handle] at h; obtain ⟨rfl, -⟩ := h; exact hk

theorem knowledge_cons (codec : Codec σ π) (k : Addr → σ) (e : Event) (es : List Event) :
    knowledge codec k (e :: es) = knowledge codec (knowledge codec k [e]) es := by
  cases e with
  | command c => cases c <;> rfl
  | _ => rfl

theorem messages_cons (codec : Codec σ π) (k : Addr → σ) (e : Event) (es : List Event) :
    messages codec k (e :: es) = messages codec k [e] ++ messages codec (knowledge codec k [e]) es := by
  cases e with
  | command c => cases c <;> rfl
  | datagram now p b closed sending =>
    simp only [messages, knowledge]
    rcases codec.decode now (k p) b with ⟨x | _ | _ | _, s⟩ <;> rfl
  | _ => rfl

theorem messages_append (codec : Codec σ π) (es fs : List Event) : ∀ k : Addr → σ,
    messages codec k (es ++ fs) = messages codec k es ++ messages codec (knowledge codec k es) fs := by
  induction es with
  | nil => intro k; rfl
  | cons e es ih => intro k; rw [List.cons_append, messages_cons, ih, messages_cons codec k e es, knowledge_cons codec k e es, List.append_assoc]

theorem run_agrees {codec : Codec σ π} {hash : Nat → Nat} (es : List Event) : ∀ {a : Actor σ} {k : Addr → σ}, Agrees codec a k →
    Runs codec hash a es → Agrees codec (a.run codec hash es).1 (knowledge codec k es) := by
  induction es with
  | nil => intro a k h _; exact h
  | cons e es ih =>
    intro a k h hr
    obtain ⟨a', out, hs, hr', he⟩ := runs_cons hr
    rw [he, knowledge_cons]
    exact ih (step_agrees h hs) hr'

theorem offersTo_append (s : UInt32) (x y : List (Effect σ π)) : offersTo s (x ++ y) = offersTo s x ++ offersTo s y := by
  simp [offersTo]

theorem channelsTo_append (s : UInt32) (x y : List (Effect σ π)) : channelsTo s (x ++ y) = channelsTo s x ++ channelsTo s y := by
  simp [channelsTo]

/-- an actor whose subscribers are as they can be: each once, with identifiers that were given out -/
structure Sound (a : Actor σ) : Prop where
  uniq : Uniq a.subscribers
  given : ∀ x ∈ a.subscribers, 0 < x.1.toNat ∧ x.1.toNat < a.next.toNat

theorem sound_new (i : Nat) (ad : Addr) : Sound (Actor.new i ad : Actor σ) :=
  ⟨List.Pairwise.nil, fun _ h => nomatch h⟩

theorem next_succ {n : UInt32} (h : n.toNat + 1 < 2 ^ 32) : (n + 1).toNat = n.toNat + 1 := by
  rw [UInt32.toNat_add]
  simp
  omega

theorem subscriptions_cons (e : Event) (es : List Event) : subscriptions (e :: es) = subscriptions [e] + subscriptions es := by
  unfold subscriptions
  rw [List.countP_cons, List.countP_cons, List.countP_nil]
  omega

theorem subscriptions_append (es fs : List Event) : subscriptions (es ++ fs) = subscriptions es + subscriptions fs := by
  unfold subscriptions; rw [List.countP_append]

/-- a round keeps an actor sound and gives out an identifier for a subscription -/
theorem step_sound {codec : Codec σ π} {hash : Nat → Nat} {a a' : Actor σ} {e : Event} {out : List (Effect σ π)}
    (hs : Sound a) (hp : 0 < a.next.toNat) (hn : a.next.toNat + subscriptions [e] < 2 ^ 32) (h : a.step codec hash e = (a', out, none)) :
    Sound a' ∧ a'.next.toNat = a.next.toNat + subscriptions [e] := by
  cases e with
  | noCommands => simp [Actor.step] at h
  | socketError => simp [Actor.step] at h
  | socketDown => simp [Actor.step] at h
  | datagram now p b closed sending =>
    rcases hd : codec.decode now ((a.clients.look p).getD codec.fresh) b with ⟨x | _ | _ | _, s⟩
    · rw [step_packet hd] at h; obtain ⟨rfl, -⟩ := Prod.mk.inj h
      exact ⟨⟨Uniq.filter hs.uniq _, fun y hy => hs.given y (List.mem_filter.1 hy).1⟩, rfl⟩
    · rw [step_nothing hd] at h; obtain ⟨rfl, -⟩ := Prod.mk.inj h; exact ⟨⟨hs.uniq, hs.given⟩, rfl⟩
    · rw [step_malformed hd] at h; obtain ⟨rfl, -⟩ := Prod.mk.inj h; exact ⟨⟨hs.uniq, hs.given⟩, rfl⟩
    · rw [step_panics hd] at h; simp at h
  | command c =>
    cases c with
    | shutdown => simp [Actor.step, Actor.handle] at h
    | subscribe chans heard =>
      have h1 : subscriptions [Event.command (.subscribe chans heard)] = 1 := rfl
      rw [h1] at hn ⊢
      have hnn := next_succ hn
      have hg : ∀ x ∈ put a.subscribers a.next chans, 0 < x.1.toNat ∧ x.1.toNat < (a.next + 1).toNat := by
        intro x hx
        rcases mem_put hx with rfl | hx
        · exact ⟨hp, Nat.lt_of_lt_of_eq (Nat.lt_succ_self _) hnn.symm⟩
        · have := hs.given x hx; exact ⟨this.1, by omega⟩
      simp only [Actor.step, Actor.handle] at h
      cases heard <;> simp at h <;> obtain ⟨rfl, -⟩ := h
      · exact ⟨⟨Uniq.del (Uniq.put hs.uniq _ _) _, fun x hx => hg x (List.mem_filter.1 hx).1⟩, hnn⟩
      · exact ⟨⟨Uniq.put hs.uniq _ _, hg⟩, hnn⟩
    | unsubscribe i =>
      simp [Actor.step, Actor.handle] at h; obtain ⟨rfl, -⟩ := h
      exact ⟨⟨Uniq.del hs.uniq _, fun x hx => hs.given x (List.mem_filter.1 hx).1⟩, rfl⟩
    | purgeUnused now dur =>
      simp [Actor.step, Actor.handle, Actor.purgeUnused] at h; obtain ⟨rfl, -⟩ := h; exact ⟨⟨hs.uniq, hs.given⟩, rfl⟩
    | purge p =>
      simp only [Actor.step, Actor.handle] at h
      split at h <;> rename_i h' <;> split at h' <;> simp at h h' <;> obtain ⟨rfl, -⟩ := h <;> obtain ⟨rfl, -⟩ := h' <;>
        exact ⟨⟨hs.uniq, hs.given⟩, rfl⟩
    | localAddr => simp [Actor.step, Actor.handle] at h; obtain ⟨rfl, -⟩ := h; exact ⟨hs, rfl⟩
    | peers => simp [Actor.step, Actor.handle] at h; obtain ⟨rfl, -⟩ := h; exact ⟨hs, rfl⟩
    | state p => simp [Actor.step, Actor.handle] at h; obtain ⟨rfl, -⟩ := h; exact ⟨hs, rfl⟩

theorem run_sound {codec : Codec σ π} {hash : Nat → Nat} (es : List Event) : ∀ {a : Actor σ}, Sound a → 0 < a.next.toNat →
    a.next.toNat + subscriptions es < 2 ^ 32 → Runs codec hash a es →
    Sound (a.run codec hash es).1 ∧ (a.run codec hash es).1.next.toNat = a.next.toNat + subscriptions es := by
  induction es with
  | nil => intro a h _ _ _; exact ⟨h, rfl⟩
  | cons e es ih =>
    intro a h hp hn hr
    obtain ⟨a', out, hs, hr', he⟩ := runs_cons hr
    rw [subscriptions_cons] at hn ⊢
    obtain ⟨h1, h2⟩ := step_sound h hp (by omega) hs
    obtain ⟨h3, h4⟩ := ih h1 (by omega) (by omega) hr'
    rw [he]
    exact ⟨h3, by rw [h4, h2]; omega⟩

/-- what is offered to a subscriber when something is handed out -/
theorem offersTo_deliver {subs : List (UInt32 × List Chan)} (hu : Uniq subs) (hn : ∀ x ∈ subs, x.2 ≠ []) (hash : Nat → Nat) (peer : Addr)
    (p : π) (sending : UInt32 → Sending) (s : UInt32) :
    offersTo s (deliver hash peer p sending subs : List (Effect σ π)) =
      if (subs.look s).isSome then [(peer, p, sending s)] else [] := by
  induction subs with
  | nil => rfl
  | cons x rest ih =>
    obtain ⟨i, cs⟩ := x
    obtain ⟨c, -, hc⟩ := pick_some hash peer (hn _ (List.mem_cons_self ..))
    have ih := ih (List.pairwise_cons.1 hu).2 fun y hy => hn y (List.mem_cons_of_mem _ hy)
    have hd : (deliver hash peer p sending ((i, cs) :: rest) : List (Effect σ π)) =
        .offer i c peer p (sending i) :: deliver hash peer p sending rest := by
      simp only [deliver, List.filterMap_cons]
      rw [hc]; rfl
    rw [hd, lookup_cons']
    by_cases hi : i = s
    · subst hi
      have : rest.look i = none := look_eq_none fun y hy e => (List.pairwise_cons.1 hu).1 y hy e
      rw [this] at ih
      simp only [offersTo, List.filterMap_cons, if_true, Option.isSome_some] at ih ⊢
      rw [ih]; rfl
    · simp only [offersTo, List.filterMap_cons, hi, if_false] at ih ⊢
      exact ih

theorem channelsTo_deliver {subs : List (UInt32 × List Chan)} (hu : Uniq subs) (hn : ∀ x ∈ subs, x.2 ≠ []) (hash : Nat → Nat) (peer : Addr)
    (p : π) (sending : UInt32 → Sending) (s : UInt32) :
    channelsTo s (deliver hash peer p sending subs : List (Effect σ π)) =
      (((subs.look s).bind (pick hash peer)).map fun c => (peer, c)).toList := by
  induction subs with
  | nil => rfl
  | cons x rest ih =>
    obtain ⟨i, cs⟩ := x
    obtain ⟨c, -, hc⟩ := pick_some hash peer (hn _ (List.mem_cons_self ..))
    have ih := ih (List.pairwise_cons.1 hu).2 fun y hy => hn y (List.mem_cons_of_mem _ hy)
    have hd : (deliver hash peer p sending ((i, cs) :: rest) : List (Effect σ π)) =
        .offer i c peer p (sending i) :: deliver hash peer p sending rest := by
      simp only [deliver, List.filterMap_cons]
      rw [hc]; rfl
    rw [hd, lookup_cons']
    by_cases hi : i = s
    · subst hi
      have : rest.look i = none := look_eq_none fun y hy e => (List.pairwise_cons.1 hu).1 y hy e
      rw [this] at ih
      simp only [channelsTo, List.filterMap_cons, if_true] at ih ⊢
      rw [ih]
      simp at hc ⊢
      rw [hc]; rfl
    · simp only [channelsTo, List.filterMap_cons, hi, if_false] at ih ⊢
      exact ih

theorem look_remaining {subs : List (UInt32 × List Chan)} (hu : Uniq subs) (closed : UInt32 → Chan → Bool) (s : UInt32) :
    (remaining closed subs).look s = (subs.look s).filter fun cs => !cs.all (closed s) := by
  unfold remaining
  rw [lookup_filter hu]
  cases subs.look s <;> rfl

end Verif.Service
