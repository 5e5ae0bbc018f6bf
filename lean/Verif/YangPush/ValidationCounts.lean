import Verif.YangPush.ValidationInv
/-!
# How many packets the validation of YANG push notifications holds
-/
namespace Verif.YangPush.Notif
open Collector

section
variable {κ α : Type} [DecidableEq κ]

/-- the weight of the values of a map -/
def weigh (w : α → Nat) (m : List (κ × α)) : Nat := (m.map fun x => w x.2).sum

theorem weigh_nil (w : α → Nat) : weigh w ([] : List (κ × α)) = 0 := rfl

theorem weigh_put (w : α → Nat) (m : List (κ × α)) (k : κ) (v : α) : weigh w (put m k v) + ((m.look k).map w).getD 0 = weigh w m + w v := by
  induction m with
  | nil => simp [weigh, put, look_nil']
  | cons x m ih =>
    obtain ⟨k', v'⟩ := x
    simp only [put, lookup_cons']
    split
    · simp [weigh]; omega
    · simp only [weigh, List.map_cons, List.sum_cons] at ih ⊢
      omega

theorem weigh_del (w : α → Nat) (m : List (κ × α)) (k : κ) : weigh w (del m k) + ((m.look k).map w).getD 0 ≤ weigh w m := by
  induction m with
  | nil => simp [weigh, del, look_nil']
  | cons x m ih =>
    obtain ⟨k', v'⟩ := x
    have hle : weigh w (del m k) ≤ weigh w m := by omega
    by_cases h : k' = k
    · subst h
      simp only [lookup_cons', if_true, Option.map_some, Option.getD_some]
      simp only [del, List.filter_cons, ne_eq, not_true_eq_false, decide_false, Bool.false_eq_true, if_false] at hle ⊢
      simp only [weigh, List.map_cons, List.sum_cons] at hle ⊢
      omega
    · simp only [lookup_cons', if_neg h]
      simp only [del, List.filter_cons, ne_eq, h, not_false_eq_true, decide_true, if_true] at ih ⊢
      simp only [weigh, List.map_cons, List.sum_cons] at ih ⊢
      omega

theorem weigh_del_uniq (w : α → Nat) {m : List (κ × α)} (hu : Uniq m) (k : κ) : weigh w (del m k) + ((m.look k).map w).getD 0 = weigh w m := by
  induction m with
  | nil => simp [weigh, del, look_nil']
  | cons x m ih =>
    obtain ⟨k', v'⟩ := x
    have hu' : Uniq m := (List.pairwise_cons.mp hu).2
    have ih := ih hu'
    by_cases h : k' = k
    · subst h
      have hn : m.look k' = none := look_eq_none fun y hy => (List.pairwise_cons.mp hu).1 y hy
      rw [hn] at ih
      simp only [lookup_cons', if_true, Option.map_some, Option.getD_some]
      simp only [del, List.filter_cons, ne_eq, not_true_eq_false, decide_false, Bool.false_eq_true, if_false, Option.map_none, Option.getD_none] at ih ⊢
      simp only [weigh, List.map_cons, List.sum_cons] at ih ⊢
      omega
    · simp only [lookup_cons', if_neg h]
      simp only [del, List.filter_cons, ne_eq, h, not_false_eq_true, decide_true, if_true] at ih ⊢
      simp only [weigh, List.map_cons, List.sum_cons] at ih ⊢
      omega
end

variable {A X P L C : Type} [DecidableEq A] [DecidableEq X]

/-! ## Each peer has one place -/

theorem uniq_checkNew {c : PeerCache A X P C} (h : Uniq c) (ip : A) (info : SubInfo A X) : Uniq (checkNew c ip info) := by
  unfold checkNew
  split
  · exact h
  · simp only
    split
    · split
      · exact Uniq.del h _
      · exact Uniq.put h _ _
    · split
      · exact Uniq.del h _
      · exact Uniq.put h _ _

theorem uniq_cachePacket {c : PeerCache A X P C} (env : Env X P L C) (h : Uniq c) (info : SubInfo A X) (r : Request A P) : Uniq (cachePacket env c info r).1 := by
  unfold cachePacket
  simp only
  split
  · exact Uniq.put h _ _
  · split
    · exact Uniq.put h _ _
    · exact Uniq.put h _ _

theorem uniq_process {c : PeerCache A X P C} (env : Env X P L C) (h : Uniq c) (r : Request A P) : Uniq (process env c r).1 := by
  have ht := turn env c r
  generalize (process env c r).1 = c', (process env c r).2 = outs at ht
  cases ht with
  | undecodable => exact h
  | noSubscription => exact h
  | known => exact Uniq.put (uniq_checkNew h _ _) _ _
  | new => exact uniq_cachePacket env (uniq_checkNew h _ _) _ _
  | other => exact Uniq.put h _ _
  | unknown => exact uniq_cachePacket env h _ _

/-- the weight of all entries -/
def weighAll (w : CachedSub A X P C → Nat) (c : PeerCache A X P C) : Nat := weigh (weigh w) c

/-- the weight of an entry that may be there -/
def wopt (w : CachedSub A X P C → Nat) (e : Option (CachedSub A X P C)) : Nat := (e.map w).getD 0

theorem weigh_peer (w : CachedSub A X P C → Nat) (c : PeerCache A X P C) (ip : A) : ((c.look ip).map (weigh w)).getD 0 = weigh w ((c.look ip).getD []) := by
  cases c.look ip <;> rfl

theorem weighAll_set (w : CachedSub A X P C → Nat) (c : PeerCache A X P C) (ip : A) (id : UInt32) (e : CachedSub A X P C) :
    weighAll w (c.set ip id e) + wopt w (c.entry ip id) = weighAll w c + w e := by
  have h1 := weigh_put (weigh w) c ip (put ((c.look ip).getD []) id e)
  have h2 := weigh_put w ((c.look ip).getD []) id e
  rw [weigh_peer] at h1
  have h3 : ((c.look ip).getD []).look id = c.entry ip id := by unfold PeerCache.entry; cases c.look ip <;> rfl
  rw [h3] at h2
  unfold weighAll PeerCache.set wopt
  omega

theorem weigh_set (w : CachedSub A X P C → Nat) (c : PeerCache A X P C) (ip : A) (id : UInt32) (e : CachedSub A X P C) :
    weigh w (((c.set ip id e).look ip).getD []) + wopt w (c.entry ip id) = weigh w ((c.look ip).getD []) + w e := by
  have h2 := weigh_put w ((c.look ip).getD []) id e
  have h3 : ((c.look ip).getD []).look id = c.entry ip id := by unfold PeerCache.entry; cases c.look ip <;> rfl
  rw [h3] at h2
  unfold PeerCache.set wopt
  rw [lookup_put, if_pos rfl, Option.getD_some]
  exact h2

/-- nothing is lost of entries of one description -/
theorem checkNew_same (c : PeerCache A X P C) (ip : A) (info : SubInfo A X) {e : CachedSub A X P C} (he : c.entry ip info.id = some e)
    (hs : e.info.same info = true) : ∃ subs, c.look ip = some subs ∧ checkNew c ip info = put c ip subs := by
  unfold PeerCache.entry at he
  unfold checkNew
  cases hc : c.look ip with
  | none => rw [hc] at he; cases he
  | some subs =>
    rw [hc, Option.bind_some] at he
    have : subs ≠ [] := by rintro rfl; cases he
    exact ⟨subs, rfl, by simp [he, hs, this]⟩

theorem weighAll_same (w : CachedSub A X P C → Nat) (c : PeerCache A X P C) (ip : A) (info : SubInfo A X) {e : CachedSub A X P C}
    (he : c.entry ip info.id = some e) (hs : e.info.same info = true) : weighAll w (checkNew c ip info) = weighAll w c := by
  obtain ⟨subs, h1, h2⟩ := checkNew_same c ip info he hs
  rw [h2]
  have := weigh_put (weigh w) c ip subs
  rw [h1] at this
  simp only [Option.map_some, Option.getD_some] at this
  unfold weighAll
  omega

/-- what is lost with a new description is the entry of another one -/
theorem weighAll_checkNew (w : CachedSub A X P C → Nat) (c : PeerCache A X P C) (ip : A) (info : SubInfo A X) :
    weighAll w (checkNew c ip info) + (if (c.entry ip info.id).any (fun e => e.info.same info) then 0 else wopt w (c.entry ip info.id)) ≤ weighAll w c := by
  unfold checkNew
  cases hc : c.look ip with
  | none => simp [PeerCache.entry, hc, wopt]
  | some subs =>
    have he : c.entry ip info.id = subs.look info.id := by simp [PeerCache.entry, hc]
    rw [he]
    simp only
    have hd := weigh_del w subs info.id
    have hs : weigh w (if (((subs.look info.id).map fun x => !x.info.same info).getD true) = true then del subs info.id else subs) +
        (if (subs.look info.id).any (fun e => e.info.same info) = true then 0 else wopt w (subs.look info.id)) ≤ weigh w subs := by
      cases hl : subs.look info.id with
      | none => rw [hl] at hd; simp [wopt] at hd ⊢; exact hd
      | some e =>
        rw [hl] at hd
        cases hb : e.info.same info
        · simp [wopt, hb] at hd ⊢; exact hd
        · simp [hb]
    generalize (if (((subs.look info.id).map fun x => !x.info.same info).getD true) = true then del subs info.id else subs) = s at hs ⊢
    generalize (if (subs.look info.id).any (fun e => e.info.same info) = true then 0 else wopt w (subs.look info.id)) = n at hs ⊢
    split
    · have h2 := weigh_del (weigh w) c ip
      rw [hc] at h2
      simp only [Option.map_some, Option.getD_some] at h2
      unfold weighAll
      omega
    · have h2 := weigh_put (weigh w) c ip s
      rw [hc] at h2
      simp only [Option.map_some, Option.getD_some] at h2
      unfold weighAll
      omega

/-- a peer does not get heavier with a new description -/
theorem weigh_checkNew (w : CachedSub A X P C → Nat) (c : PeerCache A X P C) (ip ip' : A) (info : SubInfo A X) :
    weigh w (((checkNew c ip info).look ip').getD []) ≤ weigh w ((c.look ip').getD []) := by
  unfold checkNew
  cases hc : c.look ip with
  | none => simp
  | some subs =>
    simp only
    have hs : weigh w (if (((subs.look info.id).map fun x => !x.info.same info).getD true) = true then del subs info.id else subs) ≤ weigh w subs := by
      have := weigh_del w subs info.id
      split
      · omega
      · exact Nat.le_refl _
    generalize (if (((subs.look info.id).map fun x => !x.info.same info).getD true) = true then del subs info.id else subs) = s at hs ⊢
    by_cases h : ip = ip'
    · subst h
      rw [hc]
      split
      · simp [lookup_del, weigh_nil]
      · simpa [lookup_put] using hs
    · split
      · simp [lookup_del, h]
      · simp [lookup_put, h]

/-! ## Packets with a property -/

/-- whether the notification of a packet has a property -/
def hit (env : Env X P L C) (q : Decoded X → Bool) (r : Request A P) : Nat := ((env.decode r.packet).toList).countP q

/-- how many packets of an entry have a property -/
def hits (env : Env X P L C) (q : Decoded X → Bool) (e : CachedSub A X P C) : Nat := (e.packets.map (hit env q)).sum

theorem filterMap_hits (env : Env X P L C) (q : Decoded X → Bool) (rs : List (Request A P)) :
    (rs.filterMap fun r => env.decode r.packet).countP q = (rs.map (hit env q)).sum := by
  induction rs with
  | nil => rfl
  | cons r rs ih =>
    rw [List.filterMap_cons, List.map_cons, List.sum_cons, ← ih, hit]
    cases env.decode r.packet with
    | none => simp
    | some d => simp only [Option.toList_some, List.countP_cons, List.countP_nil]; omega

theorem waiting_hits (env : Env X P L C) (q : Decoded X → Bool) (c : PeerCache A X P C) : (waiting env c).countP q = weighAll (hits env q) c := by
  unfold waiting held weighAll
  rw [filterMap_hits]
  induction c with
  | nil => rfl
  | cons x c ih =>
    simp only [List.flatMap_cons, List.map_append, List.sum_append, ih]
    simp only [weigh, List.map_cons, List.sum_cons]
    congr 1
    induction x.2 with
    | nil => rfl
    | cons y ys ih => simp only [List.flatMap_cons, List.map_append, List.sum_append, ih, List.map_cons, List.sum_cons, hits]

theorem hits_append (env : Env X P L C) (q : Decoded X → Bool) (e : CachedSub A X P C) (rs : List (Request A P)) :
    hits env q { e with packets := e.packets ++ rs } = hits env q e + (rs.map (hit env q)).sum := by
  simp [hits]

/-- of what is sent, the notifications with a property that are forwarded or dropped with a warning -/
def told (env : Env X P L C) (q : Decoded X → Bool) (os : List (Output A X P)) : Nat := (forwarded os).countP q + (reported env os).countP q

theorem forwarded_append (a b : List (Output A X P)) : forwarded (a ++ b) = forwarded a ++ forwarded b := by
  induction a with
  | nil => rfl
  | cons o a ih => cases o <;> simp [forwarded, ih]

theorem reported_append (env : Env X P L C) (a b : List (Output A X P)) : reported env (a ++ b) = reported env a ++ reported env b := by
  induction a with
  | nil => rfl
  | cons o a ih => cases o <;> simp [reported, ih]

theorem received_append (env : Env X P L C) (a b : List (Event A X P L)) : received env (a ++ b) = received env a ++ received env b := by
  induction a with
  | nil => rfl
  | cons o a ih => cases o <;> simp [received, ih]

theorem told_append (env : Env X P L C) (q : Decoded X → Bool) (a b : List (Output A X P)) : told env q (a ++ b) = told env q a + told env q b := by
  simp only [told, forwarded_append, reported_append, List.countP_append]
  omega

theorem told_verdict {env : Env X P L C} (q : Decoded X → Bool) (e : CachedSub A X P C) (info : SubInfo A X) {d : Decoded X} {r : Request A P}
    (hd : env.decode r.packet = some d) : told env q (verdict env e info d r) = hit env q r := by
  rcases verdict_cases env e info d r with ⟨hv, _⟩ | ⟨_, _, _, _, _, ⟨_, hv⟩ | ⟨_, hv⟩⟩ <;> rw [hv] <;> simp [told, forwarded, reported, hit, hd]

theorem told_cachePacket (env : Env X P L C) (q : Decoded X → Bool) (c : PeerCache A X P C) (info : SubInfo A X) (r : Request A P) :
    told env q (cachePacket env c info r).2 + weighAll (hits env q) (cachePacket env c info r).1 = weighAll (hits env q) c + hit env q r := by
  have hw : wopt (hits env q) (c.entry r.peer.ip info.id) = hits env q ((c.entry r.peer.ip info.id).getD (.fresh info)) := by
    cases c.entry r.peer.ip info.id <;> rfl
  unfold cachePacket
  simp only
  generalize hg : (c.entry r.peer.ip info.id).getD (.fresh info) = e at hw ⊢
  split
  · have := weighAll_set (hits env q) c r.peer.ip info.id e
    simp only [told, forwarded, reported, List.append_nil, List.countP_nil, hit]
    omega
  · split
    · have := weighAll_set (hits env q) c r.peer.ip info.id e
      simp only [told, forwarded, reported, List.append_nil, List.countP_nil, hit]
      omega
    · have := weighAll_set (hits env q) c r.peer.ip info.id { e with packets := e.packets ++ [r] }
      rw [hits_append] at this
      simp only [told, forwarded, reported, List.countP_nil, List.map_cons, List.map_nil, List.sum_cons, List.sum_nil] at this ⊢
      omega

/-- a packet is forwarded, dropped with a warning or held, but those of another description of its subscription may be lost with it -/
theorem told_process {env : Env X P L C} (q : Decoded X → Bool) {c : PeerCache A X P C} (hp : Placed c) (r : Request A P) :
    told env q (process env c r).2 + weighAll (hits env q) (process env c r).1 ≤ weighAll (hits env q) c + hit env q r ∧
    (Uniq c → (∀ info e, Describes env r info → c.entry info.peer.ip info.id = some e → e.info.same info = true) →
      told env q (process env c r).2 + weighAll (hits env q) (process env c r).1 = weighAll (hits env q) c + hit env q r) := by
  have ht := turn env c r
  generalize (process env c r).1 = c', (process env c r).2 = outs at ht
  cases ht with
  | undecodable hd =>
    have : told env q ([.dropped .undecodable r] : List (Output A X P)) = hit env q r := by simp [told, forwarded, reported, hit]
    rw [this]
    omega
  | noSubscription hd hk =>
    have : told env q ([.dropped .noSubscription r] : List (Output A X P)) = hit env q r := by simp [told, forwarded, reported, hit]
    rw [this]
    omega
  | @known d k s info e hd hk hs hb he hsame =>
    have hid : info.id = k.id := by rw [(buildInfo_some hb).2.1, starts_id hs]
    rw [told_verdict q e info hd]
    have h1 := weighAll_set (hits env q) (checkNew c r.peer.ip info) r.peer.ip k.id e
    rw [← hid] at he h1 ⊢
    rw [checkNew_key, he, Option.filter_some, if_pos hsame] at h1
    have h2 := weighAll_same (hits env q) c r.peer.ip info he hsame
    simp only [wopt, Option.map_some, Option.getD_some] at h1
    omega
  | @new d k s info hd hk hs hb he =>
    have h1 := told_cachePacket env q (checkNew c r.peer.ip info) info r
    have h2 := weighAll_checkNew (hits env q) c r.peer.ip info
    have ht : told env q (.lookupInfo info :: (cachePacket env (checkNew c r.peer.ip info) info r).2) = told env q (cachePacket env (checkNew c r.peer.ip info) info r).2 := rfl
    rw [ht]
    refine ⟨by omega, ?_⟩
    intro hu h
    have hid : info.id = k.id := by rw [(buildInfo_some hb).2.1, starts_id hs]
    have hpeer : info.peer = r.peer := (buildInfo_some hb).2.2
    have hn : c.entry r.peer.ip info.id = none := by
      cases hc : c.entry r.peer.ip info.id with
      | none => rfl
      | some e =>
        have h3 := h info e (describes_iff.mpr ⟨s, begins_iff.mpr ⟨d, k, hd, hk, hs⟩, hb⟩) (by rw [hpeer]; exact hc)
        rw [he e (hid ▸ hc)] at h3
        cases h3
    -- nothing was there
    have h4 : weighAll (hits env q) (checkNew c r.peer.ip info) = weighAll (hits env q) c := by
      unfold checkNew
      cases hc : c.look r.peer.ip with
      | none => rfl
      | some subs =>
        have hl : subs.look info.id = none := by simpa [PeerCache.entry, hc] using hn
        have hdel : del subs info.id = subs := by
          unfold del
          rw [List.filter_eq_self]
          intro x hx
          by_cases hxe : x.1 = info.id
          · exfalso
            have : ∀ (m : List (UInt32 × CachedSub A X P C)), x ∈ m → m.look info.id ≠ none := by
              intro m
              induction m with
              | nil => intro hx; cases hx
              | cons y m ih =>
                intro hx
                obtain ⟨ky, vy⟩ := y
                rw [lookup_cons']
                split
                · simp
                · rename_i hne
                  rcases List.mem_cons.mp hx with rfl | hx
                  · exact absurd hxe hne
                  · exact ih hx
            exact this subs hx hl
          · simpa using hxe
        simp only [hl, Option.map_none, Option.getD_none, if_true, hdel]
        split
        · rename_i hnil
          have : subs = [] := by simpa using hnil
          subst this
          have h5 := weigh_del_uniq (weigh (hits env q)) hu r.peer.ip
          rw [hc] at h5
          simp only [Option.map_some, Option.getD_some, weigh_nil] at h5
          unfold weighAll
          omega
        · have h6 := weigh_put (weigh (hits env q)) c r.peer.ip subs
          rw [hc] at h6
          simp only [Option.map_some, Option.getD_some] at h6
          unfold weighAll
          omega
    omega
  | @other d k e hd hk hs he =>
    have hid : e.info.id = k.id := (hp _ _ _ he).2
    rw [hid, he, Option.getD_some, told_verdict q e e.info hd]
    have h1 := weighAll_set (hits env q) c r.peer.ip k.id e
    rw [he] at h1
    simp only [wopt, Option.map_some, Option.getD_some] at h1
    omega
  | @unknown d k hd hk hs =>
    have h1 := told_cachePacket env q c (.empty r.collector r.interface r.peer k.id) r
    have ht : told env q (.lookupId r.collector r.interface r.peer k.id :: (cachePacket env c (.empty r.collector r.interface r.peer k.id) r).2) =
        told env q (cachePacket env c (.empty r.collector r.interface r.peer k.id) r).2 := rfl
    rw [ht]
    omega

end Verif.YangPush.Notif
