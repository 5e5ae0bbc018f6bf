import Verif.Props.Pmacct
/-!
# What is published of routes for pmacct
-/
namespace Verif.Props
open Verif Verif.Bgp Verif.Bmp Verif.Pmacct
open Verif.Collector (Text)
open Verif.Xml (joined)

/-! ## What an update says -/

/-- the values of the attributes for which `f` gives something -/
def attrValues (f : AttrValue → Option β) (u : Update) : List β := u.attrs.filterMap fun a => f a.value

def reachOf : AttrValue → Option MpReach | .mpReach r => some r | _ => none
def unreachOf : AttrValue → Option MpUnreach | .mpUnreach r => some r | _ => none
def nextHopOf : AttrValue → Option UInt32 | .nextHop a => some a | _ => none

/-- a route that is announced or withdrawn -/
structure Want where
  announced : Bool
  afi : UInt16
  safi : UInt8
  net : Net
  pathId : Option UInt32
  hop : Option IpAddr
  labels : List Bytes
  rd : Option Rd
  deriving DecidableEq

def wantNet (a : Bool) (f : UInt16) (s : UInt8) (hop : Option IpAddr) (e : NetAddr) : Want := ⟨a, f, s, e.net, e.pathId, hop, [], none⟩
def wantLabels (a : Bool) (f : UInt16) (s : UInt8) (hop : Option IpAddr) (e : LabeledAddr) : Want := ⟨a, f, s, e.net, e.pathId, hop, e.labels, none⟩
def wantVpn (a : Bool) (f : UInt16) (s : UInt8) (hop : Option IpAddr) (e : VpnAddr) : Want := ⟨a, f, s, e.net, e.pathId, hop, e.labels, some e.rd⟩

def vpnHop : LabeledNextHop → IpAddr | .v4 _ a => .v4 a | .v6 _ a _ => .v6 a

/-- the routes of MP_REACH_NLRI, with the numbers of address families of IANA; `none` for families that are not of prefixes -/
def reachWants : MpReach → Option (List Want)
  | .uni4 nh _ l => some (l.map (wantNet true 1 1 (some nh)))
  | .multi4 nh _ l => some (l.map (wantNet true 1 2 (some nh)))
  | .labels4 nh _ l => some (l.map (wantLabels true 1 4 (some nh)))
  | .vpn4 nh l => some (l.map (wantVpn true 1 128 (some (vpnHop nh))))
  | .uni6 g _ l => some (l.map (wantNet true 2 1 (some (.v6 g))))
  | .multi6 g _ l => some (l.map (wantNet true 2 2 (some (.v6 g))))
  | .labels6 nh _ l => some (l.map (wantLabels true 2 4 (some nh)))
  | .vpn6 nh l => some (l.map (wantVpn true 2 128 (some (vpnHop nh))))
  | _ => none

/-- the routes of MP_UNREACH_NLRI -/
def unreachWants : MpUnreach → Option (List Want)
  | .known (.uni4 l) => some (l.map (wantNet false 1 1 none))
  | .known (.multi4 l) => some (l.map (wantNet false 1 2 none))
  | .known (.labels4 l) => some (l.map (wantLabels false 1 4 none))
  | .known (.vpn4 l) => some (l.map (wantVpn false 1 128 none))
  | .known (.uni6 l) => some (l.map (wantNet false 2 1 none))
  | .known (.multi6 l) => some (l.map (wantNet false 2 2 none))
  | .known (.labels6 l) => some (l.map (wantLabels false 2 4 none))
  | .known (.vpn6 l) => some (l.map (wantVpn false 2 128 none))
  | _ => none

/-- all routes of an update: those withdrawn and those announced in the body, then those of the attributes -/
def wants (u : Update) : List Want :=
  u.withdrawn.map (wantNet false 1 1 none) ++ (u.nlri.map (wantNet true 1 1 ((attrValues nextHopOf u).getLast?.map .v4)) ++
    ((attrValues reachOf u).flatMap (fun r => (reachWants r).getD []) ++ (attrValues unreachOf u).flatMap fun r => (unreachWants r).getD []))

/-- the label: the first 20 bits of three octets -/
def label20 : Bytes → Nat
  | [a, b, c] => (a.toNat * 65536 + b.toNat * 256 + c.toNat) / 16
  | _ => 0

/-- how a route is to be published: with its own route distinguisher or the one of the peer, and with the top label -/
def shownRoute (sh : Shown) (peer : Option Rd) (w : Want) : Route :=
  { log := if w.announced then .update else .withdraw
    afi := w.afi
    safi := w.safi
    pfx := some (sh.net w.net)
    rd := (w.rd.or peer).map rdTextOf
    rdOrigin := if w.rd.isSome then some .bgp else peer.map fun _ => .bmp
    nextHop := w.hop.map sh.ip
    pathId := w.pathId
    label := w.labels.head?.map fun l => num (label20 l) }

/-- the labels of a route have three octets each -/
def Labels3 (w : Want) : Prop := ∀ l ∈ w.labels, l.length = 3

instance (w : Want) : Decidable (Labels3 w) := inferInstanceAs (Decidable (∀ l ∈ w.labels, l.length = 3))

/-! ## End-of-RIB -/

/-- RFC 4724, 2: no routes, and no attributes, or a single empty MP_UNREACH_NLRI of a family that is known -/
def IsEor (u : Update) (t : AddressType) : Prop :=
  u.withdrawn = [] ∧ u.nlri = [] ∧ ((u.attrs = [] ∧ t = .ipv4Unicast) ∨
    (attrValues reachOf u = [] ∧ ∃ l, attrValues unreachOf u = [.known l] ∧ Speaker.nlriEmpty l = true ∧ t = l.family))

theorem eorLoop_one (c : Option AddressType) (l : List PathAttr) :
    Speaker.eorLoop c 1 l = if (l.filterMap fun a => reachOf a.value) = [] ∧ (l.filterMap fun a => unreachOf a.value) = [] then c else none := by
  induction l with
  | nil => simp [Speaker.eorLoop]
  | cons a l ih =>
    rw [Speaker.eorLoop]
    cases hv : a.value <;> simp [hv, reachOf, unreachOf] <;> simpa [reachOf, unreachOf] using ih

theorem eorLoop_zero (l : List PathAttr) (t : AddressType) :
    Speaker.eorLoop none 0 l = some t ↔ (l.filterMap fun a => reachOf a.value) = [] ∧
      ∃ n, (l.filterMap fun a => unreachOf a.value) = [.known n] ∧ Speaker.nlriEmpty n = true ∧ t = n.family := by
  induction l with
  | nil => simp [Speaker.eorLoop]
  | cons a l ih =>
    rw [Speaker.eorLoop]
    cases hv : a.value with
    | mpReach r => simp [hv, reachOf]
    | mpUnreach r =>
      cases r with
      | unknown x y z =>
        simp only [Nat.zero_add, Nat.lt_irrefl, if_false]
        rw [eorLoop_one]
        simp [hv, reachOf, unreachOf]
      | known n =>
        simp only [Nat.zero_add, Nat.lt_irrefl, if_false]
        rw [eorLoop_one]
        have q1 : ((a :: l).filterMap fun a => reachOf a.value) = l.filterMap fun a => reachOf a.value := List.filterMap_cons_none (by rw [hv]; rfl)
        have q2 : ((a :: l).filterMap fun a => unreachOf a.value) = .known n :: l.filterMap fun a => unreachOf a.value := List.filterMap_cons_some (by rw [hv]; rfl)
        rw [q1, q2]
        constructor
        · intro h
          split at h
          · next e =>
            split at h
            · next hn =>
              injection h with h
              exact ⟨e.1, n, by rw [e.2], hn, h.symm⟩
            · cases h
          · cases h
        · rintro ⟨h1, m, h2, h3, h4⟩
          injection h2 with e1 e2
          injection e1 with e1
          subst e1
          rw [if_pos ⟨h1, e2⟩, if_pos h3, h4]
    | _ => simpa [hv, reachOf, unreachOf] using ih

theorem endOfRib_iff (u : Update) (t : AddressType) : Speaker.endOfRib u = some t ↔ IsEor u t := by
  unfold Speaker.endOfRib IsEor
  by_cases h1 : u.withdrawn = []
  · by_cases h2 : u.nlri = []
    · rw [h1, h2]
      simp only [List.isEmpty_nil, Bool.not_true, Bool.or_self, Bool.false_eq_true, if_false, true_and]
      by_cases h3 : u.attrs = []
      · rw [if_pos (by simp [h3])]
        constructor
        · intro h; injection h with h; exact .inl ⟨h3, h.symm⟩
        · rintro (⟨_, rfl⟩ | ⟨_, l, h, _⟩)
          · rfl
          · simp [attrValues, h3] at h
      · rw [if_neg (by simpa using h3), eorLoop_zero]
        simp [h3, attrValues]
    · simp [h1, h2]
  · simp [h1]

/-! ## Attributes -/

theorem fold_last (step : σ → AttrValue → σ) (proj : σ → Option β) (f : AttrValue → Option β) (h : ∀ s v, proj (step s v) = (f v).or (proj s)) (l : List AttrValue) :
    ∀ s, proj (l.foldl step s) = (l.filterMap f).getLast?.or (proj s) := by
  induction l with
  | nil => intro s; rfl
  | cons v l ih =>
    intro s
    rw [List.foldl_cons, ih, h]
    cases hv : f v with
    | none => rw [List.filterMap_cons_none hv]; rfl
    | some b =>
      rw [List.filterMap_cons_some hv, List.getLast?_cons]
      cases (List.filterMap f l).getLast? <;> rfl

theorem attrs_last (sh : Shown) (proj : Attrs → Option β) (f : AttrValue → Option β) (h : ∀ s v, proj (attrsStep sh s v) = (f v).or (proj s)) (h0 : proj {} = none) (u : Update) :
    proj (attrsOf sh u) = (attrValues f u).getLast? := by
  unfold attrsOf attrValues
  rw [fold_last _ proj f h, h0, List.filterMap_map, Option.or_none]
  rfl

theorem reach_last (sh : Shown) (u : Update) : (attrsOf sh u).reach = (attrValues reachOf u).getLast? :=
  attrs_last sh Attrs.reach reachOf (fun s v => by cases v <;> first | rfl | (simp only [attrsStep]; split <;> rfl)) rfl u
theorem unreach_last (sh : Shown) (u : Update) : (attrsOf sh u).unreach = (attrValues unreachOf u).getLast? :=
  attrs_last sh Attrs.unreach unreachOf (fun s v => by cases v <;> first | rfl | (simp only [attrsStep]; split <;> rfl)) rfl u
theorem nextHop_last (sh : Shown) (u : Update) : (attrsOf sh u).nextHop = (attrValues nextHopOf u).getLast?.map ip4Text := by
  have h := attrs_last sh Attrs.nextHop (fun v => (nextHopOf v).map ip4Text) (fun s v => by cases v <;> first | rfl | (simp only [attrsStep]; split <;> rfl)) rfl u
  rw [h]
  have e : attrValues (fun v => (nextHopOf v).map ip4Text) u = (attrValues nextHopOf u).map ip4Text := by
    unfold attrValues; rw [List.map_filterMap]
  rw [e, List.getLast?_map]

/-! ## Routes -/

theorem label_value {l : Bytes} (h : l.length = 3) : labelValue l = label20 l := by
  obtain ⟨a, b, c, rfl⟩ : ∃ a b c, l = [a, b, c] := by
    match l, h with
    | [a, b, c], _ => exact ⟨a, b, c, rfl⟩
  have ha := a.toNat_lt; have hb := b.toNat_lt; have hc := c.toNat_lt
  show (a.toNat <<< 12 ||| b.toNat <<< 4) ||| c.toNat >>> 4 = (a.toNat * 65536 + b.toNat * 256 + c.toNat) / 16
  rw [Nat.or_assoc, Nat.shiftRight_eq_div_pow, ← Nat.shiftLeft_add_eq_or_of_lt (i := 4) (by omega), ← Nat.shiftLeft_add_eq_or_of_lt (i := 12) (by rw [Nat.shiftLeft_eq]; omega)]
  rw [Nat.shiftLeft_eq, Nat.shiftLeft_eq]
  omega

theorem label_first {l : List Bytes} (h : ∀ x ∈ l, x.length = 3) : firstLabel l = l.head?.map fun x => num (label20 x) := by
  cases l with
  | nil => rfl
  | cons x l => simp only [firstLabel, List.head?_cons, Option.map_some, label_value (h x (by simp))]

theorem rd_peer (rd : Option Rd) : rdAndOrigin rd .bmp = (rd.map rdTextOf, rd.map fun _ => .bmp) := by cases rd <;> rfl

theorem net_route (sh : Shown) (log : LogType) (a : Bool) (hl : log = if a then .update else .withdraw) (f : UInt16) (s : UInt8) (rd : Option Rd) (hop : Option IpAddr) (l : List NetAddr) :
    l.map (netRoute sh log (f, s) (rdAndOrigin rd .bmp) (hop.map sh.ip)) = (l.map (wantNet a f s hop)).map (shownRoute sh rd) := by
  rw [List.map_map, rd_peer, hl]
  rfl

theorem label_route (sh : Shown) (log : LogType) (a : Bool) (hl : log = if a then .update else .withdraw) (f : UInt16) (s : UInt8) (rd : Option Rd) (hop : Option IpAddr) (l : List LabeledAddr)
    (h : ∀ w ∈ l.map (wantLabels a f s hop), Labels3 w) : l.map (labelRoute sh log (f, s) (rdAndOrigin rd .bmp) (hop.map sh.ip)) = (l.map (wantLabels a f s hop)).map (shownRoute sh rd) := by
  rw [List.map_map, rd_peer, hl]
  refine List.map_congr_left fun e he => ?_
  have : ∀ x ∈ e.labels, x.length = 3 := h _ (List.mem_map_of_mem he)
  simp only [labelRoute, label_first this]
  rfl

theorem vpn_route (sh : Shown) (log : LogType) (a : Bool) (hl : log = if a then .update else .withdraw) (f : UInt16) (s : UInt8) (rd : Option Rd) (hop : Option IpAddr) (l : List VpnAddr)
    (h : ∀ w ∈ l.map (wantVpn a f s hop), Labels3 w) : l.map (vpnRoute sh log (f, s) (hop.map sh.ip)) = (l.map (wantVpn a f s hop)).map (shownRoute sh rd) := by
  rw [List.map_map, hl]
  refine List.map_congr_left fun e he => ?_
  have : ∀ x ∈ e.labels, x.length = 3 := h _ (List.mem_map_of_mem he)
  simp only [vpnRoute, label_first this]
  rfl

theorem hop_eq (n : LabeledNextHop) : hopOf n = vpnHop n := by cases n <;> rfl

theorem reach_routes (sh : Shown) (rd : Option Rd) (r : MpReach) {l : List Want} (h : reachWants r = some l) (hl : ∀ w ∈ l, Labels3 w) :
    reachMsgs sh (rdAndOrigin rd .bmp) r = l.map (shownRoute sh rd) := by
  cases r with
  | uni4 nh loc e => injection h with h; subst h; exact net_route sh .update true rfl 1 1 rd (some nh) e
  | multi4 nh loc e => injection h with h; subst h; exact net_route sh .update true rfl 1 2 rd (some nh) e
  | labels4 nh loc e => injection h with h; subst h; exact label_route sh .update true rfl 1 4 rd (some nh) e hl
  | vpn4 nh e => injection h with h; subst h; rw [reachMsgs]; simp only [hop_eq]; exact vpn_route sh .update true rfl 1 128 rd (some (vpnHop nh)) e hl
  | uni6 g loc e => injection h with h; subst h; exact net_route sh .update true rfl 2 1 rd (some (.v6 g)) e
  | multi6 g loc e => injection h with h; subst h; exact net_route sh .update true rfl 2 2 rd (some (.v6 g)) e
  | labels6 nh loc e => injection h with h; subst h; exact label_route sh .update true rfl 2 4 rd (some nh) e hl
  | vpn6 nh e => injection h with h; subst h; rw [reachMsgs]; simp only [hop_eq]; exact vpn_route sh .update true rfl 2 128 rd (some (vpnHop nh)) e hl
  | _ => cases h

theorem unreach_routes (sh : Shown) (rd : Option Rd) (r : MpUnreach) {l : List Want} (h : unreachWants r = some l) (hl : ∀ w ∈ l, Labels3 w) :
    unreachMsgs sh (rdAndOrigin rd .bmp) r = l.map (shownRoute sh rd) := by
  cases r with
  | unknown => cases h
  | known n =>
    cases n with
    | uni4 e => injection h with h; subst h; exact net_route sh .withdraw false rfl 1 1 rd none e
    | multi4 e => injection h with h; subst h; exact net_route sh .withdraw false rfl 1 2 rd none e
    | labels4 e => injection h with h; subst h; exact label_route sh .withdraw false rfl 1 4 rd none e hl
    | vpn4 e => injection h with h; subst h; exact vpn_route sh .withdraw false rfl 1 128 rd none e hl
    | uni6 e => injection h with h; subst h; exact net_route sh .withdraw false rfl 2 1 rd none e
    | multi6 e => injection h with h; subst h; exact net_route sh .withdraw false rfl 2 2 rd none e
    | labels6 e => injection h with h; subst h; exact label_route sh .withdraw false rfl 2 4 rd none e hl
    | vpn6 e => injection h with h; subst h; exact vpn_route sh .withdraw false rfl 2 128 rd none e hl
    | _ => cases h

theorem eor_wants {u : Update} {t : AddressType} (h : IsEor u t) : wants u = [] := by
  obtain ⟨h1, h2, h | ⟨h3, l, h4, h5, _⟩⟩ := h
  · simp [wants, h1, h2, attrValues, h.1]
  · have : (unreachWants (.known l)).getD [] = [] := by
      cases l <;> simp [Speaker.nlriEmpty] at h5 <;> simp [unreachWants, h5]
    simp [wants, h1, h2, h3, h4, this]

/-- C245: of an update with at most one MP_REACH_NLRI and one MP_UNREACH_NLRI, both of families of prefixes, each route that is withdrawn or announced is published once and in order, with its family, prefix, path
identifier, next hop, route distinguisher and top label. What is missing: updates with more of these attributes, of which all but the last are lost, and other families, of which there is one message without routes. -/
theorem c245_routes_partial (sh : Shown) (h : PeerHeader) (u : Update) (hr : (attrValues reachOf u).length ≤ 1) (hu : (attrValues unreachOf u).length ≤ 1)
    (pr : ∀ r ∈ attrValues reachOf u, (reachWants r).isSome) (pu : ∀ r ∈ attrValues unreachOf u, (unreachWants r).isSome) (hl : ∀ w ∈ wants u, Labels3 w) (hw : ∀ t, ¬ IsEor u t) :
    routesOf sh h u = (wants u).map (shownRoute sh h.rd) := by
  have hn : Speaker.endOfRib u = none := by
    cases e : Speaker.endOfRib u with
    | none => rfl
    | some t => exact absurd ((endOfRib_iff u t).1 e) (hw t)
  have one : ∀ {α : Type} (l : List α), l.length ≤ 1 → l = [] ∨ ∃ a, l = [a] := by
    intro α l h
    match l, h with
    | [], _ => exact .inl rfl
    | [a], _ => exact .inr ⟨a, rfl⟩
  have e1 : (match (attrsOf sh u).reach with | some r => reachMsgs sh (rdAndOrigin h.rd .bmp) r | none => []) =
      ((attrValues reachOf u).flatMap fun r => (reachWants r).getD []).map (shownRoute sh h.rd) := by
    rw [reach_last]
    rcases one _ hr with e | ⟨r, e⟩
    · rw [e]; rfl
    · obtain ⟨l, hlr⟩ := Option.isSome_iff_exists.1 (pr r (by rw [e]; simp))
      have hl' : ∀ w ∈ l, Labels3 w := fun w hw => hl w (by simp [wants, e, hlr, hw])
      rw [e]
      simp only [List.getLast?_singleton, List.flatMap_cons, List.flatMap_nil, List.append_nil, hlr, Option.getD_some]
      exact reach_routes sh h.rd r hlr hl'
  have e2 : (match (attrsOf sh u).unreach with | some r => unreachMsgs sh (rdAndOrigin h.rd .bmp) r | none => []) =
      ((attrValues unreachOf u).flatMap fun r => (unreachWants r).getD []).map (shownRoute sh h.rd) := by
    rw [unreach_last]
    rcases one _ hu with e | ⟨r, e⟩
    · rw [e]; rfl
    · obtain ⟨l, hlr⟩ := Option.isSome_iff_exists.1 (pu r (by rw [e]; simp))
      have hl' : ∀ w ∈ l, Labels3 w := fun w hw => hl w (by simp [wants, e, hlr, hw])
      rw [e]
      simp only [List.getLast?_singleton, List.flatMap_cons, List.flatMap_nil, List.append_nil, hlr, Option.getD_some]
      exact unreach_routes sh h.rd r hlr hl'
  unfold routesOf wants
  simp only [hn]
  rw [List.map_append, List.map_append, List.map_append, ← net_route sh .withdraw false rfl, ← net_route sh .update true rfl]
  have e3 : ((attrValues nextHopOf u).getLast?.map IpAddr.v4).map sh.ip = (attrsOf sh u).nextHop := by
    rw [nextHop_last, Option.map_map]; rfl
  rw [e3]
  exact congrArg _ (congrArg _ (congr (congrArg _ e1) e2))

/-- text for examples -/
def plainShown : Shown := ⟨fun _ => "::".toList, fun n => num n.plen.toNat, fun _ => [], fun _ => [], fun _ => [], fun _ => [], fun _ => [], fun i => match i with | .text _ s => s.toList | _ => ['?']⟩

/-- a header for examples -/
def sessionHeader : PeerHeader := ⟨.session .global false true false false, some (.as2 5 6), some (.v4 1), 65000, 1, some ⟨100, 5000⟩⟩

/-- an update for examples -/
def mixedUpdate : Update := ⟨[⟨none, ⟨[10, 0, 0, 0], 8⟩⟩], [⟨false, true, false, false, .nextHop 16909060⟩, ⟨true, false, false, false, .mpReach (.vpn4 (.v4 .leafAd 16909061) [⟨some 7, .as4 70000 1, [[0, 16, 1]], ⟨[11, 0, 0, 0], 9⟩⟩])⟩,
  ⟨true, false, false, false, .mpUnreach (.known (.uni6 [⟨none, ⟨List.replicate 16 0, 64⟩⟩]))⟩], [⟨some 3, ⟨[12, 0, 0, 0], 10⟩⟩]⟩

example : routesOf plainShown sessionHeader mixedUpdate =
    [⟨.withdraw, 1, 1, some "8".toList, some "0:5:6".toList, some .bmp, none, none, none⟩, ⟨.update, 1, 1, some "10".toList, some "0:5:6".toList, some .bmp, some "1.2.3.4".toList, some 3, none⟩,
     ⟨.update, 1, 128, some "9".toList, some "2:70000:1".toList, some .bgp, some "1.2.3.5".toList, some 7, some "256".toList⟩, ⟨.withdraw, 2, 1, some "64".toList, some "0:5:6".toList, some .bmp, none, none, none⟩] := by decide +kernel
example : routesOf plainShown sessionHeader mixedUpdate = (wants mixedUpdate).map (shownRoute plainShown sessionHeader.rd) :=
  c245_routes_partial _ _ _ (by decide) (by decide) (by decide) (by decide) (fun w hw => by revert w; decide) fun t e => by simp [IsEor, mixedUpdate] at e

/-- C245: of two MP_UNREACH_NLRI the routes of the first are not published -/
theorem c245_two_attributes_disproved : ¬ ∀ (sh : Shown) (h : PeerHeader) (u : Update), (∀ r ∈ attrValues unreachOf u, (unreachWants r).isSome) → (∀ w ∈ wants u, Labels3 w) → (∀ t, ¬ IsEor u t) →
    routesOf sh h u = (wants u).map (shownRoute sh h.rd) := by
  intro h
  have := h plainShown sessionHeader ⟨[], [⟨true, false, false, false, .mpUnreach (.known (.uni6 [⟨none, ⟨List.replicate 16 0, 64⟩⟩]))⟩, ⟨true, false, false, false, .mpUnreach (.known (.uni4 [⟨none, ⟨[10, 0, 0, 0], 8⟩⟩]))⟩], []⟩
    (by decide) (fun w hw => by revert w; decide) (fun t e => by simp [IsEor, attrValues, reachOf, unreachOf] at e)
  exact absurd this (by decide +kernel)

/-- C245: of the routes of a family that is not of prefixes just one message is published -/
theorem c245_other_families_disproved : ¬ ∀ (sh : Shown) (h : PeerHeader) (nh : IpAddr) (l : List RtmAddr) (u : Update), u = ⟨[], [⟨true, false, false, false, .mpReach (.rtm nh l)⟩], []⟩ →
    (routesOf sh h u).length = l.length := by
  intro h
  exact absurd (h plainShown sessionHeader (.v4 1) [⟨none, none⟩, ⟨some 1, none⟩] _ rfl) (by decide +kernel)

/-- C245: of a stack of labels the top one is published alone -/
theorem c245_labels_disproved : ¬ ∀ (sh : Shown) (log : LogType) (f : UInt16 × UInt8) (nh : Option Text) (a b : VpnAddr), vpnRoute sh log f nh a = vpnRoute sh log f nh b → a.labels = b.labels := by
  intro h
  exact absurd (h plainShown .update (1, 128) none ⟨none, .leafAd, [[0, 16, 0], [0, 32, 1]], ⟨[10, 0, 0, 0], 8⟩⟩ ⟨none, .leafAd, [[0, 16, 0]], ⟨[10, 0, 0, 0], 8⟩⟩ (by decide +kernel)) (by decide)

/-! ## End-of-RIB -/

/-- C246: an update is published as an End-of-RIB, and then as nothing else and with its family, exactly if it is one -/
theorem c246_end_of_rib (sh : Shown) (h : PeerHeader) (u : Update) :
    (∀ t, IsEor u t → routesOf sh h u = [⟨.endOfRib, t.afi, t.safi, none, h.rd.map rdTextOf, h.rd.map fun _ => .bmp, none, none, none⟩]) ∧
    ((∃ r ∈ routesOf sh h u, r.log = .endOfRib) → ∃ t, IsEor u t) := by
  constructor
  · intro t ht
    have e := (endOfRib_iff u t).2 ht
    unfold routesOf
    simp only [e, rd_peer]
    rfl
  · rintro ⟨r, hr, hlog⟩
    cases e : Speaker.endOfRib u with
    | some t => exact ⟨t, (endOfRib_iff u t).1 e⟩
    | none =>
      exfalso
      have hreach : ∀ rd m, ∀ r ∈ reachMsgs sh rd m, r.log ≠ .endOfRib := by
        intro rd m r hr
        cases m <;> simp [reachMsgs, netRoute, labelRoute, vpnRoute, noRoute] at hr <;> first | (obtain ⟨_, _, rfl⟩ := hr; simp) | (subst hr; simp)
      have hun : ∀ rd m, ∀ r ∈ unreachMsgs sh rd m, r.log ≠ .endOfRib := by
        intro rd m r hr
        cases m with
        | unknown a s v => simp [unreachMsgs, noRoute] at hr; subst hr; simp
        | known n => cases n <;> simp [unreachMsgs, netRoute, labelRoute, vpnRoute, noRoute] at hr <;> first | (obtain ⟨_, _, rfl⟩ := hr; simp) | (subst hr; simp)
      unfold routesOf at hr
      simp only [e, List.mem_append, List.mem_map] at hr
      rcases hr with ⟨x, _, rfl⟩ | ⟨x, _, rfl⟩ | hr | hr
      · simp [netRoute] at hlog
      · simp [netRoute] at hlog
      · split at hr
        · exact hreach _ _ r hr hlog
        · cases hr
      · split at hr
        · exact hun _ _ r hr hlog
        · cases hr

example : IsEor ⟨[], [⟨true, false, false, false, .mpUnreach (.known (.uni6 []))⟩], []⟩ .ipv6Unicast := ⟨rfl, rfl, .inr ⟨rfl, _, rfl, rfl, rfl⟩⟩

/-- C246: an End-of-RIB of a family that is not known is published as a withdrawal without a prefix -/
theorem c246_unknown_family_disproved : ¬ ∀ (sh : Shown) (h : PeerHeader) (a : Afi) (s : Safi), ∀ r ∈ routesOf sh h ⟨[], [⟨true, false, false, false, .mpUnreach (.unknown a s [])⟩], []⟩, r.log = .endOfRib := by
  intro h
  exact absurd (h plainShown sessionHeader ⟨1, by decide⟩ ⟨5, by decide⟩ ⟨.withdraw, 1, 5, none, some "0:5:6".toList, some .bmp, none, none, none⟩ (by decide +kernel)) (by decide)

/-! ## Attributes of routes -/

/-- what RFC 4271 calls IGP, EGP and INCOMPLETE -/
def originSpec : AttrValue → Option POrigin | .origin .igp => some .igp | .origin .egp => some .egp | .origin .incomplete => some .unknown | _ => none
def asPathSpec : AttrValue → Option AsPath | .asPath p => some p | _ => none
def as4PathSpec : AttrValue → Option (List (Seg UInt32)) | .as4Path p => some p | _ => none
def localPrefSpec : AttrValue → Option UInt32 | .localPref n => some n | _ => none
def medSpec : AttrValue → Option UInt32 | .med n => some n | _ => none
def otcSpec : AttrValue → Option UInt32 | .onlyToCustomer n => some n | _ => none
def commsSpec : AttrValue → Option (List UInt32) | .communities l => some l | _ => none
def lcommsSpec : AttrValue → Option (List LargeComm) | .largeCommunities l => some l | _ => none
def ecommsSpec : AttrValue → Option (List ExtComm) | .extCommunities l => some l | _ => none
/-- the metric, if Avro has a number for it -/
def aigpSpec : AttrValue → Option Int | .aigp n => some (min n.toNat 9223372036854775807) | _ => none
/-- the first label index -/
def psidSpec : AttrValue → Option UInt32
  | .prefixSid l => (l.filterMap fun t => match t with | .labelIndex _ i => some i | _ => none).head?
  | _ => none

theorem clamp_min (v : UInt64) : clamp v = min v.toNat 9223372036854775807 := by
  unfold clamp i64Max; split <;> omega

/-- the attributes that an update gives to its routes: of each the last one -/
def attrsSpec (sh : Shown) (u : Update) : Shared :=
  { origin := (attrValues originSpec u).getLast?
    asPath := match (attrValues asPathSpec u).getLast?, (attrValues as4PathSpec u).getLast? with
      | some p, some q => some (pathText (wholePath (pathHops p) (hopsOf UInt32.toNat q)))
      | some p, none => some (pathText (pathHops p))
      | none, some q => some (pathText (hopsOf UInt32.toNat q))
      | none, none => none
    comms := (attrValues commsSpec u).getLast?.map commsText
    ecomms := (attrValues ecommsSpec u).getLast?.map (ecommsText sh)
    lcomms := (attrValues lcommsSpec u).getLast?.map lcommsText
    localPref := (attrValues localPrefSpec u).getLast?
    med := (attrValues medSpec u).getLast?
    aigp := (attrValues aigpSpec u).getLast?
    psid := (attrValues psidSpec u).getLast?
    otc := (attrValues otcSpec u).getLast? }

theorem attrs_last_map (sh : Shown) (proj : Attrs → Option γ) (f : AttrValue → Option β) (g : β → γ) (h : ∀ s v, proj (attrsStep sh s v) = ((f v).map g).or (proj s)) (h0 : proj {} = none) (u : Update) :
    proj (attrsOf sh u) = (attrValues f u).getLast?.map g := by
  rw [attrs_last sh proj (fun v => (f v).map g) h h0 u]
  have e : attrValues (fun v => (f v).map g) u = (attrValues f u).map g := by
    unfold attrValues; rw [List.map_filterMap]
  rw [e, List.getLast?_map]

theorem findSome_head (l : List SidTlv) (f : SidTlv → Option β) : l.findSome? f = (l.filterMap f).head? := by
  induction l with
  | nil => rfl
  | cons a l ih =>
    rw [List.findSome?_cons]
    cases h : f a with
    | none => rw [List.filterMap_cons_none h]; exact ih
    | some b => rw [List.filterMap_cons_some h]; rfl

/-- C247: all messages of an update have the attributes of the update, of each that occurs more than once the last one -/
theorem c247_attributes (sh : Shown) (x : Ctx) (h : PeerHeader) (u : Update) (l : List PMsg) (hc : convRoutes sh x h (.update u) = .ok l) :
    ∀ m ∈ l, ∃ c p r, m = .route c p r (attrsSpec sh u) := by
  have key : sharedOf (attrsOf sh u) = attrsSpec sh u := by
    have e1 : (attrsOf sh u).origin = (attrValues originSpec u).getLast? := attrs_last sh Attrs.origin originSpec (fun s v => by cases v <;> first | rfl | (simp only [attrsStep]; split <;> rfl) | (rename_i o; cases o <;> rfl)) rfl u
    have e2 : (attrsOf sh u).asPath = (attrValues asPathSpec u).getLast? := attrs_last sh Attrs.asPath asPathSpec (fun s v => by cases v <;> first | rfl | (simp only [attrsStep]; split <;> rfl)) rfl u
    have e3 : (attrsOf sh u).as4Path = (attrValues as4PathSpec u).getLast? := attrs_last sh Attrs.as4Path as4PathSpec (fun s v => by cases v <;> first | rfl | (simp only [attrsStep]; split <;> rfl)) rfl u
    have e4 : (attrsOf sh u).localPref = (attrValues localPrefSpec u).getLast? := attrs_last sh Attrs.localPref localPrefSpec (fun s v => by cases v <;> first | rfl | (simp only [attrsStep]; split <;> rfl)) rfl u
    have e5 : (attrsOf sh u).med = (attrValues medSpec u).getLast? := attrs_last sh Attrs.med medSpec (fun s v => by cases v <;> first | rfl | (simp only [attrsStep]; split <;> rfl)) rfl u
    have e6 : (attrsOf sh u).otc = (attrValues otcSpec u).getLast? := attrs_last sh Attrs.otc otcSpec (fun s v => by cases v <;> first | rfl | (simp only [attrsStep]; split <;> rfl)) rfl u
    have e7 : (attrsOf sh u).comms = (attrValues commsSpec u).getLast?.map commsText := attrs_last_map sh Attrs.comms commsSpec commsText (fun s v => by cases v <;> first | rfl | (simp only [attrsStep]; split <;> rfl)) rfl u
    have e8 : (attrsOf sh u).lcomms = (attrValues lcommsSpec u).getLast?.map lcommsText := attrs_last_map sh Attrs.lcomms lcommsSpec lcommsText (fun s v => by cases v <;> first | rfl | (simp only [attrsStep]; split <;> rfl)) rfl u
    have e9 : (attrsOf sh u).ecomms = (attrValues ecommsSpec u).getLast?.map (ecommsText sh) := attrs_last_map sh Attrs.ecomms ecommsSpec (ecommsText sh) (fun s v => by cases v <;> first | rfl | (simp only [attrsStep]; split <;> rfl)) rfl u
    have e10 : (attrsOf sh u).aigp = (attrValues aigpSpec u).getLast? := attrs_last sh Attrs.aigp aigpSpec (fun s v => by
      cases v <;> first | rfl | (simp only [attrsStep]; split <;> rfl) | (simp [attrsStep, aigpSpec, clamp_min]; omega)) rfl u
    have e11 : (attrsOf sh u).psid = (attrValues psidSpec u).getLast? := attrs_last sh Attrs.psid psidSpec (fun s v => by
      cases v with
      | prefixSid l =>
        simp only [attrsStep, psidSpec]
        rw [findSome_head]
        cases (List.filterMap (fun t => match t with | SidTlv.labelIndex _ i => some i | _ => none) l).head? <;> rfl
      | _ => rfl) rfl u
    unfold sharedOf attrsSpec
    rw [e1, e2, e3, e4, e5, e6, e7, e8, e9, e10, e11]
    congr 1
    cases (attrValues asPathSpec u).getLast? with
    | none =>
      cases (attrValues as4PathSpec u).getLast? with
      | none => rfl
      | some q => exact congrArg some (segsText_hops _ _)
    | some p =>
      cases (attrValues as4PathSpec u).getLast? with
      | none => exact (c243_as_path p []).1
      | some q => exact (c243_as_path p q).2
  intro m hm
  unfold convRoutes at hc
  cases ht : headerTime h with
  | error e => simp [ht] at hc
  | ok t =>
    simp [ht] at hc
    subst hc
    obtain ⟨r, _, rfl⟩ := List.mem_map.1 hm
    exact ⟨_, _, r, by rw [key]⟩

example : attrsSpec plainShown ⟨[], [⟨false, true, false, false, .med 4⟩, ⟨false, true, false, false, .aigp 18446744073709551615⟩, ⟨false, true, false, false, .med 5⟩, ⟨true, true, false, false, .prefixSid [.unknown 9 [], .labelIndex 0 3, .labelIndex 0 4]⟩], []⟩ =
    ⟨none, none, none, none, none, none, some 5, some 9223372036854775807, some 3, none⟩ := by decide +kernel

/-- C247: withdrawals have attributes too: those of the routes that the same update announces -/
theorem c247_withdrawals_disproved : ¬ ∀ (sh : Shown) (x : Ctx) (h : PeerHeader) (u : Update) (l : List PMsg), convRoutes sh x h (.update u) = .ok l →
    ∀ c p r s, .route c p r s ∈ l → r.log = .withdraw → s = ⟨none, none, none, none, none, none, none, none, none, none⟩ := by
  intro h
  have := h plainShown ⟨[], [], [], .v4 1, 1⟩ sessionHeader ⟨[⟨none, ⟨[10, 0, 0, 0], 8⟩⟩], [⟨false, true, false, false, .med 5⟩], [⟨none, ⟨[12, 0, 0, 0], 10⟩⟩]⟩ _ rfl _ _ _ _ (List.mem_cons_self ..) rfl
  exact absurd this (by decide +kernel)

end Verif.Props
