import Verif.Bmp.CtxLemmas
/-!
# A message depends on, and says something about, the peer of its header only
-/
namespace Verif.Bmp
open Verif Bgp CParser

/-- the same settings for the peer `k` -/
def SameAt (k : PeerKey) (g g' : Peers) : Prop := (g.at k).Same (g'.at k)

theorem SameAt.refl (k : PeerKey) (g : Peers) : SameAt k g g := PeerCtx.Same.refl _
theorem SameAt.trans {k : PeerKey} {a b c : Peers} (h : SameAt k a b) (h' : SameAt k b c) : SameAt k a c :=
  PeerCtx.Same.trans h h'
theorem SameAt.symm {k : PeerKey} {a b : Peers} (h : SameAt k a b) : SameAt k b a := PeerCtx.Same.symm h

section
variable {ε α β : Type}

theorem csame_atPeer' {k : PeerKey} {p : CParser PeerCtx ε α} (h : CSame PeerCtx.Same EqCtx p) :
    CSame (SameAt k) (SameAt k) (atPeer k p) := by
  intro r g g' hg
  obtain ⟨h1, h2, h3⟩ := h r (g.at k) (g'.at k) hg
  refine ⟨h1, h2, ?_⟩
  show PeerCtx.Same (Peers.at (HMap.insert g k _) k) (Peers.at (HMap.insert g' k _) k)
  rw [Peers.at_insert_self, Peers.at_insert_self]; exact EqCtx.same h3

/-! ## The header of a message -/

/-- every value returned satisfies `P` -/
def CPost (P : α → Prop) (p : CParser Peers ε α) : Prop := ∀ s a s', p s = (.ok a, s') → P a

theorem cpost_pure {P : α → Prop} {a : α} (h : P a) : CPost P (pure a : CParser Peers ε α) := by
  intro s b s' hb
  simp only [CParser.pure_run, Prod.mk.injEq, Res.ok.injEq] at hb
  rw [← hb.1]; exact h
theorem cpost_fail {P : α → Prop} (e : ε) : CPost P (CParser.fail e : CParser Peers ε α) := by
  intro s b s' hb; simp at hb
theorem CPost.bind {P : β → Prop} {p : CParser Peers ε α} {f : α → CParser Peers ε β} (h : ∀ a, CPost P (f a)) :
    CPost P (p >>= f) := by
  intro s b s' hb
  obtain ⟨a, s1, _, h2⟩ := bind_eq_ok hb
  exact h a s1 b s' h2
theorem CPost.ite {P : α → Prop} {c : Prop} [Decidable c] {p q : CParser Peers ε α} (hp : CPost P p) (hq : CPost P q) :
    CPost P (if c then p else q) := by
  by_cases h : c
  · rw [if_pos h]; exact hp
  · rw [if_neg h]; exact hq
end

/-- what the proofs below need about a message of a peer: `f` is the rest of the parser, after the header -/
structure PeerMsg {ε α : Type} (p : CParser Peers ε α) (header : α → PeerHeader) : Prop where
  form : ∃ (g : HeaderErr → ε) (f : Nat → PeerHeader → CParser Peers ε α),
    (p = do
      let o ← CParser.lift Parser.getOffset
      let h ← CParser.lift (Parser.mapErr g Bmp.parseHeader)
      f o h) ∧ (∀ o h, CSame (SameAt h.key) (SameAt h.key) (f o h)) ∧ ∀ o h, CPost (fun a => header a = h) (f o h)

/-- one step of `ppost` -/
macro "ppost" : tactic => `(tactic| repeat' (first
  | with_reducible exact cpost_pure rfl
  | with_reducible exact cpost_fail _
  | with_reducible refine CPost.bind fun _ => ?_
  | with_reducible refine CPost.ite ?_ ?_
  | split))
/-- `pcsame` for the rest of a message -/
macro "pcsameAt" "[" h:term "]" : tactic => `(tactic| repeat' (first
  | with_reducible exact $h
  | with_reducible refine csame_atPeer' ?_
  | pcsame_step))

theorem peerMsg_rm3 : PeerMsg parseRm3 Rm3.header := by
  refine ⟨RmErr3.header, fun _ h => do
    let x ← atPeer h.key do
      setAsn4 h.type.asn4
      let o ← CParser.lift Parser.getOffset
      let m ← CParser.mapErr .msg bgpMsg
      pure (o, m)
    if x.2.type ≠ .update then CParser.fail (.build x.1 x.2.type) else pure ⟨h, x.2⟩, rfl, fun o h => ?_, fun o h => ?_⟩
  · pcsameAt [csame_bgpMsg]
  · ppost
theorem peerMsg_rm4 : PeerMsg parseRm4 Rm4.header := by
  refine ⟨RmErr4.header, fun o h => do
    let x ← atPeer h.key do
      setAsn4 h.type.asn4
      scratch (rm4Body h.type.adjRibOut)
    match tlvCheck 0 (.update x.1) with
    | some e => CParser.fail (.build o e)
    | none => pure ⟨h, x.1, x.2⟩, rfl, fun o h => ?_, fun o h => ?_⟩
  · pcsameAt [csame_rm4Body _]
  · ppost
theorem peerMsg_down3 : PeerMsg parseDown3 Down3.header := by
  refine ⟨DownErr.header, fun o h => do
    let r ← atPeer h.key do
      setAsn4 h.type.asn4
      CParser.mapErr .reason parseReason
    match r.check with
    | some e => CParser.fail (.build o e)
    | none => pure ⟨h, r⟩, rfl, fun o h => ?_, fun o h => ?_⟩
  · pcsameAt [csame_reason]
  · ppost
theorem peerMsg_down4 : PeerMsg parseDown4 Down4.header := by
  refine ⟨DownErr.header, fun o h => do
    let r ← atPeer h.key do
      setAsn4 h.type.asn4
      CParser.mapErr .reason parseReason
    let l ← CParser.lift (many (Parser.mapErr .tlv parseDownTlv))
    match r.check with
    | some e => CParser.fail (.build o e)
    | none => pure ⟨h, r, l⟩, rfl, fun o h => ?_, fun o h => ?_⟩
  · pcsameAt [csame_reason]
  · ppost
theorem peerMsg_up : PeerMsg parseUp PeerUp.header := by
  refine ⟨UpErr.header, fun o h => do
    let a ← CParser.lift (Parser.mapErr .parse Verif.readU128)
    let lp ← CParser.lift (Parser.mapErr .parse Verif.readU16)
    let rp ← CParser.lift (Parser.mapErr .parse Verif.readU16)
    let m ← atPeer h.key do
      setAsn4 h.type.asn4
      let sent ← CParser.mapErr .msg bgpMsg
      setAsn4 h.type.asn4
      let received ← CParser.mapErr .msg bgpMsg
      pure (sent, received)
    let l ← CParser.lift (many (Parser.mapErr .info parseInfo))
    match upCheck m.1 m.2 with
    | some e => CParser.fail (.build o e)
    | none => pure ⟨h, addressOf h.type.ipv6 a, portOf lp, portOf rp, m.1, m.2, l⟩, rfl, fun o h => ?_, fun o h => ?_⟩
  · pcsameAt [csame_setAsn4' _]
  · ppost
theorem peerMsg_mirroring : PeerMsg parseMirroring Mirroring.header := by
  refine ⟨MirrorErr.header, fun _ h => do
    let l ← atPeer h.key do
      setAsn4 h.type.asn4
      CParser.cmany (CParser.mapErr .value do
        let v ← parseMirrorValue
        pure (some v))
    pure ⟨h, l⟩, rfl, fun o h => ?_, fun o h => ?_⟩
  · pcsameAt [csame_mirrorValue]
  · ppost

section
variable {ε α : Type}

theorem PeerMsg.eq {p : CParser Peers ε α} {header : α → PeerHeader} (hp : PeerMsg p header) (r : Reader) (g g' : Peers)
    (h : ∀ x r', Bmp.parseHeader r = (.ok x, r') → SameAt x.key g g') :
    (p (r, g)).1 = (p (r, g')).1 ∧ (p (r, g)).2.1 = (p (r, g')).2.1 := by
  obtain ⟨e, f, rfl, hf, _⟩ := hp.form
  have hs : ∀ g : Peers, (CParser.lift Parser.getOffset : CParser Peers ε Nat) (r, g) = (.ok r.offset, (r, g)) := fun _ => rfl
  rw [bind_ok (hs g), bind_ok (hs g')]
  rcases hh : Bmp.parseHeader r with ⟨x | x | x, r'⟩
  · have hl : ∀ g : Peers, (CParser.lift (Parser.mapErr e Bmp.parseHeader) : CParser Peers ε PeerHeader) (r, g) = (.ok x, (r', g)) := by
      intro g; rw [lift_run, Parser.mapErr_run, hh]; rfl
    rw [bind_ok (hl g), bind_ok (hl g')]
    have := hf r.offset x r' g g' (h x r' hh)
    exact ⟨this.1, this.2.1⟩
  · have hl : ∀ g : Peers, (CParser.lift (Parser.mapErr e Bmp.parseHeader) : CParser Peers ε PeerHeader) (r, g) = (.err (e x), (r', g)) := by
      intro g; rw [lift_run, Parser.mapErr_run, hh]; rfl
    rw [bind_err (hl g), bind_err (hl g')]
    exact ⟨rfl, rfl⟩
  · have hl : ∀ g : Peers, (CParser.lift (Parser.mapErr e Bmp.parseHeader) : CParser Peers ε PeerHeader) (r, g) = (.fault x, (r', g)) := by
      intro g; rw [lift_run, Parser.mapErr_run, hh]; rfl
    rw [bind_fault (hl g), bind_fault (hl g')]
    exact ⟨rfl, rfl⟩

theorem PeerMsg.header {p : CParser Peers ε α} {header : α → PeerHeader} (hp : PeerMsg p header) {r : Reader} {g : Peers}
    {a : α} {s' : Reader × Peers} (h : p (r, g) = (.ok a, s')) : (Bmp.parseHeader r).1 = .ok (header a) := by
  obtain ⟨e, f, rfl, _, hf⟩ := hp.form
  obtain ⟨o, s1, h1, h⟩ := bind_eq_ok h
  obtain ⟨x, s2, h2, h⟩ := bind_eq_ok h
  have := hf _ _ _ _ _ h
  have h2 := (lift_eq_ok h2).1
  have h1 := (lift_eq_ok h1).1
  simp only [Parser.getOffset_run, Prod.mk.injEq] at h1
  rw [← h1.2] at h2
  rw [Parser.mapErr_run] at h2
  rcases hh : Bmp.parseHeader r with ⟨y | y | y, r'⟩ <;> rw [hh] at h2 <;> simp [Res.mapErr] at h2
  rw [this, h2.1]
end

/-- the types of messages with a header -/
def peerCode (c : UInt8) : Bool := c = 0 || c = 1 || c = 2 || c = 3 || c = 6

/-- the header in the octets of a value -/
def headerOf : Bytes → Option PeerHeader
  | c :: rest => if peerCode c then (match (Bmp.parseHeader ⟨rest, 6⟩).1 with | .ok h => some h | _ => none) else none
  | [] => none

/-- the header of a message -/
def Value.header? {R D : Type} (rm : R → PeerHeader) (down : D → PeerHeader) : Value R D → Option PeerHeader
  | .routeMonitoring m => some (rm m)
  | .stats m => some m.header
  | .peerDown m => some (down m)
  | .peerUp m => some m.header
  | .mirroring m => some m.header
  | _ => none
/-- the header of a message -/
def BmpMsg.header? : BmpMsg → Option PeerHeader
  | .v3 v => v.header? Rm3.header Down3.header
  | .v4 v => v.header? Rm4.header Down4.header

section
variable {R D RE : Type} {rm : CParser Peers RE R} {down : CParser Peers DownErr D} {rh : R → PeerHeader} {dh : D → PeerHeader}

theorem stats_header {r r' : Reader} {m : Stats} (h : parseStats r = (.ok m, r')) : (Bmp.parseHeader r).1 = .ok m.header := by
  unfold parseStats at h
  obtain ⟨x, r1, h1, h⟩ := Parser.bind_eq_ok.1 h
  obtain ⟨y, r2, h2, h⟩ := Parser.bind_eq_ok.1 h
  obtain ⟨z, r3, h3, h⟩ := Parser.bind_eq_ok.1 h
  simp only [Parser.pure_run, Prod.mk.injEq, Res.ok.injEq] at h
  rw [Parser.mapErr_run] at h1
  rcases hh : Bmp.parseHeader r with ⟨y | y | y, r'⟩ <;> rw [hh] at h1 <;> simp [Res.mapErr] at h1
  rw [← h.1, h1.1]

theorem value_eq (hr : PeerMsg rm rh) (hd : PeerMsg down dh) (b : Bytes) (g g' : Peers)
    (h : ∀ x, headerOf b = some x → SameAt x.key g g') :
    (parseValue rm down (⟨b, 5⟩, g)).1 = (parseValue rm down (⟨b, 5⟩, g')).1 ∧
    (parseValue rm down (⟨b, 5⟩, g)).2.1 = (parseValue rm down (⟨b, 5⟩, g')).2.1 := by
  cases b with
  | nil => exact ⟨rfl, rfl⟩
  | cons c rest =>
    have e : ∀ g : Peers, parseValue rm down (⟨c :: rest, 5⟩, g) = valueBody rm down 6 c (⟨rest, 6⟩, g) := fun _ => rfl
    rw [e, e]
    have h' : peerCode c = true → ∀ x r', Bmp.parseHeader ⟨rest, 6⟩ = (.ok x, r') → SameAt x.key g g' := by
      intro hc x r' hx
      refine h x ?_
      simp [headerOf, hc, hx]
    have go : ∀ {ε α β : Type} {p : CParser Peers ε α} {f : α → CParser Peers ε β} (hf : ∀ a s s', (f a s).1 = (f a s').1 ∧ (f a s).2.1 = s.1),
        ((p (⟨rest, 6⟩, g)).1 = (p (⟨rest, 6⟩, g')).1 ∧ (p (⟨rest, 6⟩, g)).2.1 = (p (⟨rest, 6⟩, g')).2.1) →
        ((p >>= f) (⟨rest, 6⟩, g)).1 = ((p >>= f) (⟨rest, 6⟩, g')).1 ∧ ((p >>= f) (⟨rest, 6⟩, g)).2.1 = ((p >>= f) (⟨rest, 6⟩, g')).2.1 := by
      intro ε α β p f hf hp
      rcases he : p (⟨rest, 6⟩, g) with ⟨a | e | x, s'⟩ <;> rcases he' : p (⟨rest, 6⟩, g') with ⟨a' | e' | x', s''⟩ <;>
        rw [he, he'] at hp <;> simp only [Res.ok.injEq, Res.err.injEq, Res.fault.injEq, reduceCtorEq, false_and] at hp <;>
        obtain ⟨rfl, h2⟩ := hp
      · rw [bind_ok he, bind_ok he', (hf a s' s'').1, (hf a s' s'').2, (hf a s'' s'').2]; exact ⟨rfl, h2⟩
      · rw [bind_err he, bind_err he']; exact ⟨rfl, h2⟩
      · rw [bind_fault he, bind_fault he']; exact ⟨rfl, h2⟩
    have goE : ∀ {ε ε' α : Type} {p : CParser Peers ε α} (e : ε → ε'),
        ((p (⟨rest, 6⟩, g)).1 = (p (⟨rest, 6⟩, g')).1 ∧ (p (⟨rest, 6⟩, g)).2.1 = (p (⟨rest, 6⟩, g')).2.1) →
        (CParser.mapErr e p (⟨rest, 6⟩, g)).1 = (CParser.mapErr e p (⟨rest, 6⟩, g')).1 ∧
        (CParser.mapErr e p (⟨rest, 6⟩, g)).2.1 = (CParser.mapErr e p (⟨rest, 6⟩, g')).2.1 := by
      intro ε ε' α p e hp
      rw [CParser.mapErr_run, CParser.mapErr_run, hp.1]; exact ⟨rfl, hp.2⟩
    unfold valueBody
    split
    · subst c; exact go (fun _ _ _ => ⟨rfl, rfl⟩) (goE _ (hr.eq _ _ _ (h' rfl)))
    split
    · exact go (fun _ _ _ => ⟨rfl, rfl⟩) ⟨rfl, rfl⟩
    split
    · subst c; exact go (fun _ _ _ => ⟨rfl, rfl⟩) (goE _ (hd.eq _ _ _ (h' rfl)))
    split
    · subst c; exact go (fun _ _ _ => ⟨rfl, rfl⟩) (goE _ (peerMsg_up.eq _ _ _ (h' rfl)))
    split
    · exact go (fun _ _ _ => ⟨rfl, rfl⟩) ⟨rfl, rfl⟩
    split
    · exact go (fun _ _ _ => ⟨rfl, rfl⟩) ⟨rfl, rfl⟩
    split
    · subst c; exact go (fun _ _ _ => ⟨rfl, rfl⟩) (goE _ (peerMsg_mirroring.eq _ _ _ (h' rfl)))
    cases ofExp8 c with
    | none => exact ⟨rfl, rfl⟩
    | some n => exact go (fun _ _ _ => ⟨rfl, rfl⟩) ⟨rfl, rfl⟩

theorem value_header (hr : PeerMsg rm rh) (hd : PeerMsg down dh) {b : Bytes} {g : Peers} {v : Value R D} {s' : Reader × Peers}
    (h : parseValue rm down (⟨b, 5⟩, g) = (.ok v, s')) : headerOf b = v.header? rh dh := by
  cases b with
  | nil => exact absurd h (by rintro ⟨⟩)
  | cons c rest =>
    rw [show parseValue rm down (⟨c :: rest, 5⟩, g) = valueBody rm down 6 c (⟨rest, 6⟩, g) from rfl] at h
    unfold valueBody at h
    unfold headerOf
    have fin : ∀ {x : PeerHeader} {v : Value R D}, peerCode c = true → (Bmp.parseHeader ⟨rest, 6⟩).1 = .ok x → v.header? rh dh = some x →
        (if peerCode c = true then (match (Bmp.parseHeader ⟨rest, 6⟩).1 with | .ok h => some h | _ => none) else none) = v.header? rh dh := by
      intro x v hc hx hv
      rw [if_pos hc, hx, hv]
    split at h
    · obtain ⟨m, s1, h1, h2⟩ := bind_eq_ok h
      simp only [CParser.pure_run, Prod.mk.injEq, Res.ok.injEq] at h2
      rw [← h2.1]; subst c
      exact fin rfl (hr.header (mapErr_eq_ok h1)) rfl
    split at h
    · obtain ⟨m, s1, h1, h2⟩ := bind_eq_ok h
      simp only [CParser.pure_run, Prod.mk.injEq, Res.ok.injEq] at h2
      rw [← h2.1]; subst c
      refine fin rfl (stats_header (r' := s1.1) ?_) rfl
      have h1 := (lift_eq_ok h1).1
      rw [Parser.mapErr_run] at h1
      rcases hh : parseStats ⟨rest, 6⟩ with ⟨y | y | y, r'⟩ <;> rw [hh] at h1 <;> simp [Res.mapErr] at h1
      rw [h1.1, h1.2]
    split at h
    · obtain ⟨m, s1, h1, h2⟩ := bind_eq_ok h
      simp only [CParser.pure_run, Prod.mk.injEq, Res.ok.injEq] at h2
      rw [← h2.1]; subst c
      exact fin rfl (hd.header (mapErr_eq_ok h1)) rfl
    split at h
    · obtain ⟨m, s1, h1, h2⟩ := bind_eq_ok h
      simp only [CParser.pure_run, Prod.mk.injEq, Res.ok.injEq] at h2
      rw [← h2.1]; subst c
      exact fin rfl (peerMsg_up.header (mapErr_eq_ok h1)) rfl
    split at h
    · obtain ⟨m, s1, h1, h2⟩ := bind_eq_ok h
      simp only [CParser.pure_run, Prod.mk.injEq, Res.ok.injEq] at h2
      rw [← h2.1]; subst c; rfl
    split at h
    · obtain ⟨m, s1, h1, h2⟩ := bind_eq_ok h
      simp only [CParser.pure_run, Prod.mk.injEq, Res.ok.injEq] at h2
      rw [← h2.1]; subst c; rfl
    split at h
    · obtain ⟨m, s1, h1, h2⟩ := bind_eq_ok h
      simp only [CParser.pure_run, Prod.mk.injEq, Res.ok.injEq] at h2
      rw [← h2.1]; subst c
      exact fin rfl (peerMsg_mirroring.header (mapErr_eq_ok h1)) rfl
    rename_i h0 h1 h2 h3 _ _ h6
    have hc : peerCode c = false := by simp [peerCode, h0, h1, h2, h3, h6]
    show (if peerCode c = true then _ else none) = _
    rw [hc, if_neg (by decide)]
    cases hn : ofExp8 c with
    | none => rw [hn] at h; exact absurd h (by rintro ⟨⟩)
    | some n =>
      rw [hn] at h
      obtain ⟨m, s1, h1, h2⟩ := bind_eq_ok h
      simp only [CParser.pure_run, Prod.mk.injEq, Res.ok.injEq] at h2
      rw [← h2.1]; rfl
end

/-! ## Frames -/

/-- the octets of a message: a version, the length of all and the value -/
def frameOf (v : Version) (b : Bytes) : Bytes := v.code :: (u32be (UInt32.ofNat (5 + b.length)) ++ b)

theorem Version.ofCode_code (v : Version) : Version.ofCode v.code = some v := by cases v <;> rfl
theorem Version.code_ofCode {c : UInt8} {v : Version} (h : Version.ofCode c = some v) : v.code = c := by
  unfold Version.ofCode at h
  split at h
  · obtain rfl := Option.some.inj h; simp [Version.code, *]
  split at h
  · obtain rfl := Option.some.inj h; simp [Version.code, *]
  · simp at h

theorem versionBody_eq (v : Version) (b : Bytes) (g g' : Peers) (h : ∀ x, headerOf b = some x → SameAt x.key g g') :
    (versionBody v (⟨b, 5⟩, g)).1 = (versionBody v (⟨b, 5⟩, g')).1 ∧
    (versionBody v (⟨b, 5⟩, g)).2.1 = (versionBody v (⟨b, 5⟩, g')).2.1 := by
  have go : ∀ {ε α β ε' : Type} {p : CParser Peers ε α} (f : α → β) (k : ε → ε'),
      ((p (⟨b, 5⟩, g)).1 = (p (⟨b, 5⟩, g')).1 ∧ (p (⟨b, 5⟩, g)).2.1 = (p (⟨b, 5⟩, g')).2.1) →
      ((CParser.mapErr k p >>= fun a => (pure (f a) : CParser Peers ε' β)) (⟨b, 5⟩, g)).1 =
        ((CParser.mapErr k p >>= fun a => (pure (f a) : CParser Peers ε' β)) (⟨b, 5⟩, g')).1 ∧
      ((CParser.mapErr k p >>= fun a => (pure (f a) : CParser Peers ε' β)) (⟨b, 5⟩, g)).2.1 =
        ((CParser.mapErr k p >>= fun a => (pure (f a) : CParser Peers ε' β)) (⟨b, 5⟩, g')).2.1 := by
    intro ε α β ε' p f k hp
    show (CParser.bind _ _ _).1 = (CParser.bind _ _ _).1 ∧ (CParser.bind _ _ _).2.1 = (CParser.bind _ _ _).2.1
    unfold CParser.bind
    rw [CParser.mapErr_run, CParser.mapErr_run]
    rcases he : p (⟨b, 5⟩, g) with ⟨a | e | x, s'⟩ <;> rcases he' : p (⟨b, 5⟩, g') with ⟨a' | e' | x', s''⟩ <;>
      rw [he, he'] at hp <;> simp only [Res.ok.injEq, Res.err.injEq, Res.fault.injEq, reduceCtorEq, false_and] at hp <;>
      obtain ⟨rfl, h2⟩ := hp <;> exact ⟨rfl, h2⟩
  cases v
  · exact go _ _ (value_eq peerMsg_rm3 peerMsg_down3 b g g' h)
  · exact go _ _ (value_eq peerMsg_rm4 peerMsg_down4 b g g' h)

theorem versionBody_header {v : Version} {b : Bytes} {g : Peers} {m : BmpMsg} {s' : Reader × Peers}
    (h : versionBody v (⟨b, 5⟩, g) = (.ok m, s')) : headerOf b = m.header? ∧ m.version = v := by
  cases v
  · obtain ⟨x, s1, h1, h2⟩ := bind_eq_ok h
    simp only [CParser.pure_run, Prod.mk.injEq, Res.ok.injEq] at h2
    rw [← h2.1]
    exact ⟨value_header peerMsg_rm3 peerMsg_down3 (mapErr_eq_ok h1), rfl⟩
  · obtain ⟨x, s1, h1, h2⟩ := bind_eq_ok h
    simp only [CParser.pure_run, Prod.mk.injEq, Res.ok.injEq] at h2
    rw [← h2.1]
    exact ⟨value_header peerMsg_rm4 peerMsg_down4 (mapErr_eq_ok h1), rfl⟩

/-- what `BmpMessage::parse` does with the octets of a message -/
def parseBody (v : Version) (b : Bytes) (g : Peers) : Res BmpErr BmpMsg × Peers :=
  match versionBody v (⟨b, 5⟩, g) with
  | (.ok m, (r, g')) =>
    if r.buf = [] then (.ok m, g') else (.err (.unparsed r.offset (UInt32.ofNat (5 + b.length)) r.buf.length), g')
  | (.err e, (_, g')) => (.err e, g')
  | (.fault x, (_, g')) => (.fault x, g')

theorem parseBmp_frame (v : Version) (b : Bytes) (hb : 5 + b.length < 4294967296) (g : Peers) :
    (parseBmp (⟨frameOf v b, 0⟩, g)).1 = (parseBody v b g).1 ∧ (parseBmp (⟨frameOf v b, 0⟩, g)).2.2 = (parseBody v b g).2 := by
  have hl : (UInt32.ofNat (5 + b.length)).toNat = 5 + b.length := by
    rw [UInt32.toNat_ofNat_of_lt']; exact hb
  have h1 : (CParser.lift (Parser.mapErr BmpErr.parse Verif.readU8) : CParser Peers BmpErr UInt8) (⟨frameOf v b, 0⟩, g) =
      (.ok v.code, (⟨u32be (UInt32.ofNat (5 + b.length)) ++ b, 1⟩, g)) := rfl
  have h2 : ∀ r : Reader, (CParser.lift Parser.getOffset : CParser Peers BmpErr Nat) (r, g) = (.ok r.offset, (r, g)) := fun _ => rfl
  have h3 : ∀ (e : BmpErr) (r : Reader), (CParser.lift (Parser.ofOption e (Version.ofCode v.code)) : CParser Peers BmpErr Version) (r, g) = (.ok v, (r, g)) := by
    intro e r; rw [Version.ofCode_code]; rfl
  have h4 : (CParser.lift (Parser.mapErr BmpErr.parse Verif.readU32) : CParser Peers BmpErr UInt32)
      (⟨u32be (UInt32.ofNat (5 + b.length)) ++ b, 1⟩, g) = (.ok (UInt32.ofNat (5 + b.length)), (⟨b, 5⟩, g)) := by
    rw [lift_run, ((reads_u32 _).mapErr _).run]; rfl
  have h5 : (CParser.lift (Parser.mapErr BmpErr.parse (takeSlice ((UInt32.ofNat (5 + b.length)).toNat - 5))) : CParser Peers BmpErr Reader)
      (⟨b, 5⟩, g) = (.ok ⟨b, 5⟩, (⟨[], 5 + b.length⟩, g)) := by
    rw [hl, show 5 + b.length - 5 = b.length by omega, lift_run, Parser.mapErr_run]
    have := takeSlice_append (a := b) (n := b.length) (bs := []) (o := 5) rfl
    rw [List.append_nil] at this
    rw [this]; rfl
  have e : parseBmp (⟨frameOf v b, 0⟩, g) = (do
      let x ← CParser.onSub ⟨b, 5⟩ (versionBody v)
      if x.2.buf = [] then pure x.1 else CParser.fail (.unparsed x.2.offset (UInt32.ofNat (5 + b.length)) x.2.buf.length) :
        CParser Peers BmpErr BmpMsg) (⟨[], 5 + b.length⟩, g) := by
    unfold parseBmp
    rw [bind_ok h1, bind_ok (h2 _), bind_ok (h3 _ _), bind_ok h4, bind_ok (h2 _), if_neg (by omega), bind_ok h5]
  rw [e]
  unfold parseBody
  rcases hv : versionBody v (⟨b, 5⟩, g) with ⟨m | m | m, ⟨r, g'⟩⟩
  · have : CParser.onSub ⟨b, 5⟩ (versionBody v) (⟨[], 5 + b.length⟩, g) = (.ok (m, r), (⟨[], 5 + b.length⟩, g')) := by
      unfold CParser.onSub; rw [show versionBody v (⟨b, 5⟩, ((⟨[], 5 + b.length⟩ : Reader), g).2) = versionBody v (⟨b, 5⟩, g) from rfl, hv]
    rw [bind_ok this]
    simp only
    by_cases hr : r.buf = []
    · rw [if_pos hr, if_pos hr]; exact ⟨rfl, rfl⟩
    · rw [if_neg hr, if_neg hr]; exact ⟨rfl, rfl⟩
  · have : CParser.onSub ⟨b, 5⟩ (versionBody v) (⟨[], 5 + b.length⟩, g) = (.err m, (⟨[], 5 + b.length⟩, g')) := by
      unfold CParser.onSub; rw [show versionBody v (⟨b, 5⟩, ((⟨[], 5 + b.length⟩ : Reader), g).2) = versionBody v (⟨b, 5⟩, g) from rfl, hv]
    rw [bind_err this]; exact ⟨rfl, rfl⟩
  · have : CParser.onSub ⟨b, 5⟩ (versionBody v) (⟨[], 5 + b.length⟩, g) = (.fault m, (⟨[], 5 + b.length⟩, g')) := by
      unfold CParser.onSub; rw [show versionBody v (⟨b, 5⟩, ((⟨[], 5 + b.length⟩ : Reader), g).2) = versionBody v (⟨b, 5⟩, g) from rfl, hv]
    rw [bind_fault this]; exact ⟨rfl, rfl⟩

end Verif.Bmp
