import Verif.Bgp.MsgFrame
import Verif.Core.InvErr
/-!
# OPEN: the outcomes of capability parsing, and exactly which OPEN bodies are accepted
-/
namespace Verif.Bgp
open Verif Verif.Parser Verif.CParser

/-- `CapRun r l`: reading capabilities one after the other from `r` to its end, each read starting where the previous
one stopped, has the outcomes `l` -/
inductive CapRun : Reader → List (Except CapErr Cap) → Prop where
  | done (o : Nat) : CapRun ⟨[], o⟩ []
  | ok {r r' : Reader} {x : Cap} {l} (hr : r.buf ≠ []) (h : parseCap r = (.ok x, r')) (t : CapRun r' l) :
      CapRun r (.ok x :: l)
  | err {r r' : Reader} {e : CapErr} {l} (hr : r.buf ≠ []) (h : parseCap r = (.err e, r')) (t : CapRun r' l) :
      CapRun r (.error e :: l)

/-- the capabilities among the outcomes -/
def oks : List (Except CapErr Cap) → List Cap
  | [] => []
  | .ok x :: l => x :: oks l
  | .error _ :: l => oks l
/-- the errors among the outcomes -/
def errs : List (Except CapErr Cap) → List CapErr
  | [] => []
  | .ok _ :: l => errs l
  | .error e :: l => e :: errs l

theorem capRun_exists (r : Reader) : ∃ l, CapRun r l := by
  suffices ∀ n (r : Reader), r.buf.length = n → ∃ l, CapRun r l from this _ r rfl
  intro n
  induction n using Nat.strongRecOn with
  | ind n ih =>
    intro r hn
    by_cases hb : r.buf = []
    · obtain ⟨b, o⟩ := r
      simp only at hb
      subst hb
      exact ⟨[], .done o⟩
    · have ha := (cap_adv hb).length
      have hs := safe_cap.out r
      rcases hp : parseCap r with ⟨x | e | x, r'⟩ <;> rw [hp] at ha hs
      · obtain ⟨l, hl⟩ := ih _ (by simp only at ha; omega) r' rfl
        exact ⟨_, .ok hb hp hl⟩
      · obtain ⟨l, hl⟩ := ih _ (by simp only at ha; omega) r' rfl
        exact ⟨_, .err hb hp hl⟩
      · exact hs.elim

theorem capRun_unique {r : Reader} {l l' : List (Except CapErr Cap)} (h : CapRun r l) (h' : CapRun r l') : l = l' := by
  induction h generalizing l' with
  | done o => cases h' with
    | done => rfl
    | ok hr => exact (hr rfl).elim
    | err hr => exact (hr rfl).elim
  | ok hr hp _ ih => cases h' with
    | done => exact (hr rfl).elim
    | ok _ hp' t =>
      rw [hp] at hp'
      simp only [Prod.mk.injEq, Res.ok.injEq] at hp'
      obtain ⟨rfl, rfl⟩ := hp'
      rw [ih t]
    | err _ hp' => rw [hp] at hp'; simp at hp'
  | err hr hp _ ih => cases h' with
    | done => exact (hr rfl).elim
    | ok _ hp' => rw [hp] at hp'; simp at hp'
    | err _ hp' t =>
      rw [hp] at hp'
      simp only [Prod.mk.injEq, Res.err.injEq] at hp'
      obtain ⟨rfl, rfl⟩ := hp'
      rw [ih t]

theorem capRun_adv {r r' : Reader} {res : Res CapErr Cap} (hr : r.buf ≠ []) (h : parseCap r = (res, r')) :
    r'.offset + r'.buf.length = r.offset + r.buf.length ∧ r'.buf.length < r.buf.length := by
  have ha := cap_adv hr
  rw [h] at ha
  obtain ⟨n, h1, h2, h3⟩ := ha
  simp only at h3
  subst h3
  simp only [List.length_drop]
  omega

/-- lenient mode: everything that decodes is kept, every error is recorded -/
theorem caps_lenient {c : MsgCtx} (hc : c.failCap = false) {r : Reader} {l : List (Except CapErr Cap)} (h : CapRun r l)
    (g : Ignored) : cmany (capStep c) (r, g) =
      (.ok (oks l), (⟨[], r.offset + r.buf.length⟩, { g with caps := g.caps ++ errs l })) := by
  induction h generalizing g with
  | done o => rw [cmany_nil _ _ rfl]; simp [oks, errs]
  | @ok r r' x l hr hp _ ih =>
    obtain ⟨h1, h2⟩ := capRun_adv hr hp
    have hs : capStep c (r, g) = (.ok (some x), (r', g)) := by
      unfold capStep; rw [CParser.bind_ok (attempt_ok hp g)]; rfl
    rw [cmany_cons hr hs h2, ih]
    simp only [h1, oks, errs, Option.toList_some, List.singleton_append]
  | @err r r' e l hr hp _ ih =>
    obtain ⟨h1, h2⟩ := capRun_adv hr hp
    have hs : capStep c (r, g) = (.ok none, (r', { g with caps := g.caps ++ [e] })) := by
      unfold capStep; rw [CParser.bind_ok (attempt_err hp g)]
      simp only [hc, Bool.false_eq_true, if_false]
      rfl
    rw [cmany_cons hr hs h2, ih]
    simp only [h1, oks, errs, Option.toList_none, List.nil_append, List.append_assoc, List.singleton_append]

/-- any mode, when every capability decodes -/
theorem caps_all_ok (c : MsgCtx) {r : Reader} {l : List (Except CapErr Cap)} (h : CapRun r l) (he : errs l = [])
    (g : Ignored) : cmany (capStep c) (r, g) = (.ok (oks l), (⟨[], r.offset + r.buf.length⟩, g)) := by
  induction h generalizing g with
  | done o => rw [cmany_nil _ _ rfl]; simp [oks]
  | @ok r r' x l hr hp _ ih =>
    obtain ⟨h1, h2⟩ := capRun_adv hr hp
    have hs : capStep c (r, g) = (.ok (some x), (r', g)) := by
      unfold capStep; rw [CParser.bind_ok (attempt_ok hp g)]; rfl
    rw [cmany_cons hr hs h2, ih he]
    simp only [h1, oks, Option.toList_some, List.singleton_append]
  | err => simp [errs] at he

/-- strict mode: the first error is returned -/
theorem caps_strict {c : MsgCtx} (hc : c.failCap = true) {r : Reader} {l : List (Except CapErr Cap)} (h : CapRun r l)
    {e : CapErr} {es : List CapErr} (he : errs l = e :: es) (g : Ignored) :
    ∃ s, cmany (capStep c) (r, g) = (.err (.capability e), (s, g)) := by
  induction h generalizing g with
  | done o => simp [errs] at he
  | @ok r r' x l hr hp _ ih =>
    obtain ⟨h1, h2⟩ := capRun_adv hr hp
    have hs : capStep c (r, g) = (.ok (some x), (r', g)) := by
      unfold capStep; rw [CParser.bind_ok (attempt_ok hp g)]; rfl
    obtain ⟨s, h⟩ := ih he g
    exact ⟨s, by rw [cmany_cons hr hs h2, h]⟩
  | @err r r' e' l hr hp _ ih =>
    simp only [errs, List.cons.injEq] at he
    obtain ⟨rfl, _⟩ := he
    refine ⟨r', cmany_err hr ?_⟩
    unfold capStep; rw [CParser.bind_ok (attempt_err hp g)]
    simp only [hc, if_true]
    rfl

/-! ## The optional parameters -/

/-- the octets of capability parameters with the given bodies -/
def paramOctets (bodies : List Bytes) : Bytes := (bodies.map fun b => 2 :: UInt8.ofNat b.length :: b).flatten

/-- the outcomes of the capabilities in each parameter, the first parameter starting at offset `o` -/
def ParamRuns : Nat → List Bytes → List (List (Except CapErr Cap)) → Prop
  | _, [], [] => True
  | o, b :: bs, l :: ls => CapRun ⟨b, o + 2⟩ l ∧ ParamRuns (o + 2 + b.length) bs ls
  | _, _, _ => False

theorem paramRuns_exists (o : Nat) (bs : List Bytes) : ∃ ls, ParamRuns o bs ls := by
  induction bs generalizing o with
  | nil => exact ⟨[], trivial⟩
  | cons b bs ih =>
    obtain ⟨l, hl⟩ := capRun_exists ⟨b, o + 2⟩
    obtain ⟨ls, hls⟩ := ih (o + 2 + b.length)
    exact ⟨l :: ls, hl, hls⟩

/-- what is recorded as ignored in each mode -/
def Ignored.addCaps (g : Ignored) (l : List CapErr) : Ignored := { g with caps := g.caps ++ l }

theorem Ignored.addCaps_nil (g : Ignored) : g.addCaps [] = g := by simp [Ignored.addCaps]
theorem Ignored.addCaps_append (g : Ignored) (l l' : List CapErr) : (g.addCaps l).addCaps l' = g.addCaps (l ++ l') := by
  simp [Ignored.addCaps]

/-- a parameter -/
theorem run_param {c : MsgCtx} {b : Bytes} {o : Nat} {l : List (Except CapErr Cap)} (hb : b.length ≤ 255)
    (h : CapRun ⟨b, o + 2⟩ l) (hok : c.failCap = false ∨ errs l = []) (rest : Bytes) (g : Ignored) :
    parseParam c (⟨2 :: UInt8.ofNat b.length :: b ++ rest, o⟩, g) =
      (.ok (oks l), (⟨rest, o + 2 + b.length⟩, g.addCaps (errs l))) := by
  have hrun : cmany (capStep c) (⟨b, o + 2⟩, g) = (.ok (oks l), (⟨[], o + 2 + b.length⟩, g.addCaps (errs l))) := by
    rcases hok with hc | he
    · exact caps_lenient hc h g
    · rw [he, Ignored.addCaps_nil]; exact caps_all_ok c h he g
  have hn : (UInt8.ofNat b.length).toNat = b.length := UInt8.toNat_ofNat_le hb
  unfold parseParam parseCapParam
  rw [CParser.bind_ok (p := CParser.lift (Parser.mapErr ParamErr.parse peekU8)) (a := 2)
    (s' := (⟨2 :: UInt8.ofNat b.length :: b ++ rest, o⟩, g)) rfl,
    CParser.bind_ok (p := CParser.lift getOffset) (a := o) (s' := (⟨2 :: UInt8.ofNat b.length :: b ++ rest, o⟩, g)) rfl,
    if_pos rfl,
    CParser.bind_ok (p := CParser.lift (Parser.mapErr ParamErr.parse readU8)) (a := 2)
      (s' := (⟨UInt8.ofNat b.length :: b ++ rest, o + 1⟩, g)) rfl,
    CParser.bind_ok (p := CParser.lift (Parser.mapErr ParamErr.parse readU8)) (a := UInt8.ofNat b.length)
      (s' := (⟨b ++ rest, o + 1 + 1⟩, g)) rfl,
    CParser.bind_ok (a := ⟨b, o + 2⟩) (s' := (⟨rest, o + 2 + b.length⟩, g)) (by
      rw [lift_run, Parser.mapErr_ok (takeSlice_append hn.symm), hn]),
    CParser.bind_ok (a := (oks l, ⟨[], o + 2 + b.length⟩)) (s' := (⟨rest, o + 2 + b.length⟩, g.addCaps (errs l))) (by
      unfold CParser.onSub; simp only [hrun])]
  rfl

theorem run_params {c : MsgCtx} {bs : List Bytes} {o : Nat} {ls : List (List (Except CapErr Cap))}
    (hb : ∀ b ∈ bs, b.length ≤ 255) (h : ParamRuns o bs ls) (hok : c.failCap = false ∨ ∀ l ∈ ls, errs l = [])
    (g : Ignored) : parseParams c (⟨paramOctets bs, o⟩, g) =
      (.ok (ls.map oks), (⟨[], o + (paramOctets bs).length⟩, g.addCaps (ls.map errs).flatten)) := by
  unfold parseParams
  induction bs generalizing o ls g with
  | nil =>
    cases ls with
    | nil => rw [cmany_nil _ _ rfl]; simp [paramOctets, Ignored.addCaps_nil]
    | cons => exact h.elim
  | cons b bs ih =>
    cases ls with
    | nil => exact h.elim
    | cons l ls =>
      obtain ⟨h1, h2⟩ := h
      have hp := run_param (hb b (by simp)) h1 (hok.imp id fun h => h l (by simp)) (paramOctets bs) g
      have hoct : paramOctets (b :: bs) = 2 :: UInt8.ofNat b.length :: b ++ paramOctets bs := by
        simp [paramOctets]
      rw [hoct]
      have hs : (do let p ← parseParam c; pure (some p) : MParser ParamErr (Option (List Cap)))
          (⟨2 :: UInt8.ofNat b.length :: b ++ paramOctets bs, o⟩, g) =
            (.ok (some (oks l)), (⟨paramOctets bs, o + 2 + b.length⟩, g.addCaps (errs l))) := by
        rw [CParser.bind_ok hp]; rfl
      rw [cmany_cons (by simp) hs (by simp; omega),
        ih (fun x hx => hb x (by simp [hx])) h2 (hok.imp id fun h x hx => h x (by simp [hx]))]
      simp only [Ignored.addCaps_append, Option.toList_some, List.singleton_append, List.map_cons, List.flatten_cons,
        Prod.mk.injEq, Reader.mk.injEq, and_true, true_and, List.length_append, List.length_cons]
      omega

/-- the first ten octets of an OPEN and its parameters -/
def openOctets (as hold : UInt16) (id : UInt32) (bodies : List Bytes) : Bytes :=
  4 :: (u16be as ++ (u16be hold ++ (u32be id ++ (UInt8.ofNat (paramOctets bodies).length :: paramOctets bodies))))

theorem length_openOctets (as hold : UInt16) (id : UInt32) (bodies : List Bytes) :
    (openOctets as hold id bodies).length = 10 + (paramOctets bodies).length := by
  simp [openOctets]; omega

theorem paramOctets_len {bs : List Bytes} {b : Bytes} (h : b ∈ bs) : b.length ≤ (paramOctets bs).length := by
  induction bs with
  | nil => simp at h
  | cons c bs ih =>
    simp only [paramOctets, List.map_cons, List.flatten_cons, List.length_append, List.length_cons] at ih ⊢
    rcases List.mem_cons.mp h with rfl | h
    · omega
    · have := ih h; omega

theorem run_open {c : MsgCtx} {as hold : UInt16} {id : UInt32} {bs : List Bytes} {o : Nat}
    {ls : List (List (Except CapErr Cap))} (hh : ¬ (hold = 1 ∨ hold = 2)) (hid : badBgpId id = false)
    (hl : (paramOctets bs).length ≤ 255) (h : ParamRuns (o + 10) bs ls)
    (hok : c.failCap = false ∨ ∀ l ∈ ls, errs l = []) (rest : Bytes) (g : Ignored) :
    parseOpen c (⟨openOctets as hold id bs ++ rest, o⟩, g) =
      (.ok ⟨as, hold, id, ls.map oks⟩,
        (⟨rest, o + (openOctets as hold id bs).length⟩, g.addCaps (ls.map errs).flatten)) := by
  have hn : (UInt8.ofNat (paramOctets bs).length).toNat = (paramOctets bs).length := UInt8.toNat_ofNat_le hl
  have hfix := (creads_lift (σ := Ignored) (reads_openFixed (as := as) (UInt8.ofNat (paramOctets bs).length) hh hid)).run
    (paramOctets bs ++ rest) o g
  have hb : openOctets as hold id bs ++ rest =
      4 :: (u16be as ++ (u16be hold ++ (u32be id ++ [UInt8.ofNat (paramOctets bs).length]))) ++ (paramOctets bs ++ rest) := by
    simp [openOctets]
  rw [hb]
  unfold parseOpen
  rw [CParser.bind_ok hfix]
  have hlen : (4 :: (u16be as ++ (u16be hold ++ (u32be id ++ [UInt8.ofNat (paramOctets bs).length])))).length = 10 := by
    simp
  rw [length_openOctets, hlen]
  simp only
  cases bs with
  | nil =>
    cases ls with
    | cons => exact h.elim
    | nil =>
      rw [if_pos (by decide)]
      simp [paramOctets, Ignored.addCaps_nil]
  | cons b bs =>
    rw [if_neg (by
      intro h0
      have := congrArg UInt8.toNat h0
      rw [hn] at this
      simp [paramOctets] at this)]
    rw [CParser.bind_ok (a := ⟨paramOctets (b :: bs), o + 10⟩)
      (s' := (⟨rest, o + 10 + (paramOctets (b :: bs)).length⟩, g)) (by
        rw [lift_run, Parser.mapErr_ok (takeSlice_append hn.symm), hn])]
    have hps := run_params (c := c) (fun x hx => Nat.le_trans (paramOctets_len hx) hl) h hok g
    rw [CParser.bind_ok (a := (ls.map oks, ⟨[], o + 10 + (paramOctets (b :: bs)).length⟩))
      (s' := (⟨rest, o + 10 + (paramOctets (b :: bs)).length⟩, g.addCaps (ls.map errs).flatten)) (by
        unfold CParser.onSub
        rw [CParser.mapErr_run]
        simp only [hps, Res.mapErr])]
    simp [Nat.add_assoc]

/-! ## Inversion -/

theorem param_ok {c : MsgCtx} {r : Reader} {g : Ignored} {p : List Cap} {s : Reader × Ignored}
    (h : parseParam c (r, g) = (.ok p, s)) :
    ∃ (b rest : Bytes) (l : List (Except CapErr Cap)), r.buf = 2 :: UInt8.ofNat b.length :: b ++ rest ∧
      b.length ≤ 255 ∧ CapRun ⟨b, r.offset + 2⟩ l ∧ (c.failCap = false ∨ errs l = []) ∧ s.1 = ⟨rest, r.offset + 2 + b.length⟩ := by
  have h0 := h
  unfold parseParam parseCapParam at h
  obtain ⟨code, s1, h1, h⟩ := CParser.bind_eq_ok h
  obtain ⟨o, s2, h2, h⟩ := CParser.bind_eq_ok h
  obtain ⟨h1, e1⟩ := CParser.lift_eq_ok h1
  obtain ⟨h2, e2⟩ := CParser.lift_eq_ok h2
  rw [Parser.getOffset_eq_ok] at h2
  rw [Parser.mapErr_eq_ok] at h1
  by_cases hc : code = 2
  · rw [if_pos hc] at h
    obtain ⟨c2, s3, h3, h⟩ := CParser.bind_eq_ok h
    obtain ⟨n, s4, h4, h⟩ := CParser.bind_eq_ok h
    obtain ⟨buf, s5, h5, h⟩ := CParser.bind_eq_ok h
    obtain ⟨h3, e3⟩ := CParser.lift_eq_ok h3
    obtain ⟨h4, e4⟩ := CParser.lift_eq_ok h4
    obtain ⟨h5, e5⟩ := CParser.lift_eq_ok h5
    rw [Parser.mapErr_eq_ok, readU8_eq_ok] at h3 h4
    rw [Parser.mapErr_eq_ok, takeSlice_eq_ok] at h5
    have hpk : r.buf.head? = some code ∧ s1.1 = r := by
      obtain ⟨_ | ⟨x, bs⟩, o⟩ := r
      · simp [peekU8] at h1
      · simp only [peekU8, Prod.mk.injEq, Res.ok.injEq] at h1
        exact ⟨by simp [h1.1], h1.2.symm⟩
    obtain ⟨hhead, hs1⟩ := hpk
    rw [hs1] at h2
    obtain ⟨_, hs2⟩ := h2
    rw [← hs2] at h3
    have hcode : c2 = 2 := by
      rw [h3.1] at hhead; simpa [hc] using hhead
    subst hcode
    have hbuf : r.buf = 2 :: n :: buf.buf ++ s5.1.buf := by
      rw [h3.1, h4.1, h5.1]; rfl
    have hn : n = UInt8.ofNat buf.buf.length := by rw [h5.2.1]; simp
    obtain ⟨l, hl⟩ := capRun_exists ⟨buf.buf, r.offset + 2⟩
    have hle : buf.buf.length ≤ 255 := by rw [h5.2.1]; have := n.toNat_lt; omega
    have hoff : buf = ⟨buf.buf, r.offset + 2⟩ := by
      obtain ⟨bb, bo⟩ := buf
      simp only [Reader.mk.injEq, true_and] at h5 ⊢
      omega
    have hmode : c.failCap = false ∨ errs l = [] := by
      cases hf : c.failCap with
      | false => exact .inl rfl
      | true =>
        right
        rcases he : errs l with _ | ⟨e, es⟩
        · rfl
        · exfalso
          obtain ⟨x, s6, h6, _⟩ := CParser.bind_eq_ok h
          obtain ⟨a, sub⟩ := x
          obtain ⟨h6, _⟩ := CParser.onSub_eq_ok h6
          obtain ⟨q, hq⟩ := caps_strict hf hl he s5.2
          rw [hoff, hq] at h6
          simp at h6
    refine ⟨buf.buf, s5.1.buf, l, by rw [hbuf, hn], hle, hl, hmode, ?_⟩
    have hrun := run_param hle hl hmode s5.1.buf g
    obtain ⟨rb, ro⟩ := r
    simp only at hbuf hrun
    subst hbuf
    rw [hn, hrun] at h0
    simp only [Prod.mk.injEq] at h0
    rw [← h0.2]
  · rw [if_neg hc] at h; simp at h

theorem params_ok {c : MsgCtx} {s s' : Reader × Ignored} {ps : List (List Cap)} (h : parseParams c s = (.ok ps, s')) :
    ∃ bs ls, s.1.buf = paramOctets bs ∧ ParamRuns s.1.offset bs ls ∧ (c.failCap = false ∨ ∀ l ∈ ls, errs l = []) := by
  unfold parseParams at h
  refine cmany_ok_induction (Q := fun s _ _ => ∃ bs ls, s.1.buf = paramOctets bs ∧ ParamRuns s.1.offset bs ls ∧
    (c.failCap = false ∨ ∀ l ∈ ls, errs l = [])) (fun s hs => ⟨[], [], by simp [hs, paramOctets], trivial, .inr (by simp)⟩) ?_ h
  intro s a s1 as s2 hb hp _ _ ih
  obtain ⟨bs, ls, h1, h2, h3⟩ := ih
  obtain ⟨p, s3, hp, hq⟩ := CParser.bind_eq_ok hp
  rw [CParser.pure_run] at hq
  simp only [Prod.mk.injEq] at hq
  obtain ⟨b, rest, l, e1, e2, e3, e4, e5⟩ := param_ok hp
  rw [← hq.2, e5] at h1 h2
  simp only at h1
  refine ⟨b :: bs, l :: ls, by rw [e1, h1]; simp [paramOctets], ⟨e3, h2⟩, ?_⟩
  rcases e4 with e4 | e4
  · exact .inl e4
  · rcases h3 with h3 | h3
    · exact .inl h3
    · right
      intro x hx
      rcases List.mem_cons.mp hx with rfl | hx
      · exact e4
      · exact h3 x hx

theorem openFixed_ok {r r' : Reader} {as hold : UInt16} {id : UInt32} {n : UInt8}
    (h : parseOpenFixed r = (.ok (as, hold, id, n), r')) :
    r.buf = 4 :: (u16be as ++ (u16be hold ++ (u32be id ++ n :: r'.buf))) ∧ r'.offset = r.offset + 10 ∧
      ¬ (hold = 1 ∨ hold = 2) ∧ badBgpId id = false := by
  simp only [parseOpenFixed, Parser.bind_eq_ok, Parser.mapErr_eq_ok, Parser.ite_eq_ok, Parser.fail_eq_ok, peekU8_eq_ok,
    readU8_eq_ok, readU16_eq_ok, readU32_eq_ok, Parser.getOffset_eq_ok, peekU16_eq_ok, peekU32_eq_ok, Parser.pure_eq_ok,
    and_false, false_or] at h
  obtain ⟨v, r1, ⟨⟨t, h1⟩, rfl⟩, _, _, ⟨rfl, rfl⟩, hv, v', r2, h2, as', r3, h3, hold', r4, ⟨⟨t2, h4⟩, rfl⟩, _, _, ⟨rfl, rfl⟩,
    hh, hold2, r5, h5, id', r6, ⟨⟨t3, h6⟩, rfl⟩, _, _, ⟨rfl, rfl⟩, hid, id2, r7, h7, n', r8, h8, he, rfl⟩ := h
  simp only [Prod.mk.injEq] at he
  obtain ⟨rfl, rfl, rfl, rfl⟩ := he
  have hv4 : v' = 4 := by
    have := (List.cons.inj (h1.symm.trans h2.1)).1
    rw [← this]; simpa using hv
  have e1 : hold2 = hold' := by
    have := h4.symm.trans h5.1
    have := (List.append_inj' this (by have := congrArg List.length this; simp at this ⊢; omega)).1
    exact (u16be_inj this).symm
  have e2 : id2 = id' := by
    have := h6.symm.trans h7.1
    have := (List.append_inj' this (by have := congrArg List.length this; simp at this ⊢; omega)).1
    exact (u32be_inj this).symm
  subst e1 e2 hv4
  refine ⟨?_, by omega, hh, by simpa using hid⟩
  rw [h2.1, h3.1, h5.1, h7.1, h8.1]

/-- an accepted OPEN has the shape of `run_open` -/
theorem open_ok {c : MsgCtx} {b : Bytes} {o : Nat} {g : Ignored} {m : Open} {s : Reader × Ignored}
    (h : parseOpen c (⟨b, o⟩, g) = (.ok m, s)) :
    ∃ (as hold : UInt16) (id : UInt32) (bs : List Bytes) (ls : List (List (Except CapErr Cap))) (rest : Bytes),
      b = openOctets as hold id bs ++ rest ∧ ¬ (hold = 1 ∨ hold = 2) ∧ badBgpId id = false ∧
      (paramOctets bs).length ≤ 255 ∧ ParamRuns (o + 10) bs ls ∧ (c.failCap = false ∨ ∀ l ∈ ls, errs l = []) := by
  unfold parseOpen at h
  obtain ⟨⟨as, hold, id, n⟩, s1, h1, h⟩ := CParser.bind_eq_ok h
  obtain ⟨h1, e1⟩ := CParser.lift_eq_ok h1
  obtain ⟨hb, ho, hh, hid⟩ := openFixed_ok h1
  simp only at hb ho h
  by_cases hn : n = 0
  · subst hn
    exact ⟨as, hold, id, [], [], s1.1.buf, by simp [hb, openOctets, paramOctets], hh, hid, by simp [paramOctets],
      trivial, .inr (by simp)⟩
  · rw [if_neg hn] at h
    obtain ⟨buf, s2, h2, h⟩ := CParser.bind_eq_ok h
    obtain ⟨h2, e2⟩ := CParser.lift_eq_ok h2
    rw [Parser.mapErr_eq_ok, takeSlice_eq_ok] at h2
    obtain ⟨⟨ps, sub⟩, s3, h3, h⟩ := CParser.bind_eq_ok h
    obtain ⟨h3, _⟩ := CParser.onSub_eq_ok h3
    obtain ⟨bs, ls, f1, f2, f3⟩ := params_ok (CParser.mapErr_eq_ok h3)
    simp only at f1 f2
    have hnn : n = UInt8.ofNat (paramOctets bs).length := by rw [← f1, h2.2.1]; simp
    refine ⟨as, hold, id, bs, ls, s2.1.buf, ?_, hh, hid, ?_, ?_, f3⟩
    · rw [hb, h2.1, f1, hnn]; simp [openOctets]
    · rw [← f1, h2.2.1]; have := n.toNat_lt; omega
    · rw [h2.2.2.1, ho] at f2; exact f2

/-! ## Rejection -/

/-- the reasons of `parseOpenFixed` to fail, with what is at the given place of the input -/
theorem openFixed_err {b : Bytes} {o : Nat} {e : OpenErr} {r' : Reader} (h : parseOpenFixed ⟨b, o⟩ = (.err e, r')) :
    (∃ p, e = .parse p) ∨ (∃ v t, e = .version o v ∧ b = v :: t ∧ v ≠ 4) ∨
    (∃ as hold t, e = .holdTime (o + 1) hold ∧ b = 4 :: (u16be as ++ (u16be hold ++ t)) ∧ (hold = 1 ∨ hold = 2)) ∨
    (∃ as hold id t, e = .bgpId (o + 5) id ∧ b = 4 :: (u16be as ++ (u16be hold ++ (u32be id ++ t))) ∧
      ¬ (hold = 1 ∨ hold = 2) ∧ badBgpId id = true) := by
  simp only [parseOpenFixed, Parser.bind_eq_err, Parser.mapErr_eq_err, Parser.ite_eq_err, Parser.fail_eq_err,
    Parser.getOffset_eq_err, Parser.mapErr_eq_ok, Parser.getOffset_eq_ok, peekU8_eq_ok, peekU16_eq_ok, peekU32_eq_ok,
    readU8_eq_ok, readU16_eq_ok, readU32_eq_ok, Parser.pure_eq_err, false_or, and_false, or_false, exists_false] at h
  rcases h with ⟨p, -, rfl⟩ | ⟨v, r1, ⟨⟨t, h1⟩, rfl⟩, _, _, ⟨rfl, rfl⟩, ⟨hv, rfl, -⟩ | ⟨hv, h⟩⟩
  · exact .inl ⟨p, rfl⟩
  · exact .inr (.inl ⟨v, t, rfl, h1, hv⟩)
  rcases h with ⟨p, -, rfl⟩ | ⟨v', r2, h2, h⟩
  · exact .inl ⟨p, rfl⟩
  rcases h with ⟨p, -, rfl⟩ | ⟨as, r3, h3, h⟩
  · exact .inl ⟨p, rfl⟩
  have hb : b = 4 :: (u16be as ++ r3.buf) := by
    have hv4 : v' = 4 := by
      have := (List.cons.inj (h1.symm.trans h2.1)).1
      rw [← this]; simpa using hv
    rw [show b = _ from h2.1, h3.1, hv4]
  have h2' : r2.offset = o + 1 := h2.2
  rcases h with ⟨p, -, rfl⟩ | ⟨hold, r4, ⟨⟨t2, h4⟩, rfl⟩, _, _, ⟨rfl, rfl⟩, ⟨hh, rfl, -⟩ | ⟨hh, h⟩⟩
  · exact .inl ⟨p, rfl⟩
  · exact .inr (.inr (.inl ⟨as, hold, t2, by rw [show r3.offset - 2 = o + 1 by omega], by rw [hb, h4], hh⟩))
  rcases h with ⟨p, -, rfl⟩ | ⟨hold2, r5, h5, h⟩
  · exact .inl ⟨p, rfl⟩
  have e1 : hold2 = hold := by
    have := h4.symm.trans h5.1
    have := (List.append_inj' this (by have := congrArg List.length this; simp at this ⊢; omega)).1
    exact (u16be_inj this).symm
  subst e1
  rcases h with ⟨p, -, rfl⟩ | ⟨id, r6, ⟨⟨t3, h6⟩, rfl⟩, _, _, ⟨rfl, rfl⟩, ⟨hid, rfl, -⟩ | ⟨hid, h⟩⟩
  · exact .inl ⟨p, rfl⟩
  · exact .inr (.inr (.inr ⟨as, hold2, id, t3, by rw [show r5.offset = o + 5 by omega],
      by rw [hb, h5.1, h6], hh, hid⟩))
  rcases h with ⟨p, -, rfl⟩ | ⟨id2, r7, h7, h⟩
  · exact .inl ⟨p, rfl⟩
  · obtain ⟨p, -, rfl⟩ := h
    exact .inl ⟨p, rfl⟩

/-- an undefined parameter type is reported with its value and place -/
theorem param_err {c : MsgCtx} {r : Reader} {g : Ignored} {s : Reader × Ignored} {off : Nat} {code : UInt8}
    (h : parseParam c (r, g) = (.err (.undefinedType off code), s)) :
    off = r.offset ∧ r.buf.head? = some code ∧ code ≠ 2 := by
  unfold parseParam parseCapParam at h
  rcases CParser.bind_eq_err h with h1 | ⟨x, s1, h1, h⟩
  · obtain ⟨_, _, h5⟩ := Parser.mapErr_eq_err.mp (CParser.lift_eq_err h1).1
    simp at h5
  obtain ⟨h1, e1⟩ := CParser.lift_eq_ok h1
  rw [Parser.mapErr_eq_ok, peekU8_eq_ok] at h1
  obtain ⟨⟨t, h1⟩, h2⟩ := h1
  rcases CParser.bind_eq_err h with h3 | ⟨o, s2, h3, h⟩
  · have := (CParser.lift_eq_err h3).1
    rw [Parser.getOffset_eq_err] at this
    exact this.elim
  obtain ⟨h3, e3⟩ := CParser.lift_eq_ok h3
  rw [Parser.getOffset_eq_ok] at h3
  by_cases hc : x = 2
  · exfalso
    rw [if_pos hc] at h
    rcases CParser.bind_eq_err h with h4 | ⟨_, s3, h4, h⟩
    · obtain ⟨_, _, h5⟩ := Parser.mapErr_eq_err.mp (CParser.lift_eq_err h4).1
      simp at h5
    rcases CParser.bind_eq_err h with h4 | ⟨_, s4, h4, h⟩
    · obtain ⟨_, _, h5⟩ := Parser.mapErr_eq_err.mp (CParser.lift_eq_err h4).1
      simp at h5
    rcases CParser.bind_eq_err h with h4 | ⟨buf, s5, h4, h⟩
    · obtain ⟨_, _, h5⟩ := Parser.mapErr_eq_err.mp (CParser.lift_eq_err h4).1
      simp at h5
    rcases CParser.bind_eq_err h with h4 | ⟨y, s6, h4, h⟩
    · obtain ⟨sub, h5, _⟩ := CParser.onSub_eq_err h4
      obtain ⟨l, hl⟩ := capRun_exists buf
      cases hf : c.failCap with
      | false => rw [caps_lenient hf hl] at h5; simp at h5
      | true =>
        rcases he : errs l with _ | ⟨e, es⟩
        · rw [caps_all_ok c hl he] at h5; simp at h5
        · obtain ⟨q, hq⟩ := caps_strict hf hl he s5.2
          rw [hq] at h5; simp at h5
    · simp at h
  · rw [if_neg hc] at h
    simp only [CParser.fail_run, Prod.mk.injEq, Res.err.injEq, ParamErr.undefinedType.injEq] at h
    obtain ⟨⟨rfl, rfl⟩, _⟩ := h
    simp only at h1 h2 h3
    refine ⟨by rw [← h3.1, ← h2], by rw [h1]; rfl, hc⟩

theorem params_err {c : MsgCtx} {s s' : Reader × Ignored} {off : Nat} {code : UInt8}
    (h : parseParams c s = (.err (.undefinedType off code), s')) :
    ∃ n, off = s.1.offset + n ∧ s.1.buf[n]? = some code ∧ code ≠ 2 := by
  unfold parseParams at h
  refine cmany_err_induction (Q := fun s => ∃ n, off = s.1.offset + n ∧ s.1.buf[n]? = some code ∧ code ≠ 2) ?_ ?_ h
  · intro s hb hp
    rcases CParser.bind_eq_err hp with hp | ⟨_, _, _, hp⟩
    · obtain ⟨h1, h2, h3⟩ := param_err hp
      exact ⟨0, by simpa using h1, by rw [← List.head?_eq_getElem?]; exact h2, h3⟩
    · simp at hp
  · rintro s a s1 hb hp ⟨n, h1, h2, h3⟩
    have hp := (csafe_bind_l (csafe_parseParam c) fun p => csafe_pure (σ := Ignored) (ε := ParamErr) (some p)).out s.1 s.2 |>
      fun h => by rw [show ((s.1, s.2) : Reader × Ignored) = s from rfl, hp] at h; exact h
    obtain ⟨k, hk1, hk2, hk3⟩ := hp
    refine ⟨k + n, ?_, ?_, h3⟩
    · rw [h1, hk3]; simp; omega
    · rw [hk3] at h2
      simpa [List.getElem?_drop] using h2

/-- the reasons of an OPEN to be rejected -/
theorem open_err {c : MsgCtx} {b : Bytes} {o : Nat} {g : Ignored} {e : OpenErr} {s : Reader × Ignored}
    (h : parseOpen c (⟨b, o⟩, g) = (.err e, s)) :
    (∃ p, e = .parse p) ∨ (∃ v t, e = .version o v ∧ b = v :: t ∧ v ≠ 4) ∨
    (∃ as hold t, e = .holdTime (o + 1) hold ∧ b = 4 :: (u16be as ++ (u16be hold ++ t)) ∧ (hold = 1 ∨ hold = 2)) ∨
    (∃ as hold id t, e = .bgpId (o + 5) id ∧ b = 4 :: (u16be as ++ (u16be hold ++ (u32be id ++ t))) ∧
      ¬ (hold = 1 ∨ hold = 2) ∧ badBgpId id = true) ∨
    (∃ p, e = .param (.parse p)) ∨ (∃ x, e = .param (.capability x)) ∨
    (∃ n code, e = .param (.undefinedType (o + n) code) ∧ 10 ≤ n ∧ b[n]? = some code ∧ code ≠ 2) := by
  unfold parseOpen at h
  rcases CParser.bind_eq_err h with h1 | ⟨⟨as, hold, id, n⟩, s1, h1, h⟩
  · rcases openFixed_err (CParser.lift_eq_err h1).1 with h | h | h | h
    · exact .inl h
    · exact .inr (.inl h)
    · exact .inr (.inr (.inl h))
    · exact .inr (.inr (.inr (.inl h)))
  obtain ⟨hb, ho, hh, hid⟩ := openFixed_ok (CParser.lift_eq_ok h1).1
  simp only at h hb ho
  by_cases hn : n = 0
  · rw [if_pos hn] at h; simp at h
  rw [if_neg hn] at h
  rcases CParser.bind_eq_err h with h2 | ⟨buf, s2, h2, h⟩
  · obtain ⟨p, _, rfl⟩ := Parser.mapErr_eq_err.mp (CParser.lift_eq_err h2).1
    exact .inl ⟨p, rfl⟩
  obtain ⟨h2, _⟩ := CParser.lift_eq_ok h2
  rw [Parser.mapErr_eq_ok, takeSlice_eq_ok] at h2
  rcases CParser.bind_eq_err h with h3 | ⟨y, s3, _, h⟩
  · obtain ⟨sub, h3, _⟩ := CParser.onSub_eq_err h3
    obtain ⟨e1, h4, rfl⟩ := CParser.mapErr_eq_err h3
    cases e1 with
    | parse p => exact .inr (.inr (.inr (.inr (.inl ⟨p, rfl⟩))))
    | capability x => exact .inr (.inr (.inr (.inr (.inr (.inl ⟨x, rfl⟩)))))
    | undefinedType off code =>
      obtain ⟨k, k1, k2, k3⟩ := params_err h4
      refine .inr (.inr (.inr (.inr (.inr (.inr ⟨10 + k, code, ?_, by omega, ?_, k3⟩)))))
      · rw [k1]; simp only [h2.2.2.1, ho, Nat.add_assoc]
      · have hpre : b = (4 :: (u16be as ++ (u16be hold ++ (u32be id ++ [n])))) ++ (buf.buf ++ s2.1.buf) := by
          rw [hb, h2.1]; simp
        have hl : (4 :: (u16be as ++ (u16be hold ++ (u32be id ++ [n])))).length = 10 := by simp
        rw [hpre, List.getElem?_append_right (by omega), hl, Nat.add_sub_cancel_left]
        have hk : k < buf.buf.length := by
          rcases Nat.lt_or_ge k buf.buf.length with h | h
          · exact h
          · simp only at k2; rw [List.getElem?_eq_none h] at k2; simp at k2
        rw [List.getElem?_append_left hk]; exact k2
  · simp at h

end Verif.Bgp
