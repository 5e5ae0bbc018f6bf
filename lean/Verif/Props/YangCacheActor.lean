import Verif.YangPush.CacheFetch
import Verif.Props.YangCache
/-!
# The actor of the cache of YANG libraries: C134 to C137
-/
namespace Verif.Props
open Verif.YangPush Verif.YangPush.Notif Verif.Collector
open Verif.YangPush.Cache (Honest HonestEvent Lossless NoPanic Orderly Queued NoDrops Brought Failed Wanted Fitting asked told Job FetchResult)

variable {A X S : Type} [DecidableEq A] [DecidableEq X] [DecidableEq S]

namespace YangDemo

abbrev CacheEvent := Cache.Event Nat Nat Nat

/-- a subscription that `1` and `2` ask for and that is brought to both, another that `2` asks for by number, with a description that a worker finds, and a third that fails -/
def cacheEvents : List CacheEvent :=
  [.lookupInfo (info 1 50 7 10) 1 true, .lookupInfo (info 1 51 7 10) 2 true, .lookupId ⟨100, 9000⟩ none ⟨2, 50⟩ 8 2 true, .lookupInfo (info 3 50 9 10) 1 true,
    .ended (.info (info 1 50 7 10)) (some (.fetched (info 1 50 7 10) (libraryOf "x") schemasOf)),
    .ended (.id ⟨100, 9000⟩ none ⟨2, 50⟩ 8) (some (.fetched (info 2 50 8 10) (libraryOf "y") schemasOf)),
    .lookupInfo (info 2 52 8 10) 1 true, .lookupContent "x" 3,
    .ended (.info (info 3 50 9 10)) (some (.failed (info 3 50 9 10)))]

theorem cacheEvents_honest : ∀ e ∈ cacheEvents, HonestEvent e := by
  intro e he
  simp only [cacheEvents, List.mem_cons, List.not_mem_nil, or_false] at he
  rcases he with rfl | rfl | rfl | rfl | rfl | rfl | rfl | rfl | rfl <;> simp [HonestEvent, Honest] <;> decide

theorem cacheEvents_lossless (s : Nat) : ∀ e ∈ cacheEvents, Lossless s e := by
  intro e he
  simp only [cacheEvents, List.mem_cons, List.not_mem_nil, or_false] at he
  rcases he with rfl | rfl | rfl | rfl | rfl | rfl | rfl | rfl | rfl <;> simp [Lossless]

theorem cacheEvents_noPanic : ∀ e ∈ cacheEvents, NoPanic e := by
  intro e he
  simp only [cacheEvents, List.mem_cons, List.not_mem_nil, or_false] at he
  rcases he with rfl | rfl | rfl | rfl | rfl | rfl | rfl | rfl | rfl <;> simp [NoPanic]

theorem cacheEvents_orderly : ∀ e ∈ cacheEvents, Orderly e := by
  intro e he
  simp only [cacheEvents, List.mem_cons, List.not_mem_nil, or_false] at he
  rcases he with rfl | rfl | rfl | rfl | rfl | rfl | rfl | rfl | rfl <;> simp [Orderly] <;> decide

/-- a cache that has nothing -/
def fresh : Cache.State Nat Nat Nat := .start .empty []

end YangDemo

/-! ## C134: every lookup is answered -/

/-- **C134**, in part: nobody is answered more often than they ask, and if workers are started in time, and one who asks neither asks by number over a one-shot channel nor is
closed, then once the workers are done, and none of them panicked, they are answered as often as they asked. -/
theorem c134_answered_partial (c : LibCache A X) (d : Disk A X) (es : List (Cache.Event A X S)) (s : S) :
    told s (YangPush.Cache.run (.start c d) es).2 ≤ asked s es ∧
    ((∀ e ∈ es, HonestEvent e) → (∀ e ∈ es, NoPanic e) → (∀ e ∈ es, Lossless s e) → (YangPush.Cache.run (.start c d) es).1.workers = [] →
      told s (YangPush.Cache.run (.start c d) es).2 = asked s es) := by
  have hu : Uniq (Cache.State.start c d : Cache.State A X S).pending := List.Pairwise.nil
  obtain ⟨h1, h2⟩ := YangPush.Cache.run_balance s hu es
  have hz : Cache.waits s (Cache.State.start c d : Cache.State A X S).pending = 0 := rfl
  refine ⟨by omega, fun hh hn hl hw => ?_⟩
  have h3 := h2 hl
  have hserved : Cache.Served (Cache.State.start c d : Cache.State A X S) := fun k hk => absurd rfl hk
  have hs := YangPush.Cache.run_served hserved hu hh hn
  have : Cache.waits s (YangPush.Cache.run (Cache.State.start c d) es).1.pending = 0 := by
    apply Classical.byContradiction
    intro hne
    obtain ⟨k, hk⟩ := Cache.waits_pos (YangPush.Cache.run_uniq hu es) hne
    obtain ⟨job, hj, _⟩ := hs k hk
    rw [hw] at hj
    cases hj
  omega

example : (∀ e ∈ YangDemo.cacheEvents, HonestEvent e) ∧ (∀ e ∈ YangDemo.cacheEvents, NoPanic e) ∧ (∀ e ∈ YangDemo.cacheEvents, Lossless 1 e) ∧
    (YangPush.Cache.run YangDemo.fresh YangDemo.cacheEvents).1.workers = [] ∧ told 1 (YangPush.Cache.run YangDemo.fresh YangDemo.cacheEvents).2 = 3 ∧
    told 2 (YangPush.Cache.run YangDemo.fresh YangDemo.cacheEvents).2 = 2 :=
  ⟨YangDemo.cacheEvents_honest, YangDemo.cacheEvents_noPanic, YangDemo.cacheEvents_lossless 1, by decide +kernel, by decide +kernel, by decide +kernel⟩

/-- **C134** fails when a worker panics: those who wait for it are never answered, nor are those who ask later, as somebody waits already and no other worker is started,
whoever asks. -/
theorem c134_answered_disproved :
    ∃ (job : Job Nat Nat) (i : SubInfo Nat Nat), ∀ later : List Nat,
      let es : List YangDemo.CacheEvent := [.lookupInfo i 0 true, .ended job none] ++ later.map fun s => .lookupInfo i s true
      (YangPush.Cache.run YangDemo.fresh es).1.workers = [] ∧ ∀ s, told s (YangPush.Cache.run YangDemo.fresh es).2 = 0 := by
  refine ⟨.info (YangDemo.info 1 50 7 10), YangDemo.info 1 50 7 10, fun later => ?_⟩
  have hgen : ∀ (c : Cache.State Nat Nat Nat), c.store = .empty → c.workers = [] → (c.pending.look (YangDemo.info 1 50 7 10).ident).getD [] ≠ [] →
      (YangPush.Cache.run c (later.map fun s => .lookupInfo (YangDemo.info 1 50 7 10) s true)).1.workers = [] ∧
      (YangPush.Cache.run c (later.map fun s => .lookupInfo (YangDemo.info 1 50 7 10) s true)).2 = [] := by
    induction later with
    | nil => exact fun c _ hw _ => ⟨hw, rfl⟩
    | cons s later ih =>
      intro c hs hw hp
      have hstep : Cache.step c (.lookupInfo (YangDemo.info 1 50 7 10) s true) =
          ({ c with pending := put c.pending (YangDemo.info 1 50 7 10).ident ((c.pending.look (YangDemo.info 1 50 7 10).ident).getD [] ++ [s]) }, []) := by
        simp only [Cache.step, hs]
        have : (LibCache.empty : LibCache Nat Nat).getInfo (YangDemo.info 1 50 7 10) = none := rfl
        rw [this]
        simp only [Cache.enqueue, Job.key]
        rw [if_neg (by simpa using hp), hs]
      simp only [List.map_cons, YangPush.Cache.run, hstep, List.nil_append]
      exact ih _ hs hw (by simp [lookup_put])
  have := hgen ⟨.empty, [], [((YangDemo.info 1 50 7 10).ident, [0])], []⟩ rfl rfl (by simp [List.look])
  refine ⟨this.1, fun s => ?_⟩
  show told s ([.fetch (.info (YangDemo.info 1 50 7 10))] ++ ([] ++ (YangPush.Cache.run ⟨.empty, [], [((YangDemo.info 1 50 7 10).ident, [0])], []⟩
    (later.map fun s => .lookupInfo (YangDemo.info 1 50 7 10) s true)).2)) = 0
  rw [this.2]
  rfl

/-- **C134** fails also for a lookup by number over a one-shot channel, even though a worker brings what it asks for, and when a worker cannot be started in time. -/
theorem c134_once_disproved :
    (∃ r, Honest (.id ⟨100, 9000⟩ none ⟨1, 50⟩ 7) r ∧ let es : List YangDemo.CacheEvent := [.lookupIdOnce ⟨100, 9000⟩ none ⟨1, 50⟩ 7 1 r]
      (YangPush.Cache.run YangDemo.fresh es).1.workers = [] ∧ asked 1 es = 1 ∧ told 1 (YangPush.Cache.run YangDemo.fresh es).2 = 0 ∧
      ((YangPush.Cache.run YangDemo.fresh es).1.store.getId 1 7).isSome) ∧
    let es : List YangDemo.CacheEvent := [.lookupInfo (YangDemo.info 1 50 7 10) 1 false]
    (YangPush.Cache.run YangDemo.fresh es).1.workers = [] ∧ asked 1 es = 1 ∧ told 1 (YangPush.Cache.run YangDemo.fresh es).2 = 0 := by
  refine ⟨⟨.fetched (YangDemo.info 1 50 7 10) (YangDemo.libraryOf "x") YangDemo.schemasOf, ⟨by decide, by decide, by decide, by decide⟩, ?_⟩, ?_⟩ <;> decide +kernel

/-! ## C135: a library is fetched once -/

/-- **C135**, in part, for caches that nothing is removed from, if nobody is removed as closed, one-shot lookups do not fail and those who ask with a description have one: a
worker is started for a subscription only if there is none at work for it, except for one-shot lookups. Once an answer with a library has been given, no worker is started for a
description that is alike, whatever happens. -/
theorem c135_once_partial {h : List (StoreOp A X)} {c : LibCache A X} {d : Disk A X} (hr : Reach h c d) :
    (NoDrops h → ∀ (es : List (Cache.Event A X S)) (e : Cache.Event A X S), (∀ x ∈ es ++ [e], Orderly x) → (∀ x ∈ es ++ [e], HonestEvent x) → Queued e → ∀ job,
      .fetch job ∈ (Cache.step (YangPush.Cache.run (.start c d) es).1 e).2 → ∀ other ∈ (YangPush.Cache.run (.start c d) es).1.workers, other.key ≠ job.key) ∧
    ∀ (es later : List (Cache.Event A X S)) s resp, .answer s resp ∈ (YangPush.Cache.run (.start c d) es).2 → resp.library.isSome → ∀ i, Alike i resp.info →
      .fetch (.info i) ∉ (YangPush.Cache.run (YangPush.Cache.run (.start c d) es).1 later).2 := by
  refine ⟨fun hn es e ho hh hq job hf other hm hk => ?_, fun es later s resp hm hl i hi => ?_⟩
  · have hstart : Cache.OneAtATime (Cache.State.start c d : Cache.State A X S) :=
      ⟨⟨h, hr, hn⟩, fun i hi => (by cases hi), fun j hj => (by cases hj), fun k => by simp [Cache.State.start]⟩
    have h1 := Cache.run_one hstart (es := es) (fun x hx => ho x (by simp [hx])) (fun x hx => hh x (by simp [hx]))
    have h2 := (Cache.step_one h1 (ho e (by simp)) (hh e (by simp))).single job.key
    rw [Cache.step_starts hq hf, List.countP_append] at h2
    have : 0 < (YangPush.Cache.run (Cache.State.start c d) es).1.workers.countP (fun j => j.key = job.key) := List.countP_pos_iff.mpr ⟨other, hm, by simp [hk]⟩
    rw [List.countP_singleton, if_pos (by simp)] at h2
    omega
  · have h1 := YangPush.Cache.run_stored (S := S) ⟨h, hr⟩ es s resp hm hl
    exact (YangPush.Cache.run_keeps later h1).2 i ((Cache.alike_ident _ _).mp hi)

example : NoDrops ([] : List (StoreOp Nat Nat)) ∧ (∀ e ∈ YangDemo.cacheEvents, Orderly e) ∧ (∀ e ∈ YangDemo.cacheEvents, HonestEvent e) ∧
    (YangPush.Cache.run YangDemo.fresh YangDemo.cacheEvents).2.filterMap (fun o => match o with | .fetch j => some j | _ => none) =
      [.info (YangDemo.info 1 50 7 10), .id ⟨100, 9000⟩ none ⟨2, 50⟩ 8, .info (YangDemo.info 3 50 9 10)] :=
  ⟨⟨by simp, by simp⟩, YangDemo.cacheEvents_orderly, YangDemo.cacheEvents_honest, by decide +kernel⟩

/-- **C135** fails when one who waits is removed as closed while a worker is at work for it: another worker is started for the next one. -/
theorem c135_once_disproved :
    let es : List YangDemo.CacheEvent := [.lookupInfo (YangDemo.info 1 50 7 10) 1 true, .cleanup [1], .lookupInfo (YangDemo.info 1 50 7 10) 2 true]
    (∀ e ∈ es, HonestEvent e) ∧ (YangPush.Cache.run YangDemo.fresh es).1.workers = [.info (YangDemo.info 1 50 7 10), .info (YangDemo.info 1 50 7 10)] := by
  refine ⟨?_, by decide +kernel⟩
  intro e he
  simp only [List.mem_cons, List.not_mem_nil, or_false] at he
  rcases he with rfl | rfl | rfl <;> trivial

/-- **C135** fails for one-shot lookups: they ask a device although a worker is at work for the same subscription, and when they fail those who wait for that worker are told so. -/
theorem c135_oneShot_disproved :
    let i := YangDemo.info 1 50 7 10
    let es : List YangDemo.CacheEvent := [.lookupInfo i 1 true, .lookupInfoOnce i 2 (.failed i), .lookupInfo i 3 true]
    (∀ e ∈ es, HonestEvent e) ∧ (YangPush.Cache.run YangDemo.fresh es).1.workers = [.info i, .info i] ∧
      (YangPush.Cache.run YangDemo.fresh es).2 = [.fetch (.info i), .fetch (.info i), .answer 1 ⟨none, i, none⟩, .answer 2 ⟨none, i, none⟩, .fetch (.info i)] := by
  refine ⟨?_, by decide +kernel, by decide +kernel⟩
  intro e he
  simp only [List.mem_cons, List.not_mem_nil, or_false] at he
  rcases he with rfl | rfl | rfl <;> simp [HonestEvent, Honest]

/-! ## C136: answers fit what is asked -/

/-- **C136**, for caches that nothing is removed from, as the actor removes nothing: all answers are to those who asked and about what they asked for; a library they have was
brought for a description that is alike, and has the content identifier the answer has; and those without one are given only if a worker failed. -/
theorem c136_fitting {h : List (StoreOp A X)} {c : LibCache A X} {d : Disk A X} (hr : Reach h c d) (hn : NoDrops h) {es : List (Cache.Event A X S)}
    (hh : ∀ e ∈ es, HonestEvent e) : ∀ o ∈ (YangPush.Cache.run (.start c d) es).2, Fitting h es o := by
  have ha : Cache.Answers h [] (Cache.State.start c d : Cache.State A X S) := ⟨⟨h, hr, hn, fun i l s hm => .inl hm⟩, fun k s hs => by simp [Cache.State.start] at hs⟩
  have := (Cache.run_answers (before := []) (c := Cache.State.start c d) List.Pairwise.nil ha hh).2
  simpa using this

example : (∀ e ∈ YangDemo.cacheEvents, HonestEvent e) ∧
    (YangPush.Cache.run YangDemo.fresh YangDemo.cacheEvents).2.filterMap (fun o => match o with | .answer s r => some (s, r.contentId) | .content s k r => some (s, r.map fun _ => k) | _ => none) =
      [(1, some "x"), (2, some "x"), (2, some "y"), (1, some "y"), (3, some "x"), (1, none)] :=
  ⟨YangDemo.cacheEvents_honest, by decide +kernel⟩

/-! ## C137: what a notification is validated with -/

/-- **C137**: in a collector whose validation is answered by the cache, a notification that is forwarded with a content identifier is valid against schemas that are loaded from a
library of that content identifier, which was brought for a description that is alike the one the notification is forwarded with. -/
theorem c137_validated {P C : Type} {h : List (StoreOp A X)} {c : LibCache A X} {d : Disk A X} (hr : Reach h c d) (hn : NoDrops h) {es : List (Cache.Event A X S)}
    (hh : ∀ e ∈ es, HonestEvent e) (env : Env X P Ref C) (vs : List (YangPush.Event A X P Ref)) (v : YangPush.Event A X P Ref)
    (hresp : ∀ resp, .response resp ∈ vs ++ [v] → ∃ s, .answer s resp ∈ (YangPush.Cache.run (.start c d) es).2) {contentId : String} {info : SubInfo A X} {dec : Decoded X}
    (hf : .forward (some contentId) info dec ∈ sentWith env vs v) :
    ∃ r ref ctx i l schemas, .packet r ∈ vs ++ [v] ∧ env.decode r.packet = some dec ∧ r.peer.ip = info.peer.ip ∧ ref.contentId = contentId ∧ env.load ref = some ctx ∧
      (if dec.legacy then env.parseOp ctx r.packet else env.parse ctx r.packet) = true ∧ Brought h es i l schemas ∧ Alike i info ∧ l.contentId = contentId := by
  obtain ⟨r, resp, hp, hd, habout, hlast, hcid, halike, ⟨ref, ctx, hlib, hload, hval⟩, _⟩ := c120_validated env vs v hf
  obtain ⟨before, after, hes, _, _⟩ := hlast
  obtain ⟨s, hs⟩ := hresp resp (by rw [hes]; simp)
  obtain ⟨_, hc, _, hb⟩ := c136_fitting hr hn hh _ hs
  obtain ⟨i, l, schemas, hbr, hi, hl⟩ := hb ref hlib
  rw [hlib, hcid] at hc
  simp only [Option.map_some, Option.some.injEq] at hc
  exact ⟨r, ref, ctx, i, l, schemas, hp, hd, habout.1, hc.symm, hload, hval, hbr,
    (Cache.alike_ident _ _).mpr (((Cache.alike_ident _ _).mp hi).trans ((Cache.alike_ident _ _).mp halike)), hl.trans hc.symm⟩

namespace YangDemo

/-- payloads are valid if they are the length of the content identifier of the library -/
def refEnv : Env Nat (Decoded Nat) Ref Nat where
  decode p := some p
  load r := some r.contentId.length
  parse c p := p.json == c
  parseOp c p := p.json == c + 1
  maxPeer := 10
  maxSub := 10

end YangDemo

example :
    let i := YangDemo.info 1 50 7 10
    let vs : List (YangPush.Event Nat Nat (Decoded Nat) Ref) := [.packet (YangDemo.from_ 1 50 (YangDemo.started 1 7 10)), .response ⟨some "x", i, some ⟨"x", "x"⟩⟩]
    (∃ s, .answer s ⟨some "x", i, some ⟨"x", "x"⟩⟩ ∈ (YangPush.Cache.run YangDemo.fresh YangDemo.cacheEvents).2) ∧
    sentWith YangDemo.refEnv vs (.packet (YangDemo.from_ 1 50 (YangDemo.update 2 1 7))) = [.forward (some "x") i (YangDemo.update 2 1 7)] :=
  ⟨⟨1, by decide +kernel⟩, by decide +kernel⟩

end Verif.Props
