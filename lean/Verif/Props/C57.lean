import Verif.Proof.RaceMoodyWarm
import Verif.Proof.Known
import Verif.Props.C52
import Verif.Props.C55
/- C57: racing calls that need no new text, on a storage that lists edges in another order at every call. -/
namespace Semnet.Props
open Spec Sample

/-! C51 and C52 without their assumption that the storage lists the same things in the same order (`Spec.Steady`).  As in C54
    and C55 every storage call, during the history, during the race and when the results are read, is answered by a storage
    of its own, which may list edges in another order and consume another number of identifiers.  The storage holds a remark
    (`Spec.Settled`), with node 0 or without.  The goroutines create remarks about pairs that were found before they started,
    whatever the order (`Spec.FamiliarMoods`), and ask questions.  Storage calls do not fail; processes may die in the middle
    of calls. -/

/-- Every remark that any goroutine was ever given reads back as promised, in whatever mood, by a new process and in every
    process of the crowd. -/
theorem C57_remarks_readable {cfg : Cfg} {fuel : Nat} {es : List ((Nat → Cfg) × Event)} (h : Settled cfg fuel es)
    (home : Nat → Nat) {ts : List (Cfg × Move)} (hd : ∀ t ∈ ts, t.1.dup = cfg.dup)
    (ht : ∀ t ∈ ts, ∀ s ∈ t.2.texts, s.length < fuel) (hw : WarmFeel cfg fuel home (moodily cfg fuel es) ts) {e : Entry}
    (he : e ∈ (moodyCrowd cfg fuel home es ts).log) :
    ReadableMoods cfg fuel (moodyCrowd cfg fuel home es ts).log (World.open (moodyCrowd cfg fuel home es ts).store) e ∧
    ∀ p, ReadableMoods cfg fuel (moodyCrowd cfg fuel home es ts).log
      ⟨(moodyCrowd cfg fuel home es ts).store, (moodyCrowd cfg fuel home es ts).mem p⟩ e := by
  obtain ⟨bs, σ0, σ, hi⟩ := Race.crowd_moodyWarm h home hd ht hw
  exact ⟨hi.readableAny h.fits (fun h => by cases h) he, fun p => hi.readableAny h.fits (hi.mem p) he⟩

/-- No two remarks have the same identifier. -/
theorem C57_remarks_distinct {cfg : Cfg} {fuel : Nat} {es : List ((Nat → Cfg) × Event)} (h : Settled cfg fuel es)
    (home : Nat → Nat) {ts : List (Cfg × Move)} (hd : ∀ t ∈ ts, t.1.dup = cfg.dup)
    (ht : ∀ t ∈ ts, ∀ s ∈ t.2.texts, s.length < fuel) (hw : WarmFeel cfg fuel home (moodily cfg fuel es) ts) :
    ((moodyCrowd cfg fuel home es ts).log.map fun e => Remark.getIdentifier e.handle).Nodup := by
  obtain ⟨bs, σ0, σ, hi⟩ := Race.crowd_moodyWarm h home hd ht hw
  exact hi.logs.nodup

/-- Every answer that any goroutine was ever given is the expected one; what was expected when it asked is still expected. -/
theorem C57_answers_right {cfg : Cfg} {fuel : Nat} {es : List ((Nat → Cfg) × Event)} (h : Settled cfg fuel es)
    (home : Nat → Nat) {ts : List (Cfg × Move)} (hd : ∀ t ∈ ts, t.1.dup = cfg.dup)
    (ht : ∀ t ∈ ts, ∀ s ∈ t.2.texts, s.length < fuel) (hw : WarmFeel cfg fuel home (moodily cfg fuel es) ts) {x : Heard}
    (hx : x ∈ (moodyCrowd cfg fuel home es ts).heard) : x.Right ∧ x.log <+: (moodyCrowd cfg fuel home es ts).log := by
  obtain ⟨bs, σ0, σ, hi⟩ := Race.crowd_moodyWarm h home hd ht hw
  exact hi.heard x hx

/-- A reader that asks about a logged remark is given the expected answers, whatever the mood in which it goes on. -/
theorem C57_readers_succeed {cfg : Cfg} {fuel : Nat} {es : List ((Nat → Cfg) × Event)} (h : Settled cfg fuel es)
    (home : Nat → Nat) {ts : List (Cfg × Move)} (hd : ∀ t ∈ ts, t.1.dup = cfg.dup)
    (ht : ∀ t ∈ ts, ∀ s ∈ t.2.texts, s.length < fuel) (hw : WarmFeel cfg fuel home (moodily cfg fuel es) ts) {j : Nat}
    {rd : Asker} (hr : (moodyCrowd cfg fuel home es ts).readers j = some rd) {e : Entry} (he : e ∈ rd.log)
    (hid : Remark.getIdentifier e.handle = rd.identifier) {as : List Answer} (ha : e.answers rd.log rd.asked = some as)
    {g : Nat → Cfg} (hg : Suits cfg g) :
    rd.results g (moodyCrowd cfg fuel home es ts).store ((moodyCrowd cfg fuel home es ts).mem (home j)) = .ok as := by
  obtain ⟨bs, σ0, σ, hi⟩ := Race.crowd_moodyWarm h home hd ht hw
  exact hi.resultsWarm hr hg e he hid as ha

/-- So nothing that was there before is lost. -/
theorem C57_nothing_lost {cfg : Cfg} {fuel : Nat} {es : List ((Nat → Cfg) × Event)} (h : Settled cfg fuel es)
    (home : Nat → Nat) {ts : List (Cfg × Move)} (hd : ∀ t ∈ ts, t.1.dup = cfg.dup)
    (ht : ∀ t ∈ ts, ∀ s ∈ t.2.texts, s.length < fuel) (hw : WarmFeel cfg fuel home (moodily cfg fuel es) ts) {e : Entry}
    (he : e ∈ (moodily cfg fuel es).log) :
    ReadableMoods cfg fuel (moodyCrowd cfg fuel home es ts).log (World.open (moodyCrowd cfg fuel home es ts).store) e :=
  (C57_remarks_readable h home hd ht hw ((Race.feel_log fuel home ts (Crowd.start _)).subset he)).1

/-- Whenever a goroutine has come to the end of a call that has a result (`Spec.Call.Due`), it succeeds: a creating call with
    a remark that will be logged, a question with the expected answer.  No error, no panic, no endless loop. -/
theorem C57_due_calls_succeed {cfg : Cfg} {fuel : Nat} {es : List ((Nat → Cfg) × Event)} (h : Settled cfg fuel es)
    (home : Nat → Nat) {ts : List (Cfg × Move)} (hd : ∀ t ∈ ts, t.1.dup = cfg.dup)
    (ht : ∀ t ∈ ts, ∀ s ∈ t.2.texts, s.length < fuel) (hw : WarmFeel cfg fuel home (moodily cfg fuel es) ts) {i : Nat}
    {b : Begun} (hb : (moodyCrowd cfg fuel home es ts).cur i = some b) (hdue : b.call.Due cfg b.log) {o : Out Yield}
    (ho : Go.end b.prog = some o) :
    (∃ r e, o = .ok (.created r) ∧ b.call.entry (moodyCrowd cfg fuel home es ts).log r = some e) ∨
      (∃ a, o = .ok (.answered a) ∧ Heard.Right ⟨b.call, b.log, a⟩) := by
  obtain ⟨bs, σ0, σ, hi⟩ := Race.crowd_moodyWarm h home hd ht hw
  exact hi.succeeds hb hdue ho

/-- No goroutine in the middle of a call, with or without a result, has used up the budget of a loop. -/
theorem C57_never_stuck {cfg : Cfg} {fuel : Nat} {es : List ((Nat → Cfg) × Event)} (h : Settled cfg fuel es)
    (home : Nat → Nat) {ts : List (Cfg × Move)} (hd : ∀ t ∈ ts, t.1.dup = cfg.dup)
    (ht : ∀ t ∈ ts, ∀ s ∈ t.2.texts, s.length < fuel) (hw : WarmFeel cfg fuel home (moodily cfg fuel es) ts) {i : Nat}
    {b : Begun} (hb : (moodyCrowd cfg fuel home es ts).cur i = some b) : Go.end b.prog ≠ some .spin := by
  obtain ⟨bs, σ0, σ, hi⟩ := Race.crowd_moodyWarm h home hd ht hw
  exact hi.noSpin hb

/-- An endless run.  A goroutine in the middle of a call that has a result, whose process does not die and which takes
    infinitely many steps, returns from it with the result, however the order of the lists changes. -/
theorem C57_due_calls_return {cfg : Cfg} {fuel : Nat} {es : List ((Nat → Cfg) × Event)} (h : Settled cfg fuel es)
    (home : Nat → Nat) {s : Nat → Cfg × Move} (hm : ∀ k, (s k).1.dup = cfg.dup)
    (ht : ∀ k, ∀ t ∈ (s k).2.texts, t.length < fuel) (hw : WarmFeels cfg fuel home (moodily cfg fuel es) s) {i n : Nat}
    {b : Begun} (hb : ((Crowd.start (moodily cfg fuel es)).feels fuel home s n).cur i = some b) (hd : b.call.Due cfg b.log)
    (hinf : ∀ m, ∃ k, m ≤ k ∧ ∃ f, (s k).2 = .step i f) (hl : ∀ k, n ≤ k → (s k).2 ≠ .die (home i)) :
    ∃ k, n ≤ k ∧ ((Crowd.start (moodily cfg fuel es)).feels fuel home s (k + 1)).cur i = none ∧
      ((∃ r e, b.call.entry ((Crowd.start (moodily cfg fuel es)).feels fuel home s k).log r = some e ∧
        ((Crowd.start (moodily cfg fuel es)).feels fuel home s (k + 1)).log =
          ((Crowd.start (moodily cfg fuel es)).feels fuel home s k).log ++ [e]) ∨
      (∃ a, Heard.Right ⟨b.call, b.log, a⟩ ∧
        ((Crowd.start (moodily cfg fuel es)).feels fuel home s (k + 1)).heard =
          ((Crowd.start (moodily cfg fuel es)).feels fuel home s k).heard ++ [⟨b.call, b.log, a⟩])) := by
  refine Race.due_returnsM ?_ hb hinf hl
  intro k b' o h1 e1 e2 h3
  rw [Race.feels_feel] at h1 ⊢
  exact C57_due_calls_succeed h home
    (by intro t htt; obtain ⟨j, _, rfl⟩ := List.mem_map.1 htt; exact hm j)
    (by intro t htt; obtain ⟨j, _, rfl⟩ := List.mem_map.1 htt; exact ht j) (Race.warm_prefixM hw k) h1
    (by rw [e1, e2]; exact hd) h3

/-! ### which pairs are found -/

/-- After a history of commands in whatever moods, looking up a pair of texts ends in the same way in every mood: with the
    same detail, with the same error, with a panic, or at the first write. -/
theorem C57_lookup_ignores_moods {cfg : Cfg} {fuel : Nat} {es : List ((Nat → Cfg) × Cmd)}
    (h : CalmMoods cfg fuel (es.map fun e => (e.1, e.2.event)))
    (hl : (moodily cfg fuel (es.map fun e => (e.1, e.2.event))).log ≠ []) (o p : List Char) {g g' : Nat → Cfg}
    (hg : Suits cfg g) (hg' : Suits cfg g') :
    (Go.looks g (Detail.provide fuel (utf8 o) (utf8 p))
      (moodily cfg fuel (es.map fun e => (e.1, e.2.event))).world.store
      (moodily cfg fuel (es.map fun e => (e.1, e.2.event))).world.mem).map Prod.fst =
    (Go.looks g' (Detail.provide fuel (utf8 o) (utf8 p))
      (moodily cfg fuel (es.map fun e => (e.1, e.2.event))).world.store
      (moodily cfg fuel (es.map fun e => (e.1, e.2.event))).world.mem).map Prod.fst := by
  obtain ⟨r, hr⟩ := lookup_moodless h hl o p
  rw [hr g hg, hr g' hg']

/-- So a pair that is found in one mood is found in all. -/
theorem C57_familiar_once {cfg : Cfg} {fuel : Nat} {es : List ((Nat → Cfg) × Cmd)}
    (h : CalmMoods cfg fuel (es.map fun e => (e.1, e.2.event)))
    (hl : (moodily cfg fuel (es.map fun e => (e.1, e.2.event))).log ≠ []) {o p : List Char}
    (hf : Familiar cfg fuel (moodily cfg fuel (es.map fun e => (e.1, e.2.event))).world (utf8 o) (utf8 p)) :
    FamiliarMoods cfg fuel (moodily cfg fuel (es.map fun e => (e.1, e.2.event))).world (utf8 o) (utf8 p) := by
  intro g hg
  obtain ⟨d, m, h1, h2⟩ := hf
  have := C57_lookup_ignores_moods h hl o p hg (g' := fun _ => cfg) fun _ => rfl
  rw [Race.looks_const, h1] at this
  obtain ⟨⟨o', m'⟩, h3, h4⟩ := Option.map_eq_some_iff.1 this
  cases h4
  exact ⟨d, m', h3, h2⟩

/-! ### warm races in changing moods -/

/-- `esShared` as commands -/
def sharedCmds : List Cmd := [.createStory ['0'] ['1'], .createStory ['a'] ['b']]

theorem shared_cmds (cfg : Cfg) :
    (sharedCmds.map fun c => ((fun _ => cfg : Nat → Cfg), c)).map (fun e => (e.1, e.2.event)) =
      esShared.map fun e => (fun _ => cfg, e) := by
  simp only [sharedCmds, esShared, List.map_cons, List.map_nil, Cmd.event, Cmd.call]
  rw [show utf8 ['0'] = bytes "0" by rw [utf8_bytes], show utf8 ['1'] = bytes "1" by rw [utf8_bytes],
    show utf8 ['a'] = bytes "a" by rw [utf8_bytes], show utf8 ['b'] = bytes "b" by rw [utf8_bytes]]
  rfl

theorem shared_settled {cfg : Cfg} (hc : Calm cfg fuel esShared) (hl : (after cfg fuel esShared).log ≠ []) :
    CalmMoods cfg fuel (esShared.map fun e => (fun _ => cfg, e)) ∧
    (moodily cfg fuel (esShared.map fun e => (fun _ => cfg, e))).log ≠ [] := by
  refine ⟨⟨?_, ?_⟩, by rw [C54_ordinary]; exact hl⟩
  · rw [List.map_map]
    have : Prod.snd ∘ (fun e : Event => ((fun _ => cfg : Nat → Cfg), e)) = id := rfl
    rw [this, List.map_id]
    exact hc
  · intro e he
    obtain ⟨_, _, rfl⟩ := List.mem_map.1 he
    exact fun _ => rfl

theorem shared_moods {cfg : Cfg} (hc : Calm cfg fuel esShared) (hl : (after cfg fuel esShared).log ≠ [])
    (hf : Familiar cfg fuel (after cfg fuel esShared).world (bytes "0") (bytes "1")) :
    FamiliarMoods cfg fuel (after cfg fuel esShared).world (bytes "0") (bytes "1") := by
  have h := shared_settled hc hl
  have e0 : utf8 ['0'] = bytes "0" := by rw [utf8_bytes]
  have e1 : utf8 ['1'] = bytes "1" := by rw [utf8_bytes]
  have := C57_familiar_once (cfg := cfg) (fuel := fuel) (es := sharedCmds.map fun c => (fun _ => cfg, c)) (o := ['0']) (p := ['1'])
  rw [shared_cmds, C54_ordinary, e0, e1] at this
  exact this h.1 (by rw [C54_ordinary] at h; exact h.2) hf

/-- no AddFact begins here -/
def noFact : Move → Bool
  | .begin _ (.addFact _ _ _) => false
  | _ => true

/-- a check that the moves are warm, given that ("0", "1") is familiar (`warmCheck` of C52) -/
def moodChecks (zero : Bool) (home : Nat → Nat) (y : Crowd) : List (Cfg × Move) → Bool
  | [] => true
  | t :: ts => warmCheck y.log t.2 && (zero || noFact t.2) &&
      moodChecks zero home (y.move t.1 fuel home t.2) ts

theorem warmCheck_moods {cfg : Cfg} {w : World} (hf : FamiliarMoods cfg fuel w (bytes "0") (bytes "1")) {log : List Entry}
    {t : Move} (h : warmCheck log t = true)
    (hz : (cfg.zero || noFact t) = true) :
    t.WarmBy cfg (FamiliarMoods cfg fuel w) log := by
  match t with
  | .begin _ (.createStory o p) =>
    obtain ⟨rfl, rfl⟩ := of_decide_eq_true h
    exact hf
  | .begin _ (.addRemark h' p) =>
    simp only [warmCheck, Bool.and_eq_true, decide_eq_true_eq] at h
    obtain ⟨h1, rfl⟩ := h
    intro e he
    rw [he] at h1
    have : e.object = bytes "0" := by simpa using h1
    rw [this]
    exact hf
  | .begin _ (.addFact _ o p) =>
    obtain ⟨rfl, rfl⟩ := of_decide_eq_true h
    exact ⟨by simpa [noFact] using hz, hf⟩
  | .begin _ (.addChild _ _ _) => cases h
  | .begin _ (.query h' q) =>
    intro _ _ e he ho
    simp only [warmCheck] at h
    rw [he] at h
    simp [ho] at h
  | .begin _ (.getRemark _) => trivial
  | .step _ .ok => rfl
  | .step _ .fail => cases h
  | .step _ .failLate => cases h
  | .die _ => trivial
  | .spawn _ _ _ => trivial
  | .read _ => trivial

theorem moodChecks_warm {cfg : Cfg} {w : World} (hf : FamiliarMoods cfg fuel w (bytes "0") (bytes "1")) {home : Nat → Nat} :
    ∀ (ts : List (Cfg × Move)) (y : Crowd), moodChecks cfg.zero home y ts = true →
    ∀ ts1 t ts2, ts = ts1 ++ t :: ts2 → t.2.WarmBy cfg (FamiliarMoods cfg fuel w) (y.feel fuel home ts1).log := by
  intro ts
  induction ts with
  | nil => intro y _ ts1 t ts2 e; simp at e
  | cons a ts ih =>
    intro y h ts1 t ts2 e
    simp only [moodChecks, Bool.and_eq_true] at h
    cases ts1 with
    | nil =>
      obtain ⟨rfl, _⟩ := List.cons.inj e
      exact warmCheck_moods hf h.1.1 h.1.2
    | cons b ts1 =>
      obtain ⟨rfl, e'⟩ := List.cons.inj e
      exact ih _ h.2 ts1 t ts2 e'

theorem calm_shared {cfg : Cfg} (h : cfg.dup = .ignore) : Calm cfg fuel esShared :=
  ⟨h, ⟨by decide, by decide +kernel⟩, by simp [esShared, call, Event.Calm]⟩

theorem shared_logged : (after cfgA fuel esShared).log ≠ [] ∧ (after cfgB fuel esShared).log ≠ [] := by decide +kernel

/-- the pair ("0", "1") is found after `esShared` in whatever mood, without node 0 and with it -/
theorem shared_familiar_moods : FamiliarMoods cfgA fuel (after cfgA fuel esShared).world (bytes "0") (bytes "1") ∧
    FamiliarMoods cfgB fuel (after cfgB fuel esShared).world (bytes "0") (bytes "1") :=
  ⟨shared_moods (calm_shared rfl) shared_logged.1 (by have := shared_familiar; rwa [List.append_nil] at this),
    shared_moods (calm_shared rfl) shared_logged.2 shared_familiar_zero⟩

/-- the hypotheses hold of the race of C51, the lists being turned round all the time -/
example : Settled cfgA fuel (esShared.map fun e => (fun _ => cfgA, e)) ∧ (∀ t ∈ whims warmRace, t.1.dup = cfgA.dup) ∧
    (∀ t ∈ whims warmRace, ∀ s ∈ t.2.texts, s.length < fuel) ∧
    WarmFeel cfgA fuel (· / 2) (moodily cfgA fuel (esShared.map fun e => (fun _ => cfgA, e))) (whims warmRace) := by
  refine ⟨.inr (shared_settled (calm_shared rfl) shared_logged.1), whims_suit _, whims_texts (by decide +kernel), ?_⟩
  rw [C54_ordinary]
  exact moodChecks_warm shared_familiar_moods.1 _ _ (by decide +kernel)

/-- what comes of it -/
example : ((Crowd.start (after cfgA fuel esShared)).feel fuel (· / 2) (whims warmRace)).log.map
      (fun e => (e.object, e.property, e.opener)) =
    [(bytes "0", bytes "1", some 0), (bytes "a", bytes "b", some 1), (bytes "0", bytes "1", some 2),
      (bytes "0", bytes "1", some 0)] := by
  decide +kernel

/-- One goroutine adds a fact while another one creates a story. -/
def factRace : List Move :=
  [.begin 0 (.addFact 0 (bytes "0") (bytes "1")), .begin 1 (.createStory (bytes "0") (bytes "1"))] ++
  (List.replicate 220 [.step 0 .ok, .step 1 .ok]).flatten

/-- and of this race on the storage with node 0 -/
example : Settled cfgB fuel (esShared.map fun e => (fun _ => cfgB, e)) ∧ (∀ t ∈ whims factRace, t.1.dup = cfgB.dup) ∧
    (∀ t ∈ whims factRace, ∀ s ∈ t.2.texts, s.length < fuel) ∧
    WarmFeel cfgB fuel (· / 2) (moodily cfgB fuel (esShared.map fun e => (fun _ => cfgB, e))) (whims factRace) := by
  refine ⟨.inr (shared_settled (calm_shared rfl) shared_logged.2), whims_suit _, whims_texts (by decide +kernel), ?_⟩
  rw [C54_ordinary]
  exact moodChecks_warm shared_familiar_moods.2 _ _ (by decide +kernel)

example : ((Crowd.start (after cfgB fuel esShared)).feel fuel (· / 2) (whims factRace)).log.map
      (fun e => (e.object, e.property, e.opener)) =
    [(bytes "0", bytes "1", some 0), (bytes "a", bytes "b", some 1), (bytes "0", bytes "1", none),
      (bytes "0", bytes "1", some 3)] := by
  decide +kernel

/-- an endless warm run in changing moods -/
example : WarmFeels cfgB fuel one (moodily cfgB fuel (esShared.map fun e => (fun _ => cfgB, e)))
    (fun n => (fickle (n % 4), zeroForever n)) := by
  rw [C54_ordinary]
  intro n
  match n with
  | 0 => exact shared_familiar_moods.2
  | 1 => exact ⟨rfl, shared_familiar_moods.2⟩
  | n + 2 => rfl

end Semnet.Props
