import Verif.Props.C51
/- C52: racing calls that need no new text, on a storage with node 0 too. -/
namespace Semnet.Props
open Spec Sample

/-! As in C51, but the storage may have a node 0.  There racing calls can spoil remarks for good (`C48_node_zero_false`), as
    soon as they add text.  If they do not (`Spec.WarmMoves`), all is well: the goroutines may create stories, add remarks to
    facts, add facts - which no story owns then, but which are there - and ask questions.  Storage calls do not fail;
    processes may die in the middle of calls. -/

/-- Every remark that any goroutine was ever given reads back as promised, by a new process and in every process. -/
theorem C52_remarks_readable {cfg : Cfg} (hord : Steady cfg) {fuel : Nat} {es : List Event} (h : Calm cfg fuel es)
    (hl : (after cfg fuel es).log ≠ []) (home : Nat → Nat) {ts : List Move} (ht : ∀ t ∈ ts, ∀ s ∈ t.texts, s.length < fuel)
    (hw : WarmMoves cfg fuel home (after cfg fuel es) ts) {e : Entry} (he : e ∈ (sharing cfg fuel home es ts).log) :
    Readable cfg fuel (sharing cfg fuel home es ts).log (World.open (sharing cfg fuel home es ts).store) e ∧
    ∀ p, Readable cfg fuel (sharing cfg fuel home es ts).log
      ⟨(sharing cfg fuel home es ts).store, (sharing cfg fuel home es ts).mem p⟩ e := by
  obtain ⟨bs, σ0, σ, hi⟩ := Race.crowd_calm hord h hl home ht hw
  exact ⟨hi.readable h.budget.fits (fun h => by cases h) he, fun p => hi.readable h.budget.fits (hi.mem p) he⟩

/-- No two remarks have the same identifier. -/
theorem C52_remarks_distinct {cfg : Cfg} (hord : Steady cfg) {fuel : Nat} {es : List Event} (h : Calm cfg fuel es)
    (hl : (after cfg fuel es).log ≠ []) (home : Nat → Nat) {ts : List Move} (ht : ∀ t ∈ ts, ∀ s ∈ t.texts, s.length < fuel)
    (hw : WarmMoves cfg fuel home (after cfg fuel es) ts) :
    ((sharing cfg fuel home es ts).log.map fun e => Remark.getIdentifier e.handle).Nodup := by
  obtain ⟨bs, σ0, σ, hi⟩ := Race.crowd_calm hord h hl home ht hw
  exact hi.logs.nodup

/-- Every answer that any goroutine was ever given is the expected one; what was expected when it asked is still expected. -/
theorem C52_answers_right {cfg : Cfg} (hord : Steady cfg) {fuel : Nat} {es : List Event} (h : Calm cfg fuel es)
    (hl : (after cfg fuel es).log ≠ []) (home : Nat → Nat) {ts : List Move} (ht : ∀ t ∈ ts, ∀ s ∈ t.texts, s.length < fuel)
    (hw : WarmMoves cfg fuel home (after cfg fuel es) ts) {x : Heard} (hx : x ∈ (sharing cfg fuel home es ts).heard) :
    x.Right ∧ x.log <+: (sharing cfg fuel home es ts).log := by
  obtain ⟨bs, σ0, σ, hi⟩ := Race.crowd_calm hord h hl home ht hw
  exact hi.heard x hx

/-- A reader that asks about a logged remark is given the expected answers. -/
theorem C52_readers_succeed {cfg : Cfg} (hord : Steady cfg) {fuel : Nat} {es : List Event} (h : Calm cfg fuel es)
    (hl : (after cfg fuel es).log ≠ []) (home : Nat → Nat) {ts : List Move} (ht : ∀ t ∈ ts, ∀ s ∈ t.texts, s.length < fuel)
    (hw : WarmMoves cfg fuel home (after cfg fuel es) ts) {j : Nat} {rd : Asker}
    (hr : (sharing cfg fuel home es ts).readers j = some rd) {e : Entry} (he : e ∈ rd.log)
    (hid : Remark.getIdentifier e.handle = rd.identifier) {as : List Answer} (ha : e.answers rd.log rd.asked = some as) :
    rd.result cfg (sharing cfg fuel home es ts).store ((sharing cfg fuel home es ts).mem (home j)) = .ok as := by
  obtain ⟨bs, σ0, σ, hi⟩ := Race.crowd_calm hord h hl home ht hw
  exact hi.result hr e he hid as ha

/-- So nothing that was there before is lost. -/
theorem C52_nothing_lost {cfg : Cfg} (hord : Steady cfg) {fuel : Nat} {es : List Event} (h : Calm cfg fuel es)
    (hl : (after cfg fuel es).log ≠ []) (home : Nat → Nat) {ts : List Move} (ht : ∀ t ∈ ts, ∀ s ∈ t.texts, s.length < fuel)
    (hw : WarmMoves cfg fuel home (after cfg fuel es) ts) {e : Entry} (he : e ∈ (after cfg fuel es).log) :
    Readable cfg fuel (sharing cfg fuel home es ts).log (World.open (sharing cfg fuel home es ts).store) e :=
  (C52_remarks_readable hord h hl home ht hw ((Race.moves_log cfg fuel home ts (Crowd.start _)).subset he)).1

/-- Whenever a goroutine has come to the end of a call that has a result (`Spec.Call.Due`), it succeeds: a creating call with
    a remark that will be logged, a question with the expected answer. -/
theorem C52_due_calls_succeed {cfg : Cfg} (hord : Steady cfg) {fuel : Nat} {es : List Event} (h : Calm cfg fuel es)
    (hl : (after cfg fuel es).log ≠ []) (home : Nat → Nat) {ts : List Move} (ht : ∀ t ∈ ts, ∀ s ∈ t.texts, s.length < fuel)
    (hw : WarmMoves cfg fuel home (after cfg fuel es) ts) {i : Nat} {b : Begun}
    (hb : (sharing cfg fuel home es ts).cur i = some b) (hd : b.call.Due cfg b.log) {o : Out Yield}
    (ho : Go.end b.prog = some o) :
    (∃ r e, o = .ok (.created r) ∧ b.call.entry (sharing cfg fuel home es ts).log r = some e) ∨
      (∃ a, o = .ok (.answered a) ∧ Heard.Right ⟨b.call, b.log, a⟩) := by
  obtain ⟨bs, σ0, σ, hi⟩ := Race.crowd_calm hord h hl home ht hw
  exact hi.succeeds hb hd ho

/-- No goroutine in the middle of a call, with or without a result, has used up the budget of a loop. -/
theorem C52_never_stuck {cfg : Cfg} (hord : Steady cfg) {fuel : Nat} {es : List Event} (h : Calm cfg fuel es)
    (hl : (after cfg fuel es).log ≠ []) (home : Nat → Nat) {ts : List Move} (ht : ∀ t ∈ ts, ∀ s ∈ t.texts, s.length < fuel)
    (hw : WarmMoves cfg fuel home (after cfg fuel es) ts) {i : Nat} {b : Begun}
    (hb : (sharing cfg fuel home es ts).cur i = some b) : Go.end b.prog ≠ some .spin := by
  obtain ⟨bs, σ0, σ, hi⟩ := Race.crowd_calm hord h hl home ht hw
  exact hi.noSpin hb

/-- An endless run.  A goroutine in the middle of a call that has a result, whose process does not die and which takes
    infinitely many steps, returns from it with the result. -/
theorem C52_due_calls_return {cfg : Cfg} (hord : Steady cfg) {fuel : Nat} {es : List Event} (h : Calm cfg fuel es)
    (hl : (after cfg fuel es).log ≠ []) (home : Nat → Nat) {s : Nat → Move} (ht : ∀ k, ∀ t ∈ (s k).texts, t.length < fuel)
    (hw : WarmRun cfg fuel home (after cfg fuel es) s) {i n : Nat} {b : Begun}
    (hb : ((Crowd.start (after cfg fuel es)).run cfg fuel home s n).cur i = some b) (hd : b.call.Due cfg b.log)
    (hinf : ∀ m, ∃ k, m ≤ k ∧ ∃ f, s k = .step i f) (hd' : ∀ k, n ≤ k → s k ≠ .die (home i)) :
    ∃ k, n ≤ k ∧ ((Crowd.start (after cfg fuel es)).run cfg fuel home s (k + 1)).cur i = none ∧
      ((∃ r e, b.call.entry ((Crowd.start (after cfg fuel es)).run cfg fuel home s k).log r = some e ∧
        ((Crowd.start (after cfg fuel es)).run cfg fuel home s (k + 1)).log =
          ((Crowd.start (after cfg fuel es)).run cfg fuel home s k).log ++ [e]) ∨
      (∃ a, Heard.Right ⟨b.call, b.log, a⟩ ∧
        ((Crowd.start (after cfg fuel es)).run cfg fuel home s (k + 1)).heard =
          ((Crowd.start (after cfg fuel es)).run cfg fuel home s k).heard ++ [⟨b.call, b.log, a⟩])) := by
  refine Race.due_returns ?_ hb hd hinf hd'
  intro k b' o h1 h2 h3
  rw [Race.run_moves] at h1 ⊢
  exact C52_due_calls_succeed hord h hl home (Race.texts_prefix ht k) (Race.warm_prefix hw k) h1 h2 h3

/-! ### a warm race on a storage with node 0 -/

/-- the pair ("0", "1") is found after `esShared` on this storage too -/
theorem shared_familiar_zero : Familiar cfgB fuel (after cfgB fuel esShared).world (bytes "0") (bytes "1") := by
  have : (match Go.look cfgB (Detail.provide fuel (bytes "0") (bytes "1")) (after cfgB fuel esShared).world.store
      (after cfgB fuel esShared).world.mem with
    | some (.ok d, _) => d.remark != 0
    | _ => false) = true := by decide +kernel
  split at this
  · rename_i d m hl; exact ⟨d, m, hl, by simpa using this⟩
  · cases this

/-- Two goroutines of process 0 create a story and add a fact; two of process 1 add a remark and ask; a reader reads.  Then
    process 1 dies, and a goroutine of it adds a remark to the fact that no story owns. -/
def warmZero : List Move :=
  [.begin 0 (.createStory (bytes "0") (bytes "1")), .begin 1 (.addFact 0 (bytes "0") (bytes "1")),
    .begin 2 (.addRemark 0 (bytes "1")), .begin 3 (.query 0 .getStory), .spawn 4 9 [.getObjectAndProperty, .getFirstFact]] ++
  (List.replicate 155 [.step 0 .ok, .step 1 .ok, .step 2 .ok, .step 3 .ok, .read 4]).flatten ++
  (List.replicate 130 [.step 0 .ok, .step 1 .ok, .step 2 .ok]).flatten ++
  [.die 1, .begin 2 (.addRemark 2 (bytes "1"))] ++ List.replicate 290 (.step 2 .ok)

/-- a check that the moves are warm, given that ("0", "1") is familiar -/
def warmCheck (log : List Entry) : Move → Bool
  | .begin _ (.createStory o p) => decide (o = bytes "0" ∧ p = bytes "1")
  | .begin _ (.addRemark h p) => (log[h]?).all (fun e => decide (e.object = bytes "0")) && decide (p = bytes "1")
  | .begin _ (.addFact _ o p) => decide (o = bytes "0" ∧ p = bytes "1")
  | .begin _ (.addChild _ _ _) => false
  | .begin _ (.query h _) => (log[h]?).all (fun e => e.opener.isSome)
  | .step _ .ok => true
  | .step _ _ => false
  | _ => true

def warmChecks (home : Nat → Nat) (y : Crowd) : List Move → Bool
  | [] => true
  | t :: ts => warmCheck y.log t && warmChecks home (y.move cfgB fuel home t) ts

theorem warmCheck_warm {log : List Entry} {t : Move} (h : warmCheck log t = true) :
    t.Warm cfgB fuel (after cfgB fuel esShared).world log := by
  match t with
  | .begin _ (.createStory o p) =>
    obtain ⟨rfl, rfl⟩ := of_decide_eq_true h
    exact shared_familiar_zero
  | .begin _ (.addRemark h' p) =>
    simp only [warmCheck, Bool.and_eq_true, decide_eq_true_eq] at h
    obtain ⟨h1, rfl⟩ := h
    intro e he
    rw [he] at h1
    have : e.object = bytes "0" := by simpa using h1
    rw [this]
    exact shared_familiar_zero
  | .begin _ (.addFact _ o p) =>
    obtain ⟨rfl, rfl⟩ := of_decide_eq_true h
    exact ⟨rfl, shared_familiar_zero⟩
  | .begin _ (.addChild _ _ _) => cases h
  | .begin _ (.query h' q) =>
    intro _ _ e he ho
    simp only [warmCheck] at h
    rw [he] at h
    simp [ho] at h
  | .begin _ (.getRemark _) => trivial
  | .step _ .ok => rfl
  | .step _ .fail => cases h
  | .step _ .failLate => cases h
  | .die _ => trivial
  | .spawn _ _ _ => trivial
  | .read _ => trivial

theorem warmChecks_warm {home : Nat → Nat} : ∀ (ts : List Move) (y : Crowd), warmChecks home y ts = true →
    ∀ ts1 t ts2, ts = ts1 ++ t :: ts2 → t.Warm cfgB fuel (after cfgB fuel esShared).world (y.moves cfgB fuel home ts1).log := by
  intro ts
  induction ts with
  | nil => intro y _ ts1 t ts2 e; simp at e
  | cons a ts ih =>
    intro y h ts1 t ts2 e
    simp only [warmChecks, Bool.and_eq_true] at h
    cases ts1 with
    | nil =>
      obtain ⟨rfl, _⟩ := List.cons.inj e
      exact warmCheck_warm h.1
    | cons b ts1 =>
      obtain ⟨rfl, e'⟩ := List.cons.inj e
      exact ih _ h.2 ts1 t ts2 e'

example : Steady cfgB := fun _ _ _ _ => rfl

/-- it is warm -/
example : WarmMoves cfgB fuel (· / 2) (after cfgB fuel esShared) warmZero :=
  warmChecks_warm warmZero (Crowd.start (after cfgB fuel esShared)) (by decide +kernel)

example : ∀ t ∈ warmZero, ∀ s ∈ t.texts, s.length < fuel := by decide +kernel

/-- What comes of it: four remarks, two of them in facts that no story owns; an answer; a reader's answers. -/
example : (sharing cfgB fuel (· / 2) esShared warmZero).log.map (fun e => (e.object, e.property, e.opener)) =
      [(bytes "0", bytes "1", some 0), (bytes "a", bytes "b", some 1), (bytes "0", bytes "1", none),
        (bytes "0", bytes "1", some 3), (bytes "0", bytes "1", some 0), (bytes "0", bytes "1", none)] := by
  decide +kernel

example : (sharing cfgB fuel (· / 2) esShared warmZero).heard.map (·.answer) = [.text (bytes "0 1 ")] ∧
    ((sharing cfgB fuel (· / 2) esShared warmZero).readers 4).map (fun rd => Go.end rd.prog) =
      some (some (.ok [.pair (bytes "0") (bytes "1"), .remark ⟨9, 10, 11, 12⟩])) := by
  decide +kernel

/-- an endless warm run -/
def zeroForever : Nat → Move
  | 0 => .begin 0 (.createStory (bytes "0") (bytes "1"))
  | 1 => .begin 1 (.addFact 0 (bytes "0") (bytes "1"))
  | n + 2 => .step (n % 2) .ok

example : WarmRun cfgB fuel one (after cfgB fuel esShared) zeroForever := by
  intro n
  match n with
  | 0 => exact shared_familiar_zero
  | 1 => exact ⟨rfl, shared_familiar_zero⟩
  | n + 2 => rfl

/-- One goroutine creates a story about the familiar pair while another one stores a text that is new. -/
def newTextZero : List Move :=
  [.begin 0 (.createStory (bytes "0") (bytes "1")), .begin 1 (.createStory (bytes "`") (bytes "0"))] ++
  List.replicate 210 (.step 1 .ok) ++ List.replicate 210 (.step 0 .ok)

/-- If somebody adds text the claim is FALSE here too: both calls fail.  (Worse can happen: `C48_node_zero_false`.) -/
theorem C52_new_text_false : Familiar cfgB fuel (after cfgB fuel esShared).world (bytes "0") (bytes "1") ∧
    (∀ i, i < 2 → ((sharing cfgB fuel one esShared newTextZero).cur i).isNone = true) ∧
    (sharing cfgB fuel one esShared newTextZero).log.length = (after cfgB fuel esShared).log.length :=
  ⟨shared_familiar_zero, by decide +kernel, by decide +kernel⟩

end Semnet.Props
