import Verif.Props.C48
/- C49: any number of goroutines sharing one `Graph`. -/
namespace Semnet.Props
open Spec Sample

/-! As in C48, but the `i`-th thread and the `i`-th reader are goroutines of the process `home i`; the goroutines of a process
    share its `Graph`, i.e. its bit layer (`bit/layer.go:9-15`), which they read and write without any lock. -/

/-- the crowd after the moves `ts` -/
abbrev sharing (cfg : Cfg) (fuel : Nat) (home : Nat → Nat) (es : List Event) (ts : List Move) : Crowd :=
  (Crowd.start (after cfg fuel es)).moves cfg fuel home ts

/-- Every remark that any goroutine was ever given reads back as promised, by a new process and in every process of the
    crowd; and the remark that opened its story is logged. -/
theorem C49_remarks_readable {cfg : Cfg} (hz : cfg.zero = false) {fuel : Nat} {es es' : List Event}
    (h : Stormy cfg fuel es es') (home : Nat → Nat) {ts : List Move} (ht : ∀ t ∈ ts, ∀ s ∈ t.texts, s.length < fuel) {e : Entry}
    (he : e ∈ (sharing cfg fuel home (es ++ es') ts).log) :
    Readable cfg fuel (sharing cfg fuel home (es ++ es') ts).log (World.open (sharing cfg fuel home (es ++ es') ts).store) e ∧
    (∀ p, Readable cfg fuel (sharing cfg fuel home (es ++ es') ts).log
      ⟨(sharing cfg fuel home (es ++ es') ts).store, (sharing cfg fuel home (es ++ es') ts).mem p⟩ e) ∧
    ∃ i e', e.opener = some i ∧ (sharing cfg fuel home (es ++ es') ts).log[i]? = some e' := by
  obtain ⟨bs, σ, hi⟩ := Race.crowd_inv hz h home ht
  obtain ⟨i, e', h1, h2⟩ := hi.opener hz he
  exact ⟨hi.readable h.budget.fits (fun h => by cases h) he, fun p => hi.readable h.budget.fits (hi.mem p) he,
    i, e', h1, h2⟩

/-- No two remarks have the same identifier. -/
theorem C49_remarks_distinct {cfg : Cfg} (hz : cfg.zero = false) {fuel : Nat} {es es' : List Event}
    (h : Stormy cfg fuel es es') (home : Nat → Nat) {ts : List Move} (ht : ∀ t ∈ ts, ∀ s ∈ t.texts, s.length < fuel) :
    ((sharing cfg fuel home (es ++ es') ts).log.map fun e => Remark.getIdentifier e.handle).Nodup := by
  obtain ⟨bs, σ, hi⟩ := Race.crowd_inv hz h home ht
  exact hi.logs.nodup

/-- Every answer that any goroutine was ever given is the expected one; what was expected when it asked is still expected. -/
theorem C49_answers_right {cfg : Cfg} (hz : cfg.zero = false) {fuel : Nat} {es es' : List Event}
    (h : Stormy cfg fuel es es') (home : Nat → Nat) {ts : List Move} (ht : ∀ t ∈ ts, ∀ s ∈ t.texts, s.length < fuel) {x : Heard}
    (hx : x ∈ (sharing cfg fuel home (es ++ es') ts).heard) : x.Right ∧ x.log <+: (sharing cfg fuel home (es ++ es') ts).log := by
  obtain ⟨bs, σ, hi⟩ := Race.crowd_inv hz h home ht
  exact hi.heard x hx

/-- A goroutine that asks about a logged remark, and whose own storage calls do not fail, is given the expected answers. -/
theorem C49_readers_succeed {cfg : Cfg} (hz : cfg.zero = false) {fuel : Nat} {es es' : List Event}
    (h : Stormy cfg fuel es es') (home : Nat → Nat) {ts : List Move} (ht : ∀ t ∈ ts, ∀ s ∈ t.texts, s.length < fuel) {j : Nat}
    {rd : Asker} (hr : (sharing cfg fuel home (es ++ es') ts).readers j = some rd) {e : Entry} (he : e ∈ rd.log)
    (hid : Remark.getIdentifier e.handle = rd.identifier) {as : List Answer} (ha : e.answers rd.log rd.asked = some as) :
    rd.result cfg (sharing cfg fuel home (es ++ es') ts).store ((sharing cfg fuel home (es ++ es') ts).mem (home j)) =
      .ok as := by
  obtain ⟨bs, σ, hi⟩ := Race.crowd_inv hz h home ht
  exact hi.result hr e he hid as ha

/-- So nothing that was there before is lost: the earlier remarks are readable too. -/
theorem C49_nothing_lost {cfg : Cfg} (hz : cfg.zero = false) {fuel : Nat} {es es' : List Event}
    (h : Stormy cfg fuel es es') (home : Nat → Nat) {ts : List Move} (ht : ∀ t ∈ ts, ∀ s ∈ t.texts, s.length < fuel) {e : Entry}
    (he : e ∈ (after cfg fuel (es ++ es')).log) :
    Readable cfg fuel (sharing cfg fuel home (es ++ es') ts).log (World.open (sharing cfg fuel home (es ++ es') ts).store) e :=
  (C49_remarks_readable hz h home ht ((Race.moves_log cfg fuel home ts (Crowd.start _)).subset he)).1

/-! ### goroutines of one process -/

/-- everybody is in process 0 -/
abbrev one : Nat → Nat := fun _ => 0

/-- The process is started anew.  Its two goroutines and its reader find the bit layer empty and fill it at the same time. -/
def refill : List Move :=
  [.die 0, .begin 0 (.createStory (bytes "1") (bytes "0")), .begin 1 (.addRemark 0 (bytes "1")),
    .spawn 2 9 [.getObjectAndProperty, .getFirstFact]] ++
  (List.replicate 360 [.step 0 .ok, .step 1 .ok, .read 2]).flatten

example : ∀ t ∈ refill, ∀ s ∈ t.texts, s.length < fuel := by decide +kernel

example : (sharing cfgA fuel one (esShared ++ []) refill).log.map (fun e => (e.object, e.property, e.opener)) =
      [(bytes "0", bytes "1", some 0), (bytes "a", bytes "b", some 1), (bytes "1", bytes "0", some 2),
        (bytes "0", bytes "1", some 0)] ∧
    ((sharing cfgA fuel one (esShared ++ []) refill).readers 2).map (fun rd => Go.end rd.prog) =
      some (some (.ok [.pair (bytes "0") (bytes "1"), .remark ⟨9, 11, 12, 13⟩])) := by
  decide +kernel

/-- Two goroutines perform the very first calls.  The first is interrupted when it has found that there are no bits. -/
def firsts : List Move :=
  [.begin 0 (.createStory (bytes "0") (bytes "1")), .begin 1 (.createStory (bytes "1") (bytes "0"))] ++
  List.replicate 27 (.step 0 .ok) ++ List.replicate 350 (.step 1 .ok) ++ List.replicate 350 (.step 0 .ok)

/-- Before the first call has returned the claim is FALSE: both calls succeed; there are four bits then; the process cannot
    read the first remark, and no new process can read any remark. -/
theorem C49_first_calls_false : (sharing cfgA fuel one [] firsts).log.length = 2 ∧
    (∃ e ∈ (sharing cfgA fuel one [] firsts).log, ¬ Readable cfgA fuel (sharing cfgA fuel one [] firsts).log
      ⟨(sharing cfgA fuel one [] firsts).store, (sharing cfgA fuel one [] firsts).mem 0⟩ e) ∧
    ∀ e ∈ (sharing cfgA fuel one [] firsts).log, ¬ Readable cfgA fuel (sharing cfgA fuel one [] firsts).log
      (World.open (sharing cfgA fuel one [] firsts).store) e := by
  have no : ∀ w e, succeeds ((Query.ask fuel e.handle .getObjectAndProperty).exec cfgA w) = false →
      ¬ Readable cfgA fuel (sharing cfgA fuel one [] firsts).log w e := by
    intro w e h hr
    obtain ⟨w', hw⟩ := hr.ask .getObjectAndProperty _ rfl
    rw [hw] at h
    cases h
  have k1 : ((sharing cfgA fuel one [] firsts).log.any fun e =>
      !succeeds ((Query.ask fuel e.handle .getObjectAndProperty).exec cfgA
        ⟨(sharing cfgA fuel one [] firsts).store, (sharing cfgA fuel one [] firsts).mem 0⟩)) = true := by decide +kernel
  have k2 : ((sharing cfgA fuel one [] firsts).log.all fun e =>
      !succeeds ((Query.ask fuel e.handle .getObjectAndProperty).exec cfgA
        (World.open (sharing cfgA fuel one [] firsts).store))) = true := by decide +kernel
  refine ⟨by decide +kernel, ?_, ?_⟩
  · obtain ⟨e, he, h⟩ := List.any_eq_true.1 k1
    exact ⟨e, he, no _ e (by simpa using h)⟩
  · intro e he
    exact no _ e (by simpa using List.all_eq_true.1 k2 e he)

end Semnet.Props
