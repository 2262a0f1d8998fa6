import Verif.Proof.RaceLive
import Verif.Props.C49
/- C50: racing calls end, whatever the others do. -/
namespace Semnet.Props
open Spec Sample

/-! The setting of C49: goroutines of any number of processes, on a storage that has no node 0 and holds a remark. -/

/-- An endless run.  A goroutine in the middle of a call, whose process does not die, needs nothing but to be allowed to
    run: if it takes infinitely many steps - whatever the others do, whether they go on or stop in the middle of their calls -
    then it returns from the call, and not because a loop used up its budget. -/
theorem C50_wait_free {cfg : Cfg} (hz : cfg.zero = false) {fuel : Nat} {es es' : List Event} (h : Stormy cfg fuel es es')
    (home : Nat → Nat) {s : Nat → Move} (ht : ∀ k, ∀ t ∈ (s k).texts, t.length < fuel) {i n : Nat} {b : Begun}
    (hb : ((Crowd.start (after cfg fuel (es ++ es'))).run cfg fuel home s n).cur i = some b)
    (hinf : ∀ m, ∃ k, m ≤ k ∧ ∃ f, s k = .step i f) (hd : ∀ k, n ≤ k → s k ≠ .die (home i)) :
    ∃ k b' o, n ≤ k ∧ ((Crowd.start (after cfg fuel (es ++ es'))).run cfg fuel home s k).cur i = some b' ∧
      b'.call = b.call ∧ b'.log = b.log ∧ o ≠ .spin ∧
      (Crowd.start (after cfg fuel (es ++ es'))).run cfg fuel home s (k + 1) =
        ((Crowd.start (after cfg fuel (es ++ es'))).run cfg fuel home s k).return i b' o := by
  obtain ⟨k, b', o, h1, h2, h3, h4, h5, h6⟩ := Race.returns hinf b.prog b n rfl hb hd
  refine ⟨k, b', o, h1, h2, h3, h4, ?_, h6⟩
  rw [Race.run_moves] at h2
  obtain ⟨bs, σ, hi⟩ := Race.crowd_inv hz h home (ts := (List.range k).map s) (by
    intro t htt
    obtain ⟨j, _, rfl⟩ := List.mem_map.1 htt
    exact ht j)
  intro ho
  subst ho
  exact hi.noSpin h2 h5

/-- No goroutine in the middle of a call has used up the budget of a loop. -/
theorem C50_never_stuck {cfg : Cfg} (hz : cfg.zero = false) {fuel : Nat} {es es' : List Event} (h : Stormy cfg fuel es es')
    (home : Nat → Nat) {ts : List Move} (ht : ∀ t ∈ ts, ∀ s ∈ t.texts, s.length < fuel) {i : Nat} {b : Begun}
    (hb : (sharing cfg fuel home (es ++ es') ts).cur i = some b) : Go.end b.prog ≠ some .spin := by
  obtain ⟨bs, σ, hi⟩ := Race.crowd_inv hz h home ht
  exact hi.noSpin hb

/-- So the budget is immaterial: with any larger one the same calls return the same results and leave the same storage,
    as they would with the unbounded loops of the code. -/
theorem C50_budget_is_immaterial {cfg : Cfg} (hz : cfg.zero = false) {fuel fuel' : Nat} (hf : fuel ≤ fuel')
    {es es' : List Event} (h : Stormy cfg fuel es es') (home : Nat → Nat) {ts : List Move}
    (ht : ∀ t ∈ ts, ∀ s ∈ t.texts, s.length < fuel) (hs : ∀ t ∈ ts, ∀ j i qs, t ≠ .spawn j i qs) :
    ((Crowd.start (after cfg fuel (es ++ es'))).moves cfg fuel' home ts).store =
      (sharing cfg fuel home (es ++ es') ts).store ∧
    ((Crowd.start (after cfg fuel (es ++ es'))).moves cfg fuel' home ts).log =
      (sharing cfg fuel home (es ++ es') ts).log ∧
    ((Crowd.start (after cfg fuel (es ++ es'))).moves cfg fuel' home ts).heard =
      (sharing cfg fuel home (es ++ es') ts).heard := by
  obtain ⟨bs, σ, hi⟩ := Race.crowd_inv hz h home (ts := []) (by simp)
  have := Race.Alike.moves hz rfl hf h.budget.fits (home := home) ts hi (Race.Alike.start _)
    (fun t htt s hs => .std (ht t htt s hs)) hs
  exact ⟨this.store, this.log, this.heard⟩

/-! ### an endless run -/

/-- Two goroutines take turns for ever, in the middle of their calls from the third move on. -/
def forever : Nat → Move
  | 0 => .begin 0 (.createStory (bytes "1") (bytes "0"))
  | 1 => .begin 1 (.query 0 .getStory)
  | n + 2 => .step (n % 2) .ok

example : ∀ k, ∀ t ∈ (forever k).texts, t.length < fuel := by
  intro k
  match k with
  | 0 => decide
  | 1 => decide
  | n + 2 => exact fun t ht => by cases ht

example : ∀ m, ∃ k, m ≤ k ∧ ∃ f, forever k = .step 1 f := by
  intro m
  refine ⟨2 * m + 3, by omega, .ok, ?_⟩
  show Move.step ((2 * m + 1) % 2) Fate.ok = _
  rw [show (2 * m + 1) % 2 = 1 by omega]

example : ∀ k, forever k ≠ .die 0 := by
  intro k
  match k with
  | 0 => exact fun h => by cases h
  | 1 => exact fun h => by cases h
  | n + 2 => exact fun h => by cases h

/-- the second goroutine is in the middle of its call -/
example : (((Crowd.start (after cfgA fuel (esShared ++ []))).run cfgA fuel one forever 2).cur 1).map (·.call) =
    some (.query 0 .getStory) := by
  decide +kernel

/-- a budget that is too small is used up -/
example : ((((Crowd.start (after cfgA fuel esShared)).moves cfgA 3 one
    ([.begin 0 (.query 0 .getObjectAndProperty)] ++ List.replicate 210 (.step 0 .ok))).heard).length = 0) ∧
    ((((Crowd.start (after cfgA fuel esShared)).moves cfgA 31 one
    ([.begin 0 (.query 0 .getObjectAndProperty)] ++ List.replicate 210 (.step 0 .ok))).heard).length = 1) := by
  decide +kernel

end Semnet.Props
