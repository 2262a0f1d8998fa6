import Verif.Proof.RaceWarm
import Verif.Props.C50
/- C51: racing calls that do not need new text all succeed. -/
namespace Semnet.Props
open Spec Sample

/-! The setting of C49 and C50, with storage calls that do not fail.  The goroutines create remarks about texts that were stored
    and can be found before they started (`Spec.Familiar`), and ask questions; the storage lists the same things in the same
    order (`Spec.Steady`); processes may die in the middle of calls. -/

/-- Whenever a goroutine has come to the end of a call that has a result (`Spec.Call.Due`), it succeeds: a creating call with
    a remark that will be logged, a question with the expected answer.  No error, no panic, no endless loop. -/
theorem C51_due_calls_succeed {cfg : Cfg} (hord : Steady cfg) (hz : cfg.zero = false) {fuel : Nat} {es es' : List Event}
    (h : Stormy cfg fuel es es') (home : Nat → Nat) {ts : List Move} (ht : ∀ t ∈ ts, ∀ s ∈ t.texts, s.length < fuel)
    (hw : WarmMoves cfg fuel home (after cfg fuel (es ++ es')) ts) {i : Nat} {b : Begun}
    (hb : (sharing cfg fuel home (es ++ es') ts).cur i = some b) (hd : b.call.Due cfg b.log) {o : Out Yield}
    (ho : Go.end b.prog = some o) :
    (∃ r e, o = .ok (.created r) ∧ b.call.entry (sharing cfg fuel home (es ++ es') ts).log r = some e) ∨
      (∃ a, o = .ok (.answered a) ∧ Heard.Right ⟨b.call, b.log, a⟩) := by
  obtain ⟨bs, σ0, σ, hi⟩ := Race.crowd_warm hord hz h home ht hw
  exact hi.succeeds hb hd ho

/-- An endless run.  A goroutine in the middle of a call that has a result, whose process does not die and which takes
    infinitely many steps, returns from it with the result: the log grows by the entry of the new remark, or the goroutine
    hears the expected answer. -/
theorem C51_due_calls_return {cfg : Cfg} (hord : Steady cfg) (hz : cfg.zero = false) {fuel : Nat} {es es' : List Event}
    (h : Stormy cfg fuel es es') (home : Nat → Nat) {s : Nat → Move} (ht : ∀ k, ∀ t ∈ (s k).texts, t.length < fuel)
    (hw : WarmRun cfg fuel home (after cfg fuel (es ++ es')) s) {i n : Nat} {b : Begun}
    (hb : ((Crowd.start (after cfg fuel (es ++ es'))).run cfg fuel home s n).cur i = some b) (hd : b.call.Due cfg b.log)
    (hinf : ∀ m, ∃ k, m ≤ k ∧ ∃ f, s k = .step i f) (hl : ∀ k, n ≤ k → s k ≠ .die (home i)) :
    ∃ k, n ≤ k ∧ ((Crowd.start (after cfg fuel (es ++ es'))).run cfg fuel home s (k + 1)).cur i = none ∧
      ((∃ r e, b.call.entry ((Crowd.start (after cfg fuel (es ++ es'))).run cfg fuel home s k).log r = some e ∧
        ((Crowd.start (after cfg fuel (es ++ es'))).run cfg fuel home s (k + 1)).log =
          ((Crowd.start (after cfg fuel (es ++ es'))).run cfg fuel home s k).log ++ [e]) ∨
      (∃ a, Heard.Right ⟨b.call, b.log, a⟩ ∧
        ((Crowd.start (after cfg fuel (es ++ es'))).run cfg fuel home s (k + 1)).heard =
          ((Crowd.start (after cfg fuel (es ++ es'))).run cfg fuel home s k).heard ++ [⟨b.call, b.log, a⟩])) := by
  refine Race.due_returns ?_ hb hd hinf hl
  intro k b' o h1 h2 h3
  rw [Race.run_moves] at h1 ⊢
  exact C51_due_calls_succeed hord hz h home (Race.texts_prefix ht k) (Race.warm_prefix hw k) h1 h2 h3

/-! ### a warm race -/

/-- the pair ("0", "1") is found after `esShared` -/
theorem shared_familiar : Familiar cfgA fuel (after cfgA fuel (esShared ++ [])).world (bytes "0") (bytes "1") := by
  have : (match Go.look cfgA (Detail.provide fuel (bytes "0") (bytes "1")) (after cfgA fuel (esShared ++ [])).world.store
      (after cfgA fuel (esShared ++ [])).world.mem with
    | some (.ok d, _) => d.remark != 0
    | _ => false) = true := by decide +kernel
  split at this
  · rename_i d m hl; exact ⟨d, m, hl, by simpa using this⟩
  · cases this

/-- Two goroutines of process 0 and one of process 1 take turns; process 1 dies on the way. -/
def warmRace : List Move :=
  [.begin 0 (.createStory (bytes "0") (bytes "1")), .begin 1 (.addRemark 0 (bytes "1")), .begin 2 (.query 0 .getStory)] ++
  (List.replicate 30 [.step 0 .ok, .step 1 .ok, .step 2 .ok]).flatten ++
  [.die 1] ++
  (List.replicate 320 [.step 0 .ok, .step 1 .ok]).flatten

theorem prefix_cases {α : Type} {l1 l2 l : List α} {x : α} {P : List α → α → Prop} (h : l = l1 ++ x :: l2) (k : Nat)
    (h0 : ∀ j, j < k → ∀ y, l[j]? = some y → P (l.take j) y) (h1 : ∀ y ∈ l.drop k, ∀ l', P l' y) : P l1 x := by
  have e : l[l1.length]? = some x := by rw [h]; simp
  have e' : l.take l1.length = l1 := by rw [h]; simp
  by_cases hk : l1.length < k
  · have := h0 _ hk x e
    rwa [e'] at this
  · refine h1 x ?_ l1
    refine List.mem_of_getElem? (i := l1.length - k) ?_
    rw [List.getElem?_drop, Nat.add_sub_cancel' (Nat.le_of_not_lt hk)]
    exact e

example : Steady cfgA := fun _ _ _ _ => rfl

/-- it is warm -/
example : WarmMoves cfgA fuel (· / 2) (after cfgA fuel (esShared ++ [])) warmRace := by
  intro ts1 t ts2 e
  refine prefix_cases (P := fun ts1 t => t.Warm cfgA fuel (after cfgA fuel (esShared ++ [])).world
    (((Crowd.start (after cfgA fuel (esShared ++ []))).moves cfgA fuel (· / 2) ts1).log)) e 3 ?_ ?_
  · intro j hj y hy
    match j, hj with
    | 0, _ => cases hy; exact shared_familiar
    | 1, _ =>
      cases hy
      intro e he
      have : e.object = bytes "0" := by
        have h : ((after cfgA fuel (esShared ++ [])).log[0]?).map (·.object) = some (bytes "0") := by decide +kernel
        have he : (after cfgA fuel (esShared ++ [])).log[0]? = some e := he
        rw [he] at h
        exact Option.some.inj h
      rw [this]
      exact shared_familiar
    | 2, _ => cases hy; intro h; cases h
  · intro y hy l'
    have : (warmRace.drop 3).all (fun m => match m with | .step _ .ok | .die _ => true | _ => false) = true := by
      decide +kernel
    have := List.all_eq_true.1 this y hy
    split at this
    · rfl
    · trivial
    · cases this

/-- What comes of it. -/
example : (sharing cfgA fuel (· / 2) (esShared ++ []) warmRace).log.map (fun e => (e.object, e.property, e.opener)) =
    [(bytes "0", bytes "1", some 0), (bytes "a", bytes "b", some 1), (bytes "0", bytes "1", some 2),
      (bytes "0", bytes "1", some 0)] := by
  decide +kernel

/-- an endless warm run -/
def warmForever : Nat → Move
  | 0 => .begin 0 (.createStory (bytes "0") (bytes "1"))
  | 1 => .begin 1 (.query 0 .getStory)
  | n + 2 => .step (n % 2) .ok

example : WarmRun cfgA fuel one (after cfgA fuel (esShared ++ [])) warmForever := by
  intro n
  match n with
  | 0 => exact shared_familiar
  | 1 => intro h; cases h
  | n + 2 => rfl

example : ((Crowd.start (after cfgA fuel (esShared ++ []))).run cfgA fuel one warmForever 400).log.length = 3 ∧
    ((Crowd.start (after cfgA fuel (esShared ++ []))).run cfgA fuel one warmForever 400).heard.length = 1 := by
  decide +kernel

/-- One goroutine creates a story about the familiar pair while another stores a text that is new. -/
def newText : List Move :=
  [.begin 0 (.createStory (bytes "0") (bytes "1")), .begin 1 (.createStory (bytes "`") (bytes "0"))] ++
  List.replicate 210 (.step 1 .ok) ++ List.replicate 210 (.step 0 .ok)

/-- If somebody adds text the claim is FALSE: though no storage call fails, both calls do. -/
theorem C51_new_text_false : Familiar cfgA fuel (after cfgA fuel (esShared ++ [])).world (bytes "0") (bytes "1") ∧
    (∀ i, i < 2 → ((sharing cfgA fuel one (esShared ++ []) newText).cur i).isNone = true) ∧
    (sharing cfgA fuel one (esShared ++ []) newText).log.length = (after cfgA fuel (esShared ++ [])).log.length := by
  exact ⟨shared_familiar, by decide +kernel, by decide +kernel⟩

end Semnet.Props
