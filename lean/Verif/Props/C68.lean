import Verif.Proof.Astray
import Verif.Props.Sample
/-
  C68: a remark that a failed call left behind (C67) never gets a fact.
-/
namespace Semnet.Props
open Spec Sample

/-- On a storage without node 0, after any calm history: let the texts be such that `CreateStory(o, p)` would return the remark
    `r`.  Then `AddFactToStory(o, p)` leaves `r` in the storage (C67), and right after the call and after any calm continuation
    `r` belongs to no fact: `GetFirstFact` and `GetStory` report that, and none of `AddRemarkToFact`, `AddFactToStory`,
    `CreateChildStory` succeeds on it. -/
theorem C68_add_fact_remark_is_lost {cfg : Cfg} {fuel : Nat} {es es' : List Event} {i : Nat} {o p : GoStr}
    (hz : cfg.zero = false) (h : Calm cfg fuel (es ++ [.call (.addFact i o p) Go.noFault] ++ es'))
    {e : Entry} (he : (after cfg fuel es).log[i]? = some e) {r : RemE} {w : World}
    (hr : (Graph.createStory fuel o p).exec cfg (after cfg fuel es).world = (.ok r, w)) :
    (after cfg fuel (es ++ [.call (.addFact i o p) Go.noFault] ++ es')).world.store.targets r.fact = [] ∧
    Astray cfg fuel (after cfg fuel (es ++ [.call (.addFact i o p) Go.noFault] ++ es')).world r := by
  have ht := h.texts
  exact h.astray (o := o) (p := p) hz (ht o (by simp [Call.texts])) (ht p (by simp [Call.texts])) (List.mem_of_getElem? he)
    (by simp only [Call.prog, he]; rw [addFactToStory_eq])
    (fun σ he hi r => (errs_nextFact hz hi (he.far 6)).left) hr

/-- The same for `CreateChildStory`. -/
theorem C68_create_child_remark_is_lost {cfg : Cfg} {fuel : Nat} {es es' : List Event} {i : Nat} {o p : GoStr}
    (hz : cfg.zero = false) (h : Calm cfg fuel (es ++ [.call (.addChild i o p) Go.noFault] ++ es'))
    {e : Entry} (he : (after cfg fuel es).log[i]? = some e) {r : RemE} {w : World}
    (hr : (Graph.createStory fuel o p).exec cfg (after cfg fuel es).world = (.ok r, w)) :
    (after cfg fuel (es ++ [.call (.addChild i o p) Go.noFault] ++ es')).world.store.targets r.fact = [] ∧
    Astray cfg fuel (after cfg fuel (es ++ [.call (.addChild i o p) Go.noFault] ++ es')).world r := by
  have ht := h.texts
  exact h.astray (o := o) (p := p) hz (ht o (by simp [Call.texts])) (ht p (by simp [Call.texts])) (List.mem_of_getElem? he)
    (by simp only [Call.prog, he]; rw [createChildStory_eq])
    (fun σ he hi r => (errs_childFact hz hi (he.far 5)).left) hr

/-- one story; a call that fails; another story -/
def astrayEvents (c : Call) : List Event :=
  [call (.createStory (bytes "ab") (bytes "c"))] ++ [.call c Go.noFault] ++ [call (.createStory (bytes "b") (bytes "c"))]

/-- the hypotheses of both theorems are met, with the remark 146 -/
example : Calm cfgA fuel (astrayEvents (.addFact 0 (bytes "b") (bytes "a"))) ∧
    Calm cfgA fuel (astrayEvents (.addChild 0 (bytes "b") (bytes "a"))) ∧ cfgA.zero = false ∧
    (after cfgA fuel [call (.createStory (bytes "ab") (bytes "c"))]).log.length = 1 ∧
    ((Graph.createStory fuel (bytes "b") (bytes "a")).exec cfgA
      (after cfgA fuel [call (.createStory (bytes "ab") (bytes "c"))]).world).1 = .ok ⟨146, 148, 149, 150⟩ := by
  refine ⟨⟨rfl, ⟨by decide, by decide +kernel⟩, ?_⟩, ⟨rfl, ⟨by decide, by decide +kernel⟩, ?_⟩, rfl, by decide +kernel,
    by decide +kernel⟩ <;>
  · intro e he
    simp only [astrayEvents, List.cons_append, List.nil_append, List.mem_cons, List.not_mem_nil, or_false] at he
    rcases he with rfl | rfl | rfl <;> rfl

/-- the remark of the first story accepts a remark and has a first fact; the remark left behind does not -/
example :
    let w := (after cfgA fuel (astrayEvents (.addFact 0 (bytes "b") (bytes "a")))).world
    ((Remark.getFirstFact ⟨9, 11, 12, 13⟩).exec cfgA w).1 = .ok ⟨9, 11, 12, 13⟩ ∧
    ((Remark.addRemarkToFact fuel ⟨9, 11, 12, 13⟩ (bytes "b")).exec cfgA w).1 = .ok ⟨240, 242, 243, 244⟩ ∧
    ((Remark.getFirstFact ⟨146, 148, 149, 150⟩).exec cfgA w).1 = .err .remarkTargetFacts ∧
    ((Remark.addRemarkToFact fuel ⟨146, 148, 149, 150⟩ (bytes "b")).exec cfgA w).1 = .err .remarkTargetFacts :=
  ⟨by decide +kernel, by decide +kernel, by decide +kernel, by decide +kernel⟩

end Semnet.Props
