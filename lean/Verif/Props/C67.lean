import Verif.Proof.Orphan
import Verif.Props.Sample
/-
  C67: on a storage without node 0, AddFactToStory and CreateChildStory fail and leave their remark behind.
-/
namespace Semnet.Props
open Spec Sample

/-- On a storage without node 0, after any calm history: let the texts be such that `CreateStory(o, p)` would return the remark
    `r`.  Then `AddFactToStory(o, p)` on any remark `e` returns an error, the log does not grow, and yet the very same remark
    `r` - whose identifier was no node before - is in the storage: right after the call (`es' = []`) and after any calm
    continuation, `GetRemark` finds it by its identifier and its texts are `o` and `p`.  It belongs to no fact. -/
theorem C67_add_fact_leaves_remark {cfg : Cfg} {fuel : Nat} {es es' : List Event} {i : Nat} {o p : GoStr}
    (hz : cfg.zero = false) (h : Calm cfg fuel (es ++ [.call (.addFact i o p) Go.noFault] ++ es'))
    {e : Entry} (he : (after cfg fuel es).log[i]? = some e) {r : RemE} {w : World}
    (hr : (Graph.createStory fuel o p).exec cfg (after cfg fuel es).world = (.ok r, w)) :
    (∃ er, ((Remark.addFactToStory fuel e.handle o p).exec cfg (after cfg fuel es).world).1 = .err er) ∧
    (after cfg fuel (es ++ [.call (.addFact i o p) Go.noFault])).log = (after cfg fuel es).log ∧
    (after cfg fuel es).world.store.live r.cls = false ∧
    (after cfg fuel (es ++ [.call (.addFact i o p) Go.noFault])).world.store.targets r.fact = [] ∧
    Fetched cfg fuel (after cfg fuel (es ++ [.call (.addFact i o p) Go.noFault] ++ es')).world r o p := by
  have ht := h.texts
  have k := h.orphan (o := o) (p := p) (ht o (by simp [Call.texts])) (ht p (by simp [Call.texts])) (List.mem_of_getElem? he)
    (by simp only [Call.prog, he]; rw [addFactToStory_eq])
    (fun σ he hi r => (errs_nextFact hz hi (he.far 6)).left) hr
  rw [← addFactToStory_eq] at k
  exact k

/-- The same for `CreateChildStory`. -/
theorem C67_create_child_leaves_remark {cfg : Cfg} {fuel : Nat} {es es' : List Event} {i : Nat} {o p : GoStr}
    (hz : cfg.zero = false) (h : Calm cfg fuel (es ++ [.call (.addChild i o p) Go.noFault] ++ es'))
    {e : Entry} (he : (after cfg fuel es).log[i]? = some e) {r : RemE} {w : World}
    (hr : (Graph.createStory fuel o p).exec cfg (after cfg fuel es).world = (.ok r, w)) :
    (∃ er, ((Remark.createChildStory fuel e.handle o p).exec cfg (after cfg fuel es).world).1 = .err er) ∧
    (after cfg fuel (es ++ [.call (.addChild i o p) Go.noFault])).log = (after cfg fuel es).log ∧
    (after cfg fuel es).world.store.live r.cls = false ∧
    (after cfg fuel (es ++ [.call (.addChild i o p) Go.noFault])).world.store.targets r.fact = [] ∧
    Fetched cfg fuel (after cfg fuel (es ++ [.call (.addChild i o p) Go.noFault] ++ es')).world r o p := by
  have ht := h.texts
  have k := h.orphan (o := o) (p := p) (ht o (by simp [Call.texts])) (ht p (by simp [Call.texts])) (List.mem_of_getElem? he)
    (by simp only [Call.prog, he]; rw [createChildStory_eq])
    (fun σ he hi r => (errs_childFact hz hi (he.far 5)).left) hr
  rw [← createChildStory_eq] at k
  exact k

/-- Every creating call makes a remark, whether it succeeds, returns an error or panics, on any storage: once a remark exists,
    the next call of the four that create remarks (on a remark of the log) adds the node `next`, which was none before, to the
    class of remarks, and then and for ever `GetRemark` finds a remark by it. -/
theorem C67_every_creating_call_makes_a_remark {cfg : Cfg} {fuel : Nat} {es es' : List Event} {c : Call}
    (h : Calm cfg fuel (es ++ [.call c Go.noFault] ++ es')) (hl : (after cfg fuel es).log ≠ [])
    (hc : c.Makes (after cfg fuel es).log) :
    (after cfg fuel es).world.store.live (after cfg fuel es).world.store.next = false ∧
    ∃ r w', (Graph.getRemark (after cfg fuel es).world.store.next).exec cfg
        (after cfg fuel (es ++ [.call c Go.noFault] ++ es')).world = (.ok r, w') ∧
      r.cls = (after cfg fuel es).world.store.next ∧
      r.cls ∈ (after cfg fuel (es ++ [.call c Go.noFault] ++ es')).world.store.sources Class.remarkId := h.makes hl hc

/-- one story; a fact is added; another story -/
def orphanEvents : List Event :=
  [call (.createStory (bytes "ab") (bytes "c")), .call (.addFact 0 (bytes "b") (bytes "a")) Go.noFault] ++
  [call (.createStory (bytes "b") (bytes "c"))]

/-- the hypotheses of the first theorem are met, with the remark 146 -/
example : Calm cfgA fuel orphanEvents ∧ cfgA.zero = false ∧
    (after cfgA fuel [call (.createStory (bytes "ab") (bytes "c"))]).log.length = 1 ∧
    ((Graph.createStory fuel (bytes "b") (bytes "a")).exec cfgA
      (after cfgA fuel [call (.createStory (bytes "ab") (bytes "c"))]).world).1 = .ok ⟨146, 148, 149, 150⟩ := by
  refine ⟨⟨rfl, ⟨by decide, by decide +kernel⟩, ?_⟩, rfl, by decide +kernel, by decide +kernel⟩
  intro e he
  simp only [orphanEvents, List.cons_append, List.nil_append, List.mem_cons, List.not_mem_nil, or_false] at he
  rcases he with rfl | rfl | rfl <;> rfl

/-- the same for the second theorem, and its conclusion on this history -/
example :
    Calm cfgA fuel ([call (.createStory (bytes "ab") (bytes "c"))] ++
      [.call (.addChild 0 (bytes "b") (bytes "a")) Go.noFault] ++ [call (.createStory (bytes "b") (bytes "c"))]) ∧
    ((Remark.getObjectAndProperty fuel ⟨146, 148, 149, 150⟩).exec cfgA
      (after cfgA fuel ([call (.createStory (bytes "ab") (bytes "c"))] ++
        [.call (.addChild 0 (bytes "b") (bytes "a")) Go.noFault] ++ [call (.createStory (bytes "b") (bytes "c"))])).world).1 =
      .ok (asText (bytes "b"), asText (bytes "a")) := by
  refine ⟨⟨rfl, ⟨by decide, by decide +kernel⟩, ?_⟩, by decide +kernel⟩
  intro e he
  simp only [List.cons_append, List.nil_append, List.mem_cons, List.not_mem_nil, or_false] at he
  rcases he with rfl | rfl | rfl <;> rfl

/-- a call whose text is refused leaves a remark without texts -/
example :
    let w := (after cfgA fuel [call (.createStory (bytes "ab") (bytes "c")), call (.createStory (bytes "") (bytes "a"))]).world
    (after cfgA fuel [call (.createStory (bytes "ab") (bytes "c"))]).world.store.next = 146 ∧
    ((Graph.createStory fuel (bytes "") (bytes "a")).exec cfgA
      (after cfgA fuel [call (.createStory (bytes "ab") (bytes "c"))]).world).1 = .err .noCharacter ∧
    ((Graph.getRemark 146).exec cfgA w).1 = .ok ⟨146, 148, 149, 150⟩ ∧
    ((Remark.getObjectAndProperty fuel ⟨146, 148, 149, 150⟩).exec cfgA w).1 = .err .remarkSourceDetails ∧
    Call.Makes (after cfgA fuel [call (.createStory (bytes "ab") (bytes "c"))]).log (.createStory (bytes "") (bytes "a")) := by
  exact ⟨by decide +kernel, by decide +kernel, by decide +kernel, by decide +kernel, trivial⟩

end Semnet.Props
