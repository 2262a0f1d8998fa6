import Verif.Proof.AstrayCall
import Verif.Props.Sample
/-
  C69: AddRemarkToFact on a remark that a failed call left behind (C67, C68) does no harm.
-/
namespace Semnet.Props
open Spec Sample

/-- On a storage without node 0, let a failed `AddFactToStory(o, p)` have left the remark `r` (C67).  After any calm continuation
    `es'`, `AddRemarkToFact(p')` on `r`, which fails (C68), and any calm continuation `es2` after it: every remark of the log
    answers all queries as it should, `r` is still found with its texts and still belongs to no fact, and there is one remark
    more, under the identifier that was the next free one before the call on `r`. -/
theorem C69_after_add_fact {cfg : Cfg} {fuel : Nat} {es es' es2 : List Event} {i : Nat} {o p p' : GoStr}
    (hz : cfg.zero = false) (h : Calm cfg fuel (es ++ [.call (.addFact i o p) Go.noFault] ++ es'))
    {e : Entry} (he : (after cfg fuel es).log[i]? = some e) {r : RemE} {w : World}
    (hr : (Graph.createStory fuel o p).exec cfg (after cfg fuel es).world = (.ok r, w))
    (hp' : p'.length < fuel) (h2 : ∀ e ∈ es2, e.Calm) (ht2 : ∀ e ∈ es2, ∀ t ∈ e.texts, t.length < fuel) :
    let st := after cfg fuel (es ++ [.call (.addFact i o p) Go.noFault] ++ es')
    Harmless cfg fuel st.world.store.next ((st.astray cfg fuel r p').events cfg fuel es2) r o p := by
  have ht := h.texts
  have ho : o.length < fuel := ht o (by simp [Call.texts])
  obtain ⟨σ, h1, h3, h4, h5, h6, h7⟩ := h.astrayHolds (o := o) (p := p) hz ho (ht p (by simp [Call.texts]))
    (List.mem_of_getElem? he) (by simp only [Call.prog, he]; rw [addFactToStory_eq])
    (fun σ he hi r => (errs_nextFact hz hi (he.far 6)).left) hr
  exact h1.astrayAfter hz h.budget.fits h3 h6 ho hp' h4 h5 h7 h2 ht2

/-- The same for a remark left by `CreateChildStory`. -/
theorem C69_after_create_child {cfg : Cfg} {fuel : Nat} {es es' es2 : List Event} {i : Nat} {o p p' : GoStr}
    (hz : cfg.zero = false) (h : Calm cfg fuel (es ++ [.call (.addChild i o p) Go.noFault] ++ es'))
    {e : Entry} (he : (after cfg fuel es).log[i]? = some e) {r : RemE} {w : World}
    (hr : (Graph.createStory fuel o p).exec cfg (after cfg fuel es).world = (.ok r, w))
    (hp' : p'.length < fuel) (h2 : ∀ e ∈ es2, e.Calm) (ht2 : ∀ e ∈ es2, ∀ t ∈ e.texts, t.length < fuel) :
    let st := after cfg fuel (es ++ [.call (.addChild i o p) Go.noFault] ++ es')
    Harmless cfg fuel st.world.store.next ((st.astray cfg fuel r p').events cfg fuel es2) r o p := by
  have ht := h.texts
  have ho : o.length < fuel := ht o (by simp [Call.texts])
  obtain ⟨σ, h1, h3, h4, h5, h6, h7⟩ := h.astrayHolds (o := o) (p := p) hz ho (ht p (by simp [Call.texts]))
    (List.mem_of_getElem? he) (by simp only [Call.prog, he]; rw [createChildStory_eq])
    (fun σ he hi r => (errs_childFact hz hi (he.far 5)).left) hr
  exact h1.astrayAfter hz h.budget.fits h3 h6 ho hp' h4 h5 h7 h2 ht2

/-- the history up to the call on the remark left behind -/
def harmlessEvents (c : Call) : List Event :=
  [call (.createStory (bytes "ab") (bytes "c"))] ++ [.call c Go.noFault] ++ [call (.addRemark 0 (bytes "b"))]

/-- the hypotheses of both theorems are met, with the remark 146 -/
example : Calm cfgA fuel (harmlessEvents (.addFact 0 (bytes "b") (bytes "a"))) ∧
    Calm cfgA fuel (harmlessEvents (.addChild 0 (bytes "b") (bytes "a"))) ∧ cfgA.zero = false ∧
    (after cfgA fuel [call (.createStory (bytes "ab") (bytes "c"))]).log.length = 1 ∧
    ((Graph.createStory fuel (bytes "b") (bytes "a")).exec cfgA
      (after cfgA fuel [call (.createStory (bytes "ab") (bytes "c"))]).world).1 = .ok ⟨146, 148, 149, 150⟩ := by
  refine ⟨⟨rfl, ⟨by decide, by decide +kernel⟩, ?_⟩, ⟨rfl, ⟨by decide, by decide +kernel⟩, ?_⟩, rfl, by decide +kernel,
    by decide +kernel⟩ <;>
  · intro e he
    simp only [harmlessEvents, List.cons_append, List.nil_append, List.mem_cons, List.not_mem_nil, or_false] at he
    rcases he with rfl | rfl | rfl <;> rfl

/-- the call on the remark left behind stores its texts: the new remark says "b" and "c", although the call failed -/
example :
    let st := after cfgA fuel (harmlessEvents (.addFact 0 (bytes "b") (bytes "a")))
    let st2 := st.astray cfgA fuel ⟨146, 148, 149, 150⟩ (bytes "c")
    ((Remark.addRemarkToFact fuel ⟨146, 148, 149, 150⟩ (bytes "c")).exec cfgA st.world).1 = .err .remarkTargetFacts ∧
    st.world.store.next = 234 ∧
    ((Graph.getRemark 234).exec cfgA st2.world).1 = .ok ⟨234, 236, 237, 238⟩ ∧
    ((Remark.getObjectAndProperty fuel ⟨234, 236, 237, 238⟩).exec cfgA st2.world).1 = .ok (bytes "b", bytes "c") :=
  ⟨by decide +kernel, by decide +kernel, by decide +kernel, by decide +kernel⟩

end Semnet.Props
