import Verif.Proof.Calls
import Verif.Props.Sample
/- C26: navigation between facts and stories needs a node 0. -/
namespace Semnet.Props
open Spec Sample

/-- On a storage without a node 0: `HasNextFact`, `GetNextFact`, `HasNextStory` and `GetNextStory` return an error
    for every remark ever returned, at any later time. -/
theorem C26_navigation_fails_without_node_zero {cfg : Cfg} (hz : cfg.zero = false) {fuel : Nat} {es es' : List Event}
    (h : Calm cfg fuel (es ++ es')) {e : Entry} (he : e ∈ (after cfg fuel es).log) :
    (∃ x w', (Remark.hasNextFact e.handle).exec cfg (after cfg fuel (es ++ es')).world = (.err x, w')) ∧
    (∃ x w', (Remark.getNextFact e.handle).exec cfg (after cfg fuel (es ++ es')).world = (.err x, w')) ∧
    (∃ x w', (Remark.hasNextStory e.handle).exec cfg (after cfg fuel (es ++ es')).world = (.err x, w')) ∧
    (∃ x w', (Remark.getNextStory e.handle).exec cfg (after cfg fuel (es ++ es')).world = (.err x, w')) := by
  obtain ⟨σ, hs, _⟩ := h.holds (mem_later he)
  have ent := (hs.keeps.ok e (mem_later he)).ent
  have key : ∀ {α : Type} {p : Go α}, Fails (calmCtx cfg (stdLim fuel)) p σ →
      ∃ x w', p.exec cfg (after cfg fuel (es ++ es')).world = (.err x, w') := by
    intro α p hp
    obtain ⟨x, m, h1⟩ := Fails.exec (C := calmCtx cfg (stdLim fuel)) rfl hs.is hs.flt hp
    exact ⟨x, _, h1⟩
  exact ⟨key (Fails.hasNextFact hs.inv ent hz), key (Fails.getNextFact hs.inv ent hz),
    key (Fails.hasNextStory hs.inv ent hz), key (Fails.getNextStory hs.inv ent hz)⟩

/-- `AddFactToStory` and `CreateChildStory` never succeed there, whatever the strings. -/
theorem C26_additions_fail_without_node_zero {cfg : Cfg} (hz : cfg.zero = false) {fuel : Nat} {es es' : List Event}
    (h : Calm cfg fuel (es ++ es')) {e : Entry} (he : e ∈ (after cfg fuel es).log) {o p : GoStr}
    (ho : o.length < fuel) (hp : p.length < fuel) (r : RemE) :
    ((Remark.addFactToStory fuel e.handle o p).exec cfg (after cfg fuel (es ++ es')).world).1 ≠ .ok r ∧
    ((Remark.createChildStory fuel e.handle o p).exec cfg (after cfg fuel (es ++ es')).world).1 ≠ .ok r := by
  constructor
  · obtain ⟨σ, σ', _, _, _, _, h1⟩ := h.sound.addFact h.budget.fits (mem_later he) (TextOK.std ho) (TextOK.std hp)
    intro hr
    have := h1.out
    rw [hr] at this
    rw [hz] at this
    cases this.2.1
  · obtain ⟨σ, σ', _, _, _, _, h1⟩ := h.sound.addChild h.budget.fits (mem_later he) (TextOK.std ho) (TextOK.std hp)
    intro hr
    have := h1.out
    rw [hr] at this
    rw [hz] at this
    cases this.2.1

/-- With a node 0 they can succeed. -/
theorem C26_additions_succeed_with_node_zero :
    succeeds ((Remark.addFactToStory fuel ⟨9, 10, 11, 12⟩ (bytes "b") (bytes "d")).exec cfgB
      (after cfgB fuel [call (.createStory (bytes "ab") (bytes "c"))]).world) = true := by decide +kernel

/-- a storage without node 0, with remarks -/
example : cfgA.zero = false ∧ (after cfgA fuel es).log ≠ [] := by rw [after_es]; decide +kernel

end Semnet.Props
