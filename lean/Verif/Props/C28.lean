import Verif.Proof.Api
import Verif.Props.Sample
/- C28: stories do not influence each other.  False of the code on storages with a node 0. -/
namespace Semnet.Props
open Spec Sample

def two : List Event := [call (.createStory (bytes "a") (bytes "b")), call (.createStory (bytes "c") (bytes "d"))]
def three : List Event := two ++ [call (.addFact 1 (bytes "b") (bytes "a"))]

/-- Witness: two stories; `AddFactToStory` on the second makes `HasNextFact` of the first change from false to
    true. -/
theorem C28_other_story_changes_has_next_fact :
    (after cfgB fuel two).log.map (·.opener) = [some 0, some 1] ∧
    ∀ e, (after cfgB fuel two).log[0]? = some e →
      ((Remark.hasNextFact e.handle).exec cfgB (after cfgB fuel two).world).1 = .ok false ∧
      ((Remark.hasNextFact e.handle).exec cfgB (after cfgB fuel three).world).1 = .ok true := by
  have h : (after cfgB fuel two).log.map (·.opener) = [some 0, some 1] ∧ 
      ((after cfgB fuel two).log[0]?.all fun e =>
      ((Remark.hasNextFact e.handle).exec cfgB (after cfgB fuel two).world).1 = .ok false ∧
      ((Remark.hasNextFact e.handle).exec cfgB (after cfgB fuel three).world).1 = .ok true) = true := by
    decide +kernel
  refine ⟨h.1, fun e he => ?_⟩
  have h2 := h.2
  rw [he] at h2
  exact of_decide_eq_true h2

/-- The answer is the same for all remarks of all stories (with a node 0). -/
theorem C28_has_next_fact_is_global {cfg : Cfg} (hz : cfg.zero = true) {fuel : Nat} {es : List Event}
    (h : Calm cfg fuel es) :
    ∃ b, ∀ e ∈ (after cfg fuel es).log, ∃ w',
      (Remark.hasNextFact e.handle).exec cfg (after cfg fuel es).world = (.ok b, w') := by
  rcases h.sound with h1 | ⟨σ, hs, hc⟩
  · refine ⟨false, fun e he => ?_⟩
    rw [h1] at he; cases he
  · refine ⟨!(σ.T 0).isEmpty, fun e he => ?_⟩
    obtain ⟨x, m, h1, h2⟩ := Rd.exec (C := calmCtx cfg (stdLim fuel)) rfl hs.is hs.flt
      (Rd.hasNextFact0 (C := calmCtx cfg (stdLim fuel)) rfl hs.inv (hs.keeps.ok e he).ent hz)
    subst h2
    exact ⟨_, h1⟩

/-- What holds without a node 0: no call on any remark changes `HasNextFact` of another; it always fails.
    Missing: storages with a node 0, where it is false. -/
theorem C28_stories_independent_partial {cfg : Cfg} (hz : cfg.zero = false) {fuel : Nat} {es es' : List Event}
    (h : Calm cfg fuel (es ++ es')) {e : Entry} (he : e ∈ (after cfg fuel es).log) :
    ∃ x w', (Remark.hasNextFact e.handle).exec cfg (after cfg fuel (es ++ es')).world = (.err x, w') := by
  obtain ⟨σ, hs, _⟩ := h.holds (mem_later he)
  obtain ⟨x, m, h1⟩ := Fails.exec (C := calmCtx cfg (stdLim fuel)) rfl hs.is hs.flt
    (Fails.hasNextFact hs.inv (hs.keeps.ok e (mem_later he)).ent hz)
  exact ⟨x, _, h1⟩

example : cfgB.zero = true ∧ (after cfgB fuel esB).log.length = 4 := by rw [after_esB]; decide +kernel

end Semnet.Props
