import Verif.Proof.Api
import Verif.Props.Sample
/- C02: stored text never changes. -/
namespace Semnet.Props
open Spec Sample

/-- A remark that some creating call of the history `es` returned reads the same after `es` and after any
    continuation `es'`: creating calls, failing and panicking calls, queries, reopening. -/
theorem C02_text_never_changes {cfg : Cfg} {fuel : Nat} {es es' : List Event} (h : Calm cfg fuel (es ++ es'))
    {e : Entry} (he : e ∈ (after cfg fuel es).log) :
    ∃ o p w1 w2,
      (Remark.getObjectAndProperty fuel e.handle).exec cfg (after cfg fuel es).world = (.ok (o, p), w1) ∧
      (Remark.getObjectAndProperty fuel e.handle).exec cfg (after cfg fuel (es ++ es')).world = (.ok (o, p), w2) := by
  obtain ⟨w1, h1⟩ := (h.left.readable he).text
  obtain ⟨w2, h2⟩ := (h.later he).text
  exact ⟨_, _, w1, w2, h1, h2⟩

/-- and the text is the one that was given to the call -/
theorem C02_text_as_given {cfg : Cfg} {fuel : Nat} {es es' : List Event} (h : Calm cfg fuel (es ++ es'))
    {e : Entry} (he : e ∈ (after cfg fuel es).log) :
    ∃ w', (Remark.getObjectAndProperty fuel e.handle).exec cfg (after cfg fuel (es ++ es')).world =
      (.ok (e.object, e.property), w') := (h.later he).text

example : Calm cfgA fuel (es ++ []) ∧ (after cfgA fuel es).log.map (fun e => (e.object, e.property)) =
    [(bytes "ab", bytes "c"), (bytes "ab", bytes "d a"), (bytes "ba", bytes "c")] := by
  refine ⟨by rw [List.append_nil]; exact calmA, ?_⟩
  rw [after_es]; decide +kernel

end Semnet.Props
