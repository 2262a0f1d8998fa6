import Verif.Proof.Api
import Verif.Props.Sample
/- C06: GetRemark inverts GetIdentifier. -/
namespace Semnet.Props
open Spec Sample

/-- The identifier of a remark returned during `es` leads back to the same remark after any calm
    continuation, which may contain reopenings. -/
theorem C06_get_remark_inverts_identifier {cfg : Cfg} {fuel : Nat} {es es' : List Event}
    (h : Calm cfg fuel (es ++ es')) {e : Entry} (he : e ∈ (after cfg fuel es).log) :
    ∃ w', (Graph.getRemark (Remark.getIdentifier e.handle)).exec cfg (after cfg fuel (es ++ es')).world =
      (.ok e.handle, w') := (h.later he).get

/-- in a new process on the same storage -/
theorem C06_get_remark_after_reopening {cfg : Cfg} {fuel : Nat} {es : List Event}
    (h : Calm cfg fuel es) {e : Entry} (he : e ∈ (after cfg fuel es).log) :
    ∃ w', (Graph.getRemark (Remark.getIdentifier e.handle)).exec cfg
      (World.open (after cfg fuel es).world.store) = (.ok e.handle, w') := by
  have h1 : Calm cfg fuel (es ++ [.reopen]) := h.append ⟨h.budget.1, by simp [Event.texts]⟩ (by simp [Event.Calm])
  have := (h1.later he).get
  rwa [after_append] at this

example : ((after cfgA fuel es).log.map fun e => Remark.getIdentifier e.handle).length = 3 := by
  rw [after_es]; decide +kernel

end Semnet.Props
