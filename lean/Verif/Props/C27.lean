import Verif.Proof.Api
import Verif.Props.Sample
/- C27: GetNextFact never succeeds. -/
namespace Semnet.Props
open Spec Sample

/-- `GetNextFact` returns an error (it does not panic) for every remark ever returned by a creating call, at
    any later time, with or without a node 0. -/
theorem C27_get_next_fact_fails {cfg : Cfg} {fuel : Nat} {es es' : List Event} (h : Calm cfg fuel (es ++ es'))
    {e : Entry} (he : e ∈ (after cfg fuel es).log) :
    ∃ x w', (Remark.getNextFact e.handle).exec cfg (after cfg fuel (es ++ es')).world = (.err x, w') := by
  obtain ⟨σ, hs, hc⟩ := h.holds (mem_later he)
  have ent := (hs.keeps.ok e (mem_later he)).ent
  have key : Fails (calmCtx cfg (stdLim fuel)) (Remark.getNextFact e.handle) σ := by
    cases hz : cfg.zero with
    | false => exact Fails.getNextFact hs.inv ent hz
    | true => exact Fails.getNextFact0 rfl hs.inv ent hz hc
  obtain ⟨x, m, h1⟩ := Fails.exec (C := calmCtx cfg (stdLim fuel)) rfl hs.is hs.flt key
  exact ⟨x, _, h1⟩

/-- even when `HasNextFact` says there is one: a story to which a fact was added, with a node 0 -/
example : ((after cfgB fuel esB).log[0]?.map fun e =>
    ((Remark.hasNextFact e.handle).exec cfgB (after cfgB fuel esB).world).1) = some (.ok true) := by
  rw [after_esB]; decide +kernel

end Semnet.Props
