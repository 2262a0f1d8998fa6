import Verif.Proof.Api
import Verif.Props.Sample
/- C10: remarks of a fact cannot be enumerated. -/
namespace Semnet.Props
open Spec Sample

/-- `HasNextRemark` is false for every remark ever returned, at any later time. -/
theorem C10_no_next_remark {cfg : Cfg} {fuel : Nat} {es es' : List Event} (h : Calm cfg fuel (es ++ es'))
    {e : Entry} (he : e ∈ (after cfg fuel es).log) :
    ∃ w', (Remark.hasNextRemark e.handle).exec cfg (after cfg fuel (es ++ es')).world = (.ok false, w') :=
  (h.later he).alone

/-- `GetNextRemark` returns an error (it does not panic) for every remark ever returned. -/
theorem C10_get_next_remark_fails {cfg : Cfg} {fuel : Nat} {es es' : List Event} (h : Calm cfg fuel (es ++ es'))
    {e : Entry} (he : e ∈ (after cfg fuel es).log) :
    ∃ err w', (Remark.getNextRemark e.handle).exec cfg (after cfg fuel (es ++ es')).world = (.err err, w') := by
  obtain ⟨σ, hs, _⟩ := h.holds (mem_later he)
  obtain ⟨x, m, h1⟩ := Fails.exec (C := calmCtx cfg (stdLim fuel)) rfl hs.is hs.flt
    (Fails.getNextRemark hs.inv (hs.keeps.ok e (mem_later he)).ent)
  exact ⟨x, _, h1⟩

/-- in `es` the first fact has two remarks -/
example : ((after cfgA fuel es).log.map fun e => (e.object, e.opener)) =
    [(bytes "ab", some 0), (bytes "ab", some 0), (bytes "ba", some 2)] := by
  rw [after_es]; decide +kernel

end Semnet.Props
