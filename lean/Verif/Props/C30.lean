import Verif.Proof.Api
import Verif.Props.Sample
/- C30: entities are members of the right class. -/
namespace Semnet.Props
open Spec Sample

theorem holds_class {cfg lim st σ} (h : Holds cfg lim st σ) {e} (he : e ∈ st.log) :
    st.world.store.live (Remark.getIdentifier e.handle) = true ∧
    st.world.store.targets (Remark.getIdentifier e.handle) = [6] := by
  have ent := (h.keeps.ok e he).ent
  rw [← h.is.store]
  exact ⟨(h.inv.live _).2 (by show σ.tag e.handle.cls ≠ _; rw [ent.tc]; simp), ent.Tc⟩

/-- The identifier of every remark ever returned is a node connected to the remark class node (6) and to nothing
    else, at any later time. -/
theorem C30_remarks_belong_to_their_class {cfg : Cfg} {fuel : Nat} {es es' : List Event}
    (h : Calm cfg fuel (es ++ es')) {e : Entry} (he : e ∈ (after cfg fuel es).log) :
    (after cfg fuel (es ++ es')).world.store.live (Remark.getIdentifier e.handle) = true ∧
    (after cfg fuel (es ++ es')).world.store.targets (Remark.getIdentifier e.handle) = [6] := by
  obtain ⟨σ, hs, _⟩ := h.holds (mem_later he)
  exact holds_class hs (mem_later he)

/-- Also after storage failures and crashes (storages without node 0). -/
theorem C30_class_survives_storms {cfg : Cfg} (hz : cfg.zero = false) {fuel : Nat} {es es' : List Event}
    (h : Stormy cfg fuel es es') {e : Entry} (he : e ∈ (after cfg fuel (es ++ es')).log) :
    (after cfg fuel (es ++ es')).world.store.live (Remark.getIdentifier e.handle) = true ∧
    (after cfg fuel (es ++ es')).world.store.targets (Remark.getIdentifier e.handle) = [6] := by
  obtain ⟨σ, hs⟩ := h.holds hz
  exact holds_class hs he

example : (after cfgA fuel es).log.map (fun e => Remark.getIdentifier e.handle) = [9, 146, 248] := by
  rw [after_es]; decide +kernel

end Semnet.Props
