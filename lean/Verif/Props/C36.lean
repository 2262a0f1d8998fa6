import Verif.Proof.Machine
import Verif.Props.Sample
/- C36: a fact added by AddFactToStory belongs to no story. -/
namespace Semnet.Props
open Spec Sample

/-- `GetStory` returns an error for every remark returned by `AddFactToStory` (and for every remark later added to
    such a fact), at any later time, although the call was asked to add the fact to a story that has a text. -/
theorem C36_added_fact_has_no_story_text {cfg : Cfg} {fuel : Nat} {es es' : List Event} (h : Calm cfg fuel (es ++ es'))
    {e : Entry} (he : e ∈ (after cfg fuel es).log) (ho : e.opener = none) :
    ∃ x w', (Output.getStory fuel e.handle).exec cfg (after cfg fuel (es ++ es')).world = (.err x, w') := by
  obtain ⟨σ, hs, hc⟩ := h.holds (mem_later he)
  have hb := belongs_none hs (mem_later he) ho
  have ent := (hs.keeps.ok e (mem_later he)).ent
  obtain ⟨x, hx⟩ := ev_storyLoose hs.inv (belongs_zero hs.inv hb) hc ent hb (fuel := fuel)
    (by have := h.budget.1; omega)
  exact ⟨x, _, Ev.world hs hx⟩

/-- `GetFirstFact` of such a remark returns an error or a remark that no creating call ever returned; it does not
    panic. -/
theorem C36_added_fact_has_no_first_fact {cfg : Cfg} {fuel : Nat} {es es' : List Event} (h : Calm cfg fuel (es ++ es'))
    {e : Entry} (he : e ∈ (after cfg fuel es).log) (ho : e.opener = none) :
    (∃ x w', (Remark.getFirstFact e.handle).exec cfg (after cfg fuel (es ++ es')).world = (.err x, w')) ∨
    ∃ r w', (Remark.getFirstFact e.handle).exec cfg (after cfg fuel (es ++ es')).world = (.ok r, w') ∧
      ∀ e' ∈ (after cfg fuel (es ++ es')).log, e'.handle ≠ r := by
  obtain ⟨σ, hs, hc⟩ := h.holds (mem_later he)
  have hb := belongs_none hs (mem_later he) ho
  have ent := (hs.keeps.ok e (mem_later he)).ent
  rcases ev_firstLoose hs.inv (belongs_zero hs.inv hb) hc ent hb with ⟨hx, _⟩ | ⟨_, x, hx⟩
  · refine .inr ⟨_, _, Ev.world hs hx, fun e' he' hn => ?_⟩
    exact classRemark_ne hs.inv (hs.keeps.ok e' he').ent hn.symm
  · exact .inl ⟨x, _, Ev.world hs hx⟩

/-- a story to which a fact was added, with a node 0: the added fact is logged without an opener, and
    `GetFirstFact` "succeeds" with the class nodes 4 to 7 -/
example : Calm cfgB fuel esB ∧ ((after cfgB fuel esB).log.map fun e => e.opener.isNone).contains true = true := by
  refine ⟨calmB, ?_⟩
  rw [after_esB]; decide +kernel

end Semnet.Props
