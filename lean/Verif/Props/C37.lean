import Verif.Props.C36
import Verif.Props.C28
/- C37: GetNextStory never reaches a story. -/
namespace Semnet.Props
open Spec Sample

/-- `GetNextStory` of any remark ever returned by a creating call returns, at any later time, an error or a remark
    that no creating call ever returned; it does not panic. -/
theorem C37_next_story_never_reached {cfg : Cfg} {fuel : Nat} {es es' : List Event} (h : Calm cfg fuel (es ++ es'))
    {e : Entry} (he : e ∈ (after cfg fuel es).log) :
    (∃ x w', (Remark.getNextStory e.handle).exec cfg (after cfg fuel (es ++ es')).world = (.err x, w')) ∨
    ∃ r w', (Remark.getNextStory e.handle).exec cfg (after cfg fuel (es ++ es')).world = (.ok r, w') ∧
      ∀ e' ∈ (after cfg fuel (es ++ es')).log, e'.handle ≠ r := by
  obtain ⟨σ, hs, hc⟩ := h.holds (mem_later he)
  have ent := (hs.keeps.ok e (mem_later he)).ent
  cases hz : cfg.zero with
  | false =>
    obtain ⟨x, m, h1⟩ := Fails.exec (C := calmCtx cfg (stdLim fuel)) rfl hs.is hs.flt (Fails.getNextStory hs.inv ent hz)
    exact .inl ⟨x, _, h1⟩
  | true =>
    rcases ev_nextStory hs.inv hz hc ent with ⟨hx, _⟩ | ⟨_, x, hx⟩
    · refine .inr ⟨_, _, Ev.world hs hx, fun e' he' hn => ?_⟩
      exact classRemark_ne hs.inv (hs.keeps.ok e' he').ent hn.symm
    · exact .inl ⟨x, _, Ev.world hs hx⟩

/-- `HasNextStory` answers the same question as `HasNextFact`, for all remarks alike. -/
theorem C37_has_next_story_is_has_next_fact {cfg : Cfg} (hz : cfg.zero = true) {fuel : Nat} {es : List Event}
    (h : Calm cfg fuel es) :
    ∃ b, ∀ e ∈ (after cfg fuel es).log, ∃ w',
      (Remark.hasNextStory e.handle).exec cfg (after cfg fuel es).world = (.ok b, w') ∧
      (Remark.hasNextFact e.handle).exec cfg (after cfg fuel es).world = (.ok b, w') := by
  rcases h.sound with h1 | ⟨σ, hs, hc⟩
  · refine ⟨false, fun e he => ?_⟩
    rw [h1] at he; cases he
  · refine ⟨!(σ.T 0).isEmpty, fun e he => ?_⟩
    have ent := (hs.keeps.ok e he).ent
    exact ⟨_, Ev.world hs (ev_hasNextStory hs.inv hz hc ent), Ev.world hs (ev_hasNextFact hs.inv hz ent)⟩

/-- Witness: after `AddFactToStory`, `HasNextStory` is true and `GetNextStory` succeeds with four class nodes as the
    "remark", whose text cannot be read. -/
theorem C37_class_nodes_as_next_story :
    ∀ e, (after cfgB fuel three).log[0]? = some e →
      ((Remark.hasNextStory e.handle).exec cfgB (after cfgB fuel three).world).1 = .ok true ∧
      ((Remark.getNextStory e.handle).exec cfgB (after cfgB fuel three).world).1 = .ok ⟨4, 5, 6, 7⟩ ∧
      ((Remark.getObjectAndProperty fuel ⟨4, 5, 6, 7⟩).exec cfgB (after cfgB fuel three).world).1 =
        .err .remarkSourceDetails := by
  have h : ((after cfgB fuel three).log[0]?.all fun e =>
      ((Remark.hasNextStory e.handle).exec cfgB (after cfgB fuel three).world).1 = .ok true ∧
      ((Remark.getNextStory e.handle).exec cfgB (after cfgB fuel three).world).1 = .ok ⟨4, 5, 6, 7⟩ ∧
      ((Remark.getObjectAndProperty fuel ⟨4, 5, 6, 7⟩).exec cfgB (after cfgB fuel three).world).1 =
        .err .remarkSourceDetails) = true := by
    decide +kernel
  intro e he
  rw [he] at h
  exact of_decide_eq_true h

example : Calm cfgB fuel esB ∧ (after cfgB fuel esB).log.length = 4 := by
  refine ⟨calmB, ?_⟩
  rw [after_esB]; decide +kernel

end Semnet.Props
