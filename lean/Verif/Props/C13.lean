import Verif.Proof.Calls
import Verif.Props.Sample
/- C13: failed calls do no harm. -/
namespace Semnet.Props
open Spec Sample

/-- If a call returns an error or panics, every remark returned earlier still answers all its queries as
    expected (text, first fact, story text, no next remark) and is found by its identifier.  Earlier calls of
    the history may have failed as well. -/
theorem C13_failed_call_harmless {cfg : Cfg} {fuel : Nat} {es : List Event} (h : Calm cfg fuel es) {c : Call}
    (ht : ∀ t ∈ c.texts, t.length < fuel) {out : Out (Option RemE)} {w : World}
    (hr : (c.prog fuel (after cfg fuel es).log).exec cfg (after cfg fuel es).world = (out, w))
    (hfail : (∃ err, out = .err err) ∨ out = .panic) {e : Entry} (he : e ∈ (after cfg fuel es).log) :
    Readable cfg fuel (after cfg fuel es).log w e := by
  have h1 : Calm cfg fuel (es ++ [.call c Go.noFault]) :=
    h.append (budget_one h.budget ht) (by simp [Event.Calm])
  have h2 : after cfg fuel (es ++ [.call c Go.noFault]) = ⟨w, (after cfg fuel es).log⟩ := by
    rw [after_append]
    show State.call cfg fuel _ c Go.noFault = _
    unfold State.call
    unfold Go.exec at hr
    rw [hr]
    rcases hfail with ⟨err, rfl⟩ | rfl <;> rfl
  have := h1.readable (mem_later he)
  rwa [h2] at this

/-- a panicking and a failing call after `es` -/
example : ((Graph.createStory fuel (bytes "é ") (bytes "b")).exec cfgA (after cfgA fuel es).world).1 = .panic ∧
    ((Graph.createStory fuel (bytes "é") (bytes "")).exec cfgA (after cfgA fuel es).world).1 = .err .noCharacter := by
  rw [after_es]; decide +kernel

end Semnet.Props
