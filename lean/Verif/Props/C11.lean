import Verif.Proof.Calls
import Verif.Props.Sample
/- C11: an empty leading word is rejected. -/
namespace Semnet.Props
open Spec Sample

/-- A creating call whose object is empty or starts with a space returns an error; it does not panic. -/
theorem C11_empty_object_is_error {cfg : Cfg} {fuel : Nat} {es : List Event} (h : Calm cfg fuel es) {c : Call}
    (ht : ∀ t ∈ c.texts, t.length < fuel) {o p : GoStr} (hc : c.pair (after cfg fuel es).log = some (o, p))
    (ho : LeadingGap o) :
    ∃ err w, (c.prog fuel (after cfg fuel es).log).exec cfg (after cfg fuel es).world = (.err err, w) := by
  have hx := h.outcome ht hc
  generalize (c.prog fuel (after cfg fuel es).log).exec cfg (after cfg fuel es).world = res at hx
  obtain ⟨out, w⟩ := res
  cases out with
  | ok a =>
    refine absurd ?_ (hx.ok a rfl).1
    rcases ho with ho | ho
    · exact .inl ho
    · exact .inr (.inl ho)
  | err e => exact ⟨e, w, rfl⟩
  | panic => exact absurd ho (hx.panic rfl).1
  | spin => exact absurd rfl hx.spin

/-- A creating call whose property is empty or starts with a space never returns a remark. -/
theorem C11_empty_property_never_stored {cfg : Cfg} {fuel : Nat} {es : List Event} (h : Calm cfg fuel es) {c : Call}
    (ht : ∀ t ∈ c.texts, t.length < fuel) {o p : GoStr} (hc : c.pair (after cfg fuel es).log = some (o, p))
    (hp : LeadingGap p) (x : Option RemE) :
    ((c.prog fuel (after cfg fuel es).log).exec cfg (after cfg fuel es).world).1 ≠ .ok x := by
  intro hx
  refine ((h.outcome ht hc).ok x hx).2 ?_
  rcases hp with hp | hp
  · exact .inl hp
  · exact .inr (.inl hp)

/-- It returns an error if the object is a single word. -/
theorem C11_empty_property_is_error_partial {cfg : Cfg} {fuel : Nat} {es : List Event} (h : Calm cfg fuel es) {c : Call}
    (ht : ∀ t ∈ c.texts, t.length < fuel) {o p : GoStr} (hc : c.pair (after cfg fuel es).log = some (o, p))
    (hp : LeadingGap p) (ho : (32 : UInt8) ∉ o) :
    ∃ err w, (c.prog fuel (after cfg fuel es).log).exec cfg (after cfg fuel es).world = (.err err, w) := by
  have hx := h.outcome ht hc
  have hn := C11_empty_property_never_stored h ht hc hp
  generalize (c.prog fuel (after cfg fuel es).log).exec cfg (after cfg fuel es).world = res at hx hn
  obtain ⟨out, w⟩ := res
  cases out with
  | ok a => exact absurd rfl (hn a)
  | err e => exact ⟨e, w, rfl⟩
  | panic =>
    rcases (hx.panic rfl).2 with h1 | h1
    · exact absurd h1 ho
    · exact absurd hp h1.1
  | spin => exact absurd rfl hx.spin

/-- one story, then a story with the letters 'b' and 'c', whose codes continue the code of the digit '1' -/
def esDead : List Event :=
  [call (.createStory (bytes "a 1") (bytes "a")), call (.createStory (bytes "b") (bytes "c"))]

/-- In general it may panic (the claim of C11 for AddRemarkToFact is false of the code):
    AddRemarkToFact("") on the remark "a 1" panics once 'b' and 'c' have been stored, because the object is
    stored again before the property is looked at. -/
theorem C11_empty_property_can_panic :
    Calm cfgA fuel esDead ∧ (Call.addRemark 0 (bytes "")).pair (after cfgA fuel esDead).log =
      some (bytes "a 1", bytes "") ∧
    (((Call.addRemark 0 (bytes "")).prog fuel (after cfgA fuel esDead).log).exec cfgA
      (after cfgA fuel esDead).world).1 = .panic := by
  refine ⟨⟨rfl, ⟨by decide, by decide +kernel⟩, by simp [esDead, call, Event.Calm]⟩, ?_⟩
  decide +kernel

example : (Call.createStory (bytes " a") (bytes "b")).pair (after cfgA fuel es).log = some (bytes " a", bytes "b") ∧
    LeadingGap (bytes " a") := ⟨rfl, .inr ⟨bytes "a", by decide +kernel⟩⟩

example : (Call.addRemark 0 (bytes "")).pair (after cfgA fuel es).log = some (bytes "ab", bytes "") ∧
    LeadingGap (bytes "") ∧ (32 : UInt8) ∉ bytes "ab" := by
  refine ⟨?_, .inl (by decide +kernel), by decide +kernel⟩
  rw [after_es]; decide +kernel

end Semnet.Props
