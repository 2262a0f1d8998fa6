import Verif.Proof.Chars
import Verif.Props.Sample
/- C21: characters are shared. -/
namespace Semnet.Props
open Spec Sample

/-- Providing the rune `r`, then any fault-free calls, then providing `r` again: the second time yields the
    same character, and nothing is written. -/
theorem C21_characters_shared {cfg : Cfg} {fuel : Nat} {es es' : List Event} (h : Calm cfg fuel es)
    (hb : Budget fuel es') (hc : ∀ e ∈ es', e.Calm) {r : Rune} (h1 : r < 2 ^ 31) {a : CharAgg} {w : World}
    (hr : (Character.provide r).exec cfg (after cfg fuel es).world = (.ok a, w)) :
    ∃ m, (Character.provide r).exec cfg ((State.mk w (after cfg fuel es).log).events cfg fuel es').world =
      (.ok a, ⟨((State.mk w (after cfg fuel es).log).events cfg fuel es').world.store, m⟩) := by
  have h0 : 0 ≤ r := by
    rcases Int.lt_or_le r 0 with h0 | h0
    · have := collect_neg h0
      unfold Character.provide at hr
      rw [this] at hr
      cases (Prod.mk.inj hr).1
    · exact h0
  obtain ⟨e, w', σ, h2, h3, h4, h5⟩ := h.sound.charProvide (.inl h.dup) h0 h1
  rw [h2] at hr
  cases hr
  obtain ⟨σ', h6, _, m⟩ := calm_from h.budget.fits es' h3 h4 hc hb.texts
  obtain ⟨x, m', h7, h8⟩ := Rd.exec (C := calmCtx cfg (stdLim fuel)) rfl h6.is h6.flt
    (Rd.charProvide (C := calmCtx cfg (stdLim fuel)) rfl rfl h6.inv h6.flt (collect_ok h0) (h5.mono m))
  subst h8
  exact ⟨m', h7⟩

/-- Different runes are different characters. -/
theorem C21_different_runes_differ {cfg : Cfg} {fuel : Nat} {es : List Event} (h : Calm cfg fuel es)
    {r s : Rune} (hr1 : r < 2 ^ 31) (hs1 : s < 2 ^ 31) {a b : CharAgg} {w w' : World}
    (hr : (Character.provide r).exec cfg (after cfg fuel es).world = (.ok a, w))
    (hs : (Character.provide s).exec cfg w = (.ok b, w')) (hab : a = b) : r = s := by
  have pos : ∀ {x : Rune} {u v c}, (Character.provide x).exec cfg u = (.ok c, v) → 0 ≤ x := by
    intro x u v c hx
    rcases Int.lt_or_le x 0 with h0 | h0
    · have := collect_neg h0
      unfold Character.provide at hx
      rw [this] at hx
      cases (Prod.mk.inj hx).1
    · exact h0
  have hr0 := pos hr
  have hs0 := pos hs
  obtain ⟨e, w1, σ, h2, h3, h4, h5⟩ := h.sound.charProvide (.inl h.dup) hr0 hr1
  rw [h2] at hr
  cases hr
  obtain ⟨e', w2, σ', h2', h3', h4', h5', m⟩ := Holds.charProvide (st := ⟨w, (after cfg fuel es).log⟩) h3 h4 hs0 hs1
  have e1 : (⟨some e⟩ : CharAgg) = ⟨some e'⟩ := by
    rw [h2'] at hs
    cases hs
    exact hab
  cases e1
  exact bitsOf_inj hr0 hs0 ((h5.mono m).path_eq h5')

/-- the letter "a" is already stored in the sample storage; "z" is not -/
example : ((Character.provide 97).exec cfgA stA.world).2.store = stA.world.store ∧
    ((Character.provide 122).exec cfgA stA.world).2.store ≠ stA.world.store := by decide +kernel

end Semnet.Props
