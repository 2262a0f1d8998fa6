import Verif.Proof.Chars
import Verif.Props.Sample
/- C19: every non-negative rune is stored exactly; negative runes are rejected. -/
namespace Semnet.Props
open Spec Sample

/-- For every int32 `r ≥ 0` — also those that are no Unicode characters — in every state after a fault-free
    history: the character layer yields a character; extracting it gives `r`, at once and after any further
    fault-free calls; and all remarks stored before still read back. -/
theorem C19_rune_stored_exactly {cfg : Cfg} {fuel : Nat} {es : List Event} (h : Calm cfg fuel es) {r : Rune}
    (h0 : 0 ≤ r) (h1 : r < 2 ^ 31) :
    ∃ a w, (Character.provide r).exec cfg (after cfg fuel es).world = (.ok a, w) ∧
      ∀ es', Budget fuel es' → (∀ e ∈ es', e.Calm) →
        (∃ w', (Character.extract fuel a).exec cfg ((State.mk w (after cfg fuel es).log).events cfg fuel es').world =
          (.ok r, w')) ∧
        ∀ e ∈ (after cfg fuel es).log,
          Readable cfg fuel ((State.mk w (after cfg fuel es).log).events cfg fuel es').log
            ((State.mk w (after cfg fuel es).log).events cfg fuel es').world e := by
  obtain ⟨e, w, σ, h2, h3, h4, h5⟩ := h.sound.charProvide (.inl h.dup) h0 h1
  refine ⟨_, w, h2, fun es' hb hc => ?_⟩
  obtain ⟨σ', h6, _, m⟩ := calm_from h.budget.fits es' h3 h4 hc hb.texts
  constructor
  · obtain ⟨x, m', h7, h8⟩ := Rd.exec (C := calmCtx cfg (stdLim fuel)) rfl h6.is h6.flt
      (Rd.charExtract (C := calmCtx cfg (stdLim fuel)) h6.inv (h5.mono m) hb.1)
    rw [toRune_bitsOf h0 h1] at h8
    subst h8
    exact ⟨_, h7⟩
  · intro a ha
    refine h6.readable h.budget.fits ?_
    obtain ⟨l, hl⟩ := events_log cfg fuel es' (State.mk w (after cfg fuel es).log)
    rw [hl]; simp [ha]

/-- For every `r < 0` it returns an error and stores nothing, on any storage, whatever fails. -/
theorem C19_negative_rune_rejected (cfg : Cfg) (f : Nat → Fate) (w : World) {r : Rune} (h : r < 0) :
    (Character.provide r).run cfg f w = (.err .invalidBitName, w) := by
  unfold Character.provide
  rw [collect_neg h]
  rfl

/-- the largest int32, a surrogate, and zero: three runes that have the same first bits as letters in use -/
example : ∀ r ∈ [(2147483647 : Int), 0xd800, 0], ∃ a w, (Character.provide r).exec cfgA stA.world = (.ok a, w) ∧
    ((Character.extract fuel a).exec cfgA w).1 = .ok r := by
  have : ∀ r ∈ [(2147483647 : Int), 0xd800, 0], (match (Character.provide r).exec cfgA stA.world with
    | (.ok a, w) => decide (((Character.extract fuel a).exec cfgA w).1 = .ok r)
    | _ => false) = true := by decide +kernel
  intro r hr
  have := this r hr
  split at this
  · rename_i a w e; exact ⟨a, w, e, of_decide_eq_true this⟩
  · cases this

end Semnet.Props
