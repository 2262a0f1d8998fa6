import Verif.Proof.Api
import Verif.Spec.Text
import Verif.Props.Sample
/- C20: invalid UTF-8 is replaced and never corrupts its neighbours. -/
namespace Semnet.Props
open Spec Sample

theorem isText_asText : ∀ (n : Nat) (s : GoStr), s.length ≤ n → IsText s (asText s) := by
  intro n
  induction n with
  | zero =>
    intro s hs
    cases s with
    | nil => exact .nil
    | cons b t => simp at hs
  | succ n ih =>
    intro s hs
    cases s with
    | nil => exact .nil
    | cons b t =>
      by_cases h : ∃ c, String.utf8EncodeChar c <+: b :: t
      · obtain ⟨c, u, hu⟩ := h
        rw [← hu, asText_char]
        refine .char c (ih u ?_)
        have h1 : 0 < (String.utf8EncodeChar c).length := by
          rw [String.length_utf8EncodeChar]; exact c.utf8Size_pos
        have h2 := congrArg List.length hu
        simp only [List.length_append, List.length_cons] at h2 hs
        omega
      · have h' : ∀ c, ¬ String.utf8EncodeChar c <+: b :: t := fun c hc => h ⟨c, hc⟩
        rw [asText_bad h']
        exact .bad h' (ih t (by simpa using hs))

theorem isText_eq {s t : GoStr} (h : IsText s t) : t = asText s := by
  induction h with
  | nil => rfl
  | char c _ ih => rw [asText_char, ← ih]
  | bad hb _ ih => rw [asText_bad hb, ← ih]

/-- Arbitrary bytes, in any state: what a creating call has stored reads back, at any later time, as the input
    with every undecodable byte replaced by U+FFFD.  Here for `CreateStory`; `C03`–`C05` give the same `asText`
    for the other calls. -/
theorem C20_invalid_utf8_replaced {cfg : Cfg} {fuel : Nat} {es es' : List Event} {o p : GoStr} {r : RemE} {w : World}
    (h : Calm cfg fuel (es ++ [.call (.createStory o p) Go.noFault] ++ es'))
    (hr : (Graph.createStory fuel o p).exec cfg (after cfg fuel es).world = (.ok r, w)) :
    ∃ o' p' w', (Remark.getObjectAndProperty fuel r).exec cfg
      (after cfg fuel (es ++ [.call (.createStory o p) Go.noFault] ++ es')).world = (.ok (o', p'), w') ∧
      IsText o o' ∧ IsText p p' := by
  obtain ⟨_, h2⟩ := h.left.left.create (c := .createStory o p) h.texts (exec_some hr) rfl
  obtain ⟨w', h1⟩ := (h.later (e := ⟨r, asText o, asText p, some (after cfg fuel es).log.length⟩)
    (by rw [h2]; simp)).text
  exact ⟨_, _, w', h1, isText_asText _ o (Nat.le_refl _), isText_asText _ p (Nat.le_refl _)⟩

/-- The specification determines the text. -/
theorem C20_text_is_determined {s t t' : GoStr} (h : IsText s t) (h' : IsText s t') : t = t' :=
  (isText_eq h).trans (isText_eq h').symm

/-- Valid UTF-8 is returned unchanged. -/
theorem C20_valid_utf8_unchanged (s : String) : IsText (bytes s) (bytes s) := by
  have := isText_asText _ (bytes s) (Nat.le_refl _)
  rwa [asText_bytes] at this

/-- a stray byte between two letters -/
example : succeeds ((Graph.createStory fuel [97, 255, 98] [0xc3]).exec cfgA (after cfgA fuel []).world) = true ∧
    asText [97, 255, 98] = bytes "a�b" := by decide +kernel

end Semnet.Props
