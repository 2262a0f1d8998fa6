import Verif.Spec.History
import Verif.Proof.RemarkWrite
/-
  Text in, text out.
-/
namespace Semnet
open Spec

theorem textOf_wordsOf (s : GoStr) : textOf (wordsOf s) = asText s := by
  unfold textOf wordsOf asText
  rw [← sanitize_eq]
  unfold sanitize
  rw [List.map_map]
  rfl

theorem split_asText (s : GoStr) : splitSpace (asText s) = (splitSpace s).map (fun w => stringOf (runesOf w)) := by
  have : asText s = joinSpace ((splitSpace s).map (fun w => stringOf (runesOf w))) := by
    unfold asText; rw [← sanitize_eq]; rfl
  rw [this]
  apply split_join
  · simpa using splitSpace_ne_nil s
  · intro w hw
    obtain ⟨v, hv, rfl⟩ := List.mem_map.1 hw
    exact stringOf_nospace (runesOf_nospace (splitSpace_nospace s v hv))

theorem runes_twice (w : GoStr) : runesOf (stringOf (runesOf w)) = runesOf w := runesOf_stringOf (runesOf_valid w)

theorem wordsOf_asText (s : GoStr) : wordsOf (asText s) = wordsOf s := by
  unfold wordsOf
  rw [split_asText, List.map_map]
  apply List.map_congr_left
  intro w _
  exact runes_twice w

theorem asText_twice (s : GoStr) : asText (asText s) = asText s := by
  rw [← textOf_wordsOf, wordsOf_asText, textOf_wordsOf]

theorem TextOK.asText {lim : Lim} {s : GoStr} (h : TextOK lim s) : TextOK lim (asText s) := by
  constructor
  · rw [split_asText]
    intro w hw
    obtain ⟨v, hv, rfl⟩ := List.mem_map.1 hw
    have := h.word v hv
    constructor
    · rw [runes_twice]; exact this.rune
    · rw [runes_twice]; exact this.len
    · rw [runes_twice]; exact this.one
  · rw [split_asText]; simpa using h.len

theorem BadWord_asText {σ : St} {w : GoStr} : BadWord σ (stringOf (runesOf w)) ↔ BadWord σ w := by
  unfold BadWord; rw [runes_twice]

theorem BadHead_asText {σ : St} {s : GoStr} : BadHead σ (asText s) ↔ BadHead σ s := by
  unfold BadHead
  rw [split_asText]
  cases h : splitSpace s with
  | nil => exact absurd h (splitSpace_ne_nil s)
  | cons w ws => exact BadWord_asText

theorem BadTail_asText {σ : St} {s : GoStr} : BadTail σ (asText s) ↔ BadTail σ s := by
  unfold BadTail AnyBad
  rw [split_asText]
  cases h : splitSpace s with
  | nil => exact absurd h (splitSpace_ne_nil s)
  | cons w ws =>
    simp only [List.map_cons, List.tail_cons, List.mem_map]
    constructor
    · rintro ⟨_, ⟨v, hv, rfl⟩, hb⟩; exact ⟨v, hv, BadWord_asText.1 hb⟩
    · rintro ⟨v, hv, hb⟩; exact ⟨_, ⟨v, hv, rfl⟩, BadWord_asText.2 hb⟩

/-- limits for texts shorter than `fuel` bytes -/
def stdLim (fuel : Nat) : Lim := ⟨fun p => p.length ≤ 31, fuel, 31, fun _ h => h, False, false⟩

theorem goodRunes_word {s w : GoStr} (hw : w ∈ splitSpace s) : ∀ r ∈ runesOf w, goodRune r :=
  fun r hr => ⟨runesOf_valid w r hr, runesOf_nospace (splitSpace_nospace s w hw) r hr⟩

theorem TextOK.std {fuel : Nat} {s : GoStr} (h : s.length < fuel) : TextOK (stdLim fuel) s := by
  constructor
  · intro w hw
    constructor
    · intro r hr
      have hg := goodRunes_word hw r hr
      refine ⟨hg, ?_⟩
      intro q _ hq
      have := hq.length_le
      have hr' := hg.range
      have := bitsOf_length (r := r) (k := 31) (by omega) (by decide)
      show q.length ≤ 31
      omega
    · have := runesOf_length w
      have := splitSpace_piece s w hw
      show _ ≤ fuel
      omega
    · exact fun h => h.elim
  · have := splitSpace_length s
    show _ ≤ fuel
    omega

end Semnet
