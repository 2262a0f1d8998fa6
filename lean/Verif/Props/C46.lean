import Verif.Proof.Parts
import Verif.Props.Sample
/- C46: each text layer round-trips on its own, in any mixture with API calls. -/
namespace Semnet.Props
open Spec Sample

/-- Whatever mixture of API calls and direct calls of the four text layers was made on an initially empty
    storage: everything a layer ever returned still yields the text it was made from (with undecodable bytes
    replaced), directly and after being fetched again by the node it offers to the layer above. -/
theorem C46_layers_round_trip {cfg : Cfg} {fuel : Nat} (hd : cfg.dup = .ignore) (hf : 31 ≤ fuel) {us : List Use}
    (hu : ∀ u ∈ us, u.Fine fuel) :
    ∀ x ∈ (shop cfg fuel us).parts, x.Reads cfg fuel (shop cfg fuel us).state.world := by
  intro x hx
  rcases Stock.uses hd hf us (.inl rfl) hu with h | ⟨σ, h⟩
  · exfalso
    have : x ∈ (List.foldl (Shop.use cfg fuel) ⟨State.init cfg, []⟩ us).parts := hx
    rw [h] at this
    cases this
  · exact h.reads hf x hx

/-- Using the layers directly does not harm the API: every remark returned by an API call in such a mixture
    keeps its text, its story and its identifier. -/
theorem C46_api_unharmed {cfg : Cfg} {fuel : Nat} (hd : cfg.dup = .ignore) (hf : 31 ≤ fuel) {us : List Use}
    (hu : ∀ u ∈ us, u.Fine fuel) :
    ∀ e ∈ (shop cfg fuel us).state.log,
      Readable cfg fuel (shop cfg fuel us).state.log (shop cfg fuel us).state.world e := by
  intro e he
  rcases Stock.uses hd hf us (.inl rfl) hu with h | ⟨σ, h⟩
  · exfalso
    have : e ∈ (List.foldl (Shop.use cfg fuel) ⟨State.init cfg, []⟩ us).state.log := he
    rw [h] at this
    cases this
  · exact h.holds.readable ⟨hf, Nat.le_refl _, by omega⟩ he

/-- The character layer accepts every int32 from 0 on, in every such state. -/
theorem C46_every_rune_accepted {cfg : Cfg} {fuel : Nat} (hd : cfg.dup = .ignore) (hf : 31 ≤ fuel) {us : List Use}
    (hu : ∀ u ∈ us, u.Fine fuel) {r : Rune} (h0 : 0 ≤ r) (h1 : r < 2 ^ 31) :
    ∃ a, (shop cfg fuel (us ++ [.character r])).parts = (shop cfg fuel us).parts ++ [.character a r] := by
  have h : Sound cfg (stdLim fuel) (shop cfg fuel us).state := by
    rcases Stock.uses hd hf us (.inl rfl) hu with h | ⟨σ, h⟩
    · left
      show (List.foldl (Shop.use cfg fuel) ⟨State.init cfg, []⟩ us).state = _
      rw [h]
    · exact .inr ⟨σ, h.holds, h.clean⟩
  obtain ⟨e, w, σ, h2, _⟩ := h.charProvide (.inl hd) h0 h1
  refine ⟨⟨some e⟩, ?_⟩
  have : shop cfg fuel (us ++ [.character r]) = (shop cfg fuel us).use cfg fuel (.character r) := by
    unfold shop; rw [List.foldl_append]; rfl
  rw [this]
  show (Shop.got _ _ ((Character.provide r).exec cfg (shop cfg fuel us).state.world)).parts = _
  rw [h2]
  rfl

/-- a mixture: words, a phrase and a detail made directly, API calls in between; also a rune that is no Unicode
    character, an undecodable word and an empty word, which is refused -/
def mixture : List Use :=
  [.word (bytes "bd"), .character 0xd800, .event (.call (.createStory (bytes "bd b") (bytes "d")) Go.noFault),
   .word [], .phrase (bytes "d b"), .detail (bytes "bd b") (bytes "d b"), .word [98, 255],
   .event (.call (.addRemark 0 (bytes "d b")) Go.noFault), .event .reopen]

example : (∀ u ∈ mixture, u.Fine fuel) ∧ (shop cfgA fuel mixture).parts.length = 5 ∧
    (shop cfgA fuel mixture).state.log.length = 2 := by
  refine ⟨?_, by decide +kernel⟩
  intro u hu
  simp only [mixture, List.mem_cons, List.not_mem_nil, or_false] at hu
  rcases hu with rfl | rfl | rfl | rfl | rfl | rfl | rfl | rfl | rfl
  · exact ⟨by decide, by decide⟩
  · show (0xd800 : Int) < 2 ^ 31; decide
  · exact ⟨rfl, by decide⟩
  · exact ⟨by decide, by decide⟩
  · show (bytes "d b").length < fuel; decide
  · exact ⟨by decide, by decide⟩
  · exact ⟨by decide, by decide⟩
  · exact ⟨rfl, by decide⟩
  · exact ⟨trivial, fun t h => by cases h⟩

end Semnet.Props
