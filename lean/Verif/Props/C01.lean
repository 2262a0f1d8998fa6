import Verif.Proof.Api
import Verif.Props.Sample
/- C01: CreateStory round-trips its text. -/
namespace Semnet.Props
open Spec Sample

/-- After any calm history, on any storage: if `CreateStory(o, p)` returns a remark, then
    `GetObjectAndProperty` of that remark returns exactly `(o, p)`. -/
theorem C01_create_story_round_trip {cfg : Cfg} {fuel : Nat} {es : List Event} (h : Calm cfg fuel es)
    (o p : String) (ho : (bytes o).length < fuel) (hp : (bytes p).length < fuel) {r : RemE} {w : World}
    (hr : (Graph.createStory fuel (bytes o) (bytes p)).exec cfg (after cfg fuel es).world = (.ok r, w)) :
    ∃ w', (Remark.getObjectAndProperty fuel r).exec cfg w = (.ok (bytes o, bytes p), w') := by
  obtain ⟨h1, h2⟩ := h.create (c := .createStory (bytes o) (bytes p)) (r := r) (w := w)
    (by simp [Call.texts, ho, hp]) (by simp only [Call.prog]; exact exec_some hr) rfl
  have := (h1.readable (e := ⟨r, asText (bytes o), asText (bytes p), some (after cfg fuel es).log.length⟩)
    (by rw [h2]; simp)).text
  rw [h2] at this
  simpa only [asText_bytes] using this

/-- a call that succeeds on a storage with two stories -/
example : succeeds ((Graph.createStory fuel (bytes "ab d") (bytes "c")).exec cfgA (after cfgA fuel es).world) = true
    ∧ (after cfgA fuel es).log.length = 3 := by
  rw [after_es]; decide +kernel

end Semnet.Props
