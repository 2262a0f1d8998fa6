import Verif.Proof.Api
import Verif.Props.Sample
/- C04: AddFactToStory stores its text. -/
namespace Semnet.Props
open Spec Sample

/-- If `e.AddFactToStory(o, p)` returns `r`, then `GetObjectAndProperty` of `r` returns `(o, p)`: right after
    the call (`es' = []`) and after any calm continuation `es'`. -/
theorem C04_add_fact_round_trip {cfg : Cfg} {fuel : Nat} {es es' : List Event} {i : Nat} {o p : String}
    (h : Calm cfg fuel (es ++ [.call (.addFact i (bytes o) (bytes p)) Go.noFault] ++ es'))
    {e : Entry} (he : (after cfg fuel es).log[i]? = some e) {r : RemE} {w : World}
    (hr : (Remark.addFactToStory fuel e.handle (bytes o) (bytes p)).exec cfg (after cfg fuel es).world = (.ok r, w)) :
    ∃ w', (Remark.getObjectAndProperty fuel r).exec cfg
      (after cfg fuel (es ++ [.call (.addFact i (bytes o) (bytes p)) Go.noFault] ++ es')).world =
      (.ok (bytes o, bytes p), w') := by
  have hc := h.left.left
  obtain ⟨h1, h2⟩ := hc.create (c := .addFact i (bytes o) (bytes p)) (r := r) (w := w)
    (e := ⟨r, asText (bytes o), asText (bytes p), none⟩) h.texts
    (by simp only [Call.prog, he]; exact exec_some hr) rfl
  have := (h.later (e := ⟨r, asText (bytes o), asText (bytes p), none⟩) (by rw [h2]; simp)).text
  simpa only [asText_bytes] using this

/-- such calls succeed on a storage with a node 0 -/
example : ((after cfgB fuel esB).log[3]?.map fun e =>
    succeeds ((Remark.addFactToStory fuel e.handle (bytes "a") (bytes "b")).exec cfgB (after cfgB fuel esB).world))
    = some true := by
  rw [after_esB]; decide +kernel

end Semnet.Props
