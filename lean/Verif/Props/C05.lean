import Verif.Proof.Api
import Verif.Props.Sample
/- C05: CreateChildStory stores its text. -/
namespace Semnet.Props
open Spec Sample

/-- If `e.CreateChildStory(o, p)` returns `r`, then `GetObjectAndProperty` of `r` returns `(o, p)`: right after
    the call (`es' = []`) and after any calm continuation `es'`. -/
theorem C05_create_child_round_trip {cfg : Cfg} {fuel : Nat} {es es' : List Event} {i : Nat} {o p : String}
    (h : Calm cfg fuel (es ++ [.call (.addChild i (bytes o) (bytes p)) Go.noFault] ++ es'))
    {e : Entry} (he : (after cfg fuel es).log[i]? = some e) {r : RemE} {w : World}
    (hr : (Remark.createChildStory fuel e.handle (bytes o) (bytes p)).exec cfg (after cfg fuel es).world = (.ok r, w)) :
    ∃ w', (Remark.getObjectAndProperty fuel r).exec cfg
      (after cfg fuel (es ++ [.call (.addChild i (bytes o) (bytes p)) Go.noFault] ++ es')).world =
      (.ok (bytes o, bytes p), w') := by
  have hc := h.left.left
  obtain ⟨h1, h2⟩ := hc.create (c := .addChild i (bytes o) (bytes p)) (r := r) (w := w)
    (e := ⟨r, asText (bytes o), asText (bytes p), some (after cfg fuel es).log.length⟩)
    h.texts
    (by simp only [Call.prog, he]; exact exec_some hr) rfl
  have := (h.later (e := ⟨r, asText (bytes o), asText (bytes p), some (after cfg fuel es).log.length⟩)
    (by rw [h2]; simp)).text
  simpa only [asText_bytes] using this

/-- the third remark of `esB` was made by such a call -/
example : ((after cfgB fuel (esB.take 2)).log[1]?.map fun e =>
    succeeds ((Remark.createChildStory fuel e.handle (bytes "c") (bytes "a")).exec cfgB
      (after cfgB fuel (esB.take 2)).world)) = some true := by
  decide +kernel

end Semnet.Props
