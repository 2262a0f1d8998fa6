import Verif.Proof.Api
import Verif.Props.Sample
/- C08: Output.GetStory prints the story's first remark. -/
namespace Semnet.Props
open Spec Sample

/-- For every remark whose story was opened by the remark `e'` (see `Call.entry`: a remark made by CreateStory
    or CreateChildStory opens its own story, AddRemarkToFact inherits it), `Output.GetStory` returns the
    object and the property of `e'`, each followed by a space, and nothing else; at any later time. -/
theorem C08_get_story_prints_opener {cfg : Cfg} {fuel : Nat} {es es' : List Event} (h : Calm cfg fuel (es ++ es'))
    {e e' : Entry} {j : Nat} (he : e ∈ (after cfg fuel es).log) (hj : e.opener = some j)
    (he' : (after cfg fuel es).log[j]? = some e') :
    ∃ w', (Output.getStory fuel e.handle).exec cfg (after cfg fuel (es ++ es')).world =
      (.ok (e'.object ++ bytes " " ++ e'.property ++ bytes " "), w') :=
  (h.later he).story (by rw [hj]; exact log_get_later es' he')

/-- The remark returned by `CreateStory(o, p)` prints as "o p ". -/
theorem C08_get_story_of_new_story {cfg : Cfg} {fuel : Nat} {es es' : List Event} {o p : String}
    (h : Calm cfg fuel (es ++ [.call (.createStory (bytes o) (bytes p)) Go.noFault] ++ es')) {r : RemE} {w : World}
    (hr : (Graph.createStory fuel (bytes o) (bytes p)).exec cfg (after cfg fuel es).world = (.ok r, w)) :
    ∃ w', (Output.getStory fuel r).exec cfg
      (after cfg fuel (es ++ [.call (.createStory (bytes o) (bytes p)) Go.noFault] ++ es')).world =
      (.ok (bytes (o ++ " " ++ p ++ " ")), w') := by
  obtain ⟨h1, h2⟩ := h.left.left.create (c := .createStory (bytes o) (bytes p)) (r := r) (w := w)
    h.texts (by simp only [Call.prog]; exact exec_some hr) rfl
  have := C08_get_story_prints_opener h
    (e := ⟨r, asText (bytes o), asText (bytes p), some (after cfg fuel es).log.length⟩) (j := (after cfg fuel es).log.length)
    (e' := ⟨r, asText (bytes o), asText (bytes p), some (after cfg fuel es).log.length⟩)
    (by rw [h2]; simp) rfl (by rw [h2]; simp)
  simpa only [asText_bytes, bytes_append] using this

/-- the second remark's story was opened by the first -/
example : ((after cfgA fuel es).log.map (·.opener)) = [some 0, some 0, some 2] ∧
    (after cfgA fuel es).log[0]?.map (fun e => e.object ++ bytes " " ++ e.property ++ bytes " ") =
      some (bytes "ab c ") := by
  rw [after_es]; decide +kernel

end Semnet.Props
