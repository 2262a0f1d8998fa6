import Verif.Proof.Api
import Verif.Props.Sample
/- C09: GetFirstFact leads to the remark that opened the story. -/
namespace Semnet.Props
open Spec Sample

/-- For every remark whose story was opened by the remark `e'`, `GetFirstFact` returns `e'`, at any later
    time. -/
theorem C09_get_first_fact_is_opener {cfg : Cfg} {fuel : Nat} {es es' : List Event} (h : Calm cfg fuel (es ++ es'))
    {e e' : Entry} {j : Nat} (he : e ∈ (after cfg fuel es).log) (hj : e.opener = some j)
    (he' : (after cfg fuel es).log[j]? = some e') :
    ∃ w', (Remark.getFirstFact e.handle).exec cfg (after cfg fuel (es ++ es')).world = (.ok e'.handle, w') :=
  (h.later he).first (by rw [hj]; exact log_get_later es' he')

/-- The remark returned by CreateStory is the first fact of its own story. -/
theorem C09_new_story_is_its_first_fact {cfg : Cfg} {fuel : Nat} {es es' : List Event} {o p : GoStr}
    (h : Calm cfg fuel (es ++ [.call (.createStory o p) Go.noFault] ++ es')) {r : RemE} {w : World}
    (hr : (Graph.createStory fuel o p).exec cfg (after cfg fuel es).world = (.ok r, w)) :
    ∃ w', (Remark.getFirstFact r).exec cfg
      (after cfg fuel (es ++ [.call (.createStory o p) Go.noFault] ++ es')).world = (.ok r, w') := by
  obtain ⟨h1, h2⟩ := h.left.left.create (c := .createStory o p) (r := r) (w := w)
    h.texts (by simp only [Call.prog]; exact exec_some hr) rfl
  exact C09_get_first_fact_is_opener h
    (e := ⟨r, asText o, asText p, some (after cfg fuel es).log.length⟩) (j := (after cfg fuel es).log.length)
    (e' := ⟨r, asText o, asText p, some (after cfg fuel es).log.length⟩)
    (by rw [h2]; simp) rfl (by rw [h2]; simp)

/-- A remark added to the fact of `e` has the same first fact as `e`. -/
theorem C09_added_remark_same_first_fact {cfg : Cfg} {fuel : Nat} {es es' : List Event} {i : Nat} {p : GoStr}
    (h : Calm cfg fuel (es ++ [.call (.addRemark i p) Go.noFault] ++ es')) {e e' : Entry} {j : Nat}
    (he : (after cfg fuel es).log[i]? = some e) (hj : e.opener = some j)
    (he' : (after cfg fuel es).log[j]? = some e') {r : RemE} {w : World}
    (hr : (Remark.addRemarkToFact fuel e.handle p).exec cfg (after cfg fuel es).world = (.ok r, w)) :
    ∃ w', (Remark.getFirstFact r).exec cfg
      (after cfg fuel (es ++ [.call (.addRemark i p) Go.noFault] ++ es')).world = (.ok e'.handle, w') := by
  obtain ⟨h1, h2⟩ := h.left.left.create (c := .addRemark i p) (r := r) (w := w) (e := ⟨r, e.object, asText p, e.opener⟩)
    h.texts (by simp only [Call.prog, he]; exact exec_some hr) (by simp [Call.entry, he])
  exact C09_get_first_fact_is_opener h (e := ⟨r, e.object, asText p, e.opener⟩) (by rw [h2]; simp) hj
    (log_get_later _ he')

/-- on a storage with node 0: child story (2) and a remark on its fact (3) -/
example : ((after cfgB fuel esB).log.map (·.opener)) = [some 0, none, some 2, some 2] := by
  rw [after_esB]; decide +kernel

end Semnet.Props
