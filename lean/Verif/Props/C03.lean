import Verif.Proof.Api
import Verif.Props.Sample
/- C03: AddRemarkToFact keeps the object and stores the new property. -/
namespace Semnet.Props
open Spec Sample

/-- If `e.AddRemarkToFact(p)` returns `r`, then `r`'s object is `e`'s object, as read before the call, and
    its property is `p`.  `r` is a remark of the longer history, so this composes along chains of calls. -/
theorem C03_add_remark_keeps_object {cfg : Cfg} {fuel : Nat} {es : List Event} (h : Calm cfg fuel es)
    {e : Entry} (he : e ∈ (after cfg fuel es).log) (p : String) (hp : (bytes p).length < fuel)
    {r : RemE} {w : World}
    (hr : (Remark.addRemarkToFact fuel e.handle (bytes p)).exec cfg (after cfg fuel es).world = (.ok r, w))
    {o q : GoStr} {w1 : World}
    (ho : (Remark.getObjectAndProperty fuel e.handle).exec cfg (after cfg fuel es).world = (.ok (o, q), w1)) :
    ∃ w', (Remark.getObjectAndProperty fuel r).exec cfg w = (.ok (o, bytes p), w') := by
  obtain ⟨i, hi⟩ := List.mem_iff_getElem?.1 he
  obtain ⟨h1, h2⟩ := h.create (c := .addRemark i (bytes p)) (r := r) (w := w)
    (e := ⟨r, e.object, asText (bytes p), e.opener⟩)
    (by simp [Call.texts, hp]) (by simp only [Call.prog, hi]; exact exec_some hr) (by simp [Call.entry, hi])
  have := (h1.readable (e := ⟨r, e.object, asText (bytes p), e.opener⟩) (by rw [h2]; simp)).text
  rw [h2, asText_bytes] at this
  obtain ⟨w2, h3⟩ := (h.readable he).text
  rw [h3] at ho
  simp only [Prod.mk.injEq, Out.ok.injEq] at ho
  rw [← ho.1.1]; exact this

/-- a chain of two: the second remark of the history was itself made by AddRemarkToFact -/
example : ((after cfgA fuel es).log[1]?.map fun e =>
    succeeds ((Remark.addRemarkToFact fuel e.handle (bytes "b")).exec cfgA (after cfgA fuel es).world)) = some true := by
  rw [after_es]; decide +kernel

end Semnet.Props
