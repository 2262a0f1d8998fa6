import Verif.Spec.Orphan
/-
  Specification: a remark that belongs to no fact.
-/
namespace Semnet.Spec

/-- Nothing can be attached to the remark `r`, and the calls that need its fact report that there is none. -/
structure Astray (cfg : Cfg) (fuel : Nat) (w : World) (r : RemE) : Prop where
  first : ∃ w', (Remark.getFirstFact r).exec cfg w = (.err .remarkTargetFacts, w')
  story : ∃ w', (Output.getStory fuel r).exec cfg w = (.err .remarkTargetFacts, w')
  remark : ∀ p : GoStr, p.length < fuel → ∀ r' w', (Remark.addRemarkToFact fuel r p).exec cfg w ≠ (.ok r', w')
  fact : ∀ o p : GoStr, o.length < fuel → p.length < fuel →
    ∀ r' w', (Remark.addFactToStory fuel r o p).exec cfg w ≠ (.ok r', w')
  child : ∀ o p : GoStr, o.length < fuel → p.length < fuel →
    ∀ r' w', (Remark.createChildStory fuel r o p).exec cfg w ≠ (.ok r', w')

/-- AddRemarkToFact on the remark `r`, whatever it returns -/
def State.astray (cfg : Cfg) (fuel : Nat) (st : State) (r : RemE) (p : GoStr) : State :=
  ⟨((Remark.addRemarkToFact fuel r p).exec cfg st.world).2, st.log⟩

/-- The remarks of the log answer as they should, the remark `r` with the texts `o` and `p` is found and belongs to no fact,
    and there is a remark under the identifier `n`. -/
structure Harmless (cfg : Cfg) (fuel n : Nat) (st : State) (r : RemE) (o p : GoStr) : Prop where
  readable : ∀ e ∈ st.log, Readable cfg fuel st.log st.world e
  fetched : Fetched cfg fuel st.world r o p
  astray : Astray cfg fuel st.world r
  more : ∃ r' w', (Graph.getRemark n).exec cfg st.world = (.ok r', w') ∧ r'.cls = n

end Semnet.Spec
