import Verif.Spec.History
/-
  Specification: a remark that is in the storage although no call returned it.
-/
namespace Semnet.Spec

/-- `GetRemark` finds the remark `r` by its identifier, and its texts are `o` and `p` (as Go text) -/
structure Fetched (cfg : Cfg) (fuel : Nat) (w : World) (r : RemE) (o p : GoStr) : Prop where
  get : ∃ w', (Graph.getRemark r.cls).exec cfg w = (.ok r, w')
  text : ∃ w', (Remark.getObjectAndProperty fuel r).exec cfg w = (.ok (asText o, asText p), w')

/-- the call is one of the four that create remarks, and it is made on a remark that exists -/
def Call.Makes (log : List Entry) : Call → Prop
  | .createStory _ _ => True
  | .addRemark i _ => i < log.length
  | .addFact i _ _ => i < log.length
  | .addChild i _ _ => i < log.length
  | _ => False

end Semnet.Spec
