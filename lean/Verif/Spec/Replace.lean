import Verif.Spec.History
/-
  Specification: texts whose undecodable bytes are in the first word only.
-/
namespace Semnet.Spec

/-- Every word after the first is valid UTF-8. -/
def TailValid (t : GoStr) : Prop := ∀ w ∈ (splitSpace t).tail, asText w = w

/-- the call with the undecodable bytes of its texts replaced by U+FFFD -/
def Call.replaced : Call → Call
  | .createStory o p => .createStory (asText o) (asText p)
  | .addRemark h p => .addRemark h (asText p)
  | .addFact h o p => .addFact h (asText o) (asText p)
  | .addChild h o p => .addChild h (asText o) (asText p)
  | .query h q => .query h q
  | .getRemark i => .getRemark i

def Event.replaced : Event → Event
  | .call c f => .call c.replaced f
  | .crash c f n => .crash c.replaced f n
  | .reopen => .reopen

end Semnet.Spec
