import Verif.Spec.History
/-
  Specification: how much a storage holds, and how much one call may add to it.
-/
namespace Semnet.Spec

/-- the size of a storage: its nodes, edges and references -/
def records (s : Store) : Nat := s.nodes.length + s.edges.length + s.refs.length

/-- The storage has its class nodes and its bits: the first class node (`class/storage.go:27`) is there and some
    node is connected to it (`bit/layer.go:36-44`).  True of every storage on which some call has returned a
    remark, whatever happened afterwards. -/
def Ready (s : Store) : Prop := s.live 1 = true ∧ s.sources 1 ≠ []

/-- what a call may add whatever its texts: the entities of the remark, its fact and its story -/
def Call.base : Call → Nat
  | .addRemark _ _ => 38
  | .addFact _ _ _ => 48
  | .createStory _ _ => 57
  | .addChild _ _ _ => 60
  | _ => 0

/-- A bound on what one call may add: a constant, and 171 for each byte of its object and property.  (One byte is
    at most one character; U+FFFD, which stands for a byte that does not decode, has 16 bits; each bit may need a
    character entity of 10 records; the word entity has 11.) -/
def Call.allowance (log : List Entry) (c : Call) : Nat :=
  match c.pair log with
  | none => 0
  | some (o, p) => c.base + 171 * (o.length + p.length)

/-- the call of an event -/
def Event.allowance (log : List Entry) : Event → Nat
  | .call c _ => c.allowance log
  | .crash c _ _ => c.allowance log
  | .reopen => 0

/-- what a list of events may add altogether -/
def allowed (cfg : Cfg) (fuel : Nat) : State → List Event → Nat
  | _, [] => 0
  | st, e :: es => e.allowance st.log + allowed cfg fuel (st.event cfg fuel e) es

end Semnet.Spec
