import Verif.Spec.Race
/-
  Specification: storages on which semnet was interrupted while it made the bits or the class nodes.
-/
namespace Semnet.Spec

/-- The first class node exists, and `l` are the nodes connected to it: neither none nor two. -/
structure Maimed (l : List Nat) (s : Store) : Prop where
  live : s.live 1 = true
  sources : s.sources 1 = l
  none : l.length ≠ 0
  two : l.length ≠ 2

/-- Two nodes are connected to the first class node, and neither refers to another node; there is no node 0. -/
structure Charless (a b : Nat) (s : Store) : Prop where
  live : s.live 1 = true
  zero : s.live 0 = false
  sources : (s.sources 1).Perm [a, b]
  first : s.fwd a = 0
  second : s.fwd b = 0
  old : a < s.next ∧ b < s.next
  targets : ∀ e ∈ s.edges, e.2 ≠ 0

/-- The first class node exists; the class node `c` does not, and its identifier has been given away. -/
structure Lost (c : Nat) (s : Store) : Prop where
  live : s.live 1 = true
  gone : s.live c = false
  past : c < s.next

/-- the questions whose answers are made of texts -/
def Query.Textual (q : Query) : Prop := q = .getObjectAndProperty ∨ q = .getStory

/-- the call stores or reads texts -/
def Call.Textual : Call → Prop
  | .query _ q => q.Textual
  | .getRemark _ => False
  | _ => True

end Semnet.Spec
