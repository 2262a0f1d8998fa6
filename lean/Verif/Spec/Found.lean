import Verif.Spec.Scribe
/-
  Specification: which texts are looked up, and not entered again.
-/
namespace Semnet.Spec

/-- The first word of the text is looked up: its first character begins other codes and has exactly one word. -/
def Lexicon.opens (l : Lexicon) (t : List Char) : Bool :=
  match words t with
  | (c :: _) :: _ => l.start c == .known
  | _ => false

/-- Somebody was given a remark about object `o` with property `p`, and both texts are looked up. -/
def Scribe.finds (s : Scribe) (o p : GoStr) : Prop :=
  ∃ n ∈ s.notes, utf8 n.object = o ∧ utf8 n.property = p ∧ s.lex.opens n.object = true ∧ s.lex.opens n.property = true

end Semnet.Spec
