import Verif.Spec.History
/-
  Specification of alphabets: which characters a history uses, and which of them start words.
-/
namespace Semnet.Spec

/-- the binary code of a character, as `fmt.Sprintf("%b", c)` prints it -/
def code (c : Char) : List Char := Nat.toDigits 2 c.toNat

/-- Characters in use, and characters in use at the start of words. -/
structure Alphabet where
  used : Char → Prop
  start : Char → Prop

/-- No code of a word start is a proper prefix of the code of a character in use. -/
def Alphabet.Free (A : Alphabet) : Prop :=
  (∀ c, A.start c → A.used c) ∧ ∀ a b, A.start a → A.used b → code a <+: code b → a = b

/-- The bytes `t` are a text over the alphabet: its characters are in use, those at the beginning or after a
    space are word starts.  (Spaces may be anywhere.) -/
def Alphabet.Over (A : Alphabet) (t : GoStr) : Prop :=
  ∃ s : String, t = bytes s ∧ (∀ c ∈ s.toList, c = ' ' ∨ A.used c) ∧
    (∀ c v, s.toList = c :: v → c ≠ ' ' → A.start c) ∧
    ∀ u c v, s.toList = u ++ ' ' :: c :: v → c ≠ ' ' → A.start c

/-- The bytes `t` are a text whose words have one character: of two neighbouring characters one is a space. -/
def OneLetter (t : GoStr) : Prop :=
  ∃ s : String, t = bytes s ∧ ∀ u a b v, s.toList = u ++ a :: b :: v → a = ' ' ∨ b = ' '

end Semnet.Spec
