import Verif.Spec.History
/-
  Specification of text: what arbitrary bytes read as.
-/
namespace Semnet.Spec

/-- `IsText s t`: `t` is `s` with every byte at which no character's UTF-8 encoding starts replaced by
    U+FFFD. -/
inductive IsText : GoStr → GoStr → Prop
  | nil : IsText [] []
  | char (c : Char) {s t : GoStr} : IsText s t → IsText (String.utf8EncodeChar c ++ s) (String.utf8EncodeChar c ++ t)
  | bad {b : UInt8} {s t : GoStr} : (∀ c : Char, ¬ String.utf8EncodeChar c <+: b :: s) → IsText s t →
      IsText (b :: s) (bytes "�" ++ t)

end Semnet.Spec
