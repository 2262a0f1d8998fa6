/-
  `path.reverse` of the packages `character`, `word` and `phrase`: three copies of one loop on slices.
-/
namespace Semnet
namespace Path

/-- `reversed[j] = p[i]`; `none` is the run-time panic of an index out of range (`character/path.go:10`, `word/path.go:10`,
    `phrase/path.go:12`). -/
def store {α : Type} (p reversed : List α) (i j : Int) : Option (List α) :=
  if 0 ≤ i ∧ i < p.length ∧ 0 ≤ j ∧ j < reversed.length then
    match p[i.toNat]? with
    | some a => some (reversed.set j.toNat a)
    | none => none
  else none

/-- the loop (`character/path.go:9-11`, `word/path.go:9-11`, `phrase/path.go:11-13`); the first argument is a step budget,
    `none` the run-time panic, `some none` the budget being used up -/
def reverseLoop {α : Type} (p : List α) : Nat → (total i j : Int) → List α → Option (Option (List α))
  | 0, total, i, _, reversed => if i < total then some none else some (some reversed)
  | n + 1, total, i, j, reversed =>
    if i < total then
      match store p reversed i j with
      | none => none
      | some reversed => reverseLoop p n total (i + 1) (j - 1) reversed
    else some (some reversed)

/-- `path.reverse` (`character/path.go:5-14`, `word/path.go:5-14`, `phrase/path.go:7-16`); `zero` is the zero value that `make`
    fills the slice with.  The functions `Extract` of the model (`Character.extract`, `Word.extract`, `Phrase.extract`) use
    `List.reverse` instead; see C65. -/
def reverse {α : Type} (fuel : Nat) (zero : α) (p : List α) : Option (Option (List α)) :=
  reverseLoop p fuel p.length 0 (p.length - 1) (List.replicate p.length zero)

end Path
end Semnet
