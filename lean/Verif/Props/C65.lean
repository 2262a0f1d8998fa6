import Verif.Proof.Path
/- C65: the reversal of paths. -/
namespace Semnet.Props

/-- The loop of `path.reverse` ends after as many rounds as there are elements, never indexes out of range, and the `i`-th
    element from the front of the result is the `i`-th from the back of the path, whatever the elements. -/
theorem C65_reverses {α : Type} (zero : α) (p : List α) {fuel : Nat} (h : p.length ≤ fuel) :
    ∃ q, Path.reverse fuel zero p = some (some q) ∧ q.length = p.length ∧
      ∀ i, i < p.length → q[i]? = p[p.length - 1 - i]? := by
  refine ⟨p.reverse, Path.reverse_eq zero p h, List.length_reverse, fun i hi => ?_⟩
  rw [List.getElem?_reverse hi]

/-- Reversing twice gives back the path. -/
theorem C65_twice {α : Type} (zero : α) (p : List α) {fuel : Nat} (h : p.length ≤ fuel) :
    ∃ q, Path.reverse fuel zero p = some (some q) ∧ Path.reverse fuel zero q = some (some p) :=
  ⟨p.reverse, Path.reverse_eq zero p h, by rw [Path.reverse_eq zero _ (by simpa using h), List.reverse_reverse]⟩

/-- It is what the model of `Extract` uses. -/
theorem C65_as_modelled {α : Type} (zero : α) (p : List α) {fuel : Nat} (h : p.length ≤ fuel) :
    Path.reverse fuel zero p = some (some p.reverse) := Path.reverse_eq zero p h

example : Path.reverse 4 0 [1, 2, 3, 4] = some (some [4, 3, 2, 1]) ∧ Path.reverse 0 0 ([] : List Nat) = some (some []) := by
  decide

/-- too few rounds -/
example : Path.reverse 3 0 [1, 2, 3, 4] = some none := by decide

end Semnet.Props
