import Verif.Model.Path
/-
  The loop of `path.reverse`.
-/
namespace Semnet
namespace Path

/-- after `i` rounds the last `i` places hold the first `i` elements in reverse order -/
theorem loop_reverse {α : Type} (p : List α) (zero : α) : ∀ (n i : Nat), i + n = p.length → ∀ fuel, n ≤ fuel →
    reverseLoop p fuel p.length i ((p.length : Int) - 1 - i) (List.replicate n zero ++ (p.take i).reverse) = some (some p.reverse) := by
  intro n
  induction n with
  | zero =>
    intro i hi fuel _
    have h : ¬ (i : Int) < p.length := by omega
    have ht : p.take i = p := List.take_of_length_le (by omega)
    cases fuel <;> simp [reverseLoop, h, ht]
  | succ n ih =>
    intro i hi fuel hf
    obtain ⟨fuel, rfl⟩ : ∃ f, fuel = f + 1 := ⟨fuel - 1, by omega⟩
    have hl : (i : Int) < p.length := by omega
    have hi' : i < p.length := by omega
    have hlen : (List.replicate (n + 1) zero ++ (p.take i).reverse).length = p.length := by
      simp; omega
    have hj : (((p.length : Int) - 1 - i)).toNat = n := by omega
    have hs : store p (List.replicate (n + 1) zero ++ (p.take i).reverse) i ((p.length : Int) - 1 - i) =
        some (List.replicate n zero ++ (p.take (i + 1)).reverse) := by
      unfold store
      rw [if_pos (by rw [hlen]; omega), hj]
      simp only [Int.toNat_natCast, List.getElem?_eq_getElem hi']
      congr 1
      rw [List.take_succ_eq_append_getElem hi', List.reverse_append, List.set_append_left _ _ (by simp), List.replicate_succ',
        List.set_append_right _ _ (by simp)]
      simp
    rw [reverseLoop, if_pos hl, hs]
    have := ih (i + 1) (by omega) fuel (by omega)
    simp only
    rw [← this]
    congr 1
    omega

theorem reverse_eq {α : Type} (zero : α) (p : List α) {fuel : Nat} (h : p.length ≤ fuel) : reverse fuel zero p = some (some p.reverse) := by
  have := loop_reverse p zero p.length 0 (by omega) fuel h
  simpa [reverse] using this

end Path
end Semnet
