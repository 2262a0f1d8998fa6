import Verif.Model.Character
/-
  Arithmetic of `%b` and of the shift loop.
-/
namespace Semnet

/-- the binary code of a rune, as `fmt.Sprintf("%b")` prints it -/
def bitsOf (r : Int) : List Bool := binDigits r.natAbs r.natAbs

theorem binDigits_ne_nil (f n : Nat) : binDigits f n ≠ [] := by
  cases f with
  | zero => simp [binDigits]
  | succ f => unfold binDigits; split <;> simp

theorem bitsOf_ne_nil (r : Int) : bitsOf r ≠ [] := binDigits_ne_nil _ _

theorem collectBits_map (l : List Bool) :
    Character.collectBits (l.map (fun b => if b then '1' else '0')) = .ok l := by
  induction l with
  | nil => rfl
  | cons b l ih => cases b <;> simp [Character.collectBits, ih]

theorem collect_ok {r : Int} (h : 0 ≤ r) : Character.collect r = .ok (bitsOf r) := by
  have hs : sprintfB r = (bitsOf r).map (fun b => if b then '1' else '0') := by
    simp [sprintfB, bitsOf, Int.not_lt.2 h]
  have hl : 1 ≤ (bitsOf r).length := List.length_pos_iff.2 (bitsOf_ne_nil r)
  have hl' : ¬ ((bitsOf r).map (fun b => if b then '1' else '0')).length < 1 := by rw [List.length_map]; omega
  simp only [Character.collect, hs, if_neg hl', collectBits_map]

theorem collect_neg {r : Int} (h : r < 0) : Character.collect r = .error .invalidBitName := by
  simp [Character.collect, sprintfB, h, Character.collectBits]

/-- value of a digit string -/
def valOf (l : List Bool) : Nat := l.foldl (fun n b => 2 * n + b.toNat) 0

theorem valOf_append (l : List Bool) (b : Bool) : valOf (l ++ [b]) = 2 * valOf l + b.toNat := by
  simp [valOf, List.foldl_append]

theorem valOf_binDigits (f n : Nat) (h : n ≤ f) : valOf (binDigits f n) = n := by
  induction f generalizing n with
  | zero =>
    have : n = 0 := by omega
    subst this; rfl
  | succ f ih =>
    unfold binDigits
    split
    · rename_i h2
      match n, h2 with
      | 0, _ => rfl
      | 1, _ => rfl
    · rw [valOf_append, ih (n / 2) (by omega)]
      have : ((n % 2 == 1 : Bool)).toNat = n % 2 := by
        rcases Nat.mod_two_eq_zero_or_one n with h | h <;> rw [h] <;> rfl
      rw [this]; omega

theorem i32_of_range {n : Int} (h0 : 0 ≤ n) (h : n < 2 ^ 31) : i32 n = n := by
  unfold i32
  rw [Int.bmod_def]
  have : n % ((2 ^ 32 : Nat) : Int) = n := Int.emod_eq_of_lt h0 (by omega)
  rw [this, if_pos (by omega)]

theorem toRune_eq (l : List Bool) (h : valOf l < 2 ^ 31) : Character.toRune l = valOf l := by
  have key : ∀ n (l : List Bool), l.length = n → valOf l < 2 ^ 31 → Character.toRune l = valOf l := by
    intro n
    induction n with
    | zero =>
      intro l hl _
      rw [List.length_eq_zero_iff.1 hl]; rfl
    | succ n ih =>
      intro l hl h
      have hne : l ≠ [] := by intro e; simp [e] at hl
      obtain ⟨q, b, rfl⟩ : ∃ q b, l = q ++ [b] := ⟨l.dropLast, l.getLast hne, (List.dropLast_concat_getLast hne).symm⟩
      rw [valOf_append] at h
      have ih' := ih q (by simpa using hl) (by omega)
      have e : Character.toRune (q ++ [b]) =
          if b then i32 (i32 (Character.toRune q * 2) + 1) else i32 (Character.toRune q * 2) := by
        simp [Character.toRune, List.foldl_append]
      rw [e, ih', valOf_append]
      cases b
      · simp at h ⊢
        rw [i32_of_range (by omega) (by omega)]; exact Int.mul_comm _ _
      · simp at h ⊢
        rw [i32_of_range (n := (valOf q : Int) * 2) (by omega) (by omega), i32_of_range (by omega) (by omega)]; exact congrArg (· + 1) (Int.mul_comm _ _)
  exact key _ l rfl h

theorem toRune_bitsOf {r : Int} (h0 : 0 ≤ r) (h : r < 2 ^ 31) : Character.toRune (bitsOf r) = r := by
  have hv : valOf (bitsOf r) = r.natAbs := valOf_binDigits _ _ (Nat.le_refl _)
  rw [toRune_eq _ (by rw [hv]; omega), hv]; exact Int.natAbs_of_nonneg h0

theorem binDigits_length (f n k : Nat) (h : n < 2 ^ k) (hk : 1 ≤ k) : (binDigits f n).length ≤ k := by
  induction f generalizing n k with
  | zero => simpa [binDigits] using hk
  | succ f ih =>
    unfold binDigits
    split
    · simpa using hk
    · rename_i h2
      have : 2 ≤ k := by
        apply Classical.byContradiction
        intro hc
        have : k = 1 := by omega
        subst this; omega
      obtain ⟨j, rfl⟩ : ∃ j, k = j + 1 := ⟨k - 1, by omega⟩
      have := ih (n / 2) j (by rw [Nat.pow_succ] at h; omega) (by omega)
      simp; omega

theorem bitsOf_length {r : Int} {k : Nat} (h : r.natAbs < 2 ^ k) (hk : 1 ≤ k) : (bitsOf r).length ≤ k :=
  binDigits_length _ _ _ h hk

theorem bitsOf_inj {r s : Int} (hr : 0 ≤ r) (hs : 0 ≤ s) (h : bitsOf r = bitsOf s) : r = s := by
  have h1 : valOf (bitsOf r) = r.natAbs := valOf_binDigits _ _ (Nat.le_refl _)
  have h2 : valOf (bitsOf s) = s.natAbs := valOf_binDigits _ _ (Nat.le_refl _)
  rw [h, h2] at h1; omega

end Semnet
