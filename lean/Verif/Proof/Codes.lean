import Verif.Proof.Runes
import Verif.Proof.Utf8
import Verif.Spec.Lexicon
/-
  The binary codes of characters.
-/
namespace Semnet
open Spec

def digit (b : Bool) : Char := if b then '1' else '0'

theorem toDigits_two : ∀ (f n : Nat), n ≤ f → Nat.toDigits 2 n = (binDigits f n).map digit := by
  intro f
  induction f with
  | zero =>
    intro n h
    have : n = 0 := by omega
    subst this
    decide
  | succ f ih =>
    intro n h
    unfold binDigits
    by_cases h2 : n < 2
    · rw [if_pos h2]
      have : n = 0 ∨ n = 1 := by omega
      rcases this with rfl | rfl <;> decide
    · rw [if_neg h2, Nat.toDigits_of_base_le (by omega) (by omega), ih (n / 2) (by omega), List.map_append]
      congr 1
      have : n % 2 = 0 ∨ n % 2 = 1 := by omega
      rcases this with e | e <;> rw [e] <;> decide

theorem code_eq (c : Char) : code c = (bitsOf (c.val.toNat : Int)).map digit :=
  toDigits_two _ _ (Nat.le_refl _)

theorem char_valid (c : Char) : validRune (c.val.toNat : Int) = true := by
  have h : c.val.toNat.isValidChar := c.valid
  apply validRune_iff.2
  rcases h with h | h <;> omega

/-- a character as the rune the code sees -/
abbrev rune (c : Char) : Int := (c.val.toNat : Int)

theorem rune_inj {a b : Char} (h : rune a = rune b) : a = b := by
  have h' : a.val.toNat = b.val.toNat := Int.ofNat.inj h
  exact Char.ext (UInt32.toNat_inj.1 h')

theorem map_rune_inj {u v : List Char} (h : u.map rune = v.map rune) : u = v :=
  List.map_inj_right (fun _ _ => rune_inj) |>.1 h

theorem mapmap_rune_inj {u v : List (List Char)} (h : u.map (·.map rune) = v.map (·.map rune)) : u = v :=
  List.map_inj_right (fun _ _ => map_rune_inj) |>.1 h

theorem rune_range (c : Char) : 0 ≤ rune c ∧ rune c < 2 ^ 31 := by
  have := validRune_iff.1 (char_valid c)
  simp only [rune]
  omega

theorem bits_rune_inj {a b : Char} (h : bitsOf (rune a) = bitsOf (rune b)) : a = b :=
  rune_inj (bitsOf_inj (rune_range a).1 (rune_range b).1 h)

theorem digit_inj : ∀ x y : Bool, digit x = digit y → x = y := by decide

theorem binDigits_fuel {f n : Nat} (h : n ≤ f) : binDigits f n = binDigits n n :=
  List.map_inj_right digit_inj |>.1 (by rw [← toDigits_two f n h, ← toDigits_two n n (Nat.le_refl n)])

theorem binDigits_prefix : ∀ (f n : Nat), n ≤ f → ∀ {q : List Bool}, q ≠ [] → q <+: binDigits f n →
    q = bitsOf (valOf q : Nat) := by
  have whole : ∀ (f n : Nat), n ≤ f → binDigits f n = bitsOf (valOf (binDigits f n) : Nat) := by
    intro f n h
    rw [valOf_binDigits f n h, binDigits_fuel h]; rfl
  intro f
  induction f with
  | zero =>
    intro n h q hq hp
    have : q = binDigits 0 n := by
      refine hp.eq_of_length_le ?_
      have := List.length_pos_iff.2 hq
      simp [binDigits]; omega
    rw [this]; exact whole 0 n h
  | succ f ih =>
    intro n h q hq hp
    by_cases h2 : n < 2
    · have : q = binDigits (f + 1) n := by
        refine hp.eq_of_length_le ?_
        have := List.length_pos_iff.2 hq
        simp [binDigits, h2]; omega
      rw [this]; exact whole (f + 1) n h
    · have e : binDigits (f + 1) n = binDigits f (n / 2) ++ [n % 2 == 1] := by
        conv => lhs; unfold binDigits
        rw [if_neg h2]
      rw [e, List.prefix_concat_iff] at hp
      rcases hp with hp | hp
      · rw [hp, ← List.concat_eq_append] at *
        have := whole (f + 1) n h
        rw [e] at this
        simpa using this
      · exact ih (n / 2) (by omega) hq hp

/-- a non-empty prefix of a code is the code of the number that it denotes -/
theorem bitsOf_prefix {r : Int} {q : List Bool} (hq : q ≠ []) (h : q <+: bitsOf r) :
    q = bitsOf (valOf q : Nat) := binDigits_prefix _ _ (Nat.le_refl _) hq h

end Semnet
