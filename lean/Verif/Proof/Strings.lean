import Verif.Proof.Text
import Verif.Proof.Codes
/-
  Lean strings as Go strings; the decoder against the UTF-8 encoding of characters.
-/
namespace Semnet
open Spec

theorem encode_char (c : Char) : encodeRune (c.val.toNat : Int) = String.utf8EncodeChar c := by
  have h : c.val.toNat.isValidChar := c.valid
  have hb : c.val.toNat ≤ 0x10FFFF := by rcases h with h | h <;> omega
  unfold encodeRune
  rw [if_pos (char_valid c)]
  unfold encodeNat String.utf8EncodeChar
  simp only [Int.toNat_natCast]
  generalize c.val.toNat = n at hb
  by_cases h1 : n < 0x80
  · rw [if_pos h1, if_pos (c := n ≤ 127) (by omega)]
  · rw [if_neg h1, if_neg (c := n ≤ 127) (by omega)]
    by_cases h2 : n < 0x800
    · rw [if_pos h2, if_pos (c := n ≤ 2047) (by omega), show n / 64 % 32 + 192 = 0xC0 + n / 64 by omega,
        show n % 64 + 128 = 0x80 + n % 64 by omega]
    · rw [if_neg h2, if_neg (c := n ≤ 2047) (by omega)]
      by_cases h3 : n < 0x10000
      · rw [if_pos h3, if_pos (c := n ≤ 65535) (by omega), show n / 4096 % 16 + 224 = 0xE0 + n / 4096 by omega,
          show n / 64 % 64 + 128 = 0x80 + n / 64 % 64 by omega, show n % 64 + 128 = 0x80 + n % 64 by omega]
      · rw [if_neg h3, if_neg (c := n ≤ 65535) (by omega), show n / 262144 % 8 + 240 = 0xF0 + n / 262144 by omega,
          show n / 4096 % 64 + 128 = 0x80 + n / 4096 % 64 by omega,
          show n / 64 % 64 + 128 = 0x80 + n / 64 % 64 by omega, show n % 64 + 128 = 0x80 + n % 64 by omega]

theorem bytes_eq (s : String) : bytes s = s.toList.flatMap String.utf8EncodeChar := by
  unfold bytes String.toUTF8
  conv => lhs; rw [← String.ofList_toList (s := s)]
  rw [String.toByteArray_ofList]
  simp [List.utf8Encode]

theorem bytes_append (s t : String) : bytes (s ++ t) = bytes s ++ bytes t := by
  rw [bytes_eq, bytes_eq, bytes_eq, String.toList_append, List.flatMap_append]

theorem bytes_runes (s : String) : bytes s = stringOf (s.toList.map fun c => (c.val.toNat : Int)) := by
  rw [bytes_eq]
  unfold stringOf
  rw [List.flatMap_map]
  have : (fun c : Char => encodeRune (c.val.toNat : Int)) = String.utf8EncodeChar := by
    funext c; exact encode_char c
  rw [this]

theorem runesOf_bytes (s : String) : runesOf (bytes s) = s.toList.map fun c => (c.val.toNat : Int) := by
  rw [bytes_runes, runesOf_stringOf]
  intro r hr
  obtain ⟨c, _, rfl⟩ := List.mem_map.1 hr
  exact char_valid c

/-- a caller's valid UTF-8 is its own text -/
theorem asText_bytes (s : String) : asText (bytes s) = bytes s := by
  unfold asText
  rw [runesOf_bytes, ← bytes_runes]

/-- decoding finds a character's encoding or replaces one byte -/
theorem decodeRune_prefix (b : UInt8) (t : List UInt8) :
    decodeRune (b :: t) = (runeError, 1) ∨
    (validRune (decodeRune (b :: t)).1 = true ∧
      b :: t = encodeRune (decodeRune (b :: t)).1 ++ (b :: t).drop (decodeRune (b :: t)).2) := by
  have hb : b.toNat < 256 := b.toNat_lt
  have of : ∀ (c : UInt8) (n : Nat), n = c.toNat → UInt8.ofNat n = c := by
    intro c n h; rw [h]; exact UInt8.ofNat_toNat
  generalize hd : decodeRune (b :: t) = d
  simp only [decodeRune] at hd
  split at hd
  · rename_i h1
    subst hd
    have hv : validRune (b.toNat : Int) = true := by apply validRune_iff.2; omega
    refine .inr ⟨hv, ?_⟩
    simp only [encodeRune, hv, if_true, Int.toNat_natCast, encodeNat, h1]
    rw [of b _ rfl]; rfl
  · split at hd
    · subst hd; exact .inl rfl
    · split at hd
      · split at hd
        · split at hd
          · rename_i b1 t' hc
            simp only [inRange, Bool.and_eq_true, decide_eq_true_eq] at hc
            subst hd
            have hv : validRune (((b.toNat - 0xC0) * 64 + (b1.toNat - 0x80) : Nat) : Int) = true := by
              apply validRune_iff.2; omega
            refine .inr ⟨hv, ?_⟩
            simp only [encodeRune, hv, if_true, Int.toNat_natCast, encodeNat]
            rw [if_neg (by omega), if_pos (by omega), of b _ (by omega), of b1 _ (by omega)]; rfl
          · subst hd; exact .inl rfl
        · subst hd; exact .inl rfl
      · split at hd
        · split at hd
          · rename_i b1 b2 t'
            by_cases hc : (inRange (if b.toNat = 0xE0 then 0xA0 else 0x80) (if b.toNat = 0xED then 0x9F else 0xBF) b1
                && inRange 0x80 0xBF b2) = true
            · rw [if_pos hc] at hd
              simp only [inRange, Bool.and_eq_true, decide_eq_true_eq] at hc
              subst hd
              obtain ⟨⟨h1, h2⟩, h3, h4⟩ := hc
              have h5 : 0x80 ≤ b1.toNat ∧ b1.toNat ≤ 0xBF ∧ (b.toNat = 0xE0 → 0xA0 ≤ b1.toNat) ∧
                  (b.toNat = 0xED → b1.toNat ≤ 0x9F) := by
                split at h1 <;> split at h2 <;> omega
              have hv : validRune (((b.toNat - 0xE0) * 4096 + (b1.toNat - 0x80) * 64 + (b2.toNat - 0x80) : Nat) : Int) = true := by
                apply validRune_iff.2; omega
              refine .inr ⟨hv, ?_⟩
              simp only [encodeRune, hv, if_true, Int.toNat_natCast, encodeNat]
              rw [if_neg (by omega), if_neg (by omega), if_pos (by omega), of b _ (by omega), of b1 _ (by omega),
                of b2 _ (by omega)]; rfl
            · rw [if_neg hc] at hd; subst hd; exact .inl rfl
          · subst hd; exact .inl rfl
        · split at hd
          · split at hd
            · rename_i b1 b2 b3 t'
              by_cases hc : (inRange (if b.toNat = 0xF0 then 0x90 else 0x80) (if b.toNat = 0xF4 then 0x8F else 0xBF) b1
                  && inRange 0x80 0xBF b2 && inRange 0x80 0xBF b3) = true
              · rw [if_pos hc] at hd
                simp only [inRange, Bool.and_eq_true, decide_eq_true_eq] at hc
                subst hd
                obtain ⟨⟨⟨h1, h2⟩, h3, h4⟩, h5, h6⟩ := hc
                have h7 : 0x80 ≤ b1.toNat ∧ b1.toNat ≤ 0xBF ∧ (b.toNat = 0xF0 → 0x90 ≤ b1.toNat) ∧
                    (b.toNat = 0xF4 → b1.toNat ≤ 0x8F) := by
                  split at h1 <;> split at h2 <;> omega
                have hv : validRune (((b.toNat - 0xF0) * 262144 + (b1.toNat - 0x80) * 4096 + (b2.toNat - 0x80) * 64
                    + (b3.toNat - 0x80) : Nat) : Int) = true := by
                  apply validRune_iff.2; omega
                refine .inr ⟨hv, ?_⟩
                simp only [encodeRune, hv, if_true, Int.toNat_natCast, encodeNat]
                rw [if_neg (by omega), if_neg (by omega), if_neg (by omega), of b _ (by omega), of b1 _ (by omega),
                  of b2 _ (by omega), of b3 _ (by omega)]; rfl
              · rw [if_neg hc] at hd; subst hd; exact .inl rfl
            · subst hd; exact .inl rfl
          · subst hd; exact .inl rfl

/-- the character with this code -/
def charOf (r : Int) (h : validRune r = true) : Char :=
  ⟨UInt32.ofNat r.toNat, by
    have h := validRune_iff.1 h
    have : (UInt32.ofNat r.toNat).toNat = r.toNat := by simp; omega
    show (UInt32.ofNat r.toNat).toNat.isValidChar
    rw [this]
    unfold Nat.isValidChar
    omega⟩

theorem charOf_val {r : Int} (h : validRune r = true) : ((charOf r h).val.toNat : Int) = r := by
  have h' := validRune_iff.1 h
  have : (UInt32.ofNat r.toNat).toNat = r.toNat := by simp; omega
  show (((UInt32.ofNat r.toNat).toNat : Nat) : Int) = r
  rw [this]; omega

theorem charOf_encode {r : Int} (h : validRune r = true) : String.utf8EncodeChar (charOf r h) = encodeRune r := by
  rw [← encode_char, charOf_val]

theorem asText_char (c : Char) (t : GoStr) : asText (String.utf8EncodeChar c ++ t) = String.utf8EncodeChar c ++ asText t := by
  unfold asText
  rw [← encode_char, runesOf_encode (char_valid c)]
  simp [stringOf]

theorem asText_bad {b : UInt8} {t : GoStr} (h : ∀ c, ¬ String.utf8EncodeChar c <+: b :: t) :
    asText (b :: t) = bytes "�" ++ asText t := by
  rcases decodeRune_prefix b t with h1 | ⟨hv, h1⟩
  · unfold asText
    rw [runesOf_cons, h1]
    simp only [stringOf, List.flatMap_cons, List.drop_succ_cons, List.drop_zero]
    congr 1
  · exact absurd ⟨_, by rw [charOf_encode hv]; exact h1.symm⟩ (h (charOf _ hv))

end Semnet
