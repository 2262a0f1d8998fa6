import Verif.Model.GoStr
/-
  Go string conversions: decoding is a left inverse of encoding, splitting of joining.
-/
namespace Semnet

theorem ofNat_toNat {n : Nat} (h : n < 256) : (UInt8.ofNat n).toNat = n := by
  simp [UInt8.toNat_ofNat']; omega

theorem encodeNat_ne_nil (n : Nat) : encodeNat n ≠ [] := by
  unfold encodeNat; repeat' split
  all_goals simp

theorem inRange_ofNat {lo hi n : Nat} (h : n < 256) (h1 : lo ≤ n) (h2 : n ≤ hi) :
    inRange lo hi (UInt8.ofNat n) = true := by
  unfold inRange
  rw [ofNat_toNat h]
  simp [h1, h2]

theorem decode1 {a : UInt8} {t : List UInt8} (h : a.toNat < 0x80) :
    decodeRune (a :: t) = ((a.toNat : Int), 1) := by
  simp only [decodeRune]
  rw [if_pos h]

theorem decode2 {a b : UInt8} {t : List UInt8} (h : 0xC2 ≤ a.toNat) (h' : a.toNat < 0xE0)
    (hb : inRange 0x80 0xBF b = true) :
    decodeRune (a :: b :: t) = ((((a.toNat - 0xC0) * 64 + (b.toNat - 0x80) : Nat) : Int), 2) := by
  simp only [decodeRune]
  rw [if_neg (by omega), if_neg (by omega), if_pos h', if_pos hb]

theorem decode3 {a b c : UInt8} {t : List UInt8} (h : 0xE0 ≤ a.toNat) (h' : a.toNat < 0xF0)
    (hb : inRange (if a.toNat = 0xE0 then 0xA0 else 0x80) (if a.toNat = 0xED then 0x9F else 0xBF) b = true)
    (hc : inRange 0x80 0xBF c = true) :
    decodeRune (a :: b :: c :: t) =
      ((((a.toNat - 0xE0) * 4096 + (b.toNat - 0x80) * 64 + (c.toNat - 0x80) : Nat) : Int), 3) := by
  simp only [decodeRune]
  rw [if_neg (by omega), if_neg (by omega), if_neg (by omega), if_pos h', if_pos (by simp [hb, hc])]

theorem decode4 {a b c d : UInt8} {t : List UInt8} (h : 0xF0 ≤ a.toNat) (h' : a.toNat < 0xF5)
    (hb : inRange (if a.toNat = 0xF0 then 0x90 else 0x80) (if a.toNat = 0xF4 then 0x8F else 0xBF) b = true)
    (hc : inRange 0x80 0xBF c = true) (hd : inRange 0x80 0xBF d = true) :
    decodeRune (a :: b :: c :: d :: t) =
      ((((a.toNat - 0xF0) * 262144 + (b.toNat - 0x80) * 4096 + (c.toNat - 0x80) * 64 + (d.toNat - 0x80) : Nat) : Int), 4) := by
  simp only [decodeRune]
  rw [if_neg (by omega), if_neg (by omega), if_neg (by omega), if_neg (by omega), if_pos h',
    if_pos (by simp [hb, hc, hd])]

/-- decoding undoes encoding -/
theorem decode_encodeNat {n : Nat} (h : n ≤ 0x10FFFF) (hs : n < 0xD800 ∨ 0xE000 ≤ n) (t : List UInt8) :
    decodeRune (encodeNat n ++ t) = ((n : Int), (encodeNat n).length) := by
  unfold encodeNat
  split
  · rename_i h1
    simp only [List.cons_append, List.nil_append]
    rw [decode1 (by rw [ofNat_toNat (by omega)]; exact h1), ofNat_toNat (by omega)]
    rfl
  · split
    · rename_i h1 h2
      have e1 := ofNat_toNat (n := 0xC0 + n / 64) (by omega)
      have e2 := ofNat_toNat (n := 0x80 + n % 64) (by omega)
      simp only [List.cons_append, List.nil_append]
      rw [decode2 (by rw [e1]; omega) (by rw [e1]; omega) (inRange_ofNat (n := 0x80 + n % 64) (by omega) (by omega) (by omega)), e1, e2]
      have key : (0xC0 + n / 64 - 0xC0) * 64 + (0x80 + n % 64 - 0x80) = n := by omega
      rw [key]; rfl
    · split
      · rename_i h1 h2 h3
        have e1 := ofNat_toNat (n := 0xE0 + n / 4096) (by omega)
        have e2 := ofNat_toNat (n := 0x80 + n / 64 % 64) (by omega)
        have e3 := ofNat_toNat (n := 0x80 + n % 64) (by omega)
        simp only [List.cons_append, List.nil_append]
        rw [decode3 (by rw [e1]; omega) (by rw [e1]; omega)
          (inRange_ofNat (n := 0x80 + n / 64 % 64) (by omega) (by rw [e1]; split <;> omega) (by rw [e1]; split <;> omega))
          (inRange_ofNat (n := 0x80 + n % 64) (by omega) (by omega) (by omega)), e1, e2, e3]
        have key : (0xE0 + n / 4096 - 0xE0) * 4096 + (0x80 + n / 64 % 64 - 0x80) * 64 + (0x80 + n % 64 - 0x80) = n := by omega
        rw [key]; rfl
      · rename_i h1 h2 h3
        have e1 := ofNat_toNat (n := 0xF0 + n / 262144) (by omega)
        have e2 := ofNat_toNat (n := 0x80 + n / 4096 % 64) (by omega)
        have e3 := ofNat_toNat (n := 0x80 + n / 64 % 64) (by omega)
        have e4 := ofNat_toNat (n := 0x80 + n % 64) (by omega)
        simp only [List.cons_append, List.nil_append]
        rw [decode4 (by rw [e1]; omega) (by rw [e1]; omega)
          (inRange_ofNat (n := 0x80 + n / 4096 % 64) (by omega) (by rw [e1]; split <;> omega) (by rw [e1]; split <;> omega))
          (inRange_ofNat (n := 0x80 + n / 64 % 64) (by omega) (by omega) (by omega))
          (inRange_ofNat (n := 0x80 + n % 64) (by omega) (by omega) (by omega)), e1, e2, e3, e4]
        have key : (0xF0 + n / 262144 - 0xF0) * 262144 + (0x80 + n / 4096 % 64 - 0x80) * 4096 + (0x80 + n / 64 % 64 - 0x80) * 64 + (0x80 + n % 64 - 0x80) = n := by omega
        rw [key]; rfl

theorem validRune_iff {r : Int} : validRune r = true ↔ 0 ≤ r ∧ (r < 0xD800 ∨ 0xE000 ≤ r) ∧ r ≤ 0x10FFFF := by
  simp [validRune, and_assoc]

theorem decode_encodeRune {r : Int} (h : validRune r = true) (t : List UInt8) :
    decodeRune (encodeRune r ++ t) = (r, (encodeRune r).length) := by
  have hv := validRune_iff.1 h
  unfold encodeRune
  rw [if_pos h, decode_encodeNat (by omega) (by omega)]
  simp; omega

theorem encodeRune_ne_nil (r : Int) : encodeRune r ≠ [] := by
  unfold encodeRune; split <;> exact encodeNat_ne_nil _

theorem decodeRune_pos (b : UInt8) (t : List UInt8) : 1 ≤ (decodeRune (b :: t)).2 := by
  simp only [decodeRune]
  repeat' split
  all_goals simp

theorem decodeRunes_fuel (n : Nat) (s : GoStr) (h : s.length ≤ n) : decodeRunes n s = runesOf s := by
  unfold runesOf
  have key : ∀ k s n m, s.length ≤ k → s.length ≤ n → s.length ≤ m → decodeRunes n s = decodeRunes m s := by
    intro k
    induction k with
    | zero =>
      intro s n m h1 _ _
      have : s = [] := List.length_eq_zero_iff.1 (by omega)
      subst this
      cases n <;> cases m <;> rfl
    | succ k ih =>
      intro s n m h1 h2 h3
      cases s with
      | nil => cases n <;> cases m <;> rfl
      | cons b t =>
        simp only [List.length_cons] at h1 h2 h3
        obtain ⟨n, rfl⟩ : ∃ j, n = j + 1 := ⟨n - 1, by omega⟩
        obtain ⟨m, rfl⟩ : ∃ j, m = j + 1 := ⟨m - 1, by omega⟩
        simp only [decodeRunes]
        congr 1
        have hp := decodeRune_pos b t
        apply ih <;> simp only [List.length_drop, List.length_cons] <;> omega
  exact key s.length s n s.length (Nat.le_refl _) h (Nat.le_refl _)

theorem runesOf_nil : runesOf [] = [] := rfl

theorem runesOf_cons (b : UInt8) (t : GoStr) :
    runesOf (b :: t) = (decodeRune (b :: t)).1 :: runesOf ((b :: t).drop (decodeRune (b :: t)).2) := by
  conv => lhs; unfold runesOf
  simp only [List.length_cons, decodeRunes]
  congr 1
  apply decodeRunes_fuel
  have := decodeRune_pos b t
  simp only [List.length_drop, List.length_cons]; omega

theorem runesOf_encode {r : Int} (h : validRune r = true) (t : GoStr) :
    runesOf (encodeRune r ++ t) = r :: runesOf t := by
  have hd := decode_encodeRune h t
  cases he : encodeRune r with
  | nil => exact absurd he (encodeRune_ne_nil r)
  | cons b u =>
    rw [he] at hd
    rw [List.cons_append, runesOf_cons]
    rw [List.cons_append] at hd
    rw [hd]
    simp

/-- `[]rune(string(rs)) = rs` for valid runes -/
theorem runesOf_stringOf {rs : List Int} (h : ∀ r ∈ rs, validRune r = true) : runesOf (stringOf rs) = rs := by
  induction rs with
  | nil => rfl
  | cons r rs ih =>
    have : stringOf (r :: rs) = encodeRune r ++ stringOf rs := by simp [stringOf]
    rw [this, runesOf_encode (h r (by simp)), ih (fun r hr => h r (by simp [hr]))]

/-! ### decoded runes -/

/-- the outcomes of decoding: an error, or a rune whose first byte tells its size -/
theorem decodeRune_cases (b : UInt8) (t : List UInt8) :
    (decodeRune (b :: t)).1 = runeError ∨
    (decodeRune (b :: t)).1 = b.toNat ∧ b.toNat < 0x80 ∨
    (0x80 ≤ (decodeRune (b :: t)).1 ∧ validRune (decodeRune (b :: t)).1 = true) := by
  have hb : b.toNat < 256 := b.toNat_lt
  generalize hd : decodeRune (b :: t) = d
  simp only [decodeRune] at hd
  split at hd
  · subst hd; exact .inr (.inl ⟨rfl, by assumption⟩)
  · split at hd
    · subst hd; exact .inl rfl
    · split at hd
      · split at hd
        · split at hd
          · rename_i hc
            simp only [inRange, Bool.and_eq_true, decide_eq_true_eq] at hc
            subst hd
            refine .inr (.inr ⟨?_, validRune_iff.2 ⟨?_, ?_, ?_⟩⟩) <;> simp only [] <;> omega
          · subst hd; exact .inl rfl
        · subst hd; exact .inl rfl
      · split at hd
        · split at hd
          · rename_i b1 b2 _
            by_cases hc : (inRange (if b.toNat = 0xE0 then 0xA0 else 0x80) (if b.toNat = 0xED then 0x9F else 0xBF) b1
                && inRange 0x80 0xBF b2) = true
            · rw [if_pos hc] at hd
              simp only [inRange, Bool.and_eq_true, decide_eq_true_eq] at hc
              subst hd
              obtain ⟨⟨h1, h2⟩, h3, h4⟩ := hc
              refine .inr (.inr ⟨?_, validRune_iff.2 ⟨?_, ?_, ?_⟩⟩) <;> simp only [] <;> (split at h1 <;> split at h2 <;> omega)
            · rw [if_neg hc] at hd; subst hd; exact .inl rfl
          · subst hd; exact .inl rfl
        · split at hd
          · split at hd
            · rename_i b1 b2 b3 _
              by_cases hc : (inRange (if b.toNat = 0xF0 then 0x90 else 0x80) (if b.toNat = 0xF4 then 0x8F else 0xBF) b1
                  && inRange 0x80 0xBF b2 && inRange 0x80 0xBF b3) = true
              · rw [if_pos hc] at hd
                simp only [inRange, Bool.and_eq_true, decide_eq_true_eq] at hc
                subst hd
                obtain ⟨⟨⟨h1, h2⟩, h3, h4⟩, h5, h6⟩ := hc
                refine .inr (.inr ⟨?_, validRune_iff.2 ⟨?_, ?_, ?_⟩⟩) <;> simp only [] <;> (split at h1 <;> split at h2 <;> omega)
              · rw [if_neg hc] at hd; subst hd; exact .inl rfl
            · subst hd; exact .inl rfl
          · subst hd; exact .inl rfl

theorem decodeRune_valid (b : UInt8) (t : List UInt8) : validRune (decodeRune (b :: t)).1 = true := by
  rcases decodeRune_cases b t with h | ⟨h, h'⟩ | ⟨_, h⟩
  · rw [h]; decide
  · rw [h]; apply validRune_iff.2; omega
  · exact h

theorem decodeRune_space (b : UInt8) (t : List UInt8) (h : b ≠ spaceByte) : (decodeRune (b :: t)).1 ≠ 32 := by
  rcases decodeRune_cases b t with h1 | ⟨h1, _⟩ | ⟨h1, _⟩
  · rw [h1]; decide
  · rw [h1]
    intro e
    apply h
    apply UInt8.toNat_inj.1
    have : b.toNat = 32 := by omega
    rw [this]; rfl
  · omega

theorem runesOf_valid (s : GoStr) : ∀ r ∈ runesOf s, validRune r = true := by
  have key : ∀ k (s : GoStr), s.length ≤ k → ∀ r ∈ runesOf s, validRune r = true := by
    intro k
    induction k with
    | zero =>
      intro s h r hr
      have : s = [] := List.length_eq_zero_iff.1 (by omega)
      subst this; cases hr
    | succ k ih =>
      intro s h r hr
      cases s with
      | nil => cases hr
      | cons b t =>
        rw [runesOf_cons] at hr
        rcases List.mem_cons.1 hr with rfl | hr
        · exact decodeRune_valid b t
        · refine ih _ ?_ r hr
          have := decodeRune_pos b t
          simp only [List.length_drop, List.length_cons] at *; omega
  exact key _ s (Nat.le_refl _)

theorem runesOf_nospace {s : GoStr} (h : spaceByte ∉ s) : ∀ r ∈ runesOf s, r ≠ 32 := by
  have key : ∀ k (s : GoStr), s.length ≤ k → spaceByte ∉ s → ∀ r ∈ runesOf s, r ≠ 32 := by
    intro k
    induction k with
    | zero =>
      intro s h _ r hr
      have : s = [] := List.length_eq_zero_iff.1 (by omega)
      subst this; cases hr
    | succ k ih =>
      intro s h hs r hr
      cases s with
      | nil => cases hr
      | cons b t =>
        rw [runesOf_cons] at hr
        rcases List.mem_cons.1 hr with rfl | hr
        · exact decodeRune_space b t (fun e => hs (by simp [e]))
        · refine ih _ ?_ (fun hm => hs (List.mem_of_mem_drop hm)) r hr
          have := decodeRune_pos b t
          simp only [List.length_drop, List.length_cons] at *; omega
  exact key _ s (Nat.le_refl _) h

theorem runesOf_length (s : GoStr) : (runesOf s).length ≤ s.length := by
  have key : ∀ k (s : GoStr), s.length ≤ k → (runesOf s).length ≤ s.length := by
    intro k
    induction k with
    | zero =>
      intro s h
      have : s = [] := List.length_eq_zero_iff.1 (by omega)
      subst this; simp [runesOf_nil]
    | succ k ih =>
      intro s h
      cases s with
      | nil => simp [runesOf_nil]
      | cons b t =>
        rw [runesOf_cons]
        have hp := decodeRune_pos b t
        have := ih ((b :: t).drop (decodeRune (b :: t)).2) (by simp only [List.length_drop, List.length_cons] at *; omega)
        simp only [List.length_drop, List.length_cons] at *; omega
  exact key _ s (Nat.le_refl _)

theorem runesOf_eq_nil {s : GoStr} : runesOf s = [] ↔ s = [] := by
  cases s with
  | nil => simp [runesOf_nil]
  | cons b t => simp [runesOf_cons]

/-! ### Split and Join -/

theorem splitSpace_ne_nil (s : GoStr) : splitSpace s ≠ [] := by
  induction s with
  | nil => simp [splitSpace]
  | cons b t ih =>
    unfold splitSpace
    split
    · simp
    · split <;> simp

theorem splitSpace_nospace (s : GoStr) : ∀ w ∈ splitSpace s, spaceByte ∉ w := by
  induction s with
  | nil => simp [splitSpace]
  | cons b t ih =>
    unfold splitSpace
    split
    · rename_i h; exact absurd h (splitSpace_ne_nil t)
    · rename_i w ws h
      rw [h] at ih
      split
      · intro u hu
        rcases List.mem_cons.1 hu with rfl | hu
        · simp
        · exact ih u hu
      · rename_i hb
        intro u hu
        rcases List.mem_cons.1 hu with rfl | hu
        · have := ih w (by simp)
          simp only [List.mem_cons, not_or]
          exact ⟨fun e => hb e.symm, this⟩
        · exact ih u (by simp [hu])

theorem joinSpace_cons (w : GoStr) {ws : List GoStr} (h : ws ≠ []) :
    joinSpace (w :: ws) = w ++ spaceByte :: joinSpace ws := by
  cases ws with
  | nil => exact absurd rfl h
  | cons v ws => rfl

theorem joinSpace_head (b : UInt8) (w : GoStr) (ws : List GoStr) :
    joinSpace ((b :: w) :: ws) = b :: joinSpace (w :: ws) := by
  cases ws <;> simp [joinSpace]

theorem join_split (s : GoStr) : joinSpace (splitSpace s) = s := by
  induction s with
  | nil => rfl
  | cons b t ih =>
    unfold splitSpace
    split
    · rename_i h; exact absurd h (splitSpace_ne_nil t)
    · rename_i w ws h
      rw [h] at ih
      split
      · rename_i hb; subst hb
        rw [joinSpace_cons _ (by simp), ih]; rfl
      · rw [joinSpace_head, ih]

theorem splitSpace_cons_ne {b : UInt8} (h : b ≠ spaceByte) {t w ws} (ht : splitSpace t = w :: ws) :
    splitSpace (b :: t) = (b :: w) :: ws := by
  conv => lhs; unfold splitSpace
  rw [ht]; simp [h]

theorem splitSpace_space (t : GoStr) : splitSpace (spaceByte :: t) = [] :: splitSpace t := by
  conv => lhs; unfold splitSpace
  cases ht : splitSpace t with
  | nil => exact absurd ht (splitSpace_ne_nil t)
  | cons w ws => simp

theorem splitSpace_prefix {u : GoStr} (h : spaceByte ∉ u) {t w ws} (ht : splitSpace t = w :: ws) :
    splitSpace (u ++ t) = (u ++ w) :: ws := by
  induction u with
  | nil => exact ht
  | cons b u ih =>
    simp only [List.mem_cons, not_or] at h
    exact splitSpace_cons_ne (Ne.symm h.1) (ih h.2)

theorem split_join {ws : List GoStr} (hn : ws ≠ []) (h : ∀ w ∈ ws, spaceByte ∉ w) :
    splitSpace (joinSpace ws) = ws := by
  induction ws with
  | nil => exact absurd rfl hn
  | cons w ws ih =>
    cases ws with
    | nil =>
      have := splitSpace_prefix (h w (by simp)) (t := []) (w := []) (ws := []) rfl
      simpa [joinSpace] using this
    | cons v ws =>
      rw [joinSpace_cons _ (by simp)]
      have ih' := ih (by simp) (fun w hw => h w (by simp [hw]))
      have := splitSpace_prefix (h w (by simp)) (t := spaceByte :: joinSpace (v :: ws)) (w := [])
        (ws := v :: ws) (by rw [splitSpace_space, ih'])
      simpa using this

theorem splitSpace_length (s : GoStr) : (splitSpace s).length ≤ s.length + 1 := by
  induction s with
  | nil => simp [splitSpace]
  | cons b t ih =>
    unfold splitSpace
    split
    · simp
    · rename_i w ws h
      rw [h] at ih
      split <;> simp at * <;> omega

theorem splitSpace_piece (s : GoStr) : ∀ w ∈ splitSpace s, w.length ≤ s.length := by
  induction s with
  | nil => simp [splitSpace]
  | cons b t ih =>
    unfold splitSpace
    split
    · simp
    · rename_i w ws h
      rw [h] at ih
      split
      · intro u hu
        rcases List.mem_cons.1 hu with rfl | hu
        · simp
        · have := ih u hu; simp; omega
      · intro u hu
        rcases List.mem_cons.1 hu with rfl | hu
        · have := ih w (by simp); simp; omega
        · have := ih u (by simp [hu]); simp; omega

/-! ### encoded runes contain no space -/

theorem ofNat_ne_space {n : Nat} (h : n < 256) (hn : n ≠ 32) : UInt8.ofNat n ≠ spaceByte := by
  intro e
  have := congrArg UInt8.toNat e
  rw [ofNat_toNat h] at this
  exact hn this

theorem encodeNat_nospace {n : Nat} (h : n ≤ 0x10FFFF) (hn : n ≠ 32) : spaceByte ∉ encodeNat n := by
  unfold encodeNat
  repeat' split
  all_goals
    simp only [List.mem_cons, List.not_mem_nil, or_false, not_or]
    refine ?_
    repeat' apply And.intro
    all_goals exact Ne.symm (ofNat_ne_space (by omega) (by omega))

theorem encodeRune_nospace {r : Int} (h : r ≠ 32) : spaceByte ∉ encodeRune r := by
  unfold encodeRune
  split
  · rename_i hv
    have := validRune_iff.1 hv
    exact encodeNat_nospace (by omega) (by omega)
  · decide

theorem stringOf_nospace {rs : List Int} (h : ∀ r ∈ rs, r ≠ 32) : spaceByte ∉ stringOf rs := by
  intro hm
  unfold stringOf at hm
  obtain ⟨r, hr, hb⟩ := List.mem_flatMap.1 hm
  exact encodeRune_nospace (h r hr) hb

/-! ### the text that is read back -/

/-- What semnet keeps of a string: word by word, undecodable bytes become U+FFFD. -/
def sanitize (s : GoStr) : GoStr := joinSpace ((splitSpace s).map (fun w => stringOf (runesOf w)))

theorem stringOf_append (a b : List Int) : stringOf (a ++ b) = stringOf a ++ stringOf b := by
  simp [stringOf]

theorem encode_space : encodeRune 32 = [spaceByte] := by decide

/-- valid text is kept as it is -/
theorem sanitize_stringOf {rs : List Int} (h : ∀ r ∈ rs, validRune r = true) :
    sanitize (stringOf rs) = stringOf rs := by
  have key : ∀ rs : List Int, (∀ r ∈ rs, validRune r = true) →
      ∃ qs : List (List Int), (∀ q ∈ qs, ∀ r ∈ q, validRune r = true) ∧
        splitSpace (stringOf rs) = qs.map stringOf := by
    intro rs
    induction rs with
    | nil => intro _; exact ⟨[[]], by simp, rfl⟩
    | cons r rs ih =>
      intro h
      obtain ⟨qs, hq, hs⟩ := ih (fun r hr => h r (by simp [hr]))
      have e : stringOf (r :: rs) = encodeRune r ++ stringOf rs := by simp [stringOf]
      by_cases hr : r = 32
      · subst hr
        refine ⟨[] :: qs, ?_, ?_⟩
        · intro q hq'
          rcases List.mem_cons.1 hq' with rfl | hq'
          · simp
          · exact hq q hq'
        · rw [e, encode_space]
          show splitSpace (spaceByte :: stringOf rs) = _
          rw [splitSpace_space, hs]; rfl
      · cases qs with
        | nil => exact absurd hs (splitSpace_ne_nil _)
        | cons q qs =>
          refine ⟨(r :: q) :: qs, ?_, ?_⟩
          · intro q' hq'
            rcases List.mem_cons.1 hq' with rfl | hq'
            · intro r' hr'
              rcases List.mem_cons.1 hr' with rfl | hr'
              · exact h _ (by simp)
              · exact hq q (by simp) r' hr'
            · exact hq q' (by simp [hq'])
          · rw [e, splitSpace_prefix (encodeRune_nospace hr) hs]
            simp [stringOf]
  obtain ⟨qs, hq, hs⟩ := key rs h
  unfold sanitize
  rw [hs, List.map_map]
  have : qs.map ((fun w => stringOf (runesOf w)) ∘ stringOf) = qs.map stringOf := by
    apply List.map_congr_left
    intro q hq'
    simp only [Function.comp_def]
    rw [runesOf_stringOf (hq q hq')]
  rw [this, ← hs, join_split]

/-! ### a space byte separates the decoding of what is before from what is after -/

theorem inRange_space (lo hi : Nat) (h : 33 ≤ lo) : inRange lo hi spaceByte = false := by
  have : spaceByte.toNat = 32 := rfl
  simp only [inRange, this, Bool.and_eq_false_iff, decide_eq_false_iff_not]
  omega

theorem decodeRune_sep (b : UInt8) (w t : List UInt8) :
    decodeRune (b :: (w ++ spaceByte :: t)) = decodeRune (b :: w) := by
  have s1 : inRange 0x80 0xBF spaceByte = false := inRange_space _ _ (by omega)
  have s2 : ∀ x : Nat, inRange (if x = 0xE0 then 0xA0 else 0x80) (if x = 0xED then 0x9F else 0xBF) spaceByte = false :=
    fun x => inRange_space _ _ (by split <;> omega)
  have s3 : ∀ x : Nat, inRange (if x = 0xF0 then 0x90 else 0x80) (if x = 0xF4 then 0x8F else 0xBF) spaceByte = false :=
    fun x => inRange_space _ _ (by split <;> omega)
  match w with
  | [] =>
    cases t with
    | nil => simp [decodeRune, s1]
    | cons t1 t => cases t <;> simp [decodeRune, s1, s2, s3]
  | [w1] =>
    cases t with
    | nil => simp [decodeRune, s1]
    | cons t1 t => simp [decodeRune, s1]
  | [w1, w2] => simp [decodeRune, s1]
  | w1 :: w2 :: w3 :: w => simp [decodeRune]

theorem decodeRune_width (b : UInt8) (w : List UInt8) : (decodeRune (b :: w)).2 ≤ w.length + 1 := by
  simp only [decodeRune]
  repeat' split
  all_goals simp

theorem runesOf_sep (w t : GoStr) : runesOf (w ++ spaceByte :: t) = runesOf w ++ 32 :: runesOf t := by
  have key : ∀ k (w : GoStr), w.length ≤ k → runesOf (w ++ spaceByte :: t) = runesOf w ++ 32 :: runesOf t := by
    intro k
    induction k with
    | zero =>
      intro w h
      have : w = [] := List.length_eq_zero_iff.1 (by omega)
      subst this
      have := runesOf_encode (r := 32) (by decide) t
      rw [encode_space] at this
      exact this
    | succ k ih =>
      intro w h
      cases w with
      | nil => exact ih [] (by simp)
      | cons b w =>
        rw [List.cons_append, runesOf_cons, decodeRune_sep, runesOf_cons b w]
        have hw := decodeRune_width b w
        have hp := decodeRune_pos b w
        have : (b :: (w ++ spaceByte :: t)).drop (decodeRune (b :: w)).2 =
            (b :: w).drop (decodeRune (b :: w)).2 ++ spaceByte :: t := by
          rw [← List.cons_append, List.drop_append_of_le_length (by simpa using hw)]
        rw [this, ih _ (by simp only [List.length_drop, List.length_cons] at *; omega)]
        simp
  exact key _ w (Nat.le_refl _)

/-- word-wise replacement is global replacement -/
theorem sanitize_eq (s : GoStr) : sanitize s = stringOf (runesOf s) := by
  have key : ∀ ws : List GoStr, joinSpace (ws.map (fun w => stringOf (runesOf w))) = stringOf (runesOf (joinSpace ws)) := by
    intro ws
    induction ws with
    | nil => rfl
    | cons w ws ih =>
      cases ws with
      | nil => rfl
      | cons v ws =>
        rw [List.map_cons, joinSpace_cons _ (by simp), ih, joinSpace_cons w (by simp), runesOf_sep, stringOf_append]
        congr 1
  unfold sanitize
  rw [key, join_split]

end Semnet
