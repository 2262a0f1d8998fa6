import Verif.Proof.Moody
/-
  The lexicon only grows, and what it refuses it refuses for ever.
-/
namespace Semnet
open Spec

/-- the lexicon refuses the word -/
def DeadWord (l : Lexicon) : List Char → Prop
  | [] => True
  | c :: _ => (l.see [c]).start c = .dead

/-- `l'` is `l` after further texts have been entered -/
structure LexGrown (l l' : Lexicon) : Prop where
  used : ∀ c ∈ l.used, c ∈ l'.used
  heads : ∀ c, l.heads.count c ≤ l'.heads.count c
  closed : ∀ c, l.branches c ≠ 0 → l'.heads.count c = l.heads.count c
  phrases : ∀ ws ∈ l'.phrases, ws ∈ l.phrases ∨ ∃ b w, ws = b ++ [w] ∧ ¬ DeadWord l w

theorem branches_mono {l l' : Lexicon} (h : ∀ c ∈ l.used, c ∈ l'.used) (c : Char) : l.branches c ≤ l'.branches c := by
  unfold Lexicon.branches
  rw [← List.countP_eq_length_filter, ← List.countP_eq_length_filter]
  refine List.countP_mono_left ?_
  intro d _ hd
  rw [List.any_eq_true] at hd ⊢
  obtain ⟨b, hb, h1⟩ := hd
  exact ⟨b, h b hb, h1⟩

theorem branches_le (l : Lexicon) (c : Char) : l.branches c ≤ 2 := List.length_filter_le _ _

/-- a character begins no further code by being seen -/
theorem branches_self (l : Lexicon) (c : Char) : (l.see [c]).branches c = l.branches c := by
  unfold Lexicon.branches Lexicon.see
  congr 2
  funext d
  have : (code c ++ [d]).isPrefixOf (code c) = false := by
    cases h : (code c ++ [d]).isPrefixOf (code c) with
    | false => rfl
    | true =>
      have := (List.isPrefixOf_iff_prefix.1 h).length_le
      simp at this; omega
  simp [this]

theorem deadWord_cons {l : Lexicon} {c : Char} {u : List Char} :
    DeadWord l (c :: u) ↔ l.branches c ≠ 0 ∧ ¬ (l.branches c = 1 ∧ l.heads.count c = 1) := by
  show (l.see [c]).start c = .dead ↔ _
  unfold Lexicon.start
  rw [branches_self]
  show (if l.branches c = 0 then Start.fresh else if l.branches c = 1 ∧ l.heads.count c = 1 then Start.known else Start.dead) = _ ↔ _
  split
  · simp_all
  · split <;> simp_all

theorem DeadWord.mono {l l' : Lexicon} (h : LexGrown l l') {w : List Char} (hb : DeadWord l w) : DeadWord l' w := by
  cases w with
  | nil => trivial
  | cons c u =>
    rw [deadWord_cons] at hb ⊢
    have h1 := branches_mono h.used c
    have h2 := branches_le l' c
    have h3 := branches_le l c
    have h4 := h.closed c hb.1
    rw [h4]
    refine ⟨by have := hb.1; omega, fun ⟨h5, h6⟩ => hb.2 ⟨?_, h6⟩⟩
    have := hb.1
    omega

theorem LexGrown.refl (l : Lexicon) : LexGrown l l :=
  ⟨fun _ h => h, fun _ => Nat.le_refl _, fun _ _ => rfl, fun _ h => .inl h⟩

theorem LexGrown.trans {a b c : Lexicon} (h : LexGrown a b) (h' : LexGrown b c) : LexGrown a c where
  used x hx := h'.used x (h.used x hx)
  heads x := Nat.le_trans (h.heads x) (h'.heads x)
  closed x hx := (h'.closed x (by have := branches_mono h.used x; omega)).trans (h.closed x hx)
  phrases ws hw := by
    rcases h'.phrases ws hw with h1 | ⟨b, w, h1, h2⟩
    · exact h.phrases ws h1
    · exact .inr ⟨b, w, h1, fun hb => h2 (hb.mono h)⟩

theorem grown_see (l : Lexicon) (u : List Char) : LexGrown l (l.see u) :=
  ⟨fun _ h => List.mem_append_right _ h, fun _ => Nat.le_refl _, fun _ _ => rfl, fun _ h => .inl h⟩

theorem grown_enter {l : Lexicon} {c : Char} (h : l.branches c = 0) : LexGrown l (l.enter c) := by
  refine ⟨fun _ h => h, fun x => ?_, fun x hx => ?_, fun _ h => .inl h⟩
  · show l.heads.count x ≤ (c :: l.heads).count x
    rw [List.count_cons]; omega
  · show (c :: l.heads).count x = _
    rw [List.count_cons_of_ne]
    intro e; subst e; exact hx h

theorem grown_keep {l : Lexicon} {b : List (List Char)} {w : List Char} (h : ¬ DeadWord l w) : LexGrown l (l.keep (b ++ [w])) := by
  refine ⟨fun _ h => h, fun _ => Nat.le_refl _, fun _ _ => rfl, fun ws hw => ?_⟩
  rcases List.mem_cons.1 hw with rfl | hw
  · exact .inr ⟨b, w, rfl, h⟩
  · exact .inl hw

/-- the three ways a word can be entered -/
theorem word_cases (l : Lexicon) (w : List Char) :
    (DeadWord l w ∧ (l.word w).2 = none) ∨
    (∃ c u, w = c :: u ∧ l.branches c = 0 ∧ l.word w = (((l.see [c]).enter c).see u, some .fresh)) ∨
    (∃ c u, w = c :: u ∧ l.branches c = 1 ∧ l.heads.count c = 1 ∧ l.word w = ((l.see [c]).see u, some .known)) := by
  cases w with
  | nil => exact .inl ⟨trivial, rfl⟩
  | cons c u =>
    cases h : (l.see [c]).start c with
    | fresh =>
      refine .inr (.inl ⟨c, u, rfl, ?_, by simp only [Lexicon.word, h]⟩)
      unfold Lexicon.start at h
      rw [branches_self] at h
      split at h
      · assumption
      · split at h <;> cases h
    | known =>
      refine .inr (.inr ⟨c, u, rfl, ?_⟩)
      have h' := h
      unfold Lexicon.start at h
      rw [branches_self] at h
      split at h
      · cases h
      · split at h
        · rename_i h2; exact ⟨h2.1, h2.2, by simp only [Lexicon.word, h']⟩
        · cases h
    | dead => exact .inl ⟨h, by simp only [Lexicon.word, h]⟩

theorem word_none {l : Lexicon} {w : List Char} : (l.word w).2 = none ↔ DeadWord l w := by
  rcases word_cases l w with ⟨h1, h2⟩ | ⟨c, u, rfl, h1, h2⟩ | ⟨c, u, rfl, h1, h2, h3⟩
  · exact ⟨fun _ => h1, fun _ => h2⟩
  · rw [h2, deadWord_cons]; simp [h1]
  · rw [h3, deadWord_cons]; simp [h1, h2]

theorem grown_word (l : Lexicon) (w : List Char) : LexGrown l (l.word w).1 := by
  cases w with
  | nil => exact .refl l
  | cons c u =>
    rcases word_cases l (c :: u) with ⟨h1, h2⟩ | ⟨c', u', e, h1, h2⟩ | ⟨c', u', e, h1, h2, h3⟩
    · have h : (l.see [c]).start c = .dead := h1
      simp only [Lexicon.word, h]
      exact grown_see _ _
    · cases e
      rw [h2]
      exact ((grown_see l [c]).trans (grown_enter (by rw [branches_self]; exact h1))).trans (grown_see _ _)
    · cases e
      rw [h3]
      exact (grown_see l [c]).trans (grown_see _ _)

/-- after a refusal the phrases are as before -/
theorem word_phrases (l : Lexicon) (w : List Char) : (l.word w).1.phrases = l.phrases := by
  cases w with
  | nil => rfl
  | cons c u => simp only [Lexicon.word]; split <;> rfl

theorem lexRest_cons (new : Bool) (l : Lexicon) (b : List (List Char)) (w : List Char) (ws : List (List Char)) :
    l.rest new b (w :: ws) = if !new && l.phrases.contains (b ++ [w]) then l.rest new (b ++ [w]) ws
      else match l.word w with
        | (l1, none) => (l1, .panic)
        | (l1, some _) => (l1.keep (b ++ [w])).rest new (b ++ [w]) ws := by rw [Lexicon.rest]; rfl

theorem alive_after {l : Lexicon} {w : List Char} (h : (l.word w).2 ≠ none) : ¬ DeadWord l w := fun hb => h (word_none.2 hb)

/-- an accepted word can be entered again: the first character is still in use -/
theorem grown_word_keep {l l1 : Lexicon} {w : List Char} {s} (b : List (List Char)) (h : l.word w = (l1, some s)) :
    LexGrown l (l1.keep (b ++ [w])) := by
  have g := grown_word l w
  rw [h] at g
  refine ⟨g.used, g.heads, g.closed, fun ws hw => ?_⟩
  rcases List.mem_cons.1 hw with rfl | hw
  · exact .inr ⟨b, w, rfl, alive_after (by rw [h]; simp)⟩
  · exact g.phrases ws hw

theorem grown_rest (new : Bool) : ∀ (ws : List (List Char)) (l : Lexicon) (b : List (List Char)), LexGrown l (l.rest new b ws).1 := by
  intro ws
  induction ws with
  | nil => exact fun l _ => by rw [Lexicon.rest]; exact .refl l
  | cons w ws ih =>
    intro l b
    rw [lexRest_cons]
    split
    · exact ih l _
    · have g := grown_word l w
      split
      · rename_i l1 h; rw [h] at g; exact g
      · rename_i l1 s h; exact (grown_word_keep b h).trans (ih _ _)

theorem grown_phrase (l : Lexicon) (ws : List (List Char)) : LexGrown l (l.phrase ws).1 := by
  cases ws with
  | nil => exact .refl l
  | cons w ws =>
    have g := grown_word l w
    simp only [Lexicon.phrase]
    split
    · rename_i l1 h; rw [h] at g; exact g
    · rename_i l1 s h; exact (grown_word_keep [] h).trans (grown_rest _ ws _ _)

theorem grown_pair (l : Lexicon) (o p : List (List Char)) : LexGrown l (l.pair o p).1 := by
  have g := grown_phrase l o
  unfold Lexicon.pair
  split
  · rename_i l1 h; rw [h] at g; exact g.trans (grown_phrase _ _)
  · exact g

/-! ### lost phrases -/

/-- The phrase is refused, and will always be: its first word is bad, or another word is bad and the phrase up to it will not
    be looked up successfully. -/
def Lost (l : Lexicon) : List (List Char) → Prop
  | [] => True
  | w0 :: ws => DeadWord l w0 ∨ ∃ pre w post, ws = pre ++ w :: post ∧ DeadWord l w ∧
      (w0 :: (pre ++ [w]) ∉ l.phrases ∨ ∃ c u, w0 = c :: u ∧ 2 ≤ l.heads.count c)

theorem Lost.mono {l l' : Lexicon} (h : LexGrown l l') {ws : List (List Char)} (hl : Lost l ws) : Lost l' ws := by
  cases ws with
  | nil => trivial
  | cons w0 ws =>
    rcases hl with hl | ⟨pre, w, post, h1, h2, h3⟩
    · exact .inl (hl.mono h)
    · refine .inr ⟨pre, w, post, h1, h2.mono h, ?_⟩
      rcases h3 with h3 | ⟨c, u, h3, h4⟩
      · refine .inl fun hm => ?_
        rcases h.phrases _ hm with h4 | ⟨b, w', h4, h5⟩
        · exact h3 h4
        · have h4' : (w0 :: pre) ++ [w] = b ++ [w'] := h4
          have := (List.append_inj' h4' rfl).2
          cases this
          exact h5 h2
      · exact .inr ⟨c, u, h3, Nat.le_trans h4 (h.heads c)⟩

/-- a bad word further on, whose phrase is not looked up successfully -/
theorem rest_refuses (new : Bool) : ∀ (pre : List (List Char)) (w : List Char) (post : List (List Char)) (l : Lexicon) (b : List (List Char)),
    DeadWord l w → (new = true ∨ b ++ (pre ++ [w]) ∉ l.phrases) → (l.rest new b (pre ++ w :: post)).2 = .panic := by
  intro pre
  induction pre with
  | nil =>
    intro w post l b hb hn
    have hc : (!new && l.phrases.contains (b ++ [w])) = false := by
      rcases hn with rfl | hn
      · rfl
      · have : l.phrases.contains (b ++ [w]) = false := by
          cases h : l.phrases.contains (b ++ [w]) with
          | false => rfl
          | true => exact absurd (List.contains_iff_mem.1 h) hn
        rw [this, Bool.and_false]
    show (l.rest new b (w :: post)).2 = _
    rw [lexRest_cons, hc]
    have := word_none.2 hb
    revert this
    cases l.word w with
    | mk l1 s => intro h; simp only at h; subst h; rfl
  | cons x pre ih =>
    intro w post l b hb hn
    show (l.rest new b (x :: (pre ++ w :: post))).2 = _
    have ea : b ++ (x :: pre ++ [w]) = (b ++ [x]) ++ (pre ++ [w]) := by simp
    rw [ea] at hn
    rw [lexRest_cons]
    split
    · exact ih w post l _ hb hn
    · split
      · rfl
      · rename_i l1 s h
        have g := grown_word_keep b h
        refine ih w post _ _ (hb.mono g) (hn.imp id fun hn hm => ?_)
        rcases g.phrases _ hm with h4 | ⟨b', w', h4, h5⟩
        · exact hn h4
        · have h4' : (b ++ [x] ++ pre) ++ [w] = b' ++ [w'] := by rw [← h4]; simp
          have := (List.append_inj' h4' rfl).2
          cases this
          exact h5 hb

theorem Lost.refused {l : Lexicon} {ws : List (List Char)} (h : Lost l ws) : (l.phrase ws).2 ≠ .created := by
  cases ws with
  | nil => exact fun h => by cases h
  | cons w0 ws =>
    simp only [Lexicon.phrase]
    rcases word_cases l w0 with ⟨h1, h2⟩ | ⟨c, u, rfl, h1, h2⟩ | ⟨c, u, rfl, h1, h2, h3⟩
    · revert h2
      cases l.word w0 with
      | mk l1 s => intro h2; simp only at h2; subst h2; exact fun h => by cases h
    · have g : LexGrown l ((((l.see [c]).enter c).see u).keep [c :: u]) := grown_word_keep [] h2
      rw [h2]
      rcases h with h | ⟨pre, w, post, e, hb, hn⟩
      · exact absurd h (by rw [deadWord_cons]; simp [h1])
      · subst e
        show (Lexicon.rest true (((l.see [c]).enter c).see u |>.keep [c :: u]) [c :: u] (pre ++ w :: post)).2 ≠ _
        rw [rest_refuses true pre w post _ _ (hb.mono g) (.inl rfl)]
        simp
    · have g : LexGrown l (((l.see [c]).see u).keep [c :: u]) := grown_word_keep [] h3
      rw [h3]
      rcases h with h | ⟨pre, w, post, e, hb, hn⟩
      · exact absurd h (by rw [deadWord_cons]; simp [h1, h2])
      · subst e
        show (Lexicon.rest false (((l.see [c]).see u).keep [c :: u]) [c :: u] (pre ++ w :: post)).2 ≠ _
        rw [rest_refuses false pre w post _ _ (hb.mono g) (.inr fun hm => ?_)]
        · simp
        · rcases hn with hn | ⟨c', u', e, hn⟩
          · rcases g.phrases _ hm with h4 | ⟨b', w', h4, h5⟩
            · exact hn h4
            · have h4' : ((c :: u) :: pre) ++ [w] = b' ++ [w'] := h4
              have := (List.append_inj' h4' rfl).2
              cases this
              exact h5 hb
          · cases e; omega

/-- where entering a phrase came to a bad word -/
theorem rest_refused (new : Bool) : ∀ (ws : List (List Char)) (l : Lexicon) (b : List (List Char)),
    (l.rest new b ws).2 ≠ .created → ∃ pre w post, ws = pre ++ w :: post ∧ DeadWord (l.rest new b ws).1 w ∧
      (b ++ (pre ++ [w]) ∈ (l.rest new b ws).1.phrases → new = true ∧ b ++ (pre ++ [w]) ∈ l.phrases) := by
  intro ws
  induction ws with
  | nil => intro l b h; rw [Lexicon.rest] at h; exact absurd rfl h
  | cons x ws ih =>
    intro l b h
    rw [lexRest_cons] at h ⊢
    by_cases hc : (!new && l.phrases.contains (b ++ [x])) = true
    · rw [if_pos hc] at h ⊢
      obtain ⟨pre, w, post, h1, h2, h3⟩ := ih l (b ++ [x]) h
      refine ⟨x :: pre, w, post, by rw [h1]; rfl, h2, fun hm => ?_⟩
      have ea : b ++ (x :: pre ++ [w]) = (b ++ [x]) ++ (pre ++ [w]) := by simp
      rw [ea] at hm ⊢
      exact h3 hm
    · rw [if_neg hc] at h ⊢
      have hp := word_phrases l x
      have hg := grown_word l x
      have hn := @word_none l x
      revert h hp hg hn
      cases hx : l.word x with
      | mk l1 s =>
        cases s with
        | none =>
          intro h hp hg hn
          refine ⟨[], x, ws, rfl, (hn.1 rfl).mono hg, fun hm => ?_⟩
          simp only at hm hp
          rw [hp] at hm
          refine ⟨?_, hm⟩
          cases new with
          | true => rfl
          | false => exact absurd (by simp only [Bool.not_false, Bool.true_and]; exact List.contains_iff_mem.2 hm) hc
        | some s =>
          intro h hp hg hn
          obtain ⟨pre, w, post, h1, h2, h3⟩ := ih _ _ h
          refine ⟨x :: pre, w, post, by rw [h1]; rfl, h2, fun hm => ?_⟩
          have ea : b ++ (x :: pre ++ [w]) = (b ++ [x]) ++ (pre ++ [w]) := by simp
          rw [ea] at hm ⊢
          obtain ⟨h4, h5⟩ := h3 hm
          refine ⟨h4, ?_⟩
          rcases List.mem_cons.1 h5 with h5 | h5
          · have := congrArg List.length h5
            simp at this
          · rw [← hp]; exact h5

/-- phrases begin with words whose first characters have been entered -/
def Headed (l : Lexicon) : Prop := ∀ ws ∈ l.phrases, ∃ c u r, ws = (c :: u) :: r ∧ 1 ≤ l.heads.count c

theorem Headed.of {l l' : Lexicon} (h : Headed l) (hh : ∀ c, l.heads.count c ≤ l'.heads.count c)
    (hp : ∀ ws ∈ l'.phrases, ws ∈ l.phrases ∨ ∃ c u r, ws = (c :: u) :: r ∧ 1 ≤ l'.heads.count c) : Headed l' := by
  intro ws hw
  rcases hp ws hw with h1 | h1
  · obtain ⟨c, u, r, h2, h3⟩ := h ws h1
    exact ⟨c, u, r, h2, Nat.le_trans h3 (hh c)⟩
  · exact h1

theorem headed_rest (new : Bool) : ∀ (ws : List (List Char)) (l : Lexicon) (c : Char) (u : List Char) (b : List (List Char)),
    Headed l → 1 ≤ l.heads.count c → Headed (l.rest new ((c :: u) :: b) ws).1 := by
  intro ws
  induction ws with
  | nil => intro l c u b h _; rw [Lexicon.rest]; exact h
  | cons x ws ih =>
    intro l c u b h hc
    rw [lexRest_cons]
    split
    · exact ih l c u (b ++ [x]) h hc
    · have hp := word_phrases l x
      have hg := (grown_word l x).heads
      split
      · rename_i l1 hx
        rw [hx] at hp hg
        exact h.of hg fun ws hw => .inl (hp ▸ hw)
      · rename_i l1 s hx
        rw [hx] at hp hg
        have hc1 : 1 ≤ l1.heads.count c := Nat.le_trans hc (hg c)
        refine ih _ c u (b ++ [x]) (h.of hg fun ws hw => ?_) hc1
        rcases List.mem_cons.1 hw with rfl | hw
        · exact .inr ⟨c, u, b ++ [x], rfl, hc1⟩
        · exact .inl (hp ▸ hw)

theorem word_some_head {l l1 : Lexicon} {w : List Char} {s} (h : l.word w = (l1, some s)) :
    ∃ c u, w = c :: u ∧ 1 ≤ l1.heads.count c ∧ (s = .fresh → l1.heads.count c = l.heads.count c + 1) := by
  rcases word_cases l w with ⟨h1, h2⟩ | ⟨c, u, rfl, h1, h2⟩ | ⟨c, u, rfl, h1, h2, h3⟩
  · rw [h] at h2; cases h2
  · rw [h2] at h
    cases h
    refine ⟨c, u, rfl, ?_, fun _ => ?_⟩
    · show 1 ≤ (c :: l.heads).count c
      rw [List.count_cons_self]; omega
    · show (c :: l.heads).count c = _
      rw [List.count_cons_self]
  · rw [h3] at h
    cases h
    exact ⟨c, u, rfl, Nat.le_of_eq h2.symm, fun h => by cases h⟩

theorem headed_phrase {l : Lexicon} (h : Headed l) (ws : List (List Char)) : Headed (l.phrase ws).1 := by
  cases ws with
  | nil => exact h
  | cons w ws =>
    have hp := word_phrases l w
    have hg := (grown_word l w).heads
    simp only [Lexicon.phrase]
    split
    · rename_i l1 hx
      rw [hx] at hp hg
      exact h.of hg fun ws hw => .inl (hp ▸ hw)
    · rename_i l1 s hx
      rw [hx] at hp hg
      obtain ⟨c, u, rfl, h1, _⟩ := word_some_head hx
      refine headed_rest _ ws _ c u [] (h.of hg fun ws hw => ?_) h1
      rcases List.mem_cons.1 hw with rfl | hw
      · exact .inr ⟨c, u, [], rfl, h1⟩
      · exact .inl (hp ▸ hw)

theorem headed_pair {l : Lexicon} (h : Headed l) (o p : List (List Char)) : Headed (l.pair o p).1 := by
  have g := headed_phrase h o
  unfold Lexicon.pair
  split
  · rename_i l1 hx; rw [hx] at g; exact headed_phrase g p
  · exact g

/-- a refused phrase is lost -/
theorem phrase_lost {l : Lexicon} (h : Headed l) {ws : List (List Char)} (hr : (l.phrase ws).2 ≠ .created) :
    Lost (l.phrase ws).1 ws := by
  cases ws with
  | nil => trivial
  | cons w ws =>
    simp only [Lexicon.phrase] at hr ⊢
    have hp := word_phrases l w
    have hg := grown_word l w
    have hn := @word_none l w
    revert hr hp hg hn
    cases hx : l.word w with
    | mk l1 s =>
      cases s with
      | none => intro _ _ hg hn; exact .inl ((hn.1 rfl).mono hg)
      | some s =>
        intro hr hp hg hn
        obtain ⟨c, u, rfl, h1, h2⟩ := word_some_head hx
        obtain ⟨pre, x, post, h3, h4, h5⟩ := rest_refused _ ws _ _ hr
        refine .inr ⟨pre, x, post, h3, h4, ?_⟩
        by_cases hm : (c :: u) :: (pre ++ [x]) ∈ ((l1.keep [c :: u]).rest (s == .fresh) [c :: u] ws).1.phrases
        · obtain ⟨h6, h7⟩ := h5 hm
          refine .inr ⟨c, u, rfl, ?_⟩
          have hs : s = .fresh := by cases s <;> first | rfl | cases h6
          have hg2 := (grown_rest (s == .fresh) ws (l1.keep [c :: u]) [c :: u]).heads c
          rcases List.mem_cons.1 h7 with h7 | h7
          · have := congrArg List.length h7
            simp at this
          · have h7' : (c :: u) :: (pre ++ [x]) ∈ l.phrases := hp ▸ h7
            obtain ⟨c', u', r, e, h8⟩ := h _ h7'
            cases e
            have := h2 hs
            have hk : (l1.keep [c :: u]).heads.count c = l1.heads.count c := rfl
            show 2 ≤ ((l1.keep [c :: u]).rest (s == .fresh) [c :: u] ws).1.heads.count c
            omega
        · exact .inl hm

/-- a pair that is refused for ever -/
def LostPair (l : Lexicon) (o p : List (List Char)) : Prop := Lost l o ∨ Lost l p

theorem LostPair.mono {l l' : Lexicon} (h : LexGrown l l') {o p : List (List Char)} (hl : LostPair l o p) : LostPair l' o p :=
  hl.imp (·.mono h) (·.mono h)

theorem LostPair.refused {l : Lexicon} {o p : List (List Char)} (h : LostPair l o p) : (l.pair o p).2 ≠ .created := by
  have g := grown_phrase l o
  have r := fun h : Lost l o => h.refused
  unfold Lexicon.pair
  revert g r
  cases hx : l.phrase o with
  | mk l1 v =>
    cases v with
    | created =>
      intro g r
      rcases h with h | h
      · exact absurd rfl (r h)
      · exact (h.mono g).refused
    | error => intro _ _; exact fun h => by cases h
    | panic => intro _ _; exact fun h => by cases h

theorem pair_lost {l : Lexicon} (h : Headed l) {o p : List (List Char)} (hr : (l.pair o p).2 ≠ .created) :
    LostPair (l.pair o p).1 o p := by
  have k := headed_phrase h o
  have r := fun hr => phrase_lost h (ws := o) hr
  unfold Lexicon.pair at hr ⊢
  revert hr k r
  cases hx : l.phrase o with
  | mk l1 v =>
    cases v with
    | created => intro hr k _; exact .inr (phrase_lost k hr)
    | error => intro _ _ r; exact .inl (r (by simp))
    | panic => intro _ _ r; exact .inl (r (by simp))

/-! ### the scribe -/

theorem step_grown (zero : Bool) (s : Scribe) (c : Cmd) :
    LexGrown s.lex (s.step zero c).lex ∧ (Headed s.lex → Headed (s.step zero c).lex) ∧ s.links ≤ (s.step zero c).links ∧
      ∃ l, (s.step zero c).notes = s.notes ++ l := by
  have hl : s.links ≤ c.link s.links := by
    cases c <;> simp only [Cmd.link] <;> (try split) <;> omega
  unfold Scribe.step
  cases hn : s.note c with
  | none =>
    simp only [Scribe.judge, hn, Option.map_none]
    exact ⟨.refl _, id, Nat.le_refl _, [], by simp⟩
  | some n =>
    have g := grown_pair s.lex (words n.object) (words n.property)
    have k := fun h : Headed s.lex => headed_pair h (words n.object) (words n.property)
    simp only [Scribe.judge, hn, Option.map_some]
    revert g k
    cases s.lex.pair (words n.object) (words n.property) with
    | mk l v =>
      intro g k
      cases v with
      | created =>
        cases s.refuses zero c with
        | true => exact ⟨g, k, Nat.le_refl _, [], by simp⟩
        | false => exact ⟨g, k, hl, _, rfl⟩
      | error => exact ⟨g, k, Nat.le_refl _, [], by simp⟩
      | panic => exact ⟨g, k, Nat.le_refl _, [], by simp⟩

theorem steps_grown (zero : Bool) : ∀ (cs : List Cmd) (s : Scribe),
    LexGrown s.lex (cs.foldl (Scribe.step zero) s).lex ∧ (Headed s.lex → Headed (cs.foldl (Scribe.step zero) s).lex) ∧
      s.links ≤ (cs.foldl (Scribe.step zero) s).links ∧ ∃ l, (cs.foldl (Scribe.step zero) s).notes = s.notes ++ l := by
  intro cs
  induction cs with
  | nil => exact fun s => ⟨.refl _, id, Nat.le_refl _, [], by simp⟩
  | cons c cs ih =>
    intro s
    obtain ⟨h1, h2, h3, l, h4⟩ := step_grown zero s c
    obtain ⟨g1, g2, g3, l', g4⟩ := ih (s.step zero c)
    exact ⟨h1.trans g1, fun h => g2 (h2 h), Nat.le_trans h3 g3, l ++ l', by rw [List.foldl_cons, g4, h4, List.append_assoc]⟩

theorem scribe_headed (zero : Bool) (cs : List Cmd) : Headed (scribe zero cs).lex :=
  (steps_grown zero cs _).2.1 fun _ h => by cases h

/-- what has been refused -/
theorem judge_refused {zero : Bool} {s : Scribe} {c : Cmd} {n : Note} (hn : s.note c = some n) (h : Headed s.lex)
    (hj : (s.judge zero c).map Prod.snd ≠ some .created) :
    s.refuses zero c = true ∨ LostPair (s.step zero c).lex (words n.object) (words n.property) := by
  have k := fun hr => pair_lost h (o := words n.object) (p := words n.property) hr
  unfold Scribe.step
  simp only [Scribe.judge, hn, Option.map_some] at hj ⊢
  revert hj k
  cases s.lex.pair (words n.object) (words n.property) with
  | mk l v =>
    intro k hj
    cases v with
    | created =>
      cases hr : s.refuses zero c with
      | true => exact .inl rfl
      | false => rw [hr] at hj; exact absurd rfl hj
    | error => exact .inr (k (by simp))
    | panic => exact .inr (k (by simp))

theorem judge_refuses {zero : Bool} {s : Scribe} {c : Cmd} {o p : List Char} (hn : ∀ n, s.note c = some n → n.object = o ∧ n.property = p)
    (h : s.refuses zero c = true ∨ LostPair s.lex (words o) (words p)) :
    (s.judge zero c).map Prod.snd ≠ some .created := by
  have k := fun h : LostPair s.lex (words o) (words p) => h.refused
  cases hs : s.note c with
  | none => simp [Scribe.judge, hs]
  | some n =>
    obtain ⟨e1, e2⟩ := hn n hs
    simp only [Scribe.judge, hs, Option.map_some]
    rw [e1, e2]
    revert k
    cases s.lex.pair (words o) (words p) with
    | mk l v =>
      intro k
      cases v with
      | created =>
        rcases h with h | h
        · rw [h]; simp
        · exact absurd rfl (k h)
      | error => simp
      | panic => simp

theorem refuses_mono {zero : Bool} {s s' : Scribe} (h : s.links ≤ s'.links) {c : Cmd} (hr : s.refuses zero c = true) :
    s'.refuses zero c = true := by
  cases c <;> simp only [Scribe.refuses, Bool.or_eq_true, decide_eq_true_eq] at hr ⊢ <;> first | exact hr | (exact hr.imp id fun h' => by omega) | cases hr

theorem note_later {s s' : Scribe} {l : List Note} (h : s'.notes = s.notes ++ l) {c : Cmd} {n n' : Note} (hn : s.note c = some n)
    (hn' : s'.note c = some n') : n'.object = n.object ∧ n'.property = n.property := by
  cases c with
  | createStory o p => cases hn; cases hn'; exact ⟨rfl, rfl⟩
  | addRemark i p =>
    simp only [Scribe.note, Option.map_eq_some_iff] at hn hn'
    obtain ⟨m, h1, rfl⟩ := hn
    obtain ⟨m', h2, rfl⟩ := hn'
    rw [h, List.getElem?_append_left (List.getElem?_eq_some_iff.1 h1).1, h1] at h2
    cases h2
    exact ⟨rfl, rfl⟩
  | addFact i o p =>
    simp only [Scribe.note, Option.map_eq_some_iff] at hn hn'
    obtain ⟨m, h1, rfl⟩ := hn
    obtain ⟨m', h2, rfl⟩ := hn'
    exact ⟨rfl, rfl⟩
  | addChild i o p =>
    simp only [Scribe.note, Option.map_eq_some_iff] at hn hn'
    obtain ⟨m, h1, rfl⟩ := hn
    obtain ⟨m', h2, rfl⟩ := hn'
    exact ⟨rfl, rfl⟩
  | query i q => cases hn
  | getRemark i => cases hn
  | reopen => cases hn

/-- A command that the scribe has refused once it will always refuse. -/
theorem scribe_final {zero : Bool} {cs cs' : List Cmd} {c : Cmd} (hn : (scribe zero cs).note c ≠ none)
    (hj : ((scribe zero cs).judge zero c).map Prod.snd ≠ some .created) :
    ((scribe zero (cs ++ c :: cs')).judge zero c).map Prod.snd ≠ some .created := by
  cases h : (scribe zero cs).note c with
  | none => exact absurd h hn
  | some n =>
    have e : scribe zero (cs ++ c :: cs') = cs'.foldl (Scribe.step zero) ((scribe zero cs).step zero c) := by
      simp only [scribe, List.foldl_append, List.foldl_cons]
    obtain ⟨h1, _, h3, l, h4⟩ := step_grown zero (scribe zero cs) c
    obtain ⟨g1, _, g3, l', g4⟩ := steps_grown zero cs' ((scribe zero cs).step zero c)
    rw [e]
    refine judge_refuses (o := n.object) (p := n.property)
      (fun n' hn' => note_later (l := l ++ l') (by rw [g4, h4, List.append_assoc]) h hn') ?_
    rcases judge_refused h (scribe_headed zero cs) hj with hr | hl
    · exact .inl (refuses_mono (Nat.le_trans h3 g3) hr)
    · exact .inr (hl.mono g1)

end Semnet
