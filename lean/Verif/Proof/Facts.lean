import Verif.Proof.BitNew
import Verif.Proof.Runes
/-
  Facts about stored characters, words and phrases.
-/
set_option linter.unusedSimpArgs false
namespace Semnet
open Class

/-! ### facts about characters -/

theorem bitEnt_character (bs : BitE × BitE) (v : Bool) : (bitEnt bs v).character = bitNode bs v := by
  cases v <;> rfl

theorem BitsOK.tag {σ : St} {bs} (h : BitsOK σ bs) (v : Bool) : σ.tag (bitNode bs v) = .bitc v := by
  cases v
  · exact h.t0
  · exact h.t1

theorem BitsOK.ne0 {σ : St} {bs} (h : BitsOK σ bs) (v : Bool) : bitNode bs v ≠ 0 := by
  cases v
  · exact h.c0
  · exact h.c1

theorem CharEnt.path_eq {σ : St} {p q e} (h : CharEnt σ p e) (h' : CharEnt σ q e) : p = q := by
  have := h.tagC
  rw [h'.tagC] at this
  injection this with this
  exact this.symm

/-- an entity is determined by its character node -/
theorem CharEnt.ext {σ : St} {p q e e'} (h : CharEnt σ p e) (h' : CharEnt σ q e')
    (he : e.character = e'.character) : e = e' := by
  have c := h.chain
  have c' := h'.chain
  have h1 : e.bit = e'.bit := by rw [← c.bc.b, ← c'.bc.b, he]
  have h2 : e.cls = e'.cls := by rw [← c.ab.b, ← c'.ab.b, h1]
  have h3 : e.word = e'.word := by rw [← c.cd.f, ← c'.cd.f, he]
  cases e; cases e'; simp_all

theorem CharEnt.extW {σ : St} {p q e e'} (h : CharEnt σ p e) (h' : CharEnt σ q e')
    (he : e.word = e'.word) : e = e' :=
  h.ext h' (by rw [← h.chain.cd.b, ← h'.chain.cd.b, he])

theorem CharEnt.extB {σ : St} {p q e e'} (h : CharEnt σ p e) (h' : CharEnt σ q e')
    (he : e.bit = e'.bit) : e = e' :=
  h.ext h' (by rw [← h.chain.bc.f, ← h'.chain.bc.f, he])

/-- the targets of a character node are characters with one more bit -/
theorem Inv.charChild {cfg lim} {σ : St} (hi : Inv cfg lim σ) {p e} (h : CharEnt σ p e) {y : Nat}
    (hy : y ∈ σ.T e.character) : ∃ v e', CharEnt σ (p ++ [v]) e' ∧ e'.character = y := by
  have he := hi.edge _ _ (mem_T.1 hy)
  unfold EdgeOK at he
  rw [h.tagC] at he
  cases ht : σ.tag y <;> rw [ht] at he <;> try exact he.elim
  obtain ⟨q, v, e1, e', h1, h2, h3, h4⟩ := he
  have := h1.ext h h2
  subst this
  rw [h.path_eq h1]
  exact ⟨v, e', h3, h4⟩

theorem Inv.charWord {cfg lim} {σ : St} (hi : Inv cfg lim σ) {p e} (h : CharEnt σ p e) {y : Nat}
    (hy : y ∈ σ.T e.word) : ∃ w, WordEnt σ [Character.toRune p] w ∧ w.character = y := by
  have he := hi.edge _ _ (mem_T.1 hy)
  unfold EdgeOK at he
  rw [h.tagW] at he
  cases ht : σ.tag y <;> rw [ht] at he <;> try exact he.elim
  obtain ⟨q, e1, w, h1, h2, h3, h4, _⟩ := he
  have := h1.extW h h2
  subst this
  rw [h.path_eq h1]
  exact ⟨w, h3, h4⟩

theorem Inv.bitHead {cfg lim} {σ : St} (hi : Inv cfg lim σ) {bs} (hb : σ.bits = some bs) {v : Bool} {y : Nat}
    (hy : y ∈ σ.T (bitNode bs v)) : ∃ e, CharEnt σ [v] e ∧ e.bit = y := by
  have he := hi.edge _ _ (mem_T.1 hy)
  unfold EdgeOK at he
  rw [(getD_bits hi hb).tag v] at he
  cases ht : σ.tag y <;> rw [ht] at he <;> try exact he.elim
  exact he

/-! ### uniqueness of characters, dead word starts -/

theorem CharEnt.unique {cfg lim} {σ : St} (hi : Inv cfg lim σ) {p e e'} (h : CharEnt σ p e)
    (h' : CharEnt σ p e') : e = e' := by
  induction h generalizing e' with
  | @head v e bs hb hS hT ht =>
    generalize hp : [v] = p at h'
    cases h' with
    | @head v' _ bs' hb' hS' hT' ht' =>
      cases hp
      have : bs = bs' := by have := hb.bits; rw [hb'.bits] at this; cases this; rfl
      subst this
      rw [hT'] at hT
      injection hT with hT
      exact (CharEnt.head hb hS (by rw [hT', hT]) ht).extB (CharEnt.head hb' hS' hT' ht') hT.symm
    | @tail q v' _ e1 bs' h1 _ _ _ =>
      have := h1.ne_nil
      cases q with
      | nil => exact absurd rfl this
      | cons a q => simp at hp
  | @tail q v e e1 bs h1 hb hS ht ih =>
    generalize hp : q ++ [v] = p at h'
    cases h' with
    | @head v' _ bs' hb' hS' hT' ht' =>
      have := h1.ne_nil
      cases q with
      | nil => exact absurd rfl this
      | cons a q => simp at hp
    | @tail q' v' _ e1' bs' h1' hb' hS' ht' =>
      have hq : q = q' ∧ v = v' := by
        have := List.append_inj' hp rfl
        exact ⟨this.1, by simpa using this.2⟩
      obtain ⟨rfl, rfl⟩ := hq
      have := ih h1'
      subst this
      have ee : e.character = e'.character := by
        apply hi.sib e1.character _ _ (q ++ [v])
        · apply mem_S.1; rw [hS]; simp
        · apply mem_S.1; rw [hS']; simp
        · exact hb.tc
        · exact hb'.tc
      exact (CharEnt.tail h1 hb hS ht).ext (CharEnt.tail h1' hb' hS' ht') ee

theorem Inv.Tnodup {cfg lim} {σ : St} (hi : Inv cfg lim σ) (x : Nat) : (σ.T x).Nodup := by
  have h := hi.nodup.filter (fun e => e.1 == x)
  unfold St.T Store.targets
  unfold List.Nodup at h ⊢
  rw [List.pairwise_map]
  refine List.Pairwise.imp_of_mem ?_ h
  intro a b ha hb hab e
  apply hab
  have h1 := (List.mem_filter.1 ha).2
  have h2 := (List.mem_filter.1 hb).2
  simp at h1 h2
  exact Prod.ext (h1.trans h2.symm) e

/-- Words can no longer start with the character with path `p`: it has got continuations, and not exactly
    one continuation together with exactly one word. -/
def Dead (σ : St) (p : List Bool) : Prop :=
  ∃ e, CharEnt σ p e ∧ σ.T e.character ≠ [] ∧
    ((σ.T e.character).length = 1 → (σ.T e.word).length ≠ 1)

theorem Dead.mono {cfg lim} {σ σ' : St} (hi : Inv cfg lim σ) (m : Mono σ σ') {p} (h : Dead σ p) :
    Dead σ' p := by
  obtain ⟨e, he, h1, h2⟩ := h
  refine ⟨e, he.mono m, m.Tne h1, ?_⟩
  intro h3
  rw [m.word p e he h1]
  apply h2
  have hsub : σ.T e.character ⊆ σ'.T e.character := fun y hy => mem_T.2 (m.edges _ _ (mem_T.1 hy))
  have hl := (hi.Tnodup e.character).length_le_of_subset hsub
  have := List.length_pos_iff.2 h1
  omega

theorem Dead.path {cfg lim} {σ : St} (hi : Inv cfg lim σ) {p} (h : Dead σ p) : ∃ b, lim.path (p ++ [b]) := by
  obtain ⟨e, he, h1, _⟩ := h
  obtain ⟨y, hy⟩ := List.exists_mem_of_ne_nil _ h1
  obtain ⟨v, e', he', _⟩ := hi.charChild he hy
  exact ⟨v, he'.path hi⟩

theorem Dead.same {σ σ' : St} (hs : Same σ σ') {p} (h : Dead σ p) : Dead σ' p := by
  obtain ⟨e, he, h1, h2⟩ := h
  exact ⟨e, hs.charEnt he, by rw [hs.T]; exact h1, by rw [hs.T]; exact h2⟩

theorem Mono.tagNone {σ σ' : St} (m : Mono σ σ') {x : Nat} (h : σ'.tag x = .none) : σ.tag x = .none := by
  by_cases e : σ.tag x = .none
  · exact e
  · rw [m.tag x e] at h; exact absurd h e

/-- a character has all its ancestors -/
theorem CharEnt.prefix {σ : St} {p e} (h : CharEnt σ p e) : ∀ {q}, q ≠ [] → q <+: p → ∃ e', CharEnt σ q e' := by
  induction h with
  | @head v e bs h1 h2 h3 h4 =>
    intro q hq hp
    have : q = [v] := by
      match q, hq with
      | a :: t, _ =>
        obtain ⟨u, hu⟩ := hp
        simp at hu
        simp [hu.1, hu.2.1]
    subst this
    exact ⟨e, .head h1 h2 h3 h4⟩
  | @tail p v e e' bs h1 h2 h3 h4 ih =>
    intro q hq hp
    by_cases hl : q = p ++ [v]
    · subst hl; exact ⟨e, .tail h1 h2 h3 h4⟩
    · refine ih hq ?_
      rcases List.prefix_concat_iff.1 hp with h | h
      · exact absurd h hl
      · exact h

theorem CharEnt.inT {cfg lim} {σ : St} (hi : Inv cfg lim σ) {p v e e'} (h : CharEnt σ p e)
    (h' : CharEnt σ (p ++ [v]) e') : e'.character ∈ σ.T e.character := by
  generalize hq : p ++ [v] = q at h'
  cases h' with
  | head h1 => have := h.ne_nil; cases p with
    | nil => exact absurd rfl this
    | cons a q => simp at hq
  | @tail q' v' _ e1 bs' h1 _ hS _ =>
    have hh := List.append_inj' hq rfl
    obtain ⟨rfl, _⟩ := hh
    have := h.unique hi h1
    subst this
    apply mem_T.2
    apply mem_S.1
    rw [hS]; simp

/-! ### facts about words -/

theorem WordEnt.runes_eq {σ : St} {p q e} (h : WordEnt σ p e) (h' : WordEnt σ q e) : p = q := by
  have := h.tagW
  rw [h'.tagW] at this
  injection this with this
  exact this.symm

theorem WordEnt.ext {σ : St} {p q e e'} (h : WordEnt σ p e) (h' : WordEnt σ q e')
    (he : e.word = e'.word) : e = e' := by
  have c := h.chain
  have c' := h'.chain
  have h1 : e.character = e'.character := by rw [← c.bc.b, ← c'.bc.b, he]
  have h2 : e.cls = e'.cls := by rw [← c.ab.b, ← c'.ab.b, h1]
  have h3 : e.phrase = e'.phrase := by rw [← c.cd.f, ← c'.cd.f, he]
  cases e; cases e'; simp_all

theorem WordEnt.extP {σ : St} {p q e e'} (h : WordEnt σ p e) (h' : WordEnt σ q e')
    (he : e.phrase = e'.phrase) : e = e' :=
  h.ext h' (by rw [← h.chain.cd.b, ← h'.chain.cd.b, he])

theorem Inv.wordChild {cfg lim} {σ : St} (hi : Inv cfg lim σ) {p e} (h : WordEnt σ p e) {y : Nat}
    (hy : y ∈ σ.T e.word) : ∃ r e', WordEnt σ (p ++ [r]) e' ∧ e'.word = y := by
  have he := hi.edge _ _ (mem_T.1 hy)
  unfold EdgeOK at he
  rw [h.tagW] at he
  cases ht : σ.tag y <;> rw [ht] at he <;> try exact he.elim
  obtain ⟨q, v, e1, e', h1, h2, h3, h4⟩ := he
  have := h1.ext h h2
  subst this
  rw [h.runes_eq h1]
  exact ⟨v, e', h3, h4⟩

/-! ### facts about phrases -/

theorem PhraseEnt.words_eq {σ : St} {p q e} (h : PhraseEnt σ p e) (h' : PhraseEnt σ q e) : p = q := by
  have := h.tagP
  rw [h'.tagP] at this
  injection this with this
  exact this.symm

theorem PhraseEnt.ext {σ : St} {p q e e'} (h : PhraseEnt σ p e) (h' : PhraseEnt σ q e')
    (he : e.phrase = e'.phrase) : e = e' := by
  have c := h.chain
  have c' := h'.chain
  have h1 : e.word = e'.word := by rw [← c.bc.b, ← c'.bc.b, he]
  have h2 : e.cls = e'.cls := by rw [← c.ab.b, ← c'.ab.b, h1]
  have h3 : e.detail = e'.detail := by rw [← c.cd.f, ← c'.cd.f, he]
  cases e; cases e'; simp_all

theorem PhraseEnt.extD {σ : St} {p q e e'} (h : PhraseEnt σ p e) (h' : PhraseEnt σ q e')
    (he : e.detail = e'.detail) : e = e' :=
  h.ext h' (by rw [← h.chain.cd.b, ← h'.chain.cd.b, he])

theorem Inv.phraseChild {cfg lim} {σ : St} (hi : Inv cfg lim σ) {p e} (h : PhraseEnt σ p e) {y : Nat}
    (hy : y ∈ σ.T e.phrase) : ∃ r e', PhraseEnt σ (p ++ [r]) e' ∧ e'.phrase = y := by
  have he := hi.edge _ _ (mem_T.1 hy)
  unfold EdgeOK at he
  rw [h.tagP] at he
  cases ht : σ.tag y <;> rw [ht] at he <;> try exact he.elim
  obtain ⟨q, v, e1, e', h1, h2, h3, h4⟩ := he
  have := h1.ext h h2
  subst this
  rw [h.words_eq h1]
  exact ⟨v, e', h3, h4⟩

theorem Inv.wordPhrase {cfg lim} {σ : St} (hi : Inv cfg lim σ) {rs w} (h : WordEnt σ rs w) {y : Nat}
    (hy : y ∈ σ.T w.phrase) : ∃ e, PhraseEnt σ [rs] e ∧ e.word = y := by
  have he := hi.edge _ _ (mem_T.1 hy)
  unfold EdgeOK at he
  rw [h.tagP] at he
  cases ht : σ.tag y <;> rw [ht] at he <;> try exact he.elim
  obtain ⟨q, w1, e, h1, h2, h3, h4, _⟩ := he
  have := h1.extP h h2
  subst this
  rw [h.runes_eq h1]
  exact ⟨e, h3, h4⟩

theorem PhraseEnt.bits {σ : St} {ws e} (h : PhraseEnt σ ws e) : ∃ bs, σ.bits = some bs := by
  obtain ⟨_, _, _, _, hb⟩ := h.base
  obtain ⟨_, _, _, _, hb⟩ := hb.wd.base
  exact hb.ch.bits

end Semnet
