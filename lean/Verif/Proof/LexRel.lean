import Verif.Proof.Facts
import Verif.Proof.Codes
/-
  The lexicon of the abstract machine against the stored characters, words and phrases.
-/
set_option linter.unusedSimpArgs false
namespace Semnet
open Class Spec

/-- the roles from which the search for words and phrases proceeds -/
@[simp] def Tag.txt : Tag → Bool
  | .chW | .wdW _ | .wdP | .phP _ => true
  | _ => false

/-- there is a character with path `p` -/
def Has (σ : St) (p : List Bool) : Prop := ∃ e, CharEnt σ p e

/-- words that are found by looking them up -/
inductive WReach (σ : St) : List Int → WordE → Prop
  | head {r c w} : CharEnt σ (bitsOf r) c → σ.T c.word = [w.character] → WordEnt σ [r] w → WReach σ [r] w
  | tail {rs r w w'} : WReach σ rs w → WordEnt σ (rs ++ [r]) w' → w'.word ∈ σ.T w.word → WReach σ (rs ++ [r]) w'

/-- phrases that are found by looking them up -/
inductive Reach (σ : St) : List (List Int) → PhraseE → Prop
  | head {rs w e} : WReach σ rs w → σ.T w.phrase = [e.word] → PhraseEnt σ [rs] e → Reach σ [rs] e
  | tail {ws rs e e'} : Reach σ ws e → PhraseEnt σ (ws ++ [rs]) e' → e'.phrase ∈ σ.T e.phrase →
      Reach σ (ws ++ [rs]) e'

/-- siblings differ in their texts -/
def WSib (σ : St) : Prop :=
  ∀ x y y' rs, y ∈ σ.T x → y' ∈ σ.T x → σ.tag y = .wdW rs → σ.tag y' = .wdW rs → y = y'
def PSib (σ : St) : Prop :=
  ∀ x y y' ws, y ∈ σ.T x → y' ∈ σ.T x → σ.tag y = .phP ws → σ.tag y' = .phP ws → y = y'

/-- the texts of a phrase, as runes -/
abbrev runes (ws : List (List Char)) : List (List Int) := ws.map (·.map rune)

structure LexRel (σ : St) (L : Lexicon) : Prop where
  char : ∀ p, Has σ p ↔ p ≠ [] ∧ ∃ c ∈ L.used, p <+: bitsOf (rune c)
  heads : ∀ c e, CharEnt σ (bitsOf (rune c)) e → (σ.T e.word).length = L.heads.count c
  sub : ∀ c ∈ L.heads, c ∈ L.used
  first : ∀ ws ∈ L.phrases, ∃ c u vs, ws = (c :: u) :: vs ∧ c ∈ L.heads
  phr : ∀ c u vs, L.heads.count c = 1 → ((c :: u) :: vs ∈ L.phrases ↔ ∃ e, Reach σ (runes ((c :: u) :: vs)) e)
  wsib : WSib σ
  psib : PSib σ

/-! ### what is looked up exists and is unique -/

theorem WReach.ent {σ : St} {rs w} (h : WReach σ rs w) : WordEnt σ rs w := by
  cases h <;> assumption
theorem Reach.ent {σ : St} {ws e} (h : Reach σ ws e) : PhraseEnt σ ws e := by
  cases h <;> assumption

theorem WordEnt.extC {σ : St} {p q e e'} (h : WordEnt σ p e) (h' : WordEnt σ q e')
    (he : e.character = e'.character) : e = e' :=
  h.ext h' (by rw [← h.chain.bc.f, ← h'.chain.bc.f, he])

theorem PhraseEnt.extW {σ : St} {p q e e'} (h : PhraseEnt σ p e) (h' : PhraseEnt σ q e')
    (he : e.word = e'.word) : e = e' :=
  h.ext h' (by rw [← h.chain.bc.f, ← h'.chain.bc.f, he])

theorem append_one_inj {α : Type} {l l' : List α} {a b : α} (h : l ++ [a] = l' ++ [b]) : l = l' ∧ a = b := by
  have := List.append_inj' h rfl
  exact ⟨this.1, by simpa using this.2⟩

theorem append_one_ne {α : Type} {l : List α} {a b : α} (h : l ≠ []) : l ++ [a] ≠ [b] := by
  intro e
  cases l with
  | nil => exact h rfl
  | cons x l => simp at e

theorem WReach.unique {cfg lim} {σ : St} (hi : Inv cfg lim σ) (hs : WSib σ) {rs w w'} (h : WReach σ rs w)
    (h' : WReach σ rs w') : w = w' := by
  induction h generalizing w' with
  | @head r c w hc hT hw =>
    generalize hq : [r] = q at h'
    cases h' with
    | @head r' c' _ hc' hT' hw' =>
      cases hq
      have := hc.unique hi hc'
      subst this
      rw [hT] at hT'
      injection hT' with hT'
      exact hw.extC hw' hT'
    | tail h1 => exact absurd hq.symm (append_one_ne h1.ent.ne_nil)
  | @tail rs r w1 w h1 hw hm ih =>
    generalize hq : rs ++ [r] = q at h'
    cases h' with
    | head => exact absurd hq (append_one_ne h1.ent.ne_nil)
    | @tail rs' r' w1' _ h1' hw' hm' =>
      obtain ⟨rfl, rfl⟩ := append_one_inj hq
      have := ih h1'
      subst this
      exact hw.ext hw' (hs _ _ _ _ hm hm' hw.tagW hw'.tagW)

theorem Reach.unique {cfg lim} {σ : St} (hi : Inv cfg lim σ) (hs : WSib σ) (hs' : PSib σ) {ws e e'}
    (h : Reach σ ws e) (h' : Reach σ ws e') : e = e' := by
  induction h generalizing e' with
  | @head rs w e hw hT he =>
    generalize hq : [rs] = q at h'
    cases h' with
    | @head rs' w' _ hw' hT' he' =>
      cases hq
      have := hw.unique hi hs hw'
      subst this
      rw [hT] at hT'
      injection hT' with hT'
      exact he.extW he' hT'
    | tail h1 => exact absurd hq.symm (append_one_ne h1.ent.ne_nil)
  | @tail ws rs e1 e h1 he hm ih =>
    generalize hq : ws ++ [rs] = q at h'
    cases h' with
    | head => exact absurd hq (append_one_ne h1.ent.ne_nil)
    | @tail ws' rs' e1' _ h1' he' hm' =>
      obtain ⟨rfl, rfl⟩ := append_one_inj hq
      have := ih h1'
      subst this
      exact he.ext he' (hs' _ _ _ _ hm hm' he.tagP he'.tagP)

/-- the parent of a phrase that is found is found -/
theorem Reach.parent {σ : St} {ws rs e} (hn : ws ≠ []) (h : Reach σ (ws ++ [rs]) e) :
    ∃ e1, Reach σ ws e1 ∧ e.phrase ∈ σ.T e1.phrase := by
  generalize hq : ws ++ [rs] = q at h
  cases h with
  | head => exact absurd hq (append_one_ne hn)
  | @tail ws' rs' e1 _ h1 _ hm =>
    obtain ⟨rfl, rfl⟩ := append_one_inj hq
    exact ⟨e1, h1, hm⟩

theorem headD_append {α : Type} {l : List α} {a d : α} (h : l ≠ []) : (l ++ [a]).headD d = l.headD d := by
  cases l with
  | nil => exact absurd rfl h
  | cons x l => rfl

theorem WReach.first {σ : St} {rs w} (h : WReach σ rs w) :
    ∃ c z, CharEnt σ (bitsOf (rs.headD 0)) c ∧ σ.T c.word = [z] := by
  induction h with
  | @head r c w hc hT hw => exact ⟨c, _, hc, hT⟩
  | @tail rs r w w' h1 _ _ ih => rw [headD_append h1.ent.ne_nil]; exact ih

theorem Reach.first {σ : St} {ws e} (h : Reach σ ws e) :
    ∃ c z, CharEnt σ (bitsOf ((ws.headD []).headD 0)) c ∧ σ.T c.word = [z] := by
  induction h with
  | @head rs w e hw hT he => exact hw.first
  | @tail ws rs e e' h1 _ _ ih => rw [headD_append h1.ent.ne_nil]; exact ih

/-! ### what is looked up stays -/

theorem WReach.fwd {σ σ' : St} (m : Mono σ σ') {rs w} (h : WReach σ rs w)
    (H : ∀ c, CharEnt σ (bitsOf (rs.headD 0)) c → σ'.T c.word = σ.T c.word) : WReach σ' rs w := by
  induction h with
  | @head r c w hc hT hw => exact .head (hc.mono m) (by rw [H c hc, hT]) (hw.mono m)
  | @tail rs r w w' h1 hw hm ih =>
    rw [headD_append h1.ent.ne_nil] at H
    exact .tail (ih H) (hw.mono m) (mem_T.2 (m.edges _ _ (mem_T.1 hm)))

theorem Reach.fwd {σ σ' : St} (m : Mono σ σ') {ws e} (h : Reach σ ws e)
    (H : ∀ c, CharEnt σ (bitsOf ((ws.headD []).headD 0)) c → σ'.T c.word = σ.T c.word) : Reach σ' ws e := by
  induction h with
  | @head rs w e hw hT he =>
    exact .head (hw.fwd m H) (m.Teq hw.ent.tagP rfl hT (by simp)) (he.mono m)
  | @tail ws rs e e' h1 he hm ih =>
    rw [headD_append h1.ent.ne_nil] at H
    exact .tail (ih H) (he.mono m) (mem_T.2 (m.edges _ _ (mem_T.1 hm)))

/-! ### what is looked up was there, or is new -/

section back
variable {cfg : Cfg} {lim : Lim} {σ σ' : St}

theorem char_back (hi : Inv cfg lim σ) (m : Mono σ σ') (N : CharE → Prop)
    (A : ∀ v e x, CharEnt σ' [v] e → σ'.tag x = .bitc v → σ'.T x = [e.bit] → e.bit ∈ σ.T x ∨ N e)
    (B : ∀ p v e e', CharEnt σ' p e → CharEnt σ' (p ++ [v]) e' → e'.character ∈ σ'.T e.character →
      e'.character ∈ σ.T e.character ∨ N e')
    (Z : ∀ p e, CharEnt σ' p e → N e → σ'.T e.character = []) {p e} (h : CharEnt σ' p e) :
    CharEnt σ p e ∨ N e := by
  induction h with
  | @head v e bs hb hS hT ht =>
    have he := CharEnt.head hb hS hT ht
    rcases A v e _ he ht hT with h | h
    · left
      have hed := hi.edge _ _ (mem_T.1 h)
      obtain ⟨t1, t2⟩ := hed.tags
      unfold EdgeOK at hed
      rw [← m.tag _ t1, ← m.tag _ t2, ht, hb.tb] at hed
      obtain ⟨e1, h1, h2⟩ := hed
      have := (h1.mono m).extB he h2
      subst this
      exact h1
    · exact .inr h
  | @tail p v e e1 bs h1 hb hS ht ih =>
    have he := CharEnt.tail h1 hb hS ht
    have hm : e.character ∈ σ'.T e1.character := by
      apply mem_T.2
      apply mem_S.1
      rw [hS]; simp
    rcases ih with h | h
    · rcases B p v e1 e h1 he hm with h' | h'
      · left
        obtain ⟨v', e2, h2, h3⟩ := hi.charChild h h'
        have := (h2.mono m).ext he h3
        subst this
        rw [← (h2.mono m).path_eq he]
        exact h2
      · exact .inr h'
    · rw [Z p e1 h1 h] at hm; cases hm

/-- words start only with characters that were there -/
theorem chW_old (hi : Inv cfg lim σ) (m : Mono σ σ') {p e} (h : CharEnt σ' p e) (hT : σ.T e.word ≠ []) :
    CharEnt σ p e := by
  obtain ⟨y, hy⟩ := List.exists_mem_of_ne_nil _ hT
  have hed := hi.edge _ _ (mem_T.1 hy)
  obtain ⟨t1, t2⟩ := hed.tags
  unfold EdgeOK at hed
  rw [← m.tag _ t1, h.tagW] at hed
  cases ht : σ.tag y <;> rw [ht] at hed <;> try exact hed.elim
  obtain ⟨q, e1, w, h1, h2, _⟩ := hed
  have := (h1.mono m).extW h h2
  subst this
  rw [← (h1.mono m).path_eq h]
  exact h1

theorem WReach.back (hi : Inv cfg lim σ) (m : Mono σ σ') (N : Nat → Prop)
    (H1 : ∀ r c w, CharEnt σ' (bitsOf r) c → σ'.T c.word = [w.character] → WordEnt σ' [r] w →
      σ.T c.word = [w.character] ∨ N w.word)
    (H2 : ∀ x y rs, σ'.tag x = .wdW rs → y ∈ σ'.T x → y ∈ σ.T x ∨ N y)
    (H3 : ∀ y, N y → σ'.T y = []) {rs w} (h : WReach σ' rs w) : WReach σ rs w ∨ N w.word := by
  induction h with
  | @head r c w hc hT hw =>
    rcases H1 r c w hc hT hw with h | h
    · left
      have hc0 := chW_old hi m hc (by rw [h]; simp)
      obtain ⟨w1, h1, h2⟩ := hi.charWord hc0 (y := w.character) (by rw [h]; simp)
      have := (h1.mono m).extC hw h2
      subst this
      have := (h1.mono m).runes_eq hw
      rw [this] at h1
      exact .head hc0 h h1
    · exact .inr h
  | @tail rs r w1 w h1 hw hm ih =>
    rcases ih with h | h
    · rcases H2 _ _ _ h1.ent.tagW hm with h' | h'
      · left
        obtain ⟨r', w2, h2, h3⟩ := hi.wordChild h.ent h'
        have := (h2.mono m).ext hw h3
        subst this
        have := (h2.mono m).runes_eq hw
        rw [this] at h2
        exact .tail h h2 h'
      · exact .inr h'
    · rw [H3 _ h] at hm; cases hm

theorem Reach.back (hi : Inv cfg lim σ) (m : Mono σ σ') (M : Nat → Prop)
    (HW : ∀ rs w, WReach σ' rs w → WReach σ rs w ∨ σ'.T w.phrase = [])
    (H4 : ∀ rs w e, WReach σ rs w → σ'.T w.phrase = [e.word] → PhraseEnt σ' [rs] e →
      σ.T w.phrase = [e.word] ∨ M e.phrase)
    (H5 : ∀ x y ws, σ'.tag x = .phP ws → y ∈ σ'.T x → y ∈ σ.T x ∨ M y)
    (H6 : ∀ y, M y → σ'.T y = []) {ws e} (h : Reach σ' ws e) : Reach σ ws e ∨ M e.phrase := by
  induction h with
  | @head rs w e hw hT he =>
    rcases HW rs w hw with h | h
    · rcases H4 rs w e h hT he with h' | h'
      · left
        obtain ⟨e1, h1, h2⟩ := hi.wordPhrase h.ent (y := e.word) (by rw [h']; simp)
        have := (h1.mono m).extW he h2
        subst this
        exact .head h h' h1
      · exact .inr h'
    · rw [hT] at h; cases h
  | @tail ws rs e1 e h1 he hm ih =>
    rcases ih with h | h
    · rcases H5 _ _ _ h1.ent.tagP hm with h' | h'
      · left
        obtain ⟨r', w2, h2, h3⟩ := hi.phraseChild h.ent h'
        have := (h2.mono m).ext he h3
        subst this
        have := (h2.mono m).words_eq he
        rw [this] at h2
        exact .tail h h2 h'
      · exact .inr h'
    · rw [H6 _ h] at hm; cases hm

end back

/-! ### the source of a word or phrase continuation -/

theorem wdW_src {cfg lim} {σ : St} (hi : Inv cfg lim σ) {x y rs} (h : y ∈ σ.T x) (ht : σ.tag y = .wdW rs) :
    ∃ rs', σ.tag x = .wdW rs' := by
  have he := hi.edge _ _ (mem_T.1 h)
  unfold EdgeOK at he
  rw [ht] at he
  cases hx : σ.tag x <;> rw [hx] at he <;> first | exact he.elim | exact ⟨_, rfl⟩

theorem phP_src {cfg lim} {σ : St} (hi : Inv cfg lim σ) {x y ws} (h : y ∈ σ.T x) (ht : σ.tag y = .phP ws) :
    ∃ ws', σ.tag x = .phP ws' := by
  have he := hi.edge _ _ (mem_T.1 h)
  unfold EdgeOK at he
  rw [ht] at he
  cases hx : σ.tag x <;> rw [hx] at he <;> first | exact he.elim | exact ⟨_, rfl⟩

theorem tag_old {cfg lim} {σ σ' : St} (hi : Inv cfg lim σ) (m : Mono σ σ') {x y} (h : y ∈ σ.T x) :
    σ'.tag x = σ.tag x ∧ σ'.tag y = σ.tag y :=
  have ht := (hi.edge _ _ (mem_T.1 h)).tags
  ⟨m.tag _ ht.1, m.tag _ ht.2⟩

theorem WSib.frame {cfg lim} {σ σ' : St} (hi : Inv cfg lim σ) (hi' : Inv cfg lim σ') (m : Mono σ σ')
    (h : WSib σ) (H : ∀ x rs, σ'.tag x = .wdW rs → σ'.T x = σ.T x) : WSib σ' := by
  intro x y y' rs h1 h2 t1 t2
  obtain ⟨rs', hx⟩ := wdW_src hi' h1 t1
  rw [H x rs' hx] at h1 h2
  exact h x y y' rs h1 h2 (by rw [← (tag_old hi m h1).2, t1]) (by rw [← (tag_old hi m h2).2, t2])

theorem PSib.frame {cfg lim} {σ σ' : St} (hi : Inv cfg lim σ) (hi' : Inv cfg lim σ') (m : Mono σ σ')
    (h : PSib σ) (H : ∀ x ws, σ'.tag x = .phP ws → σ'.T x = σ.T x) : PSib σ' := by
  intro x y y' rs h1 h2 t1 t2
  obtain ⟨rs', hx⟩ := phP_src hi' h1 t1
  rw [H x rs' hx] at h1 h2
  exact h x y y' rs h1 h2 (by rw [← (tag_old hi m h1).2, t1]) (by rw [← (tag_old hi m h2).2, t2])

/-! ### steps -/

/-- Among the roles of the search, targets have changed at `x` only. -/
def At (σ σ' : St) (x : Nat) : Prop := ∀ z, (σ'.tag z).src = true → z ≠ x → σ'.T z = σ.T z

theorem At.sameL {a b c : St} {x} (hs : Same a b) (h : At b c x) : At a c x := fun z h1 h2 => by
  rw [h z h1 h2, hs.T]

/-- The characters along `q` have been provided, nothing else has happened. -/
structure CharStep (σ σ' : St) (q : List Bool) : Prop where
  has : ∀ p, Has σ' p ↔ Has σ p ∨ (p ≠ [] ∧ p <+: q)
  txt : ∀ z, (σ'.tag z).txt = true → σ'.T z = σ.T z

theorem Same.has {σ σ' : St} (hs : Same σ σ') (p : List Bool) : Has σ' p ↔ Has σ p :=
  ⟨fun ⟨e, h⟩ => ⟨e, hs.symm.charEnt h⟩, fun ⟨e, h⟩ => ⟨e, hs.charEnt h⟩⟩

theorem CharStep.same {σ σ' : St} (hs : Same σ σ') {q} (h : Has σ q) : CharStep σ σ' q where
  has p := by
    rw [hs.has]
    obtain ⟨e, h⟩ := h
    exact ⟨.inl, fun h' => h'.elim id fun ⟨h1, h2⟩ => h.prefix h1 h2⟩
  txt z _ := by rw [hs.T]

theorem CharStep.nothing {σ σ' : St} (hs : Same σ σ') : CharStep σ σ' [] where
  has p := by
    rw [hs.has]
    exact ⟨.inl, fun h' => h'.elim id fun ⟨h1, h2⟩ => absurd (List.prefix_nil.1 h2) h1⟩
  txt z _ := by rw [hs.T]

theorem CharStep.sameL {a b c : St} {q} (hs : Same a b) (h : CharStep b c q) : CharStep a c q where
  has p := by rw [h.has, hs.has]
  txt z hz := by rw [h.txt z hz, hs.T]

theorem CharStep.sameR {a b c : St} {q} (h : CharStep a b q) (hs : Same b c) : CharStep a c q where
  has p := by rw [hs.has, h.has]
  txt z hz := by rw [hs.T]; rw [hs.tag] at hz; exact h.txt z hz

theorem CharStep.trans {cfg lim} {a b c : St} {q q'} (hb : Inv cfg lim b) (m : Mono a b) (m' : Mono b c)
    (h : CharStep a b q) (h' : CharStep b c q') (hq : q <+: q') : CharStep a c q' where
  has p := by
    rw [h'.has, h.has]
    constructor
    · rintro ((h | ⟨h1, h2⟩) | h)
      · exact .inl h
      · exact .inr ⟨h1, h2.trans hq⟩
      · exact .inr h
    · rintro (h | h)
      · exact .inl (.inl h)
      · exact .inr h
  txt z hz := by
    rw [h'.txt z hz]
    by_cases ht : b.tag z = .none
    · rw [hb.Tnone ht]
      symm
      apply List.eq_nil_iff_forall_not_mem.2
      intro y hy
      have := mem_T.2 (m.edges _ _ (mem_T.1 hy))
      rw [hb.Tnone ht] at this
      cases this
    · rw [m'.tag z ht] at hz
      exact h.txt z hz

theorem Tag.txt_src {t : Tag} (h : t.txt = true) : t.src = true := by cases t <;> simp_all

theorem CharStep.froz {cfg lim} {σ σ' : St} (hi : Inv cfg lim σ) (m : Mono σ σ') (h : Froz σ σ') :
    CharStep σ σ' [] where
  has p := by
    refine ⟨fun ⟨e, he⟩ => .inl ⟨e, ?_⟩, ?_⟩
    · refine (char_back hi m (fun _ => False) ?_ ?_ ?_ he).resolve_right id
      · intro v e x _ hx hT
        rw [← h x (by rw [hx]; rfl), hT]; simp
      · intro p v e e' he _ hm
        rw [← h _ (by rw [he.tagC]; rfl)]
        exact .inl hm
      · exact fun _ _ _ h => h.elim
    · rintro (⟨e, he⟩ | ⟨h1, h2⟩)
      · exact ⟨e, he.mono m⟩
      · exact absurd (List.prefix_nil.1 h2) h1
  txt z hz := h z (Tag.txt_src hz)

/-- a first character is added -/
theorem CharStep.head {cfg lim} {σ σ' : St} (hi : Inv cfg lim σ) (hi' : Inv cfg lim σ') (m : Mono σ σ') {bs v e}
    (hb : σ.bits = some bs) (ha : At σ σ' (bitNode bs v)) (he : CharEnt σ' [v] e)
    (hn : σ.tag e.character = .none) : CharStep σ σ' [v] where
  has p := by
    have hbn : σ'.tag (bitNode bs v) = .bitc v := (getD_bits hi' (m.bits _ hb)).tag v
    constructor
    · rintro ⟨e', he'⟩
      have := char_back hi m (fun x => x = e) ?_ ?_ ?_ he'
      · rcases this with h | rfl
        · exact .inl ⟨e', h⟩
        · rw [he'.path_eq he]
          exact .inr ⟨by simp, List.prefix_refl _⟩
      · intro v' e1 x h1 hx hT
        by_cases hxe : x = bitNode bs v
        · right
          have hv : v = v' := by rw [hxe, hbn] at hx; injection hx
          subst hv
          exact h1.unique hi' he
        · rw [← ha x (by rw [hx]; rfl) hxe, hT]; simp
      · intro p v' e1 e2 h1 _ hm
        rw [← ha _ (by rw [h1.tagC]; rfl) (by intro e; have := h1.tagC; rw [e, hbn] at this; cases this)]
        exact .inl hm
      · rintro _ e1 h1 rfl
        rw [ha _ (by rw [h1.tagC]; rfl) (by intro e; have := h1.tagC; rw [e, hbn] at this; cases this)]
        exact hi.Tnone hn
    · rintro (⟨e, he⟩ | ⟨h1, h2⟩)
      · exact ⟨e, he.mono m⟩
      · exact he.prefix h1 h2
  txt z hz := by
    refine ha z (Tag.txt_src hz) ?_
    rintro rfl
    rw [(getD_bits hi' (m.bits _ hb)).tag v] at hz
    cases hz

/-- a later character is added -/
theorem CharStep.tail {cfg lim} {σ σ' : St} (hi : Inv cfg lim σ) (m : Mono σ σ')
    {p : List Bool} {v : Bool} {prev e : CharE} (hp : CharEnt σ p prev) (ha : At σ σ' prev.character)
    (hT : σ'.T prev.character = e.character :: σ.T prev.character)
    (he : CharEnt σ' (p ++ [v]) e)
    (hn : σ.tag e.character = .none) : CharStep σ σ' (p ++ [v]) where
  has p' := by
    have hbn : σ'.tag prev.character = .chC p := (hp.mono m).tagC
    constructor
    · rintro ⟨e', he'⟩
      have := char_back hi m (fun x => x = e) ?_ ?_ ?_ he'
      · rcases this with h | rfl
        · exact .inl ⟨e', h⟩
        · rw [he'.path_eq he]
          exact .inr ⟨by simp, List.prefix_refl _⟩
      · intro v' e1 x h1 hx hT
        rw [← ha x (by rw [hx]; rfl) (by intro e; rw [e, hbn] at hx; cases hx), hT]; simp
      · intro p v' e1 e2 h1 h2 hm
        by_cases hxe : e1.character = prev.character
        · have hm' : e2.character = e.character ∨ e2.character ∈ σ.T prev.character := by
            rw [hxe] at hm
            rw [hT] at hm
            simpa using hm
          rw [hxe]
          exact hm'.symm.imp id (fun h => h2.ext he h)
        · rw [← ha _ (by rw [h1.tagC]; rfl) hxe]
          exact .inl hm
      · rintro _ e1 h1 rfl
        rw [ha _ (by rw [h1.tagC]; rfl) (by intro e; rw [e, hp.tagC] at hn; cases hn)]
        exact hi.Tnone hn
    · rintro (⟨e, he⟩ | ⟨h1, h2⟩)
      · exact ⟨e, he.mono m⟩
      · exact he.prefix h1 h2
  txt z hz := by
    refine ha z (Tag.txt_src hz) ?_
    rintro rfl
    rw [(hp.mono m).tagC] at hz
    cases hz

/-! ### the relation along steps -/

section step
variable {cfg : Cfg} {lim : Lim} {σ σ' : St}

theorem runes_first (c : Char) (u : List Char) (vs : List (List Char)) :
    ((runes ((c :: u) :: vs)).headD []).headD 0 = rune c := rfl

theorem Reach.frame_iff (hi : Inv cfg lim σ) (m : Mono σ σ')
    (H : ∀ z, (σ'.tag z).txt = true → σ'.T z = σ.T z) {ws e} : Reach σ' ws e ↔ Reach σ ws e := by
  constructor
  · intro h
    have W : ∀ rs w, WReach σ' rs w → WReach σ rs w := by
      intro rs w hw
      refine (WReach.back hi m (fun _ => False) ?_ ?_ (fun _ h => h.elim) hw).resolve_right id
      · intro r c w hc hT _
        rw [← H _ (by rw [hc.tagW]; rfl)]; exact .inl hT
      · intro x y rs hx hy
        rw [← H _ (by rw [hx]; rfl)]; exact .inl hy
    refine (Reach.back hi m (fun _ => False) (fun rs w hw => .inl (W rs w hw)) ?_ ?_ (fun _ h => h.elim) h).resolve_right id
    · intro rs w e hw hT _
      rw [← H _ (by rw [(hw.ent.mono m).tagP]; rfl)]; exact .inl hT
    · intro x y rs hx hy
      rw [← H _ (by rw [hx]; rfl)]; exact .inl hy
  · intro h
    exact h.fwd m fun c hc => H _ (by rw [(hc.mono m).tagW]; rfl)

/-- characters are added -/
theorem LexRel.step (hi : Inv cfg lim σ) (hi' : Inv cfg lim σ') (m : Mono σ σ') {L L' : Lexicon} (h : LexRel σ L)
    {q} (s : CharStep σ σ' q)
    (hu : ∀ p, p ≠ [] → ((∃ c ∈ L'.used, p <+: bitsOf (rune c)) ↔ (∃ c ∈ L.used, p <+: bitsOf (rune c)) ∨ p <+: q))
    (hsub : ∀ c ∈ L.used, c ∈ L'.used)
    (hh : L'.heads = L.heads) (hp : L'.phrases = L.phrases) : LexRel σ' L' where
  char p := by
    rw [s.has, h.char]
    by_cases hp : p = []
    · simp [hp]
    · simp only [hp, ne_eq, not_false_eq_true, true_and]
      rw [hu p hp]
  heads c e he := by
    rw [hh, s.txt _ (by rw [he.tagW]; rfl)]
    by_cases hT : σ.T e.word = []
    · rw [hT]
      symm
      apply Classical.byContradiction
      intro hc
      have hm : c ∈ L.heads := List.count_pos_iff.1 (Nat.pos_of_ne_zero hc)
      obtain ⟨e1, h1⟩ := (h.char (bitsOf (rune c))).2 ⟨bitsOf_ne_nil _, c, h.sub c hm, List.prefix_refl _⟩
      have := (h1.mono m).unique hi' he
      subst this
      have := h.heads c e1 h1
      rw [hT] at this
      exact hc this.symm
    · exact h.heads c e (chW_old hi m he hT)
  sub c hc := hsub c (h.sub c (hh ▸ hc))
  first ws hw := by rw [hp] at hw; rw [hh]; exact h.first ws hw
  phr c u vs hc := by
    rw [hh] at hc
    rw [hp, h.phr c u vs hc]
    simp only [Reach.frame_iff hi m s.txt]
  wsib := h.wsib.frame hi hi' m fun x rs hx => s.txt x (by rw [hx]; rfl)
  psib := h.psib.frame hi hi' m fun x rs hx => s.txt x (by rw [hx]; rfl)

theorem LexRel.nothing (hi : Inv cfg lim σ) (hi' : Inv cfg lim σ') (m : Mono σ σ') {L : Lexicon} (h : LexRel σ L)
    (s : CharStep σ σ' []) : LexRel σ' L :=
  h.step hi hi' m s (fun _ hp => ⟨.inl, fun h => h.elim id fun h => absurd (List.prefix_nil.1 h) hp⟩) (fun _ h => h)
    rfl rfl

theorem LexRel.froz (hi : Inv cfg lim σ) (hi' : Inv cfg lim σ') (m : Mono σ σ') {L : Lexicon} (h : LexRel σ L)
    (s : Froz σ σ') : LexRel σ' L := h.nothing hi hi' m (.froz hi m s)

theorem LexRel.same (hi : Inv cfg lim σ) (hi' : Inv cfg lim σ') {L : Lexicon} (h : LexRel σ L) (s : Same σ σ') :
    LexRel σ' L := h.nothing hi hi' s.mono (.nothing s)

/-- a character is seen -/
theorem LexRel.see (hi : Inv cfg lim σ) (hi' : Inv cfg lim σ') (m : Mono σ σ') {L : Lexicon} (h : LexRel σ L)
    {c : Char} (s : CharStep σ σ' (bitsOf (rune c))) : LexRel σ' (L.see [c]) := by
  refine h.step hi hi' m s ?_ ?_ rfl rfl
  · intro p hp
    simp only [Lexicon.see, List.singleton_append, List.mem_cons, exists_eq_or_imp]
    exact Or.comm
  · intro d hd
    simp only [Lexicon.see, List.singleton_append, List.mem_cons]
    exact .inr hd

/-- a character is seen again -/
theorem LexRel.again {L : Lexicon} (h : LexRel σ L) {c : Char} (hc : Has σ (bitsOf (rune c))) :
    LexRel σ (L.see [c]) where
  char p := by
    rw [h.char]
    constructor
    · rintro ⟨h1, d, h2, h3⟩
      exact ⟨h1, d, by simp [Lexicon.see, h2], h3⟩
    · rintro ⟨h1, d, h2, h3⟩
      refine ⟨h1, ?_⟩
      simp only [Lexicon.see, List.singleton_append, List.mem_cons] at h2
      rcases h2 with rfl | h2
      · obtain ⟨_, d', h4, h5⟩ := (h.char _).1 hc
        exact ⟨d', h4, h3.trans h5⟩
      · exact ⟨d, h2, h3⟩
  heads := h.heads
  sub d hd := by simp [Lexicon.see, h.sub d hd]
  first := h.first
  phr := h.phr
  wsib := h.wsib
  psib := h.psib

/-- characters are unchanged if targets have changed at a text role only -/
theorem CharEnt.at_back (hi : Inv cfg lim σ) (m : Mono σ σ') {x} (ha : At σ σ' x) (hx : (σ'.tag x).txt = true) {p e}
    (he : CharEnt σ' p e) : CharEnt σ p e := by
  refine (char_back hi m (fun _ => False) ?_ ?_ (fun _ _ _ h => h.elim) he).resolve_right id
  · intro v e z _ hz hT
    rw [← ha z (by rw [hz]; rfl) (by rintro rfl; rw [hz] at hx; cases hx), hT]; simp
  · intro p v e e' h1 _ hm
    rw [← ha _ (by rw [h1.tagC]; rfl) (by intro h; have := h1.tagC; rw [h] at this; rw [this] at hx; cases hx)]
    exact .inl hm

theorem Has.at_iff (hi : Inv cfg lim σ) (m : Mono σ σ') {x} (ha : At σ σ' x) (hx : (σ'.tag x).txt = true) (p) :
    Has σ' p ↔ Has σ p :=
  ⟨fun ⟨e, he⟩ => ⟨e, he.at_back hi m ha hx⟩, fun ⟨e, he⟩ => ⟨e, he.mono m⟩⟩

/-- a word starts -/
theorem LexRel.enter (hi : Inv cfg lim σ) (hi' : Inv cfg lim σ') (m : Mono σ σ') {L : Lexicon} (h : LexRel σ L)
    {c : Char} {e0 w} (hc : c ∈ L.used) (h0 : CharEnt σ (bitsOf (rune c)) e0) (ha : At σ σ' e0.word)
    (hT : σ'.T e0.word = w.character :: σ.T e0.word) (hw : WordEnt σ' [rune c] w)
    (nw : σ.tag w.word = .none) (np : σ.tag w.phrase = .none) : LexRel σ' (L.enter c) := by
  have t0 : σ'.tag e0.word = .chW := (h0.mono m).tagW
  have hx : (σ'.tag e0.word).txt = true := by rw [t0]; rfl
  have hne : ∀ z t, σ'.tag z = t → t ≠ .chW → z ≠ e0.word := by
    rintro z t h1 h2 rfl
    exact h2 (h1.symm.trans t0)
  have Tw : σ'.T w.word = [] := by
    rw [ha _ (by rw [hw.tagW]; rfl) (hne _ _ hw.tagW (by simp))]; exact hi.Tnone nw
  have Tp : σ'.T w.phrase = [] := by
    rw [ha _ (by rw [hw.tagP]; rfl) (hne _ _ hw.tagP (by simp))]; exact hi.Tnone np
  have back : ∀ ws e, Reach σ' ws e → Reach σ ws e := by
    intro ws e hr
    refine (Reach.back hi m (fun _ => False) ?_ ?_ ?_ (fun _ h => h.elim) hr).resolve_right id
    · intro rs w1 hw1
      have := WReach.back hi m (fun y => y = w.word) ?_ ?_ ?_ hw1
      · rcases this with h | h
        · exact .inl h
        · have := hw1.ent.ext hw h
          subst this
          exact .inr Tp
      · intro r c1 w2 h1 h2 h3
        by_cases hce : c1.word = e0.word
        · right
          rw [hce, hT] at h2
          injection h2 with h2
          rw [h3.extC hw h2.symm]
        · rw [← ha _ (by rw [h1.tagW]; rfl) hce]; exact .inl h2
      · intro x y rs hx hy
        rw [← ha _ (by rw [hx]; rfl) (hne _ _ hx (by simp))]; exact .inl hy
      · rintro y rfl; exact Tw
    · intro rs w1 e1 h1 h2 _
      have := (h1.ent.mono m).tagP
      rw [← ha _ (by rw [this]; rfl) (hne _ _ this (by simp))]; exact .inl h2
    · intro x y rs hx hy
      rw [← ha _ (by rw [hx]; rfl) (hne _ _ hx (by simp))]; exact .inl hy
  have ne0 : ∀ d e, d ≠ c → CharEnt σ (bitsOf (rune d)) e → e.word ≠ e0.word := by
    intro d e hd he hce
    have := he.extW h0 hce
    subst this
    exact hd (bits_rune_inj (he.path_eq h0))
  constructor
  · intro p; rw [Has.at_iff hi m ha hx, h.char]; rfl
  · intro d e he
    have he0 := he.at_back hi m ha hx
    show _ = (c :: L.heads).count d
    by_cases hd : d = c
    · subst hd
      have := he0.unique hi h0
      subst this
      rw [hT, List.count_cons_self, ← h.heads d e he0]; rfl
    · rw [List.count_cons_of_ne (Ne.symm hd), ← h.heads d e he0,
        ha _ (by rw [he.tagW]; rfl) (ne0 d e hd he0)]
  · intro d hd
    rcases List.mem_cons.1 hd with rfl | hd
    · exact hc
    · exact h.sub d hd
  · intro ws hws
    obtain ⟨d, u, vs, h1, h2⟩ := h.first ws hws
    exact ⟨d, u, vs, h1, List.mem_cons_of_mem _ h2⟩
  · intro d u vs hd
    have hd' : (c :: L.heads).count d = 1 := hd
    by_cases hdc : d = c
    · subst hdc
      rw [List.count_cons_self] at hd'
      have hz : L.heads.count d = 0 := by omega
      constructor
      · intro hm
        obtain ⟨d', u', vs', h1, h2⟩ := h.first _ hm
        simp only [List.cons.injEq] at h1
        rw [← h1.1.1] at h2
        exact absurd h2 (List.count_eq_zero.1 hz)
      · rintro ⟨e, he⟩
        obtain ⟨c1, z, h1, h2⟩ := (back _ _ he).first
        have := h.heads d c1 h1
        rw [h2, hz] at this
        cases this
    · rw [List.count_cons_of_ne (Ne.symm hdc)] at hd'
      have := h.phr d u vs hd'
      constructor
      · intro hm
        obtain ⟨e, he⟩ := this.1 hm
        refine ⟨e, he.fwd m ?_⟩
        intro c1 h1
        exact ha _ (by rw [(h1.mono m).tagW]; rfl) (ne0 d c1 hdc h1)
      · rintro ⟨e, he⟩
        exact this.2 ⟨e, back _ _ he⟩
  · exact h.wsib.frame hi hi' m fun x rs hx => ha x (by rw [hx]; rfl) (hne _ _ hx (by simp))
  · exact h.psib.frame hi hi' m fun x rs hx => ha x (by rw [hx]; rfl) (hne _ _ hx (by simp))

/-- a word continues -/
theorem LexRel.cont (hi : Inv cfg lim σ) (hi' : Inv cfg lim σ') (m : Mono σ σ') {L : Lexicon} (h : LexRel σ L)
    {rs : List Int} {r : Int} {prev w : WordE} (h0 : WordEnt σ rs prev) (ha : At σ σ' prev.word)
    (hT : σ'.T prev.word = w.word :: σ.T prev.word) (hw : WordEnt σ' (rs ++ [r]) w)
    (nw : σ.tag w.word = .none) (np : σ.tag w.phrase = .none)
    (hno : ∀ y ∈ σ.T prev.word, σ.tag y ≠ .wdW (rs ++ [r])) : LexRel σ' L ∧
      ∀ rs' w', WReach σ rs' w' → WReach σ' rs' w' := by
  have t0 : σ'.tag prev.word = .wdW rs := (h0.mono m).tagW
  have hx : (σ'.tag prev.word).txt = true := by rw [t0]; rfl
  have hne : ∀ z t, σ'.tag z = t → t ≠ .wdW rs → z ≠ prev.word := by
    rintro z t h1 h2 rfl
    exact h2 (h1.symm.trans t0)
  have hwp : w.word ≠ prev.word := by
    intro e
    rw [e, h0.tagW] at nw; cases nw
  have Tw : σ'.T w.word = [] := by
    rw [ha _ (by rw [hw.tagW]; rfl) hwp]; exact hi.Tnone nw
  have Tp : σ'.T w.phrase = [] := by
    rw [ha _ (by rw [hw.tagP]; rfl) (hne _ _ hw.tagP (by simp))]; exact hi.Tnone np
  have kids : ∀ x y rs', σ'.tag x = .wdW rs' → y ∈ σ'.T x → y ∈ σ.T x ∨ (x = prev.word ∧ y = w.word) := by
    intro x y rs' hx hy
    by_cases hxp : x = prev.word
    · subst hxp
      rw [hT] at hy
      rcases List.mem_cons.1 hy with rfl | hy
      · exact .inr ⟨rfl, rfl⟩
      · exact .inl hy
    · rw [ha x (by rw [hx]; rfl) hxp] at hy
      exact .inl hy
  have fw : ∀ p c, CharEnt σ p c → σ'.T c.word = σ.T c.word := fun p c hc =>
    have := (hc.mono m).tagW
    ha _ (by rw [this]; rfl) (hne _ _ this (by simp))
  have back : ∀ ws e, Reach σ' ws e → Reach σ ws e := by
    intro ws e hr
    refine (Reach.back hi m (fun _ => False) ?_ ?_ ?_ (fun _ h => h.elim) hr).resolve_right id
    · intro rs w1 hw1
      have := WReach.back hi m (fun y => y = w.word) ?_ ?_ ?_ hw1
      · rcases this with h | h
        · exact .inl h
        · have := hw1.ent.ext hw h
          subst this
          exact .inr Tp
      · intro r c1 w2 h1 h2 h3
        rw [← ha _ (by rw [h1.tagW]; rfl) (hne _ _ h1.tagW (by simp))]; exact .inl h2
      · intro x y rs hx hy
        exact (kids x y rs hx hy).imp id (·.2)
      · rintro y rfl; exact Tw
    · intro rs w1 e1 h1 h2 _
      have := (h1.ent.mono m).tagP
      rw [← ha _ (by rw [this]; rfl) (hne _ _ this (by simp))]; exact .inl h2
    · intro x y rs hx hy
      rw [← ha _ (by rw [hx]; rfl) (hne _ _ hx (by simp))]; exact .inl hy
  refine ⟨⟨?_, ?_, h.sub, h.first, ?_, ?_, ?_⟩, fun rs' w' hw' => hw'.fwd m fun c hc => fw _ c hc⟩
  · intro p; rw [Has.at_iff hi m ha hx, h.char]
  · intro d e he
    have he0 := he.at_back hi m ha hx
    rw [fw _ e he0, h.heads d e he0]
  · intro d u vs hd
    rw [h.phr d u vs hd]
    constructor
    · rintro ⟨e, he⟩
      exact ⟨e, he.fwd m fun c hc => fw _ c hc⟩
    · rintro ⟨e, he⟩
      exact ⟨e, back _ _ he⟩
  · intro x y y' rs' h1 h2 t1 t2
    obtain ⟨rs1, hx⟩ := wdW_src hi' h1 t1
    rcases kids x y rs1 hx h1 with k1 | ⟨k1, k1'⟩ <;> rcases kids x y' rs1 hx h2 with k2 | ⟨k2, k2'⟩
    · exact h.wsib x y y' rs' k1 k2 (by rw [← (tag_old hi m k1).2, t1]) (by rw [← (tag_old hi m k2).2, t2])
    · subst k2 k2'
      rw [hw.tagW] at t2
      injection t2 with t2
      subst t2
      exact absurd (by rw [← (tag_old hi m k1).2, t1]) (hno y k1)
    · subst k1 k1'
      rw [hw.tagW] at t1
      injection t1 with t1
      subst t1
      exact absurd (by rw [← (tag_old hi m k2).2, t2]) (hno y' k2)
    · rw [k1', k2']
  · exact h.psib.frame hi hi' m fun x rs hx => ha x (by rw [hx]; rfl) (hne _ _ hx (by simp))

/-- a phrase starts -/
theorem LexRel.phraseHead (hi : Inv cfg lim σ) (hi' : Inv cfg lim σ') (m : Mono σ σ') {L : Lexicon} (h : LexRel σ L)
    {c : Char} {u : List Char} {w e} (hc : c ∈ L.heads)
    (hw : L.heads.count c = 1 → WReach σ ((c :: u).map rune) w) (h0 : WordEnt σ ((c :: u).map rune) w)
    (ha : At σ σ' w.phrase) (hT : σ'.T w.phrase = [e.word])
    (he : PhraseEnt σ' [(c :: u).map rune] e) (np : σ.tag e.phrase = .none) :
    LexRel σ' (L.keep [c :: u]) ∧ (L.heads.count c = 1 → Reach σ' [(c :: u).map rune] e) := by
  have t0 : σ'.tag w.phrase = .wdP := (h0.mono m).tagP
  have hx : (σ'.tag w.phrase).txt = true := by rw [t0]; rfl
  have hne : ∀ z t, σ'.tag z = t → t ≠ .wdP → z ≠ w.phrase := by
    rintro z t h1 h2 rfl
    exact h2 (h1.symm.trans t0)
  have Tp : σ'.T e.phrase = [] := by
    rw [ha _ (by rw [he.tagP]; rfl) (hne _ _ he.tagP (by simp))]; exact hi.Tnone np
  have fw : ∀ p c, CharEnt σ p c → σ'.T c.word = σ.T c.word := fun p c hc =>
    have := (hc.mono m).tagW
    ha _ (by rw [this]; rfl) (hne _ _ this (by simp))
  have wback : ∀ rs w1, WReach σ' rs w1 → WReach σ rs w1 := by
    intro rs w1 hw1
    refine (WReach.back hi m (fun y => False) ?_ ?_ (fun _ h => h.elim) hw1).resolve_right id
    · intro r c1 w2 h1 h2 h3
      rw [← ha _ (by rw [h1.tagW]; rfl) (hne _ _ h1.tagW (by simp))]; exact .inl h2
    · intro x y rs hx hy
      rw [← ha _ (by rw [hx]; rfl) (hne _ _ hx (by simp))]; exact .inl hy
  have back : ∀ ws e1, Reach σ' ws e1 → Reach σ ws e1 ∨ e1.phrase = e.phrase := by
    intro ws e1 hr
    refine Reach.back hi m (fun y => y = e.phrase) (fun rs w1 hw1 => .inl (wback rs w1 hw1)) ?_ ?_ ?_ hr
    · intro rs w1 e1 h1 h2 h3
      by_cases hwe : w1.phrase = w.phrase
      · right
        rw [hwe, hT] at h2
        injection h2 with h2
        rw [h3.extW he h2.symm]
      · have := (h1.ent.mono m).tagP
        rw [← ha _ (by rw [this]; rfl) hwe]; exact .inl h2
    · intro x y rs hx hy
      rw [← ha _ (by rw [hx]; rfl) (hne _ _ hx (by simp))]; exact .inl hy
    · rintro y rfl; exact Tp
  have nw : L.heads.count c = 1 → Reach σ' [(c :: u).map rune] e := by
    intro h1
    exact .head ((hw h1).fwd m fun c hc => fw _ c hc) hT he
  refine ⟨⟨?_, ?_, h.sub, ?_, ?_, ?_, ?_⟩, nw⟩
  · intro p; rw [Has.at_iff hi m ha hx, h.char]; rfl
  · intro d e he
    have he0 := he.at_back hi m ha hx
    rw [fw _ e he0, h.heads d e he0]; rfl
  · intro ws hws
    rcases List.mem_cons.1 hws with rfl | hws
    · exact ⟨c, u, [], rfl, hc⟩
    · exact h.first ws hws
  · intro d u1 vs hd
    have hd' : L.heads.count d = 1 := hd
    show (d :: u1) :: vs ∈ [c :: u] :: L.phrases ↔ _
    rw [List.mem_cons, h.phr d u1 vs hd']
    constructor
    · rintro (h1 | ⟨e1, h1⟩)
      · rw [h1]
        have : d = c := by simp only [List.cons.injEq] at h1; exact h1.1.1
        exact ⟨e, nw (this ▸ hd')⟩
      · exact ⟨e1, h1.fwd m fun c hc => fw _ c hc⟩
    · rintro ⟨e1, h1⟩
      rcases back _ _ h1 with h2 | h2
      · exact .inr ⟨e1, h2⟩
      · left
        have := h1.ent.ext he h2
        subst this
        exact mapmap_rune_inj (h1.ent.words_eq he)
  · exact h.wsib.frame hi hi' m fun x rs hx => ha x (by rw [hx]; rfl) (hne _ _ hx (by simp))
  · exact h.psib.frame hi hi' m fun x rs hx => ha x (by rw [hx]; rfl) (hne _ _ hx (by simp))

/-- a phrase that is known starts -/
theorem LexRel.phraseAgain {L : Lexicon} (h : LexRel σ L)
    {ws : List (List Char)} {c : Char} {u : List Char} {vs : List (List Char)} (hws : ws = (c :: u) :: vs)
    (hc : c ∈ L.heads) {e} (hr : L.heads.count c = 1 → Reach σ (runes ws) e) :
    LexRel σ (L.keep ws) where
  char := h.char
  heads := h.heads
  sub := h.sub
  first ws' hws' := by
    rcases List.mem_cons.1 hws' with rfl | hws'
    · exact ⟨c, u, vs, hws, hc⟩
    · exact h.first _ hws'
  phr d u1 vs1 hd := by
    have hd' : L.heads.count d = 1 := hd
    show (d :: u1) :: vs1 ∈ ws :: L.phrases ↔ _
    rw [List.mem_cons, ← h.phr d u1 vs1 hd']
    constructor
    · rintro (h1 | h1)
      · have hdc : d = c := by
          rw [hws] at h1
          simp only [List.cons.injEq] at h1; exact h1.1.1
        refine (h.phr d u1 vs1 hd').2 ⟨e, ?_⟩
        rw [h1]
        exact hr (hdc ▸ hd')
      · exact h1
    · exact .inr
  wsib := h.wsib
  psib := h.psib

/-- a phrase continues -/
theorem LexRel.phraseTail (hi : Inv cfg lim σ) (hi' : Inv cfg lim σ') (m : Mono σ σ') {L : Lexicon} (h : LexRel σ L)
    {ws : List (List Char)} {c : Char} {u : List Char} {vs : List (List Char)} (hws : ws = (c :: u) :: vs)
    {v : List Char} {prev e} (hc : c ∈ L.heads)
    (hr : L.heads.count c = 1 → Reach σ (runes ws) prev) (h0 : PhraseEnt σ (runes ws) prev)
    (ha : At σ σ' prev.phrase) (hT : σ'.T prev.phrase = e.phrase :: σ.T prev.phrase)
    (he : PhraseEnt σ' (runes ws ++ [v.map rune]) e) (np : σ.tag e.phrase = .none)
    (hno : ∀ y ∈ σ.T prev.phrase, σ.tag y ≠ .phP (runes ws ++ [v.map rune])) :
    LexRel σ' (L.keep (ws ++ [v])) ∧ (L.heads.count c = 1 → Reach σ' (runes (ws ++ [v])) e) := by
  have t0 : σ'.tag prev.phrase = .phP (runes ws) := (h0.mono m).tagP
  have hx : (σ'.tag prev.phrase).txt = true := by rw [t0]; rfl
  have hne : ∀ z t, σ'.tag z = t → t ≠ .phP (runes ws) → z ≠ prev.phrase := by
    rintro z t h1 h2 rfl
    exact h2 (h1.symm.trans t0)
  have hpe : e.phrase ≠ prev.phrase := by
    intro e
    rw [e, h0.tagP] at np; cases np
  have Tp : σ'.T e.phrase = [] := by
    rw [ha _ (by rw [he.tagP]; rfl) hpe]; exact hi.Tnone np
  have fw : ∀ p c, CharEnt σ p c → σ'.T c.word = σ.T c.word := fun p c hc =>
    have := (hc.mono m).tagW
    ha _ (by rw [this]; rfl) (hne _ _ this (by simp))
  have kids : ∀ x y rs', σ'.tag x = .phP rs' → y ∈ σ'.T x → y ∈ σ.T x ∨ (x = prev.phrase ∧ y = e.phrase) := by
    intro x y rs' hx hy
    by_cases hxp : x = prev.phrase
    · subst hxp
      rw [hT] at hy
      rcases List.mem_cons.1 hy with rfl | hy
      · exact .inr ⟨rfl, rfl⟩
      · exact .inl hy
    · rw [ha x (by rw [hx]; rfl) hxp] at hy
      exact .inl hy
  have wback : ∀ rs w1, WReach σ' rs w1 → WReach σ rs w1 := by
    intro rs w1 hw1
    refine (WReach.back hi m (fun y => False) ?_ ?_ (fun _ h => h.elim) hw1).resolve_right id
    · intro r c1 w2 h1 h2 h3
      rw [← ha _ (by rw [h1.tagW]; rfl) (hne _ _ h1.tagW (by simp))]; exact .inl h2
    · intro x y rs hx hy
      rw [← ha _ (by rw [hx]; rfl) (hne _ _ hx (by simp))]; exact .inl hy
  have back : ∀ ws e1, Reach σ' ws e1 → Reach σ ws e1 ∨ e1.phrase = e.phrase := by
    intro ws e1 hr
    refine Reach.back hi m (fun y => y = e.phrase) (fun rs w1 hw1 => .inl (wback rs w1 hw1)) ?_ ?_ ?_ hr
    · intro rs w1 e1 h1 h2 h3
      have := (h1.ent.mono m).tagP
      rw [← ha _ (by rw [this]; rfl) (hne _ _ this (by simp))]; exact .inl h2
    · intro x y rs hx hy
      exact (kids x y rs hx hy).imp id (·.2)
    · rintro y rfl; exact Tp
  have e1 : runes (ws ++ [v]) = runes ws ++ [v.map rune] := by simp [runes]
  have nw : L.heads.count c = 1 → Reach σ' (runes (ws ++ [v])) e := by
    intro h1
    rw [e1]
    exact .tail ((hr h1).fwd m fun c hc => fw _ c hc) he (by rw [hT]; simp)
  refine ⟨⟨?_, ?_, h.sub, ?_, ?_, ?_, ?_⟩, nw⟩
  · intro p; rw [Has.at_iff hi m ha hx, h.char]; rfl
  · intro d e he
    have he0 := he.at_back hi m ha hx
    rw [fw _ e he0, h.heads d e he0]; rfl
  · intro ws' hws'
    rcases List.mem_cons.1 hws' with rfl | hws'
    · exact ⟨c, u, vs ++ [v], by rw [hws]; rfl, hc⟩
    · exact h.first _ hws'
  · intro d u1 vs1 hd
    have hd' : L.heads.count d = 1 := hd
    show (d :: u1) :: vs1 ∈ (ws ++ [v]) :: L.phrases ↔ _
    rw [List.mem_cons, h.phr d u1 vs1 hd']
    constructor
    · rintro (h1 | ⟨e1, h1⟩)
      · rw [h1]
        have : d = c := by
          rw [hws] at h1
          simp only [List.cons_append, List.cons.injEq] at h1; exact h1.1.1
        exact ⟨e, nw (this ▸ hd')⟩
      · exact ⟨e1, h1.fwd m fun c hc => fw _ c hc⟩
    · rintro ⟨e2, h1⟩
      rcases back _ _ h1 with h2 | h2
      · exact .inr ⟨e2, h2⟩
      · left
        have := h1.ent.ext he h2
        subst this
        apply mapmap_rune_inj
        show runes _ = runes _
        rw [e1]
        exact h1.ent.words_eq he
  · exact h.wsib.frame hi hi' m fun x rs hx => ha x (by rw [hx]; rfl) (hne _ _ hx (by simp))
  · intro x y y' rs' h1 h2 t1 t2
    obtain ⟨rs1, hx⟩ := phP_src hi' h1 t1
    rcases kids x y rs1 hx h1 with k1 | ⟨k1, k1'⟩ <;> rcases kids x y' rs1 hx h2 with k2 | ⟨k2, k2'⟩
    · exact h.psib x y y' rs' k1 k2 (by rw [← (tag_old hi m k1).2, t1]) (by rw [← (tag_old hi m k2).2, t2])
    · subst k2 k2'
      rw [he.tagP] at t2
      injection t2 with t2
      subst t2
      exact absurd (by rw [← (tag_old hi m k1).2, t1]) (hno y k1)
    · subst k1 k1'
      rw [he.tagP] at t1
      injection t1 with t1
      subst t1
      exact absurd (by rw [← (tag_old hi m k2).2, t2]) (hno y' k2)
    · rw [k1', k2']

/-! ### how a word starts -/

theorem Lexicon.digit_iff {L : Lexicon} {c : Char} {v : Bool} :
    (L.used.any fun b => (code c ++ [digit v]).isPrefixOf (code b)) = true ↔
      ∃ b ∈ L.used, bitsOf (rune c) ++ [v] <+: bitsOf (rune b) := by
  rw [List.any_eq_true]
  have : ∀ b, (code c ++ [digit v]).isPrefixOf (code b) = true ↔ bitsOf (rune c) ++ [v] <+: bitsOf (rune b) := by
    intro b
    rw [List.isPrefixOf_iff_prefix, code_eq, code_eq]
    show ((bitsOf (rune c)).map digit ++ [v].map digit) <+: _ ↔ _
    rw [← List.map_append]
    constructor
    · rintro ⟨t, ht⟩
      have : (bitsOf (rune b)).map digit = (bitsOf (rune c) ++ [v]).map digit ++ t := ht.symm
      obtain ⟨l1, l2, h1, h2, h3⟩ := List.map_eq_append_iff.1 this
      have := List.map_inj_right digit_inj |>.1 h2
      subst this
      exact ⟨l2, h1.symm⟩
    · exact fun h => List.IsPrefix.map digit h
  simp only [this]

theorem LexRel.branches (hi : Inv cfg lim σ) {L : Lexicon} (h : LexRel σ L) {c : Char} {e}
    (he : CharEnt σ (bitsOf (rune c)) e) : (σ.T e.character).length = L.branches c := by
  have H : ∀ v, (L.used.any fun b => (code c ++ [digit v]).isPrefixOf (code b)) = true ↔
      Has σ (bitsOf (rune c) ++ [v]) := by
    intro v
    rw [Lexicon.digit_iff, h.char]
    simp
  have hperm : ∀ l : List Nat, l.Nodup → (∀ y, y ∈ l ↔ y ∈ σ.T e.character) → (σ.T e.character).length = l.length :=
    fun l h1 h2 => ((List.perm_ext_iff_of_nodup h1 (hi.Tnodup _)).2 h2).length_eq.symm
  have kid : ∀ y ∈ σ.T e.character, ∃ v e', CharEnt σ (bitsOf (rune c) ++ [v]) e' ∧ e'.character = y :=
    fun y hy => hi.charChild he hy
  have h0 := H false
  have h1 := H true
  unfold Lexicon.branches
  have d0 : digit false = '0' := rfl
  have d1 : digit true = '1' := rfl
  rw [d0] at h0
  rw [d1] at h1
  by_cases a0 : Has σ (bitsOf (rune c) ++ [false]) <;> by_cases a1 : Has σ (bitsOf (rune c) ++ [true])
  · have b0 := h0.2 a0
    have b1 := h1.2 a1
    simp only [List.filter_cons, b0, b1, if_true, List.filter_nil]
    obtain ⟨e0, a0⟩ := a0
    obtain ⟨e1, a1⟩ := a1
    refine hperm [e0.character, e1.character] ?_ ?_
    · simp only [List.nodup_cons, List.mem_singleton, List.not_mem_nil, not_false_eq_true, List.nodup_nil, and_true]
      intro hh
      have := a0.ext a1 hh
      subst this
      have := a0.path_eq a1
      simp at this
    · intro y
      constructor
      · intro hy
        simp only [List.mem_cons, List.not_mem_nil, or_false] at hy
        rcases hy with rfl | rfl
        · exact he.inT hi a0
        · exact he.inT hi a1
      · intro hy
        obtain ⟨v, e', h2, rfl⟩ := kid y hy
        cases v
        · rw [h2.unique hi a0]; simp
        · rw [h2.unique hi a1]; simp
  · have b0 := h0.2 a0
    have b1 := (Bool.not_eq_true _).mp (fun h => a1 (h1.1 h))
    simp only [List.filter_cons, b0, b1, if_true, List.filter_nil, Bool.false_eq_true, if_false]
    obtain ⟨e0, a0⟩ := a0
    refine hperm [e0.character] (by simp) ?_
    intro y
    constructor
    · intro hy
      rw [List.mem_singleton.1 hy]
      exact he.inT hi a0
    · intro hy
      obtain ⟨v, e', h2, rfl⟩ := kid y hy
      cases v
      · rw [h2.unique hi a0]; simp
      · exact absurd ⟨_, h2⟩ a1
  · have b1 := h1.2 a1
    have b0 := (Bool.not_eq_true _).mp (fun h => a0 (h0.1 h))
    simp only [List.filter_cons, b0, b1, if_true, List.filter_nil, Bool.false_eq_true, if_false]
    obtain ⟨e1, a1⟩ := a1
    refine hperm [e1.character] (by simp) ?_
    intro y
    constructor
    · intro hy
      rw [List.mem_singleton.1 hy]
      exact he.inT hi a1
    · intro hy
      obtain ⟨v, e', h2, rfl⟩ := kid y hy
      cases v
      · exact absurd ⟨_, h2⟩ a0
      · rw [h2.unique hi a1]; simp
  · have b0 := (Bool.not_eq_true _).mp (fun h => a0 (h0.1 h))
    have b1 := (Bool.not_eq_true _).mp (fun h => a1 (h1.1 h))
    simp only [List.filter_cons, b0, b1, List.filter_nil, Bool.false_eq_true, if_false]
    refine hperm [] (by simp) ?_
    intro y
    constructor
    · intro hy; cases hy
    · intro hy
      obtain ⟨v, e', h2, rfl⟩ := kid y hy
      cases v
      · exact absurd ⟨_, h2⟩ a0
      · exact absurd ⟨_, h2⟩ a1

theorem LexRel.fresh (hi : Inv cfg lim σ) {L : Lexicon} (h : LexRel σ L) {c : Char} {e}
    (he : CharEnt σ (bitsOf (rune c)) e) (hT : σ.T e.character = []) : L.start c = .fresh := by
  have := h.branches hi he
  rw [hT] at this
  unfold Lexicon.start
  exact if_pos this.symm

theorem LexRel.known (hi : Inv cfg lim σ) {L : Lexicon} (h : LexRel σ L) {c : Char} {e}
    (he : CharEnt σ (bitsOf (rune c)) e) {y z} (hT : σ.T e.character = [y]) (hW : σ.T e.word = [z]) :
    L.start c = .known ∧ L.heads.count c = 1 := by
  have h1 := h.branches hi he
  have h2 := h.heads c e he
  rw [hT] at h1
  rw [hW] at h2
  unfold Lexicon.start
  rw [← h1, ← h2]
  simp

theorem LexRel.dead (hi : Inv cfg lim σ) {L : Lexicon} (h : LexRel σ L) {c : Char}
    (hd : Dead σ (bitsOf (rune c))) : L.start c = .dead := by
  obtain ⟨e, he, h1, h2⟩ := hd
  have h3 := h.branches hi he
  have h4 := h.heads c e he
  unfold Lexicon.start
  rw [← h3, ← h4]
  rw [if_neg (by intro h; exact h1 (List.length_eq_zero_iff.1 h)), if_neg (fun h => h2 h.1 h.2)]

end step

end Semnet
