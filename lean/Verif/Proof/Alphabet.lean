import Verif.Proof.Create
import Verif.Spec.Alphabet
import Verif.Spec.Lexicon
/-
  Histories over an alphabet whose word starts are not prefixes of other characters.
-/
namespace Semnet
open Spec

variable {one : Prop}

/-! ### words of a string, by characters -/

theorem words_ne_nil (cs : List Char) : words cs ≠ [] := by
  cases cs with
  | nil => simp [words]
  | cons c cs =>
    unfold words
    split
    · simp
    · split <;> simp

theorem encode_nospace {c : Char} (h : c ≠ ' ') : spaceByte ∉ String.utf8EncodeChar c := by
  rw [← encode_char]
  exact encodeRune_nospace (fun e => h (char_space e))

theorem splitSpace_chars (cs : List Char) :
    splitSpace (cs.flatMap String.utf8EncodeChar) = (words cs).map (·.flatMap String.utf8EncodeChar) := by
  induction cs with
  | nil => rfl
  | cons c cs ih =>
    rw [List.flatMap_cons]
    unfold words
    by_cases h : c = ' '
    · subst h
      rw [if_pos rfl, show String.utf8EncodeChar ' ' = [spaceByte] by decide]
      show splitSpace (spaceByte :: cs.flatMap String.utf8EncodeChar) = _
      rw [splitSpace_space, ih]; rfl
    · rw [if_neg h]
      cases hs : words cs with
      | nil => exact absurd hs (words_ne_nil cs)
      | cons w ws =>
        rw [hs] at ih
        rw [splitSpace_prefix (encode_nospace h) ih]
        simp

theorem words_mem {cs : List Char} : ∀ w ∈ words cs, ∀ c ∈ w, c ∈ cs ∧ c ≠ ' ' := by
  induction cs with
  | nil => simp [words]
  | cons d cs ih =>
    unfold words
    by_cases h : d = ' '
    · rw [if_pos h]
      intro w hw c hc
      rcases List.mem_cons.1 hw with rfl | hw
      · cases hc
      · exact ⟨by simp [(ih w hw c hc).1], (ih w hw c hc).2⟩
    · rw [if_neg h]
      cases hs : words cs with
      | nil => exact absurd hs (words_ne_nil cs)
      | cons v vs =>
        rw [hs] at ih
        intro w hw c hc
        rcases List.mem_cons.1 hw with rfl | hw
        · rcases List.mem_cons.1 hc with rfl | hc
          · exact ⟨by simp, h⟩
          · have := ih v (by simp) c hc
            exact ⟨by simp [this.1], this.2⟩
        · have := ih w (by simp [hw]) c hc
          exact ⟨by simp [this.1], this.2⟩

theorem words_starts {cs : List Char} : (∀ w ∈ (words cs).head?, ∀ c w', w = c :: w' → ∃ v, cs = c :: v) ∧
    ∀ w ∈ (words cs).tail, ∀ c w', w = c :: w' → ∃ u v, cs = u ++ ' ' :: c :: v := by
  induction cs with
  | nil => simp [words]
  | cons d cs ih =>
    unfold words
    by_cases h : d = ' '
    · subst h
      rw [if_pos rfl]
      refine ⟨?_, ?_⟩
      · intro w hw c w' e
        simp at hw; subst hw; cases e
      · intro w hw c w' e
        simp only [List.tail_cons] at hw
        cases hs : words cs with
        | nil => exact absurd hs (words_ne_nil cs)
        | cons v vs =>
          rw [hs] at hw ih
          rcases List.mem_cons.1 hw with rfl | hw
          · obtain ⟨v', hv⟩ := ih.1 w (by simp) c w' e
            exact ⟨[], v', by rw [hv]; rfl⟩
          · obtain ⟨u, v', hv⟩ := ih.2 w (by simpa using hw) c w' e
            exact ⟨' ' :: u, v', by rw [hv]; rfl⟩
    · rw [if_neg h]
      cases hs : words cs with
      | nil => exact absurd hs (words_ne_nil cs)
      | cons v vs =>
        rw [hs] at ih
        refine ⟨?_, ?_⟩
        · intro w hw c w' e
          simp at hw; subst hw
          cases e
          exact ⟨cs, rfl⟩
        · intro w hw c w' e
          obtain ⟨u, v', hv⟩ := ih.2 w (by simpa using hw) c w' e
          exact ⟨d :: u, v', by rw [hv]; rfl⟩

/-- the words of a text over an alphabet -/
theorem Spec.Alphabet.Over.words {A : Alphabet} {t : GoStr} (h : A.Over t) :
    ∀ w ∈ splitSpace t, ∃ cs : List Char, runesOf w = cs.map (fun c => (c.val.toNat : Int)) ∧ (∀ c ∈ cs, A.used c) ∧
      ∀ c ∈ cs.head?, A.start c := by
  obtain ⟨s, rfl, h1, h2, h3⟩ := h
  rw [bytes_eq, splitSpace_chars]
  intro w hw
  obtain ⟨cs, hcs, rfl⟩ := List.mem_map.1 hw
  refine ⟨cs, ?_, fun c hc => ?_, fun c hc => ?_⟩
  · have := runesOf_bytes (String.ofList cs)
    rwa [bytes_eq, String.toList_ofList] at this
  · have := words_mem cs hcs c hc
    exact (h1 c this.1).resolve_left this.2
  · cases cs with
    | nil => cases hc
    | cons d cs =>
      simp at hc; subst hc
      have hne := (words_mem _ hcs d (by simp)).2
      cases hs : Spec.words s.toList with
      | nil => exact absurd hs (words_ne_nil _)
      | cons v vs =>
        have st := words_starts (cs := s.toList)
        rw [hs] at st hcs
        rcases List.mem_cons.1 hcs with e | hcs
        · obtain ⟨x, hx⟩ := st.1 v (by simp) d cs e.symm
          exact h2 d x hx hne
        · obtain ⟨u, x, hx⟩ := st.2 _ (by simpa using hcs) d cs rfl
          exact h3 u d x hx hne

/-! ### limits -/

/-- paths that occur in the characters of an alphabet -/
def alphaLim (A : Alphabet) (one : Prop) (fuel : Nat) : Lim :=
  ⟨fun p => p.length ≤ 31 ∧ ∃ c, A.used c ∧ p <+: bitsOf (c.val.toNat : Int), fuel, 31, fun _ h => h.1, one, true⟩

theorem TextOK.alpha {A : Alphabet} {fuel : Nat} {t : GoStr} (h : A.Over t) (hl : t.length < fuel)
    (ho : one → ∀ w ∈ splitSpace t, (runesOf w).length ≤ 1) : TextOK (alphaLim A one fuel) t := by
  have std := TextOK.std hl
  refine ⟨fun w hw => ⟨fun r hr => ⟨((std.word w hw).rune r hr).good, fun q hq1 hq2 => ?_⟩, (std.word w hw).len,
    fun h1 => ho h1 w hw⟩, std.len⟩
  obtain ⟨cs, h1, h2, _⟩ := h.words w hw
  rw [h1] at hr
  obtain ⟨c, hc, rfl⟩ := List.mem_map.1 hr
  refine ⟨?_, c, h2 c hc, hq2⟩
  exact ((std.word w hw).rune _ (by rw [h1]; exact hr)).path q hq1 hq2

theorem Spec.Alphabet.Free.alive {A : Alphabet} (hA : A.Free) {cfg : Cfg} {fuel : Nat} {σ : St}
    (hi : Inv cfg (alphaLim A one fuel) σ) {c : Char} (hc : A.start c) : ¬ Dead σ (bitsOf (c.val.toNat : Int)) := by
  intro hD
  obtain ⟨b, _, d, hd, hp⟩ := hD.path hi
  have h1 : code c <+: code d := by
    rw [code_eq, code_eq]
    exact ((List.prefix_append _ _).trans hp).map _
  have := hA.2 c d hc hd h1
  subst this
  have := hp.length_le
  rw [List.length_append, List.length_singleton] at this
  omega

theorem nil_split (s : GoStr) : ((splitSpace s).head? = some [] → s = [] ∨ ∃ a, s = 32 :: a) ∧
    ([] ∈ (splitSpace s).tail → (∃ a, s = a ++ [32]) ∨ ∃ a b, s = a ++ 32 :: 32 :: b) := by
  induction s with
  | nil => exact ⟨fun _ => .inl rfl, by simp [splitSpace]⟩
  | cons b t ih =>
    cases hs : splitSpace t with
    | nil => exact absurd hs (splitSpace_ne_nil t)
    | cons w ws =>
      rw [hs] at ih
      have more : [] ∈ ws → (∃ a, b :: t = a ++ [32]) ∨ ∃ a b', b :: t = a ++ 32 :: 32 :: b' := by
        intro h
        rcases ih.2 h with ⟨a, e⟩ | ⟨a, b', e⟩
        · exact .inl ⟨b :: a, by rw [e]; rfl⟩
        · exact .inr ⟨b :: a, b', by rw [e]; rfl⟩
      by_cases hb : b = spaceByte
      · subst hb
        rw [splitSpace_space, hs]
        refine ⟨fun _ => .inr ⟨t, rfl⟩, fun h => ?_⟩
        rcases List.mem_cons.1 h with h | h
        · rcases ih.1 (by rw [← h]; rfl) with e | ⟨a, e⟩
          · exact .inl ⟨[], by rw [e]; rfl⟩
          · exact .inr ⟨[], a, by rw [e]; rfl⟩
        · exact more h
      · rw [splitSpace_cons_ne hb hs]
        exact ⟨fun h => (by cases h), more⟩

theorem nil_mem_split {s : GoStr} (h : [] ∈ splitSpace s) : Gap s := by
  cases hs : splitSpace s with
  | nil => exact absurd hs (splitSpace_ne_nil s)
  | cons w ws =>
    have k := nil_split s
    rw [hs] at h k
    rcases List.mem_cons.1 h with h | h
    · rcases k.1 (by rw [← h]; rfl) with e | e
      · exact .inl e
      · exact .inr (.inl e)
    · rcases k.2 h with e | e
      · exact .inr (.inr (.inl e))
      · exact .inr (.inr (.inr e))

/-- no word of a well-formed text over a free alphabet is refused -/
theorem Spec.Alphabet.Free.good {A : Alphabet} (hA : A.Free) {cfg : Cfg} {fuel : Nat} {σ : St}
    (hi : Inv cfg (alphaLim A one fuel) σ) {t : GoStr} (h : A.Over t) (hg : ¬ Gap t) :
    ∀ w ∈ splitSpace t, ¬ BadWord σ w := by
  intro w hw hb
  obtain ⟨cs, h1, h2, h3⟩ := h.words w hw
  unfold BadWord at hb
  cases cs with
  | nil =>
    have : w = [] := runesOf_eq_nil.1 h1
    subst this
    exact hg (nil_mem_split hw)
  | cons c cs =>
    rw [h1] at hb
    exact hA.alive hi (h3 c (by simp)) hb

theorem Spec.Alphabet.Free.goodHead {A : Alphabet} (hA : A.Free) {cfg : Cfg} {fuel : Nat} {σ : St}
    (hi : Inv cfg (alphaLim A one fuel) σ) {t : GoStr} (h : A.Over t) (hg : ¬ Gap t) : ¬ BadHead σ t := by
  unfold BadHead
  cases hs : splitSpace t with
  | nil => exact absurd hs (splitSpace_ne_nil t)
  | cons w ws => exact hA.good hi h hg w (by rw [hs]; simp)

theorem Spec.Alphabet.Free.goodTail {A : Alphabet} (hA : A.Free) {cfg : Cfg} {fuel : Nat} {σ : St}
    (hi : Inv cfg (alphaLim A one fuel) σ) {t : GoStr} (h : A.Over t) (hg : ¬ Gap t) : ¬ BadTail σ t := by
  rintro ⟨w, hw, hb⟩
  exact hA.good hi h hg w (List.mem_of_mem_tail hw) hb

/-! ### texts in the log -/

theorem entry_texts {P : GoStr → Prop} (hP : ∀ t, P t → P (asText t)) {log : List Entry}
    (hl : ∀ e ∈ log, P e.object ∧ P e.property) {c : Call} (ht : ∀ t ∈ c.texts, P t) {r : RemE} :
    ∀ e ∈ (c.entry log r).toList, P e.object ∧ P e.property := by
  intro e he
  rw [Option.mem_toList] at he
  cases c with
  | createStory o p => cases he; exact ⟨hP _ (ht o (by simp [Call.texts])), hP _ (ht p (by simp [Call.texts]))⟩
  | addFact i o p => cases he; exact ⟨hP _ (ht o (by simp [Call.texts])), hP _ (ht p (by simp [Call.texts]))⟩
  | addChild i o p => cases he; exact ⟨hP _ (ht o (by simp [Call.texts])), hP _ (ht p (by simp [Call.texts]))⟩
  | addRemark i p =>
    simp only [Call.entry] at he
    cases hi : log[i]? with
    | none => rw [hi] at he; cases he
    | some e' =>
      rw [hi] at he
      cases he
      exact ⟨(hl e' (List.mem_of_getElem? hi)).1, hP _ (ht p (by simp [Call.texts]))⟩
  | query => cases he
  | getRemark => cases he

/-- what holds of all strings passed holds of all strings logged -/
theorem log_texts {P : GoStr → Prop} (hP : ∀ t, P t → P (asText t)) (cfg : Cfg) (fuel : Nat) :
    ∀ (es : List Event) {st : State}, (∀ e ∈ st.log, P e.object ∧ P e.property) →
    (∀ e ∈ es, ∀ t ∈ e.texts, P t) → ∀ e ∈ (st.events cfg fuel es).log, P e.object ∧ P e.property := by
  intro es
  induction es with
  | nil => exact fun h _ => h
  | cons e es ih =>
    intro st h ht
    rw [events_cons]
    refine ih ?_ (fun a ha => ht a (by simp [ha]))
    have ht := ht e (by simp)
    cases e with
    | call c f =>
      show ∀ e ∈ (st.call cfg fuel c f).log, _
      unfold State.call
      generalize (Go.run cfg (Call.prog fuel st.log c) f st.world) = out
      obtain ⟨o, w⟩ := out
      cases o with
      | ok o =>
        cases o with
        | none => exact h
        | some r =>
          intro a ha
          rcases List.mem_append.1 ha with ha | ha
          · exact h a ha
          · exact entry_texts hP h ht a ha
      | _ => exact h
    | crash c f n => exact h
    | reopen => exact h

theorem Spec.Alphabet.Over.asText {A : Alphabet} {t : GoStr} (h : A.Over t) : A.Over (asText t) := by
  obtain ⟨s, rfl, h⟩ := h
  rw [asText_bytes]
  exact ⟨s, rfl, h⟩

/-- the pair a creating call stores is over the alphabet -/
theorem pair_over {A : Alphabet} {lim : Lim} {σ : St} {log : List Entry} (hk : Keeps lim σ log)
    (logs : ∀ e ∈ log, A.Over e.object ∧ A.Over e.property) {c : Call} (ht : ∀ t ∈ c.texts, A.Over t ∧ ¬ Gap t)
    {o p : GoStr} (hp : c.pair log = some (o, p)) : (A.Over o ∧ ¬ Gap o) ∧ (A.Over p ∧ ¬ Gap p) := by
  cases c with
  | createStory o' p' => cases hp; exact ⟨ht o (by simp [Call.texts]), ht p (by simp [Call.texts])⟩
  | addFact i o' p' =>
    obtain ⟨e, hg, h0⟩ := Option.map_eq_some_iff.1 hp
    cases h0
    exact ⟨ht o (by simp [Call.texts]), ht p (by simp [Call.texts])⟩
  | addChild i o' p' =>
    obtain ⟨e, hg, h0⟩ := Option.map_eq_some_iff.1 hp
    cases h0
    exact ⟨ht o (by simp [Call.texts]), ht p (by simp [Call.texts])⟩
  | addRemark i p' =>
    obtain ⟨e, hg, h0⟩ := Option.map_eq_some_iff.1 hp
    cases h0
    have hm := List.mem_of_getElem? hg
    exact ⟨⟨(logs e hm).1, (hk.ok e hm).says.noGap.1⟩, ht p (by simp [Call.texts])⟩
  | query => cases hp
  | getRemark => cases hp

theorem Spec.Alphabet.Free.leaf {A : Alphabet} (hA : A.Free) {fuel : Nat} {t : GoStr} (h : A.Over t) (hg : ¬ Gap t) :
    LeafHead (alphaLim A one fuel) t := by
  unfold LeafHead LeafWord
  cases hs : splitSpace t with
  | nil => exact absurd hs (splitSpace_ne_nil t)
  | cons w ws =>
    have hw : w ∈ splitSpace t := by rw [hs]; simp
    obtain ⟨cs, h1, h2, h3⟩ := h.words w hw
    rw [List.headD_cons, h1]
    cases cs with
    | nil =>
      have : w = [] := runesOf_eq_nil.1 h1
      subst this
      exact (hg (nil_mem_split hw)).elim
    | cons c cs =>
      rintro b ⟨_, d, hd, hp⟩
      have h4 : code c <+: code d := by
        rw [code_eq, code_eq]
        exact ((List.prefix_append _ _).trans hp).map _
      have := hA.2 c d (h3 c (by simp)) hd h4
      subst this
      have := hp.length_le
      rw [List.length_append, List.length_singleton] at this
      exact absurd this (Nat.not_succ_le_self _)

/-- how calls over a free alphabet end -/
theorem Spec.Alphabet.Free.ends {A : Alphabet} (hA : A.Free) {cfg : Cfg} {fuel : Nat} {σ σ' : St} {c : Call}
    {o p : GoStr} (over : (A.Over o ∧ ¬ Gap o) ∧ (A.Over p ∧ ¬ Gap p)) (hx : ∀ σ, ¬ extraErr cfg σ c)
    {good : RemE → St → Prop} {out : Out (Option RemE) × World}
    (he : Ends cfg (alphaLim A one fuel) σ (fun x σ' => ∃ r, x = some r ∧ good r σ')
      (apiErr cfg (alphaLim A one fuel) σ o p (extraErr cfg σ c)) out σ') : ∃ r w, out = (.ok (some r), w) ∧ good r σ' := by
  have hi' := he.ext.inv
  have hb := he.out
  obtain ⟨x, w⟩ := out
  cases x with
  | ok a => obtain ⟨r, rfl, hr⟩ := hb; exact ⟨r, w, rfl, hr⟩
  | err e =>
    rcases hb.2 with hb | ⟨_, hb | ⟨_, hb | hb⟩⟩
    · exact (hA.goodHead hi' over.1.1 over.1.2 hb).elim
    · exact (hA.goodHead hi' over.2.1 over.2.2 hb).elim
    · exact (hb.2 (hA.leaf over.2.1 over.2.2)).elim
    · exact (hx σ hb).elim
  | panic =>
    rcases hb.2.2 with hb | ⟨_, _, hb⟩
    · exact (hA.goodTail hi' over.1.1 over.1.2 hb).elim
    · exact (hA.goodTail hi' over.2.1 over.2.2 hb).elim
  | spin => exact hb.elim

theorem alpha_fits (A : Alphabet) {fuel : Nat} {es : List Event} (h : Budget fuel es) : Fits (alphaLim A one fuel) fuel :=
  ⟨h.1, Nat.le_refl _, by have := h.1; omega⟩

theorem alpha_sound {A : Alphabet} {cfg : Cfg} {fuel : Nat} {es : List Event} (h : Calm cfg fuel es)
    (hes : ∀ e ∈ es, ∀ t ∈ e.texts, A.Over t) : Sound cfg (alphaLim A False fuel) (after cfg fuel es) :=
  calm_events (.inl h.dup) (alpha_fits A h.budget) es (.init cfg _) h.calm
    fun e he t h' => TextOK.alpha (hes e he t h') (h.budget.2 e he t h') fun h => h.elim

theorem alpha_log {A : Alphabet} (cfg : Cfg) (fuel : Nat) {es : List Event} (hes : ∀ e ∈ es, ∀ t ∈ e.texts, A.Over t) :
    ∀ e ∈ (after cfg fuel es).log, A.Over e.object ∧ A.Over e.property :=
  log_texts (fun _ h => h.asText) cfg fuel es (fun e he => by cases he) hes

/-- creating calls without a reason outside the text are accepted over a free alphabet -/
theorem Spec.Alphabet.Free.accepts {A : Alphabet} (hA : A.Free) {cfg : Cfg} {fuel : Nat} {es : List Event}
    (h : Calm cfg fuel es) (hes : ∀ e ∈ es, ∀ t ∈ e.texts, A.Over t) {c : Call}
    (ht : ∀ t ∈ c.texts, t.length < fuel ∧ A.Over t ∧ ¬ Gap t) (hpair : c.pair (after cfg fuel es).log ≠ none)
    (hx : ∀ σ, ¬ extraErr cfg σ c) :
    ∃ r w, (c.prog fuel (after cfg fuel es).log).exec cfg (after cfg fuel es).world = (.ok (some r), w) := by
  cases hp : c.pair (after cfg fuel es).log with
  | none => exact absurd hp hpair
  | some q =>
    obtain ⟨o, p⟩ := q
    obtain ⟨σ, σ', hi, hcl, hk, _, he⟩ := (alpha_sound h hes).creates (.inl h.dup) (alpha_fits A h.budget)
      (fun t h' => TextOK.alpha (ht t h').2.1 (ht t h').1 fun h => h.elim) hp
    obtain ⟨r, w, h1, _⟩ := hA.ends (pair_over hk (alpha_log cfg fuel hes) (fun t h' => (ht t h').2) hp) hx he
    exact ⟨r, w, h1⟩

/-- ... even after failures and crashes, on storages without node 0 -/
theorem Spec.Alphabet.Free.accepts_after {A : Alphabet} (hA : A.Free) {cfg : Cfg} (hz : cfg.zero = false) {fuel : Nat}
    {es es' : List Event} (h : Stormy cfg fuel es es') (hes : ∀ e ∈ es ++ es', ∀ t ∈ e.texts, A.Over t) {c : Call}
    (ht : ∀ t ∈ c.texts, t.length < fuel ∧ A.Over t ∧ ¬ Gap t)
    (hpair : c.pair (after cfg fuel (es ++ es')).log ≠ none) (hx : ∀ σ, ¬ extraErr cfg σ c) :
    ∃ r w, (c.prog fuel (after cfg fuel (es ++ es')).log).exec cfg (after cfg fuel (es ++ es')).world =
      (.ok (some r), w) := by
  have fits := alpha_fits (one := False) A h.start.budget
  obtain ⟨σ, hs, hc⟩ := (alpha_sound h.start fun e he => hes e (by simp [he])).holds h.log
  obtain ⟨σ1, h1, _⟩ := storm_events hz fits es' hs h.log fun e he t h' =>
    TextOK.alpha (hes e (by simp [he]) t h') (h.budget.2 e he t h') fun h => h.elim
  rw [← after_append] at h1
  cases hp : c.pair (after cfg fuel (es ++ es')).log with
  | none => exact absurd hp hpair
  | some q =>
    obtain ⟨o, p⟩ := q
    have k : CallOK (calmCtx cfg (alphaLim A False fuel)) fuel σ1 (after cfg fuel (es ++ es')).log :=
      ⟨rfl, rfl, rfl, h1.inv, h1.flt, fun h => (by cases h), fun h => absurd (hz.symm.trans h) (by simp),
        fits.L, fits.D, fits.two, h1.keeps⟩
    obtain ⟨σ2, he⟩ := WrL.ends h1.is h1.flt (createWp k (fun t h' => TextOK.alpha (ht t h').2.1 (ht t h').1 fun h => h.elim) hp)
    obtain ⟨r, w, h2, _⟩ := hA.ends (pair_over h1.keeps (alpha_log cfg fuel hes) (fun t h' => (ht t h').2) hp) hx he
    exact ⟨r, w, h2⟩

/-! ### codes -/

theorem code_inj {a b : Char} (h : code a = code b) : a = b := by
  rw [code_eq, code_eq] at h
  have hd : ∀ x y : Bool, digit x = digit y → x = y := by decide
  have h' := List.map_inj_right (fun x y => hd x y) |>.1 h
  have := bitsOf_inj (r := (a.val.toNat : Int)) (s := (b.val.toNat : Int)) (Int.natCast_nonneg _) (Int.natCast_nonneg _) h'
  exact Char.ext (UInt32.toNat_inj.1 (Int.ofNat.inj this))

/-- characters with codes of one length -/
def Spec.Alphabet.same (n : Nat) : Alphabet := ⟨fun c => (code c).length = n, fun c => (code c).length = n⟩

theorem Spec.Alphabet.same_free (n : Nat) : (Alphabet.same n).Free :=
  ⟨fun _ h => h, fun _ _ ha hb h => code_inj (h.eq_of_length (Eq.trans ha (Eq.symm hb)))⟩

theorem Spec.Alphabet.same_over {n : Nat} {s : String} (h : ∀ c ∈ s.toList, c = ' ' ∨ (code c).length = n) :
    (Alphabet.same n).Over (bytes s) :=
  ⟨s, rfl, h, fun c v e hc => (h c (by rw [e]; simp)).resolve_left hc,
    fun u c v e hc => (h c (by rw [e]; simp)).resolve_left hc⟩

theorem code_letter {c : Char} (h : c.isAlpha) : (code c).length = 7 := by
  have key : ∀ n : Fin 128, 64 ≤ n.val → (Nat.toDigits 2 n.val).length = 7 := by decide +kernel
  have hn : 64 ≤ c.toNat ∧ c.toNat < 128 := by
    simp only [Char.isAlpha, Char.isUpper, Char.isLower, Bool.or_eq_true, Bool.and_eq_true, decide_eq_true_eq,
      ge_iff_le, UInt32.le_iff_toNat_le] at h
    simp at h
    omega
  exact key ⟨c.toNat, hn.2⟩ hn.1

end Semnet
