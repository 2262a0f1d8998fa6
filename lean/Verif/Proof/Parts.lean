import Verif.Proof.Chars
import Verif.Spec.Parts
/-
  Mixed histories: API calls and direct use of the text layers.
-/
namespace Semnet
open Spec

/-! ### the first use of an empty storage -/

/-- On an empty storage the program makes the class nodes first, or fails without doing anything. -/
def Begins {α : Type} (cfg : Cfg) (p : Go α) : Prop :=
  p.exec cfg (World.open (Store.empty cfg)) = p.exec cfg (World.open (rootStore cfg)) ∨ ∃ e, p = .err e

theorem Begins.bind {α β : Type} {cfg : Cfg} {p : Go α} {f : α → Go β} (h : Begins cfg p) : Begins cfg (p >>= f) := by
  rcases h with h | ⟨e, h⟩
  · left; rw [exec_bind, exec_bind, h]
  · right; exact ⟨e, by rw [h]; rfl⟩

theorem Begins.character (cfg : Cfg) (r : Rune) : Begins cfg (Character.provide r) := by
  by_cases h0 : 0 ≤ r
  · left
    cases hb : bitsOf r with
    | nil => exact absurd hb (bitsOf_ne_nil r)
    | cons b bs => exact charProvide_empty cfg (b := b) (bs := bs) (by rw [collect_ok h0, hb])
  · right
    refine ⟨.invalidBitName, ?_⟩
    unfold Character.provide
    rw [collect_neg (Int.not_le.1 h0)]

theorem Begins.word (cfg : Cfg) (fuel : Nat) (s : GoStr) : Begins cfg (Word.provide fuel s) := by
  unfold Word.provide
  cases runesOf s with
  | nil => exact .inr ⟨_, rfl⟩
  | cons r rs =>
    refine Begins.bind ?_
    unfold Word.provideFirstElement
    exact (Begins.character cfg r).bind

theorem Begins.phrase (cfg : Cfg) (fuel : Nat) (s : GoStr) : Begins cfg (Phrase.provide fuel s) := by
  unfold Phrase.provide
  cases splitSpace s with
  | nil => exact .inr ⟨_, rfl⟩
  | cons w ws =>
    refine Begins.bind ?_
    unfold Phrase.provideFirstElement
    exact (Begins.word cfg fuel w).bind

theorem Begins.detail (cfg : Cfg) (fuel : Nat) (o p : GoStr) : Begins cfg (Detail.provide fuel o p) := by
  unfold Detail.provide
  exact (Begins.phrase cfg fuel o).bind

/-! ### what is promised -/

/-- what the ghost state knows about a part -/
def PartOK (σ : St) : Part → Prop
  | .character a r => (0 ≤ r ∧ r < 2 ^ 31) ∧ ∃ e, a = ⟨some e⟩ ∧ CharEnt σ (bitsOf r) e
  | .word e s => WordEnt σ (runesOf s) e
  | .phrase e s => PhraseEnt σ (wordsOf s) e
  | .detail d o p => ∃ po pp, PhraseEnt σ (wordsOf o) po ∧ PhraseEnt σ (wordsOf p) pp ∧ DetailEnt σ d po pp

theorem PartOK.mono {σ σ' : St} (m : Mono σ σ') : ∀ {x : Part}, PartOK σ x → PartOK σ' x
  | .character _ _, ⟨h, e, h1, h2⟩ => ⟨h, e, h1, h2.mono m⟩
  | .word _ _, h => WordEnt.mono m h
  | .phrase _ _, h => PhraseEnt.mono m h
  | .detail _ _ _, ⟨po, pp, h1, h2, h3⟩ => ⟨po, pp, h1.mono m, h2.mono m, h3.mono m⟩

/-- the state of a shop with at least the class nodes -/
structure Stocked (cfg : Cfg) (lim : Lim) (s : Shop) (σ : St) : Prop where
  holds : Holds cfg lim s.state σ
  clean : Clean σ
  parts : ∀ x ∈ s.parts, PartOK σ x

/-- reachable -/
def Stock (cfg : Cfg) (lim : Lim) (s : Shop) : Prop :=
  s = ⟨State.init cfg, []⟩ ∨ ∃ σ, Stocked cfg lim s σ

theorem Stocked.got {α : Type} {cfg : Cfg} {lim : Lim} {s : Shop} {σ : St} (h : Stocked cfg lim s σ) {p : Go α}
    {good : α → St → Prop} {bad} (hp : WrL (calmCtx cfg lim) good bad p σ) (part : α → Part)
    (hg : ∀ a σ', σ'.flt = false → good a σ' → PartOK σ' (part a)) :
    Stock cfg lim (s.got part (p.exec cfg s.state.world)) := by
  obtain ⟨σ', i1, i2, i3, i4⟩ := WrL.ends h.holds.is h.holds.flt hp
  generalize p.exec cfg s.state.world = out at i1 i4
  obtain ⟨o, w⟩ := out
  have old : ∀ x ∈ s.parts, PartOK σ' x := fun x hx => (h.parts x hx).mono i2.mono
  have hs : Holds cfg lim ⟨w, s.state.log⟩ σ' := ⟨i1, i2.inv, i3, h.holds.keeps.mono i2.mono⟩
  refine .inr ⟨σ', ?_⟩
  cases o with
  | ok a =>
    refine ⟨hs, i2.clean h.clean i3, fun x hx => ?_⟩
    rcases List.mem_append.1 hx with hx | hx
    · exact old x hx
    · rw [List.mem_singleton.1 hx]; exact hg a σ' i3 i4
  | err e => exact ⟨hs, i2.clean h.clean i3, old⟩
  | panic => exact ⟨hs, i2.clean h.clean i3, old⟩
  | spin => exact i4.elim

/-- one use of a layer, in any state -/
theorem Stock.got {α : Type} {cfg : Cfg} {lim : Lim} (hd : Policy cfg lim) {s : Shop} (h : Stock cfg lim s)
    {p : Go α} (ho : Begins cfg p) (part : α → Part)
    (hp : ∀ σ, Inv cfg lim σ → Clean σ → σ.flt = false → ∃ good bad, WrL (calmCtx cfg lim) good bad p σ ∧
      ∀ a σ', σ'.flt = false → good a σ' → PartOK σ' (part a)) :
    Stock cfg lim (s.got part (p.exec cfg s.state.world)) := by
  rcases h with h | ⟨σ, h⟩
  · subst h
    rcases ho with ho | ⟨e, ho⟩
    · have k : Stocked cfg lim ⟨State.roots cfg, []⟩ (rootSt cfg) :=
        ⟨roots_holds hd, rootSt_clean cfg, fun x hx => by cases hx⟩
      obtain ⟨good, bad, h1, h2⟩ := hp (rootSt cfg) k.holds.inv k.clean k.holds.flt
      have := k.got h1 part h2
      rw [show (Shop.mk (State.roots cfg) []).state.world = World.open (rootStore cfg) from rfl, ← ho] at this
      exact this
    · subst ho; exact .inl rfl
  · obtain ⟨good, bad, h1, h2⟩ := hp σ h.holds.inv h.clean h.holds.flt
    exact h.got h1 part h2

theorem WordOK.std {fuel : Nat} {s : GoStr} (h : s.length < fuel) (hs : 32 ∉ s) : WordOK (stdLim fuel) s := by
  have hg : ∀ r ∈ runesOf s, goodRune r := fun r hr => ⟨runesOf_valid s r hr, runesOf_nospace hs r hr⟩
  constructor
  · intro r hr
    refine ⟨hg r hr, ?_⟩
    intro q _ hq
    have := hq.length_le
    have hr' := (hg r hr).range
    have := bitsOf_length (r := r) (k := 31) (by omega) (by decide)
    show q.length ≤ 31
    omega
  · have := runesOf_length s
    show _ ≤ fuel
    omega
  · exact fun h => h.elim

private theorem natAbs_lt' {r : Int} (h0 : 0 ≤ r) (h1 : r < 2 ^ 31) : r.natAbs < 2 ^ 31 := by omega

theorem Stock.use {cfg : Cfg} {fuel : Nat} (hd : cfg.dup = .ignore) (hfuel : 31 ≤ fuel) {s : Shop}
    (h : Stock cfg (stdLim fuel) s) (u : Use) (hu : u.Fine fuel) : Stock cfg (stdLim fuel) (s.use cfg fuel u) := by
  have hP : Policy cfg (stdLim fuel) := .inl hd
  have hL : (calmCtx cfg (stdLim fuel)).lim.L ≤ fuel := hfuel
  have hD : (calmCtx cfg (stdLim fuel)).lim.D ≤ fuel := Nat.le_refl _
  cases u with
  | event e =>
    obtain ⟨hc, ht⟩ := hu
    have hf : Fits (stdLim fuel) fuel := ⟨hfuel, Nat.le_refl _, by omega⟩
    have ht' : ∀ t ∈ e.texts, TextOK (stdLim fuel) t := fun t h => TextOK.std (ht t h)
    rcases h with h | ⟨σ, h⟩
    · subst h
      rcases calm_step hP hf (Sound.init cfg (stdLim fuel)) e hc ht' with h | ⟨σ, h1, h2⟩
      · left
        show Shop.mk ((State.init cfg).event cfg fuel e) [] = _
        rw [h]
      · exact .inr ⟨σ, h1, h2, fun x hx => by cases hx⟩
    · obtain ⟨σ', p⟩ := eventPost (C := calmCtx cfg (stdLim fuel)) (h.holds.calm hf h.clean) h.holds.is e (.inr hc) ht'
      exact .inr ⟨σ', p.holds, p.clean hc h.clean, fun x hx => (h.parts x hx).mono p.mono⟩
  | character r =>
    refine h.got hP (Begins.character cfg r) _ ?_
    intro σ hi hc hfl
    by_cases h0 : 0 ≤ r
    · have h1 : r < 2 ^ 31 := hu
      have hp : PathOK (stdLim fuel) (bitsOf r) := by
        intro q _ hq
        exact Nat.le_trans hq.length_le (bitsOf_length (k := 31) (natAbs_lt' h0 h1) (by omega))
      refine ⟨_, never, Wr.charProvide (C := calmCtx cfg (stdLim fuel)) rfl rfl hi (fun h => by cases h) (collect_ok h0)
        (bitsOf_ne_nil r) hp, ?_⟩
      intro a σ' hf hg
      obtain ⟨a⟩ := a
      cases a with
      | none => simp only at hg; rw [hf] at hg; cases hg
      | some e => exact ⟨⟨h0, h1⟩, e, rfl, hg.1⟩
    · refine ⟨fun _ _ => False, fun _ _ => True, ?_, fun _ _ _ h => h.elim⟩
      unfold Character.provide
      rw [collect_neg (Int.not_le.1 h0)]
      exact ⟨.refl hi, .inr trivial⟩
  | word t =>
    refine h.got hP (Begins.word cfg fuel t) _ ?_
    intro σ hi hc hfl
    exact ⟨_, _, (Wr.wordProvide (C := calmCtx cfg (stdLim fuel)) rfl rfl hi (fun h => by cases h) hL (WordOK.std hu.1 hu.2)).loose,
      fun a σ' _ hg => hg.1⟩
  | phrase t =>
    refine h.got hP (Begins.phrase cfg fuel t) _ ?_
    intro σ hi hc hfl
    exact ⟨_, _, (Wr.phraseProvide (C := calmCtx cfg (stdLim fuel)) rfl rfl hi (fun h => by cases h) hL hD (TextOK.std hu)).loose,
      fun a σ' _ hg => hg.1⟩
  | detail o p =>
    refine h.got hP (Begins.detail cfg fuel o p) _ ?_
    intro σ hi hc hfl
    refine ⟨_, _, Wr.detailProvide (C := calmCtx cfg (stdLim fuel)) rfl rfl rfl hi (fun h => by cases h) (fun _ => hc) hfl hL hD
      (TextOK.std hu.1) (TextOK.std hu.2), ?_⟩
    intro a σ' _ hg
    obtain ⟨po, pp, h1, h2, _, _, _, h3⟩ := hg.ent
    exact ⟨po, pp, h1, h2, h3.resolve_right fun h => h.2.2.1 hc⟩

theorem Stock.uses {cfg : Cfg} {fuel : Nat} (hd : cfg.dup = .ignore) (hfuel : 31 ≤ fuel) : ∀ (us : List Use) {s : Shop},
    Stock cfg (stdLim fuel) s → (∀ u ∈ us, u.Fine fuel) → Stock cfg (stdLim fuel) (us.foldl (Shop.use cfg fuel) s) := by
  intro us
  induction us with
  | nil => exact fun h _ => h
  | cons u us ih => exact fun h hu => ih (h.use hd hfuel u (hu u (by simp))) fun v hv => hu v (by simp [hv])

/-! ### reading -/

theorem Rd.detailDirect {C : Ctx} {σ : St} (hi : Inv C.cfg C.lim σ) {d po pp o p} (hd : DetailEnt σ d po pp)
    (ho : PhraseEnt σ o po) (hp : PhraseEnt σ p pp) {fuel : Nat} (hf : C.lim.L ≤ fuel)
    (hD : C.lim.D ≤ fuel) : Rd C (· = (textOf o, textOf p)) (Detail.getObjectAndProperty fuel d) σ := by
  unfold Detail.getObjectAndProperty
  refine Rd.bind (good := (· = (po.detail, pp.detail))) ?_ ?_
  · unfold Detail.getObjectAndPropertyPhrases
    refine Rd.bind (Rd.sources1 hi hd.tp rfl hd.So) ?_
    intro a σ2 h2 _ ha; subst ha
    refine Rd.bind (Rd.targets1 h2.inv (hd.mono h2.mono).tp rfl (hd.mono h2.mono).Tp) ?_
    intro a σ3 h3 _ ha; subst ha
    exact Rd.ret h3.inv rfl
  intro a σ2 h2 _ ha; subst ha
  refine Rd.bind (Rd.phraseByDetail h2.inv (ho.mono h2.mono)) ?_
  intro a σ3 h3 _ ha; subst ha
  have h13 := h2.trans h3
  refine Rd.bind (Rd.phraseExtract h3.inv (ho.mono h13.mono) hf hD) ?_
  intro a σ4 h4 _ ha; subst ha
  have h14 := h13.trans h4
  refine Rd.bind (Rd.phraseByDetail h4.inv (hp.mono h14.mono)) ?_
  intro a σ5 h5 _ ha; subst ha
  have h15 := h14.trans h5
  refine Rd.bind (Rd.phraseExtract h5.inv (hp.mono h15.mono) hf hD) ?_
  intro a σ6 h6 _ ha; subst ha
  exact Rd.ret h6.inv rfl

theorem Holds.run {α : Type} {cfg : Cfg} {lim : Lim} {st : State} {σ : St} (h : Holds cfg lim st σ) {p : Go α} {a : α}
    (hp : Rd (calmCtx cfg lim) (· = a) p σ) : ∃ w', p.exec cfg st.world = (.ok a, w') := by
  obtain ⟨x, m, h1, h2⟩ := Rd.exec (C := calmCtx cfg lim) rfl h.is h.flt hp
  subst h2
  exact ⟨_, h1⟩

theorem Stocked.reads {cfg : Cfg} {fuel : Nat} (hfuel : 31 ≤ fuel) {s : Shop} {σ : St}
    (h : Stocked cfg (stdLim fuel) s σ) : ∀ x ∈ s.parts, x.Reads cfg fuel s.state.world := by
  intro x hx
  have hL : (calmCtx cfg (stdLim fuel)).lim.L ≤ fuel := hfuel
  have hD : (calmCtx cfg (stdLim fuel)).lim.D ≤ fuel := Nat.le_refl _
  have hi := h.holds.inv
  have ok := h.parts x hx
  cases x with
  | character a r =>
    obtain ⟨⟨h0, h1⟩, e, ha, he⟩ := ok
    subst ha
    constructor
    · have := h.holds.run (Rd.charExtract (C := calmCtx cfg (stdLim fuel)) hi he hL)
      rwa [toRune_bitsOf h0 h1] at this
    · refine ⟨e, rfl, h.holds.run (a := CharAgg.mk (some e)) ?_⟩
      unfold Character.fetch
      refine Rd.bind (Rd.charByWord (C := calmCtx cfg (stdLim fuel)) hi he) ?_
      intro a σ1 h1 _ ha; subst ha
      exact Rd.ret h1.inv rfl
  | word e t =>
    exact ⟨h.holds.run (Rd.wordExtract (C := calmCtx cfg (stdLim fuel)) hi ok hL hD),
      h.holds.run (Rd.wordByPhrase (C := calmCtx cfg (stdLim fuel)) hi ok)⟩
  | phrase e t =>
    refine ⟨?_, h.holds.run (Rd.phraseByDetail (C := calmCtx cfg (stdLim fuel)) hi ok)⟩
    have := h.holds.run (Rd.phraseExtract (C := calmCtx cfg (stdLim fuel)) hi ok hL hD)
    rwa [textOf_wordsOf] at this
  | detail d o p =>
    obtain ⟨po, pp, ho, hp, hd⟩ := ok
    constructor
    · have := h.holds.run (Rd.detailDirect (C := calmCtx cfg (stdLim fuel)) hi hd ho hp hL hD)
      rwa [textOf_wordsOf, textOf_wordsOf] at this
    · obtain ⟨w', h1⟩ := h.holds.run (Rd.detailText (C := calmCtx cfg (stdLim fuel)) hi hd ho hp hL hD)
      rw [textOf_wordsOf, textOf_wordsOf, exec_bind] at h1
      generalize (Detail.fetch d.remark).exec cfg s.state.world = out at h1
      obtain ⟨out, w1⟩ := out
      cases out with
      | ok d' => exact ⟨d', w1, rfl, w', h1⟩
      | err e => cases h1
      | panic => cases h1
      | spin => cases h1

end Semnet
