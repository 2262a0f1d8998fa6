import Verif.Proof.RaceMoodyWarm
/-
  Several processes writing new text at the same time, over an alphabet in which no character that begins a word is
  continued by another one.  The words a process stores are then its own from the first one on, and it never meets
  those of the others.
-/
set_option linter.unusedSimpArgs false
namespace Semnet.Race
open Class Spec

/-- no character begins with the bit 0, and the character that follows the bit 1 is there -/
structure Solo (C : RC) : Prop where
  solo : C.lim.solo = true
  fz : C.fz = none
  top : ∀ v, C.lim.path [v] → v = true

theorem off {C : RC} (h : C.tot = true → False) : C.tot = false := by
  cases e : C.tot with
  | true => exact (h e).elim
  | false => rfl

theorem rwpk_grows {α : Type} {C : RC} {Q : Out α → Rt → Prop} {σb : Rt} :
    ∀ {p : Go α} {κ : Know} {σ : Rt}, RMono σb σ → rwpk C Q p κ σ → rwpk C (fun o σ' => Q o σ' ∧ RMono σb σ') p κ σ := by
  intro p
  induction p with
  | ok a => exact fun m h => ⟨h, m⟩
  | err e => exact fun m h => ⟨h, m⟩
  | panic => exact fun m h => ⟨h, m⟩
  | spin => exact fun m h => ⟨h, m⟩
  | op o k ih =>
    intro κ σ m h c hc σ1 he
    have m1 := m.trans he.mono
    obtain ⟨⟨t, b, hs, h1⟩, h2, h3⟩ := h c hc σ1 he
    refine ⟨⟨t, b, hs, ih _ (m1.trans hs.mono) h1⟩, fun hF => ih _ m1 (h2 hF), fun hF => ?_⟩
    obtain ⟨t, b, hs, h4⟩ := h3 hF
    exact ⟨t, b, hs, ih _ (m1.trans hs.mono) h4⟩
  | getMem k ih => intro κ σ m h l hl; exact ih _ m (h l hl)
  | setMem u k ih => intro κ σ m ⟨κ', h1, h2⟩; exact ⟨κ', h1, ih m h2⟩

theorem From.grows {α : Type} {C : RC} {σ0 σ : Rt} {good : α → Rt → Prop} {p : Go α} (h : From C σ0 good p σ) :
    From C σ0 (fun a σ' => good a σ' ∧ RMono σ σ') p σ := by
  refine rwp_mono ?_ (fun κ => rwpk_grows (.refl σ) (h κ))
  intro o σ' ⟨⟨h1, h3⟩, h4⟩
  exact ⟨h1, by cases o <;> simp_all⟩

theorem Mine.keep {C : RC} (s : Solo C) {σ0 σ σ' : Rt} {x : Nat} {t : Tag} (h : Mine C σ0 σ x) (hl : Later C σ σ') (ht : σ.tag x = t)
    (hn : t ≠ .none) (hg : gtag t = true) : Mine C σ0 σ' x := by
  have hx : σ.tag x ≠ .none := by rw [ht]; exact hn
  refine ⟨by rw [hl.mono.own x hx]; exact h.1, ?_, h.2.2⟩
  rw [(hl.keep x hx h.1).T (by rw [ht]; simp [tkeep, hg, s.solo])]
  exact h.2.1

theorem Mine.early {C : RC} {σ0 σ1 σ : Rt} {x : Nat} (h : Mine C σ1 σ x) (m : RMono σ0 σ1) : Mine C σ0 σ x :=
  ⟨h.1, h.2.1, m.fresh h.2.2⟩

theorem Does.mine0 {C : RC} (s : Solo C) {σ0 σ : Rt} (hi : C.I σ) {x : Nat} {t : Tag} (h : Mine C σ0 σ x) (ht : σ.tag x = t)
    (hn : t ≠ .none) (hg : gtag t = true) : Does C (fun l _ => l = []) (Go.readTargets x) σ := by
  refine Does.targets hi (by rw [ht]; exact hn) ?_
  intro σ1 l h1 hl
  rw [(h.keep s h1 ht hn hg).2.1] at hl
  exact perm_nil' hl

/-! ### characters -/

theorem Does.charHeadS {C : RC} (s : Solo C) {σ : Rt} (hi : C.I σ) {v : Bool} (hp : C.lim.path [v]) :
    Does C (fun e σ' => Ch C.bs σ' [v] e) (Character.provideHeadEntity (bitEnt C.bs v)) σ := by
  obtain rfl := s.top v hp
  have one : ∀ {σ : Rt}, C.I σ → Does C (fun l σ' => ∃ y, l = [y] ∧ ∃ e, Ch C.bs σ' [true] e ∧ e.bit = y)
      (Go.readTargets (bitEnt C.bs true).character) σ := by
    intro σ hi
    refine Does.targets hi (by rw [bitEnt_character, hi.bits.tag true]; simp) ?_
    intro σ1 l h1 hl
    obtain ⟨y, hy⟩ := h1.inv.hd s.solo
    rw [bitEnt_character, hy] at hl
    exact ⟨y, perm_one hl, h1.inv.bitChild (mem_T.1 (by rw [hy]; simp))⟩
  unfold Character.provideHeadEntity
  refine Does.bind (good := fun b _ => b = true) ?_ ?_
  · unfold Bit.hasTargetCharacter
    rw [hi.bits.used true]
    refine Does.bind (one hi) ?_
    intro l σ1 h1 ⟨y, e, _⟩
    subst e
    exact Does.ret h1.inv rfl
  intro b σ1 h1 hb
  subst hb
  simp only [if_true]
  refine Does.bind (good := fun y σ' => ∃ e, Ch C.bs σ' [true] e ∧ e.bit = y) ?_ ?_
  · unfold Bit.getTargetCharacter
    rw [hi.bits.used true]
    refine Does.bind (one h1.inv) ?_
    intro l σ2 h2 ⟨y, e, h⟩
    subst e
    exact Does.ret h2.inv h
  · intro y σ2 h2 ⟨e, he, hy⟩
    subst hy
    exact (Does.charByBit h2.inv he).cons fun a σ3 h3 ha => by subst ha; exact he.mono h3.mono

theorem Does.charFirstS {C : RC} (s : Solo C) {σ : Rt} (hi : C.I σ) {v : Bool} (hp : C.lim.path [v]) :
    Does C (fun el σ' => (∀ c, el.character = some c → Ch C.bs σ' [v] c) ∧ (el.character = none → C.tot = false))
      (Character.provideFirstElement v) σ := by
  unfold Character.provideFirstElement
  refine Does.bind (Does.bitProvide hi v) ?_
  intro b σ1 h1 hb
  refine Does.bind (Does.provideEntity h1.inv) ?_
  intro _ σ2 h2 _
  refine Does.bind (From.attempt (good := fun e σ' => Ch C.bs σ' [v] e) ?_) ?_
  · rcases hb with hb | ⟨hh, hb⟩ <;> subst hb
    · exact Does.charHeadS s h2.inv hp
    · exact Does.headBlank hh h2.inv
  intro r σ3 h3 hr
  refine Does.ret h3.inv ?_
  cases r with
  | ok e => exact ⟨fun c hc => (by cases hc; exact hr), fun h => by cases h⟩
  | error e => exact ⟨fun c hc => (by cases hc), fun _ => hr⟩

theorem Does.charWalkS {C : RC} (s : Solo C) : ∀ (bs : List Bool) {σ : Rt} (_ : C.I σ) {p}
    {el : Option CharElem} (_ : ∀ c, el = some ⟨some c⟩ → Ch C.bs σ p c) (_ : (∀ c, el ≠ some ⟨some c⟩) → C.tot = false)
    (_ : PathOK C.lim (p ++ bs)),
    Does C (fun (el' : Option CharElem) σ' => (∀ c, el' = some ⟨some c⟩ → Ch C.bs σ' (p ++ bs) c) ∧
      ((∀ c, el' ≠ some ⟨some c⟩) → C.tot = false)) (Character.walk el bs) σ := by
  intro bs
  induction bs with
  | nil =>
    intro σ hi p el hel hno hpath
    unfold Character.walk
    refine Does.ret hi ⟨?_, hno⟩
    simpa using hel
  | cons b bs ih =>
    intro σ hi p el hel hno hpath
    unfold Character.walk
    match el, hel, hno with
    | none, _, hno => exact fun _ => ⟨.refl hi, hno (by simp)⟩
    | some ⟨none⟩, _, hno => exact fun _ => ⟨.refl hi, hno (by simp)⟩
    | some ⟨some e⟩, he, _ =>
      replace he := he e rfl
      refine Does.bind (good := fun a _ => a = ⟨some e⟩) (Does.ret hi rfl) ?_
      intro a σ1 h1 ha; subst ha
      refine Does.bind (Does.charNext s.fz h1.inv (he.mono h1.mono) (hpath _ (by simp) ⟨bs, by simp⟩)).attempt ?_
      intro r σ2 h2 hr
      have := ih h2.inv (p := p ++ [b]) (el := r.toOption) ?_ ?_ (by simpa using hpath)
      · refine this.cons ?_
        intro a σ3 _ h; simpa using h
      · cases r with
        | ok el2 =>
          obtain ⟨c, rfl, hc⟩ := hr
          intro c' hc'; cases hc'; exact hc
        | error e => intro c hc; cases hc
      · cases r with
        | ok el2 =>
          obtain ⟨c, rfl, hc⟩ := hr
          intro h; exact absurd rfl (h c)
        | error e => exact fun _ => hr

theorem Does.charProvideS {C : RC} (s : Solo C) {σ : Rt} (hi : C.I σ) {r : Rune} {path : List Bool}
    (hc : Character.collect r = .ok path) (hn : path ≠ []) (hp : PathOK C.lim path) :
    Does C (fun a σ' => (∀ c, a.character = some c → Ch C.bs σ' path c) ∧ (a.character = none → C.tot = false))
      (Character.provide r) σ := by
  unfold Character.provide
  rw [hc]
  match path with
  | [] => exact absurd rfl hn
  | b :: bs =>
    refine Does.bind (Does.charFirstS s hi (v := b) (hp [b] (by simp) ⟨bs, rfl⟩)) ?_
    intro el σ1 h1 ⟨hel, hno⟩
    obtain ⟨el⟩ := el
    refine Does.bind (Does.charWalkS s bs h1.inv (p := [b]) (el := some ⟨el⟩) ?_ ?_ (by simpa using hp)) ?_
    · intro c hc; cases hc; exact hel c rfl
    · intro h
      cases el with
      | none => exact hno rfl
      | some c => exact absurd rfl (h c)
    intro el2 σ2 h2 ⟨hel2, hno2⟩
    match el2, hel2, hno2 with
    | none, _, hno => exact fun _ => ⟨.refl h2.inv, hno (by simp)⟩
    | some ⟨none⟩, _, hno => exact Does.ret h2.inv ⟨by simp, fun _ => hno (by simp)⟩
    | some ⟨some e⟩, he, _ =>
      refine Does.ret (a := (⟨some e⟩ : CharAgg)) h2.inv ⟨?_, fun h => by cases h⟩
      intro c hc; cases hc
      exact he e rfl

/-! ### words -/

theorem Does.wordHeadS {C : RC} (s : Solo C) {σ : Rt} (hi : C.I σ) {p c} (hc : Ch C.bs σ p c)
    (hg : goodRune (Character.toRune p)) (hlf : ∀ b, ¬ C.lim.path (p ++ [b])) (hD : 1 ≤ C.lim.D) :
    Does C (fun e σ' => Wd C.bs σ' [Character.toRune p] e ∧ Mine C σ σ' e.word ∧ Mine C σ σ' e.phrase)
      (Word.provideHeadEntity ⟨some c⟩) σ := by
  unfold Word.provideHeadEntity
  refine Does.bind (good := fun a _ => a = c) (Does.ret hi rfl) ?_
  intro a σ0 h0 ha; subst ha
  replace hc := hc.mono h0.mono
  refine Does.bind (good := fun b _ => b = false) ?_ ?_
  · unfold Character.hasTargetWord
    refine Does.bind (good := fun l _ => l = []) (Does.targets h0.inv (by rw [hc.tagC]; simp) ?_) ?_
    · intro σ1 l h1 hl
      have : σ1.T a.character = [] := by
        cases hT : σ1.T a.character with
        | nil => rfl
        | cons y ys =>
          obtain ⟨v, e', he', _⟩ := h1.inv.charChild (hc.mono h1.mono) (mem_T.1 (by rw [hT]; exact List.mem_cons_self))
          have := h1.inv.tagOK e'.character
          rw [he'.tagC] at this
          exact absurd this.1 (hlf v)
      rw [this] at hl
      exact perm_nil' hl
    · intro l σ1 h1 hl
      subst hl
      exact Does.ret h1.inv rfl
  intro b σ1 h1 hb
  subst hb
  replace hc := hc.mono h1.mono
  have m1 := h0.mono.trans h1.mono
  simp only [Bool.false_eq_true, if_false]
  have key := Does.bind (Does.wordPre s.fz h1.inv hc hg (rs := [Character.toRune p]) hD (by simp))
    (good' := fun e σ' => Wd C.bs σ' [Character.toRune p] e ∧ Mine C σ σ' e.word ∧ Mine C σ σ' e.phrase)
    (f := fun e => do Go.connect a.word e.character; pure e) ?_
  · simpa only [bind_assoc, pure_bind] using key
  · intro e σ2 h2 hpre
    have he : Wd C.bs σ2 [Character.toRune p] e := .head hpre.base
    replace hc := hc.mono h2.mono
    have n1 : Mine C σ σ2 e.word := ⟨hpre.nd.own, hpre.nd.T s.solo, m1.fresh hpre.fr⟩
    have n2 : Mine C σ σ2 e.phrase := ⟨hpre.ndp.own, hpre.ndp.T s.solo, m1.fresh hpre.frp⟩
    refine Does.bind (good := fun _ _ => True) (From.cons (From.connectN (.refl h2.inv) hc.tagW he.tagC (by simp) (by simp) rfl rfl
      rfl rfl ?_ ?_ s.fz (fun _ => rfl) (fun _ h => by cases h)) (fun _ _ _ _ => trivial)) ?_
    · intro hh; have := he.tagC; rw [hh, (h2.inv.root bitId).2 (by decide)] at this; cases this
    · intro σ' m
      have e' := he.mono m
      have c' := hc.mono m
      simp only [REdge, c'.tagW, e'.tagC]
      exact ⟨p, a, e, c', rfl, e', rfl⟩
    · intro _ σ3 h3 _
      exact Does.ret h3.inv ⟨he.mono h3.mono, n1.keep s h3 he.tagW (by simp) rfl, n2.keep s h3 he.tagP (by simp) rfl⟩

theorem From.wordNextS {C : RC} (s : Solo C) {σ0 σ : Rt} (hl : Later C σ0 σ) {fuel : Nat} {rs w r}
    (hw : Wd C.bs σ rs w) (hm : Mine C σ0 σ w.word) (hr : RuneOK C.lim r) (hD : rs.length + 1 ≤ C.lim.D) :
    From C σ0 (fun w' σ' => Wd C.bs σ' (rs ++ [r]) w' ∧ Mine C σ0 σ' w'.word ∧ Mine C σ0 σ' w'.phrase)
      (Word.provideNextElement fuel w r) σ := by
  unfold Word.provideNextElement
  refine From.bind ((Does.mine0 s hl.inv hm hw.tagW (by simp) rfl).from hl) ?_
  intro ids σ2 l2 ⟨h2, e⟩
  subst e
  replace hm := hm.keep s h2 hw.tagW (by simp) rfl
  replace hw := hw.mono h2.mono
  simp only [Word.readAll, Word.search, pure_bind]
  refine From.bind ((Does.provideEntity l2.inv).from l2) ?_
  intro _ σ5 l5 ⟨h5, _⟩
  replace hm := hm.keep s h5 hw.tagW (by simp) rfl
  replace hw := hw.mono h5.mono
  refine From.bind ((Does.charProvideS s l5.inv (collect_ok hr.good.range.1) (bitsOf_ne_nil _) hr.path).from l5) ?_
  intro a σ6 l6 ⟨h6, ha, hno⟩
  replace hm := hm.keep s h6 hw.tagW (by simp) rfl
  replace hw := hw.mono h6.mono
  obtain ⟨a⟩ := a
  cases a with
  | none =>
    refine From.bind (good := fun _ _ => False) ?_ (fun _ _ _ h => h.elim)
    unfold Word.createTailEntity
    rw [word_newEnt]
    refine From.bind ((Does.newEnt l6.inv (by decide) (wordTags (rs := rs ++ [r]) (by simpa using hD) (by simp))).from l6) ?_
    intro _ σ7 l7 _
    exact fun _ => ⟨l7, hno rfl⟩
  | some c =>
    refine From.bind (From.wordTail s.fz l6 (ha c rfl) (RuneOK.rune hr) hw hD (fun _ => ⟨hm.1, hm.2.2⟩)) ?_
    intro w' σ7 l7 ⟨hw', hed, hm'⟩
    obtain ⟨m1, m2⟩ := hm' s.solo
    refine From.bind (From.connectOld l7 hed) ?_
    intro _ σ8 l8 h8
    rw [hr.good.toRune] at hw'
    exact From.ret l8 ⟨hw'.mono h8.mono, m1.keep s h8 hw'.tagW (by simp) rfl, m2.keep s h8 hw'.tagP (by simp) rfl⟩

/-- a word of this process, made since `σ0`, that leads nowhere yet -/
def OwnW (C : RC) (σ0 σ : Rt) (rs : List Int) (w : WordE) : Prop :=
  Wd C.bs σ rs w ∧ Mine C σ0 σ w.word ∧ Mine C σ0 σ w.phrase

theorem OwnW.keep {C : RC} (s : Solo C) {σ0 σ σ' : Rt} {rs w} (h : OwnW C σ0 σ rs w) (hl : Later C σ σ') : OwnW C σ0 σ' rs w :=
  ⟨h.1.mono hl.mono, h.2.1.keep s hl h.1.tagW (by simp) rfl, h.2.2.keep s hl h.1.tagP (by simp) rfl⟩

theorem OwnW.early {C : RC} {σ0 σ1 σ : Rt} {rs w} (h : OwnW C σ1 σ rs w) (m : RMono σ0 σ1) : OwnW C σ0 σ rs w :=
  ⟨h.1, h.2.1.early m, h.2.2.early m⟩

theorem From.wordWalkS {C : RC} (s : Solo C) {σ0 : Rt} {fuel : Nat} :
    ∀ (qs : List Int) {σ : Rt} (_ : Later C σ0 σ) {rs : List Int}
    {el : Option WordE} (_ : ∀ c, el = some c → OwnW C σ0 σ rs c) (_ : el = none → C.tot = false) (_ : ∀ r ∈ qs, RuneOK C.lim r)
    (_ : rs.length + qs.length ≤ C.lim.D),
    From C σ0 (fun (el' : Option WordE) σ' => (∀ c, el' = some c → OwnW C σ0 σ' (rs ++ qs) c) ∧ (el' = none → C.tot = false))
      (Word.walk fuel el qs) σ := by
  intro qs
  induction qs with
  | nil =>
    intro σ hl p el hel hno _ _
    unfold Word.walk
    refine From.ret hl ⟨?_, hno⟩
    simpa using hel
  | cons b bs ih =>
    intro σ hl p el hel hno hok hlen
    simp only [List.length_cons] at hlen
    unfold Word.walk
    match el, hel, hno with
    | none, _, hno => exact fun _ => ⟨hl, hno rfl⟩
    | some e, he, _ =>
      replace he := he e rfl
      refine From.bind (good := fun a σ' => a = e ∧ OwnW C σ0 σ' p e) (From.ret hl ⟨rfl, he⟩) ?_
      intro a σ1 l1 ⟨ha, he⟩; subst ha
      refine From.bind (From.wordNextS s l1 (fuel := fuel) he.1 he.2.1 (hok b (by simp)) (by omega)).attempt ?_
      intro r σ2 l2 hr
      have := ih l2 (rs := p ++ [b]) (el := r.toOption) ?_ ?_ (fun r hr => hok r (by simp [hr]))
        (by simp only [List.length_append, List.length_cons, List.length_nil]; omega)
      · refine this.cons ?_
        intro a σ3 _ h; simpa using h
      · cases r with
        | ok el2 => intro c' hc'; cases hc'; exact hr
        | error e => intro c hc; cases hc
      · cases r with
        | ok el2 => intro h; cases h
        | error e => exact fun _ => hr

/-- a word that may be stored: nothing continues its first character; if the call has to succeed, it has a character -/
structure SoloWord (C : RC) (w : GoStr) : Prop where
  ok : WordOK C.lim w
  leaf : ∀ r rs, runesOf w = r :: rs → ∀ b, ¬ C.lim.path (bitsOf r ++ [b])
  full : C.tot = true → runesOf w ≠ []

theorem Does.wordProvideS {C : RC} (s : Solo C) {σ : Rt} (hi : C.I σ) {fuel : Nat} {w : GoStr} (hw : SoloWord C w) :
    Does C (fun e σ' => OwnW C σ σ' (runesOf w) e) (Word.provide fuel w) σ := by
  unfold Word.provide
  have hrune := hw.ok.rune
  have hlen := hw.ok.len
  have hlf := hw.leaf
  have hfl := hw.full
  cases hrs : runesOf w with
  | nil => exact From.err (.refl hi) (off fun h => hfl h hrs)
  | cons r rs =>
    rw [hrs] at hrune hlen
    have hr := hrune r (by simp)
    simp only [List.length_cons] at hlen
    refine From.bind (good := fun e σ' => OwnW C σ σ' [r] e) ?_ ?_
    · unfold Word.provideFirstElement
      refine Does.bind (Does.charProvideS s hi (collect_ok hr.good.range.1) (bitsOf_ne_nil _) hr.path) ?_
      intro a σ1 h1 ⟨ha, hno⟩
      refine Does.bind (Does.provideEntity h1.inv) ?_
      intro _ σ2 h2 _
      obtain ⟨a⟩ := a
      cases a with
      | none => exact fun _ => ⟨.refl h2.inv, hno rfl⟩
      | some c =>
        have := Does.wordHeadS s h2.inv ((ha c rfl).mono h2.mono) (RuneOK.rune hr) (hlf r rs hrs) (by omega)
        rw [hr.good.toRune] at this
        exact this.cons fun e σ' _ h => OwnW.early h (h1.mono.trans h2.mono)
    · intro e σ1 l1 he
      refine From.bind (From.wordWalkS s (fuel := fuel) rs l1 (rs := [r]) (el := some e) ?_ (fun h => by cases h)
        (fun r hr => hrune r (by simp [hr])) (by simp only [List.length_cons, List.length_nil]; omega)) ?_
      · intro c hc; cases hc; exact he
      intro el2 σ2 l2 ⟨hel2, hno⟩
      match el2, hel2, hno with
      | none, _, hno => exact fun _ => ⟨l2, hno rfl⟩
      | some e, he, _ => exact From.ret l2 (he e rfl)

/-! ### phrases -/

/-- a phrase of this process, made since `σ0`, that leads nowhere yet -/
def OwnP (C : RC) (σ0 σ : Rt) (ws : List (List Int)) (e : PhraseE) : Prop :=
  Ph C.bs σ ws e ∧ Mine C σ0 σ e.phrase ∧ Mine C σ0 σ e.detail

theorem OwnP.keep {C : RC} (s : Solo C) {σ0 σ σ' : Rt} {ws e} (h : OwnP C σ0 σ ws e) (hl : Later C σ σ') : OwnP C σ0 σ' ws e :=
  ⟨h.1.mono hl.mono, h.2.1.keep s hl h.1.tagP (by simp) rfl, h.2.2.keep s hl h.1.tagD (by simp) rfl⟩

theorem OwnP.early {C : RC} {σ0 σ1 σ : Rt} {ws e} (h : OwnP C σ1 σ ws e) (m : RMono σ0 σ1) : OwnP C σ0 σ ws e :=
  ⟨h.1, h.2.1.early m, h.2.2.early m⟩

/-- from a word or phrase of this process -/
theorem From.connectM {C : RC} (s : Solo C) {σ0 σ : Rt} (hl : Later C σ0 σ) {x y : Nat} {u t : Tag} (hm : Mine C σ0 σ x)
    (hx : σ.tag x = u) (hy : σ.tag y = t)
    (hu : u ≠ .none) (ht : t ≠ .none) (ug : gtag u = true) (us : tfix u = false) (un : u.noT = false) (ts : t.scrit = false)
    (tn : t.noS = false) (hb : y ≠ bitId) (hE : ∀ σ', RMono σ σ' → REdge C.bs σ' x y) :
    From C σ0 (fun _ σ' => LaterC C σ σ' x y) (Go.connect x y) σ := by
  have htx : tfix (σ.tag x) = false := by rw [hx]; exact us
  have hty : (σ.tag y).scrit = false := by rw [hy]; exact ts
  refine (From.connect hl ⟨by rw [hx]; exact hu, by rw [hy]; exact ht, fun h => by (rw [htx] at h; cases h),
    by rw [hx]; exact un, fun h => by (rw [hty] at h; cases h), by rw [hy]; exact tn, hb,
    ftag_old hl.inv hx (.inl s.fz), ftag_old hl.inv hy (.inl s.fz), fun _ _ => hm.1,
    fun h1 e => by (rw [hx] at e; rw [e] at ug; cases ug)⟩
    (fun _ => hm.2.2) (fun h => by (rw [hty] at h; cases h)) (fun σ' m _ _ => hE σ' m)).cons ?_
  intro _ σ' _ ⟨l, _, _, _⟩
  exact l

theorem From.phraseHeadS {C : RC} (s : Solo C) {σ0 σ : Rt} (hl : Later C σ0 σ) {rs w} (hw : OwnW C σ0 σ rs w)
    (hD : 1 ≤ C.lim.D) : From C σ0 (fun e σ' => OwnP C σ0 σ' [rs] e) (Phrase.provideHeadEntity w) σ := by
  unfold Phrase.provideHeadEntity
  refine From.bind (good := fun b σ' => b = false ∧ OwnW C σ0 σ' rs w) ?_ ?_
  · unfold Word.hasTargetPhrase
    refine From.bind ((Does.mine0 s hl.inv hw.2.2 hw.1.tagP (by simp) rfl).from hl) ?_
    intro l σ1 l1 ⟨h1, e⟩
    subst e
    exact From.ret l1 ⟨rfl, hw.keep s h1⟩
  intro b σ1 l1 ⟨hb, hw⟩
  subst hb
  simp only [Bool.false_eq_true, if_false]
  have key := From.bind ((Does.phrasePre s.fz l1.inv hw.1 (ws := [rs]) hD (by simp)).from l1)
    (good' := fun e σ' => OwnP C σ0 σ' [rs] e)
    (f := fun e => do Go.connect w.phrase e.word; pure e) ?_
  · simpa only [bind_assoc, pure_bind] using key
  · intro e σ2 l2 ⟨h2, hpre⟩
    have he : Ph C.bs σ2 [rs] e := .head hpre.base
    replace hw := hw.keep s h2
    refine From.bind (From.connectM s l2 hw.2.2 hw.1.tagP he.tagW (by simp) (by simp) rfl rfl rfl rfl rfl ?_ ?_) ?_
    · intro hh; have := he.tagW; rw [hh, (h2.inv.root bitId).2 (by decide)] at this; cases this
    · intro σ' m
      have e' := he.mono m
      have c' := hw.1.mono m
      simp only [REdge, c'.tagP, e'.tagW]
      exact ⟨rs, w, e, c', rfl, e', rfl⟩
    · intro _ σ3 l3 l
      have np := hpre.nd.keepC l (fun _ e' => by
        have := hpre.nd.tag; rw [e', hw.1.tagP] at this; cases this) (fun _ e' => by
        have := hpre.nd.tag; rw [e', he.tagW] at this; cases this)
      have nd := hpre.ndd.keepC l (fun _ e' => by
        have := hpre.ndd.tag; rw [e', hw.1.tagP] at this; cases this) (fun h => by cases h)
      exact From.ret l3 ⟨he.mono l.mono, ⟨np.own, np.T s.solo, l1.mono.fresh hpre.fr⟩, ⟨nd.own, nd.T s.solo, l1.mono.fresh hpre.frd⟩⟩

theorem From.phraseNextS {C : RC} (s : Solo C) {σ0 σ : Rt} (hl : Later C σ0 σ) {fuel : Nat} {ws e w}
    (he : OwnP C σ0 σ ws e) (hw : SoloWord C w) (hlen : ws.length + 1 ≤ C.lim.D) :
    From C σ0 (fun e' σ' => OwnP C σ0 σ' (ws ++ [runesOf w]) e') (Phrase.provideNextElement fuel e w) σ := by
  unfold Phrase.provideNextElement
  refine From.bind ((Does.mine0 s hl.inv he.2.1 he.1.tagP (by simp) rfl).from hl) ?_
  intro ids σ2 l2 ⟨h2, e0⟩
  subst e0
  replace he := he.keep s h2
  simp only [Phrase.readAll, Phrase.search, pure_bind]
  refine From.bind ((Does.provideEntity l2.inv).from l2) ?_
  intro _ σ5 l5 ⟨h5, _⟩
  replace he := he.keep s h5
  refine From.bind ((Does.wordProvideS s l5.inv hw).from l5) ?_
  intro a σ6 l6 ⟨h6, ha⟩
  replace he := he.keep s h6
  refine (From.phraseTail s.fz l6 ha.1 he.1 hlen (fun _ => ⟨he.2.1.1, he.2.1.2.2⟩)).cons ?_
  intro e' σ7 _ h
  exact ⟨h.1, h.2 s.solo⟩

theorem From.phraseWalkS {C : RC} (s : Solo C) {σ0 : Rt} {fuel : Nat} :
    ∀ (qs : List GoStr) {σ : Rt} (_ : Later C σ0 σ) {ws : List (List Int)}
    {el : Option PhraseE} (_ : ∀ c, el = some c → OwnP C σ0 σ ws c) (_ : el = none → C.tot = false) (_ : ∀ w ∈ qs, SoloWord C w)
    (_ : ws.length + qs.length ≤ C.lim.D),
    From C σ0 (fun (el' : Option PhraseE) σ' => (∀ c, el' = some c → OwnP C σ0 σ' (ws ++ qs.map runesOf) c) ∧
      (el' = none → C.tot = false)) (Phrase.walk fuel el qs) σ := by
  intro qs
  induction qs with
  | nil =>
    intro σ hl p el hel hno _ _
    unfold Phrase.walk
    refine From.ret hl ⟨?_, hno⟩
    simpa using hel
  | cons b bs ih =>
    intro σ hl p el hel hno hok hlen
    simp only [List.length_cons] at hlen
    unfold Phrase.walk
    match el, hel, hno with
    | none, _, hno => exact fun _ => ⟨hl, hno rfl⟩
    | some e, he, _ =>
      replace he := he e rfl
      refine From.bind (good := fun a σ' => a = e ∧ OwnP C σ0 σ' p e) (From.ret hl ⟨rfl, he⟩) ?_
      intro a σ1 l1 ⟨ha, he⟩; subst ha
      refine From.bind (From.phraseNextS s l1 (fuel := fuel) he (hok b (by simp)) (by omega)).attempt ?_
      intro r σ2 l2 hr
      have := ih l2 (ws := p ++ [runesOf b]) (el := r.toOption) ?_ ?_ (fun r hr => hok r (by simp [hr]))
        (by simp only [List.length_append, List.length_cons, List.length_nil]; omega)
      · refine this.cons ?_
        intro a σ3 _ h; simpa using h
      · cases r with
        | ok el2 => intro c' hc'; cases hc'; exact hr
        | error e => intro c hc; cases hc
      · cases r with
        | ok el2 => intro h; cases h
        | error e => exact fun _ => hr

/-- a text of such words -/
structure SoloText (C : RC) (t : GoStr) : Prop where
  ok : TextOK C.lim t
  word : ∀ w ∈ splitSpace t, SoloWord C w

theorem Does.phraseProvideS {C : RC} (s : Solo C) {σ : Rt} (hi : C.I σ) {fuel : Nat} {t : GoStr} (hs : SoloText C t) :
    Does C (fun e σ' => OwnP C σ σ' (wordsOf t) e) (Phrase.provide fuel t) σ := by
  unfold Phrase.provide wordsOf
  have hword := hs.word
  have hlen := hs.ok.len
  cases hsp : splitSpace t with
  | nil => exact absurd hsp (splitSpace_ne_nil t)
  | cons w ws =>
    rw [hsp] at hword hlen
    simp only [List.length_cons] at hlen
    refine From.bind (good := fun e σ' => OwnP C σ σ' [runesOf w] e) ?_ ?_
    · unfold Phrase.provideFirstElement
      refine From.bind (Does.wordProvideS s hi (hword w (by simp))) ?_
      intro a σ1 l1 ha
      refine From.bind ((Does.provideEntity l1.inv).from l1) ?_
      intro _ σ2 l2 ⟨h2, _⟩
      exact From.phraseHeadS s l2 (ha.keep s h2) (by omega)
    · intro e σ1 l1 he
      refine From.bind (From.phraseWalkS s (fuel := fuel) ws l1 (ws := [runesOf w]) (el := some e) ?_ (fun h => by cases h)
        (fun r hr => hword r (by simp [hr])) (by simp only [List.length_cons, List.length_nil]; omega)) ?_
      · intro c hc; cases hc; exact he
      intro el2 σ2 l2 ⟨hel2, hno⟩
      match el2, hel2, hno with
      | none, _, hno => exact fun _ => ⟨l2, hno rfl⟩
      | some e, he, _ => exact From.ret l2 (he e rfl)

/-! ### details -/

theorem From.detailProvideEntityS {C : RC} (s : Solo C) {σ0 σ : Rt} (hl : Later C σ0 σ) {wo wp} {po pp : PhraseE}
    (hpo : OwnP C σ0 σ wo po) (hpp : Ph C.bs σ wp pp) :
    From C σ0 (fun d σ' => DetailEnt σ' d po pp) (Detail.provideEntity po pp) σ := by
  unfold Detail.provideEntity
  refine From.bind ((Does.mine0 s hl.inv hpo.2.2 hpo.1.tagD (by simp) rfl).from hl) ?_
  intro l1 σ1 l1' ⟨h1, e⟩
  subst e
  replace hpo := hpo.keep s h1
  replace hpp := hpp.mono h1.mono
  refine From.bind (Does.from l1' (From.attempt (Does.sources l1'.inv (x := pp.detail) (by rw [hpp.tagD]; simp)
    (good := fun _ _ => True) (fun _ _ _ _ => trivial)))) ?_
  intro r σ2 l2 ⟨h2, _⟩
  replace hpo := hpo.keep s h2
  replace hpp := hpp.mono h2.mono
  have : Detail.common [] (r.toOption.getD []) = [] := rfl
  rw [this]
  exact From.detailCreate s.fz l2 hpo.1.tagD hpp.tagD (fun _ => ⟨hpo.2.2.1, hpo.2.2.2.2⟩)

theorem Prov.solo {C : RC} (s : Solo C) {σ : Rt} {fuel : Nat} {o p : GoStr} (ho : SoloText C o) (hp : SoloText C p) :
    Prov C σ fuel o p := by
  intro σ1 h1
  unfold Detail.provide
  refine From.bind (Does.phraseProvideS s h1.inv ho) ?_
  intro po σ2 l2 hpo
  refine From.bind ((Does.phraseProvideS s l2.inv hp).from l2) ?_
  intro pp σ3 l3 ⟨h3, hpp⟩
  replace hpo := hpo.keep s h3
  refine From.bind ((Does.provideEntity l3.inv).from l3) ?_
  intro _ σ4 l4 ⟨h4, _⟩
  replace hpo := hpo.keep s h4
  replace hpp := hpp.keep s h4
  refine (From.grows (From.detailProvideEntityS s (σ0 := σ1) l4 hpo hpp.1)).cons ?_
  intro d σ5 _ ⟨hd, m⟩
  exact ⟨po, pp, hpo.1.mono m, hpp.1.mono m, .inr hd⟩

end Semnet.Race
