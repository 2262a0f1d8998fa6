import Verif.Proof.RaceChar
import Verif.Proof.PhraseWrite
/-
  Several processes writing at the same time: words and phrases.
-/
set_option linter.unusedSimpArgs false
namespace Semnet.Race
open Class

/-! ### words -/

theorem RI.wordChild {cfg lim bs fz} {σ : Rt} (hi : RI cfg lim bs fz σ) {p e} (h : Wd bs σ p e) {y : Nat}
    (hy : (e.word, y) ∈ σ.store.edges) : ∃ v e', Wd bs σ (p ++ [v]) e' ∧ e'.word = y := by
  have he := hi.edge _ _ hy
  unfold REdge at he
  rw [h.tagW] at he
  cases hy' : σ.tag y <;> rw [hy'] at he <;> simp only at he
  obtain ⟨q, v, e1, e2, h1, h2, h3, h4⟩ := he
  have : p = q := by
    have := h1.tagW
    rw [h2, h.tagW] at this
    cases this; rfl
  subst this
  exact ⟨v, e2, h3, h4⟩

theorem RI.charWord {cfg lim bs fz} {σ : Rt} (hi : RI cfg lim bs fz σ) {p c} (h : Ch bs σ p c) {y : Nat}
    (hy : (c.word, y) ∈ σ.store.edges) : ∃ w, Wd bs σ [Character.toRune p] w ∧ w.character = y := by
  have he := hi.edge _ _ hy
  unfold REdge at he
  rw [h.tagW] at he
  cases hy' : σ.tag y <;> rw [hy'] at he <;> simp only at he
  obtain ⟨q, e1, w, h1, h2, h3, h4⟩ := he
  have : p = q := by
    have e1c : e1.character = c.character := by
      have := h1.chain.cd.b
      rw [h2, h.chain.cd.b] at this
      exact this.symm
    have := h1.tagC
    rw [e1c, h.tagC] at this
    cases this; rfl
  subst this
  exact ⟨w, h3, h4⟩

theorem Does.wordReadAll {C : RC} : ∀ (ids : List Nat) {σ : Rt} (_ : C.I σ) {p : List Int}
    (_ : ∀ i ∈ ids, ∃ v e', Wd C.bs σ (p ++ [v]) e' ∧ e'.word = i),
    Does C (fun cs σ' => ∀ c ∈ cs, ∃ v, Wd C.bs σ' (p ++ [v]) c) (Word.readAll ids) σ := by
  intro ids
  induction ids with
  | nil => intro σ hi p _; exact Does.ret hi (by simp)
  | cons i is ih =>
    intro σ hi p h
    unfold Word.readAll
    obtain ⟨v, e', he', hc⟩ := h i (by simp)
    subst hc
    refine Does.bind (Does.wordByWord hi he') ?_
    intro a σ1 h1 ha; subst ha
    refine Does.bind (ih h1.inv (p := p) ?_) ?_
    · intro i hi'
      obtain ⟨v, e', h2, h3⟩ := h i (by simp [hi'])
      exact ⟨v, e', h2.mono h1.mono, h3⟩
    · intro cs σ2 h2 hcs
      refine Does.ret h2.inv ?_
      intro c hc
      rcases List.mem_cons.1 hc with rfl | hc
      · exact ⟨v, (he'.mono h1.mono).mono h2.mono⟩
      · exact hcs c hc

theorem Does.wordSearch {C : RC} {fuel : Nat} (hf : C.lim.L ≤ fuel) (r : Int) : ∀ (cs : List WordE) {σ : Rt} (_ : C.I σ)
    {p : List Int} (_ : ∀ c ∈ cs, ∃ v, Wd C.bs σ (p ++ [v]) c),
    Does C (fun o σ' => ∀ c, o = some c → Wd C.bs σ' (p ++ [r]) c) (Word.search fuel r cs) σ := by
  intro cs
  induction cs with
  | nil => intro σ hi p _; exact Does.ret hi (by simp)
  | cons c cs ih =>
    intro σ hi p h
    unfold Word.search
    obtain ⟨v, hc⟩ := h c (by simp)
    obtain ⟨q, pth, ch, hq, hb⟩ := hc.base
    have hv : v = Character.toRune pth := by simp at hq; exact hq.2
    refine Does.bind (Does.extractCharacterValue hi hb hf) ?_
    intro a σ1 h1 ha
    rw [ha, ← hv]
    by_cases hbv : r = v
    · rw [if_pos hbv]; subst hbv
      refine Does.ret h1.inv ?_
      intro c' hc'; cases hc'
      exact hc.mono h1.mono
    · rw [if_neg hbv]
      refine ih h1.inv ?_
      intro c' hc'
      obtain ⟨v', h'⟩ := h c' (by simp [hc'])
      exact ⟨v', h'.mono h1.mono⟩

/-- a new word that is connected to its character only -/
structure WdPre (C : RC) (σ0 σ : Rt) (rs : List Int) (p : List Bool) (c : CharE) (w : WordE) : Prop where
  base : WdB C.bs σ w rs p c
  nd : Nd C σ w.word (.wdW rs) w.phrase w.character [] []
  fr : σ0.tag w.word = .none
  ndp : Nd C σ w.phrase .wdP 0 w.word [] []
  frp : σ0.tag w.phrase = .none

theorem Does.wordPre {C : RC} (hz : C.fz = none) {σ : Rt} (hi : C.I σ) {rs : List Int} {p : List Bool} {c : CharE} (hc : Ch C.bs σ p c)
    (hg : goodRune (Character.toRune p)) (hD : rs.length ≤ C.lim.D) (hn : rs ≠ []) :
    Does C (fun w σ' => WdPre C σ σ' rs p c w) (do
        let cls ← Class.createNode wordId
        let w ← Word.createEntity cls
        Go.connect w.character c.word
        pure w) σ := by
  rw [word_newEnt]
  refine From.bind (Does.newEnt hi (by decide) (wordTags hD hn)) ?_
  intro r σ2 h2 hn
  obtain ⟨n, a, b, d⟩ := r
  simp only at hn ⊢
  have hc2 := hc.mono h2.mono
  have tv := hc2.tagW
  have hne : a ≠ c.word := by
    intro e; have := hn.wa.tag; rw [e, tv] at this; cases this
  have hbit : c.word ≠ bitId := by
    intro e; rw [e, (h2.inv.root bitId).2 (by decide)] at tv; cases tv
  refine From.bind (From.connectT h2 hn.wa rfl rfl tv (by simp) rfl rfl hbit hn.fa hne ?_) ?_
  · intro σ' m _
    simp only [REdge, m.tagEq hn.wa.tag (by simp), m.tagEq tv (by simp)]
  · intro _ σ3 h3 ⟨l, wa⟩
    refine From.ret h3 ⟨⟨?_, ?_, ?_, ?_, ?_, ?_, hg⟩, ?_, hn.fb, ?_, hn.fc⟩
    · exact l.mono.chain (hn.chain h2.inv)
    · exact wa.tag
    · exact l.mono.tagEq hn.wb.tag (by simp)
    · exact l.mono.tagEq hn.wc.tag (by simp)
    · exact hc2.mono l.mono
    · exact wa.T rfl
    · refine hn.wb.keepC l (fun _ => hn.ab.symm) ?_
      intro _ e; have := hn.wb.tag; rw [e, tv] at this; cases this
    · exact hn.wc.keepC l (fun _ => hn.ac.symm) (fun h => by cases h)

theorem Does.wordHead {C : RC} (hC : C.tot = false) (hz : C.fz = none) {σ : Rt} (hi : C.I σ) {p c} (hc : Ch C.bs σ p c)
    (hg : goodRune (Character.toRune p)) (hD : 1 ≤ C.lim.D) :
    Does C (fun e σ' => Wd C.bs σ' [Character.toRune p] e) (Word.provideHeadEntity ⟨some c⟩) σ := by
  unfold Word.provideHeadEntity
  refine Does.bind (good := fun a _ => a = c) (Does.ret hi rfl) ?_
  intro a σ0 h0 ha; subst ha
  replace hc := hc.mono h0.mono
  refine Does.bind (good := fun _ _ => True) ?_ ?_
  · unfold Character.hasTargetWord
    refine Does.bind (good := fun _ _ => True) (Does.targets h0.inv (by rw [hc.tagC]; simp) (fun _ _ _ _ => trivial)) ?_
    intro l σ1 h1 _
    split
    · exact Does.ret h1.inv trivial
    · exact Does.ret h1.inv trivial
    · exact From.err (.refl h1.inv) hC
  intro b σ1 h1 _
  replace hc := hc.mono h1.mono
  cases b with
  | true =>
    simp only [if_true]
    refine Does.bind (good := fun y σ' => ∃ e, Wd C.bs σ' [Character.toRune p] e ∧ e.character = y) ?_ ?_
    · unfold Character.getTargetWord
      refine Does.bind (good := fun l σ' => ∀ y ∈ l, ∃ e, Wd C.bs σ' [Character.toRune p] e ∧ e.character = y)
        (Does.targets h1.inv (by rw [hc.tagW]; simp) ?_) ?_
      · intro σ2 l h2 hl y hy
        exact h2.inv.charWord (hc.mono h2.mono) (mem_T.1 (hl.mem_iff.1 hy))
      · intro l σ2 h2 hl
        split
        · exact Does.ret h2.inv (hl _ (by simp))
        · exact From.err (.refl h2.inv) hC
    · intro y σ2 h2 ⟨e, he, hy⟩
      subst hy
      exact (Does.wordByCharacter h2.inv he).cons fun a σ3 h3 ha => by subst ha; exact he.mono h3.mono
  | false =>
    simp only [Bool.false_eq_true, if_false]
    have key := Does.bind (Does.wordPre hz h1.inv hc hg (rs := [Character.toRune p]) hD (by simp))
      (good' := fun e σ' => Wd C.bs σ' [Character.toRune p] e)
      (f := fun e => do Go.connect a.word e.character; pure e) ?_
    · simpa only [bind_assoc, pure_bind] using key
    · intro e σ2 h2 hpre
      have he : Wd C.bs σ2 [Character.toRune p] e := .head hpre.base
      replace hc := hc.mono h2.mono
      refine Does.bind (From.cons (From.connectN (.refl h2.inv) hc.tagW he.tagC (by simp) (by simp) rfl rfl rfl rfl ?_ ?_ hz
            (fun _ => rfl) (fun _ h => by cases h))
            (fun _ _ _ _ => trivial) : Does C (fun _ _ => True) _ _) ?_
      · intro hh; have := he.tagC; rw [hh, (h2.inv.root bitId).2 (by decide)] at this; cases this
      · intro σ' m
        have e' := he.mono m
        have c' := hc.mono m
        simp only [REdge, c'.tagW, e'.tagC]
        exact ⟨p, a, e, c', rfl, e', rfl⟩
      · intro _ σ3 h3 _
        exact Does.ret h3.inv (he.mono h3.mono)

/-- a node of this process, made since `σ0`, without targets -/
def Mine (C : RC) (σ0 σ : Rt) (x : Nat) : Prop := σ.own x = C.me ∧ σ.T x = [] ∧ σ0.tag x = .none

/-- the new word, already connected with the previous one -/
theorem From.wordTail {C : RC} (hz : C.fz = none) {σ0 σ : Rt} (hl : Later C σ0 σ) {p c} (hc : Ch C.bs σ p c)
    (hg : goodRune (Character.toRune p)) {rs prev} (hprev : Wd C.bs σ rs prev) (hD : rs.length + 1 ≤ C.lim.D)
    (hg' : C.lim.solo = true → σ.own prev.word = C.me ∧ σ0.tag prev.word = .none) :
    From C σ0 (fun e σ' => Wd C.bs σ' (rs ++ [Character.toRune p]) e ∧ (prev.word, e.word) ∈ σ'.store.edges ∧
        (C.lim.solo = true → Mine C σ0 σ' e.word ∧ Mine C σ0 σ' e.phrase))
      (Word.createTailEntity ⟨some c⟩ prev) σ := by
  have e0 : Word.createTailEntity ⟨some c⟩ prev = (do
      let e ← (do
        let cls ← Class.createNode wordId
        let w ← Word.createEntity cls
        Go.connect w.character c.word
        pure w)
      Go.connect prev.word e.word; pure e) := by
    unfold Word.createTailEntity
    simp only [bind_assoc, pure_bind]
    rfl
  rw [e0]
  refine From.bind ((Does.wordPre hz hl.inv hc hg (rs := rs ++ [Character.toRune p]) (by simpa using hD) (by simp)).from hl) ?_
  intro e σ2 l2 ⟨h2, hpre⟩
  have hp2 := hprev.mono h2.mono
  have hne : prev.word ≠ e.word := by
    intro he
    have := hprev.tagW
    rw [he, hpre.fr] at this
    cases this
  have live := hprev.tagW
  refine From.bind (From.connectS l2 hpre.nd rfl ?_ hp2.tagW (by simp) rfl rfl ?_ (hl.mono.fresh hpre.fr) hne ?_
    (hg := fun h _ => ⟨by rw [h2.mono.own _ (by rw [live]; simp)]; exact (hg' h).1, (hg' h).2⟩)) ?_
  · match rs, hprev.ne_nil with
    | a :: q, _ => cases q <;> rfl
  · intro hh; have := hpre.nd.tag; rw [hh, (h2.inv.root bitId).2 (by decide)] at this; cases this
  · intro σ' m hS
    have hp' := hp2.mono m
    have he' : Wd C.bs σ' (rs ++ [Character.toRune p]) e := .tail hp' (hpre.base.mono m) hS
    simp only [REdge, hp'.tagW, he'.tagW]
    exact ⟨rs, Character.toRune p, prev, e, hp', rfl, he', rfl⟩
  · intro _ σ3 h3 ⟨l, nd, hed⟩
    refine From.ret h3 ⟨.tail (hp2.mono l.mono) (hpre.base.mono l.mono) (nd.S rfl), hed, fun h =>
      ⟨⟨nd.own, nd.T h, hl.mono.fresh hpre.fr⟩, ?_⟩⟩
    have np := hpre.ndp.keepC l (fun _ e' => by
      have := hpre.ndp.tag; rw [e', hp2.tagW] at this; cases this) (fun h => by cases h)
    exact ⟨np.own, np.T h, hl.mono.fresh hpre.frp⟩

theorem Does.wordTail {C : RC} (hz : C.fz = none) (hso : C.lim.solo = false) {σ : Rt} (hi : C.I σ) {p c} (hc : Ch C.bs σ p c)
    (hg : goodRune (Character.toRune p)) {rs prev} (hprev : Wd C.bs σ rs prev) (hD : rs.length + 1 ≤ C.lim.D) :
    Does C (fun e σ' => Wd C.bs σ' (rs ++ [Character.toRune p]) e ∧ (prev.word, e.word) ∈ σ'.store.edges)
      (Word.createTailEntity ⟨some c⟩ prev) σ :=
  (From.wordTail hz (.refl hi) hc hg hprev hD (fun h => by rw [hso] at h; cases h)).cons fun _ _ _ h => ⟨h.1, h.2.1⟩

theorem RuneOK.rune {lim : Lim} {r : Int} (h : RuneOK lim r) : goodRune (Character.toRune (bitsOf r)) := by
  rw [h.good.toRune]; exact h.good

theorem Does.wordNext {C : RC} (hC : C.tot = false) (hz : C.fz = none) (hso : C.lim.solo = false) {σ : Rt} (hi : C.I σ) {fuel : Nat} (hf : C.lim.L ≤ fuel) {rs w r}
    (hw : Wd C.bs σ rs w) (hr : RuneOK C.lim r) (hD : rs.length + 1 ≤ C.lim.D) :
    Does C (fun w' σ' => Wd C.bs σ' (rs ++ [r]) w') (Word.provideNextElement fuel w r) σ := by
  unfold Word.provideNextElement
  refine Does.bind (good := fun l σ' => ∀ i ∈ l, ∃ v e', Wd C.bs σ' (rs ++ [v]) e' ∧ e'.word = i)
    (Does.targets hi (by rw [hw.tagW]; simp) ?_) ?_
  · intro σ2 l h2 hl i hi'
    exact h2.inv.wordChild (hw.mono h2.mono) (mem_T.1 (hl.mem_iff.1 hi'))
  intro ids σ2 h2 hids
  replace hw := hw.mono h2.mono
  refine Does.bind (Does.wordReadAll ids h2.inv (p := rs) hids) ?_
  intro cs σ3 h3 hcs
  replace hw := hw.mono h3.mono
  refine Does.bind (Does.wordSearch hf r cs h3.inv (p := rs) hcs) ?_
  intro o σ4 h4 ho
  replace hw := hw.mono h4.mono
  cases o with
  | some c => exact Does.ret h4.inv (ho c rfl)
  | none =>
    refine Does.bind (Does.provideEntity h4.inv) ?_
    intro _ σ5 h5 _
    replace hw := hw.mono h5.mono
    refine Does.bind (Does.charProvide hC hz hso h5.inv (collect_ok hr.good.range.1) hr.path) ?_
    intro a σ6 h6 ha
    replace hw := hw.mono h6.mono
    obtain ⟨a⟩ := a
    cases a with
    | none =>
      refine Does.bind (good := fun _ _ => False) ?_ (fun _ _ _ h => h.elim)
      unfold Word.createTailEntity
      rw [word_newEnt]
      refine Does.bind (Does.newEnt h6.inv (by decide) (wordTags (rs := rs ++ [r]) (by simpa using hD) (by simp))) ?_
      intro _ σ7 h7 _
      exact fun _ => ⟨.refl h7.inv, hC⟩
    | some c =>
      have hrr := RuneOK.rune hr
      refine Does.bind (Does.wordTail hz hso h6.inv (ha c rfl) hrr hw hD) ?_
      intro w' σ7 h7 ⟨hw', hed⟩
      refine Does.bind (From.connectOld (.refl h7.inv) hed) ?_
      intro _ σ8 h8 _
      rw [hr.good.toRune] at hw'
      exact Does.ret h8.inv (hw'.mono h8.mono)

theorem Does.wordWalk {C : RC} (hC : C.tot = false) (hz : C.fz = none) (hso : C.lim.solo = false) {fuel : Nat} (hf : C.lim.L ≤ fuel) :
    ∀ (qs : List Int) {σ : Rt} (_ : C.I σ) {rs : List Int}
    {el : Option WordE} (_ : ∀ c, el = some c → Wd C.bs σ rs c) (_ : ∀ r ∈ qs, RuneOK C.lim r)
    (_ : rs.length + qs.length ≤ C.lim.D),
    Does C (fun (el' : Option WordE) σ' => ∀ c, el' = some c → Wd C.bs σ' (rs ++ qs) c)
      (Word.walk fuel el qs) σ := by
  intro qs
  induction qs with
  | nil =>
    intro σ hi p el hel _ _
    unfold Word.walk
    refine Does.ret hi ?_
    simpa using hel
  | cons b bs ih =>
    intro σ hi p el hel hok hlen
    simp only [List.length_cons] at hlen
    unfold Word.walk
    match el, hel with
    | none, _ => exact fun _ => ⟨.refl hi, hC⟩
    | some e, he =>
      replace he := he e rfl
      refine Does.bind (good := fun a _ => a = e) (Does.ret hi rfl) ?_
      intro a σ1 h1 ha; subst ha
      refine Does.bind (Does.wordNext hC hz hso h1.inv hf (he.mono h1.mono) (hok b (by simp)) (by omega)).attempt ?_
      intro r σ2 h2 hr
      have := ih h2.inv (rs := p ++ [b]) (el := r.toOption) ?_ (fun r hr => hok r (by simp [hr]))
        (by simp only [List.length_append, List.length_cons, List.length_nil]; omega)
      · refine this.cons ?_
        intro a σ3 _ h; simpa using h
      · cases r with
        | ok el2 => intro c' hc'; cases hc'; exact hr
        | error e => intro c hc; cases hc

theorem Does.wordProvide {C : RC} (hC : C.tot = false) (hz : C.fz = none) (hso : C.lim.solo = false) {σ : Rt} (hi : C.I σ) {fuel : Nat} (hf : C.lim.L ≤ fuel) {w : GoStr}
    (hw : WordOK C.lim w) :
    Does C (fun e σ' => Wd C.bs σ' (runesOf w) e) (Word.provide fuel w) σ := by
  unfold Word.provide
  have hrune := hw.rune
  have hlen := hw.len
  cases hrs : runesOf w with
  | nil => exact From.err (.refl hi) hC
  | cons r rs =>
    rw [hrs] at hrune hlen
    have hr := hrune r (by simp)
    simp only [List.length_cons] at hlen
    refine Does.bind (good := fun e σ' => Wd C.bs σ' [r] e) ?_ ?_
    · unfold Word.provideFirstElement
      refine Does.bind (Does.charProvide hC hz hso hi (collect_ok hr.good.range.1) hr.path) ?_
      intro a σ1 h1 ha
      refine Does.bind (Does.provideEntity h1.inv) ?_
      intro _ σ2 h2 _
      obtain ⟨a⟩ := a
      cases a with
      | none => exact fun _ => ⟨.refl h2.inv, hC⟩
      | some c =>
        have hrr := RuneOK.rune hr
        have := Does.wordHead hC hz h2.inv ((ha c rfl).mono h2.mono) hrr (by omega)
        rw [hr.good.toRune] at this
        exact this
    · intro e σ1 h1 he
      refine Does.bind (Does.wordWalk hC hz hso hf rs h1.inv (rs := [r]) (el := some e) ?_ (fun r hr => hrune r (by simp [hr]))
        (by simp only [List.length_cons, List.length_nil]; omega)) ?_
      · intro c hc; cases hc; exact he
      intro el2 σ2 h2 hel2
      match el2, hel2 with
      | none, _ => exact fun _ => ⟨.refl h2.inv, hC⟩
      | some e, he => exact Does.ret h2.inv (he e rfl)

/-! ### phrases -/

theorem RI.phraseChild {cfg lim bs fz} {σ : Rt} (hi : RI cfg lim bs fz σ) {p e} (h : Ph bs σ p e) {y : Nat}
    (hy : (e.phrase, y) ∈ σ.store.edges) : ∃ v e', Ph bs σ (p ++ [v]) e' ∧ e'.phrase = y := by
  have he := hi.edge _ _ hy
  unfold REdge at he
  rw [h.tagP] at he
  cases hy' : σ.tag y <;> rw [hy'] at he <;> simp only at he
  obtain ⟨q, v, e1, e2, h1, h2, h3, h4⟩ := he
  have : p = q := by
    have := h1.tagP
    rw [h2, h.tagP] at this
    cases this; rfl
  subst this
  exact ⟨v, e2, h3, h4⟩

theorem RI.wordPhrase {cfg lim bs fz} {σ : Rt} (hi : RI cfg lim bs fz σ) {rs w} (h : Wd bs σ rs w) {y : Nat}
    (hy : (w.phrase, y) ∈ σ.store.edges) : ∃ e, Ph bs σ [rs] e ∧ e.word = y := by
  have he := hi.edge _ _ hy
  unfold REdge at he
  rw [h.tagP] at he
  cases hy' : σ.tag y <;> rw [hy'] at he <;> simp only at he
  obtain ⟨q, w1, e, h1, h2, h3, h4⟩ := he
  have : rs = q := by
    have e1c : w1.word = w.word := by
      have := h1.chain.cd.b
      rw [h2, h.chain.cd.b] at this
      exact this.symm
    have := h1.tagW
    rw [e1c, h.tagW] at this
    cases this; rfl
  subst this
  exact ⟨e, h3, h4⟩

theorem Does.phraseReadAll {C : RC} : ∀ (ids : List Nat) {σ : Rt} (_ : C.I σ) {p : List (List Int)}
    (_ : ∀ i ∈ ids, ∃ v e', Ph C.bs σ (p ++ [v]) e' ∧ e'.phrase = i),
    Does C (fun cs σ' => ∀ c ∈ cs, ∃ v, Ph C.bs σ' (p ++ [v]) c) (Phrase.readAll ids) σ := by
  intro ids
  induction ids with
  | nil => intro σ hi p _; exact Does.ret hi (by simp)
  | cons i is ih =>
    intro σ hi p h
    unfold Phrase.readAll
    obtain ⟨v, e', he', hc⟩ := h i (by simp)
    subst hc
    refine Does.bind (Does.phraseByPhrase hi he') ?_
    intro a σ1 h1 ha; subst ha
    refine Does.bind (ih h1.inv (p := p) ?_) ?_
    · intro i hi'
      obtain ⟨v, e', h2, h3⟩ := h i (by simp [hi'])
      exact ⟨v, e', h2.mono h1.mono, h3⟩
    · intro cs σ2 h2 hcs
      refine Does.ret h2.inv ?_
      intro c hc
      rcases List.mem_cons.1 hc with rfl | hc
      · exact ⟨v, (he'.mono h1.mono).mono h2.mono⟩
      · exact hcs c hc

theorem Does.phraseSearch {C : RC} {fuel : Nat} (hf : C.lim.L ≤ fuel) (hD : C.lim.D ≤ fuel) (w : GoStr) :
    ∀ (cs : List PhraseE) {σ : Rt} (_ : C.I σ) {p : List (List Int)} (_ : ∀ c ∈ cs, ∃ v, Ph C.bs σ (p ++ [v]) c),
    Does C (fun o σ' => ∀ c, o = some c → Ph C.bs σ' (p ++ [runesOf w]) c) (Phrase.search fuel w cs) σ := by
  intro cs
  induction cs with
  | nil => intro σ hi p _; exact Does.ret hi (by simp)
  | cons c cs ih =>
    intro σ hi p h
    unfold Phrase.search
    obtain ⟨v, hc⟩ := h c (by simp)
    obtain ⟨q, rs, ch, hq, hb⟩ := hc.base
    have hv : v = rs := by simp at hq; exact hq.2
    subst hv
    refine Does.bind (Does.extractWordValue hi hb hf hD) ?_
    intro a σ1 h1 ha
    rw [ha]
    by_cases hbv : w = stringOf v
    · rw [if_pos hbv]
      refine Does.ret h1.inv ?_
      intro c' hc'; cases hc'
      rw [hbv, runesOf_good hb.wd.good]
      exact hc.mono h1.mono
    · rw [if_neg hbv]
      refine ih h1.inv ?_
      intro c' hc'
      obtain ⟨v', h'⟩ := h c' (by simp [hc'])
      exact ⟨v', h'.mono h1.mono⟩

/-- a new phrase that is connected to its word only -/
structure PhPre (C : RC) (σ0 σ : Rt) (ws : List (List Int)) (rs : List Int) (w : WordE) (e : PhraseE) : Prop where
  base : PhB C.bs σ e ws rs w
  nd : Nd C σ e.phrase (.phP ws) e.detail e.word [] []
  fr : σ0.tag e.phrase = .none
  ndd : Nd C σ e.detail .phD 0 e.phrase [] []
  frd : σ0.tag e.detail = .none

theorem Does.phrasePre {C : RC} (hz : C.fz = none) {σ : Rt} (hi : C.I σ) {ws : List (List Int)} {rs : List Int} {w : WordE}
    (hw : Wd C.bs σ rs w) (hD : ws.length ≤ C.lim.D) (hn : ws ≠ []) :
    Does C (fun e σ' => PhPre C σ σ' ws rs w e) (do
        let cls ← Class.createNode phraseId
        let e ← Phrase.createEntity cls
        Go.connect e.word w.phrase
        pure e) σ := by
  rw [phrase_newEnt]
  refine From.bind (Does.newEnt hi (by decide) (phraseTags hD hn)) ?_
  intro r σ2 h2 hn
  obtain ⟨n, a, b, d⟩ := r
  simp only at hn ⊢
  have hc2 := hw.mono h2.mono
  have tv := hc2.tagP
  have hne : a ≠ w.phrase := by
    intro e; have := hn.wa.tag; rw [e, tv] at this; cases this
  have hbit : w.phrase ≠ bitId := by
    intro e; rw [e, (h2.inv.root bitId).2 (by decide)] at tv; cases tv
  refine From.bind (From.connectT h2 hn.wa rfl rfl tv (by simp) rfl rfl hbit hn.fa hne ?_) ?_
  · intro σ' m _
    simp only [REdge, m.tagEq hn.wa.tag (by simp), m.tagEq tv (by simp)]
  · intro _ σ3 h3 ⟨l, wa⟩
    refine From.ret h3 ⟨⟨?_, ?_, ?_, ?_, ?_, ?_⟩, ?_, hn.fb, ?_, hn.fc⟩
    · exact l.mono.chain (hn.chain h2.inv)
    · exact wa.tag
    · exact l.mono.tagEq hn.wb.tag (by simp)
    · exact l.mono.tagEq hn.wc.tag (by simp)
    · exact hc2.mono l.mono
    · exact wa.T rfl
    · refine hn.wb.keepC l (fun _ => hn.ab.symm) ?_
      intro _ e; have := hn.wb.tag; rw [e, tv] at this; cases this
    · exact hn.wc.keepC l (fun _ => hn.ac.symm) (fun h => by cases h)

theorem Does.phraseHead {C : RC} (hC : C.tot = false) (hz : C.fz = none) (hso : C.lim.solo = false) {σ : Rt} (hi : C.I σ) {rs w} (hw : Wd C.bs σ rs w)
    (hD : 1 ≤ C.lim.D) : Does C (fun e σ' => Ph C.bs σ' [rs] e) (Phrase.provideHeadEntity w) σ := by
  unfold Phrase.provideHeadEntity
  refine Does.bind (good := fun _ _ => True) ?_ ?_
  · unfold Word.hasTargetPhrase
    refine Does.bind (good := fun _ _ => True) (Does.targets hi (by rw [hw.tagP]; simp) (fun _ _ _ _ => trivial)) ?_
    intro l σ1 h1 _
    split
    · exact Does.ret h1.inv trivial
    · exact Does.ret h1.inv trivial
    · exact From.err (.refl h1.inv) hC
  intro b σ1 h1 _
  replace hw := hw.mono h1.mono
  cases b with
  | true =>
    simp only [if_true]
    refine Does.bind (good := fun y σ' => ∃ e, Ph C.bs σ' [rs] e ∧ e.word = y) ?_ ?_
    · unfold Word.getTargetPhrase
      refine Does.bind (good := fun l σ' => ∀ y ∈ l, ∃ e, Ph C.bs σ' [rs] e ∧ e.word = y)
        (Does.targets h1.inv (by rw [hw.tagP]; simp) ?_) ?_
      · intro σ2 l h2 hl y hy
        exact h2.inv.wordPhrase (hw.mono h2.mono) (mem_T.1 (hl.mem_iff.1 hy))
      · intro l σ2 h2 hl
        split
        · exact Does.ret h2.inv (hl _ (by simp))
        · exact From.err (.refl h2.inv) hC
    · intro y σ2 h2 ⟨e, he, hy⟩
      subst hy
      exact (Does.phraseByWord h2.inv he).cons fun a σ3 h3 ha => by subst ha; exact he.mono h3.mono
  | false =>
    simp only [Bool.false_eq_true, if_false]
    have key := Does.bind (Does.phrasePre hz h1.inv hw (ws := [rs]) hD (by simp))
      (good' := fun e σ' => Ph C.bs σ' [rs] e)
      (f := fun e => do Go.connect w.phrase e.word; pure e) ?_
    · simpa only [bind_assoc, pure_bind] using key
    · intro e σ2 h2 hpre
      have he : Ph C.bs σ2 [rs] e := .head hpre.base
      replace hw := hw.mono h2.mono
      refine Does.bind (From.cons (From.connectN (.refl h2.inv) hw.tagP he.tagW (by simp) (by simp) rfl rfl rfl rfl ?_ ?_ hz
            (fun h => by rw [hso] at h; cases h) (fun _ h => by cases h))
            (fun _ _ _ _ => trivial) : Does C (fun _ _ => True) _ _) ?_
      · intro hh; have := he.tagW; rw [hh, (h2.inv.root bitId).2 (by decide)] at this; cases this
      · intro σ' m
        have e' := he.mono m
        have c' := hw.mono m
        simp only [REdge, c'.tagP, e'.tagW]
        exact ⟨rs, w, e, c', rfl, e', rfl⟩
      · intro _ σ3 h3 _
        exact Does.ret h3.inv (he.mono h3.mono)

theorem From.phraseTail {C : RC} (hz : C.fz = none) {σ0 σ : Rt} (hl : Later C σ0 σ) {rs w} (hw : Wd C.bs σ rs w)
    {ws prev} (hprev : Ph C.bs σ ws prev) (hD : ws.length + 1 ≤ C.lim.D)
    (hg' : C.lim.solo = true → σ.own prev.phrase = C.me ∧ σ0.tag prev.phrase = .none) :
    From C σ0 (fun e σ' => Ph C.bs σ' (ws ++ [rs]) e ∧
        (C.lim.solo = true → Mine C σ0 σ' e.phrase ∧ Mine C σ0 σ' e.detail)) (Phrase.createTailEntity w prev) σ := by
  have e0 : Phrase.createTailEntity w prev = (do
      let e ← (do
        let cls ← Class.createNode phraseId
        let e ← Phrase.createEntity cls
        Go.connect e.word w.phrase
        pure e)
      Go.connect prev.phrase e.phrase; pure e) := by
    unfold Phrase.createTailEntity
    simp only [bind_assoc, pure_bind]
  rw [e0]
  refine From.bind ((Does.phrasePre hz hl.inv hw (ws := ws ++ [rs]) (by simpa using hD) (by simp)).from hl) ?_
  intro e σ2 l2 ⟨h2, hpre⟩
  have hp2 := hprev.mono h2.mono
  have hne : prev.phrase ≠ e.phrase := by
    intro he
    have := hprev.tagP
    rw [he, hpre.fr] at this
    cases this
  have live := hprev.tagP
  refine From.bind (From.connectS l2 hpre.nd rfl ?_ hp2.tagP (by simp) rfl rfl ?_ (hl.mono.fresh hpre.fr) hne ?_
    (hg := fun h _ => ⟨by rw [h2.mono.own _ (by rw [live]; simp)]; exact (hg' h).1, (hg' h).2⟩)) ?_
  · match ws, hprev.ne_nil with
    | a :: q, _ => cases q <;> rfl
  · intro hh; have := hpre.nd.tag; rw [hh, (h2.inv.root bitId).2 (by decide)] at this; cases this
  · intro σ' m hS
    have hp' := hp2.mono m
    have he' : Ph C.bs σ' (ws ++ [rs]) e := .tail hp' (hpre.base.mono m) hS
    simp only [REdge, hp'.tagP, he'.tagP]
    exact ⟨ws, rs, prev, e, hp', rfl, he', rfl⟩
  · intro _ σ3 h3 ⟨l, nd, _⟩
    refine From.ret h3 ⟨.tail (hp2.mono l.mono) (hpre.base.mono l.mono) (nd.S rfl), fun h =>
      ⟨⟨nd.own, nd.T h, hl.mono.fresh hpre.fr⟩, ?_⟩⟩
    have np := hpre.ndd.keepC l (fun _ e' => by
      have := hpre.ndd.tag; rw [e', hp2.tagP] at this; cases this) (fun h => by cases h)
    exact ⟨np.own, np.T h, hl.mono.fresh hpre.frd⟩

theorem Does.phraseTail {C : RC} (hz : C.fz = none) (hso : C.lim.solo = false) {σ : Rt} (hi : C.I σ) {rs w} (hw : Wd C.bs σ rs w)
    {ws prev} (hprev : Ph C.bs σ ws prev) (hD : ws.length + 1 ≤ C.lim.D) :
    Does C (fun e σ' => Ph C.bs σ' (ws ++ [rs]) e) (Phrase.createTailEntity w prev) σ :=
  (From.phraseTail hz (.refl hi) hw hprev hD (fun h => by rw [hso] at h; cases h)).cons fun _ _ _ h => h.1

theorem Does.phraseNext {C : RC} (hC : C.tot = false) (hz : C.fz = none) (hso : C.lim.solo = false) {σ : Rt} (hi : C.I σ) {fuel : Nat} (hf : C.lim.L ≤ fuel)
    (hD : C.lim.D ≤ fuel) {ws e w} (he : Ph C.bs σ ws e) (hw : WordOK C.lim w) (hlen : ws.length + 1 ≤ C.lim.D) :
    Does C (fun e' σ' => Ph C.bs σ' (ws ++ [runesOf w]) e') (Phrase.provideNextElement fuel e w) σ := by
  unfold Phrase.provideNextElement
  refine Does.bind (good := fun l σ' => ∀ i ∈ l, ∃ v e', Ph C.bs σ' (ws ++ [v]) e' ∧ e'.phrase = i)
    (Does.targets hi (by rw [he.tagP]; simp) ?_) ?_
  · intro σ2 l h2 hl i hi'
    exact h2.inv.phraseChild (he.mono h2.mono) (mem_T.1 (hl.mem_iff.1 hi'))
  intro ids σ2 h2 hids
  replace he := he.mono h2.mono
  refine Does.bind (Does.phraseReadAll ids h2.inv (p := ws) hids) ?_
  intro cs σ3 h3 hcs
  replace he := he.mono h3.mono
  refine Does.bind (Does.phraseSearch hf hD w cs h3.inv (p := ws) hcs) ?_
  intro o σ4 h4 ho
  replace he := he.mono h4.mono
  cases o with
  | some c => exact Does.ret h4.inv (ho c rfl)
  | none =>
    refine Does.bind (Does.provideEntity h4.inv) ?_
    intro _ σ5 h5 _
    replace he := he.mono h5.mono
    refine Does.bind (Does.wordProvide hC hz hso h5.inv hf hw) ?_
    intro a σ6 h6 ha
    exact Does.phraseTail hz hso h6.inv ha (he.mono h6.mono) hlen

theorem Does.phraseWalk {C : RC} (hC : C.tot = false) (hz : C.fz = none) (hso : C.lim.solo = false) {fuel : Nat} (hf : C.lim.L ≤ fuel) (hD : C.lim.D ≤ fuel) :
    ∀ (qs : List GoStr) {σ : Rt} (_ : C.I σ) {ws : List (List Int)}
    {el : Option PhraseE} (_ : ∀ c, el = some c → Ph C.bs σ ws c) (_ : ∀ w ∈ qs, WordOK C.lim w)
    (_ : ws.length + qs.length ≤ C.lim.D),
    Does C (fun (el' : Option PhraseE) σ' => ∀ c, el' = some c → Ph C.bs σ' (ws ++ qs.map runesOf) c)
      (Phrase.walk fuel el qs) σ := by
  intro qs
  induction qs with
  | nil =>
    intro σ hi p el hel _ _
    unfold Phrase.walk
    refine Does.ret hi ?_
    simpa using hel
  | cons b bs ih =>
    intro σ hi p el hel hok hlen
    simp only [List.length_cons] at hlen
    unfold Phrase.walk
    match el, hel with
    | none, _ => exact fun _ => ⟨.refl hi, hC⟩
    | some e, he =>
      replace he := he e rfl
      refine Does.bind (good := fun a _ => a = e) (Does.ret hi rfl) ?_
      intro a σ1 h1 ha; subst ha
      refine Does.bind (Does.phraseNext hC hz hso h1.inv hf hD (he.mono h1.mono) (hok b (by simp)) (by omega)).attempt ?_
      intro r σ2 h2 hr
      have := ih h2.inv (ws := p ++ [runesOf b]) (el := r.toOption) ?_ (fun r hr => hok r (by simp [hr]))
        (by simp only [List.length_append, List.length_cons, List.length_nil]; omega)
      · refine this.cons ?_
        intro a σ3 _ h; simpa using h
      · cases r with
        | ok el2 => intro c' hc'; cases hc'; exact hr
        | error e => intro c hc; cases hc

theorem Does.phraseProvide {C : RC} (hC : C.tot = false) (hz : C.fz = none) (hso : C.lim.solo = false) {σ : Rt} (hi : C.I σ) {fuel : Nat} (hf : C.lim.L ≤ fuel)
    (hD : C.lim.D ≤ fuel) {s : GoStr} (hs : TextOK C.lim s) :
    Does C (fun e σ' => Ph C.bs σ' (wordsOf s) e) (Phrase.provide fuel s) σ := by
  unfold Phrase.provide wordsOf
  have hword := hs.word
  have hlen := hs.len
  cases hsp : splitSpace s with
  | nil => exact From.err (.refl hi) hC
  | cons w ws =>
    rw [hsp] at hword hlen
    simp only [List.length_cons] at hlen
    refine Does.bind (good := fun e σ' => Ph C.bs σ' [runesOf w] e) ?_ ?_
    · unfold Phrase.provideFirstElement
      refine Does.bind (Does.wordProvide hC hz hso hi hf (hword w (by simp))) ?_
      intro a σ1 h1 ha
      refine Does.bind (Does.provideEntity h1.inv) ?_
      intro _ σ2 h2 _
      exact Does.phraseHead hC hz hso h2.inv (ha.mono h2.mono) (by omega)
    · intro e σ1 h1 he
      refine Does.bind (Does.phraseWalk hC hz hso hf hD ws h1.inv (ws := [runesOf w]) (el := some e) ?_
        (fun r hr => hword r (by simp [hr])) (by simp only [List.length_cons, List.length_nil]; omega)) ?_
      · intro c hc; cases hc; exact he
      intro el2 σ2 h2 hel2
      match el2, hel2 with
      | none, _ => exact fun _ => ⟨.refl h2.inv, hC⟩
      | some e, he => exact Does.ret h2.inv (he e rfl)

end Semnet.Race
