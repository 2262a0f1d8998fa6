import Verif.Proof.CharWrite
/-
  Providing words.
-/
set_option linter.unusedSimpArgs false
namespace Semnet
open Class Spec

/-! ### search among the continuations -/

theorem Rd.wordReadAll {C : Ctx} : ∀ (ids : List Nat) {σ : St} (_ : Inv C.cfg C.lim σ) {p : List Int}
    (_ : ∀ i ∈ ids, ∃ v e', WordEnt σ (p ++ [v]) e' ∧ e'.word = i),
    Rd C (fun cs => cs.map (·.word) = ids ∧ ∀ c ∈ cs, ∃ v, WordEnt σ (p ++ [v]) c) (Word.readAll ids) σ := by
  intro ids
  induction ids with
  | nil => intro σ hi p _; exact Rd.ret hi ⟨rfl, by simp⟩
  | cons i is ih =>
    intro σ hi p h
    unfold Word.readAll
    obtain ⟨v, e', he', hc⟩ := h i (by simp)
    subst hc
    refine Rd.bind (Rd.wordByWord hi he') ?_
    intro a σ1 h1 _ ha; subst ha
    refine Rd.bind (good := fun cs => cs.map (·.word) = is ∧ ∀ c ∈ cs, ∃ v, WordEnt σ (p ++ [v]) c) ?_ ?_
    · refine Rd.cons (ih h1.inv (p := p) ?_) ?_
      · intro i hi'
        obtain ⟨v, e', h2, h3⟩ := h i (by simp [hi'])
        exact ⟨v, e', h2.mono h1.mono, h3⟩
      · intro cs ⟨h2, h3⟩
        refine ⟨h2, ?_⟩
        intro c hc
        have hm : c.word ∈ is := by rw [← h2]; exact List.mem_map_of_mem hc
        obtain ⟨v, e', h4, h5⟩ := h c.word (by simp [hm])
        obtain ⟨v', h6⟩ := h3 c hc
        have := h6.ext (h4.mono h1.mono) h5.symm
        subst this
        exact ⟨v, h4⟩
    · intro cs σ2 h2 _ ⟨h3, h4⟩
      refine Rd.ret h2.inv ⟨by simp [h3], ?_⟩
      intro c hc
      rcases List.mem_cons.1 hc with rfl | hc
      · exact ⟨v, he'⟩
      · exact h4 c hc

theorem Rd.wordSearch {C : Ctx} {fuel : Nat} (hf : C.lim.L ≤ fuel) (r : Int) : ∀ (cs : List WordE) {σ : St}
    (_ : Inv C.cfg C.lim σ) {p : List Int} (_ : ∀ c ∈ cs, ∃ v, WordEnt σ (p ++ [v]) c),
    Rd C (fun o => match o with
      | some c => c ∈ cs ∧ WordEnt σ (p ++ [r]) c
      | none => ∀ c ∈ cs, ¬ WordEnt σ (p ++ [r]) c)
      (Word.search fuel r cs) σ := by
  intro cs
  induction cs with
  | nil => intro σ hi p _; exact Rd.ret hi (by simp)
  | cons c cs ih =>
    intro σ hi p h
    unfold Word.search
    obtain ⟨v, hc⟩ := h c (by simp)
    obtain ⟨q, pth, ch, hq, hb⟩ := hc.base
    have hv : v = Character.toRune pth := by simp at hq; exact hq.2
    refine Rd.bind (Rd.extractCharacterValue hi hb hf) ?_
    intro a σ1 h1 _ ha
    rw [ha, ← hv]
    by_cases hbv : r = v
    · rw [if_pos hbv]; subst hbv
      exact Rd.ret h1.inv ⟨by simp, hc⟩
    · rw [if_neg hbv]
      refine Rd.cons (ih h1.inv (p := p) ?_) ?_
      · intro c' hc'
        obtain ⟨v', h'⟩ := h c' (by simp [hc'])
        exact ⟨v', h'.mono h1.mono⟩
      · intro o ho
        cases o with
        | none =>
          intro c' hc' hbad
          rcases List.mem_cons.1 hc' with rfl | hc'
          · have := (append_one_inj (hc.runes_eq hbad)).2
            exact hbv this.symm
          · exact ho c' hc' (hbad.mono h1.mono)
        | some c' =>
          refine ⟨by simp [ho.1], ?_⟩
          obtain ⟨v', h'⟩ := h c' (by simp [ho.1])
          have := (h'.mono h1.mono).runes_eq ho.2
          rw [← this]; exact h'

/-! ### creating -/

theorem wordTags {lim : Lim} {rs : List Int} (hp : rs.length ≤ lim.D) (hn : rs ≠ []) :
    EntTags lim .wdC (.wdW rs) .wdP := by
  constructor <;> first | rfl | (constructor <;> simp [TagOK, hp, hn]) | simp

theorem word_newEnt (f : WordE → Go α) :
    (do let cls ← Class.createNode wordId; let e ← Word.createEntity cls; f e) =
    (newEnt wordId >>= fun r => f ⟨r.1, r.2.1, r.2.2.1, r.2.2.2⟩) := by
  simp only [newEnt, mk4, Word.createEntity, bind_assoc, pure_bind]

/-- a new word that is connected to its character only -/
structure WordPre (σ : St) (rs : List Int) (p : List Bool) (c : CharE) (w : WordE) : Prop where
  base : WordBase σ w rs p c
  S : σ.S w.word = []
  Sc : σ.S w.character = []

theorem Chain.conn {cfg : Cfg} {σ : St} {x y : Nat} {a b c d} (h : Chain σ a b c d) :
    Chain (σ.conn cfg x y) a b c d :=
  ⟨⟨h.ab.f, h.ab.b, h.ab.hx, h.ab.hy⟩, ⟨h.bc.f, h.bc.b, h.bc.hx, h.bc.hy⟩, ⟨h.cd.f, h.cd.b, h.cd.hx, h.cd.hy⟩⟩

/-- the word was made since `σ0`, and nothing has been added to it -/
structure WordNew (σ0 σ : St) (w : WordE) : Prop where
  w0 : σ0.tag w.word = .none
  p0 : σ0.tag w.phrase = .none
  Tw : σ.T w.word = []
  Tp : σ.T w.phrase = []

theorem WordNew.mono0 {σ0 σ1 σ : St} {w : WordE} (h : WordNew σ1 σ w) (m : Mono σ0 σ1) : WordNew σ0 σ w :=
  ⟨m.tagNone h.w0, m.tagNone h.p0, h.Tw, h.Tp⟩

theorem WordNew.same {σ0 σ σ' : St} {w : WordE} (h : WordNew σ0 σ w) (hs : Same σ σ') : WordNew σ0 σ' w :=
  ⟨h.w0, h.p0, by rw [hs.T]; exact h.Tw, by rw [hs.T]; exact h.Tp⟩

/-- new word nodes, connected to the character -/
theorem Wr.wordPre {C : Ctx} (hR : C.R = false) {σ : St} (hi : Inv C.cfg C.lim σ) {rs p c}
    (hc : CharEnt σ p c) (hg : goodRune (Character.toRune p)) (hl : rs.length ≤ C.lim.D) (hn : rs ≠ []) {bad} :
    Wr C (fun w σ' => WordPre σ' rs p c w ∧ (∀ x, σ.tag x ≠ .none → σ'.T x = σ.T x) ∧ WordNew σ σ' w ∧ Froz σ σ')
      bad (do
        let cls ← Class.createNode wordId
        let w ← Word.createEntity cls
        Go.connect w.character c.word
        pure w) σ := by
  rw [word_newEnt]
  refine Wr.bind (Wr.newEnt hR hi (by decide) (wordTags hl hn) (.word _)) ?_
  intro r σ2 h2 hn
  obtain ⟨n, a, b, d⟩ := r
  simp only at hn ⊢
  have hc2 := hc.mono h2.mono
  have k : ConnOK σ2 a c.word := by
    constructor
    · intro h; have := mem_T.2 h; rw [hn.Ta] at this; cases this
    · intro _; exact hn.Ta
    · rw [hn.ta]; rfl
    · rw [hc2.tagW]; simp [Tag.scrit]
    · rw [hc2.tagW]; rfl
    · rw [hc2.tagW]; simp
    · rw [hn.ta]; simp
    · intro h; have := hc2.tagW; rw [h, (h2.inv.root bitId).2 (by decide)] at this; cases this
  refine Wr.bind (Wr.connect hR h2.inv k ?_ ?_ ?_ hn.chain.ab.hy ?_) ?_
  · simp only [EdgeOK, tag_conn, hn.ta, hc2.tagW]
  · rw [hn.ta]; simp
  · rw [hc2.tagW]; simp
  · rw [hn.ta]; simp
  intro _ σ3 h3 ⟨c', e3⟩
  subst e3
  have hca : c.word ≠ a := by intro h; have := hc2.tagW; rw [h, hn.ta] at this; cases this
  have hcb : b ≠ c.word := by intro h; have := hc2.tagW; rw [← h, hn.tb] at this; cases this
  refine Wr.ret h3.inv ⟨⟨⟨hn.chain.mono h3.mono, hn.ta, hn.tb, hn.tc, hc2.mono h3.mono, ?_, hg⟩, ?_, ?_⟩, ?_⟩
  · rw [T_conn, if_pos rfl, hn.Ta]
  · rw [S_conn, if_neg hcb]; exact hn.Sb
  · rw [S_conn, if_neg (Ne.symm hca)]; exact hn.Sa
  · refine ⟨fun x hx => ?_, ⟨hn.fb, hn.fc, ?_, ?_⟩,
      hn.froz.trans h2.inv h2.mono h3.mono (.conn (by rw [hn.ta]; rfl))⟩
    · rw [T_conn, if_neg, hn.frT x hx]
      intro e; rw [e, hn.fa] at hx; exact hx rfl
    · rw [T_conn, if_neg]
      · exact hn.Tb
      · intro e; have h' : σ2.tag b = _ := hn.tb; rw [show b = a from e, hn.ta] at h'; cases h'
    · rw [T_conn, if_neg]
      · exact hn.Tc
      · intro e; have h' : σ2.tag d = _ := hn.tc; rw [show d = a from e, hn.ta] at h'; cases h'

theorem Wr.wordHeadLink {C : Ctx} (hR : C.R = false) (hL : C.lo = true) {σ : St} (hi : Inv C.cfg C.lim σ) {p c w}
    (h : WordPre σ [Character.toRune p] p c w) (hT : σ.T c.character = []) {bad} :
    Wr C (fun _ σ' => WordEnt σ' [Character.toRune p] w ∧ ¬ Dead σ' p ∧ (∀ x, x ≠ c.word → σ'.T x = σ.T x) ∧
      σ'.T c.word = w.character :: σ.T c.word) bad
      (Go.connect c.word w.character) σ := by
  have hc := h.base.ch
  have ent0 : WordEnt σ [Character.toRune p] w := .head h.base h.S
  have k : ConnOK σ c.word w.character := by
    constructor
    · intro h'; have := mem_S.2 h'; rw [h.Sc] at this; cases this
    · rw [hc.tagW]; simp [Tag.tcrit]
    · rw [hc.tagW]; rfl
    · rw [h.base.tc]; simp [Tag.scrit]
    · rw [h.base.tc]; rfl
    · rw [h.base.tc]; simp
    · intro _ q e he hw
      have := he.extW hc hw
      rw [this]; exact hT
    · intro hh; have := h.base.tc; rw [hh, (hi.root bitId).2 (by decide)] at this; cases this
  have m := Mono.conn (cfg := C.cfg) k
  refine Wr.cons (Wr.connect hR hi k ?_ ?_ ?_ hc.chain.cd.hy ?_) ?_ (fun _ _ _ h => h)
  · simp only [EdgeOK, tag_conn, hc.tagW, h.base.tc]
    refine ⟨p, c, w, hc.mono m, rfl, ent0.mono m, rfl, ?_⟩
    rw [T_conn, if_neg (fun hh => by have := h.base.tc; rw [hh, hc.tagW] at this; cases this)]
    exact h.base.Tc
  · rw [hc.tagW]; simp
  · rw [h.base.tc]; simp
  · rw [hc.tagW]; simp [hL]
  · intro _ σ2 h2 ⟨c', e2⟩; subst e2
    have m := m.trans (.conn_conn _ c' _ _ _)
    refine ⟨ent0.mono m, ?_, fun x hx => by rw [T_conn, if_neg hx], by rw [T_conn, if_pos rfl]⟩
    intro ⟨e, he, h1, _⟩
    have := he.unique h2.inv (hc.mono m)
    subst this
    apply h1
    rw [T_conn, if_neg]
    · exact hT
    · intro he; have := hc.tagC; rw [he, hc.tagW] at this; cases this

theorem Wr.wordTailLink {C : Ctx} (hR : C.R = false) (hL : C.lo = true) {σ : St} (hi : Inv C.cfg C.lim σ) {rs p c w prev}
    (h : WordPre σ (rs ++ [Character.toRune p]) p c w) (hprev : WordEnt σ rs prev) {bad} :
    Wr C (fun _ σ' => WordEnt σ' (rs ++ [Character.toRune p]) w ∧ (prev.word, w.word) ∈ σ'.store.edges ∧
      (∀ x, x ≠ prev.word → σ'.T x = σ.T x) ∧ σ'.T prev.word = w.word :: σ.T prev.word) bad
      (Go.connect prev.word w.word) σ := by
  have hne := hprev.ne_nil
  have k : ConnOK σ prev.word w.word := by
    constructor
    · intro h'; have := mem_S.2 h'; rw [h.S] at this; cases this
    · rw [hprev.tagW]; simp [Tag.tcrit]
    · rw [hprev.tagW]; rfl
    · intro _; exact h.S
    · rw [h.base.tw]
      match rs, hne with
      | a :: q, _ => cases q <;> rfl
    · rw [h.base.tw]; simp
    · rw [hprev.tagW]; simp
    · intro hh; have := h.base.tw; rw [hh, (hi.root bitId).2 (by decide)] at this; cases this
  have m := Mono.conn (cfg := C.cfg) k
  have ent : WordEnt (σ.conn C.cfg prev.word w.word) (rs ++ [Character.toRune p]) w := by
    refine .tail (hprev.mono m) ⟨h.base.chain.conn, h.base.tc, h.base.tw, h.base.tp, h.base.ch.mono m, ?_, h.base.good⟩ ?_
    · rw [T_conn, if_neg]
      · exact h.base.Tc
      · intro he; have := h.base.tc; rw [he, hprev.tagW] at this; cases this
    · rw [S_conn, if_pos rfl, h.S]
  refine Wr.cons (Wr.connect hR hi k ?_ ?_ ?_ hprev.chain.bc.hy ?_) ?_ (fun _ _ _ h => h)
  · simp only [EdgeOK, tag_conn, hprev.tagW, h.base.tw]
    exact ⟨rs, _, prev, w, hprev.mono m, rfl, ent, rfl⟩
  · rw [hprev.tagW]; simp
  · rw [h.base.tw]; simp
  · rw [hprev.tagW]; simp [hL]
  · intro _ σ2 _ ⟨c', e2⟩; subst e2
    exact ⟨ent.mono (.conn_conn _ c' _ _ _), by simp, fun x hx => by rw [T_conn, if_neg hx], by rw [T_conn, if_pos rfl]⟩

/-- an error because of a dead word start -/
def deadErr (σ0 : St) (p : List Bool) : Bool → St → Prop := fun b σ => b = false ∧ Dead σ p ∧ Same σ0 σ

/-- how the first character of a word is turned into a word: a new word, or the one there is -/
def HeadDone (σ σ' : St) (c : CharE) (w : WordE) : Prop :=
  (σ.T c.character = [] ∧ At σ σ' c.word ∧ σ'.T c.word = w.character :: σ.T c.word ∧ WordNew σ σ' w) ∨
  (∃ y, σ.T c.character = [y] ∧ σ.T c.word = [w.character] ∧ Same σ σ')

theorem Wr.err {α : Type} {C : Ctx} {σ : St} (hi : Inv C.cfg C.lim σ) {good : α → St → Prop} {bad} {e : Err}
    (h : bad false σ) : Wr C good bad (Go.err e) σ := ⟨.refl hi, .inr h⟩

theorem Wr.panic {α : Type} {C : Ctx} {σ : St} (hi : Inv C.cfg C.lim σ) {good : α → St → Prop} {bad}
    (h : σ.flt = true ∨ bad true σ) : Wr C good bad Go.panic σ := ⟨.refl hi, h⟩

theorem Wr.wordHead {C : Ctx} (hR : C.R = false) (hL : C.lo = true) {σ : St} (hi : Inv C.cfg C.lim σ) {p c}
    (hc : CharEnt σ p c) (hg : goodRune (Character.toRune p)) (hD : 1 ≤ C.lim.D) :
    Wr C (fun w σ' => WordEnt σ' [Character.toRune p] w ∧ ¬ Dead σ' p ∧ HeadDone σ σ' c w)
      (deadErr σ p) (Word.provideHeadEntity ⟨some c⟩) σ := by
  unfold Word.provideHeadEntity
  refine Wr.rbind hR (good := (· = c)) (Rd.ret hi rfl) ?_
  intro a σ1 h1 hs1 ha; subst ha
  have hc1 := hc.mono h1.mono
  have rdT : Rd C (fun l => l.Perm (σ1.T a.character)) (Go.readTargets a.character) σ1 := by
    refine Rd.targets h1.inv (by rw [hc1.tagC]; simp) ?_
    intro σ2 l h2 ro hl
    rw [(ro hR).T] at hl; exact hl
  have rdW : ∀ σ2, Inv C.cfg C.lim σ2 → Same σ1 σ2 →
      Rd C (fun l => l.Perm (σ1.T a.word)) (Go.readTargets a.word) σ2 := by
    intro σ2 hi2 hs2
    refine Rd.targets hi2 (by rw [(hs2.charEnt hc1).tagW]; simp) ?_
    intro σ3 l h3 ro hl
    rw [(ro hR).T, hs2.T] at hl; exact hl
  match hT : σ1.T a.character with
  | [] =>
    rw [hT] at rdT
    refine Wr.rbind hR (good := (· = false)) ?_ ?_
    · unfold Character.hasTargetWord
      refine Rd.bind rdT ?_
      intro l σ2 h2 _ hl
      rw [perm_nil' hl]
      exact Rd.ret h2.inv rfl
    intro b σ2 h2 hs2 hb; subst hb
    simp only [Bool.false_eq_true, if_false]
    have := Wr.wordPre hR h2.inv (rs := [Character.toRune p]) (hc1.mono h2.mono) hg (by simpa using hD) (by simp)
      (bad := deadErr σ p)
    have := Wr.bind this (good' := fun w σ' => WordEnt σ' [Character.toRune p] w ∧ ¬ Dead σ' p ∧
        HeadDone σ σ' a w)
      (f := fun w => do Go.connect a.word w.character; pure w) ?_
    · simpa only [bind_assoc, pure_bind] using this
    · intro w σ3 h3 ⟨hpre, hfr, hnew, hz⟩
      refine Wr.bind (Wr.wordHeadLink hR hL h3.inv hpre ?_) ?_
      · rw [hfr _ (by rw [(hc1.mono h2.mono).tagC]; simp), hs2.T, hT]
      · intro _ σ4 h4 ⟨he, hd, hfr4, hTw⟩
        have tw := (hc1.mono (h2.trans h3).mono).tagW
        refine Wr.ret h4.inv ⟨he, hd, .inl ⟨by rw [← hs1.T, hT], .sameL (hs1.trans hs2) (.of h3.inv h3.mono h4.mono hz hfr4),
          by rw [hTw, hfr _ (by rw [(hc1.mono h2.mono).tagW]; simp), hs2.T, hs1.T],
          WordNew.mono0 (σ1 := σ2) ⟨hnew.w0, hnew.p0, ?_, ?_⟩ (h1.trans h2).mono⟩⟩
        · rw [hfr4 _ (by intro e; rw [← e, hpre.base.tw] at tw; cases tw)]; exact hnew.Tw
        · rw [hfr4 _ (by intro e; rw [← e, hpre.base.tp] at tw; cases tw)]; exact hnew.Tp
  | [y] =>
    rw [hT] at rdT
    refine Wr.rbind hR (good := (· = true)) ?_ ?_
    · unfold Character.hasTargetWord
      refine Rd.bind rdT ?_
      intro l σ2 h2 _ hl
      rw [perm_one hl]
      exact Rd.ret h2.inv rfl
    intro b σ2 h2 hs2 hb; subst hb
    simp only [if_true]
    have fin : (∀ z, σ1.T a.word ≠ [z]) → Wr C (fun w σ' => WordEnt σ' [Character.toRune p] w ∧ ¬ Dead σ' p ∧
        HeadDone σ σ' a w) (deadErr σ p) (do
          let character ← Character.getTargetWord a
          Word.readEntityByCharacter character) σ2 := by
      intro hne
      have dead : Dead σ1 p := ⟨a, hc1, by rw [hT]; simp, by
        intro _ hl
        match hW' : σ1.T a.word, hl with
        | [z], _ => exact hne z hW'⟩
      refine Wr.bind (good := fun _ _ => False) ?_ (fun _ _ _ h => h.elim)
      unfold Character.getTargetWord
      refine Wr.rbind hR (rdW σ2 h2.inv hs2) ?_
      intro l σ3 h3 hs3 hl
      have : ∀ z, l ≠ [z] := by
        intro z e; subst e
        exact hne z (perm_one hl.symm)
      match l, this with
      | [], _ => exact Wr.err h3.inv ⟨rfl, dead.same (hs2.trans hs3), (hs1.trans hs2).trans hs3⟩
      | [z], h => exact absurd rfl (h z)
      | _ :: _ :: _, _ => exact Wr.err h3.inv ⟨rfl, dead.same (hs2.trans hs3), (hs1.trans hs2).trans hs3⟩
    match hW : σ1.T a.word with
    | [z] =>
      have hc2 := hc1.mono h2.mono
      obtain ⟨w, hw, hwz⟩ := h2.inv.charWord hc2 (y := z) (by rw [hs2.T, hW]; simp)
      refine Wr.rbind hR (good := (· = z)) ?_ ?_
      · unfold Character.getTargetWord
        refine Rd.bind (rdW σ2 h2.inv hs2) ?_
        intro l σ3 h3 _ hl
        rw [hW] at hl
        rw [perm_one hl]
        exact Rd.ret h3.inv rfl
      intro b σ3 h3 hs3 hb; subst hb
      rw [← hwz]
      refine ((Rd.wordByCharacter h3.inv (hw.mono h3.mono)).wr hR).cons ?_ (fun _ _ _ h => h)
      intro b σ4 h4 ⟨hs4, hb⟩
      subst hb
      have hs := (hs2.trans hs3).trans hs4
      refine ⟨hw.mono (h3.trans h4).mono, ?_, .inr ⟨y, by rw [← hs1.T, hT], by rw [← hs1.T, hW, hwz], hs1.trans hs⟩⟩
      intro ⟨e, he, h5, h6⟩
      have := he.unique h4.inv (hs.charEnt hc1)
      subst this
      rw [hs.T, hT, hW] at h6
      exact h6 rfl rfl
    | [] => exact fin (by rw [hW]; simp)
    | _ :: _ :: _ => exact fin (by rw [hW]; simp)
  | y :: z :: t =>
    have dead : Dead σ1 p := ⟨a, hc1, by rw [hT]; simp, by rw [hT]; simp⟩
    refine Wr.bind (good := fun _ _ => False) ?_ (fun _ _ _ h => h.elim)
    unfold Character.hasTargetWord
    refine Wr.rbind hR rdT ?_
    intro l σ2 h2 hs2 hl
    rw [hT] at hl
    match l, hl.length_eq with
    | _ :: _ :: _, _ => exact Wr.err h2.inv ⟨rfl, dead.same hs2, hs1.trans hs2⟩

theorem Wr.wordTail {C : Ctx} (hR : C.R = false) (hL : C.lo = true) {σ : St} (hi : Inv C.cfg C.lim σ) {rs p c prev}
    (hc : CharEnt σ p c) (hg : goodRune (Character.toRune p)) (hprev : WordEnt σ rs prev)
    (hD : rs.length + 1 ≤ C.lim.D) {bad} :
    Wr C (fun w σ' => WordEnt σ' (rs ++ [Character.toRune p]) w ∧ (prev.word, w.word) ∈ σ'.store.edges ∧
      WordNew σ σ' w ∧ At σ σ' prev.word ∧ σ'.T prev.word = w.word :: σ.T prev.word) bad (Word.createTailEntity ⟨some c⟩ prev) σ := by
  have := Wr.wordPre hR hi (rs := rs ++ [Character.toRune p]) hc hg (by simpa using hD) (by simp) (bad := bad)
  have := Wr.bind this (good' := fun w σ' => WordEnt σ' (rs ++ [Character.toRune p]) w ∧
      (prev.word, w.word) ∈ σ'.store.edges ∧ WordNew σ σ' w ∧ At σ σ' prev.word ∧
      σ'.T prev.word = w.word :: σ.T prev.word)
    (f := fun w => do Go.connect prev.word w.word; pure w) ?_
  · unfold Word.createTailEntity
    simpa only [bind_assoc, pure_bind, Character.deref] using this
  · intro w σ2 h2 ⟨hpre, hfr, hnew, hz⟩
    refine Wr.bind (Wr.wordTailLink hR hL h2.inv hpre (hprev.mono h2.mono)) ?_
    · intro _ σ3 h3 ⟨he, hed, hfr3, hTp⟩
      have tw := hprev.tagW
      refine Wr.ret h3.inv ⟨he, hed, ⟨hnew.w0, hnew.p0, ?_, ?_⟩, .of h2.inv h2.mono h3.mono hz hfr3,
        by rw [hTp, hfr _ (by rw [tw]; simp)]⟩
      · rw [hfr3 _ (by intro e; rw [← e, hnew.w0] at tw; cases tw)]; exact hnew.Tw
      · rw [hfr3 _ (by intro e; rw [← e, hnew.p0] at tw; cases tw)]; exact hnew.Tp

/-- a rune that may be stored -/
structure RuneOK (lim : Lim) (r : Int) : Prop where
  good : goodRune r
  path : PathOK lim (bitsOf r)

theorem goodRune.range {r : Int} (h : goodRune r) : 0 ≤ r ∧ r < 2 ^ 31 := by
  have := h.1
  simp [validRune] at this
  omega

theorem goodRune.toRune {r : Int} (h : goodRune r) : Character.toRune (bitsOf r) = r :=
  toRune_bitsOf h.range.1 h.range.2

/-- phrases have got no continuations -/
def PFrame (σ σ' : St) : Prop := ∀ x ws, σ.tag x = .phP ws → σ'.T x = σ.T x

theorem PFrame.trans {a b c : St} (m : Mono a b) (h : PFrame a b) (h' : PFrame b c) : PFrame a c := fun x ws hx => by
  rw [h' x ws (m.tagEq hx (by simp)), h x ws hx]
theorem PFrame.same {a b : St} (hs : Same a b) : PFrame a b := fun x ws _ => by rw [hs.T]
theorem CharStep.phP {a b : St} (m : Mono a b) {q} (h : CharStep a b q) : PFrame a b := fun x ws hx =>
  h.txt x (by rw [m.tagEq hx (by simp)]; rfl)
theorem At.phP {a b : St} (m : Mono a b) {y} (h : At a b y) (hy : ∀ ws, a.tag y ≠ .phP ws) : PFrame a b := fun x ws hx =>
  h x (by rw [m.tagEq hx (by simp)]; rfl) (by rintro rfl; exact hy ws hx)

theorem valOf_prefix (q t : List Bool) : valOf q ≤ valOf (q ++ t) := by
  have key : ∀ n (t : List Bool), t.length = n → valOf q ≤ valOf (q ++ t) := by
    intro n
    induction n with
    | zero => intro t ht; rw [List.length_eq_zero_iff.1 ht, List.append_nil]; exact Nat.le_refl _
    | succ n ih =>
      intro t ht
      have hne : t ≠ [] := by intro e; simp [e] at ht
      obtain ⟨t', b, rfl⟩ : ∃ q b, t = q ++ [b] := ⟨t.dropLast, t.getLast hne, (List.dropLast_concat_getLast hne).symm⟩
      have := ih t' (by simpa using ht)
      rw [← List.append_assoc, valOf_append]
      omega
  exact key _ t rfl

/-- paths of stored characters are codes -/
theorem LexRel.canon {σ : St} {L : Lexicon} (h : LexRel σ L) {p e} (he : CharEnt σ p e) :
    bitsOf (Character.toRune p) = p := by
  obtain ⟨hn, c, _, hc⟩ := (h.char p).1 ⟨e, he⟩
  have h1 := bitsOf_prefix hn hc
  obtain ⟨t, ht⟩ := hc
  have h2 : valOf p ≤ valOf (bitsOf (rune c)) := by rw [← ht]; exact valOf_prefix p t
  have h3 : valOf (bitsOf (rune c)) = (rune c).natAbs := valOf_binDigits _ _ (Nat.le_refl _)
  have h4 := rune_range c
  rw [toRune_eq p (by omega)]
  exact h1.symm

/-- the characters seen, in any order -/
theorem LexRel.congr {σ : St} {L L' : Lexicon} (h : LexRel σ L) (hu : ∀ c, c ∈ L'.used ↔ c ∈ L.used)
    (hh : L'.heads = L.heads) (hp : L'.phrases = L.phrases) : LexRel σ L' where
  char p := by rw [h.char]; simp only [hu]
  heads c e he := by rw [hh]; exact h.heads c e he
  sub c hc := (hu c).2 (h.sub c (hh ▸ hc))
  first ws hw := by rw [hh]; exact h.first ws (hp ▸ hw)
  phr c u vs hc := by rw [hp]; exact h.phr c u vs (hh ▸ hc)
  wsib := h.wsib
  psib := h.psib

/-- what continuing the word `w`, spelling `rs`, by `qs` to `w'` does -/
structure WStep (σ σ' : St) (rs : List Int) (w : WordE) (qs : List Int) (w' : WordE) : Prop where
  frame : PFrame σ σ'
  reach : WReach σ rs w → WReach σ' (rs ++ qs) w'
  lex : ∀ u L, qs = u.map rune → LexRel σ L → LexRel σ' (L.see u)

theorem WStep.refl (σ : St) (rs w) : WStep σ σ rs w [] w where
  frame := .same (.refl σ)
  reach h := by simpa using h
  lex u L hu h := by
    cases u with
    | nil => exact h
    | cons c u => cases hu

theorem WReach.same {σ σ' : St} (hs : Same σ σ') {rs w} (h : WReach σ rs w) : WReach σ' rs w :=
  h.fwd hs.mono fun c _ => by rw [hs.T]

theorem WStep.sameL {cfg lim} {a b c : St} (ha : Inv cfg lim a) (hb : Inv cfg lim b) {rs w qs w'} (hs : Same a b)
    (h : WStep b c rs w qs w') : WStep a c rs w qs w' where
  frame := .trans hs.mono (.same hs) h.frame
  reach hw := h.reach (hw.same hs)
  lex u L hu hl := h.lex u L hu (hl.same ha hb hs)

theorem WStep.trans {a b c : St} (m : Mono a b) {rs w q w1 qs w'} (h : WStep a b rs w [q] w1)
    (h' : WStep b c (rs ++ [q]) w1 qs w') : WStep a c rs w (q :: qs) w' where
  frame := .trans m h.frame h'.frame
  reach hw := by simpa using h'.reach (h.reach hw)
  lex u L hu hl := by
    cases u with
    | nil => cases hu
    | cons c u =>
      simp only [List.map_cons, List.cons.injEq] at hu
      refine (h'.lex u _ hu.2 (h.lex [c] L (by simp [hu.1]) hl)).congr ?_ rfl rfl
      intro d
      simp only [Lexicon.see, List.mem_append, List.mem_cons, List.not_mem_nil, or_false]
      constructor
      · rintro ((h | h) | h)
        · exact .inr (.inl h)
        · exact .inl h
        · exact .inr (.inr h)
      · rintro (h | h | h)
        · exact .inl (.inr h)
        · exact .inl (.inl h)
        · exact .inr h

/-- the next character of a word -/
theorem Wr.wordNext {C : Ctx} (hR : C.R = false) (hL : C.lo = true) {σ : St} (hi : Inv C.cfg C.lim σ)
    {fuel : Nat} (hf : C.lim.L ≤ fuel) {rs w r} (hw : WordEnt σ rs w) (hr : RuneOK C.lim r)
    (hD : rs.length + 1 ≤ C.lim.D) (hO : ¬ C.lim.one) {bad} :
    Wr C (fun w' σ' => WordEnt σ' (rs ++ [r]) w' ∧ (σ.T w.word = [] → WordNew σ σ' w') ∧ WStep σ σ' rs w [r] w') bad
      (Word.provideNextElement fuel w r) σ := by
  unfold Word.provideNextElement
  refine Wr.rbind hR (good := fun l => l.Perm (σ.T w.word)) (Rd.targets hi ?_ ?_) ?_
  · rw [hw.tagW]; simp
  · intro σ2 l h2 ro hl
    rw [(ro hR).T] at hl; exact hl
  intro ids σ2 h2 hs2 hids
  refine Wr.rbind hR (Rd.wordReadAll ids h2.inv (p := rs) ?_) ?_
  · intro i hi'
    refine h2.inv.wordChild (hw.mono h2.mono) ?_
    rw [hs2.T]; exact hids.mem_iff.1 hi'
  intro cs σ3 h3 hs3 ⟨hcs, hent⟩
  have h13 := h2.trans h3
  refine Wr.rbind hR (Rd.wordSearch hf r cs h3.inv (p := rs) ?_) ?_
  · intro c hc
    obtain ⟨v', h'⟩ := hent c hc
    exact ⟨v', h'.mono h3.mono⟩
  intro o σ4 h4 hs4 ho
  have h14 := h13.trans h4
  cases o with
  | some c =>
    have hs24 := (hs2.trans hs3).trans hs4
    have hwc := ho.2.mono (hs2.trans hs3).symm.mono
    refine Wr.ret h4.inv ⟨ho.2.mono h4.mono, fun h => ?_, .same hs24, fun hw => ?_, fun u L hu hl => ?_⟩
    · rw [h] at hids
      rw [perm_nil' hids] at hcs
      rw [List.map_eq_nil_iff.1 hcs] at ho
      cases ho.1
    · refine (WReach.tail hw hwc ?_).same hs24
      apply hids.mem_iff.1
      rw [← hcs]
      exact List.mem_map_of_mem ho.1
    · match u, hu with
      | [d], hu =>
        simp only [List.map_cons, List.map_nil, List.cons.injEq, and_true] at hu
        refine (hl.again ?_).same hi h4.inv hs24
        obtain ⟨q, pth, ch, hq, hb⟩ := hwc.base
        rw [← hu, (append_one_inj hq).2, hl.canon hb.ch]
        exact ⟨ch, hb.ch⟩
  | none =>
    refine Wr.rbind hR (Rd.provideEntity h4.inv) ?_
    intro _ σ5 h5 hs5 _
    have h15 := h14.trans h5
    have hB : C.F = true → σ5.bits ≠ none := by
      intro _ hn
      obtain ⟨_, _, _, _, hb⟩ := (hw.mono h15.mono).base
      obtain ⟨bs, hbs⟩ := hb.ch.bits
      rw [hbs] at hn; cases hn
    refine Wr.lbind (Wr.charProvide hR hL h5.inv hB (collect_ok hr.good.range.1) (bitsOf_ne_nil r) hr.path) ?_
    intro a σ6 h6 ha
    have h16 := h15.trans h6
    obtain ⟨a⟩ := a
    cases a with
    | none =>
      -- the character is missing: only after a storage failure
      right
      refine Wr.bind (good := fun _ _ => False) ?_ (fun _ _ _ h => h.elim)
      unfold Word.createTailEntity
      simp only [Character.deref]
      rw [word_newEnt]
      refine Wr.bind (Wr.newEnt hR h6.inv (by decide) (wordTags (rs := rs ++ [r]) (by simpa using hD) (by simp)) (.word _)) ?_
      intro _ σ7 h7 _
      exact Wr.bind (good := fun _ _ => False) (Wr.panic h7.inv (.inl (h7.flt ha))) (fun _ _ _ h => h.elim)
    | some c =>
      obtain ⟨hac, hfl, hst⟩ := ha
      refine .inl ⟨?_, hfl⟩
      have hg : goodRune (Character.toRune (bitsOf r)) := by rw [hr.good.toRune]; exact hr.good
      refine Wr.bind (Wr.wordTail hR hL h6.inv hac hg (hw.mono h16.mono) hD) ?_
      intro w' σ7 h7 ⟨hw', hed, hnew, hat, hTp⟩
      rw [hr.good.toRune] at hw'
      have hs25 := ((hs2.trans hs3).trans hs4).trans hs5
      have hw6 := hw.mono h16.mono
      have hno : ∀ y ∈ σ6.T w.word, σ6.tag y ≠ .wdW (rs ++ [r]) := by
        intro y hy ht
        rw [hst.txt _ (by rw [hw6.tagW]; rfl), hs25.T] at hy
        obtain ⟨r', e', he', hey⟩ := hi.wordChild hw hy
        subst hey
        have := (he'.mono h16.mono).tagW
        rw [ht] at this
        injection this with this
        rw [← this] at he'
        have hm : e'.word ∈ cs.map (·.word) := by rw [hcs]; exact hids.mem_iff.2 hy
        obtain ⟨c', hc', hce⟩ := List.mem_map.1 hm
        obtain ⟨v', h'⟩ := hent c' hc'
        have he3 := he'.mono h13.mono
        have := (h'.mono h3.mono).ext he3 hce
        subst this
        exact ho c' hc' he3
      have hws : WStep σ σ7 rs w [r] w' := by
        refine .sameL hi h5.inv hs25 ⟨.trans h6.mono (hst.phP h6.mono) (hat.phP h7.mono ?_), fun hwr => ?_, fun u L hu hl => ?_⟩
        · intro ws h; rw [hw6.tagW] at h; cases h
        · refine .tail (w := w) ((hwr.fwd h6.mono ?_).fwd h7.mono ?_) hw' (by rw [hTp]; simp)
          · intro c' hc'; exact hst.txt _ (by rw [(hc'.mono h6.mono).tagW]; rfl)
          · intro c' hc'
            refine hat _ (by rw [(hc'.mono h7.mono).tagW]; rfl) ?_
            intro h; have := hc'.tagW; rw [h, hw6.tagW] at this; cases this
        · match u, hu with
          | [d], hu =>
            simp only [List.map_cons, List.map_nil, List.cons.injEq, and_true] at hu
            refine (LexRel.cont h6.inv h7.inv h7.mono (hl.see h5.inv h6.inv h6.mono (c := d) (hu ▸ hst)) hw6 hat hTp hw' hnew.w0 hnew.p0 hno).1
      refine Wr.bind (good := fun _ σ' => WordEnt σ' (rs ++ [r]) w' ∧ WordNew σ6 σ' w' ∧ WStep σ σ' rs w [r] w') ?_ ?_
      · exact wp_connect_dup hR h7.inv (h7.inv.dup.resolve_right hO) hed ⟨.refl h7.inv, ⟨hw', hnew, hws⟩, rfl⟩ fun _ h1 h2 => Wr.fault h1 h2
      · intro _ σ8 h8 hw''
        exact Wr.ret h8.inv ⟨hw''.1, fun _ => hw''.2.1.mono0 h16.mono, hw''.2.2⟩

theorem Wr.wordWalk {C : Ctx} (hR : C.R = false) (hL : C.lo = true) {fuel : Nat} (hf : C.lim.L ≤ fuel) (f0 : Bool) (N : Prop) (σ0 : St) :
    ∀ (qs : List Int) {σ : St} (_ : Inv C.cfg C.lim σ) (_ : Mono σ0 σ) {rs : List Int}
    {el : Option WordE} (_ : match el with
      | some w => WordEnt σ rs w ∧ σ.flt = f0 ∧ (N → WordNew σ0 σ w)
      | none => σ.flt = true) (_ : ∀ r ∈ qs, RuneOK C.lim r) (_ : rs.length + qs.length ≤ C.lim.D)
    (_ : C.lim.one → qs = []) {bad},
    WrL C (fun (el' : Option WordE) σ' => match el' with
      | some w => WordEnt σ' (rs ++ qs) w ∧ σ'.flt = f0 ∧ (N → WordNew σ0 σ' w) ∧
          ∃ w0, el = some w0 ∧ WStep σ σ' rs w0 qs w
      | none => σ'.flt = true) bad (Word.walk fuel el qs) σ := by
  intro qs
  induction qs with
  | nil =>
    intro σ hi _ rs el hel _ _ _ bad
    unfold Word.walk
    refine WrL.ret hi ?_
    cases el with
    | none => exact hel
    | some w => exact ⟨by simpa using hel.1, hel.2.1, hel.2.2, w, rfl, .refl _ _ _⟩
  | cons b bs ih =>
    intro σ hi m0 rs el hel hok hD hO bad
    unfold Word.walk
    have hO' : ¬ C.lim.one := fun h => by cases hO h
    match el, hel with
    | none, hfl => exact ⟨.refl hi, .inl hfl⟩
    | some e, ⟨he, hfl0, hnw⟩ =>
      refine WrL.bind ((Rd.ret (good := (· = e)) hi rfl).wr hR) ?_
      intro a σ1 h1 ⟨⟨hs1, ha⟩, hfl1⟩; subst ha
      simp only [List.length_cons] at hD
      have key := Wr.wordNext hR hL h1.inv hf (he.mono h1.mono) (hok b (by simp)) (by omega) hO' (bad := never)
      refine wp_bind (wp_attempt (wp_mono ?_ key))
      intro o σ2 ⟨h3, h4⟩
      have fin : ∀ (r : Option WordE), (match r with
          | some e' => (WordEnt σ2 (rs ++ [b]) e' ∧ σ2.flt = f0 ∧ (N → WordNew σ0 σ2 e')) ∧ WStep σ σ2 rs a [b] e'
          | none => σ2.flt = true) → wp C (WPost C σ1 (fun (el' : Option WordE) σ' => match el' with
          | some e => WordEnt σ' (rs ++ b :: bs) e ∧ σ'.flt = f0 ∧ (N → WordNew σ0 σ' e) ∧
              ∃ w0, some a = some w0 ∧ WStep σ σ' rs w0 (b :: bs) e
          | none => σ'.flt = true) bad) (Word.walk fuel r bs) σ2 := by
        intro r hr
        have := ih h3.inv ((m0.trans h1.mono).trans h3.mono) (rs := rs ++ [b]) (el := r) (by cases r with
          | none => exact hr
          | some e' => exact hr.1) (fun r hr => hok r (by simp [hr])) (by simp; omega) (fun h => (hO' h).elim) (bad := bad)
        refine wp_mono ?_ this
        intro o' σ3 ⟨h5, h6⟩
        refine ⟨h3.trans h5, ?_⟩
        cases o' with
        | ok e3 =>
          cases e3 with
          | none => exact h6
          | some e3 =>
            obtain ⟨h7, h8, h9, e', he', h10⟩ := h6
            subst he'
            exact ⟨by simpa using h7, h8, h9, a, rfl, .trans (h1.trans h3).mono hr.2 h10⟩
        | err _ => exact h6
        | panic => exact h6
        | spin => exact h6
      cases o with
      | ok el2 => exact fin (some el2) ⟨⟨h4.1.1, h4.2.trans (hfl1.trans hfl0), fun hN =>
        (h4.1.2.1 (by rw [hs1.T]; exact (hnw hN).Tw)).mono0 (m0.trans h1.mono)⟩, h4.1.2.2.sameL hi h1.inv hs1⟩
      | err e => exact fin none (h4.elim id (fun h => h.elim))
      | panic => exact ⟨h3, h4.imp id (fun h => h.elim)⟩
      | spin => exact h4.elim

/-- a word whose first character is missing or dead -/
def BadWord (σ : St) (w : GoStr) : Prop :=
  match runesOf w with
  | [] => True
  | r :: _ => Dead σ (bitsOf r)

theorem BadWord.mono {cfg lim} {σ σ' : St} (hi : Inv cfg lim σ) (m : Mono σ σ') {w} (h : BadWord σ w) :
    BadWord σ' w := by
  unfold BadWord at *
  cases hr : runesOf w with
  | nil => trivial
  | cons r rs => rw [hr] at h; exact Dead.mono hi m h

/-- a word that may be stored -/
structure WordOK (lim : Lim) (w : GoStr) : Prop where
  rune : ∀ r ∈ runesOf w, RuneOK lim r
  len : (runesOf w).length ≤ lim.D
  one : lim.one → (runesOf w).length ≤ 1

/-- no stored character continues the first character of `w` -/
def LeafWord (lim : Lim) (w : GoStr) : Prop :=
  match runesOf w with
  | [] => False
  | r :: _ => ∀ b, ¬ lim.path (bitsOf r ++ [b])

theorem CharEnt.leaf {cfg lim} {σ : St} (hi : Inv cfg lim σ) {p e} (he : CharEnt σ p e)
    (h : ∀ b, ¬ lim.path (p ++ [b])) : σ.T e.character = [] := by
  cases hT : σ.T e.character with
  | nil => rfl
  | cons y l =>
    obtain ⟨v, e', he', _⟩ := hi.charChild he (y := y) (by rw [hT]; simp)
    exact absurd (he'.path hi) (h v)

/-! ### words and the lexicon -/

/-- the character `c` begins other codes and has one word; this does not change any more -/
def Fixed (L : Lexicon) (c : Char) : Prop := L.branches c ≠ 0 ∧ L.heads.count c = 1

theorem Lexicon.branches_mono {L L' : Lexicon} (h : ∀ b ∈ L.used, b ∈ L'.used) {c : Char} (hc : L.branches c ≠ 0) :
    L'.branches c ≠ 0 := by
  unfold Lexicon.branches at *
  intro h0
  apply hc
  rw [List.length_eq_zero_iff, List.filter_eq_nil_iff] at h0 ⊢
  intro d hd hb
  apply h0 d hd
  simp only [List.any_eq_true] at hb ⊢
  obtain ⟨b, h1, h2⟩ := hb
  exact ⟨b, h b h1, h2⟩

theorem Lexicon.word_used (L : Lexicon) (u : List Char) : ∀ b ∈ L.used, b ∈ (L.word u).1.used := by
  intro b hb
  cases u with
  | nil => exact hb
  | cons c u =>
    simp only [Lexicon.word]
    split <;> simp [Lexicon.see, Lexicon.enter, hb]

theorem Lexicon.word_heads (L : Lexicon) (u : List Char) (c : Char) :
    L.heads.count c ≤ (L.word u).1.heads.count c := by
  cases u with
  | nil => exact Nat.le_refl _
  | cons d u =>
    simp only [Lexicon.word]
    split
    · exact List.Sublist.count_le c (List.sublist_cons_self _ _)
    · exact Nat.le_refl _
    · exact Nat.le_refl _

theorem Fixed.see {L : Lexicon} {c : Char} (h : Fixed L c) (u : List Char) : Fixed (L.see u) c :=
  ⟨Lexicon.branches_mono (by simp [Lexicon.see]; intro b hb; exact .inr hb) h.1, h.2⟩

theorem Fixed.word {L : Lexicon} {c : Char} (h : Fixed L c) (u : List Char) : Fixed (L.word u).1 c := by
  refine ⟨Lexicon.branches_mono (Lexicon.word_used L u) h.1, ?_⟩
  cases u with
  | nil => exact h.2
  | cons d u =>
    simp only [Lexicon.word]
    split
    · next hs =>
      have hne : d ≠ c := by
        rintro rfl
        have := (h.see [d]).1
        unfold Lexicon.start at hs
        rw [if_neg this] at hs
        split at hs <;> cases hs
      show (d :: L.heads).count c = 1
      rw [List.count_cons_of_ne hne]
      exact h.2
    · exact h.2
    · exact h.2

/-- what providing the first character of a word does, in terms of the lexicon -/
def FirstDone (σ σ' : St) (L : Lexicon) (c : Char) (w : WordE) : Prop :=
  ((L.see [c]).start c = .fresh ∧ LexRel σ' ((L.see [c]).enter c) ∧ WordNew σ σ' w ∧
    (((L.see [c]).enter c).heads.count c = 1 → WReach σ' [rune c] w)) ∨
  ((L.see [c]).start c = .known ∧ LexRel σ' (L.see [c]) ∧ L.heads.count c = 1 ∧ WReach σ' [rune c] w)

/-- what providing a word does, in terms of the lexicon -/
structure WordDone (σ σ' : St) (L : Lexicon) (c : Char) (u : List Char) (s : Start) (w : WordE) : Prop where
  eq : (L.word (c :: u)).2 = some s
  rel : LexRel σ' (L.word (c :: u)).1
  mem : c ∈ (L.word (c :: u)).1.heads
  new : s = .fresh → WordNew σ σ' w
  old : s ≠ .fresh → Fixed (L.word (c :: u)).1 c
  reach : (L.word (c :: u)).1.heads.count c = 1 → WReach σ' ((c :: u).map rune) w

def wordErr (σ0 : St) (w : GoStr) : Bool → St → Prop := fun b σ => b = false ∧ BadWord σ w ∧
  ∀ L u, w = stringOf (u.map rune) → LexRel σ0 L → (L.word u).2 = none ∧ LexRel σ (L.word u).1

theorem wordErr.sameL {cfg lim} {a b : St} (ha : Inv cfg lim a) (hb : Inv cfg lim b) (hs : Same a b) {w x σ}
    (h : wordErr b w x σ) : wordErr a w x σ :=
  ⟨h.1, h.2.1, fun L u hu hl => h.2.2 L u hu (hl.same ha hb hs)⟩

theorem runesOf_chars (u : List Char) : runesOf (stringOf (u.map rune)) = u.map rune := by
  refine runesOf_stringOf ?_
  intro r hr
  obtain ⟨c, _, rfl⟩ := List.mem_map.1 hr
  exact char_valid c

theorem Wr.wordProvide {C : Ctx} (hR : C.R = false) (hL : C.lo = true) {σ : St} (hi : Inv C.cfg C.lim σ)
    (hB : C.F = true → σ.bits ≠ none) {fuel : Nat} (hf : C.lim.L ≤ fuel) {w : GoStr} (hw : WordOK C.lim w) :
    Wr C (fun e σ' => WordEnt σ' (runesOf w) e ∧ ¬ BadWord σ w ∧ (LeafWord C.lim w → WordNew σ σ' e) ∧ PFrame σ σ' ∧
        ∀ L u, w = stringOf (u.map rune) → LexRel σ L → ∃ c v s, u = c :: v ∧ WordDone σ σ' L c v s e) (wordErr σ w)
      (Word.provide fuel w) σ := by
  unfold Word.provide
  have hrune := hw.rune
  have hlen := hw.len
  have hone := hw.one
  cases hrs : runesOf w with
  | nil =>
    refine Wr.err hi ⟨rfl, by unfold BadWord; rw [hrs]; trivial, fun L u hu hl => ?_⟩
    rw [hu, runesOf_chars, List.map_eq_nil_iff] at hrs
    subst hrs
    exact ⟨rfl, hl⟩
  | cons r rs =>
    rw [hrs] at hrune hlen hone
    have hr := hrune r (by simp)
    have hbad : ∀ σ, BadWord σ w ↔ Dead σ (bitsOf r) := by intro σ; unfold BadWord; rw [hrs]
    simp only [List.length_cons] at hlen
    have hleaf : LeafWord C.lim w → ∀ b, ¬ C.lim.path (bitsOf r ++ [b]) := by unfold LeafWord; rw [hrs]; exact id
    have hsplit : ∀ u : List Char, w = stringOf (u.map rune) → ∃ c v, u = c :: v ∧ r = rune c ∧ rs = v.map rune := by
      intro u hu
      rw [hu, runesOf_chars] at hrs
      cases u with
      | nil => cases hrs
      | cons c v =>
        simp only [List.map_cons, List.cons.injEq] at hrs
        exact ⟨c, v, rfl, hrs.1.symm, hrs.2.symm⟩
    have key : Wr C (fun e σ' => WordEnt σ' [r] e ∧ ¬ Dead σ (bitsOf r) ∧ (LeafWord C.lim w → WordNew σ σ' e) ∧
          PFrame σ σ' ∧ ∀ L c, r = rune c → LexRel σ L → FirstDone σ σ' L c e) (wordErr σ w)
        (Word.provideFirstElement r) σ := by
      unfold Word.provideFirstElement
      refine Wr.lbind (Wr.charProvide hR hL hi hB (collect_ok hr.good.range.1) (bitsOf_ne_nil r) hr.path) ?_
      intro a σ1 h1 ha
      obtain ⟨a⟩ := a
      cases a with
      | none =>
        right
        refine Wr.rbind hR (Rd.provideEntity h1.inv) ?_
        intro _ σ2 h2 hs2 _
        unfold Word.provideHeadEntity
        exact Wr.bind (good := fun _ _ => False) (Wr.panic h2.inv (.inl (h2.flt ha))) (fun _ _ _ h => h.elim)
      | some c =>
        obtain ⟨hac, hfl, hst⟩ := ha
        refine .inl ⟨?_, hfl⟩
        refine Wr.rbind hR (Rd.provideEntity h1.inv) ?_
        intro _ σ2 h2 hs2 _
        have hg : goodRune (Character.toRune (bitsOf r)) := by rw [hr.good.toRune]; exact hr.good
        have hc2 := hac.mono h2.mono
        have h12 := h1.trans h2
        have hst2 := hst.sameR hs2
        have hsee : ∀ L d, r = rune d → LexRel σ L → LexRel σ2 (L.see [d]) := fun L d hd hl =>
          hl.see hi h2.inv h12.mono (hd ▸ hst2)
        refine Wr.cons (Wr.wordHead hR hL h2.inv hc2 hg (by omega)) ?_ ?_
        · intro e σ3 h3 ⟨he, hd, hdone⟩
          rw [hr.good.toRune] at he
          refine ⟨he, fun h => hd (h.mono hi (h12.trans h3).mono), fun hl => ?_, .trans h12.mono (hst2.phP h12.mono) ?_,
            fun L d hd hl => ?_⟩
          · rcases hdone with ⟨_, _, _, h⟩ | ⟨y, h, _⟩
            · exact h.mono0 h12.mono
            · rw [hc2.leaf h2.inv (hleaf hl)] at h; cases h
          · rcases hdone with ⟨_, h, _⟩ | ⟨_, _, _, h⟩
            · refine h.phP h3.mono ?_
              intro ws h; rw [hc2.tagW] at h; cases h
            · exact .same h
          · have hl2 := hsee L d hd hl
            subst hd
            rcases hdone with ⟨hT, hat, hTw, hnew⟩ | ⟨y, hT, hW, hs⟩
            · refine .inl ⟨hl2.fresh h2.inv hc2 hT,
                hl2.enter h2.inv h3.inv h3.mono (by simp [Lexicon.see]) hc2 hat hTw he hnew.w0 hnew.p0, hnew.mono0 h12.mono, ?_⟩
              intro hcnt
              have h0 : L.heads.count d = 0 := by
                simp only [Lexicon.enter, Lexicon.see, List.count_cons_self] at hcnt
                omega
              have := hl2.heads d _ hc2
              simp only [Lexicon.see] at this
              rw [h0, List.length_eq_zero_iff] at this
              exact .head (hc2.mono h3.mono) (by rw [hTw, this]) he
            · obtain ⟨hk, hcnt⟩ := hl2.known h2.inv hc2 hT hW
              exact .inr ⟨hk, hl2.same h2.inv h3.inv hs, hcnt, .head (hc2.mono h3.mono) (by rw [hs.T, hW]) he⟩
        · intro b σ3 h3 ⟨hb, hd, hs3⟩
          refine ⟨hb, (hbad _).2 hd, fun L u hu hl => ?_⟩
          obtain ⟨d, v, rfl, hd', _⟩ := hsplit u hu
          have hl3 := (hsee L d hd' hl).same h2.inv h3.inv hs3
          simp only [Lexicon.word, hl3.dead h3.inv (hd' ▸ hd)]
          exact ⟨trivial, hl3⟩
    refine Wr.bind key ?_
    intro e σ1 h1 ⟨he, hd, hnew, hpf, hfst⟩
    refine Wr.lbind (Wr.wordWalk hR hL hf σ1.flt (WordNew σ σ1 e) σ rs h1.inv h1.mono (rs := [r]) (el := some e)
      ⟨he, rfl, id⟩ (fun r hr => hrune r (by simp [hr]))
      (by simp; omega) (fun h => by have := hone h; simpa using this)) ?_
    intro el σ2 h2 hel
    cases el with
    | none => exact .inr ⟨.refl h2.inv, .inl hel⟩
    | some e' =>
      obtain ⟨hel, hfl, hN, w0, hw0, hst⟩ := hel
      cases hw0
      refine .inl ⟨Wr.ret h2.inv ⟨hel, fun h => hd ((hbad _).1 h), fun hl => hN (hnew hl), .trans h1.mono hpf hst.frame,
        fun L u hu hl => ?_⟩, hfl⟩
      obtain ⟨c, v, rfl, hc, hv⟩ := hsplit u hu
      subst hc hv
      rcases hfst L c rfl hl with ⟨hs, hl1, hn, hre⟩ | ⟨hs, hl1, hcnt, hre⟩
      · have e2 : L.word (c :: v) = (((L.see [c]).enter c).see v, some .fresh) := by simp only [Lexicon.word, hs]
        refine ⟨c, v, .fresh, rfl, by rw [e2], ?_, ?_, fun _ => hN hn, fun h => absurd rfl h, fun h => ?_⟩
        · rw [e2]; exact hst.lex v _ rfl hl1
        · rw [e2]; simp [Lexicon.see, Lexicon.enter]
        · rw [e2] at h
          exact hst.reach (hre h)
      · have e2 : L.word (c :: v) = ((L.see [c]).see v, some .known) := by simp only [Lexicon.word, hs]
        have hcnt' : ((L.see [c]).see v).heads.count c = 1 := hcnt
        refine ⟨c, v, .known, rfl, by rw [e2], ?_, ?_, (fun h => by cases h), fun _ => ?_, fun h => hst.reach hre⟩
        · rw [e2]; exact hst.lex v _ rfl hl1
        · rw [e2]; exact List.count_pos_iff.1 (by rw [hcnt']; exact Nat.one_pos)
        · rw [e2]
          refine Fixed.see (L := L.see [c]) ⟨?_, hcnt⟩ v
          intro h0
          unfold Lexicon.start at hs
          rw [if_pos h0] at hs
          cases hs

end Semnet
