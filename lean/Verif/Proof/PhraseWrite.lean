import Verif.Proof.WordWrite
import Verif.Proof.Utf8
/-
  Providing phrases.
-/
set_option linter.unusedSimpArgs false
namespace Semnet
open Class Spec

/-! ### search among the continuations -/

theorem Rd.phraseReadAll {C : Ctx} : ∀ (ids : List Nat) {σ : St} (_ : Inv C.cfg C.lim σ) {p : List (List Int)}
    (_ : ∀ i ∈ ids, ∃ v e', PhraseEnt σ (p ++ [v]) e' ∧ e'.phrase = i),
    Rd C (fun cs => cs.map (·.phrase) = ids ∧ ∀ c ∈ cs, ∃ v, PhraseEnt σ (p ++ [v]) c) (Phrase.readAll ids) σ := by
  intro ids
  induction ids with
  | nil => intro σ hi p _; exact Rd.ret hi ⟨rfl, by simp⟩
  | cons i is ih =>
    intro σ hi p h
    unfold Phrase.readAll
    obtain ⟨v, e', he', hc⟩ := h i (by simp)
    subst hc
    refine Rd.bind (Rd.phraseByPhrase hi he') ?_
    intro a σ1 h1 _ ha; subst ha
    refine Rd.bind (good := fun cs => cs.map (·.phrase) = is ∧ ∀ c ∈ cs, ∃ v, PhraseEnt σ (p ++ [v]) c) ?_ ?_
    · refine Rd.cons (ih h1.inv (p := p) ?_) ?_
      · intro i hi'
        obtain ⟨v, e', h2, h3⟩ := h i (by simp [hi'])
        exact ⟨v, e', h2.mono h1.mono, h3⟩
      · intro cs ⟨h2, h3⟩
        refine ⟨h2, ?_⟩
        intro c hc
        have hm : c.phrase ∈ is := by rw [← h2]; exact List.mem_map_of_mem hc
        obtain ⟨v, e', h4, h5⟩ := h c.phrase (by simp [hm])
        obtain ⟨v', h6⟩ := h3 c hc
        have := h6.ext (h4.mono h1.mono) h5.symm
        subst this
        exact ⟨v, h4⟩
    · intro cs σ2 h2 _ ⟨h3, h4⟩
      refine Rd.ret h2.inv ⟨by simp [h3], ?_⟩
      intro c hc
      rcases List.mem_cons.1 hc with rfl | hc
      · exact ⟨v, he'⟩
      · exact h4 c hc

theorem runesOf_good {rs : List Int} (h : ∀ r ∈ rs, goodRune r) : runesOf (stringOf rs) = rs :=
  runesOf_stringOf (fun r hr => (h r hr).1)

theorem Rd.phraseSearch {C : Ctx} {fuel : Nat} (hf : C.lim.L ≤ fuel) (hD : C.lim.D ≤ fuel) (w : GoStr) :
    ∀ (cs : List PhraseE) {σ : St}
    (_ : Inv C.cfg C.lim σ) {p : List (List Int)} (_ : ∀ c ∈ cs, ∃ v, PhraseEnt σ (p ++ [v]) c),
    Rd C (fun o => match o with
      | some c => c ∈ cs ∧ PhraseEnt σ (p ++ [runesOf w]) c
      | none => stringOf (runesOf w) = w → ∀ c ∈ cs, ¬ PhraseEnt σ (p ++ [runesOf w]) c)
      (Phrase.search fuel w cs) σ := by
  intro cs
  induction cs with
  | nil => intro σ hi p _; exact Rd.ret hi (by simp)
  | cons c cs ih =>
    intro σ hi p h
    unfold Phrase.search
    obtain ⟨v, hc⟩ := h c (by simp)
    obtain ⟨q, rs, ch, hq, hb⟩ := hc.base
    have hv : v = rs := by simp at hq; exact hq.2
    subst hv
    refine Rd.bind (Rd.extractWordValue hi hb hf hD) ?_
    intro a σ1 h1 _ ha
    rw [ha]
    by_cases hbv : w = stringOf v
    · rw [if_pos hbv, hbv]
      rw [runesOf_good hb.wd.good]
      exact Rd.ret h1.inv ⟨by simp, hc⟩
    · rw [if_neg hbv]
      refine Rd.cons (ih h1.inv (p := p) ?_) ?_
      · intro c' hc'
        obtain ⟨v', h'⟩ := h c' (by simp [hc'])
        exact ⟨v', h'.mono h1.mono⟩
      · intro o ho
        cases o with
        | none =>
          intro hval c' hc' hbad
          rcases List.mem_cons.1 hc' with rfl | hc'
          · have := (append_one_inj (hc.words_eq hbad)).2
            exact hbv (by rw [this, hval])
          · exact ho hval c' hc' (hbad.mono h1.mono)
        | some c' =>
          refine ⟨by simp [ho.1], ?_⟩
          obtain ⟨v', h'⟩ := h c' (by simp [ho.1])
          have := (h'.mono h1.mono).words_eq ho.2
          rw [← this]; exact h'

/-! ### creating -/

theorem phraseTags {lim : Lim} {ws : List (List Int)} (hp : ws.length ≤ lim.D) (hn : ws ≠ []) :
    EntTags lim .phW (.phP ws) .phD := by
  constructor <;> first | rfl | (constructor <;> simp [TagOK, hp, hn]) | simp

theorem phrase_newEnt (f : PhraseE → Go α) :
    (do let cls ← Class.createNode phraseId; let e ← Phrase.createEntity cls; f e) =
    (newEnt phraseId >>= fun r => f ⟨r.1, r.2.1, r.2.2.1, r.2.2.2⟩) := by
  simp only [newEnt, mk4, Phrase.createEntity, bind_assoc, pure_bind]

/-- a new phrase that is connected to its word only -/
structure PhrasePre (σ : St) (ws : List (List Int)) (rs : List Int) (w : WordE) (e : PhraseE) : Prop where
  base : PhraseBase σ e ws rs w
  S : σ.S e.phrase = []
  Sw : σ.S e.word = []

/-- the phrase was made since `σ0`, and nothing has been added to it -/
structure PhraseNew (σ0 σ : St) (e : PhraseE) : Prop where
  p0 : σ0.tag e.phrase = .none
  d0 : σ0.tag e.detail = .none
  Tp : σ.T e.phrase = []
  Td : σ.T e.detail = []
  Sd : σ.S e.detail = []

theorem PhraseNew.mono0 {σ0 σ1 σ : St} {w : PhraseE} (h : PhraseNew σ1 σ w) (m : Mono σ0 σ1) : PhraseNew σ0 σ w :=
  ⟨m.tagNone h.p0, m.tagNone h.d0, h.Tp, h.Td, h.Sd⟩

theorem PhraseNew.same {σ0 σ σ' : St} {w : PhraseE} (h : PhraseNew σ0 σ w) (hs : Same σ σ') : PhraseNew σ0 σ' w :=
  ⟨h.p0, h.d0, by rw [hs.T]; exact h.Tp, by rw [hs.T]; exact h.Td, by rw [hs.S]; exact h.Sd⟩

/-- new phrase nodes, connected to the word -/
theorem Wr.phrasePre {C : Ctx} (hR : C.R = false) {σ : St} (hi : Inv C.cfg C.lim σ) {ws rs w}
    (hc : WordEnt σ rs w) (hl : ws.length ≤ C.lim.D) (hn : ws ≠ []) {bad} :
    Wr C (fun e σ' => PhrasePre σ' ws rs w e ∧ (∀ x, σ.tag x ≠ .none → σ'.T x = σ.T x) ∧ PhraseNew σ σ' e ∧
      Froz σ σ') bad (do
        let cls ← Class.createNode phraseId
        let e ← Phrase.createEntity cls
        Go.connect e.word w.phrase
        pure e) σ := by
  rw [phrase_newEnt]
  refine Wr.bind (Wr.newEnt hR hi (by decide) (phraseTags hl hn) (.phrase _)) ?_
  intro r σ2 h2 hn
  obtain ⟨n, a, b, d⟩ := r
  simp only at hn ⊢
  have hc2 := hc.mono h2.mono
  have k : ConnOK σ2 a w.phrase := by
    constructor
    · intro h; have := mem_T.2 h; rw [hn.Ta] at this; cases this
    · intro _; exact hn.Ta
    · rw [hn.ta]; rfl
    · rw [hc2.tagP]; simp [Tag.scrit]
    · rw [hc2.tagP]; rfl
    · rw [hc2.tagP]; simp
    · rw [hn.ta]; simp
    · intro h; have := hc2.tagP; rw [h, (h2.inv.root bitId).2 (by decide)] at this; cases this
  refine Wr.bind (Wr.connect hR h2.inv k ?_ ?_ ?_ hn.chain.ab.hy ?_) ?_
  · simp only [EdgeOK, tag_conn, hn.ta, hc2.tagP]
  · rw [hn.ta]; simp
  · rw [hc2.tagP]; simp
  · rw [hn.ta]; simp
  intro _ σ3 h3 ⟨c', e3⟩
  subst e3
  have hca : w.phrase ≠ a := by intro h; have := hc2.tagP; rw [h, hn.ta] at this; cases this
  have hcb : b ≠ w.phrase := by intro h; have := hc2.tagP; rw [← h, hn.tb] at this; cases this
  refine Wr.ret h3.inv ⟨⟨⟨hn.chain.mono h3.mono, hn.ta, hn.tb, hn.tc, hc2.mono h3.mono, ?_⟩, ?_, ?_⟩, ?_, ?_,
    hn.froz.trans h2.inv h2.mono h3.mono (.conn (by rw [hn.ta]; rfl))⟩
  · rw [T_conn, if_pos rfl, hn.Ta]
  · rw [S_conn, if_neg hcb]; exact hn.Sb
  · rw [S_conn, if_neg (Ne.symm hca)]; exact hn.Sa
  · intro x hx
    rw [T_conn, if_neg, hn.frT x hx]
    intro e; rw [e, hn.fa] at hx; exact hx rfl
  · refine ⟨hn.fb, hn.fc, ?_, ?_, ?_⟩
    · rw [T_conn, if_neg]
      · exact hn.Tb
      · intro e; have h' : σ2.tag b = _ := hn.tb; rw [show b = a from e, hn.ta] at h'; cases h'
    · rw [T_conn, if_neg]
      · exact hn.Tc
      · intro e; have h' : σ2.tag d = _ := hn.tc; rw [show d = a from e, hn.ta] at h'; cases h'
    · rw [S_conn, if_neg]
      · exact hn.Sc
      · intro e; have h' : σ2.tag d = _ := hn.tc; rw [show d = w.phrase from e, hc2.tagP] at h'; cases h'

theorem Wr.phraseHeadLink {C : Ctx} (hR : C.R = false) (hL : C.lo = true) {σ : St} (hi : Inv C.cfg C.lim σ) {rs w e}
    (h : PhrasePre σ [rs] rs w e) (hT : σ.T w.phrase = []) {bad} :
    Wr C (fun _ σ' => PhraseEnt σ' [rs] e ∧ (∀ x, x ≠ w.phrase → σ'.T x = σ.T x) ∧
      (∀ x, x ≠ e.word → σ'.S x = σ.S x) ∧ σ'.T w.phrase = [e.word]) bad (Go.connect w.phrase e.word) σ := by
  have hc := h.base.wd
  have ent0 : PhraseEnt σ [rs] e := .head h.base h.S
  have k : ConnOK σ w.phrase e.word := by
    constructor
    · intro h'; have := mem_S.2 h'; rw [h.Sw] at this; cases this
    · intro _; exact hT
    · rw [hc.tagP]; rfl
    · rw [h.base.tw]; simp [Tag.scrit]
    · rw [h.base.tw]; rfl
    · rw [h.base.tw]; simp
    · rw [hc.tagP]; simp
    · intro hh; have := h.base.tw; rw [hh, (hi.root bitId).2 (by decide)] at this; cases this
  have m := Mono.conn (cfg := C.cfg) k
  refine Wr.cons (Wr.connect hR hi k ?_ ?_ ?_ hc.chain.cd.hy ?_) ?_ (fun _ _ _ h => h)
  · simp only [EdgeOK, tag_conn, hc.tagP, h.base.tw]
    refine ⟨rs, w, e, hc.mono m, rfl, ent0.mono m, rfl, ?_⟩
    rw [T_conn, if_neg (fun hh => by have := h.base.tw; rw [hh, hc.tagP] at this; cases this)]
    exact h.base.Tw
  · rw [hc.tagP]; simp
  · rw [h.base.tw]; simp
  · rw [hc.tagP]; simp [hL]
  · intro _ σ2 h2 ⟨c', e2⟩; subst e2
    have m := m.trans (.conn_conn _ c' _ _ _)
    exact ⟨ent0.mono m, fun x hx => by rw [T_conn, if_neg hx], fun x hx => by rw [S_conn, if_neg hx],
      by rw [T_conn, if_pos rfl, hT]⟩

theorem Wr.phraseTailLink {C : Ctx} (hR : C.R = false) (hL : C.lo = true) {σ : St} (hi : Inv C.cfg C.lim σ) {ws rs w e prev}
    (h : PhrasePre σ (ws ++ [rs]) rs w e) (hprev : PhraseEnt σ ws prev) {bad} :
    Wr C (fun _ σ' => PhraseEnt σ' (ws ++ [rs]) e ∧ (∀ x, x ≠ prev.phrase → σ'.T x = σ.T x) ∧
      (∀ x, x ≠ e.phrase → σ'.S x = σ.S x) ∧ σ'.T prev.phrase = e.phrase :: σ.T prev.phrase) bad (Go.connect prev.phrase e.phrase) σ := by
  have hne := hprev.ne_nil
  have k : ConnOK σ prev.phrase e.phrase := by
    constructor
    · intro h'; have := mem_S.2 h'; rw [h.S] at this; cases this
    · rw [hprev.tagP]; simp [Tag.tcrit]
    · rw [hprev.tagP]; rfl
    · intro _; exact h.S
    · rw [h.base.tp]
      match ws, hne with
      | a :: q, _ => cases q <;> rfl
    · rw [h.base.tp]; simp
    · rw [hprev.tagP]; simp
    · intro hh; have := h.base.tp; rw [hh, (hi.root bitId).2 (by decide)] at this; cases this
  have m := Mono.conn (cfg := C.cfg) k
  have ent : PhraseEnt (σ.conn C.cfg prev.phrase e.phrase) (ws ++ [rs]) e := by
    refine .tail (hprev.mono m) ⟨h.base.chain.conn, h.base.tw, h.base.tp, h.base.td, h.base.wd.mono m, ?_⟩ ?_
    · rw [T_conn, if_neg]
      · exact h.base.Tw
      · intro he; have := h.base.tw; rw [he, hprev.tagP] at this; cases this
    · rw [S_conn, if_pos rfl, h.S]
  refine Wr.cons (Wr.connect hR hi k ?_ ?_ ?_ hprev.chain.bc.hy ?_) ?_ (fun _ _ _ h => h)
  · simp only [EdgeOK, tag_conn, hprev.tagP, h.base.tp]
    exact ⟨ws, _, prev, e, hprev.mono m, rfl, ent, rfl⟩
  · rw [hprev.tagP]; simp
  · rw [h.base.tp]; simp
  · rw [hprev.tagP]; simp [hL]
  · intro _ σ2 _ ⟨c', e2⟩; subst e2
    exact ⟨ent.mono (.conn_conn _ c' _ _ _), fun x hx => by rw [T_conn, if_neg hx], fun x hx => by rw [S_conn, if_neg hx],
      by rw [T_conn, if_pos rfl]⟩

/-- how a word is turned into a phrase: a new phrase, or the one there is -/
def PHeadDone (σ σ' : St) (w : WordE) (e : PhraseE) : Prop :=
  (σ.T w.phrase = [] ∧ At σ σ' w.phrase ∧ σ'.T w.phrase = [e.word] ∧ PhraseNew σ σ' e) ∨
  (σ.T w.phrase = [e.word] ∧ Same σ σ')

theorem Wr.phraseHead {C : Ctx} (hR : C.R = false) (hL : C.lo = true) {σ : St} (hi : Inv C.cfg C.lim σ) {rs w}
    (hc : WordEnt σ rs w) (hD : 1 ≤ C.lim.D) {bad} :
    Wr C (fun e σ' => PhraseEnt σ' [rs] e ∧ PHeadDone σ σ' w e) bad
      (Phrase.provideHeadEntity w) σ := by
  unfold Phrase.provideHeadEntity
  have rdT : ∀ σ2, Inv C.cfg C.lim σ2 → Same σ σ2 →
      Rd C (fun l => l.Perm (σ.T w.phrase)) (Go.readTargets w.phrase) σ2 := by
    intro σ2 hi2 hs2
    refine Rd.targets hi2 (by rw [(hc.mono hs2.mono).tagP]; simp) ?_
    intro σ3 l h3 ro hl
    rw [(ro hR).T, hs2.T] at hl; exact hl
  have hlen := hi.tcrit w.phrase (by rw [hc.tagP]; rfl)
  match hT : σ.T w.phrase with
  | [] =>
    refine Wr.rbind hR (good := (· = false)) ?_ ?_
    · unfold Word.hasTargetPhrase
      refine Rd.bind (rdT σ hi (.refl _)) ?_
      intro l σ2 h2 _ hl
      rw [hT] at hl
      rw [perm_nil' hl]
      exact Rd.ret h2.inv rfl
    intro b σ2 h2 hs2 hb; subst hb
    simp only [Bool.false_eq_true, if_false]
    have := Wr.phrasePre hR h2.inv (ws := [rs]) (hc.mono h2.mono) (by simpa using hD) (by simp)
      (bad := bad)
    have := Wr.bind this (good' := fun e σ' => PhraseEnt σ' [rs] e ∧ PHeadDone σ σ' w e)
      (f := fun e => do Go.connect w.phrase e.word; pure e) ?_
    · simpa only [bind_assoc, pure_bind] using this
    · intro e σ3 h3 ⟨hpre, hfr, hnew, hz⟩
      refine Wr.bind (Wr.phraseHeadLink hR hL h3.inv hpre ?_) ?_
      · rw [hfr _ (by rw [(hc.mono h2.mono).tagP]; simp), hs2.T, hT]
      · intro _ σ4 h4 ⟨he, fT, fS, hTw⟩
        have tw := (hc.mono (h2.trans h3).mono).tagP
        have tp := hpre.base.tp
        have td := hpre.base.td
        refine Wr.ret h4.inv ⟨he, .inl ⟨hT, .sameL hs2 (.of h3.inv h3.mono h4.mono hz fT), hTw,
          PhraseNew.mono0 (σ1 := σ2) ⟨hnew.p0, hnew.d0, ?_, ?_, ?_⟩ h2.mono⟩⟩
        · rw [fT _ (by intro e; rw [e, tw] at tp; cases tp)]; exact hnew.Tp
        · rw [fT _ (by intro e; rw [e, tw] at td; cases td)]; exact hnew.Td
        · rw [fS _ (by intro e; rw [e, hpre.base.tw] at td; cases td)]; exact hnew.Sd
  | [y] =>
    refine Wr.rbind hR (good := (· = true)) ?_ ?_
    · unfold Word.hasTargetPhrase
      refine Rd.bind (rdT σ hi (.refl _)) ?_
      intro l σ2 h2 _ hl
      rw [hT] at hl
      rw [perm_one hl]
      exact Rd.ret h2.inv rfl
    intro b σ2 h2 hs2 hb; subst hb
    simp only [if_true]
    refine Wr.rbind hR (good := (· = y)) ?_ ?_
    · unfold Word.getTargetPhrase
      refine Rd.bind (rdT σ2 h2.inv hs2) ?_
      intro l σ3 h3 _ hl
      rw [hT] at hl
      rw [perm_one hl]
      exact Rd.ret h3.inv rfl
    intro b σ3 h3 hs3 hb; subst hb
    have hc3 := hc.mono (h2.trans h3).mono
    obtain ⟨e, he, hew⟩ := h3.inv.wordPhrase hc3 (y := b) (by rw [hs3.T, hs2.T, hT]; simp)
    rw [← hew]
    refine ((Rd.phraseByWord h3.inv he).wr hR).cons ?_ (fun _ _ _ h => h)
    intro b σ4 h4 ⟨hs4, hb⟩
    subst hb
    exact ⟨he.mono h4.mono, .inr ⟨by rw [hT, hew], (hs2.trans hs3).trans hs4⟩⟩
  | _ :: _ :: _ => rw [hT] at hlen; simp at hlen

theorem Wr.phraseTail {C : Ctx} (hR : C.R = false) (hL : C.lo = true) {σ : St} (hi : Inv C.cfg C.lim σ) {ws rs w prev}
    (hc : WordEnt σ rs w) (hprev : PhraseEnt σ ws prev)
    (hD : ws.length + 1 ≤ C.lim.D) {bad} :
    Wr C (fun e σ' => PhraseEnt σ' (ws ++ [rs]) e ∧ PhraseNew σ σ' e ∧ At σ σ' prev.phrase ∧
      σ'.T prev.phrase = e.phrase :: σ.T prev.phrase) bad
      (Phrase.createTailEntity w prev) σ := by
  have := Wr.phrasePre hR hi (ws := ws ++ [rs]) hc (by simpa using hD) (by simp) (bad := bad)
  have := Wr.bind this (good' := fun e σ' => PhraseEnt σ' (ws ++ [rs]) e ∧ PhraseNew σ σ' e ∧
      At σ σ' prev.phrase ∧ σ'.T prev.phrase = e.phrase :: σ.T prev.phrase)
    (f := fun e => do Go.connect prev.phrase e.phrase; pure e) ?_
  · unfold Phrase.createTailEntity
    simpa only [bind_assoc, pure_bind] using this
  · intro e' σ2 h2 ⟨hpre, hfr, hnew, hz⟩
    refine Wr.bind (Wr.phraseTailLink hR hL h2.inv hpre (hprev.mono h2.mono)) ?_
    · intro _ σ3 h3 ⟨he, fT, fS, hTp⟩
      have tw := (hprev.mono h2.mono).tagP
      have tp := hpre.base.tp
      have td := hpre.base.td
      have hne : e'.phrase ≠ prev.phrase := by
        intro e
        rw [e, tw] at tp
        injection tp with tp
        have := congrArg List.length tp
        simp at this
      refine Wr.ret h3.inv ⟨he, ⟨hnew.p0, hnew.d0, ?_, ?_, ?_⟩, .of h2.inv h2.mono h3.mono hz fT,
        by rw [hTp, hfr _ (by rw [hprev.tagP]; simp)]⟩
      · rw [fT _ hne]; exact hnew.Tp
      · rw [fT _ (by intro e; rw [e, tw] at td; cases td)]; exact hnew.Td
      · rw [fS _ (by intro e; rw [e, tp] at td; cases td)]; exact hnew.Sd

/-! ### phrases and the lexicon -/

/-- the string spelled by characters -/
abbrev strOf (u : List Char) : GoStr := stringOf (u.map rune)

theorem stringOf_runesOf_chars {w : GoStr} {u : List Char} (h : w = strOf u) : stringOf (runesOf w) = w := by
  rw [h, runesOf_chars]

/-- the lexicon after looking up or entering one more word of a phrase, and whether the word was accepted -/
def Lexicon.next (new : Bool) (l : Lexicon) (before : List (List Char)) (v : List Char) : Lexicon × Bool :=
  if !new && l.phrases.contains (before ++ [v]) then (l, true)
  else match l.word v with
    | (l1, none) => (l1, false)
    | (l1, some _) => (l1.keep (before ++ [v]), true)

theorem Lexicon.rest_cons (new : Bool) (l : Lexicon) (before v vs) :
    l.rest new before (v :: vs) = match Lexicon.next new l before v with
      | (l1, false) => (l1, .panic)
      | (l1, true) => l1.rest new (before ++ [v]) vs := by
  unfold Lexicon.next
  simp only [Lexicon.rest]
  split
  · rfl
  · cases l.word v with
    | mk l1 o => cases o <;> rfl

/-- the phrase `e` is where entering `before` has led -/
structure PAt (σ : St) (L : Lexicon) (new : Bool) (before : List (List Char)) (e : PhraseE) : Prop where
  rel : LexRel σ L
  ent : PhraseEnt σ (runes before) e
  mem : ∃ c u vs, before = (c :: u) :: vs ∧ c ∈ L.heads ∧ (L.heads.count c = 1 → Reach σ (runes before) e) ∧
    (new = false → Fixed L c)
  leaf : new = true → σ.T e.phrase = []

theorem Reach.same {σ σ' : St} (hs : Same σ σ') {ws e} (h : Reach σ ws e) : Reach σ' ws e :=
  h.fwd hs.mono fun c _ => by rw [hs.T]

theorem PAt.same {cfg lim} {σ σ' : St} (hi : Inv cfg lim σ) (hi' : Inv cfg lim σ') (hs : Same σ σ') {L new before e}
    (h : PAt σ L new before e) : PAt σ' L new before e := by
  obtain ⟨h1, h2, ⟨c, u, vs, h3, h4, h5, h6⟩, h7⟩ := h
  exact ⟨h1.same hi hi' hs, h2.mono hs.mono, ⟨c, u, vs, h3, h4, fun h => (h5 h).same hs, h6⟩, fun h => by
    rw [hs.T]; exact h7 h⟩

/-- characters with one word before and after have the same word -/
theorem LexRel.keeps {σ σ' : St} (m : Mono σ σ') {L L' : Lexicon} (h : LexRel σ L) (h' : LexRel σ' L') {c : Char}
    (hc : L.heads.count c = 1) (hc' : L'.heads.count c = 1) {e} (he : CharEnt σ (bitsOf (rune c)) e) :
    σ'.T e.word = σ.T e.word := by
  have h1 := h.heads c e he
  have h2 := h'.heads c e (he.mono m)
  rw [hc] at h1
  rw [hc'] at h2
  obtain ⟨z, hz⟩ := List.length_eq_one_iff.1 h1
  obtain ⟨z', hz'⟩ := List.length_eq_one_iff.1 h2
  have : z ∈ σ'.T e.word := mem_T.2 (m.edges _ _ (mem_T.1 (by rw [hz]; simp)))
  rw [hz'] at this
  rw [hz, hz', List.mem_singleton.1 this]

def nextErr (σ0 : St) (e : PhraseE) (w : GoStr) : Bool → St → Prop := fun b σ => b = false ∧ BadWord σ w ∧
  ∀ L new before v, w = strOf v → PAt σ0 L new before e →
    (Lexicon.next new L before v).2 = false ∧ LexRel σ (Lexicon.next new L before v).1

/-- the next word of a phrase -/
theorem Wr.phraseNext {C : Ctx} (hR : C.R = false) (hL : C.lo = true) {σ : St} (hi : Inv C.cfg C.lim σ)
    {fuel : Nat} (hf : C.lim.L ≤ fuel) (hD' : C.lim.D ≤ fuel) {ws e w} (he : PhraseEnt σ ws e) (hw : WordOK C.lim w)
    (hD : ws.length + 1 ≤ C.lim.D) :
    Wr C (fun e' σ' => PhraseEnt σ' (ws ++ [runesOf w]) e' ∧ (σ.T e.phrase = [] → PhraseNew σ σ' e') ∧
      ∀ L new before v, w = strOf v → PAt σ L new before e → (Lexicon.next new L before v).2 = true ∧
        PAt σ' (Lexicon.next new L before v).1 new (before ++ [v]) e') (nextErr σ e w)
      (Phrase.provideNextElement fuel e w) σ := by
  unfold Phrase.provideNextElement
  refine Wr.rbind hR (good := fun l => l.Perm (σ.T e.phrase)) (Rd.targets hi ?_ ?_) ?_
  · rw [he.tagP]; simp
  · intro σ2 l h2 ro hl
    rw [(ro hR).T] at hl; exact hl
  intro ids σ2 h2 hs2 hids
  refine Wr.rbind hR (Rd.phraseReadAll ids h2.inv (p := ws) ?_) ?_
  · intro i hi'
    refine h2.inv.phraseChild (he.mono h2.mono) ?_
    rw [hs2.T]; exact hids.mem_iff.1 hi'
  intro cs σ3 h3 hs3 ⟨hcs, hent⟩
  have h13 := h2.trans h3
  refine Wr.rbind hR (Rd.phraseSearch hf hD' w cs h3.inv (p := ws) ?_) ?_
  · intro c hc
    obtain ⟨v', h'⟩ := hent c hc
    exact ⟨v', h'.mono h3.mono⟩
  intro o σ4 h4 hs4 ho
  have h14 := h13.trans h4
  cases o with
  | some c =>
    have hs24 := (hs2.trans hs3).trans hs4
    have hm : c.phrase ∈ σ.T e.phrase := by
      apply hids.mem_iff.1
      rw [← hcs]
      exact List.mem_map_of_mem ho.1
    have hc0 := ho.2.mono (hs2.trans hs3).symm.mono
    refine Wr.ret h4.inv ⟨ho.2.mono h4.mono, (fun h => by rw [h] at hm; cases hm), fun L new before v hv hp => ?_⟩
    have hnew : new = false := by
      cases new with
      | false => rfl
      | true => rw [hp.leaf rfl] at hm; cases hm
    subst hnew
    obtain ⟨d, u, vs, hb, hd, hre, hfix⟩ := hp.mem
    have hws : ws = runes before := he.words_eq hp.ent
    have hrv : runesOf w = v.map rune := by rw [hv, runesOf_chars]
    have hcnt := (hfix rfl).2
    have hreach : Reach σ (runes (before ++ [v])) c := by
      have : runes (before ++ [v]) = runes before ++ [v.map rune] := by simp [runes]
      rw [this]
      rw [hws, hrv] at hc0
      exact .tail (hre hcnt) hc0 hm
    have hin : before ++ [v] ∈ L.phrases := by
      subst hb
      exact (hp.rel.phr d u (vs ++ [v]) hcnt).2 ⟨c, hreach⟩
    have hnx : Lexicon.next false L before v = (L, true) := by
      unfold Lexicon.next
      rw [if_pos (by simpa using hin)]
    rw [hnx]
    refine ⟨rfl, hp.rel.same hi h4.inv hs24, ?_, ⟨d, u, vs ++ [v], by rw [hb]; rfl, hd, fun _ => hreach.same hs24, hfix⟩,
      fun h => by cases h⟩
    exact hreach.ent.mono hs24.mono
  | none =>
    refine Wr.rbind hR (Rd.provideEntity h4.inv) ?_
    intro _ σ5 h5 hs5 _
    have h15 := h14.trans h5
    have hB : C.F = true → σ5.bits ≠ none := by
      intro _ hn
      obtain ⟨bs, hbs⟩ := (he.mono h15.mono).bits
      rw [hbs] at hn; cases hn
    have hs25 := ((hs2.trans hs3).trans hs4).trans hs5
    have he5 := he.mono h15.mono
    have hkids : stringOf (runesOf w) = w → ∀ y ∈ σ.T e.phrase, σ.tag y ≠ .phP (ws ++ [runesOf w]) := by
      intro hval y hy ht
      obtain ⟨r', e', he', hey⟩ := hi.phraseChild he hy
      subst hey
      have := he'.tagP
      rw [ht] at this
      injection this with this
      rw [← this] at he'
      have hm : e'.phrase ∈ cs.map (·.phrase) := by rw [hcs]; exact hids.mem_iff.2 hy
      obtain ⟨c', hc', hce⟩ := List.mem_map.1 hm
      obtain ⟨v', h'⟩ := hent c' hc'
      have he3 := he'.mono h13.mono
      have := (h'.mono h3.mono).ext he3 hce
      subst this
      exact ho hval c' hc' he3
    have hnx : ∀ L new before v, w = strOf v → PAt σ L new before e →
        Lexicon.next new L before v = match L.word v with
          | (l1, none) => (l1, false)
          | (l1, some _) => (l1.keep (before ++ [v]), true) := by
      intro L new before v hv hp
      unfold Lexicon.next
      rw [if_neg]
      intro hc
      simp only [Bool.and_eq_true, Bool.not_eq_true', List.contains_iff_mem] at hc
      obtain ⟨rfl, hc⟩ := hc
      obtain ⟨d, u, vs, hb, hd, hre, hfix⟩ := hp.mem
      have hcnt := (hfix rfl).2
      obtain ⟨e2, he2⟩ := (hp.rel.phr d u (vs ++ [v]) hcnt).1 (by rw [hb] at hc; exact hc)
      have he2' : Reach σ (runes before ++ [v.map rune]) e2 := by
        have : runes before ++ [v.map rune] = runes ((d :: u) :: (vs ++ [v])) := by rw [hb]; simp [runes]
        rw [this]; exact he2
      obtain ⟨e1, hr1, hm⟩ := he2'.parent hp.ent.ne_nil
      have := hr1.unique hi hp.rel.wsib hp.rel.psib (hre hcnt)
      subst this
      refine hkids (stringOf_runesOf_chars hv) _ hm ?_
      rw [he.words_eq hp.ent, hv, runesOf_chars]
      exact he2'.ent.tagP
    refine Wr.bind ((Wr.wordProvide hR hL h5.inv hB hf hw).cons (fun _ _ _ h => h) (bad' := nextErr σ e w) ?_) ?_
    · intro b σ6 h6 ⟨h7, h8, h9⟩
      refine ⟨h7, h8, fun L new before v hv hp => ?_⟩
      obtain ⟨h10, h11⟩ := h9 L v hv (hp.rel.same hi h5.inv hs25)
      rw [hnx L new before v hv hp]
      revert h10 h11
      cases L.word v with
      | mk l1 o =>
        intro h10 h11
        simp only at h10
        subst h10
        exact ⟨rfl, h11⟩
    intro wd σ6 h6 ⟨hwd, _, _, hpf, hlex⟩
    have he6 := he5.mono h6.mono
    refine Wr.cons (Wr.phraseTail hR hL h6.inv hwd he6 hD) ?_ (fun _ _ _ h => h)
    intro e' σ7 h7 ⟨he', hnew, hat, hTp⟩
    refine ⟨he', fun _ => hnew.mono0 (h15.trans h6).mono, fun L new before v hv hp => ?_⟩
    obtain ⟨c, v', s, rfl, hdone⟩ := hlex L v hv (hp.rel.same hi h5.inv hs25)
    have hnx' : Lexicon.next new L before (c :: v') = ((L.word (c :: v')).1.keep (before ++ [c :: v']), true) := by
      rw [hnx L new before _ hv hp]
      have := hdone.eq
      revert this
      cases L.word (c :: v') with
      | mk l1 o => intro h; simp only at h; subst h; rfl
    rw [hnx']
    have hrv : runesOf w = (c :: v').map rune := by rw [hv, runesOf_chars]
    have hws := he.words_eq hp.ent
    obtain ⟨d, u, vs, hb, hd, hre, hfix⟩ := hp.mem
    have hcle := Lexicon.word_heads L (c :: v') d
    have hpos : 0 < L.heads.count d := List.count_pos_iff.2 hd
    have hre6 : (L.word (c :: v')).1.heads.count d = 1 → Reach σ6 (runes before) e := by
      intro h
      have hcL : L.heads.count d = 1 := by omega
      refine (hre hcL).fwd (h15.trans h6).mono ?_
      intro x hx
      have hx' : CharEnt σ (bitsOf (rune d)) x := by rw [hb] at hx; exact hx
      exact hp.rel.keeps (h15.trans h6).mono hdone.rel hcL h hx'
    rw [hws] at he' he6
    rw [hrv] at he'
    have key := LexRel.phraseTail h6.inv h7.inv h7.mono hdone.rel hb (List.count_pos_iff.1 (Nat.lt_of_lt_of_le hpos hcle)) hre6
      he6 hat hTp he' hnew.p0 ?_
    · refine ⟨rfl, key.1, ?_, ⟨d, u, vs ++ [c :: v'], by rw [hb]; rfl, List.count_pos_iff.1 (Nat.lt_of_lt_of_le hpos hcle), key.2,
        fun h => ?_⟩, fun _ => hnew.Tp⟩
      · have : runes (before ++ [c :: v']) = runes before ++ [(c :: v').map rune] := by simp [runes]
        rw [this]; exact he'
      · exact ⟨((hfix h).word _).1, ((hfix h).word _).2⟩
    · intro y hy ht
      rw [hpf _ _ he5.tagP, hs25.T] at hy
      refine hkids (stringOf_runesOf_chars hv) y hy ?_
      rw [hws, hrv]
      have := tag_old hi (h15.trans h6).mono hy
      rw [← this.2]; exact ht

/-- some word of the list is bad -/
def AnyBad (σ : St) (ws : List GoStr) : Prop := ∃ w ∈ ws, BadWord σ w

theorem AnyBad.mono {cfg lim} {σ σ' : St} (hi : Inv cfg lim σ) (m : Mono σ σ') {ws} (h : AnyBad σ ws) :
    AnyBad σ' ws := by
  obtain ⟨w, h1, h2⟩ := h
  exact ⟨w, h1, h2.mono hi m⟩

/-- the results `R` are ends of entering texts, with verdict `v` and the lexicon of `σ` -/
def Lexes {ι : Type} (R : ι → Lexicon × Verdict) (v : Verdict) (σ : St) : Prop := ∀ i, (R i).2 = v ∧ LexRel σ (R i).1

theorem Lexes.same {ι : Type} {R : ι → Lexicon × Verdict} {v} {cfg lim} {σ σ' : St} (hi : Inv cfg lim σ)
    (hi' : Inv cfg lim σ') (hs : Same σ σ') (h : Lexes R v σ) : Lexes R v σ' :=
  fun i => ⟨(h i).1, (h i).2.same hi hi' hs⟩

/-- Entering the words `ws` has led to the phrase `e`; it is found if its first character has one word only. -/
def Led (σ : St) (L : Lexicon) (ws : List (List Int)) (e : PhraseE) : Prop :=
  ∃ c u vs, ws = runes ((c :: u) :: vs) ∧ c ∈ L.heads ∧ (L.heads.count c = 1 → Reach σ ws e)

theorem PAt.led {σ : St} {L new before e ws} (h : PAt σ L new before e) (he : PhraseEnt σ ws e) : Led σ L ws e := by
  obtain ⟨c, u, vs, h1, h2, h3, _⟩ := h.mem
  have := he.words_eq h.ent
  subst this
  exact ⟨c, u, vs, by rw [h1], h2, h3⟩

/-- what is left of the results `R` when `e` is reached and `qs` is to be entered -/
def Lexing {ι : Type} (R : ι → Lexicon × Verdict) (σ : St) (e : PhraseE) (qs : List GoStr) : Prop :=
  ∀ i, ∃ new L before vs, qs = vs.map strOf ∧ PAt σ L new before e ∧ R i = L.rest new before vs

def walkErr {ι : Type} (R : ι → Lexicon × Verdict) (ws : List GoStr) : Bool → St → Prop := fun b σ =>
  b = true ∧ AnyBad σ ws ∧ Lexes R .panic σ

theorem Wr.phraseWalk {C : Ctx} (hR : C.R = false) (hL : C.lo = true) {ι : Type} (R : ι → Lexicon × Verdict) {fuel : Nat} (hf : C.lim.L ≤ fuel) (hD' : C.lim.D ≤ fuel)
    (f0 : Bool) (all : List GoStr) (N : Prop) (σ0 : St) :
    ∀ (qs : List GoStr) {σ : St} (_ : Inv C.cfg C.lim σ) (_ : Mono σ0 σ) {ws : List (List Int)} (_ : ∀ q ∈ qs, q ∈ all)
    {el : Option PhraseE} (_ : match el with
      | some e => PhraseEnt σ ws e ∧ σ.flt = f0 ∧ (N → PhraseNew σ0 σ e) ∧ Lexing R σ e qs
      | none => σ.flt = true ∨ (AnyBad σ all ∧ Lexes R .panic σ)) (_ : ∀ r ∈ qs, WordOK C.lim r) (_ : ws.length + qs.length ≤ C.lim.D),
    WrL C (fun (el' : Option PhraseE) σ' => match el' with
      | some e => PhraseEnt σ' (ws ++ qs.map runesOf) e ∧ σ'.flt = f0 ∧ (N → PhraseNew σ0 σ' e) ∧ Lexes R .created σ' ∧
          ∀ i, Led σ' (R i).1 (ws ++ qs.map runesOf) e
      | none => σ'.flt = true ∨ (AnyBad σ' all ∧ Lexes R .panic σ')) (walkErr R all) (Phrase.walk fuel el qs) σ := by
  intro qs
  induction qs with
  | nil =>
    intro σ hi _ ws _ el hel _ _
    unfold Phrase.walk
    refine WrL.ret hi ?_
    cases el with
    | none => exact hel
    | some e =>
      refine ⟨by simpa using hel.1, hel.2.1, hel.2.2.1, fun i => ?_, fun i => ?_⟩
      · obtain ⟨new, L, before, vs, h1, h2, h3⟩ := hel.2.2.2 i
        have := List.map_eq_nil_iff.1 h1.symm
        subst this
        rw [h3]
        exact ⟨rfl, h2.rel⟩
      · obtain ⟨new, L, before, vs, h1, h2, h3⟩ := hel.2.2.2 i
        have := List.map_eq_nil_iff.1 h1.symm
        subst this
        rw [h3]
        exact h2.led (by simpa using hel.1)
  | cons b bs ih =>
    intro σ hi m0 ws hall el hel hok hD
    unfold Phrase.walk
    match el, hel with
    | none, hfl => exact ⟨.refl hi, hfl.imp id (fun h => ⟨rfl, h⟩)⟩
    | some e, ⟨he, hfl0, hnw, hlx⟩ =>
      refine WrL.bind ((Rd.ret (good := (· = e)) hi rfl).wr hR) ?_
      intro a σ1 h1 ⟨⟨hs1, ha⟩, hfl1⟩; subst ha
      simp only [List.length_cons] at hD
      have key := Wr.phraseNext hR hL h1.inv hf hD' (he.mono h1.mono) (hok b (by simp)) (by omega)
      refine wp_bind (wp_attempt (wp_mono ?_ key))
      intro o σ2 ⟨h3, h4⟩
      have fin : ∀ (r : Option PhraseE), (match r with
          | some e => PhraseEnt σ2 (ws ++ [runesOf b]) e ∧ σ2.flt = f0 ∧ (N → PhraseNew σ0 σ2 e) ∧ Lexing R σ2 e bs
          | none => σ2.flt = true ∨ (AnyBad σ2 all ∧ Lexes R .panic σ2)) → wp C (WPost C σ1 (fun (el' : Option PhraseE) σ' => match el' with
          | some e => PhraseEnt σ' (ws ++ (b :: bs).map runesOf) e ∧ σ'.flt = f0 ∧ (N → PhraseNew σ0 σ' e) ∧
              Lexes R .created σ' ∧ ∀ i, Led σ' (R i).1 (ws ++ (b :: bs).map runesOf) e
          | none => σ'.flt = true ∨ (AnyBad σ' all ∧ Lexes R .panic σ')) (walkErr R all)) (Phrase.walk fuel r bs) σ2 := by
        intro r hr
        have := ih h3.inv ((m0.trans h1.mono).trans h3.mono) (ws := ws ++ [runesOf b]) (fun q hq => hall q (by simp [hq])) (el := r) hr
          (fun r hr => hok r (by simp [hr])) (by simp; omega)
        refine wp_mono ?_ this
        intro o' σ3 ⟨h5, h6⟩
        refine ⟨h3.trans h5, ?_⟩
        simpa using h6
      have hsplit : ∀ i, ∃ new L before v vs, b = strOf v ∧ bs = vs.map strOf ∧ PAt σ1 L new before a ∧
          R i = L.rest new before (v :: vs) := by
        intro i
        obtain ⟨new, L, before, vs, h1', h2, h3⟩ := hlx i
        cases vs with
        | nil => cases h1'
        | cons v vs =>
          simp only [List.map_cons, List.cons.injEq] at h1'
          exact ⟨new, L, before, v, vs, h1'.1, h1'.2, h2.same hi h1.inv hs1, h3⟩
      cases o with
      | ok el2 =>
        refine fin (some el2) ⟨h4.1.1, h4.2.trans (hfl1.trans hfl0), fun hN =>
          (h4.1.2.1 (by rw [hs1.T]; exact (hnw hN).Tp)).mono0 (m0.trans h1.mono), fun i => ?_⟩
        obtain ⟨new, L, before, v, vs, hv, hvs, hp, hRi⟩ := hsplit i
        obtain ⟨h5, h6⟩ := h4.1.2.2 L new before v hv hp
        refine ⟨new, _, _, vs, hvs, h6, ?_⟩
        rw [hRi, Lexicon.rest_cons]
        revert h5
        cases Lexicon.next new L before v with
        | mk l1 o => intro h; simp only at h; subst h; rfl
      | err e =>
        refine fin none (h4.imp id (fun h => ⟨⟨b, hall b (by simp), h.2.1⟩, fun i => ?_⟩))
        obtain ⟨new, L, before, v, vs, hv, hvs, hp, hRi⟩ := hsplit i
        obtain ⟨h5, h6⟩ := h.2.2 L new before v hv hp
        rw [hRi, Lexicon.rest_cons]
        revert h5 h6
        cases Lexicon.next new L before v with
        | mk l1 o => intro h h6; simp only at h; subst h; exact ⟨rfl, h6⟩
      | panic => exact ⟨h3, h4.imp id (fun h => by cases h.1)⟩
      | spin => exact h4.elim

/-- a string that may be stored -/
structure TextOK (lim : Lim) (s : GoStr) : Prop where
  word : ∀ w ∈ splitSpace s, WordOK lim w
  len : (splitSpace s).length ≤ lim.D

/-- the words of a string -/
def wordsOf (s : GoStr) : List (List Int) := (splitSpace s).map runesOf

/-- the first word of `s` is bad -/
def BadHead (σ : St) (s : GoStr) : Prop := BadWord σ ((splitSpace s).headD [])
/-- a later word of `s` is bad -/
def BadTail (σ : St) (s : GoStr) : Prop := AnyBad σ (splitSpace s).tail

theorem BadHead.mono {cfg lim} {σ σ' : St} (hi : Inv cfg lim σ) (m : Mono σ σ') {s} (h : BadHead σ s) :
    BadHead σ' s := BadWord.mono hi m h
theorem BadTail.mono {cfg lim} {σ σ' : St} (hi : Inv cfg lim σ) (m : Mono σ σ') {s} (h : BadTail σ s) :
    BadTail σ' s := AnyBad.mono hi m h

/-- no stored character continues the first character of `s` -/
def LeafHead (lim : Lim) (s : GoStr) : Prop := LeafWord lim ((splitSpace s).headD [])

/-- how providing a phrase may fail: error on a bad first word, panic on a bad later word -/
def phraseErr (σ0 : St) (s : GoStr) : Bool → St → Prop := fun b σ =>
  (if b then BadTail σ s ∧ ¬ BadHead σ0 s else BadHead σ s) ∧
  ∀ L us, splitSpace s = us.map strOf → LexRel σ0 L →
    (L.phrase us).2 = (if b then .panic else .error) ∧ LexRel σ (L.phrase us).1

theorem Wr.phraseProvide {C : Ctx} (hR : C.R = false) (hL : C.lo = true) {σ : St} (hi : Inv C.cfg C.lim σ)
    (hB : C.F = true → σ.bits ≠ none) {fuel : Nat} (hf : C.lim.L ≤ fuel) (hD : C.lim.D ≤ fuel) {s : GoStr}
    (hs : TextOK C.lim s) :
    Wr C (fun e σ' => PhraseEnt σ' (wordsOf s) e ∧ ¬ BadHead σ s ∧ (LeafHead C.lim s → PhraseNew σ σ' e) ∧
        ∀ L us, splitSpace s = us.map strOf → LexRel σ L → ((L.phrase us).2 = .created ∧ LexRel σ' (L.phrase us).1) ∧
          Led σ' (L.phrase us).1 (wordsOf s) e)
      (phraseErr σ s)
      (Phrase.provide fuel s) σ := by
  unfold Phrase.provide wordsOf
  have hword := hs.word
  have hlen := hs.len
  cases hsp : splitSpace s with
  | nil => exact absurd hsp (splitSpace_ne_nil s)
  | cons w ws =>
    rw [hsp] at hword hlen
    simp only [List.length_cons] at hlen
    have hH : ∀ σ, BadHead σ s = BadWord σ w := by intro σ; unfold BadHead; rw [hsp]; rfl
    have hLf : LeafHead C.lim s = LeafWord C.lim w := by unfold LeafHead; rw [hsp]; rfl
    have hTl : ∀ σ, BadTail σ s = AnyBad σ ws := by intro σ; unfold BadTail; rw [hsp]; rfl
    let R : {x : Lexicon × List (List Char) // splitSpace s = x.2.map strOf ∧ LexRel σ x.1} → Lexicon × Verdict :=
      fun x => x.1.1.phrase x.1.2
    have hsplit : ∀ us : List (List Char), splitSpace s = us.map strOf → ∃ v vs, us = v :: vs ∧ w = strOf v ∧
        ws = vs.map strOf := by
      intro us hus
      rw [hsp] at hus
      cases us with
      | nil => cases hus
      | cons v vs =>
        simp only [List.map_cons, List.cons.injEq] at hus
        exact ⟨v, vs, rfl, hus.1, hus.2⟩
    have hE : ¬ BadWord σ w → ∀ b σ', walkErr R ws b σ' → phraseErr σ s b σ' := by
      intro hnb b σ' ⟨h1, h2, h3⟩
      subst h1
      refine ⟨⟨?_, ?_⟩, fun L us h4 h5 => h3 ⟨(L, us), h4, h5⟩⟩
      · rw [hTl]; exact h2
      · rw [hH]; exact hnb
    have hE' : ∀ b σ', wordErr σ w b σ' → phraseErr σ s b σ' := by
      intro b σ' ⟨h1, h2, h3⟩
      subst h1
      refine ⟨?_, fun L us h4 h5 => ?_⟩
      · show BadHead σ' s
        rw [hH]; exact h2
      · obtain ⟨v, vs, rfl, hv, hvs⟩ := hsplit us h4
        obtain ⟨h6, h7⟩ := h3 L v hv h5
        revert h6 h7
        unfold Lexicon.phrase
        cases hw : L.word v with
        | mk l1 o => intro h6 h7; simp only at h6; subst h6; simp only [hw]; exact ⟨rfl, h7⟩
    have key : Wr C (fun e σ' => PhraseEnt σ' [runesOf w] e ∧ ¬ BadWord σ w ∧ (LeafWord C.lim w → PhraseNew σ σ' e) ∧
          Lexing R σ' e ws)
        (wordErr σ w)
        (Phrase.provideFirstElement fuel w) σ := by
      unfold Phrase.provideFirstElement
      refine Wr.bind (Wr.wordProvide hR hL hi hB hf (hword w (by simp))) ?_
      intro wd σ1 h1 ⟨hwd, hnb, hnw, _, hlex⟩
      refine Wr.rbind hR (Rd.provideEntity h1.inv) ?_
      intro _ σ2 h2 hs2 _
      refine Wr.cons (Wr.phraseHead hR hL h2.inv (hwd.mono h2.mono) (by omega) (bad := wordErr σ w)) ?_ (fun _ _ _ h => h)
      intro e σ3 h3 ⟨he, hdone⟩
      have hnew : σ2.T wd.phrase = [] → PhraseNew σ2 σ3 e := by
        intro h
        rcases hdone with ⟨_, _, _, h'⟩ | ⟨h', _⟩
        · exact h'
        · rw [h] at h'; cases h'
      refine ⟨he, hnb, fun hl => (hnew (by rw [hs2.T]; exact (hnw hl).Tp)).mono0 (h1.trans h2).mono, ?_⟩
      rintro ⟨⟨L, us⟩, hus, hl⟩
      obtain ⟨v, vs, rfl, hv, hvs⟩ := hsplit us hus
      obtain ⟨c, u, st, rfl, hd⟩ := hlex L v hv hl
      have hrv : runesOf w = (c :: u).map rune := by rw [hv, runesOf_chars]
      rw [hrv] at he hwd
      have hl2 := hd.rel.same h1.inv h2.inv hs2
      have key2 : LexRel σ3 ((L.word (c :: u)).1.keep [c :: u]) ∧
          ((L.word (c :: u)).1.heads.count c = 1 → Reach σ3 [(c :: u).map rune] e) := by
        rcases hdone with ⟨hT, hat, hTw, hn⟩ | ⟨hT, hs3⟩
        · exact hl2.phraseHead h2.inv h3.inv h3.mono hd.mem (fun h => (hd.reach h).same hs2) (hwd.mono h2.mono) hat hTw he hn.p0
        · have hr : (L.word (c :: u)).1.heads.count c = 1 → Reach σ3 [(c :: u).map rune] e := fun h =>
            .head (((hd.reach h).same hs2).same hs3) (by rw [hs3.T, hT]) he
          exact ⟨(hl2.same h2.inv h3.inv hs3).phraseAgain rfl hd.mem hr, hr⟩
      refine ⟨st == .fresh, (L.word (c :: u)).1.keep [c :: u], [c :: u], vs, hvs, ⟨key2.1, he,
        ⟨c, u, [], rfl, hd.mem, key2.2, fun h => ?_⟩, fun h => ?_⟩, ?_⟩
      · exact hd.old (by intro h'; subst h'; cases h)
      · exact (hnew (by rw [hs2.T]; exact (hd.new (by simpa using h)).Tp)).Tp
      · show L.phrase ((c :: u) :: vs) = _
        have := hd.eq
        unfold Lexicon.phrase
        revert this
        cases hw : L.word (c :: u) with
        | mk l1 o => intro h6; simp only at h6; subst h6; simp only [hw]
    refine Wr.bind (key.cons (fun _ _ _ h => h) (fun b σ' _ h => hE' b σ' h)) ?_
    intro e σ1 h1 ⟨he, hnb, hnew, hlx⟩
    refine Wr.lbind (WrL.cons (Wr.phraseWalk hR hL R hf hD σ1.flt ws (LeafWord C.lim w) σ ws h1.inv h1.mono
      (ws := [runesOf w]) (fun _ h => h) (el := some e) ⟨he, rfl, hnew, hlx⟩ (fun r hr => hword r (by simp [hr])) (by simp; omega)) (fun _ _ _ h => h)
      (fun b σ' _ h => hE hnb b σ' h)) ?_
    intro el σ2 h2 hel
    cases el with
    | none => exact .inr ⟨.refl h2.inv, hel.imp id (fun h => hE hnb _ _ ⟨rfl, h.1, h.2⟩)⟩
    | some e' =>
      refine .inl ⟨Wr.ret h2.inv ⟨hel.1, ?_, ?_, fun L us h1 h2 =>
        ⟨hel.2.2.2.1 ⟨(L, us), hsp.trans h1, h2⟩, hel.2.2.2.2 ⟨(L, us), hsp.trans h1, h2⟩⟩⟩, hel.2.1⟩
      · rw [hH]; exact hnb
      · rw [hLf]; exact hel.2.2.1

end Semnet
