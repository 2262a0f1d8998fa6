import Verif.Proof.RaceNew
import Verif.Proof.CharWrite
/-
  Several processes writing at the same time: characters.
-/
set_option linter.unusedSimpArgs false
namespace Semnet.Race
open Class

/-- a continuation of a character -/
theorem RI.charChild {cfg lim bs fz} {σ : Rt} (hi : RI cfg lim bs fz σ) {p e} (h : Ch bs σ p e) {y : Nat}
    (hy : (e.character, y) ∈ σ.store.edges) : ∃ v e', Ch bs σ (p ++ [v]) e' ∧ e'.character = y := by
  have he := hi.edge _ _ hy
  unfold REdge at he
  rw [h.tagC] at he
  cases hy' : σ.tag y <;> rw [hy'] at he <;> simp only at he
  obtain ⟨q, v, e1, e2, h1, h2, h3, h4⟩ := he
  have : p = q := by
    have := h1.tagC
    rw [h2, h.tagC] at this
    cases this; rfl
  subst this
  exact ⟨v, e2, h3, h4⟩

theorem RI.bitChild {cfg lim bs fz} {σ : Rt} (hi : RI cfg lim bs fz σ) {v : Bool} {y : Nat}
    (hy : (bitNode bs v, y) ∈ σ.store.edges) : ∃ e, Ch bs σ [v] e ∧ e.bit = y := by
  have he := hi.edge _ _ hy
  unfold REdge at he
  rw [hi.bits.tag v] at he
  cases hy' : σ.tag y <;> rw [hy'] at he <;> simp only at he
  exact he

theorem Does.charReadAll {C : RC} : ∀ (ids : List Nat) {σ : Rt} (_ : C.I σ) {p : List Bool}
    (_ : ∀ i ∈ ids, ∃ v e', Ch C.bs σ (p ++ [v]) e' ∧ e'.character = i),
    Does C (fun cs σ' => ∀ c ∈ cs, ∃ v, Ch C.bs σ' (p ++ [v]) c) (Character.readAll ids) σ := by
  intro ids
  induction ids with
  | nil => intro σ hi p _; exact Does.ret hi (by simp)
  | cons i is ih =>
    intro σ hi p h
    unfold Character.readAll
    obtain ⟨v, e', he', hc⟩ := h i (by simp)
    subst hc
    refine Does.bind (Does.charByCharacter hi he') ?_
    intro a σ1 h1 ha; subst ha
    refine Does.bind (ih h1.inv (p := p) ?_) ?_
    · intro i hi'
      obtain ⟨v, e', h2, h3⟩ := h i (by simp [hi'])
      exact ⟨v, e', h2.mono h1.mono, h3⟩
    · intro cs σ2 h2 hcs
      refine Does.ret h2.inv ?_
      intro c hc
      rcases List.mem_cons.1 hc with rfl | hc
      · exact ⟨v, (he'.mono h1.mono).mono h2.mono⟩
      · exact hcs c hc

theorem Does.charSearch {C : RC} (b : Bool) : ∀ (cs : List CharE) {σ : Rt} (_ : C.I σ) {p : List Bool}
    (_ : ∀ c ∈ cs, ∃ v, Ch C.bs σ (p ++ [v]) c),
    Does C (fun o σ' => ∀ c, o = some c → Ch C.bs σ' (p ++ [b]) c) (Character.search b cs) σ := by
  intro cs
  induction cs with
  | nil => intro σ hi p _; exact Does.ret hi (by simp)
  | cons c cs ih =>
    intro σ hi p h
    unfold Character.search
    obtain ⟨v, hc⟩ := h c (by simp)
    obtain ⟨q, v', hq, hb⟩ := hc.base
    have hv : v = v' := (append_one_inj hq).2
    subst hv
    refine Does.bind (Does.getTargetBit hi hb) ?_
    intro t σ1 h1 ht; subst ht
    refine Does.bind (Does.bitFetch h1.inv v) ?_
    intro e σ2 h2 he
    rw [he]
    have h12 := h1.trans h2
    by_cases hbv : b = v
    · rw [if_pos hbv]; subst hbv
      refine Does.ret h2.inv ?_
      intro c' hc'; cases hc'
      exact hc.mono h12.mono
    · rw [if_neg hbv]
      refine ih h2.inv ?_
      intro c' hc'
      obtain ⟨v', h'⟩ := h c' (by simp [hc'])
      exact ⟨v', h'.mono h12.mono⟩

/-! ### creating -/

/-- a new character that is connected to its bit only -/
structure ChPre (C : RC) (σ0 σ : Rt) (p : List Bool) (v : Bool) (e : CharE) : Prop where
  base : ChB C.bs σ e p v
  nd : Nd C σ e.character (.chC p) e.word e.bit [] []
  fr : σ0.tag e.character = .none

theorem Does.charPre {C : RC} (hz : C.fz = none) {σ : Rt} (hi : C.I σ) {v : Bool} {p : List Bool} (hp : C.lim.path p) (hpn : p ≠ []) :
    Does C (fun e σ' => ChPre C σ σ' p v e) (do
        let cls ← Class.createNode characterId
        let e ← Character.createEntity cls
        Go.connect e.bit (bitNode C.bs v)
        pure e) σ := by
  rw [char_newEnt]
  refine From.bind (Does.newEnt hi (by decide) (charTags hp hpn)) ?_
  intro r σ2 h2 hn
  obtain ⟨n, a, b, c⟩ := r
  simp only at hn ⊢
  have tv := h2.inv.bits.tag v
  have hne : a ≠ bitNode C.bs v := by
    intro e; have := hn.wa.tag; rw [e, tv] at this; cases this
  have hbit : bitNode C.bs v ≠ bitId := by
    intro e; rw [e, (h2.inv.root bitId).2 (by decide)] at tv; cases tv
  refine From.bind (From.connectT h2 hn.wa rfl rfl tv (by simp) rfl rfl hbit hn.fa hne ?_) ?_
  · intro σ' m _
    simp only [REdge, m.tagEq hn.wa.tag (by simp), m.tagEq tv (by simp)]
  · intro _ σ3 h3 ⟨l, wa⟩
    refine From.ret h3 ⟨⟨?_, ?_, ?_, ?_, ?_⟩, ?_, hn.fb⟩
    · exact l.mono.chain (hn.chain h2.inv)
    · exact wa.tag
    · exact l.mono.tagEq hn.wb.tag (by simp)
    · exact l.mono.tagEq hn.wc.tag (by simp)
    · exact wa.T rfl
    · refine hn.wb.keepC l (fun h => by cases h) ?_
      intro _ e; have := hn.wb.tag; rw [e, tv] at this; cases this

theorem Does.charHead {C : RC} (hC : C.tot = false) (hz : C.fz = none) (hso : C.lim.solo = false) {σ : Rt} (hi : C.I σ) {v : Bool} (hp : C.lim.path [v]) :
    Does C (fun e σ' => Ch C.bs σ' [v] e) (Character.provideHeadEntity (bitEnt C.bs v)) σ := by
  unfold Character.provideHeadEntity
  have tv := hi.bits.tag v
  refine Does.bind (good := fun _ _ => True) ?_ ?_
  · unfold Bit.hasTargetCharacter
    rw [hi.bits.used v]
    refine Does.bind (good := fun _ _ => True) (Does.targets hi (by rw [bitEnt_character, tv]; simp)
      (fun _ _ _ _ => trivial)) ?_
    intro l σ1 h1 _
    split
    · exact Does.ret h1.inv trivial
    · exact Does.ret h1.inv trivial
    · exact From.err (.refl h1.inv) hC
  intro b σ1 h1 _
  have tv1 := h1.inv.bits.tag v
  cases b with
  | true =>
    simp only [if_true]
    refine Does.bind (good := fun y σ' => ∃ e, Ch C.bs σ' [v] e ∧ e.bit = y) ?_ ?_
    · unfold Bit.getTargetCharacter
      rw [hi.bits.used v]
      refine Does.bind (good := fun l σ' => ∀ y ∈ l, ∃ e, Ch C.bs σ' [v] e ∧ e.bit = y) (Does.targets h1.inv
        (by rw [bitEnt_character, tv1]; simp) ?_) ?_
      · intro σ2 l h2 hl y hy
        exact h2.inv.bitChild (mem_T.1 (by rw [← bitEnt_character]; exact hl.mem_iff.1 hy))
      · intro l σ2 h2 hl
        split
        · exact Does.ret h2.inv (hl _ (by simp))
        · exact From.err (.refl h2.inv) hC
    · intro y σ2 h2 ⟨e, he, hy⟩
      subst hy
      exact (Does.charByBit h2.inv he).cons fun a σ3 h3 ha => by subst ha; exact he.mono h3.mono
  | false =>
    simp only [Bool.false_eq_true, if_false, bitEnt_character]
    have key := Does.bind (Does.charPre hz h1.inv (v := v) hp (by simp)) (good' := fun e σ' => Ch C.bs σ' [v] e)
      (f := fun e => do Bit.pointToCharacter (bitEnt C.bs v) e.bit; pure e) ?_
    · simpa only [bind_assoc, pure_bind] using key
    · intro e σ2 h2 hpre
      have he : Ch C.bs σ2 [v] e := .head hpre.base
      refine Does.bind (good := fun _ _ => True) ?_ ?_
      · unfold Bit.pointToCharacter
        rw [hi.bits.used v]
        have tv2 := h2.inv.bits.tag v
        refine Does.bind (good := fun _ _ => True) (Does.targets h2.inv (by rw [bitEnt_character, tv2]; simp)
          (fun _ _ _ _ => trivial)) ?_
        intro l σ3 h3 _
        have he3 := he.mono h3.mono
        have tv3 := h3.inv.bits.tag v
        split
        · rw [bitEnt_character]
          refine From.cons (From.connectN (.refl h3.inv) tv3 he3.tagB (by simp) (by simp) rfl rfl rfl rfl ?_ ?_ hz (fun _ => rfl)
            (fun h => by rw [hso] at h; cases h))
            (fun _ _ _ _ => trivial)
          · intro hh; have := he3.tagB; rw [hh, (h3.inv.root bitId).2 (by decide)] at this; cases this
          · intro σ' m
            have e' := he3.mono m
            simp only [REdge, m.tagEq tv3 (by simp), e'.tagB]
            exact ⟨e, e', rfl⟩
        all_goals first | exact From.err (.refl h3.inv) hC | exact Does.ret h3.inv trivial
      · intro _ σ3 h3 _
        exact Does.ret h3.inv (he.mono h3.mono)

/-- the bit that is seen instead has no node -/
theorem Does.tailBlank {C : RC} (h : C.hazy = true) {σ : Rt} (hi : C.I σ) {v : Bool} {p : List Bool} {prev : CharE}
    (hp : C.lim.path (p ++ [v])) {good : CharE → Rt → Prop} :
    Does C good (Character.createTailEntity blank prev) σ := by
  unfold Character.createTailEntity
  rw [char_newEnt]
  refine Does.bind (Does.newEnt hi (by decide) (charTags hp (by simp))) ?_
  intro r σ2 h2 _
  refine Does.bind (good := fun _ _ => False) (Does.missing (o := .connect _ 0) (RC.hazy_tot h) ?_) ?_
  · intro σ1 c h1
    simp only [Store.step, RC.no_zero h h1, Bool.and_false, Bool.false_eq_true, if_false]
  · exact fun _ _ _ h => h.elim

theorem Does.charTail {C : RC} (hz : C.fz = none) {σ : Rt} (hi : C.I σ) {v : Bool} {p prev} (hprev : Ch C.bs σ p prev)
    (hp : C.lim.path (p ++ [v])) :
    Does C (fun e σ' => Ch C.bs σ' (p ++ [v]) e) (Character.createTailEntity (bitEnt C.bs v) prev) σ := by
  unfold Character.createTailEntity
  simp only [bitEnt_character]
  have key := From.bind (Does.charPre hz hi (v := v) hp (by simp)) (good' := fun e σ' => Ch C.bs σ' (p ++ [v]) e)
    (f := fun e => do Go.connect prev.character e.character; pure e) ?_
  · simpa only [bind_assoc, pure_bind] using key
  · intro e σ2 h2 hpre
    have hp2 := hprev.mono h2.mono
    have hne : prev.character ≠ e.character := by
      intro he
      have := hprev.tagC
      rw [he, hpre.fr] at this
      cases this
    refine From.bind (From.connectS h2 hpre.nd rfl ?_ hp2.tagC (by simp) rfl rfl ?_ hpre.fr hne ?_) ?_
    · match p, hprev.ne_nil with
      | a :: q, _ => cases q <;> rfl
    · intro hh; have := hpre.nd.tag; rw [hh, (h2.inv.root bitId).2 (by decide)] at this; cases this
    · intro σ' m hS
      have hp' := hp2.mono m
      have he' : Ch C.bs σ' (p ++ [v]) e := .tail hp' (hpre.base.mono m) hS
      simp only [REdge, hp'.tagC, he'.tagC]
      exact ⟨p, v, prev, e, hp', rfl, he', rfl⟩
    · intro _ σ3 h3 ⟨l, nd, _⟩
      exact From.ret h3 (.tail (hp2.mono l.mono) (hpre.base.mono l.mono) (nd.S rfl))

/-- one step down the trie -/
theorem Does.charNext {C : RC} (hz : C.fz = none) {σ : Rt} (hi : C.I σ) {v : Bool} {p e} (he : Ch C.bs σ p e)
    (hp : C.lim.path (p ++ [v])) :
    Does C (fun el σ' => ∃ c, el = ⟨some c⟩ ∧ Ch C.bs σ' (p ++ [v]) c) (Character.provideNextElement ⟨some e⟩ v) σ := by
  unfold Character.provideNextElement
  refine Does.bind (good := fun a _ => a = e) (Does.ret hi rfl) ?_
  intro a σ1 h1 ha; subst ha
  replace he := he.mono h1.mono
  refine Does.bind (good := fun l σ' => ∀ i ∈ l, ∃ v e', Ch C.bs σ' (p ++ [v]) e' ∧ e'.character = i)
    (Does.targets h1.inv (by rw [he.tagC]; simp) ?_) ?_
  · intro σ2 l h2 hl i hi'
    exact h2.inv.charChild (he.mono h2.mono) (mem_T.1 (hl.mem_iff.1 hi'))
  intro ids σ2 h2 hids
  replace he := he.mono h2.mono
  refine Does.bind (Does.charReadAll ids h2.inv (p := p) hids) ?_
  intro cs σ3 h3 hcs
  replace he := he.mono h3.mono
  refine Does.bind (Does.charSearch v cs h3.inv (p := p) hcs) ?_
  intro o σ4 h4 ho
  replace he := he.mono h4.mono
  cases o with
  | some c => exact Does.ret h4.inv ⟨c, rfl, ho c rfl⟩
  | none =>
    refine Does.bind (Does.provideEntity h4.inv) ?_
    intro _ σ5 h5 _
    replace he := he.mono h5.mono
    refine Does.bind (Does.bitProvide h5.inv v) ?_
    intro b σ6 h6 hb
    refine Does.bind (good := fun e σ' => Ch C.bs σ' (p ++ [v]) e) ?_ ?_
    · rcases hb with hb | ⟨hh, hb⟩ <;> subst hb
      · exact Does.charTail hz h6.inv (he.mono h6.mono) hp
      · exact Does.tailBlank hh h6.inv hp
    intro c σ7 h7 hc
    exact Does.ret h7.inv ⟨c, rfl, hc⟩

theorem Does.charFirst {C : RC} (hC : C.tot = false) (hz : C.fz = none) (hso : C.lim.solo = false) {σ : Rt} (hi : C.I σ) {v : Bool} (hp : C.lim.path [v]) :
    Does C (fun el σ' => ∀ c, el.character = some c → Ch C.bs σ' [v] c) (Character.provideFirstElement v) σ := by
  unfold Character.provideFirstElement
  refine Does.bind (Does.bitProvide hi v) ?_
  intro b σ1 h1 hb
  refine Does.bind (Does.provideEntity h1.inv) ?_
  intro _ σ2 h2 _
  refine Does.bind (From.attempt (good := fun e σ' => Ch C.bs σ' [v] e) ?_) ?_
  · rcases hb with hb | ⟨hh, hb⟩ <;> subst hb
    · exact Does.charHead hC hz hso h2.inv hp
    · exact Does.headBlank hh h2.inv
  intro r σ3 h3 hr
  refine Does.ret h3.inv ?_
  cases r with
  | ok e => intro c hc; cases hc; exact hr
  | error e => intro c hc; cases hc

theorem Does.charWalk {C : RC} (hC : C.tot = false) (hz : C.fz = none) : ∀ (bs : List Bool) {σ : Rt} (_ : C.I σ) {p}
    {el : Option CharElem} (_ : ∀ c, el = some ⟨some c⟩ → Ch C.bs σ p c) (_ : PathOK C.lim (p ++ bs)),
    Does C (fun (el' : Option CharElem) σ' => ∀ c, el' = some ⟨some c⟩ → Ch C.bs σ' (p ++ bs) c)
      (Character.walk el bs) σ := by
  intro bs
  induction bs with
  | nil =>
    intro σ hi p el hel hpath
    unfold Character.walk
    refine Does.ret hi ?_
    simpa using hel
  | cons b bs ih =>
    intro σ hi p el hel hpath
    unfold Character.walk
    match el, hel with
    | none, _ => exact fun _ => ⟨.refl hi, hC⟩
    | some ⟨none⟩, _ => exact fun _ => ⟨.refl hi, hC⟩
    | some ⟨some e⟩, he =>
      replace he := he e rfl
      refine Does.bind (good := fun a _ => a = ⟨some e⟩) (Does.ret hi rfl) ?_
      intro a σ1 h1 ha; subst ha
      refine Does.bind (Does.charNext hz h1.inv (he.mono h1.mono) (hpath _ (by simp) ⟨bs, by simp⟩)).attempt ?_
      intro r σ2 h2 hr
      have := ih h2.inv (p := p ++ [b]) (el := r.toOption) ?_ (by simpa using hpath)
      · refine this.cons ?_
        intro a σ3 _ h; simpa using h
      · cases r with
        | ok el2 =>
          obtain ⟨c, rfl, hc⟩ := hr
          intro c' hc'; cases hc'; exact hc
        | error e => intro c hc; cases hc

theorem Does.charProvide {C : RC} (hC : C.tot = false) (hz : C.fz = none) (hso : C.lim.solo = false) {σ : Rt} (hi : C.I σ) {r : Rune} {path : List Bool}
    (hc : Character.collect r = .ok path) (hp : PathOK C.lim path) :
    Does C (fun a σ' => ∀ c, a.character = some c → Ch C.bs σ' path c) (Character.provide r) σ := by
  unfold Character.provide
  rw [hc]
  match path with
  | [] => exact From.panic (.refl hi) hC
  | b :: bs =>
    refine Does.bind (Does.charFirst hC hz hso hi (v := b) (hp [b] (by simp) ⟨bs, rfl⟩)) ?_
    intro el σ1 h1 hel
    refine Does.bind (Does.charWalk hC hz bs h1.inv (p := [b]) (el := some el) ?_ (by simpa using hp)) ?_
    · intro c hc; cases hc; exact hel c rfl
    intro el2 σ2 h2 hel2
    match el2, hel2 with
    | none, _ => exact fun _ => ⟨.refl h2.inv, hC⟩
    | some ⟨none⟩, _ => exact Does.ret h2.inv (by simp)
    | some ⟨some e⟩, he =>
      refine Does.ret (a := (⟨some e⟩ : CharAgg)) h2.inv ?_
      intro c hc; cases hc
      exact he e rfl

end Semnet.Race
