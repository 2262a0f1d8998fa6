import Verif.Proof.RaceWp
/-
  Several processes writing at the same time: reading back characters, words, phrases, details and remarks.
-/
namespace Semnet.Race
open Class

/-- a reference, what is known of the bit layer being kept -/
theorem rwpk_getRef {β : Type} {C : RC} {Q : Out β → Rt → Prop} {κ : Know} {σ : Rt} {x : Nat} (hx : σ.tag x ≠ .none)
    {f : Nat × Nat → Go β} (h : ∀ σ1, Env C σ σ1 → rwpk C Q (f (σ1.back x, σ1.fwd x)) κ σ1)
    (he : C.tot = false → ∀ σ1, Env C σ σ1 → Q (.err .fault) σ1) : rwpk C Q (Go.getReference x >>= f) κ σ := by
  intro c hc σ1 h1
  have hl : σ1.store.live x = true := (h1.inv.live x).2 (by rw [h1.mono.tag x hx]; exact hx)
  have e1 : σ1.after c (.getReference x) σ1.tag σ1.own = σ1 := rfl
  refine ⟨⟨σ1.tag, σ1.own, ?_, ?_⟩, fun hF => he hF σ1 h1, fun hF => ⟨σ1.tag, σ1.own, ?_, ?_⟩⟩
  · rw [e1]; exact .refl h1.inv
  · rw [e1]
    simp only [Store.step, hl, if_true]
    exact h σ1 h1
  · rw [e1]; exact .refl h1.inv
  · rw [e1]; exact he hF σ1 h1

/-- the bit, or what may be seen instead of it -/
def RC.One (C : RC) (b r : BitE) : Prop := b = r ∨ (C.hazy = true ∧ b = blank)

theorem RC.One.right {C : RC} (h : C.hazy = false) {b r : BitE} (hb : C.One b r) : b = r :=
  hb.resolve_right fun h' => by rw [h] at h'; cases h'.1

theorem RC.hazy_tot {C : RC} (h : C.hazy = true) : C.tot = false := by
  simp only [RC.hazy, Bool.and_eq_true, Bool.not_eq_true'] at h
  exact h.1.2

theorem RC.hazy_zero {C : RC} (h : C.hazy = true) : C.cfg.zero = false := by
  simp only [RC.hazy, Bool.and_eq_true, Bool.not_eq_true'] at h
  exact h.2

/-- reading the initialized layer -/
theorem rwpk_bitRead {C : RC} {σ0 σ : Rt} (hl : Later C σ0 σ) :
    rwpk C (Post C σ0 (fun a _ => C.One a.1 C.bs.1 ∧ C.One a.2 C.bs.2)) (do
      let z ← Go.readMem
      let o ← Go.readMem
      pure (z.zeroEntity, o.oneEntity)) .top σ := by
  intro m hm m' hm'
  have e : Know.top.learn m = .top := by unfold Know.learn; split <;> rfl
  rw [e] at hm'
  refine ⟨hl, ?_, ?_⟩
  · rcases hm with ⟨hz, hm⟩ | ⟨_, hm⟩
    · exact hm.1.imp id fun h => ⟨hz, h⟩
    · exact .inl (hm.zero rfl)
  · rcases hm' with ⟨hz, hm⟩ | ⟨_, hm⟩
    · exact hm.2.imp id fun h => ⟨hz, h⟩
    · exact .inl (hm.one rfl)

/-- `bit.layer.initialize` on a storage that has its bits -/
theorem Does.bitInit {C : RC} {σ : Rt} (hi : C.I σ) : Does C (fun a _ => C.One a.1 C.bs.1 ∧ C.One a.2 C.bs.2) Bit.init σ := by
  intro κ l hl
  show rwpk C _ ((if l.isInitialized = true then pure () else Bit.fill) >>= fun _ => do
      let z ← Go.readMem
      let o ← Go.readMem
      pure (z.zeroEntity, o.oneEntity)) _ σ
  unfold Know.learn
  by_cases hm : l.isInitialized = true
  · rw [if_pos hm, if_pos hm]
    exact rwpk_bitRead (.refl hi)
  · rw [if_neg hm, if_neg hm]
    suffices h : Does C (fun a _ => C.One a.1 C.bs.1 ∧ C.One a.2 C.bs.2) (Bit.fill >>= fun _ => do
      let z ← Go.readMem
      let o ← Go.readMem
      pure (z.zeroEntity, o.oneEntity)) σ from h κ
    unfold Bit.fill
    rw [bind_assoc]
    refine Does.bind (Does.provideEntity hi) ?_
    intro _ σ2 h2 _
    rw [bind_assoc]
    refine Does.bind (good := fun l _ => l.Perm [C.bs.1.cls, C.bs.2.cls]) (p := Class.getAllBits) ?_ ?_
    · refine Does.sources h2.inv ?_ ?_
      · have := h2.inv.Sroot (k := bitId) (by decide) (by decide)
        rw [this]; simp
      · intro σ3 l h3 hl
        exact hl.trans h3.inv.bits.S1
    intro cs σ3 h3 hcs
    have ok3 := h3.inv.bits
    have hlt := ok3.lt
    have key : ∀ a b : Nat, (if a < b then a else b) = C.bs.1.cls → (if a < b then b else a) = C.bs.2.cls →
        Does C (fun a _ => C.One a.1 C.bs.1 ∧ C.One a.2 C.bs.2) ((do
          let zeroClass := if a < b then a else b
          let oneClass := if a < b then b else a
          let zr ← Go.getReference zeroClass
          Go.assign (.zeroEntity ⟨false, zeroClass, zr.2, true⟩)
          let or ← Go.getReference oneClass
          Go.assign (.oneEntity ⟨true, oneClass, or.2, true⟩)
          Go.assign .isInitialized) >>= fun _ => do
            let z ← Go.readMem
            let o ← Go.readMem
            pure (z.zeroEntity, o.oneEntity)) σ3 := by
      intro a b e1 e2 κ
      simp only [e1, e2, bind_assoc]
      refine rwpk_getRef (by have := ok3.tc0; rw [this]; simp) ?_ fun hF σ4 h4 => ⟨h4.toLater, hF⟩
      intro σ4 h4
      have e0 : (⟨false, C.bs.1.cls, σ4.fwd C.bs.1.cls, true⟩ : BitE) = C.bs.1 := by rw [h4.inv.bits.f0, ok3.mk0]
      refine ⟨{ κ with zero := true }, by simp only [Know.assign, e0, if_true], ?_⟩
      refine rwpk_getRef (by have := h4.inv.bits.tc1; rw [this]; simp) ?_
        fun hF σ5 h5 => ⟨h4.toLater.trans h5.toLater, hF⟩
      intro σ5 h5
      have e1 : (⟨true, C.bs.2.cls, σ5.fwd C.bs.2.cls, true⟩ : BitE) = C.bs.2 := by rw [h5.inv.bits.f1, ok3.mk1]
      refine ⟨{ κ with zero := true, one := true }, by simp only [Know.assign, e1, if_true], ?_⟩
      exact ⟨.top, rfl, rwpk_bitRead (h4.toLater.trans h5.toLater)⟩
    rcases perm_two hcs with rfl | rfl
    · exact key _ _ (if_pos hlt) (if_pos hlt)
    · exact key _ _ (if_neg (Nat.not_lt.2 (Nat.le_of_lt hlt))) (if_neg (Nat.not_lt.2 (Nat.le_of_lt hlt)))

theorem Does.bitProvide {C : RC} {σ : Rt} (hi : C.I σ) (v : Bool) :
    Does C (fun a _ => C.One a (bitEnt C.bs v)) (Bit.provide v) σ := by
  unfold Bit.provide
  refine Does.bind (Does.bitInit hi) ?_
  intro a σ1 h1 ⟨h2, h3⟩
  refine Does.ret h1.inv ?_
  cases v
  · exact h2
  · exact h3

theorem Does.bitFetch {C : RC} {σ : Rt} (hi : C.I σ) (v : Bool) :
    Does C (fun a _ => a.value = v) (Bit.fetch (bitNode C.bs v)) σ := by
  unfold Bit.fetch
  refine Does.bind (Does.bitInit hi) ?_
  intro a σ1 h1 ⟨hz, ho⟩
  have ok := hi.bits
  have n0 : bitNode C.bs v ≠ 0 := by
    cases v
    · exact ok.c0
    · exact ok.c1
  simp only
  split
  · rename_i e
    rcases hz with hz | ⟨hz, h⟩
    · rw [hz] at e ⊢
      cases v
      · exact Does.ret h1.inv ok.v0
      · exact absurd e ok.ne.symm
    · rw [h] at e; exact absurd e n0
  · rename_i e
    split
    · rename_i e'
      rcases ho with ho | ⟨ho, h⟩
      · rw [ho] at e' ⊢
        cases v
        · exact absurd e' ok.ne
        · exact Does.ret h1.inv ok.v1
      · rw [h] at e'; exact absurd e' n0
    · rename_i e'
      rcases hz with hz | hz
      · rcases ho with ho | ho
        · rw [hz] at e; rw [ho] at e'
          cases v
          · exact absurd rfl e
          · exact absurd rfl e'
        · exact From.err (.refl h1.inv) (RC.hazy_tot ho.1)
      · exact From.err (.refl h1.inv) (RC.hazy_tot hz.1)

/-- a storage call that finds a node missing -/
theorem Does.missing {C : RC} (hC : C.tot = false) {σ : Rt} {o : Op} {good : o.Res → Rt → Prop}
    (h : ∀ σ1 c, C.I σ1 → σ1.store.step c o = (.error .noNode, σ1.store)) : Does C good (Go.call o) σ := by
  intro κ c hc σ1 he
  have e1 : σ1.after c o σ1.tag σ1.own = σ1 := by simp only [Rt.after, h σ1 c he.inv]
  have hl : Later C σ σ1 := he.toLater
  refine ⟨⟨σ1.tag, σ1.own, ?_, ?_⟩, fun hF => ⟨hl, hF⟩, fun hF => ⟨σ1.tag, σ1.own, ?_, ?_⟩⟩
  · rw [e1]; exact .refl he.inv
  · rw [e1, h σ1 c he.inv]; exact ⟨hl, hC⟩
  · rw [e1]; exact .refl he.inv
  · rw [e1]; exact ⟨hl, hF⟩

theorem RC.no_zero {C : RC} (h : C.hazy = true) {σ : Rt} (hi : C.I σ) : σ.store.live 0 = false := by
  cases e : σ.store.live 0 with
  | false => rfl
  | true => exact absurd (hi.node0 (RC.hazy_zero h)) ((hi.live 0).1 e)

/-- the bit that is seen instead has no storage -/
theorem Does.headBlank {C : RC} (h : C.hazy = true) {σ : Rt} (hi : C.I σ) {good : CharE → Rt → Prop} :
    Does C good (Character.provideHeadEntity blank) σ := by
  unfold Character.provideHeadEntity Bit.hasTargetCharacter
  exact From.panic (.refl hi) (RC.hazy_tot h)

/-! ### characters -/

theorem Ch.ne_nil {bs σ p e} (h : Ch bs σ p e) : p ≠ [] := by cases h <;> simp

/-- all cases of a character at once -/
theorem Ch.cases' {bs σ p e} (h : Ch bs σ p e) :
    ∃ q v, p = q ++ [v] ∧ ChB bs σ e p v ∧
      (q = [] ∨ ∃ e', Ch bs σ q e' ∧ σ.S e.character = [e'.character]) := by
  cases h with
  | head hb => exact ⟨[], _, rfl, hb, .inl rfl⟩
  | tail h hb hS => exact ⟨_, _, rfl, hb, .inr ⟨_, h, hS⟩⟩

theorem Ch.base {bs σ p e} (h : Ch bs σ p e) : ∃ q v, p = q ++ [v] ∧ ChB bs σ e p v := by
  obtain ⟨q, v, h1, h2, _⟩ := h.cases'
  exact ⟨q, v, h1, h2⟩

theorem Ch.tagC {bs σ p e} (h : Ch bs σ p e) : σ.tag e.character = .chC p := by
  obtain ⟨_, _, _, hb⟩ := h.base; exact hb.tc
theorem Ch.tagW {bs σ p e} (h : Ch bs σ p e) : σ.tag e.word = .chW := by
  obtain ⟨_, _, _, hb⟩ := h.base; exact hb.tw
theorem Ch.tagB {bs σ p e} (h : Ch bs σ p e) : σ.tag e.bit = .chB := by
  obtain ⟨_, _, _, hb⟩ := h.base; exact hb.tb
theorem Ch.chain {bs σ p e} (h : Ch bs σ p e) : Chain σ e.cls e.bit e.character e.word := by
  obtain ⟨_, _, _, hb⟩ := h.base; exact hb.chain
theorem Ch.path {cfg lim bs fz σ p e} (hi : RI cfg lim bs fz σ) (h : Ch bs σ p e) : lim.path p := by
  have := hi.tagOK e.character; rw [h.tagC] at this; exact this.1
theorem Ch.len {cfg lim bs fz σ p e} (hi : RI cfg lim bs fz σ) (h : Ch bs σ p e) : p.length ≤ lim.L :=
  lim.path_len p (h.path hi)

theorem Does.charByCharacter {C : RC} {σ : Rt} (hi : C.I σ) {p e} (h : Ch C.bs σ p e) :
    Does C (fun a _ => a = e) (Character.readEntityByCharacter e.character) σ := by
  unfold Character.readEntityByCharacter
  refine Does.bind (Does.getRefMid hi h.chain.bc h.chain.cd) ?_
  intro a σ1 h1 ha; subst ha
  refine Does.bind (Does.getRefMid h1.inv (h.mono h1.mono).chain.ab (h.mono h1.mono).chain.bc) ?_
  intro a σ2 h2 ha; subst ha
  exact Does.ret h2.inv rfl

theorem Does.charByBit {C : RC} {σ : Rt} (hi : C.I σ) {p e} (h : Ch C.bs σ p e) :
    Does C (fun a _ => a = e) (Character.readEntityByBit e.bit) σ := by
  unfold Character.readEntityByBit
  refine Does.bind (Does.getRefMid hi h.chain.ab h.chain.bc) ?_
  intro a σ1 h1 ha; subst ha
  refine Does.bind (Does.getRefMid h1.inv (h.mono h1.mono).chain.bc (h.mono h1.mono).chain.cd) ?_
  intro a σ2 h2 ha; subst ha
  exact Does.ret h2.inv rfl

theorem Does.charByWord {C : RC} {σ : Rt} (hi : C.I σ) {p e} (h : Ch C.bs σ p e) :
    Does C (fun a _ => a = e) (Character.readEntityByWord e.word) σ := by
  unfold Character.readEntityByWord
  refine Does.bind (Does.getRefB hi h.chain.cd) ?_
  intro a σ1 h1 ha; rw [ha]
  refine Does.bind (Does.getRefMid h1.inv (h.mono h1.mono).chain.bc (h.mono h1.mono).chain.cd) ?_
  intro a σ2 h2 ha; subst ha
  have h12 := h1.mono.trans h2.mono
  refine Does.bind (Does.getRefMid h2.inv (h.mono h12).chain.ab (h.mono h12).chain.bc) ?_
  intro a σ3 h3 ha; subst ha
  exact Does.ret h3.inv rfl

theorem Does.getTargetBit {C : RC} {σ : Rt} (hi : C.I σ) {e p v} (h : ChB C.bs σ e p v) :
    Does C (fun a _ => a = bitNode C.bs v) (Character.getTargetBit e) σ := by
  unfold Character.getTargetBit
  refine Does.bind (Does.targets1 hi h.tb rfl h.Tb) ?_
  intro a σ1 h1 ha; subst ha
  exact Does.ret h1.inv rfl

theorem Does.extractBitValue {C : RC} {σ : Rt} (hi : C.I σ) {e p v}
    (h : ChB C.bs σ e p v) : Does C (fun a _ => a = v) (Character.extractBitValue ⟨some e⟩) σ := by
  unfold Character.extractBitValue
  refine Does.bind (good := fun a _ => a = e) (Does.ret hi rfl) ?_
  intro a σ1 h1 ha; subst ha
  refine Does.bind (Does.getTargetBit h1.inv (h.mono h1.mono)) ?_
  intro a σ2 h2 ha; subst ha
  refine Does.bind (Does.bitFetch h2.inv v) ?_
  intro a σ3 h3 ha
  exact Does.ret h3.inv ha

theorem Does.charLoop {C : RC} : ∀ (fuel : Nat) {σ : Rt} (_ : C.I σ) {p e}
    (_ : Ch C.bs σ p e) (path : List Bool), p.length ≤ fuel →
    Does C (fun a _ => a = path ++ p.dropLast.reverse) (Character.extractLoop fuel ⟨some e⟩ path) σ := by
  intro fuel
  induction fuel with
  | zero =>
    intro σ hi p e h path hl
    exact absurd (List.length_eq_zero_iff.1 (Nat.le_zero.1 hl)) h.ne_nil
  | succ n ih =>
    intro σ hi p e h path hl
    unfold Character.extractLoop
    obtain ⟨q, v, hp, hb, hc⟩ := h.cases'
    rcases hc with hq | ⟨e', he', hS⟩
    · subst hq
      refine Does.bind (good := fun a _ => a = false) (p := Character.hasPreviousElement ⟨some e⟩) ?_ ?_
      · unfold Character.hasPreviousElement
        refine Does.bind (good := fun a _ => a = e) (Does.ret hi rfl) ?_
        intro a σ1 h1 ha; subst ha
        unfold Character.hasSourceCharacter
        have := hb.tc
        refine Does.bind (Does.sources0 h1.inv (t := .chC p) (h1.mono.tagEq hb.tc (by simp)) (by rw [hp]; rfl)) ?_
        intro a σ2 h2 ha; subst ha
        exact Does.ret h2.inv rfl
      · intro a σ1 h1 ha; subst ha
        simp only [Bool.false_eq_true, if_false]
        exact Does.ret h1.inv (by simp [hp])
    · refine Does.bind (good := fun a _ => a = true) (p := Character.hasPreviousElement ⟨some e⟩) ?_ ?_
      · unfold Character.hasPreviousElement
        refine Does.bind (good := fun a _ => a = e) (Does.ret hi rfl) ?_
        intro a σ1 h1 ha; subst ha
        unfold Character.hasSourceCharacter
        refine Does.bind (Does.sources1 h1.inv (h1.mono.tagEq hb.tc (by simp)) rfl
          (h1.mono.Seq hb.tc rfl hS (by simp))) ?_
        intro a σ2 h2 ha; subst ha
        exact Does.ret h2.inv rfl
      · intro a σ1 h1 ha; subst ha
        simp only [if_true]
        refine Does.attemptDeref (good := fun a _ => a = ⟨some e'⟩) ?_ ?_
        · unfold Character.getPreviousElement
          refine Does.bind (good := fun a _ => a = e) (Does.ret h1.inv rfl) ?_
          intro a σ2 h2 ha; subst ha
          have h12 := h1.trans h2
          refine Does.bind (good := fun a _ => a = e'.character) ?_ ?_
          · unfold Character.getSourceCharacter
            refine Does.bind (Does.sources1 h2.inv (h12.mono.tagEq hb.tc (by simp)) rfl
              (h12.mono.Seq hb.tc rfl hS (by simp))) ?_
            intro a σ3 h3 ha; subst ha
            exact Does.ret h3.inv rfl
          · intro a σ3 h3 ha; subst ha
            refine Does.bind (Does.charByCharacter h3.inv (he'.mono (h12.trans h3).mono)) ?_
            intro a σ4 h4 ha; subst ha
            exact Does.ret h4.inv rfl
        · intro a σ2 h2 ha; subst ha
          have h12 := h1.trans h2
          obtain ⟨q', v', hq', hb'⟩ := (he'.mono h12.mono).base
          refine Does.bind (Does.extractBitValue h2.inv hb') ?_
          intro a σ3 h3 ha; subst ha
          refine From.cons (ih h3.inv (he'.mono (h12.trans h3).mono) _ ?_) ?_
          · rw [hp] at hl; simp at hl; omega
          · intro r _ _ hr
            subst hr
            subst hq'
            simp [hp]

theorem Does.charExtract {C : RC} {σ : Rt} (hi : C.I σ) {p e} (h : Ch C.bs σ p e) {fuel : Nat}
    (hf : C.lim.L ≤ fuel) :
    Does C (fun a _ => a = Character.toRune p) (Character.extract fuel ⟨some e⟩) σ := by
  unfold Character.extract
  obtain ⟨q, v, hp, hb⟩ := h.base
  refine Does.bind (Does.extractBitValue hi hb) ?_
  intro a σ1 h1 ha; subst ha
  refine Does.bind (Does.charLoop fuel h1.inv (h.mono h1.mono) _ (Nat.le_trans (h.len hi) hf)) ?_
  intro a σ2 h2 ha; subst ha
  exact Does.ret h2.inv (by simp [hp])

/-! ### words -/

theorem Wd.ne_nil {bs σ p e} (h : Wd bs σ p e) : p ≠ [] := by cases h <;> simp

theorem Wd.cases' {bs σ rs w} (h : Wd bs σ rs w) :
    ∃ q p c, rs = q ++ [Character.toRune p] ∧ WdB bs σ w rs p c ∧
      (q = [] ∨ ∃ w', Wd bs σ q w' ∧ σ.S w.word = [w'.word]) := by
  cases h with
  | head hb => exact ⟨[], _, _, rfl, hb, .inl rfl⟩
  | tail h hb hS => exact ⟨_, _, _, rfl, hb, .inr ⟨_, h, hS⟩⟩

theorem Wd.base {bs σ rs w} (h : Wd bs σ rs w) :
    ∃ q p c, rs = q ++ [Character.toRune p] ∧ WdB bs σ w rs p c := by
  obtain ⟨q, p, c, h1, h2, _⟩ := h.cases'
  exact ⟨q, p, c, h1, h2⟩

theorem Wd.tagC {bs σ rs w} (h : Wd bs σ rs w) : σ.tag w.character = .wdC := by
  obtain ⟨_, _, _, _, hb⟩ := h.base; exact hb.tc
theorem Wd.tagW {bs σ rs w} (h : Wd bs σ rs w) : σ.tag w.word = .wdW rs := by
  obtain ⟨_, _, _, _, hb⟩ := h.base; exact hb.tw
theorem Wd.tagP {bs σ rs w} (h : Wd bs σ rs w) : σ.tag w.phrase = .wdP := by
  obtain ⟨_, _, _, _, hb⟩ := h.base; exact hb.tp
theorem Wd.chain {bs σ rs w} (h : Wd bs σ rs w) : Chain σ w.cls w.character w.word w.phrase := by
  obtain ⟨_, _, _, _, hb⟩ := h.base; exact hb.chain
theorem Wd.len {cfg lim bs fz σ rs w} (hi : RI cfg lim bs fz σ) (h : Wd bs σ rs w) : rs.length ≤ lim.D := by
  have := hi.tagOK w.word; rw [h.tagW] at this; exact this.1
theorem Wd.good {bs σ rs w} (h : Wd bs σ rs w) : ∀ r ∈ rs, goodRune r := by
  induction h with
  | head hb => simpa using hb.good
  | tail _ hb _ ih =>
    intro r hr
    rcases List.mem_append.1 hr with hr | hr
    · exact ih r hr
    · rw [List.mem_singleton] at hr; rw [hr]; exact hb.good

theorem Does.wordByCharacter {C : RC} {σ : Rt} (hi : C.I σ) {p e} (h : Wd C.bs σ p e) :
    Does C (fun a _ => a = e) (Word.readEntityByCharacter e.character) σ := by
  unfold Word.readEntityByCharacter
  refine Does.bind (Does.getRefMid hi h.chain.ab h.chain.bc) ?_
  intro a σ1 h1 ha; subst ha
  refine Does.bind (Does.getRefMid h1.inv (h.mono h1.mono).chain.bc (h.mono h1.mono).chain.cd) ?_
  intro a σ2 h2 ha; subst ha
  exact Does.ret h2.inv rfl

theorem Does.wordByWord {C : RC} {σ : Rt} (hi : C.I σ) {p e} (h : Wd C.bs σ p e) :
    Does C (fun a _ => a = e) (Word.readEntityByWord e.word) σ := by
  unfold Word.readEntityByWord
  refine Does.bind (Does.getRefMid hi h.chain.bc h.chain.cd) ?_
  intro a σ1 h1 ha; subst ha
  refine Does.bind (Does.getRefMid h1.inv (h.mono h1.mono).chain.ab (h.mono h1.mono).chain.bc) ?_
  intro a σ2 h2 ha; subst ha
  exact Does.ret h2.inv rfl

theorem Does.wordByPhrase {C : RC} {σ : Rt} (hi : C.I σ) {p e} (h : Wd C.bs σ p e) :
    Does C (fun a _ => a = e) (Word.readEntityByPhrase e.phrase) σ := by
  unfold Word.readEntityByPhrase
  refine Does.bind (Does.getRefB hi h.chain.cd) ?_
  intro a σ1 h1 ha; rw [ha]
  refine Does.bind (Does.getRefMid h1.inv (h.mono h1.mono).chain.bc (h.mono h1.mono).chain.cd) ?_
  intro a σ2 h2 ha; subst ha
  have h12 := h1.mono.trans h2.mono
  refine Does.bind (Does.getRefMid h2.inv (h.mono h12).chain.ab (h.mono h12).chain.bc) ?_
  intro a σ3 h3 ha; subst ha
  exact Does.ret h3.inv rfl

theorem Does.extractCharacterValue {C : RC} {σ : Rt} (hi : C.I σ) {w rs p c}
    (h : WdB C.bs σ w rs p c) {fuel : Nat} (hf : C.lim.L ≤ fuel) :
    Does C (fun a _ => a = Character.toRune p) (Word.extractCharacterValue fuel w) σ := by
  unfold Word.extractCharacterValue
  refine Does.bind (good := fun a _ => a = c.word) ?_ ?_
  · unfold Word.getTargetCharacter
    refine Does.bind (Does.targets1 hi h.tc rfl h.Tc) ?_
    intro a σ1 h1 ha; subst ha
    exact Does.ret h1.inv rfl
  intro a σ1 h1 ha; subst ha
  refine Does.bind (good := fun a _ => a = ⟨some c⟩) ?_ ?_
  · unfold Character.fetch
    refine Does.bind (Does.charByWord h1.inv (h.ch.mono h1.mono)) ?_
    intro a σ2 h2 ha; subst ha
    exact Does.ret h2.inv rfl
  intro a σ2 h2 ha; subst ha
  exact Does.charExtract h2.inv (h.ch.mono (h1.trans h2).mono) hf

theorem Does.wordLoop {C : RC} {fuel : Nat} (hf : C.lim.L ≤ fuel) :
    ∀ (n : Nat) {σ : Rt} (_ : C.I σ) {rs w}
    (_ : Wd C.bs σ rs w) (path : List Int), rs.length ≤ n →
    Does C (fun a _ => a = path ++ rs.dropLast.reverse) (Word.extractLoop fuel n w path) σ := by
  intro n
  induction n with
  | zero =>
    intro σ hi p e h path hl
    exact absurd (List.length_eq_zero_iff.1 (Nat.le_zero.1 hl)) h.ne_nil
  | succ n ih =>
    intro σ hi rs w h path hl
    unfold Word.extractLoop
    obtain ⟨q, p, c, hp, hb, hc⟩ := h.cases'
    rcases hc with hq | ⟨e', he', hS⟩
    · subst hq
      refine Does.bind (good := fun a _ => a = false) (p := Word.hasSourceWord w) ?_ ?_
      · unfold Word.hasSourceWord
        refine Does.bind (Does.sources0 hi (t := .wdW rs) hb.tw (by rw [hp]; rfl)) ?_
        intro a σ2 h2 ha; subst ha
        exact Does.ret h2.inv rfl
      · intro a σ1 h1 ha; subst ha
        simp only [Bool.false_eq_true, if_false]
        exact Does.ret h1.inv (by simp [hp])
    · refine Does.bind (good := fun a _ => a = true) (p := Word.hasSourceWord w) ?_ ?_
      · unfold Word.hasSourceWord
        refine Does.bind (Does.sources1 hi hb.tw rfl hS) ?_
        intro a σ2 h2 ha; subst ha
        exact Does.ret h2.inv rfl
      · intro a σ1 h1 ha; subst ha
        simp only [if_true]
        refine Does.attemptDeref (good := fun a _ => a = e') ?_ ?_
        · unfold Word.getPreviousElement
          refine Does.bind (good := fun a _ => a = e'.word) ?_ ?_
          · unfold Word.getSourceWord
            refine Does.bind (Does.sources1 h1.inv (h1.mono.tagEq hb.tw (by simp)) rfl
              (h1.mono.Seq hb.tw rfl hS (by simp))) ?_
            intro a σ3 h3 ha; subst ha
            exact Does.ret h3.inv rfl
          · intro a σ3 h3 ha; subst ha
            exact Does.wordByWord h3.inv (he'.mono (h1.trans h3).mono)
        · intro a σ2 h2 ha; subst ha
          have h12 := h1.trans h2
          obtain ⟨q', p', c', hq', hb'⟩ := (he'.mono h12.mono).base
          refine Does.bind (Does.extractCharacterValue h2.inv hb' hf) ?_
          intro a σ3 h3 ha; subst ha
          refine From.cons (ih h3.inv (he'.mono (h12.trans h3).mono) _ ?_) ?_
          · rw [hp] at hl; simp at hl; omega
          · intro r _ _ hr
            subst hr
            subst hq'
            simp [hp]

theorem Does.wordExtract {C : RC} {σ : Rt} (hi : C.I σ) {rs w} (h : Wd C.bs σ rs w) {fuel : Nat}
    (hf : C.lim.L ≤ fuel) (hD : C.lim.D ≤ fuel) :
    Does C (fun a _ => a = stringOf rs) (Word.extract fuel w) σ := by
  unfold Word.extract
  obtain ⟨q, p, c, hp, hb⟩ := h.base
  refine Does.bind (Does.extractCharacterValue hi hb hf) ?_
  intro a σ1 h1 ha; subst ha
  refine Does.bind (Does.wordLoop hf fuel h1.inv (h.mono h1.mono) _ (Nat.le_trans (h.len hi) hD)) ?_
  intro a σ2 h2 ha; subst ha
  exact Does.ret h2.inv (by simp [hp])

/-! ### phrases -/

theorem Ph.ne_nil {bs σ p e} (h : Ph bs σ p e) : p ≠ [] := by cases h <;> simp

theorem Ph.cases' {bs σ ws e} (h : Ph bs σ ws e) :
    ∃ q rs w, ws = q ++ [rs] ∧ PhB bs σ e ws rs w ∧
      (q = [] ∨ ∃ e', Ph bs σ q e' ∧ σ.S e.phrase = [e'.phrase]) := by
  cases h with
  | head hb => exact ⟨[], _, _, rfl, hb, .inl rfl⟩
  | tail h hb hS => exact ⟨_, _, _, rfl, hb, .inr ⟨_, h, hS⟩⟩

theorem Ph.base {bs σ ws e} (h : Ph bs σ ws e) : ∃ q rs w, ws = q ++ [rs] ∧ PhB bs σ e ws rs w := by
  obtain ⟨q, p, c, h1, h2, _⟩ := h.cases'
  exact ⟨q, p, c, h1, h2⟩

theorem Ph.tagW {bs σ ws e} (h : Ph bs σ ws e) : σ.tag e.word = .phW := by
  obtain ⟨_, _, _, _, hb⟩ := h.base; exact hb.tw
theorem Ph.tagP {bs σ ws e} (h : Ph bs σ ws e) : σ.tag e.phrase = .phP ws := by
  obtain ⟨_, _, _, _, hb⟩ := h.base; exact hb.tp
theorem Ph.tagD {bs σ ws e} (h : Ph bs σ ws e) : σ.tag e.detail = .phD := by
  obtain ⟨_, _, _, _, hb⟩ := h.base; exact hb.td
theorem Ph.chain {bs σ ws e} (h : Ph bs σ ws e) : Chain σ e.cls e.word e.phrase e.detail := by
  obtain ⟨_, _, _, _, hb⟩ := h.base; exact hb.chain
theorem Ph.len {cfg lim bs fz σ ws e} (hi : RI cfg lim bs fz σ) (h : Ph bs σ ws e) : ws.length ≤ lim.D := by
  have := hi.tagOK e.phrase; rw [h.tagP] at this; exact this.1

theorem Does.phraseByWord {C : RC} {σ : Rt} (hi : C.I σ) {p e} (h : Ph C.bs σ p e) :
    Does C (fun a _ => a = e) (Phrase.readEntityByWord e.word) σ := by
  unfold Phrase.readEntityByWord
  refine Does.bind (Does.getRefMid hi h.chain.ab h.chain.bc) ?_
  intro a σ1 h1 ha; subst ha
  refine Does.bind (Does.getRefMid h1.inv (h.mono h1.mono).chain.bc (h.mono h1.mono).chain.cd) ?_
  intro a σ2 h2 ha; subst ha
  exact Does.ret h2.inv rfl

theorem Does.phraseByPhrase {C : RC} {σ : Rt} (hi : C.I σ) {p e} (h : Ph C.bs σ p e) :
    Does C (fun a _ => a = e) (Phrase.readEntityByPhrase e.phrase) σ := by
  unfold Phrase.readEntityByPhrase
  refine Does.bind (Does.getRefMid hi h.chain.bc h.chain.cd) ?_
  intro a σ1 h1 ha; subst ha
  refine Does.bind (Does.getRefMid h1.inv (h.mono h1.mono).chain.ab (h.mono h1.mono).chain.bc) ?_
  intro a σ2 h2 ha; subst ha
  exact Does.ret h2.inv rfl

theorem Does.phraseByDetail {C : RC} {σ : Rt} (hi : C.I σ) {p e} (h : Ph C.bs σ p e) :
    Does C (fun a _ => a = e) (Phrase.readEntityByDetail e.detail) σ := by
  unfold Phrase.readEntityByDetail
  refine Does.bind (Does.getRefB hi h.chain.cd) ?_
  intro a σ1 h1 ha; rw [ha]
  refine Does.bind (Does.getRefMid h1.inv (h.mono h1.mono).chain.bc (h.mono h1.mono).chain.cd) ?_
  intro a σ2 h2 ha; subst ha
  have h12 := h1.mono.trans h2.mono
  refine Does.bind (Does.getRefMid h2.inv (h.mono h12).chain.ab (h.mono h12).chain.bc) ?_
  intro a σ3 h3 ha; subst ha
  exact Does.ret h3.inv rfl

theorem Does.extractWordValue {C : RC} {σ : Rt} (hi : C.I σ) {e ws rs w}
    (h : PhB C.bs σ e ws rs w) {fuel : Nat} (hf : C.lim.L ≤ fuel) (hD : C.lim.D ≤ fuel) :
    Does C (fun a _ => a = stringOf rs) (Phrase.extractWordValue fuel e) σ := by
  unfold Phrase.extractWordValue
  refine Does.bind (good := fun a _ => a = w.phrase) ?_ ?_
  · unfold Phrase.getTargetWord
    refine Does.bind (Does.targets1 hi h.tw rfl h.Tw) ?_
    intro a σ1 h1 ha; subst ha
    exact Does.ret h1.inv rfl
  intro a σ1 h1 ha; subst ha
  refine Does.bind (good := fun a _ => a = w) (Does.wordByPhrase h1.inv (h.wd.mono h1.mono)) ?_
  intro a σ2 h2 ha; subst ha
  exact Does.wordExtract h2.inv (h.wd.mono (h1.trans h2).mono) hf hD

theorem Does.phraseLoop {C : RC} {fuel : Nat} (hf : C.lim.L ≤ fuel) (hD : C.lim.D ≤ fuel) :
    ∀ (n : Nat) {σ : Rt} (_ : C.I σ) {ws e}
    (_ : Ph C.bs σ ws e) (path : List GoStr), ws.length ≤ n →
    Does C (fun a _ => a = path ++ (ws.dropLast.map stringOf).reverse) (Phrase.extractLoop fuel n e path) σ := by
  intro n
  induction n with
  | zero =>
    intro σ hi p e h path hl
    exact absurd (List.length_eq_zero_iff.1 (Nat.le_zero.1 hl)) h.ne_nil
  | succ n ih =>
    intro σ hi ws e h path hl
    unfold Phrase.extractLoop
    obtain ⟨q, rs, w, hp, hb, hc⟩ := h.cases'
    rcases hc with hq | ⟨e', he', hS⟩
    · subst hq
      refine Does.bind (good := fun a _ => a = false) (p := Phrase.hasSourcePhrase e) ?_ ?_
      · unfold Phrase.hasSourcePhrase
        refine Does.bind (Does.sources0 hi (t := .phP ws) hb.tp (by rw [hp]; rfl)) ?_
        intro a σ2 h2 ha; subst ha
        exact Does.ret h2.inv rfl
      · intro a σ1 h1 ha; subst ha
        simp only [Bool.false_eq_true, if_false]
        exact Does.ret h1.inv (by simp [hp])
    · refine Does.bind (good := fun a _ => a = true) (p := Phrase.hasSourcePhrase e) ?_ ?_
      · unfold Phrase.hasSourcePhrase
        refine Does.bind (Does.sources1 hi hb.tp rfl hS) ?_
        intro a σ2 h2 ha; subst ha
        exact Does.ret h2.inv rfl
      · intro a σ1 h1 ha; subst ha
        simp only [if_true]
        refine Does.attemptDeref (good := fun a _ => a = e') ?_ ?_
        · unfold Phrase.getPreviousElement
          refine Does.bind (good := fun a _ => a = e'.phrase) ?_ ?_
          · unfold Phrase.getSourcePhrase
            refine Does.bind (Does.sources1 h1.inv (h1.mono.tagEq hb.tp (by simp)) rfl
              (h1.mono.Seq hb.tp rfl hS (by simp))) ?_
            intro a σ3 h3 ha; subst ha
            exact Does.ret h3.inv rfl
          · intro a σ3 h3 ha; subst ha
            exact Does.phraseByPhrase h3.inv (he'.mono (h1.trans h3).mono)
        · intro a σ2 h2 ha; subst ha
          have h12 := h1.trans h2
          obtain ⟨q', rs', w', hq', hb'⟩ := (he'.mono h12.mono).base
          refine Does.bind (Does.extractWordValue h2.inv hb' hf hD) ?_
          intro a σ3 h3 ha; subst ha
          refine From.cons (ih h3.inv (he'.mono (h12.trans h3).mono) _ ?_) ?_
          · rw [hp] at hl; simp at hl; omega
          · intro r _ _ hr
            subst hr
            subst hq'
            simp [hp]

theorem Does.phraseExtract {C : RC} {σ : Rt} (hi : C.I σ) {ws e} (h : Ph C.bs σ ws e)
    {fuel : Nat} (hf : C.lim.L ≤ fuel) (hD : C.lim.D ≤ fuel) :
    Does C (fun a _ => a = textOf ws) (Phrase.extract fuel e) σ := by
  unfold Phrase.extract
  obtain ⟨q, rs, w, hp, hb⟩ := h.base
  refine Does.bind (Does.extractWordValue hi hb hf hD) ?_
  intro a σ1 h1 ha; subst ha
  refine Does.bind (Does.phraseLoop hf hD fuel h1.inv (h.mono h1.mono) _ (Nat.le_trans (h.len hi) hD)) ?_
  intro a σ2 h2 ha; subst ha
  exact Does.ret h2.inv (by simp [hp, textOf])

/-! ### details and remarks -/

theorem Does.detailText {C : RC} {σ : Rt} (hi : C.I σ) {d po pp o p} (hd : DetailEnt σ d po pp)
    (ho : Ph C.bs σ o po) (hp : Ph C.bs σ p pp) {fuel : Nat} (hf : C.lim.L ≤ fuel)
    (hD : C.lim.D ≤ fuel) :
    Does C (fun a _ => a = (textOf o, textOf p)) (do
      let d ← Detail.fetch d.remark
      Detail.getObjectAndProperty fuel d) σ := by
  refine Does.bind (good := fun a _ => a.phrase = d.phrase) ?_ ?_
  · unfold Detail.fetch Detail.readEntityByRemark
    refine Does.bind (Does.getRefB hi hd.ref) ?_
    intro a σ1 h1 ha; rw [ha]
    refine Does.bind (good := fun _ _ => True) (Does.getRef h1.inv ?_ (fun _ _ => trivial)) ?_
    · rw [h1.mono.tagEq hd.tp (by simp)]; simp
    intro a σ2 h2 _
    exact Does.ret h2.inv rfl
  intro d' σ1 h1 hd'
  unfold Detail.getObjectAndProperty
  refine Does.bind (good := fun a _ => a = (po.detail, pp.detail)) ?_ ?_
  · unfold Detail.getObjectAndPropertyPhrases
    rw [hd']
    refine Does.bind (Does.sources1 h1.inv (h1.mono.detail hd).tp rfl (h1.mono.detail hd).So) ?_
    intro a σ2 h2 ha; subst ha
    refine Does.bind (Does.targets1 h2.inv ((h1.trans h2).mono.detail hd).tp rfl ((h1.trans h2).mono.detail hd).Tp) ?_
    intro a σ3 h3 ha; subst ha
    exact Does.ret h3.inv rfl
  intro a σ2 h2 ha; subst ha
  have h12 := h1.trans h2
  refine Does.bind (Does.phraseByDetail h2.inv (ho.mono h12.mono)) ?_
  intro a σ3 h3 ha; subst ha
  have h13 := h12.trans h3
  refine Does.bind (Does.phraseExtract h3.inv (ho.mono h13.mono) hf hD) ?_
  intro a σ4 h4 ha; subst ha
  have h14 := h13.trans h4
  refine Does.bind (Does.phraseByDetail h4.inv (hp.mono h14.mono)) ?_
  intro a σ5 h5 ha; subst ha
  have h15 := h14.trans h5
  refine Does.bind (Does.phraseExtract h5.inv (hp.mono h15.mono) hf hD) ?_
  intro a σ6 h6 ha; subst ha
  exact Does.ret h6.inv rfl

/-- GetObjectAndProperty -/
theorem Does.remarkText {C : RC} {σ : Rt} (hi : C.I σ) {r o p} (hr : RemEnt σ r)
    (hs : Says C.bs σ r o p) {fuel : Nat} (hf : C.lim.L ≤ fuel) (hD : C.lim.D ≤ fuel) :
    Does C (fun a _ => a = (textOf o, textOf p)) (Remark.getObjectAndProperty fuel r) σ := by
  obtain ⟨d, po, pp, hS, hd, ho, hp⟩ := hs
  unfold Remark.getObjectAndProperty
  refine Does.bind (good := fun a _ => a = d.remark) ?_ ?_
  · unfold Remark.getSourceDetail
    refine Does.bind (Does.sources1 hi hr.td rfl hS) ?_
    intro a σ1 h1 ha; subst ha
    exact Does.ret h1.inv rfl
  intro a σ1 h1 ha; subst ha
  exact Does.detailText h1.inv (h1.mono.detail hd) (ho.mono h1.mono) (hp.mono h1.mono) hf hD

theorem Does.remByClass {C : RC} {σ : Rt} (hi : C.I σ) {r} (h : RemEnt σ r) :
    Does C (fun a _ => a = r) (Remark.readEntityByClass r.cls) σ := by
  unfold Remark.readEntityByClass
  refine Does.bind (Does.getRefF hi h.chain.ab) ?_
  intro a σ1 h1 ha; simp only [ha]
  refine Does.bind (Does.getRefMid h1.inv (h1.mono.rem h).chain.ab (h1.mono.rem h).chain.bc) ?_
  intro a σ2 h2 ha; subst ha
  have h12 := h1.mono.trans h2.mono
  refine Does.bind (Does.getRefMid h2.inv (h12.rem h).chain.bc (h12.rem h).chain.cd) ?_
  intro a σ3 h3 ha; subst ha
  exact Does.ret h3.inv rfl

theorem Does.remByFact {C : RC} {σ : Rt} (hi : C.I σ) {r} (h : RemEnt σ r) :
    Does C (fun a _ => a = r) (Remark.readEntityByFact r.fact) σ := by
  unfold Remark.readEntityByFact
  refine Does.bind (Does.getRefB hi h.chain.cd) ?_
  intro a σ1 h1 ha; rw [ha]
  refine Does.bind (Does.getRefMid h1.inv (h1.mono.rem h).chain.bc (h1.mono.rem h).chain.cd) ?_
  intro a σ2 h2 ha; subst ha
  have h12 := h1.mono.trans h2.mono
  refine Does.bind (Does.getRefMid h2.inv (h12.rem h).chain.ab (h12.rem h).chain.bc) ?_
  intro a σ3 h3 ha; subst ha
  exact Does.ret h3.inv rfl

theorem Does.factByRemark {C : RC} {σ : Rt} (hi : C.I σ) {b f} (h : FactEnt σ b f) :
    Does C (fun a _ => a = ⟨f, true⟩) (Fact.fetchByRemark f.remark) σ := by
  unfold Fact.fetchByRemark
  refine Does.bind (good := fun a _ => a = f) ?_ ?_
  · unfold Fact.readEntityByRemark
    refine Does.bind (Does.getRefMid hi h.chain.ab h.chain.bc) ?_
    intro a σ1 h1 ha; subst ha
    refine Does.bind (Does.getRefMid h1.inv (h1.mono.fact h).chain.bc (h1.mono.fact h).chain.cd) ?_
    intro a σ2 h2 ha; subst ha
    exact Does.ret h2.inv rfl
  intro a σ1 h1 ha; subst ha
  exact Does.ret h1.inv rfl

theorem Does.factByStory {C : RC} {σ : Rt} (hi : C.I σ) {b f} (h : FactEnt σ b f) :
    Does C (fun a _ => a = f) (Fact.readEntityByStory f.story) σ := by
  unfold Fact.readEntityByStory
  refine Does.bind (Does.getRefB hi h.chain.cd) ?_
  intro a σ1 h1 ha; rw [ha]
  refine Does.bind (Does.getRefMid h1.inv (h1.mono.fact h).chain.bc (h1.mono.fact h).chain.cd) ?_
  intro a σ2 h2 ha; subst ha
  have h12 := h1.mono.trans h2.mono
  refine Does.bind (Does.getRefMid h2.inv (h12.fact h).chain.ab (h12.fact h).chain.bc) ?_
  intro a σ3 h3 ha; subst ha
  exact Does.ret h3.inv rfl

theorem Does.storyByFact {C : RC} {σ : Rt} (hi : C.I σ) {s} (h : StoryEnt σ s) :
    Does C (fun a _ => a = s) (Story.fetchByFact s.fact) σ := by
  unfold Story.fetchByFact
  refine Does.bind (Does.getRefMid hi h.chain.ab h.chain.bc) ?_
  intro a σ1 h1 ha; subst ha
  refine Does.bind (Does.getRefMid h1.inv (h1.mono.story h).chain.bc (h1.mono.story h).chain.cd) ?_
  intro a σ2 h2 ha; subst ha
  exact Does.ret h2.inv rfl

end Semnet.Race
