import Verif.Proof.Rules
/-
  Reading back characters, words, phrases, details and remarks.
-/
namespace Semnet
open Class

theorem getD_bits {cfg lim} {σ : St} (hi : Inv cfg lim σ) {bs} (hb : σ.bits = some bs) : BitsOK σ bs := by
  have := hi.bits; rw [hb] at this; exact this

theorem BitsOK.ne {σ : St} {bs} (h : BitsOK σ bs) : bs.1.character ≠ bs.2.character := by
  intro he
  have h0 := h.t0
  rw [he, h.t1] at h0
  cases h0

/-- like `Rd`; on success the state is `good` -/
def RdS {α : Type} (C : Ctx) (good : St → Prop) (p : Go α) (σ : St) : Prop :=
  wp C (fun o σ' => RPost C σ (fun _ => True) o σ' ∧ ∀ a, o = .ok a → good σ') p σ

theorem RdS.bind {α β : Type} {C : Ctx} {good : St → Prop} {good' : β → Prop} {p : Go α} {f : α → Go β} {σ : St}
    (h : RdS C good p σ) (hf : ∀ a σ', Ext C σ σ' → good σ' → Rd C good' (f a) σ') : Rd C good' (p >>= f) σ := by
  refine wp_bind (wp_mono ?_ h)
  intro o σ' ⟨⟨h1, h2, h3⟩, hg⟩
  cases o with
  | ok a =>
    refine wp_mono ?_ (hf a σ' h1 (hg a rfl))
    intro o' σ'' ⟨h4, h5, h6⟩
    refine ⟨h1.trans h4, h2.trans h5, ?_⟩
    cases o' with
    | ok b => exact ⟨h6.1, h6.2.trans h3.2⟩
    | _ => exact h6
  | err e => exact ⟨h1, h2, h3⟩
  | panic => exact ⟨h1, h2, h3⟩
  | spin => exact h3.elim

theorem RdS.seq {α β : Type} {C : Ctx} {good good' : St → Prop} {p : Go α} {f : α → Go β} {σ : St}
    (h : RdS C good p σ) (hf : ∀ a σ', Ext C σ σ' → good σ' → RdS C good' (f a) σ') :
    RdS C good' (p >>= f) σ := by
  refine wp_bind (wp_mono ?_ h)
  intro o σ' ⟨⟨h1, h2, h3⟩, hg⟩
  cases o with
  | ok a =>
    refine wp_mono ?_ (hf a σ' h1 (hg a rfl))
    intro o' σ'' ⟨⟨h4, h5, h6⟩, hg'⟩
    refine ⟨⟨h1.trans h4, h2.trans h5, ?_⟩, hg'⟩
    cases o' with
    | ok b => exact ⟨h6.1, h6.2.trans h3.2⟩
    | _ => exact h6
  | err e => exact ⟨⟨h1, h2, h3⟩, fun _ h => by cases h⟩
  | panic => exact ⟨⟨h1, h2, h3⟩, fun _ h => by cases h⟩
  | spin => exact h3.elim

theorem RdS.next {α β : Type} {C : Ctx} {good : α → Prop} {good' : St → Prop} {p : Go α} {f : α → Go β} {σ : St}
    (h : Rd C good p σ) (hf : ∀ a σ', Ext C σ σ' → good a → RdS C good' (f a) σ') :
    RdS C good' (p >>= f) σ := by
  refine wp_bind (wp_mono ?_ h)
  intro o σ' ⟨h1, h2, h3⟩
  cases o with
  | ok a =>
    refine wp_mono ?_ (hf a σ' h1 h3.1)
    intro o' σ'' ⟨⟨h4, h5, h6⟩, hg'⟩
    refine ⟨⟨h1.trans h4, h2.trans h5, ?_⟩, hg'⟩
    cases o' with
    | ok b => exact ⟨h6.1, h6.2.trans h3.2⟩
    | _ => exact h6
  | err e => exact ⟨⟨h1, h2, h3⟩, fun _ h => by cases h⟩
  | panic => exact ⟨⟨h1, h2, h3⟩, fun _ h => by cases h⟩
  | spin => exact h3.elim

/-- an assignment after which the layer has the right bits if it is initialized -/
theorem RdS.assign {C : Ctx} {σ : St} (hi : Inv C.cfg C.lim σ) {u : Assign} {good : St → Prop}
    (hm : (σ.mem.set u).isInitialized = true →
      σ.bits = some ((σ.mem.set u).zeroEntity, (σ.mem.set u).oneEntity))
    (hg : good { σ with mem := σ.mem.set u }) : RdS C good (Go.assign u) σ := by
  have hsame : Same σ { σ with mem := σ.mem.set u } := ⟨rfl, rfl, rfl⟩
  have hext : Ext C σ { σ with mem := σ.mem.set u } := ⟨hi.same hsame hm, hsame.mono, id⟩
  exact ⟨⟨fun _ => hext, fun _ => hsame⟩, ⟨hext, fun _ => hsame, trivial, rfl⟩, fun _ _ => hg⟩

/-- a reference, the bit layer staying as it is -/
theorem Rd.getRefMem {C : Ctx} {σ : St} (hi : Inv C.cfg C.lim σ) {x : Nat} (hx : σ.tag x ≠ .none) {y : Nat}
    (hy : ∀ σ', Ext C σ σ' → σ'.fwd x = y) {β : Type} {good : St → Prop} {f : Nat × Nat → Go β}
    (hf : ∀ a σ', Ext C σ σ' → σ'.mem = σ.mem → a.2 = y → RdS C good (f a) σ') :
    RdS C good (Go.getReference x >>= f) σ := by
  refine wp_bind (wp_read hi (fun _ _ => rfl) ?_ ?_)
  · intro σ1 h1 h2 hm hfl c
    have hlive : σ1.store.live x = true :=
      (h1.inv.live x).2 (by rw [h1.mono.tag x hx]; exact hx)
    simp only [Store.step, hlive, if_true]
    show wp C _ (f (σ1.store.back x, σ1.store.fwd x)) σ1
    refine wp_mono ?_ (hf (σ1.store.back x, σ1.store.fwd x) σ1 h1 hm (hy σ1 h1))
    intro o' σ'' ⟨⟨h4, h5, h6⟩, hg'⟩
    refine ⟨⟨h1.trans h4, h2.trans h5, ?_⟩, hg'⟩
    cases o' with
    | ok b => exact ⟨h6.1, h6.2.trans hfl⟩
    | _ => exact h6
  · intro σ1 h1 h2 _ h3
    exact ⟨⟨h1, h2, h3⟩, fun _ h => by cases h⟩

/-- `bit.layer.initialize` on a storage that has its bits, the layer not being initialized -/
theorem RdS.bitFill {C : Ctx} {σ : St} (hi : Inv C.cfg C.lim σ) {bs} (hb : σ.bits = some bs) :
    RdS C (fun σ' => σ'.mem.isInitialized = true) Bit.fill σ := by
  unfold Bit.fill
  refine RdS.next (Rd.provideEntity hi) ?_
  intro _ σ2 h2 _
  have hi2 := h2.inv
  have hb2 : σ2.bits = some bs := h2.mono.bits _ hb
  refine RdS.next (good := fun l => l.Perm [bs.1.cls, bs.2.cls]) (p := Class.getAllBits) ?_ ?_
  · refine Rd.sources hi2 ?_ ?_
    · rw [(hi2.root bitId).2 (by decide)]; simp
    · intro σ3 l h3 _ hl
      exact hl.trans (getD_bits h3.inv (h3.mono.bits _ hb2)).S1
  intro cs σ3 h3 hcs
  have hb3 : σ3.bits = some bs := h3.mono.bits _ hb2
  have ok3 := getD_bits h3.inv hb3
  have hlt := ok3.lt
  have key : ∀ a b : Nat, (if a < b then a else b) = bs.1.cls → (if a < b then b else a) = bs.2.cls →
      RdS C (fun σ' => σ'.mem.isInitialized = true) (do
        let zeroClass := if a < b then a else b
        let oneClass := if a < b then b else a
        let zr ← Go.getReference zeroClass
        Go.assign (.zeroEntity ⟨false, zeroClass, zr.2, true⟩)
        let or ← Go.getReference oneClass
        Go.assign (.oneEntity ⟨true, oneClass, or.2, true⟩)
        Go.assign .isInitialized) σ3 := by
    intro a b e1 e2
    simp only [e1, e2]
    refine Rd.getRefMem h3.inv (by rw [ok3.tc0]; simp)
      (fun σ4 h4 => (getD_bits h4.inv (h4.mono.bits _ hb3)).f0) ?_
    intro zr σ4 h4 _ hzr
    have hb4 : σ4.bits = some bs := h4.mono.bits _ hb3
    have e0 : (⟨false, bs.1.cls, zr.2, true⟩ : BitE) = bs.1 := by rw [hzr, ok3.mk0]
    rw [e0]
    refine RdS.seq (good := fun σ' => σ'.mem.zeroEntity = bs.1) (RdS.assign h4.inv ?_ rfl) ?_
    · intro h
      have := h4.inv.mem h
      rw [hb4] at this ⊢
      cases this; rfl
    intro _ σ5 h5 hz5
    have hb5 : σ5.bits = some bs := h5.mono.bits _ hb4
    refine Rd.getRefMem h5.inv (by rw [(getD_bits h5.inv hb5).tc1]; simp)
      (fun σ6 h6 => (getD_bits h6.inv (h6.mono.bits _ hb5)).f1) ?_
    intro or σ6 h6 hm6 hor
    have hb6 : σ6.bits = some bs := h6.mono.bits _ hb5
    have e1 : (⟨true, bs.2.cls, or.2, true⟩ : BitE) = bs.2 := by rw [hor, ok3.mk1]
    rw [e1]
    refine RdS.seq (good := fun σ' => σ'.mem.zeroEntity = bs.1 ∧ σ'.mem.oneEntity = bs.2)
      (RdS.assign h6.inv ?_ ⟨by rw [← hz5, ← hm6]; rfl, rfl⟩) ?_
    · intro h
      have := h6.inv.mem h
      rw [hb6] at this ⊢
      cases this; rfl
    intro _ σ7 h7 hm7
    refine RdS.assign h7.inv ?_ rfl
    intro _
    show σ7.bits = some (σ7.mem.zeroEntity, σ7.mem.oneEntity)
    rw [hm7.1, hm7.2]
    exact h7.mono.bits _ hb6
  rcases perm_two hcs with rfl | rfl
  · exact key _ _ (if_pos hlt) (if_pos hlt)
  · exact key _ _ (if_neg (Nat.not_lt.2 (Nat.le_of_lt hlt))) (if_neg (Nat.not_lt.2 (Nat.le_of_lt hlt)))

/-- reading the initialized layer -/
theorem Rd.bitRead {C : Ctx} {σ : St} (hi : Inv C.cfg C.lim σ) {bs} (hb : σ.bits = some bs)
    (hm : σ.mem.isInitialized = true) :
    Rd C (· = bs) (do
      let z ← Go.readMem
      let o ← Go.readMem
      pure (z.zeroEntity, o.oneEntity)) σ := by
  have h := hi.mem hm
  rw [hb] at h
  exact ⟨.refl hi, .refl _ _, (Option.some.inj h).symm, rfl⟩

/-- `bit.layer.initialize` on a storage that has its bits -/
theorem Rd.bitInit {C : Ctx} {σ : St} (hi : Inv C.cfg C.lim σ) {bs} (hb : σ.bits = some bs) :
    Rd C (· = bs) Bit.init σ := by
  unfold Bit.init
  refine RdS.bind (good := fun σ' => σ'.mem.isInitialized = true) ?_
    fun _ σ' h hm => Rd.bitRead h.inv (h.mono.bits _ hb) hm
  show RdS C _ (if σ.mem.isInitialized = true then pure () else Bit.fill) σ
  by_cases hm : σ.mem.isInitialized = true
  · rw [if_pos hm]
    exact ⟨⟨.refl hi, .refl _ _, trivial, rfl⟩, fun _ _ => hm⟩
  · rw [if_neg hm]
    exact RdS.bitFill hi hb

theorem Rd.bitProvide {C : Ctx} {σ : St} (hi : Inv C.cfg C.lim σ) {bs} (hb : σ.bits = some bs) (v : Bool) :
    Rd C (· = bitEnt bs v) (Bit.provide v) σ := by
  unfold Bit.provide
  refine Rd.bind (Rd.bitInit hi hb) ?_
  intro a σ1 h1 _ ha
  subst ha
  exact Rd.ret h1.inv rfl

theorem Rd.bitFetch {C : Ctx} {σ : St} (hi : Inv C.cfg C.lim σ) {bs} (hb : σ.bits = some bs) (v : Bool) :
    Rd C (·.value = v) (Bit.fetch (bitNode bs v)) σ := by
  unfold Bit.fetch
  refine Rd.bind (Rd.bitInit hi hb) ?_
  intro a σ1 h1 _ ha
  subst ha
  have ok := getD_bits hi hb
  cases v
  · simp only [bitNode, Bool.false_eq_true, if_false, if_true]
    exact Rd.ret h1.inv ok.v0
  · simp only [bitNode, if_true, ok.ne.symm, if_false]
    exact Rd.ret h1.inv ok.v1

/-! ### characters -/

theorem CharEnt.ne_nil {σ p e} (h : CharEnt σ p e) : p ≠ [] := by cases h <;> simp

/-- all cases of a character at once -/
theorem CharEnt.cases' {σ p e} (h : CharEnt σ p e) :
    ∃ q v bs, p = q ++ [v] ∧ CharBase σ e p v bs ∧ σ.tag (bitNode bs v) = .bitc v ∧
      (q = [] ∧ σ.S e.character = [] ∨
        ∃ e', CharEnt σ q e' ∧ σ.S e.character = [e'.character]) := by
  cases h with
  | head hb hS hT ht => exact ⟨[], _, _, rfl, hb, ht, .inl ⟨rfl, hS⟩⟩
  | tail h hb hS ht => exact ⟨_, _, _, rfl, hb, ht, .inr ⟨_, h, hS⟩⟩

theorem CharEnt.base {σ p e} (h : CharEnt σ p e) : ∃ q v bs, p = q ++ [v] ∧ CharBase σ e p v bs := by
  obtain ⟨q, v, bs, h1, h2, _⟩ := h.cases'
  exact ⟨q, v, bs, h1, h2⟩

theorem CharEnt.tagC {σ p e} (h : CharEnt σ p e) : σ.tag e.character = .chC p := by
  obtain ⟨_, _, _, _, hb⟩ := h.base; exact hb.tc
theorem CharEnt.tagW {σ p e} (h : CharEnt σ p e) : σ.tag e.word = .chW := by
  obtain ⟨_, _, _, _, hb⟩ := h.base; exact hb.tw
theorem CharEnt.tagB {σ p e} (h : CharEnt σ p e) : σ.tag e.bit = .chB := by
  obtain ⟨_, _, _, _, hb⟩ := h.base; exact hb.tb
theorem CharEnt.chain {σ p e} (h : CharEnt σ p e) : Chain σ e.cls e.bit e.character e.word := by
  obtain ⟨_, _, _, _, hb⟩ := h.base; exact hb.chain
theorem CharEnt.bits {σ p e} (h : CharEnt σ p e) : ∃ bs, σ.bits = some bs := by
  obtain ⟨_, _, bs, _, hb⟩ := h.base; exact ⟨bs, hb.bits⟩
theorem CharEnt.path {cfg lim σ p e} (hi : Inv cfg lim σ) (h : CharEnt σ p e) : lim.path p := by
  have := hi.tagOK e.character; rw [h.tagC] at this; exact this.1
theorem CharEnt.len {cfg lim σ p e} (hi : Inv cfg lim σ) (h : CharEnt σ p e) : p.length ≤ lim.L :=
  lim.path_len p (h.path hi)

theorem Rd.charByCharacter {C : Ctx} {σ : St} (hi : Inv C.cfg C.lim σ) {p e} (h : CharEnt σ p e) :
    Rd C (· = e) (Character.readEntityByCharacter e.character) σ := by
  unfold Character.readEntityByCharacter
  refine Rd.bind (Rd.getRefMid hi h.chain.bc h.chain.cd) ?_
  intro a σ1 h1 _ ha; subst ha
  refine Rd.bind (Rd.getRefMid h1.inv (h.mono h1.mono).chain.ab (h.mono h1.mono).chain.bc) ?_
  intro a σ2 h2 _ ha; subst ha
  exact Rd.ret h2.inv rfl

theorem Rd.charByBit {C : Ctx} {σ : St} (hi : Inv C.cfg C.lim σ) {p e} (h : CharEnt σ p e) :
    Rd C (· = e) (Character.readEntityByBit e.bit) σ := by
  unfold Character.readEntityByBit
  refine Rd.bind (Rd.getRefMid hi h.chain.ab h.chain.bc) ?_
  intro a σ1 h1 _ ha; subst ha
  refine Rd.bind (Rd.getRefMid h1.inv (h.mono h1.mono).chain.bc (h.mono h1.mono).chain.cd) ?_
  intro a σ2 h2 _ ha; subst ha
  exact Rd.ret h2.inv rfl

theorem Rd.charByWord {C : Ctx} {σ : St} (hi : Inv C.cfg C.lim σ) {p e} (h : CharEnt σ p e) :
    Rd C (· = e) (Character.readEntityByWord e.word) σ := by
  unfold Character.readEntityByWord
  refine Rd.bind (Rd.getRefB hi h.chain.cd) ?_
  intro a σ1 h1 _ ha; rw [ha]
  refine Rd.bind (Rd.getRefMid h1.inv (h.mono h1.mono).chain.bc (h.mono h1.mono).chain.cd) ?_
  intro a σ2 h2 _ ha; subst ha
  have h12 := h1.mono.trans h2.mono
  refine Rd.bind (Rd.getRefMid h2.inv (h.mono h12).chain.ab (h.mono h12).chain.bc) ?_
  intro a σ3 h3 _ ha; subst ha
  exact Rd.ret h3.inv rfl

theorem Rd.getTargetBit {C : Ctx} {σ : St} (hi : Inv C.cfg C.lim σ) {e p v bs} (h : CharBase σ e p v bs) :
    Rd C (· = bitNode bs v) (Character.getTargetBit e) σ := by
  unfold Character.getTargetBit
  refine Rd.bind (Rd.targets1 hi h.tb rfl h.Tb) ?_
  intro a σ1 h1 _ ha; subst ha
  exact Rd.ret h1.inv rfl

theorem Rd.extractBitValue {C : Ctx} {σ : St} (hi : Inv C.cfg C.lim σ) {e p v bs}
    (h : CharBase σ e p v bs) : Rd C (· = v) (Character.extractBitValue ⟨some e⟩) σ := by
  unfold Character.extractBitValue
  refine Rd.bind (good := (· = e)) (Rd.ret hi rfl) ?_
  intro a σ1 h1 _ ha; subst ha
  refine Rd.bind (Rd.getTargetBit h1.inv (h.mono h1.mono)) ?_
  intro a σ2 h2 _ ha; subst ha
  refine Rd.bind (Rd.bitFetch h2.inv (h2.mono.bits _ (h1.mono.bits _ h.bits)) v) ?_
  intro a σ3 h3 _ ha
  exact Rd.ret h3.inv ha

theorem Rd.charLoop {C : Ctx} : ∀ (fuel : Nat) {σ : St} (_ : Inv C.cfg C.lim σ) {p e}
    (_ : CharEnt σ p e) (path : List Bool), p.length ≤ fuel →
    Rd C (· = path ++ p.dropLast.reverse) (Character.extractLoop fuel ⟨some e⟩ path) σ := by
  intro fuel
  induction fuel with
  | zero =>
    intro σ hi p e h path hl
    exact absurd (List.length_eq_zero_iff.1 (Nat.le_zero.1 hl)) h.ne_nil
  | succ n ih =>
    intro σ hi p e h path hl
    unfold Character.extractLoop
    obtain ⟨q, v, bs, hp, hb, ht, hc⟩ := h.cases'
    rcases hc with ⟨hq, hS⟩ | ⟨e', he', hS⟩
    · subst hq
      refine Rd.bind (good := (· = false)) (p := Character.hasPreviousElement ⟨some e⟩) ?_ ?_
      · unfold Character.hasPreviousElement
        refine Rd.bind (good := (· = e)) (Rd.ret hi rfl) ?_
        intro a σ1 h1 _ ha; subst ha
        unfold Character.hasSourceCharacter
        have := hb.tc
        refine Rd.bind (Rd.sources0 h1.inv (t := .chC p) (h1.mono.tagEq hb.tc (by simp)) (by rw [hp]; rfl)) ?_
        intro a σ2 h2 _ ha; subst ha
        exact Rd.ret h2.inv rfl
      · intro a σ1 h1 _ ha; subst ha
        simp only [Bool.false_eq_true, if_false]
        exact Rd.ret h1.inv (by simp [hp])
    · refine Rd.bind (good := (· = true)) (p := Character.hasPreviousElement ⟨some e⟩) ?_ ?_
      · unfold Character.hasPreviousElement
        refine Rd.bind (good := (· = e)) (Rd.ret hi rfl) ?_
        intro a σ1 h1 _ ha; subst ha
        unfold Character.hasSourceCharacter
        refine Rd.bind (Rd.sources1 h1.inv (h1.mono.tagEq hb.tc (by simp)) rfl
          (h1.mono.Seq hb.tc rfl hS (by simp))) ?_
        intro a σ2 h2 _ ha; subst ha
        exact Rd.ret h2.inv rfl
      · intro a σ1 h1 _ ha; subst ha
        simp only [if_true]
        refine Rd.attemptDeref (good := (· = ⟨some e'⟩)) ?_ ?_
        · unfold Character.getPreviousElement
          refine Rd.bind (good := (· = e)) (Rd.ret h1.inv rfl) ?_
          intro a σ2 h2 _ ha; subst ha
          have h12 := h1.trans h2
          refine Rd.bind (good := (· = e'.character)) ?_ ?_
          · unfold Character.getSourceCharacter
            refine Rd.bind (Rd.sources1 h2.inv (h12.mono.tagEq hb.tc (by simp)) rfl
              (h12.mono.Seq hb.tc rfl hS (by simp))) ?_
            intro a σ3 h3 _ ha; subst ha
            exact Rd.ret h3.inv rfl
          · intro a σ3 h3 _ ha; subst ha
            refine Rd.bind (Rd.charByCharacter h3.inv (he'.mono (h12.trans h3).mono)) ?_
            intro a σ4 h4 _ ha; subst ha
            exact Rd.ret h4.inv rfl
        · intro a σ2 h2 _ ha; subst ha
          have h12 := h1.trans h2
          obtain ⟨q', v', bs', hq', hb'⟩ := (he'.mono h12.mono).base
          refine Rd.bind (Rd.extractBitValue h2.inv hb') ?_
          intro a σ3 h3 _ ha; subst ha
          refine Rd.cons (ih h3.inv (he'.mono (h12.trans h3).mono) _ ?_) ?_
          · rw [hp] at hl; simp at hl; omega
          · intro r hr
            subst hr
            subst hq'
            simp [hp]

theorem Rd.charExtract {C : Ctx} {σ : St} (hi : Inv C.cfg C.lim σ) {p e} (h : CharEnt σ p e) {fuel : Nat}
    (hf : C.lim.L ≤ fuel) :
    Rd C (· = Character.toRune p) (Character.extract fuel ⟨some e⟩) σ := by
  unfold Character.extract
  obtain ⟨q, v, bs, hp, hb⟩ := h.base
  refine Rd.bind (Rd.extractBitValue hi hb) ?_
  intro a σ1 h1 _ ha; subst ha
  refine Rd.bind (Rd.charLoop fuel h1.inv (h.mono h1.mono) _ (Nat.le_trans (h.len hi) hf)) ?_
  intro a σ2 h2 _ ha; subst ha
  exact Rd.ret h2.inv (by simp [hp])

/-! ### words -/

theorem WordEnt.ne_nil {σ p e} (h : WordEnt σ p e) : p ≠ [] := by cases h <;> simp

theorem WordEnt.cases' {σ rs w} (h : WordEnt σ rs w) :
    ∃ q p c, rs = q ++ [Character.toRune p] ∧ WordBase σ w rs p c ∧
      (q = [] ∧ σ.S w.word = [] ∨ ∃ w', WordEnt σ q w' ∧ σ.S w.word = [w'.word]) := by
  cases h with
  | head hb hS => exact ⟨[], _, _, rfl, hb, .inl ⟨rfl, hS⟩⟩
  | tail h hb hS => exact ⟨_, _, _, rfl, hb, .inr ⟨_, h, hS⟩⟩

theorem WordEnt.base {σ rs w} (h : WordEnt σ rs w) :
    ∃ q p c, rs = q ++ [Character.toRune p] ∧ WordBase σ w rs p c := by
  obtain ⟨q, p, c, h1, h2, _⟩ := h.cases'
  exact ⟨q, p, c, h1, h2⟩

theorem WordEnt.tagC {σ rs w} (h : WordEnt σ rs w) : σ.tag w.character = .wdC := by
  obtain ⟨_, _, _, _, hb⟩ := h.base; exact hb.tc
theorem WordEnt.tagW {σ rs w} (h : WordEnt σ rs w) : σ.tag w.word = .wdW rs := by
  obtain ⟨_, _, _, _, hb⟩ := h.base; exact hb.tw
theorem WordEnt.tagP {σ rs w} (h : WordEnt σ rs w) : σ.tag w.phrase = .wdP := by
  obtain ⟨_, _, _, _, hb⟩ := h.base; exact hb.tp
theorem WordEnt.chain {σ rs w} (h : WordEnt σ rs w) : Chain σ w.cls w.character w.word w.phrase := by
  obtain ⟨_, _, _, _, hb⟩ := h.base; exact hb.chain
theorem WordEnt.len {cfg lim σ rs w} (hi : Inv cfg lim σ) (h : WordEnt σ rs w) : rs.length ≤ lim.D := by
  have := hi.tagOK w.word; rw [h.tagW] at this; exact this.1
theorem WordEnt.good {σ rs w} (h : WordEnt σ rs w) : ∀ r ∈ rs, goodRune r := by
  induction h with
  | head hb _ => simpa using hb.good
  | tail _ hb _ ih =>
    intro r hr
    rcases List.mem_append.1 hr with hr | hr
    · exact ih r hr
    · rw [List.mem_singleton] at hr; rw [hr]; exact hb.good

theorem Rd.wordByCharacter {C : Ctx} {σ : St} (hi : Inv C.cfg C.lim σ) {p e} (h : WordEnt σ p e) :
    Rd C (· = e) (Word.readEntityByCharacter e.character) σ := by
  unfold Word.readEntityByCharacter
  refine Rd.bind (Rd.getRefMid hi h.chain.ab h.chain.bc) ?_
  intro a σ1 h1 _ ha; subst ha
  refine Rd.bind (Rd.getRefMid h1.inv (h.mono h1.mono).chain.bc (h.mono h1.mono).chain.cd) ?_
  intro a σ2 h2 _ ha; subst ha
  exact Rd.ret h2.inv rfl

theorem Rd.wordByWord {C : Ctx} {σ : St} (hi : Inv C.cfg C.lim σ) {p e} (h : WordEnt σ p e) :
    Rd C (· = e) (Word.readEntityByWord e.word) σ := by
  unfold Word.readEntityByWord
  refine Rd.bind (Rd.getRefMid hi h.chain.bc h.chain.cd) ?_
  intro a σ1 h1 _ ha; subst ha
  refine Rd.bind (Rd.getRefMid h1.inv (h.mono h1.mono).chain.ab (h.mono h1.mono).chain.bc) ?_
  intro a σ2 h2 _ ha; subst ha
  exact Rd.ret h2.inv rfl

theorem Rd.wordByPhrase {C : Ctx} {σ : St} (hi : Inv C.cfg C.lim σ) {p e} (h : WordEnt σ p e) :
    Rd C (· = e) (Word.readEntityByPhrase e.phrase) σ := by
  unfold Word.readEntityByPhrase
  refine Rd.bind (Rd.getRefB hi h.chain.cd) ?_
  intro a σ1 h1 _ ha; rw [ha]
  refine Rd.bind (Rd.getRefMid h1.inv (h.mono h1.mono).chain.bc (h.mono h1.mono).chain.cd) ?_
  intro a σ2 h2 _ ha; subst ha
  have h12 := h1.mono.trans h2.mono
  refine Rd.bind (Rd.getRefMid h2.inv (h.mono h12).chain.ab (h.mono h12).chain.bc) ?_
  intro a σ3 h3 _ ha; subst ha
  exact Rd.ret h3.inv rfl

theorem Rd.extractCharacterValue {C : Ctx} {σ : St} (hi : Inv C.cfg C.lim σ) {w rs p c}
    (h : WordBase σ w rs p c) {fuel : Nat} (hf : C.lim.L ≤ fuel) :
    Rd C (· = Character.toRune p) (Word.extractCharacterValue fuel w) σ := by
  unfold Word.extractCharacterValue
  refine Rd.bind (good := (· = c.word)) ?_ ?_
  · unfold Word.getTargetCharacter
    refine Rd.bind (Rd.targets1 hi h.tc rfl h.Tc) ?_
    intro a σ1 h1 _ ha; subst ha
    exact Rd.ret h1.inv rfl
  intro a σ1 h1 _ ha; subst ha
  refine Rd.bind (good := (· = ⟨some c⟩)) ?_ ?_
  · unfold Character.fetch
    refine Rd.bind (Rd.charByWord h1.inv (h.ch.mono h1.mono)) ?_
    intro a σ2 h2 _ ha; subst ha
    exact Rd.ret h2.inv rfl
  intro a σ2 h2 _ ha; subst ha
  exact Rd.charExtract h2.inv (h.ch.mono (h1.trans h2).mono) hf

theorem Rd.wordLoop {C : Ctx} {fuel : Nat} (hf : C.lim.L ≤ fuel) :
    ∀ (n : Nat) {σ : St} (_ : Inv C.cfg C.lim σ) {rs w}
    (_ : WordEnt σ rs w) (path : List Int), rs.length ≤ n →
    Rd C (· = path ++ rs.dropLast.reverse) (Word.extractLoop fuel n w path) σ := by
  intro n
  induction n with
  | zero =>
    intro σ hi p e h path hl
    exact absurd (List.length_eq_zero_iff.1 (Nat.le_zero.1 hl)) h.ne_nil
  | succ n ih =>
    intro σ hi rs w h path hl
    unfold Word.extractLoop
    obtain ⟨q, p, c, hp, hb, hc⟩ := h.cases'
    rcases hc with ⟨hq, hS⟩ | ⟨e', he', hS⟩
    · subst hq
      refine Rd.bind (good := (· = false)) (p := Word.hasSourceWord w) ?_ ?_
      · unfold Word.hasSourceWord
        refine Rd.bind (Rd.sources0 hi (t := .wdW rs) hb.tw (by rw [hp]; rfl)) ?_
        intro a σ2 h2 _ ha; subst ha
        exact Rd.ret h2.inv rfl
      · intro a σ1 h1 _ ha; subst ha
        simp only [Bool.false_eq_true, if_false]
        exact Rd.ret h1.inv (by simp [hp])
    · refine Rd.bind (good := (· = true)) (p := Word.hasSourceWord w) ?_ ?_
      · unfold Word.hasSourceWord
        refine Rd.bind (Rd.sources1 hi hb.tw rfl hS) ?_
        intro a σ2 h2 _ ha; subst ha
        exact Rd.ret h2.inv rfl
      · intro a σ1 h1 _ ha; subst ha
        simp only [if_true]
        refine Rd.attemptDeref (good := (· = e')) ?_ ?_
        · unfold Word.getPreviousElement
          refine Rd.bind (good := (· = e'.word)) ?_ ?_
          · unfold Word.getSourceWord
            refine Rd.bind (Rd.sources1 h1.inv (h1.mono.tagEq hb.tw (by simp)) rfl
              (h1.mono.Seq hb.tw rfl hS (by simp))) ?_
            intro a σ3 h3 _ ha; subst ha
            exact Rd.ret h3.inv rfl
          · intro a σ3 h3 _ ha; subst ha
            exact Rd.wordByWord h3.inv (he'.mono (h1.trans h3).mono)
        · intro a σ2 h2 _ ha; subst ha
          have h12 := h1.trans h2
          obtain ⟨q', p', c', hq', hb'⟩ := (he'.mono h12.mono).base
          refine Rd.bind (Rd.extractCharacterValue h2.inv hb' hf) ?_
          intro a σ3 h3 _ ha; subst ha
          refine Rd.cons (ih h3.inv (he'.mono (h12.trans h3).mono) _ ?_) ?_
          · rw [hp] at hl; simp at hl; omega
          · intro r hr
            subst hr
            subst hq'
            simp [hp]

theorem Rd.wordExtract {C : Ctx} {σ : St} (hi : Inv C.cfg C.lim σ) {rs w} (h : WordEnt σ rs w) {fuel : Nat}
    (hf : C.lim.L ≤ fuel) (hD : C.lim.D ≤ fuel) :
    Rd C (· = stringOf rs) (Word.extract fuel w) σ := by
  unfold Word.extract
  obtain ⟨q, p, c, hp, hb⟩ := h.base
  refine Rd.bind (Rd.extractCharacterValue hi hb hf) ?_
  intro a σ1 h1 _ ha; subst ha
  refine Rd.bind (Rd.wordLoop hf fuel h1.inv (h.mono h1.mono) _ (Nat.le_trans (h.len hi) hD)) ?_
  intro a σ2 h2 _ ha; subst ha
  exact Rd.ret h2.inv (by simp [hp])

/-! ### phrases -/

theorem PhraseEnt.ne_nil {σ p e} (h : PhraseEnt σ p e) : p ≠ [] := by cases h <;> simp

theorem PhraseEnt.cases' {σ ws e} (h : PhraseEnt σ ws e) :
    ∃ q rs w, ws = q ++ [rs] ∧ PhraseBase σ e ws rs w ∧
      (q = [] ∧ σ.S e.phrase = [] ∨ ∃ e', PhraseEnt σ q e' ∧ σ.S e.phrase = [e'.phrase]) := by
  cases h with
  | head hb hS => exact ⟨[], _, _, rfl, hb, .inl ⟨rfl, hS⟩⟩
  | tail h hb hS => exact ⟨_, _, _, rfl, hb, .inr ⟨_, h, hS⟩⟩

theorem PhraseEnt.base {σ ws e} (h : PhraseEnt σ ws e) :
    ∃ q rs w, ws = q ++ [rs] ∧ PhraseBase σ e ws rs w := by
  obtain ⟨q, p, c, h1, h2, _⟩ := h.cases'
  exact ⟨q, p, c, h1, h2⟩

theorem PhraseEnt.tagW {σ ws e} (h : PhraseEnt σ ws e) : σ.tag e.word = .phW := by
  obtain ⟨_, _, _, _, hb⟩ := h.base; exact hb.tw
theorem PhraseEnt.tagP {σ ws e} (h : PhraseEnt σ ws e) : σ.tag e.phrase = .phP ws := by
  obtain ⟨_, _, _, _, hb⟩ := h.base; exact hb.tp
theorem PhraseEnt.tagD {σ ws e} (h : PhraseEnt σ ws e) : σ.tag e.detail = .phD := by
  obtain ⟨_, _, _, _, hb⟩ := h.base; exact hb.td
theorem PhraseEnt.chain {σ ws e} (h : PhraseEnt σ ws e) : Chain σ e.cls e.word e.phrase e.detail := by
  obtain ⟨_, _, _, _, hb⟩ := h.base; exact hb.chain
theorem PhraseEnt.len {cfg lim σ ws e} (hi : Inv cfg lim σ) (h : PhraseEnt σ ws e) : ws.length ≤ lim.D := by
  have := hi.tagOK e.phrase; rw [h.tagP] at this; exact this.1

/-- the words of a phrase are words -/
theorem PhraseEnt.words {σ ws e} (h : PhraseEnt σ ws e) : ∀ rs ∈ ws, ∃ w, WordEnt σ rs w := by
  induction h with
  | head hb _ => intro r hr; rw [List.mem_singleton] at hr; rw [hr]; exact ⟨_, hb.wd⟩
  | tail _ hb _ ih =>
    intro r hr
    rcases List.mem_append.1 hr with hr | hr
    · exact ih r hr
    · rw [List.mem_singleton] at hr; rw [hr]; exact ⟨_, hb.wd⟩

theorem Rd.phraseByWord {C : Ctx} {σ : St} (hi : Inv C.cfg C.lim σ) {p e} (h : PhraseEnt σ p e) :
    Rd C (· = e) (Phrase.readEntityByWord e.word) σ := by
  unfold Phrase.readEntityByWord
  refine Rd.bind (Rd.getRefMid hi h.chain.ab h.chain.bc) ?_
  intro a σ1 h1 _ ha; subst ha
  refine Rd.bind (Rd.getRefMid h1.inv (h.mono h1.mono).chain.bc (h.mono h1.mono).chain.cd) ?_
  intro a σ2 h2 _ ha; subst ha
  exact Rd.ret h2.inv rfl

theorem Rd.phraseByPhrase {C : Ctx} {σ : St} (hi : Inv C.cfg C.lim σ) {p e} (h : PhraseEnt σ p e) :
    Rd C (· = e) (Phrase.readEntityByPhrase e.phrase) σ := by
  unfold Phrase.readEntityByPhrase
  refine Rd.bind (Rd.getRefMid hi h.chain.bc h.chain.cd) ?_
  intro a σ1 h1 _ ha; subst ha
  refine Rd.bind (Rd.getRefMid h1.inv (h.mono h1.mono).chain.ab (h.mono h1.mono).chain.bc) ?_
  intro a σ2 h2 _ ha; subst ha
  exact Rd.ret h2.inv rfl

theorem Rd.phraseByDetail {C : Ctx} {σ : St} (hi : Inv C.cfg C.lim σ) {p e} (h : PhraseEnt σ p e) :
    Rd C (· = e) (Phrase.readEntityByDetail e.detail) σ := by
  unfold Phrase.readEntityByDetail
  refine Rd.bind (Rd.getRefB hi h.chain.cd) ?_
  intro a σ1 h1 _ ha; rw [ha]
  refine Rd.bind (Rd.getRefMid h1.inv (h.mono h1.mono).chain.bc (h.mono h1.mono).chain.cd) ?_
  intro a σ2 h2 _ ha; subst ha
  have h12 := h1.mono.trans h2.mono
  refine Rd.bind (Rd.getRefMid h2.inv (h.mono h12).chain.ab (h.mono h12).chain.bc) ?_
  intro a σ3 h3 _ ha; subst ha
  exact Rd.ret h3.inv rfl

theorem Rd.extractWordValue {C : Ctx} {σ : St} (hi : Inv C.cfg C.lim σ) {e ws rs w}
    (h : PhraseBase σ e ws rs w) {fuel : Nat} (hf : C.lim.L ≤ fuel) (hD : C.lim.D ≤ fuel) :
    Rd C (· = stringOf rs) (Phrase.extractWordValue fuel e) σ := by
  unfold Phrase.extractWordValue
  refine Rd.bind (good := (· = w.phrase)) ?_ ?_
  · unfold Phrase.getTargetWord
    refine Rd.bind (Rd.targets1 hi h.tw rfl h.Tw) ?_
    intro a σ1 h1 _ ha; subst ha
    exact Rd.ret h1.inv rfl
  intro a σ1 h1 _ ha; subst ha
  refine Rd.bind (good := (· = w)) (Rd.wordByPhrase h1.inv (h.wd.mono h1.mono)) ?_
  intro a σ2 h2 _ ha; subst ha
  exact Rd.wordExtract h2.inv (h.wd.mono (h1.trans h2).mono) hf hD

theorem Rd.phraseLoop {C : Ctx} {fuel : Nat} (hf : C.lim.L ≤ fuel) (hD : C.lim.D ≤ fuel) :
    ∀ (n : Nat) {σ : St} (_ : Inv C.cfg C.lim σ) {ws e}
    (_ : PhraseEnt σ ws e) (path : List GoStr), ws.length ≤ n →
    Rd C (· = path ++ (ws.dropLast.map stringOf).reverse) (Phrase.extractLoop fuel n e path) σ := by
  intro n
  induction n with
  | zero =>
    intro σ hi p e h path hl
    exact absurd (List.length_eq_zero_iff.1 (Nat.le_zero.1 hl)) h.ne_nil
  | succ n ih =>
    intro σ hi ws e h path hl
    unfold Phrase.extractLoop
    obtain ⟨q, rs, w, hp, hb, hc⟩ := h.cases'
    rcases hc with ⟨hq, hS⟩ | ⟨e', he', hS⟩
    · subst hq
      refine Rd.bind (good := (· = false)) (p := Phrase.hasSourcePhrase e) ?_ ?_
      · unfold Phrase.hasSourcePhrase
        refine Rd.bind (Rd.sources0 hi (t := .phP ws) hb.tp (by rw [hp]; rfl)) ?_
        intro a σ2 h2 _ ha; subst ha
        exact Rd.ret h2.inv rfl
      · intro a σ1 h1 _ ha; subst ha
        simp only [Bool.false_eq_true, if_false]
        exact Rd.ret h1.inv (by simp [hp])
    · refine Rd.bind (good := (· = true)) (p := Phrase.hasSourcePhrase e) ?_ ?_
      · unfold Phrase.hasSourcePhrase
        refine Rd.bind (Rd.sources1 hi hb.tp rfl hS) ?_
        intro a σ2 h2 _ ha; subst ha
        exact Rd.ret h2.inv rfl
      · intro a σ1 h1 _ ha; subst ha
        simp only [if_true]
        refine Rd.attemptDeref (good := (· = e')) ?_ ?_
        · unfold Phrase.getPreviousElement
          refine Rd.bind (good := (· = e'.phrase)) ?_ ?_
          · unfold Phrase.getSourcePhrase
            refine Rd.bind (Rd.sources1 h1.inv (h1.mono.tagEq hb.tp (by simp)) rfl
              (h1.mono.Seq hb.tp rfl hS (by simp))) ?_
            intro a σ3 h3 _ ha; subst ha
            exact Rd.ret h3.inv rfl
          · intro a σ3 h3 _ ha; subst ha
            exact Rd.phraseByPhrase h3.inv (he'.mono (h1.trans h3).mono)
        · intro a σ2 h2 _ ha; subst ha
          have h12 := h1.trans h2
          obtain ⟨q', rs', w', hq', hb'⟩ := (he'.mono h12.mono).base
          refine Rd.bind (Rd.extractWordValue h2.inv hb' hf hD) ?_
          intro a σ3 h3 _ ha; subst ha
          refine Rd.cons (ih h3.inv (he'.mono (h12.trans h3).mono) _ ?_) ?_
          · rw [hp] at hl; simp at hl; omega
          · intro r hr
            subst hr
            subst hq'
            simp [hp]

/-- the text of a phrase -/
def textOf (ws : List (List Int)) : GoStr := joinSpace (ws.map stringOf)

theorem Rd.phraseExtract {C : Ctx} {σ : St} (hi : Inv C.cfg C.lim σ) {ws e} (h : PhraseEnt σ ws e)
    {fuel : Nat} (hf : C.lim.L ≤ fuel) (hD : C.lim.D ≤ fuel) :
    Rd C (· = textOf ws) (Phrase.extract fuel e) σ := by
  unfold Phrase.extract
  obtain ⟨q, rs, w, hp, hb⟩ := h.base
  refine Rd.bind (Rd.extractWordValue hi hb hf hD) ?_
  intro a σ1 h1 _ ha; subst ha
  refine Rd.bind (Rd.phraseLoop hf hD fuel h1.inv (h.mono h1.mono) _ (Nat.le_trans (h.len hi) hD)) ?_
  intro a σ2 h2 _ ha; subst ha
  exact Rd.ret h2.inv (by simp [hp, textOf])

/-! ### details and remarks -/

theorem Rd.detailText {C : Ctx} {σ : St} (hi : Inv C.cfg C.lim σ) {d po pp o p} (hd : DetailEnt σ d po pp)
    (ho : PhraseEnt σ o po) (hp : PhraseEnt σ p pp) {fuel : Nat} (hf : C.lim.L ≤ fuel)
    (hD : C.lim.D ≤ fuel) :
    Rd C (· = (textOf o, textOf p)) (do
      let d ← Detail.fetch d.remark
      Detail.getObjectAndProperty fuel d) σ := by
  refine Rd.bind (good := (·.phrase = d.phrase)) ?_ ?_
  · unfold Detail.fetch Detail.readEntityByRemark
    refine Rd.bind (Rd.getRefB hi hd.ref) ?_
    intro a σ1 h1 _ ha; rw [ha]
    refine Rd.bind (good := fun _ => True) (Rd.getRef h1.inv ?_ (fun _ _ _ => trivial)) ?_
    · rw [h1.mono.tagEq hd.tp (by simp)]; simp
    intro a σ2 h2 _ _
    exact Rd.ret h2.inv rfl
  intro d' σ1 h1 _ hd'
  unfold Detail.getObjectAndProperty
  refine Rd.bind (good := (· = (po.detail, pp.detail))) ?_ ?_
  · unfold Detail.getObjectAndPropertyPhrases
    rw [hd']
    refine Rd.bind (Rd.sources1 h1.inv (hd.mono h1.mono).tp rfl (hd.mono h1.mono).So) ?_
    intro a σ2 h2 _ ha; subst ha
    refine Rd.bind (Rd.targets1 h2.inv (hd.mono (h1.trans h2).mono).tp rfl (hd.mono (h1.trans h2).mono).Tp) ?_
    intro a σ3 h3 _ ha; subst ha
    exact Rd.ret h3.inv rfl
  intro a σ2 h2 _ ha; subst ha
  have h12 := h1.trans h2
  refine Rd.bind (Rd.phraseByDetail h2.inv (ho.mono h12.mono)) ?_
  intro a σ3 h3 _ ha; subst ha
  have h13 := h12.trans h3
  refine Rd.bind (Rd.phraseExtract h3.inv (ho.mono h13.mono) hf hD) ?_
  intro a σ4 h4 _ ha; subst ha
  have h14 := h13.trans h4
  refine Rd.bind (Rd.phraseByDetail h4.inv (hp.mono h14.mono)) ?_
  intro a σ5 h5 _ ha; subst ha
  have h15 := h14.trans h5
  refine Rd.bind (Rd.phraseExtract h5.inv (hp.mono h15.mono) hf hD) ?_
  intro a σ6 h6 _ ha; subst ha
  exact Rd.ret h6.inv rfl

/-- GetObjectAndProperty -/
theorem Rd.remarkText {C : Ctx} {σ : St} (hi : Inv C.cfg C.lim σ) {r o p} (hr : RemEnt σ r)
    (hs : Says σ r o p) {fuel : Nat} (hf : C.lim.L ≤ fuel) (hD : C.lim.D ≤ fuel) :
    Rd C (· = (textOf o, textOf p)) (Remark.getObjectAndProperty fuel r) σ := by
  obtain ⟨d, po, pp, hS, hd, ho, hp⟩ := hs
  unfold Remark.getObjectAndProperty
  refine Rd.bind (good := (· = d.remark)) ?_ ?_
  · unfold Remark.getSourceDetail
    refine Rd.bind (Rd.sources1 hi hr.td rfl hS) ?_
    intro a σ1 h1 _ ha; subst ha
    exact Rd.ret h1.inv rfl
  intro a σ1 h1 _ ha; subst ha
  exact Rd.detailText h1.inv (hd.mono h1.mono) (ho.mono h1.mono) (hp.mono h1.mono) hf hD

theorem Rd.remByClass {C : Ctx} {σ : St} (hi : Inv C.cfg C.lim σ) {r} (h : RemEnt σ r) :
    Rd C (· = r) (Remark.readEntityByClass r.cls) σ := by
  unfold Remark.readEntityByClass
  refine Rd.bind (Rd.getRefF hi h.chain.ab) ?_
  intro a σ1 h1 _ ha; simp only [ha]
  refine Rd.bind (Rd.getRefMid h1.inv (h.mono h1.mono).chain.ab (h.mono h1.mono).chain.bc) ?_
  intro a σ2 h2 _ ha; subst ha
  have h12 := h1.mono.trans h2.mono
  refine Rd.bind (Rd.getRefMid h2.inv (h.mono h12).chain.bc (h.mono h12).chain.cd) ?_
  intro a σ3 h3 _ ha; subst ha
  exact Rd.ret h3.inv rfl

theorem Rd.remByFact {C : Ctx} {σ : St} (hi : Inv C.cfg C.lim σ) {r} (h : RemEnt σ r) :
    Rd C (· = r) (Remark.readEntityByFact r.fact) σ := by
  unfold Remark.readEntityByFact
  refine Rd.bind (Rd.getRefB hi h.chain.cd) ?_
  intro a σ1 h1 _ ha; rw [ha]
  refine Rd.bind (Rd.getRefMid h1.inv (h.mono h1.mono).chain.bc (h.mono h1.mono).chain.cd) ?_
  intro a σ2 h2 _ ha; subst ha
  have h12 := h1.mono.trans h2.mono
  refine Rd.bind (Rd.getRefMid h2.inv (h.mono h12).chain.ab (h.mono h12).chain.bc) ?_
  intro a σ3 h3 _ ha; subst ha
  exact Rd.ret h3.inv rfl

theorem Rd.factByRemark {C : Ctx} {σ : St} (hi : Inv C.cfg C.lim σ) {b f} (h : FactEnt σ b f) :
    Rd C (· = ⟨f, true⟩) (Fact.fetchByRemark f.remark) σ := by
  unfold Fact.fetchByRemark
  refine Rd.bind (good := (· = f)) ?_ ?_
  · unfold Fact.readEntityByRemark
    refine Rd.bind (Rd.getRefMid hi h.chain.ab h.chain.bc) ?_
    intro a σ1 h1 _ ha; subst ha
    refine Rd.bind (Rd.getRefMid h1.inv (h.mono h1.mono).chain.bc (h.mono h1.mono).chain.cd) ?_
    intro a σ2 h2 _ ha; subst ha
    exact Rd.ret h2.inv rfl
  intro a σ1 h1 _ ha; subst ha
  exact Rd.ret h1.inv rfl

theorem Rd.factByStory {C : Ctx} {σ : St} (hi : Inv C.cfg C.lim σ) {b f} (h : FactEnt σ b f) :
    Rd C (· = f) (Fact.readEntityByStory f.story) σ := by
  unfold Fact.readEntityByStory
  refine Rd.bind (Rd.getRefB hi h.chain.cd) ?_
  intro a σ1 h1 _ ha; rw [ha]
  refine Rd.bind (Rd.getRefMid h1.inv (h.mono h1.mono).chain.bc (h.mono h1.mono).chain.cd) ?_
  intro a σ2 h2 _ ha; subst ha
  have h12 := h1.mono.trans h2.mono
  refine Rd.bind (Rd.getRefMid h2.inv (h.mono h12).chain.ab (h.mono h12).chain.bc) ?_
  intro a σ3 h3 _ ha; subst ha
  exact Rd.ret h3.inv rfl

theorem Rd.storyByFact {C : Ctx} {σ : St} (hi : Inv C.cfg C.lim σ) {s} (h : StoryEnt σ s) :
    Rd C (· = s) (Story.fetchByFact s.fact) σ := by
  unfold Story.fetchByFact
  refine Rd.bind (Rd.getRefMid hi h.chain.ab h.chain.bc) ?_
  intro a σ1 h1 _ ha; subst ha
  refine Rd.bind (Rd.getRefMid h1.inv (h.mono h1.mono).chain.bc (h.mono h1.mono).chain.cd) ?_
  intro a σ2 h2 _ ha; subst ha
  exact Rd.ret h2.inv rfl

end Semnet
