import Verif.Proof.Start
/-
  The public queries on remarks returned by creating calls.
-/
namespace Semnet
open Spec

/-- `p` only reads and ends in an error (it may panic only if the storage failed). -/
def Fails {α : Type} (C : Ctx) (p : Go α) (σ : St) : Prop :=
  wp C (fun o σ' => Ext C σ σ' ∧ RO C σ σ' ∧ match o with
    | .ok _ => False
    | .err _ => True
    | .panic => σ'.flt = true
    | .spin => False) p σ

theorem Fails.err {α : Type} {C : Ctx} {σ : St} (hi : Inv C.cfg C.lim σ) (e : Err) :
    Fails C (Go.err e : Go α) σ := ⟨.refl hi, .refl C σ, trivial⟩

theorem Fails.left {α β : Type} {C : Ctx} {p : Go α} {f : α → Go β} {σ : St} (h : Fails C p σ) :
    Fails C (p >>= f) σ := by
  refine wp_bind (wp_mono ?_ h)
  intro o σ' ⟨h1, h2, h3⟩
  cases o with
  | ok a => exact h3.elim
  | err e => exact ⟨h1, h2, h3⟩
  | panic => exact ⟨h1, h2, h3⟩
  | spin => exact h3.elim

theorem Fails.bind {α β : Type} {C : Ctx} {good : α → Prop} {p : Go α} {f : α → Go β} {σ : St}
    (h : Rd C good p σ) (hf : ∀ a σ', Ext C σ σ' → RO C σ σ' → good a → Fails C (f a) σ') :
    Fails C (p >>= f) σ := by
  refine wp_bind (wp_mono ?_ h)
  intro o σ' ⟨h1, h2, h3⟩
  cases o with
  | ok a =>
    refine wp_mono ?_ (hf a σ' h1 h2 h3.1)
    intro o' σ'' ⟨h4, h5, h6⟩
    exact ⟨h1.trans h4, h2.trans h5, h6⟩
  | err e => exact ⟨h1, h2, trivial⟩
  | panic => exact ⟨h1, h2, h3⟩
  | spin => exact h3.elim

theorem Fails.ref0 {C : Ctx} {σ : St} (hi : Inv C.cfg C.lim σ) (hz : C.cfg.zero = false) :
    Fails C (Go.getReference 0) σ := by
  refine wp_read hi (fun _ _ => rfl) ?_ ?_
  · intro σ1 h1 h2 _ _ c
    have hl : σ1.store.live 0 = false := by
      cases h : σ1.store.live 0 with
      | false => rfl
      | true => exact absurd (h1.inv.node0 hz) ((h1.inv.live 0).1 h)
    simp only [Store.step, hl]
    exact ⟨h1, h2, trivial⟩
  · intro σ1 h1 h2 _ _
    exact ⟨h1, h2, trivial⟩

/-! ### remarks of a fact -/

theorem Rd.hasNextRemark {C : Ctx} {σ : St} (hi : Inv C.cfg C.lim σ) {r} (h : RemEnt σ r) :
    Rd C (· = false) (Remark.hasNextRemark r) σ := by
  unfold Remark.hasNextRemark
  refine Rd.bind (Rd.targets0 hi h.tp rfl) ?_
  intro a σ1 h1 _ ha; subst ha
  exact Rd.ret h1.inv rfl

theorem Fails.getNextRemark {C : Ctx} {σ : St} (hi : Inv C.cfg C.lim σ) {r} (h : RemEnt σ r) :
    Fails C (Remark.getNextRemark r) σ := by
  unfold Remark.getNextRemark Remark.getNextRemarkId
  refine Fails.left (Fails.bind (Rd.targets0 hi h.tp rfl) ?_)
  intro a σ1 h1 _ ha; subst ha
  exact Fails.err h1.inv _

/-! ### facts and stories -/

theorem Fails.fetchByRemark {C : Ctx} {σ : St} (hi : Inv C.cfg C.lim σ) {r} (h : RemEnt σ r)
    (hz : C.cfg.zero = false) : Fails C (Fact.fetchByRemark r.fact) σ := by
  unfold Fact.fetchByRemark Fact.readEntityByRemark
  refine Fails.left (Fails.bind (Rd.refRmF hi h) ?_)
  intro a σ1 h1 _ ha; subst ha
  exact Fails.left (Fails.ref0 h1.inv hz)

theorem Rd.fetchByRemark0 {C : Ctx} {σ : St} (hi : Inv C.cfg C.lim σ) {r} (h : RemEnt σ r)
    (hz : C.cfg.zero = true) : Rd C (· = ⟨⟨r.position, r.fact, 0, 0⟩, true⟩) (Fact.fetchByRemark r.fact) σ := by
  unfold Fact.fetchByRemark
  refine Rd.bind (Rd.factOfRmF hi h hz) ?_
  intro a σ1 h1 _ ha; subst ha
  exact Rd.ret h1.inv rfl

theorem Fails.hasNextFact {C : Ctx} {σ : St} (hi : Inv C.cfg C.lim σ) {r} (h : RemEnt σ r)
    (hz : C.cfg.zero = false) : Fails C (Remark.hasNextFact r) σ :=
  Fails.left (Fails.fetchByRemark hi h hz)

theorem Fails.getNextFact {C : Ctx} {σ : St} (hi : Inv C.cfg C.lim σ) {r} (h : RemEnt σ r)
    (hz : C.cfg.zero = false) : Fails C (Remark.getNextFact r) σ :=
  Fails.left (Fails.fetchByRemark hi h hz)

theorem Fails.hasNextStory {C : Ctx} {σ : St} (hi : Inv C.cfg C.lim σ) {r} (h : RemEnt σ r)
    (hz : C.cfg.zero = false) : Fails C (Remark.hasNextStory r) σ :=
  Fails.left (Fails.fetchByRemark hi h hz)

theorem Fails.getNextStory {C : Ctx} {σ : St} (hi : Inv C.cfg C.lim σ) {r} (h : RemEnt σ r)
    (hz : C.cfg.zero = false) : Fails C (Remark.getNextStory r) σ :=
  Fails.left (Fails.fetchByRemark hi h hz)

theorem Rd.hasNextFact0 {C : Ctx} (hR : C.R = false) {σ : St} (hi : Inv C.cfg C.lim σ) {r} (h : RemEnt σ r)
    (hz : C.cfg.zero = true) : Rd C (· = !(σ.T 0).isEmpty) (Remark.hasNextFact r) σ := by
  unfold Remark.hasNextFact Fact.hasNextFact
  refine Rd.bind (Rd.fetchByRemark0 hi h hz) ?_
  intro a σ1 h1 r1 ha; subst ha
  refine Rd.bind (good := fun l => l.Perm (σ.T 0)) (Rd.targets h1.inv (by rw [h1.inv.tag0 hz]; simp) ?_) ?_
  · intro σ2 l h2 r2 hl
    rw [← (r1 hR).T, ← (r2 hR).T]; exact hl
  intro a σ2 h2 _ ha
  refine Rd.ret h2.inv ?_
  cases a with
  | nil => rw [ha.symm.eq_nil]
  | cons x l =>
    have := ha.length_eq
    cases hT : σ.T 0 with
    | nil => rw [hT] at this; cases this
    | cons => rfl

theorem Inv.zeroTarget {cfg lim} {σ : St} (hi : Inv cfg lim σ) (hz : cfg.zero = true) (hc : Clean σ) {t}
    (ht : σ.T 0 = [t]) : ∃ f, FactEnt σ true f ∧ f.position = t ∧ σ.T f.story = [0] := by
  have he := hi.edge 0 t (mem_T.1 (by rw [ht]; simp))
  unfold EdgeOK at he
  rw [hi.tag0 hz, (hc.zero t ht).1] at he
  exact he

theorem Rd.factByPosition {C : Ctx} {σ : St} (hi : Inv C.cfg C.lim σ) {b f} (h : FactEnt σ b f) :
    Rd C (· = f) (Fact.readEntityByPosition f.position) σ := by
  unfold Fact.readEntityByPosition
  refine Rd.bind (Rd.getRefMid hi h.chain.bc h.chain.cd) ?_
  intro a σ1 h1 _ ha; subst ha
  refine Rd.bind (Rd.getRefMid h1.inv (h.mono h1.mono).chain.ab (h.mono h1.mono).chain.bc) ?_
  intro a σ2 h2 _ ha; subst ha
  exact Rd.ret h2.inv rfl

/-- the targets of node 0 -/
theorem Rd.targetsOf0 {C : Ctx} (hR : C.R = false) {σ : St} (hi : Inv C.cfg C.lim σ) (hz : C.cfg.zero = true) :
    Rd C (fun l => l.Perm (σ.T 0)) (Go.readTargets 0) σ := by
  refine Rd.targets hi (by rw [hi.tag0 hz]; simp) ?_
  intro σ2 l h2 r2 hl
  rw [← (r2 hR).T]; exact hl

theorem Fails.getNextFact0 {C : Ctx} (hR : C.R = false) {σ : St} (hi : Inv C.cfg C.lim σ) {r} (h : RemEnt σ r)
    (hz : C.cfg.zero = true) (hc : Clean σ) : Fails C (Remark.getNextFact r) σ := by
  unfold Remark.getNextFact Fact.toNextFact Fact.getTargetFact
  refine Fails.bind (Rd.fetchByRemark0 hi h hz) ?_
  intro a σ1 h1 r1 ha; subst ha
  simp only [bind_assoc]
  refine Fails.bind (Rd.targetsOf0 hR h1.inv hz) ?_
  intro l σ2 h2 r2 hl
  rw [(r1 hR).T] at hl
  match l, hl with
  | [], _ => exact Fails.left (Fails.err h2.inv _)
  | _ :: _ :: _, _ => exact Fails.left (Fails.err h2.inv _)
  | [t], hl =>
    obtain ⟨f, hf, hft, _⟩ := hi.zeroTarget hz hc (List.singleton_perm.1 hl).symm
    have m2 := h1.mono.trans h2.mono
    subst hft
    simp only [pure_bind, Fact.viaStorage, if_true]
    refine Fails.bind (Rd.factByPosition h2.inv (hf.mono m2)) ?_
    intro a σ3 h3 r3 ha; subst ha
    have hf3 := hf.mono (m2.trans h3.mono)
    unfold Fact.getFirstRemark
    refine Fails.left (Fails.bind (Rd.targets0 h3.inv hf3.tr rfl) ?_)
    intro a σ4 h4 _ ha; subst ha
    exact Fails.err h4.inv _

/-! ### the opener of the story -/

theorem Rd.targetFact {C : Ctx} {σ : St} (hi : Inv C.cfg C.lim σ) {r f} (hr : RemEnt σ r)
    (hT : σ.T r.fact = [f]) : Rd C (· = f) (Remark.getTargetFact r) σ := by
  unfold Remark.getTargetFact
  refine Rd.bind (Rd.targets1 hi hr.tf rfl hT) ?_
  intro a σ1 h1 _ ha; subst ha
  exact Rd.ret h1.inv rfl

theorem Rd.storyTargetFact {C : Ctx} {σ : St} (hi : Inv C.cfg C.lim σ) {s f} (hs : StoryEnt σ s)
    (hT : σ.T s.fact = [f]) : Rd C (· = f) (Story.getTargetFact s) σ := by
  unfold Story.getTargetFact
  refine Rd.bind (Rd.targets1 hi hs.tf rfl hT) ?_
  intro a σ1 h1 _ ha; subst ha
  exact Rd.ret h1.inv rfl

theorem Rd.factTargetStory {C : Ctx} {σ : St} (hi : Inv C.cfg C.lim σ) {b f s} (hf : FactEnt σ b f)
    (hT : σ.T f.story = [s]) : Rd C (· = s) (Fact.getTargetStory f) σ := by
  unfold Fact.getTargetStory
  refine Rd.bind (Rd.targets1 hi hf.ts rfl hT) ?_
  intro a σ1 h1 _ ha; subst ha
  exact Rd.ret h1.inv rfl

theorem Rd.firstRemark {C : Ctx} {σ : St} (hi : Inv C.cfg C.lim σ) {f r} {g} (hf : FactEnt σ false f)
    (hT : σ.T f.remark = [r]) : Rd C (· = r) (Fact.getFirstRemark ⟨f, g⟩) σ := by
  unfold Fact.getFirstRemark
  refine Rd.bind (Rd.targets1 hi hf.tr rfl hT) ?_
  intro a σ1 h1 _ ha; subst ha
  exact Rd.ret h1.inv rfl

/-- without failures the failure flag stays -/
theorem wp_calm {α : Type} {C : Ctx} (hF : C.F = false) {Q : Out α → St → Prop} :
    ∀ {p : Go α} {σ : St}, wp C Q p σ → wp C (fun o σ' => Q o σ' ∧ σ'.flt = σ.flt) p σ := by
  intro p
  induction p with
  | ok a => exact fun h => ⟨h, rfl⟩
  | err e => exact fun h => ⟨h, rfl⟩
  | panic => exact fun h => ⟨h, rfl⟩
  | spin => exact fun h => ⟨h, rfl⟩
  | op o k ih =>
    intro σ h σ1 he c hc
    obtain ⟨⟨t, b, hs, h1⟩, _, _⟩ := h σ1 he c hc
    have hfl := he.fltEq
    refine ⟨⟨t, b, hs, ?_⟩, fun h => ?_, fun h => ?_⟩
    · have := ih _ h1
      refine wp_mono ?_ this
      intro o σ' ⟨h2, h3⟩
      exact ⟨h2, h3.trans hfl⟩
    · rw [hF] at h; cases h
    · rw [hF] at h; cases h
  | getMem k ih => intro σ h; exact ih _ h
  | setMem m k ih => intro σ h; exact ⟨h.1, ih h.2⟩

theorem Rd.toFirstFact {C : Ctx} (hFz : C.F = false ∨ C.cfg.zero = false) {σ : St} (hi : Inv C.cfg C.lim σ)
    (hfl : C.F = false → σ.flt = false) {f s}
    (hf : FactEnt σ false f) (hs : StoryEnt σ s) (h1 : σ.T f.story = [s.fact]) (h2 : σ.T s.fact = [f.story]) :
    Rd C (· = ⟨f, false⟩) (Fact.toFirstFact ⟨f, true⟩) σ := by
  unfold Fact.toFirstFact Fact.targetStoryOrZero
  have rest : ∀ σ', Ext C σ σ' → Rd C (· = (⟨f, false⟩ : FactAgg)) (do
      let story ← Story.fetchByFact s.fact
      let firstFactIdentifier ← Story.getTargetFact story
      let firstFact ← Fact.viaStorage ⟨f, true⟩ (Fact.readEntityByStory firstFactIdentifier)
      pure ⟨firstFact, false⟩) σ' := by
    intro σ' e
    refine Rd.bind (Rd.storyByFact e.inv (hs.mono e.mono)) ?_
    intro a σ1 e1 _ ha; subst ha
    have m1 := e.mono.trans e1.mono
    refine Rd.bind (Rd.storyTargetFact e1.inv (hs.mono m1) (m1.Teq hs.tf rfl h2 (by simp))) ?_
    intro a σ2 e2 _ ha; subst ha
    have m2 := m1.trans e2.mono
    simp only [Fact.viaStorage, if_true]
    refine Rd.bind (Rd.factByStory e2.inv (hf.mono m2)) ?_
    intro a σ3 e3 _ ha; subst ha
    exact Rd.ret e3.inv rfl
  simp only [bind_assoc]
  have att := Rd.attempt (Rd.factTargetStory hi hf h1)
  have att' : wp C (fun (o : Out (Except Err Nat)) σ' => Ext C σ σ' ∧ RO C σ σ' ∧ match o with
      | .ok (.ok a) => a = s.fact ∧ σ'.flt = σ.flt
      | .ok (.error _) => σ'.flt = true ∧ C.cfg.zero = false
      | .err _ => False
      | .panic => σ'.flt = true
      | .spin => False) (Fact.getTargetStory f).attempt σ := by
    rcases hFz with hF | hz
    · refine wp_mono ?_ (wp_calm hF att)
      intro o σ' ⟨⟨h1, h2, h3⟩, h4⟩
      refine ⟨h1, h2, ?_⟩
      rw [hfl hF] at h4
      cases o with
      | ok x =>
        cases x with
        | ok a => exact h3
        | error e => rw [h4] at h3; cases h3
      | _ => exact h3
    · refine wp_mono ?_ att
      intro o σ' ⟨h1, h2, h3⟩
      refine ⟨h1, h2, ?_⟩
      cases o with
      | ok x =>
        cases x with
        | ok a => exact h3
        | error e => exact ⟨h3, hz⟩
      | _ => exact h3
  refine wp_bind (wp_mono ?_ att')
  intro o σ' ⟨e, ro, h3⟩
  cases o with
  | ok x =>
    cases x with
    | ok a =>
      obtain ⟨ha, hfe⟩ := h3
      subst ha
      simp only [pure_bind]
      refine wp_mono ?_ (rest σ' e)
      intro o σ'' ⟨x1, x2, x3⟩
      refine ⟨e.trans x1, ro.trans x2, ?_⟩
      cases o with
      | ok b => exact ⟨x3.1, x3.2.trans hfe⟩
      | _ => exact x3
    | error er =>
      simp only [pure_bind]
      have hfail : Fails C (Story.fetchByFact 0) σ' := Fails.left (Fails.ref0 e.inv h3.2)
      refine wp_mono ?_ (Fails.left hfail)
      intro o σ'' ⟨x1, x2, x3⟩
      refine ⟨e.trans x1, ro.trans x2, ?_⟩
      cases o with
      | ok b => exact x3.elim
      | err _ => exact x1.flt h3.1
      | panic => exact x3
      | spin => exact x3
  | err er => exact h3.elim
  | panic => exact ⟨e, ro, h3⟩
  | spin => exact h3.elim

/-- sequencing, remembering that nothing has failed -/
theorem Rd.bindF {α β : Type} {C : Ctx} {good : α → Prop} {good' : β → Prop} {p : Go α} {f : α → Go β}
    {σ : St} (h : Rd C good p σ)
    (hf : ∀ a σ', Ext C σ σ' → σ'.flt = σ.flt → good a → Rd C good' (f a) σ') : Rd C good' (p >>= f) σ := by
  refine wp_bind (wp_mono ?_ h)
  intro o σ' ⟨h1, h2, h3⟩
  cases o with
  | ok a =>
    refine wp_mono ?_ (hf a σ' h1 h3.2 h3.1)
    intro o' σ'' ⟨h4, h5, h6⟩
    refine ⟨h1.trans h4, h2.trans h5, ?_⟩
    cases o' with
    | ok b => exact ⟨h6.1, h6.2.trans h3.2⟩
    | _ => exact h6
  | err e => exact ⟨h1, h2, h3⟩
  | panic => exact ⟨h1, h2, h3⟩
  | spin => exact h3.elim

/-- GetFirstFact -/
theorem Rd.getFirstFact {C : Ctx} (hFz : C.F = false ∨ C.cfg.zero = false) {σ : St} (hi : Inv C.cfg C.lim σ)
    (hfl : C.F = false → σ.flt = false) {r r1} (hr : RemEnt σ r) (hb : Belongs σ r (some r1)) :
    Rd C (· = r1) (Remark.getFirstFact r) σ := by
  obtain ⟨f, hT, hf, hr1, hTf, s, hs, h1, h2⟩ := hb
  unfold Remark.getFirstFact
  refine Rd.bindF (Rd.targetFact hi hr hT) ?_
  intro a σ1 e1 f1 ha; subst ha
  refine Rd.bindF (Rd.factByRemark e1.inv (hf.mono e1.mono)) ?_
  intro a σ2 e2 f2 ha; subst ha
  have m2 := e1.mono.trans e2.mono
  refine Rd.bind (Rd.toFirstFact hFz e2.inv (fun h => by rw [f2, f1]; exact hfl h) (hf.mono m2) (hs.mono m2)
    (m2.Teq hf.ts rfl h1 (by simp)) (m2.Teq hs.tf rfl h2 (by simp))) ?_
  intro a σ3 e3 _ ha; subst ha
  have m3 := m2.trans e3.mono
  refine Rd.bind (Rd.firstRemark e3.inv (hf.mono m3) (m3.Teq hf.tr rfl hTf (by simp))) ?_
  intro a σ4 e4 _ ha; subst ha
  exact Rd.remByFact e4.inv (hr1.mono (m3.trans e4.mono))

/-- Output.GetStory -/
theorem Rd.getStory {C : Ctx} (hFz : C.F = false ∨ C.cfg.zero = false) {σ : St} (hi : Inv C.cfg C.lim σ)
    (hfl : C.F = false → σ.flt = false) {r r1 o p} (hr : RemEnt σ r) (hb : Belongs σ r (some r1))
    (hr1 : RemEnt σ r1) (hs : Says σ r1 o p) {fuel : Nat} (hf : C.lim.L ≤ fuel) (hD : C.lim.D ≤ fuel) (h1 : 1 ≤ fuel) :
    Rd C (· = textOf o ++ [spaceByte] ++ textOf p ++ [spaceByte]) (Output.getStory fuel r) σ := by
  unfold Output.getStory
  refine Rd.bind (Rd.getFirstFact hFz hi hfl hr hb) ?_
  intro a σ1 e1 _ ha; subst ha
  obtain ⟨n, rfl⟩ : ∃ n, fuel = n + 1 := ⟨fuel - 1, by omega⟩
  unfold Output.loop
  refine Rd.bind (Rd.remarkText e1.inv (hr1.mono e1.mono) (hs.mono e1.mono hr1) hf hD) ?_
  intro a σ2 e2 _ ha; subst ha
  refine Rd.bind (Rd.hasNextRemark e2.inv (hr1.mono (e1.mono.trans e2.mono))) ?_
  intro a σ3 e3 _ ha; subst ha
  refine Rd.ret e3.inv ?_
  simp

/-! ### outcomes -/

theorem Rd.exec {α : Type} {C : Ctx} (hR : C.R = false) {good : α → Prop} {p : Go α} {σ : St}
    {w : World} (hw : σ.Is w) (hfl : σ.flt = false) (h : Rd C good p σ) :
    ∃ a m, p.exec C.cfg w = (.ok a, ⟨w.store, m⟩) ∧ good a := by
  obtain ⟨σ', h1, ⟨h2, h3, h4⟩, h5⟩ := wp_run hR (.inr rfl) hw h
  have hfl' : σ'.flt = false := (h5 rfl).trans hfl
  have hst : ((p.run C.cfg Go.noFault w).2).store = w.store := by
    rw [← h1.store, (h3 hR).store, hw.store]
  unfold Go.exec
  generalize p.run C.cfg Go.noFault w = out at *
  obtain ⟨o, ⟨st, m⟩⟩ := out
  simp only at hst
  subst hst
  cases o with
  | ok a => exact ⟨a, m, rfl, h4.1⟩
  | err e => simp only at h4; rw [hfl'] at h4; cases h4
  | panic => simp only at h4; rw [hfl'] at h4; cases h4
  | spin => exact h4.elim

theorem Fails.exec {α : Type} {C : Ctx} (hR : C.R = false) {p : Go α} {σ : St}
    {w : World} (hw : σ.Is w) (hfl : σ.flt = false) (h : Fails C p σ) :
    ∃ e m, p.exec C.cfg w = (.err e, ⟨w.store, m⟩) := by
  obtain ⟨σ', h1, ⟨h2, h3, h4⟩, h5⟩ := wp_run hR (.inr rfl) hw h
  have hfl' : σ'.flt = false := (h5 rfl).trans hfl
  have hst : ((p.run C.cfg Go.noFault w).2).store = w.store := by
    rw [← h1.store, (h3 hR).store, hw.store]
  unfold Go.exec
  generalize p.run C.cfg Go.noFault w = out at *
  obtain ⟨o, ⟨st, m⟩⟩ := out
  simp only at hst
  subst hst
  cases o with
  | ok a => exact h4.elim
  | err e => exact ⟨e, m, rfl⟩
  | panic => simp only at h4; rw [hfl'] at h4; cases h4
  | spin => exact h4.elim

end Semnet
