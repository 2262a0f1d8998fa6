import Verif.Proof.Orphan
import Verif.Proof.Calls
import Verif.Spec.Astray
/-
  Proof: a remark without a fact never gets one.
-/
namespace Semnet
open Spec

variable {cfg : Cfg} {lim : Lim} {σ : St}

/-! ### programs that do not connect a given node to anything -/

def Spares {α : Type} (cfg : Cfg) (x : Nat) (p : Go α) (w : World) : Prop :=
  (p.exec cfg w).2.store.targets x = w.store.targets x

namespace Spares
variable {α β : Type} {x : Nat} {w : World}

theorem bind {p : Go α} {f : α → Go β} (hp : Spares cfg x p w)
    (hf : ∀ a w1, p.exec cfg w = (.ok a, w1) → Spares cfg x (f a) w1) : Spares cfg x (p >>= f) w := by
  unfold Spares at *
  rw [exec_bind]
  generalize hq : p.exec cfg w = out at hp
  obtain ⟨o, w1⟩ := out
  cases o with
  | ok a => exact (hf a w1 hq).trans hp
  | _ => exact hp

theorem ret {a : α} : Spares cfg x (pure a : Go α) w := rfl

theorem connect {a b : Nat} (h : x ≠ a) : Spares cfg x (Go.connect a b) w := by
  have key : (w.store.step cfg (.connect a b)).2.targets x = w.store.targets x := by
    have hc : (w.store.connected cfg a b).targets x = w.store.targets x := by
      simp [Store.targets, Store.connected, Ne.symm h]
    simp only [Store.step]
    split
    · split
      · cases cfg.dup <;> first | rfl | exact hc
      · exact hc
    · rfl
  unfold Spares
  rw [← key]
  simp only [Go.connect, Go.call, Go.exec, Go.run, Go.noFault]
  generalize w.store.step cfg (.connect a b) = out
  obtain ⟨r, s⟩ := out
  cases r <;> rfl

theorem quiet {st : State} (h : Holds cfg lim st σ) (hl : st.log ≠ []) {p : Go α} (hp : Quiet p) :
    Spares cfg x p st.world := by
  obtain ⟨h1, h2⟩ := holds_initialised h hl
  unfold Spares
  have : (p.exec cfg st.world).2.store = st.world.store := Stays.run rfl (hp.stays h1 h2)
  rw [this]

end Spares

/-! ### the common beginning of the creating calls -/

/-- `half` without its last connection -/
def quarter (fuel : Nat) (src : Go GoStr) (property : GoStr) : Go (RemE × DetailE) := do
  Class.provideEntity
  let cls ← Class.createNode Class.remarkId
  let remark ← Remark.createEntity cls
  let object ← src
  let detail ← Detail.provide fuel object property
  pure (remark, detail)

theorem half_quarter (fuel : Nat) (src : Go GoStr) (p : GoStr) :
    half fuel src p = (quarter fuel src p >>= fun q => do
      Go.connect q.2.remark q.1.detail
      pure q.1) := by
  simp only [half, quarter, bind_assoc, pure_bind]

theorem Wr.detailKeep {C : Ctx} (hR : C.R = false) (hU : C.up = true) (hL : C.lo = true) (hi : Inv C.cfg C.lim σ)
    (hB : C.F = true → σ.bits ≠ none) (hc : Clean σ) (hfl : σ.flt = false)
    {fuel : Nat} (hf : C.lim.L ≤ fuel) (hD : C.lim.D ≤ fuel) {o p : GoStr}
    (hso : TextOK C.lim o) (hsp : TextOK C.lim p) :
    WrL C (fun d σ' => Keep σ σ' ∧ σ'.tag d.remark = .dtR) (fun _ σ' => Keep σ σ') (Detail.provide fuel o p) σ := by
  unfold Detail.provide
  refine WrL.bind (WrL.cons (WrL.lower hU (Wr.phraseProvide (C := C.lower) hR hL hi hB hf hD hso)) (fun _ _ _ h => h)
    fun _ _ _ h => h.2) ?_
  intro po σ1 h1 ⟨⟨⟨hpo, _⟩, hf1⟩, hk1⟩
  have hB1 : C.F = true → σ1.bits ≠ none := by
    intro h
    have hb := hB h
    cases hb' : σ.bits with
    | none => exact absurd hb' hb
    | some b => rw [h1.mono.bits b hb']; simp
  have k1 := hk1 (hf1.trans hfl)
  refine WrL.bind (WrL.cons (WrL.lower hU (Wr.phraseProvide (C := C.lower) hR hL h1.inv hB1 hf hD hsp)) (fun _ _ _ h => h)
    fun _ _ _ h => k1.trans h1.mono h.2) ?_
  intro pp σ2 h2 ⟨⟨⟨hpp, _⟩, hf2⟩, hk2⟩
  have e2 := h1.trans h2
  have hfl2 : σ2.flt = false := by rw [hf2, hf1, hfl]
  have k2 := k1.trans h1.mono (hk2 hfl2)
  refine WrL.bind ((Rd.provideEntity h2.inv).wr hR).loose ?_
  intro _ σ3 h3 ⟨hs3, _⟩
  have e3 := e2.trans h3
  have hcl3 : Clean σ3 := (e2.clean hc hfl2).same hs3
  refine WrL.cons (Wr.detailProvideEntity hR h3.inv (fun _ => hcl3) ((hpo.mono h2.mono).mono h3.mono)
    (hpp.mono h3.mono)) ?_ ?_
  · intro d σ4 h4 hg
    exact ⟨(k2.trans e2.mono (.same hs3)).trans e3.mono hg.keep,
      hg.ent.elim (·.tr) fun h => absurd hcl3 h.2.2.1⟩
  · intro b σ4 h4 ⟨_, c, _⟩
    exact absurd hcl3 c

theorem Wr.quarter {C : Ctx} (hR : C.R = false) (hU : C.up = true) (hL : C.lo = true) (hi : Inv C.cfg C.lim σ)
    (hF : C.F = false) (hc : Clean σ) (hfl : σ.flt = false)
    {fuel : Nat} (hf : C.lim.L ≤ fuel) (hD : C.lim.D ≤ fuel) {o p : GoStr} {src : Go GoStr}
    (hsrc : ∀ σ', Ext C σ σ' → Rd C (· = o) src σ')
    (hso : TextOK C.lim o) (hsp : TextOK C.lim p) {x : Nat} (hx : σ.tag x = .rmF) :
    WrL C (fun q σ' => σ'.T x = σ.T x ∧ σ.tag q.1.fact = .none ∧ σ'.tag q.2.remark = .dtR) (fun _ σ' => σ'.T x = σ.T x)
      (quarter fuel src p) σ := by
  unfold Semnet.quarter
  refine WrL.bind ((Rd.provideEntity hi).wr hR) ?_
  intro _ σ1 h1 ⟨⟨hs1, _⟩, f1⟩
  rw [remark_newEnt]
  refine WrL.bind (Wr.newEnt hR h1.inv (by decide) remarkTags .remark) ?_
  intro q σ2 h2 ⟨hn, f2⟩
  obtain ⟨n, a, b, d⟩ := q
  simp only at hn ⊢
  have e2 := h1.trans h2
  refine WrL.bind ((hsrc σ2 e2.toExt).wr hR) ?_
  intro obj σ3 h3 ⟨⟨hs3, ho⟩, f3⟩
  subst ho
  have e3 := e2.trans h3
  have hfl3 : σ3.flt = false := by rw [f3, f2, f1, hfl]
  have T3 : σ3.T x = σ.T x := by
    rw [hs3.T, hn.frT x (by rw [hs1.tag, hx]; simp), hs1.T]
  have t3 : (σ3.tag x).high = true := by rw [e3.mono.tag x (by rw [hx]; simp), hx]; rfl
  refine WrL.bind (WrL.cons (Wr.detailKeep hR hU hL h3.inv (fun h => by rw [hF] at h; cases h) (e3.clean hc hfl3) hfl3 hf hD
    hso hsp) (fun _ _ _ h => h) fun _ _ _ h => (h.T x t3).trans T3) ?_
  intro dt σ4 h4 ⟨hk, ht⟩
  exact WrL.ret h4.inv ⟨(hk.T x t3).trans T3, by have := hn.fc; rw [hs1.tag] at this; exact this, ht⟩

/-- `half` spares an old remark, makes a new one, and leaves the storage in order -/
theorem Holds.half {fuel : Nat} (hf : Fits lim fuel) {st : State} (h : Holds cfg lim st σ) (hc : Clean σ) {o p : GoStr}
    {src : Go GoStr} (hsrc : ∀ σ', Ext (calmCtx cfg lim) σ σ' → Rd (calmCtx cfg lim) (· = o) src σ')
    (ho : TextOK lim o) (hp : TextOK lim p) {x : Nat} (hx : σ.tag x = .rmF) :
    Spares cfg x (half fuel src p) st.world ∧
    ∀ r w1, (half fuel src p).exec cfg st.world = (.ok r, w1) → x ≠ r.fact ∧
      ∃ σ1, Holds cfg lim ⟨w1, st.log⟩ σ1 ∧ Clean σ1 ∧ Mono σ σ1 := by
  have c := h.calm hf hc
  obtain ⟨σ1, h1, ⟨hx1, hgood1⟩, h3⟩ := wp_run (C := calmCtx cfg lim) rfl (f := Go.noFault) (.inr rfl) h.is
    (Wr.quarter (C := calmCtx cfg lim) rfl rfl rfl c.inv rfl hc c.flt c.L c.D hsrc ho hp hx)
  have hgood : match ((Semnet.quarter fuel src p).exec cfg st.world).1 with
      | .ok q => σ1.T x = σ.T x ∧ σ.tag q.1.fact = .none ∧ σ1.tag q.2.remark = .dtR
      | _ => σ1.T x = σ.T x := by
    have hfl : σ1.flt = false := (h3 rfl).trans h.flt
    revert hgood1
    show _ → match ((Semnet.quarter fuel src p).run (calmCtx cfg lim).cfg Go.noFault st.world).1 with
      | .ok q => σ1.T x = σ.T x ∧ σ.tag q.1.fact = .none ∧ σ1.tag q.2.remark = .dtR
      | _ => σ1.T x = σ.T x
    generalize ((Semnet.quarter fuel src p).run (calmCtx cfg lim).cfg Go.noFault st.world).1 = out
    intro hg
    cases out with
    | ok q => exact hg
    | err e => exact hg.elim (fun h => by rw [hfl] at h; cases h) id
    | panic => exact hg.elim (fun h => by rw [hfl] at h; cases h) id
    | spin => exact hg.elim
  have hst : σ1.store = ((Semnet.quarter fuel src p).exec cfg st.world).2.store := h1.store
  have hsp : Spares cfg x (Semnet.quarter fuel src p) st.world := by
    unfold Spares
    rw [← hst, ← h.is.store]
    revert hgood
    generalize ((Semnet.quarter fuel src p).exec cfg st.world).1 = out
    intro hg
    cases out with
    | ok q => exact hg.1
    | _ => exact hg
  have hne : ∀ q w, (Semnet.quarter fuel src p).exec cfg st.world = (.ok q, w) → x ≠ q.1.fact ∧ x ≠ q.2.remark := by
    intro q w hq
    rw [hq] at hgood
    refine ⟨fun e => ?_, fun e => ?_⟩
    · rw [e, hgood.2.1] at hx; cases hx
    · have := hx1.mono.tag x (by rw [hx]; simp)
      rw [hx, e, hgood.2.2] at this; cases this
  refine ⟨?_, ?_⟩
  · rw [half_quarter]
    exact hsp.bind fun q w hq => (Spares.connect (hne q w hq).2).bind fun _ _ _ => .ret
  · intro r w1 hr
    refine ⟨?_, ?_⟩
    · rw [half_quarter] at hr
      obtain ⟨q, w2, hq, hr⟩ := bind_ok hr
      obtain ⟨_, w3, _, hr⟩ := bind_ok hr
      have : (Out.ok q.1, w3) = (Out.ok r, w1) := hr
      injection this with e _
      injection e with e
      rw [← e]; exact (hne q w2 hq).1
    · obtain ⟨σ2, g1, ⟨gx, _⟩, g3⟩ := wp_run (C := calmCtx cfg lim) rfl (f := Go.noFault) (.inr rfl) h.is
        (Wr.half (C := calmCtx cfg lim) rfl rfl rfl c.inv c.B c.clean c.flt c.L c.D hsrc ho hp)
      have hr'' : (Semnet.half fuel src p).run (calmCtx cfg lim).cfg Go.noFault st.world = (.ok r, w1) := hr
      rw [hr''] at g1
      have hfl : σ2.flt = false := (g3 rfl).trans h.flt
      exact ⟨σ2, ⟨g1, gx.inv, hfl, h.keeps.mono gx.mono⟩, gx.clean hc hfl, gx.mono⟩

/-! ### the calls -/

theorem Holds.firstFact {st : State} (h : Holds cfg lim st σ) {x : Nat} (hx : σ.tag x = .rmF) :
    Spares cfg x Fact.createFirstStoryFact st.world ∧
    ∀ f w1, Fact.createFirstStoryFact.exec cfg st.world = (.ok f, w1) → x ≠ f.fact.remark := by
  obtain ⟨σ1, h1, ⟨hx1, hg⟩, h3⟩ := wp_run (C := calmCtx cfg lim) rfl (f := Go.noFault) (.inr rfl) h.is
    (Wr.createFirstStoryFact (C := calmCtx cfg lim) (bad := never) rfl rfl h.inv)
  have hfl : σ1.flt = false := (h3 rfl).trans h.flt
  generalize hq : Fact.createFirstStoryFact.run (calmCtx cfg lim).cfg Go.noFault st.world = out at h1 hg
  have hq' : Fact.createFirstStoryFact.exec cfg st.world = out := hq
  obtain ⟨o, w1⟩ := out
  unfold Spares
  rw [hq']
  cases o with
  | ok f =>
    obtain ⟨⟨_, hs, hT⟩, _⟩ := hg
    refine ⟨?_, ?_⟩
    · have := hT x (by rw [hx]; rfl)
      show w1.store.targets x = _
      rw [← h.is.store, ← h1.store]
      exact this
    · intro f' w' e
      injection e with e _
      injection e with e
      subst e
      intro e
      have := hx1.mono.tag x (by rw [hx]; simp)
      rw [hx, e, hs.ent.tr] at this; cases this
  | err e => exact (hg.elim (fun h => by rw [hfl] at h; cases h) id).elim
  | panic => exact (hg.elim (fun h => by rw [hfl] at h; cases h) id).elim
  | spin => exact hg.elim

theorem Holds.spares {fuel : Nat} (hz : cfg.zero = false) (hf : Fits lim fuel) {st : State} (h : Holds cfg lim st σ)
    (hc : Clean σ) (hl : st.log ≠ []) {c : Call} (ht : ∀ t ∈ c.texts, TextOK lim t) {x : Nat} (hx : σ.tag x = .rmF) :
    Spares cfg x (c.prog fuel st.log) st.world := by
  have errs : ∀ {k : RemE → Go RemE} {o p : GoStr}, TextOK lim o → TextOK lim p →
      (∀ r σ', Inv cfg lim σ' → Mono σ σ' → Errs cfg σ'.store (k r)) →
      Spares cfg x (Semnet.half fuel (pure o) p >>= k) st.world := by
    intro k o p ho hp hk
    obtain ⟨h1, h2⟩ := h.half hf hc (src := pure o) (fun σ' h => Rd.ret h.inv rfl) ho hp hx
    refine h1.bind fun r w1 hr => ?_
    obtain ⟨_, σ1, h3, _, m⟩ := h2 r w1 hr
    obtain ⟨e, he⟩ := hk r σ1 h3.inv m
    have := he.exec w1.mem
    have hw : σ1.store = w1.store := h3.is.store
    rw [hw] at this
    unfold Spares
    have h4 : (k r).exec cfg w1 = (.err e, w1) := this
    rw [h4]
  cases c with
  | createStory o p =>
    simp only [Call.prog]
    refine Spares.bind ?_ fun _ _ _ => .ret
    rw [createStory_eq]
    obtain ⟨h1, h2⟩ := h.half hf hc (src := pure o) (fun σ' h => Rd.ret h.inv rfl) (ht o (by simp [Call.texts]))
      (ht p (by simp [Call.texts])) hx
    refine h1.bind fun r w1 hr => ?_
    obtain ⟨hne, σ1, h3, _, m⟩ := h2 r w1 hr
    obtain ⟨h4, h5⟩ := h3.firstFact (x := x) (m.tagEq hx (by simp))
    refine Spares.bind h4 fun f w2 hf => ?_
    exact (Spares.connect hne).bind fun _ _ _ => (Spares.connect (h5 f w2 hf)).bind fun _ _ _ => .ret
  | addRemark i p =>
    cases he : st.log[i]? with
    | none => simp only [Call.prog, he]; exact .ret
    | some e =>
      simp only [Call.prog, he]
      have ok := h.keeps.get he
      refine Spares.bind ?_ fun _ _ _ => .ret
      rw [addRemarkToFact_eq]
      obtain ⟨h1, h2⟩ := h.half hf hc (o := e.object)
        (src := Remark.getObjectAndProperty fuel e.handle >>= fun q => pure q.1) (fun σ' h => by
          refine Rd.bind (Rd.remarkText h.inv (ok.ent.mono h.mono) (ok.says.mono h.mono ok.ent) hf.L hf.D) ?_
          intro y σ1 h1 _ hy; subst hy
          exact Rd.ret h1.inv (by show textOf (wordsOf e.object) = _; rw [textOf_wordsOf]; exact ok.obj))
        ok.text (ht p (by simp [Call.texts])) hx
      refine h1.bind fun r w1 hr => ?_
      obtain ⟨hne, σ1, h3, _, m⟩ := h2 r w1 hr
      -- both readings leave the storage as it is
      have rd : ∀ {α : Type} {q : Go α}, Quiet q → (q.exec cfg w1).2.store = w1.store := fun hq =>
        let ⟨g1, g2⟩ := holds_initialised h3 hl
        Stays.run rfl (hq.stays g1 g2)
      have hq : Quiet (Remark.getTargetFact e.handle >>= fun y => Fact.fetchByRemark y) :=
        .bind (.targetFact _) fun _ => .fetchByRemark _
      have := (show Spares cfg x (Remark.getTargetFact e.handle >>= fun y => Fact.fetchByRemark y) w1 by
        unfold Spares; rw [rd hq]).bind (f := fun f => do Go.connect r.fact f.fact.remark; pure r)
        fun f w2 _ => (Spares.connect hne).bind fun _ _ _ => .ret
      rw [bind_assoc] at this
      exact this
  | addFact i o p =>
    cases he : st.log[i]? with
    | none => simp only [Call.prog, he]; exact .ret
    | some e =>
      simp only [Call.prog, he]
      refine Spares.bind ?_ fun _ _ _ => .ret
      rw [addFactToStory_eq]
      exact errs (ht o (by simp [Call.texts])) (ht p (by simp [Call.texts])) fun r σ' hi m =>
        (errs_nextFact hz hi (((h.keeps.get he).ent.mono m).far 6)).left
  | addChild i o p =>
    cases he : st.log[i]? with
    | none => simp only [Call.prog, he]; exact .ret
    | some e =>
      simp only [Call.prog, he]
      refine Spares.bind ?_ fun _ _ _ => .ret
      rw [createChildStory_eq]
      exact errs (ht o (by simp [Call.texts])) (ht p (by simp [Call.texts])) fun r σ' hi m =>
        (errs_childFact hz hi (((h.keeps.get he).ent.mono m).far 5)).left
  | query i q =>
    cases he : st.log[i]? with
    | none => simp only [Call.prog, he]; exact .ret
    | some e => simp only [Call.prog, he]; exact (Spares.quiet h hl (Quiet.query fuel e.handle q)).bind fun _ _ _ => .ret
  | getRemark i => simp only [Call.prog]; exact (Spares.quiet h hl (Quiet.getRemark i)).bind fun _ _ _ => .ret

/-! ### histories -/

theorem astray_from {fuel : Nat} (hz : cfg.zero = false) (hf : Fits lim fuel) {x : Nat} :
    ∀ (es : List Event) {st : State} {σ : St}, Holds cfg lim st σ → Clean σ → st.log ≠ [] → (∀ e ∈ es, e.Calm) →
    (∀ e ∈ es, ∀ t ∈ e.texts, TextOK lim t) → σ.tag x = .rmF →
    (st.events cfg fuel es).world.store.targets x = st.world.store.targets x := by
  intro es
  induction es with
  | nil => exact fun _ _ _ _ _ _ => rfl
  | cons e es ih =>
    intro st σ h hc hl he ht hx
    rw [events_cons]
    obtain ⟨σ1, p⟩ := eventPost (C := calmCtx cfg lim) (h.calm hf hc) h.is e (.inr (he e (by simp))) (ht e (by simp))
    have hl1 : (st.event cfg fuel e).log ≠ [] := by
      obtain ⟨l, hl'⟩ := events_log cfg fuel [e] st
      have : (st.event cfg fuel e).log = st.log ++ l := hl'
      rw [this]; simp [hl]
    rw [ih (st := st.event cfg fuel e) p.holds (p.clean (he e (by simp)) hc) hl1 (fun a ha => he a (by simp [ha])) (fun a ha => ht a (by simp [ha]))
      (p.mono.tagEq hx (by simp))]
    have hce := he e (by simp)
    cases e with
    | call c f =>
      have : f = Go.noFault := hce
      subst this
      have hs := h.spares hz hf hc hl (c := c) (ht (.call c Go.noFault) (by simp)) hx (fuel := fuel)
      unfold Spares at hs
      rw [← hs]
      show (State.call cfg fuel st c Go.noFault).world.store.targets x = _
      unfold State.call
      show _ = ((c.prog fuel st.log).run cfg Go.noFault st.world).2.store.targets x
      generalize (c.prog fuel st.log).run cfg Go.noFault st.world = out
      obtain ⟨o, w⟩ := out
      cases o with
      | ok r => cases r <;> rfl
      | _ => rfl
    | crash c f n => exact absurd hce id
    | reopen => rfl

theorem noTarget {α : Type} {r : RemE} {w : World} (hl : w.store.live r.fact = true) (hT : w.store.targets r.fact = [])
    {k : Nat → Go α} : (Remark.getTargetFact r >>= k).exec cfg w = (.err .remarkTargetFacts, w) := by
  have : (Remark.getTargetFact r).exec cfg w = (.err .remarkTargetFacts, w) := by
    have h0 : ∀ o, cfg.ord w.store o [] = [] := fun o => List.perm_nil.1 (cfg.ord_perm w.store o [])
    unfold Remark.getTargetFact
    rw [exec_bind]
    simp [Go.readTargets, Go.call, Go.exec, Go.run, Go.noFault, Store.step, hl, hT, h0]
  rw [exec_bind, this]

/-- a remark that belongs to no fact is lost -/
theorem Holds.astray {fuel : Nat} (hz : cfg.zero = false) {st : State} {σ : St} (hf : Fits (stdLim fuel) fuel)
    (h : Holds cfg (stdLim fuel) st σ) (hc : Clean σ) {r : RemE} {o p : GoStr} (ho : o.length < fuel) (hr : RemEnt σ r)
    (hs : Says σ r (wordsOf o) (wordsOf p)) (hT : st.world.store.targets r.fact = []) : Astray cfg fuel st.world r := by
  have live : ∀ {σ' : St} {w : World} {l : List Entry}, Holds cfg (stdLim fuel) ⟨w, l⟩ σ' → Mono σ σ' →
      w.store.live r.fact = true := by
    intro σ' w l h' m
    have : σ'.store = w.store := h'.is.store
    rw [← this]
    exact (h'.inv.live _).2 (by rw [m.tagEq hr.tf (by simp)]; simp)
  have first : ∀ {α : Type} {k : RemE → Go α},
      (Remark.getFirstFact r >>= k).exec cfg st.world = (.err .remarkTargetFacts, st.world) := by
    intro α k
    unfold Remark.getFirstFact
    rw [bind_assoc]
    exact noTarget (live (l := st.log) h (.refl _)) hT
  have errs : ∀ {k : RemE → Go RemE} {o p : GoStr}, o.length < fuel → p.length < fuel →
      (∀ r σ', Inv cfg (stdLim fuel) σ' → Mono σ σ' → Errs cfg σ'.store (k r)) →
      ∀ r' w', (Semnet.half fuel (pure o) p >>= k).exec cfg st.world ≠ (.ok r', w') := by
    intro k o p ho hp hk r' w' he
    obtain ⟨r1, w1, h1, h2⟩ := bind_ok he
    obtain ⟨_, σ1, h3, _, m⟩ := (h.half hf hc (src := pure o) (fun σ' h => Rd.ret h.inv rfl) (TextOK.std ho) (TextOK.std hp)
      hr.tf).2 r1 w1 h1
    obtain ⟨e, he⟩ := hk r1 σ1 h3.inv m
    have := he.exec w1.mem
    have hw : σ1.store = w1.store := h3.is.store
    rw [hw] at this
    have h4 : (k r1).exec cfg w1 = (.err e, w1) := this
    rw [h4] at h2
    cases h2
  refine ⟨⟨st.world, ?_⟩, ⟨st.world, first⟩, ?_, ?_, ?_⟩
  · have := first (k := fun a => pure a)
    rwa [bind_pure] at this
  · intro p' hp' r' w' he
    rw [addRemarkToFact_eq] at he
    obtain ⟨r1, w1, h1, h2⟩ := bind_ok he
    obtain ⟨hsp, hh⟩ := h.half hf hc (o := asText o)
      (src := Remark.getObjectAndProperty fuel r >>= fun q => pure q.1) (fun σ' h => by
        refine Rd.bind (Rd.remarkText h.inv (hr.mono h.mono) (hs.mono h.mono hr) hf.L hf.D) ?_
        intro y σ1 h1 _ hy; subst hy
        exact Rd.ret h1.inv (textOf_wordsOf o))
      (TextOK.std ho).asText (TextOK.std hp') hr.tf
    obtain ⟨_, σ1, h3, _, m⟩ := hh r1 w1 h1
    have hT1 : w1.store.targets r.fact = [] := by
      unfold Spares at hsp
      rw [h1, hT] at hsp
      exact hsp
    rw [noTarget (live h3 m) hT1] at h2
    cases h2
  · intro o' p' ho' hp' r' w' he
    rw [addFactToStory_eq] at he
    exact errs ho' hp' (fun _ σ' hi m => (errs_nextFact hz hi ((hr.mono m).far 6)).left) r' w' he
  · intro o' p' ho' hp' r' w' he
    rw [createChildStory_eq] at he
    exact errs ho' hp' (fun _ σ' hi m => (errs_childFact hz hi ((hr.mono m).far 5)).left) r' w' he

/-- a call that fails after the texts were stored leaves a remark that is lost for ever -/
theorem Spec.Calm.astray {fuel : Nat} (hz : cfg.zero = false) {es es' : List Event} {c : Call} {o p : GoStr}
    (h : Calm cfg fuel (es ++ [.call c Go.noFault] ++ es')) (ho : o.length < fuel) (hp : p.length < fuel) {e : Entry}
    (he : e ∈ (after cfg fuel es).log) {k : RemE → Go RemE}
    (hc : c.prog fuel (after cfg fuel es).log = ((Semnet.half fuel (pure o) p >>= k) >>= fun r => pure (some r)))
    (hk : ∀ σ, RemEnt σ e.handle → Inv cfg (stdLim fuel) σ → ∀ r, Errs cfg σ.store (k r))
    {r : RemE} {w : World} (hr : (Graph.createStory fuel o p).exec cfg (after cfg fuel es).world = (.ok r, w)) :
    (after cfg fuel (es ++ [.call c Go.noFault] ++ es')).world.store.targets r.fact = [] ∧
    Astray cfg fuel (after cfg fuel (es ++ [.call c Go.noFault] ++ es')).world r := by
  have fits := h.budget.fits
  have hne := ne_nil_of_mem he
  obtain ⟨σ, hs, hcl⟩ := h.left.left.sound.holds hne
  obtain ⟨w1, hw⟩ := createStory_half hr
  obtain ⟨⟨er, h1⟩, _, h3, σ1, h4, h5, h6, h7⟩ := hs.orphan fits hcl (TextOK.std ho) (TextOK.std hp) hw (k := k)
    fun r σ' hi m => hk σ' ((hs.keeps.ok e he).ent.mono m) hi r
  have ha := after_failed hc h1
  rw [← ha] at h4
  obtain ⟨σ2, h8, h9, m⟩ := h.from h4 h5
  have hT : (after cfg fuel (es ++ [.call c Go.noFault] ++ es')).world.store.targets r.fact = [] := by
    rw [after_append, astray_from hz fits es' h4 h5 (by rw [ha]; exact hne) (fun e he => h.calm e (by simp [he]))
      (fun e he => h.budget.texts e (by simp [he])) h6.tf, ha]
    exact h3
  exact ⟨hT, h8.astray hz fits h9 ho (h6.mono m) (h7.mono m h6) hT⟩

end Semnet
