import Verif.Proof.FactWrite
/-
  Creating remarks: the four public calls that write.
-/
set_option linter.unusedSimpArgs false
namespace Semnet
open Class Spec

theorem remarkTags {lim : Lim} : EntTags lim .rmD .rmP .rmF := by
  constructor <;> first | rfl | (constructor <;> simp [TagOK]) | simp

theorem remark_newEnt (f : RemE → Go α) :
    (do let cls ← Class.createNode remarkId; let e ← Remark.createEntity cls; f e) =
    (newEnt remarkId >>= fun r => f ⟨r.1, r.2.1, r.2.2.1, r.2.2.2⟩) := by
  simp only [newEnt, mk4, Remark.createEntity, bind_assoc, pure_bind]

/-- The common beginning of the four calls: a new remark with its text; the object is computed by `src`. -/
def half (fuel : Nat) (src : Go GoStr) (property : GoStr) : Go RemE := do
  Class.provideEntity
  let cls ← Class.createNode Class.remarkId
  let remark ← Remark.createEntity cls
  let object ← src
  let detail ← Detail.provide fuel object property
  Go.connect detail.remark remark.detail
  pure remark

/-- the phrases of a new remark; a phrase whose first character ends at a leaf of the character tree is new too -/
def NewText (lim : Lim) (σ0 σ : St) (r : RemE) (o p : GoStr) : Prop :=
  ∃ d po pp, σ.S r.detail = [d.remark] ∧ DetailEnt σ d po pp ∧
    (LeafHead lim o → σ0.tag po.detail = .none) ∧ (LeafHead lim p → σ0.tag pp.detail = .none ∧ po.detail ≠ pp.detail) ∧
    LedSt σ0 σ o p po pp

theorem NewText.mono {lim σ0 σ σ' r o p} (h : NewText lim σ0 σ r o p) (m : Mono σ σ') (hr : RemEnt σ r) :
    NewText lim σ0 σ' r o p := by
  obtain ⟨d, po, pp, h1, h2, h3, h4, h5⟩ := h
  exact ⟨d, po, pp, m.Seq hr.td rfl h1 (by simp), h2.mono m, h3, h4, h5.mono m⟩

/-- the phrases of a new remark were led to -/
def Tying (σ0 σ : St) (r : RemE) (o p : GoStr) : Prop :=
  ∃ d po pp, σ.S r.detail = [d.remark] ∧ DetailEnt σ d po pp ∧ LedSt σ0 σ o p po pp

theorem NewText.tying {lim σ0 σ r o p} (h : NewText lim σ0 σ r o p) : Tying σ0 σ r o p :=
  let ⟨d, po, pp, h1, h2, _, _, h5⟩ := h
  ⟨d, po, pp, h1, h2, h5⟩

structure Half (C : Ctx) (σ0 σ : St) (o p : GoStr) (r : RemE) : Prop where
  ent : RemEnt σ r
  says : Says σ r (wordsOf o) (wordsOf p)
  Tf : σ.T r.fact = []
  fresh : σ0.tag r.cls = .none
  zero : Clean σ0 → CleanZ σ
  T0 : C.cfg.zero = true → σ.T 0 = σ0.T 0
  obj : ¬ BadHead σ0 o
  prop : ¬ BadHead σ0 p
  new : NewText C.lim σ0 σ r o p
  solid : Solid o ∧ Solid p
  lex : PairSt σ0 σ o p .created

theorem Wr.half {C : Ctx} (hR : C.R = false) (hU : C.up = true) (hL : C.lo = true) {σ : St} (hi : Inv C.cfg C.lim σ)
    (hB : C.F = true → σ.bits ≠ none) (hc : C.cfg.zero = true → Clean σ) (hfl : σ.flt = false)
    {fuel : Nat} (hf : C.lim.L ≤ fuel) (hD : C.lim.D ≤ fuel) {o p : GoStr} {src : Go GoStr}
    (hsrc : ∀ σ', Ext C σ σ' → Rd C (· = o) src σ')
    (hso : TextOK C.lim o) (hsp : TextOK C.lim p) :
    WrL C (fun r σ' => Half C σ σ' o p r) (detailErr C.cfg C.lim σ o p) (half fuel src p) σ := by
  unfold Semnet.half
  refine WrL.bind ((Rd.provideEntity hi).wr hR) ?_
  intro _ σ1 h1 ⟨⟨hs1, _⟩, f1⟩
  rw [remark_newEnt]
  refine WrL.bind (Wr.newEnt hR h1.inv (by decide) remarkTags .remark) ?_
  intro q σ2 h2 ⟨hn, f2⟩
  obtain ⟨n, a, b, d⟩ := q
  simp only at hn ⊢
  have e2 := h1.trans h2
  have hr2 : RemEnt σ2 ⟨n, a, b, d⟩ := ⟨hn.chain, hn.tn, hn.ta, hn.tb, hn.tc, hn.Tn⟩
  refine WrL.bind ((hsrc σ2 e2.toExt).wr hR) ?_
  intro obj σ3 h3 ⟨⟨hs3, ho⟩, f3⟩
  subst ho
  have e3 := e2.trans h3
  have hfl3 : σ3.flt = false := by rw [f3, f2, f1, hfl]
  have hcl3 : Clean σ → Clean σ3 := fun hcl => e3.clean hcl hfl3
  have hB3 : C.F = true → σ3.bits ≠ none := by
    intro h
    have hb := hB h
    cases hb' : σ.bits with
    | none => exact absurd hb' hb
    | some b => rw [e3.mono.bits b hb']; simp
  have hz3 : Froz σ σ3 := ((Froz.same hs1).trans h1.inv h1.mono h2.mono hn.froz).trans h2.inv e2.mono h3.mono (.same hs3)
  have nbo : ∀ {s}, ¬ BadHead σ3 s → ¬ BadHead σ s := fun h h' => h (h'.mono hi e3.mono)
  refine WrL.bind (WrL.cons (Wr.detailProvide hR hU hL h3.inv hB3 (fun h => hcl3 (hc h)) hfl3 hf hD hso hsp)
    (fun _ _ _ h => h) ?_) ?_
  · intro b σ' h4 h5
    unfold detailErr at h5 ⊢
    refine ⟨⟨fun hz => ?_, h5.1.2.pre hi h3.inv e3.mono hz3 fun h => h.mono hcl3⟩, ?_⟩
    · rw [h5.1.1 hz, hs3.T, hn.frT 0 (by rw [h1.inv.tag0 hz]; simp), hs1.T]
    have h5 := h5.2
    cases b with
    | false => exact h5.imp id fun ⟨x, y⟩ => ⟨x, y.imp id fun ⟨x, y⟩ => ⟨x, y.mono hcl3⟩⟩
    | true => exact ⟨nbo h5.1, h5.2.imp id fun ⟨z, x, y⟩ => ⟨z, nbo x, y⟩⟩
  intro dt σ4 h4 hd
  have hr3 := hr2.mono h3.mono
  have hr4 := hr3.mono h4.mono
  have S4 : σ4.S a = [] := by rw [hd.keep.S a (by rw [hr3.td]; rfl), hs3.S]; exact hn.Sa
  have T4 : σ4.T d = [] := by rw [hd.keep.T d (by rw [hr3.tf]; rfl), hs3.T]; exact hn.Tc
  have hlex4 := hd.lex.pre hi h3.inv e3.mono hz3
  obtain ⟨po, pp, hpo, hpp, hwo, hwp, hled, hde⟩ := hd.ent
  rcases hde with hde | ⟨z1, z2, z3⟩
  · have new4 : (dt.remark, a) ∉ σ4.store.edges := by
      intro h'; have := mem_S.2 h'; rw [S4] at this; cases this
    refine WrL.bind (Wr.connectU hR hU h4.inv new4 (by rw [hde.tr]; simp [Tag.tcrit]) (by rw [hde.tr]; rfl)
      (fun _ => S4) (.inr hde.tr) (by rw [hr4.td]; rfl) (by simp only [EdgeOK, tag_conn, hde.tr, hr4.td])
      hde.ref.hy (by rw [hde.tr]; simp)).loose ?_
    intro _ σ5 h5 ⟨c5, e5⟩
    refine WrL.ret h5.inv ?_
    have T5 : ∀ x, x ≠ dt.remark → σ5.T x = σ4.T x := by
      intro x hx; rw [e5, T_conn, if_neg hx]
    have S5 : σ5.S a = [dt.remark] := by rw [e5, S_conn, if_pos rfl, S4]
    refine ⟨hr4.mono h5.mono, ⟨dt, po, pp, S5, hde.mono h5.mono, hpo.mono h5.mono, hpp.mono h5.mono⟩, ?_, ?_, ?_, ?_,
      nbo hd.obj, nbo hd.prop, ⟨dt, po, pp, S5, hde.mono h5.mono, fun hl => e3.mono.tagNone (hwo hl),
      fun hl => ⟨e3.mono.tagNone (hwp hl).1, (hwp hl).2⟩, (hled.mono h5.mono).pre hi h3.inv e3.mono hz3⟩, ⟨hpo.solid, hpp.solid⟩,
      hlex4.froz h4.inv h5.toExt fun _ => by rw [e5]; exact .conn (by rw [hde.tr]; rfl)⟩
    · rw [T5]
      · exact T4
      · intro e; have := hr4.tf; rw [e, hde.tr] at this; cases this
    · have := hn.fn; rw [hs1.tag] at this; exact this
    · intro hcl t ht
      rw [T5 0 (Ne.symm hde.ref.hy)] at ht
      obtain ⟨x, y⟩ := hd.zero (hcl3 hcl) hfl3 t ht
      refine ⟨by rw [e5, tag_conn]; exact x, ?_⟩
      rw [T5 t, y]
      intro e; rw [e, hde.tr] at x; cases x
    · intro hz
      have t1 := h1.inv.tag0 hz
      rw [T5 0 (Ne.symm hde.ref.hy), hd.keep.T 0 (by rw [h3.inv.tag0 hz]; rfl), hs3.T, hn.frT 0 (by rw [t1]; simp), hs1.T]
  · rw [z1]
    exact WrL.bind (Wr.connectDead hR h4.inv (h4.inv.node0 z2)
      (show detailErr C.cfg C.lim σ _ _ false σ4 from ⟨⟨fun h => absurd (z2.symm.trans h) (by simp),
        .inr ⟨rfl, z3.mono hcl3, hlex4⟩⟩,
        .inr ⟨hpo.solid, .inr ⟨hpp.solid, z3.mono hcl3⟩⟩⟩)).loose fun _ _ _ h => h.elim

/-! ### the four calls -/

theorem Says.bits {σ r o p} (h : Says σ r o p) : σ.bits ≠ none := by
  obtain ⟨_, _, _, _, _, ho, _⟩ := h
  obtain ⟨_, _, _, _, hb⟩ := ho.base
  obtain ⟨_, _, _, _, hb⟩ := hb.wd.base
  obtain ⟨_, _, _, _, hb⟩ := hb.ch.base
  rw [hb.bits]; simp

/-- a newly stored remark -/
structure Stored (σ0 σ : St) (r : RemE) (o p : List (List Int)) (opener : Option RemE) : Prop where
  ent : RemEnt σ r
  says : Says σ r o p
  fact : Belongs σ r opener
  fresh : σ0.tag r.cls = .none

/-- how the calls may fail; `extra` is a further reason for an error -/
def apiErr (cfg : Cfg) (lim : Lim) (σ0 : St) (o p : GoStr) (extra : Prop) : Bool → St → Prop := fun b σ =>
  ((cfg.zero = true → σ.T 0 = σ0.T 0) ∧ PairErr σ0 σ o p (Messy lim σ0 p ∨ extra) b) ∧
  if b then ¬ BadHead σ0 o ∧ (BadTail σ o ∨ (Solid o ∧ ¬ BadHead σ0 p ∧ BadTail σ p))
  else BadHead σ o ∨ (Solid o ∧ (BadHead σ p ∨ (Solid p ∧ (Messy lim σ0 p ∨ extra))))

theorem detailErr.api {cfg lim σ0 o p extra b σ} (h : detailErr cfg lim σ0 o p b σ) :
    apiErr cfg lim σ0 o p extra b σ := by
  unfold detailErr at h
  unfold apiErr
  refine ⟨⟨h.1.1, h.1.2.imp id fun ⟨h1, h2, h3⟩ => ⟨h1, .inl h2, h3⟩⟩, ?_⟩
  have h := h.2
  cases b with
  | false => exact h.imp id fun ⟨x, y⟩ => ⟨x, y.imp id fun ⟨x, y⟩ => ⟨x, .inl y⟩⟩
  | true => exact h

/-- connect a remark to its fact -/
theorem Wr.toFact {C : Ctx} (hR : C.R = false) (hU : C.up = true) {σ : St} (hi : Inv C.cfg C.lim σ) {r f b}
    (hr : RemEnt σ r) (hf : FactEnt σ b f) (hT : σ.T r.fact = []) {bad} :
    Wr C (fun _ σ' => ∃ c, σ' = σ.conn c r.fact f.remark) bad (Go.connect r.fact f.remark) σ :=
  Wr.connectU hR hU hi (not_edge_of_T hT) (fun _ => hT) (by rw [hr.tf]; rfl)
    (by rw [hf.tr]; simp [Tag.scrit]) (.inl (by rw [hr.tf]; rfl)) (by rw [hf.tr]; rfl)
    (by simp only [EdgeOK, tag_conn, hr.tf, hf.tr]) hr.chain.cd.hy (by rw [hr.tf]; simp)

/-- connect a remark with the fact it opens -/
theorem Wr.openFact {C : Ctx} (hR : C.R = false) (hU : C.up = true) {σ : St} (hi : Inv C.cfg C.lim σ) {r f}
    (hr : RemEnt σ r) (hf : StoryFact σ f) (hT : σ.T r.fact = []) {bad} :
    Wr C (fun a σ' => a = r ∧ RemEnt σ' r ∧ Belongs σ' r (some r) ∧ (C.cfg.zero = true → σ'.T 0 = σ.T 0)) bad (do
      Go.connect r.fact f.remark
      Go.connect f.remark r.fact
      pure r) σ := by
  have hne : f.remark ≠ r.fact := by intro e; have := hf.ent.tr; rw [e, hr.tf] at this; cases this
  refine Wr.bind (Wr.toFact hR hU hi hr hf.ent hT) ?_
  intro _ σ1 h1 ⟨c1, e1⟩
  have hr1 := hr.mono h1.mono
  have hf1 := hf.ent.mono h1.mono
  have T1 : σ1.T f.remark = [] := by rw [e1, T_conn, if_neg hne]; exact hf.Tr
  have T1' : σ1.T r.fact = [f.remark] := by rw [e1, T_conn, if_pos rfl, hT]
  refine Wr.bind (Wr.connectU hR hU h1.inv (not_edge_of_T T1) (fun _ => T1) (by rw [hf1.tr]; rfl)
    (by rw [hr1.tf]; simp [Tag.scrit]) (.inl (by rw [hf1.tr]; rfl)) (by rw [hr1.tf]; rfl)
    (by simp only [EdgeOK, tag_conn, hr1.tf, hf1.tr]) hf1.chain.ab.hy (by rw [hf1.tr]; simp)) ?_
  intro _ σ2 h2 ⟨c2, e2⟩
  have hr2 := hr1.mono h2.mono
  have hf2 := hf1.mono h2.mono
  refine Wr.ret h2.inv ⟨rfl, hr2, ⟨f, ?_, hf2, hr2, ?_, ?_⟩, ?_⟩
  · rw [e2, T_conn, if_neg (Ne.symm hne)]; exact T1'
  · rw [e2, T_conn, if_pos rfl, T1]
  · obtain ⟨s, hs, a, b⟩ := hf.story
    have m := h1.mono.trans h2.mono
    exact ⟨s, hs.mono m, m.Teq hf.ent.ts rfl a (by simp), m.Teq hs.tf rfl b (by simp)⟩
  · intro hz
    have t0 := hi.tag0 hz
    rw [e2, T_conn, if_neg, e1, T_conn, if_neg]
    · intro e; have := hr.tf; rw [← e, t0] at this; cases this
    · intro e; have := hf.ent.tr; rw [← e, t0] at this; cases this

theorem createStory_eq (fuel : Nat) (o p : GoStr) :
    Graph.createStory fuel o p = (half fuel (pure o) p >>= fun remark => do
      let fact ← Fact.createFirstStoryFact
      Go.connect remark.fact fact.fact.remark
      Go.connect fact.fact.remark remark.fact
      pure remark) := by
  simp only [Graph.createStory, half, bind_assoc, pure_bind]

theorem Wr.createStoryG {C : Ctx} (hR : C.R = false) (hU : C.up = true) (hL : C.lo = true) {σ : St} (hi : Inv C.cfg C.lim σ)
    (hB : C.F = true → σ.bits ≠ none) (hc : C.cfg.zero = true → Clean σ) (hfl : σ.flt = false)
    {fuel : Nat} (hf : C.lim.L ≤ fuel) (hD : C.lim.D ≤ fuel) {o p : GoStr}
    (hso : TextOK C.lim o) (hsp : TextOK C.lim p) :
    WrL C (fun r σ' => Stored σ σ' r (wordsOf o) (wordsOf p) (some r) ∧ ¬ BadHead σ o ∧ ¬ BadHead σ p ∧ NewText C.lim σ σ' r o p ∧
        (C.cfg.zero = true → σ'.T 0 = σ.T 0) ∧ PairSt σ σ' o p .created)
      (apiErr C.cfg C.lim σ o p False) (Graph.createStory fuel o p) σ := by
  rw [createStory_eq]
  refine WrL.bind (WrL.cons (Wr.half hR hU hL hi hB hc hfl hf hD (fun σ' h => Rd.ret h.inv rfl) hso hsp)
    (fun _ _ _ h => h) (fun _ _ _ h => h.api)) ?_
  intro r σ1 h1 hh
  refine WrL.bind (WrL.cons (WrL.upper hL (Wr.createFirstStoryFact (C := C.upper) (bad := never) hR hU h1.inv).loose)
    (fun _ _ _ h => h) (fun _ _ _ h => h.1.elim)) ?_
  intro f σ2 h2 ⟨⟨_, hsf, hfr⟩, hz2⟩
  have hl2 := hh.lex.froz h1.inv h2.toExt hz2
  refine WrL.cons (WrL.upper hL (Wr.openFact (C := C.upper) (bad := never) hR hU h2.inv (hh.ent.mono h2.mono) hsf
    (by rw [hfr _ (by rw [hh.ent.tf]; rfl)]; exact hh.Tf)).loose) ?_ (fun _ _ _ h => h.1.elim)
  intro a σ3 h3 ⟨⟨ha, h4, h5, h6⟩, hz3⟩
  subst ha
  exact ⟨⟨h4, hh.says.mono (h2.mono.trans h3.mono) hh.ent, h5, hh.fresh⟩, hh.obj, hh.prop,
    hh.new.mono (h2.mono.trans h3.mono) hh.ent, fun hz => by
      rw [h6 hz, hfr 0 (by rw [h1.inv.tag0 hz]; rfl), hh.T0 hz], hl2.froz h2.inv h3.toExt hz3⟩

theorem addFactToStory_eq (fuel : Nat) (a : RemE) (o p : GoStr) :
    Remark.addFactToStory fuel a o p = (half fuel (pure o) p >>= fun remark => do
      let nextFact ← Fact.createNextFact a.fact
      Go.connect remark.fact nextFact.fact.remark
      pure remark) := by
  simp only [Remark.addFactToStory, half, bind_assoc, pure_bind]

theorem Wr.addFactToStory {C : Ctx} (hR : C.R = false) (hU : C.up = true) (hL : C.lo = true) {σ : St} (hi : Inv C.cfg C.lim σ)
    (hB : C.F = true → σ.bits ≠ none) (hc : C.cfg.zero = true → Clean σ) (hfl : σ.flt = false)
    {fuel : Nat} (hf : C.lim.L ≤ fuel) (hD : C.lim.D ≤ fuel) {o p : GoStr}
    (hso : TextOK C.lim o) (hsp : TextOK C.lim p) {a} (ha : RemEnt σ a) :
    WrL C (fun r σ' => Stored σ σ' r (wordsOf o) (wordsOf p) none ∧ C.cfg.zero = true ∧ ¬ BadHead σ o ∧ ¬ BadHead σ p ∧ NewText C.lim σ σ' r o p ∧
        (∃ x, σ'.T 0 = x :: σ.T 0) ∧ PairSt σ σ' o p .created)
      (apiErr C.cfg C.lim σ o p (C.cfg.zero = false)) (Remark.addFactToStory fuel a o p) σ := by
  rw [addFactToStory_eq]
  refine WrL.bind (WrL.cons (Wr.half hR hU hL hi hB hc hfl hf hD (fun σ' h => Rd.ret h.inv rfl) hso hsp)
    (fun _ _ _ h => h) (fun _ _ _ h => h.api)) ?_
  intro r σ1 h1 hh
  refine WrL.bind (WrL.cons (WrL.upper hL (Wr.createNextFact (C := C.upper)
    (bad := fun b _ => b = false ∧ C.cfg.zero = false) hR hU h1.inv (ha.mono h1.mono) (fun hz σ' => ⟨rfl, hz⟩)).loose)
    (fun _ _ _ h => h) ?_) ?_
  · intro b σ' h2 ⟨⟨hb, hz⟩, hz2⟩
    subst hb
    exact ⟨⟨fun h => absurd (hz.symm.trans h) (by simp), .inr ⟨rfl, .inr hz, hh.lex.froz h1.inv h2.toExt fun _ => hz2⟩⟩,
      .inr ⟨hh.solid.1, .inr ⟨hh.solid.2, .inr hz⟩⟩⟩
  intro f σ2 h2 ⟨⟨hz, _, hfe, hfz, hf0, hfr⟩, hz2⟩
  have hl2 := hh.lex.froz h1.inv h2.toExt hz2
  have hr2 := hh.ent.mono h2.mono
  have T2 : σ2.T r.fact = [] := by rw [hfr _ hh.ent.tf]; exact hh.Tf
  refine WrL.bind (Wr.toFact hR hU h2.inv hr2 hfe T2).loose ?_
  intro _ σ3 h3 ⟨c3, e3⟩
  refine WrL.ret h3.inv ⟨⟨hr2.mono h3.mono, hh.says.mono (h2.mono.trans h3.mono) hh.ent, ⟨f.fact, ?_, hfe.mono h3.mono,
      h3.mono.Teq hfe.ts rfl hfz (by simp)⟩, hh.fresh⟩,
    hz, hh.obj, hh.prop, hh.new.mono (h2.mono.trans h3.mono) hh.ent, ⟨f.fact.position, ?_⟩,
    hl2.froz h2.inv h3.toExt fun _ => by rw [e3]; exact .conn (by rw [hr2.tf]; rfl)⟩
  · rw [e3, T_conn, if_pos rfl, T2]
  · rw [e3, T_conn, if_neg, hf0, hh.T0 hz]
    intro e; have := hr2.tf; rw [← e, h2.inv.tag0 hz] at this; cases this

theorem createChildStory_eq (fuel : Nat) (a : RemE) (o p : GoStr) :
    Remark.createChildStory fuel a o p = (half fuel (pure o) p >>= fun remark => do
      let firstFact ← Fact.createChildStoryFact fuel a.fact
      Go.connect remark.fact firstFact.fact.remark
      Go.connect firstFact.fact.remark remark.fact
      pure remark) := by
  simp only [Remark.createChildStory, half, bind_assoc, pure_bind]

theorem Wr.createChildStory {C : Ctx} (hR : C.R = false) (hU : C.up = true) (hL : C.lo = true) {σ : St} (hi : Inv C.cfg C.lim σ)
    (hB : C.F = true → σ.bits ≠ none) (hc : C.cfg.zero = true → Clean σ) (hfl : σ.flt = false)
    {fuel : Nat} (hf : C.lim.L ≤ fuel) (hD : C.lim.D ≤ fuel) (h2f : 2 ≤ fuel) {o p : GoStr}
    (hso : TextOK C.lim o) (hsp : TextOK C.lim p) {a} (ha : RemEnt σ a) :
    WrL C (fun r σ' => Stored σ σ' r (wordsOf o) (wordsOf p) (some r) ∧ C.cfg.zero = true ∧ ¬ BadHead σ o ∧ ¬ BadHead σ p ∧ NewText C.lim σ σ' r o p ∧ Grown σ σ' ∧
        PairSt σ σ' o p .created)
      (apiErr C.cfg C.lim σ o p (C.cfg.zero = false ∨ 2 ≤ (σ.T 0).length)) (Remark.createChildStory fuel a o p) σ := by
  rw [createChildStory_eq]
  refine WrL.bind (WrL.cons (Wr.half hR hU hL hi hB hc hfl hf hD (fun σ' h => Rd.ret h.inv rfl) hso hsp)
    (fun _ _ _ h => h) (fun _ _ _ h => h.api)) ?_
  intro r σ1 h1 hh
  refine WrL.bind (WrL.cons (WrL.upper hL (Wr.createChildStoryFact (C := C.upper)
    (bad := fun b σ' => b = false ∧ (C.cfg.zero = false ∨ 2 ≤ (σ1.T 0).length) ∧ (C.cfg.zero = true → σ'.T 0 = σ1.T 0))
    hR hU h1.inv (ha.mono h1.mono) h2f (fun hz => hh.zero (hc hz)) (fun hz σ' h0 => ⟨rfl, hz, h0⟩)).loose)
    (fun _ _ _ h => h) ?_) ?_
  · intro b σ' h2 ⟨⟨hb, hz, h0⟩, hz2⟩
    subst hb
    have hz' : C.cfg.zero = false ∨ 2 ≤ (σ.T 0).length := by
      cases hzz : C.cfg.zero with
      | false => exact .inl rfl
      | true =>
        rcases hz with hz | hz
        · rw [hzz] at hz; cases hz
        · rw [hh.T0 hzz] at hz; exact .inr hz
    exact ⟨⟨fun h => (h0 h).trans (hh.T0 h), .inr ⟨rfl, .inr hz', hh.lex.froz h1.inv h2.toExt fun _ => hz2⟩⟩,
      .inr ⟨hh.solid.1, .inr ⟨hh.solid.2, .inr hz'⟩⟩⟩
  intro f σ2 h2 ⟨⟨hz, _, hsf, hgr, hfr⟩, hz2⟩
  have hl2 := hh.lex.froz h1.inv h2.toExt hz2
  refine WrL.cons (WrL.upper hL (Wr.openFact (C := C.upper) (bad := never) hR hU h2.inv (hh.ent.mono h2.mono) hsf
    (by rw [hfr _ hh.ent.tf]; exact hh.Tf)).loose) ?_ (fun _ _ _ h => h.1.elim)
  intro a σ3 h3 ⟨⟨ha, h4, h5, h6⟩, hz3⟩
  subst ha
  exact ⟨⟨h4, hh.says.mono (h2.mono.trans h3.mono) hh.ent, h5, hh.fresh⟩, hz, hh.obj, hh.prop,
    hh.new.mono (h2.mono.trans h3.mono) hh.ent, (by unfold Grown at hgr ⊢; rw [h6 hz, ← hh.T0 hz]; exact hgr),
    hl2.froz h2.inv h3.toExt hz3⟩

theorem addRemarkToFact_eq (fuel : Nat) (a : RemE) (p : GoStr) :
    Remark.addRemarkToFact fuel a p =
      (half fuel (Remark.getObjectAndProperty fuel a >>= fun q => pure q.1) p >>= fun remark => do
      let factIdentifier ← Remark.getTargetFact a
      let fact ← Fact.fetchByRemark factIdentifier
      Go.connect remark.fact fact.fact.remark
      pure remark) := by
  simp only [Remark.addRemarkToFact, half, Remark.getObjectAndProperty, bind_assoc, pure_bind]

theorem Belongs.target {σ r op} (h : Belongs σ r op) : ∃ f b, σ.T r.fact = [f.remark] ∧ FactEnt σ b f := by
  obtain ⟨f, h1, h2⟩ := h
  cases op with
  | none => exact ⟨f, true, h1, h2.1⟩
  | some r => exact ⟨f, false, h1, h2.1⟩

theorem Wr.addRemarkToFact {C : Ctx} (hR : C.R = false) (hU : C.up = true) (hL : C.lo = true) {σ : St} (hi : Inv C.cfg C.lim σ)
    (hB : C.F = true → σ.bits ≠ none) (hc : C.cfg.zero = true → Clean σ) (hfl : σ.flt = false)
    {fuel : Nat} (hf : C.lim.L ≤ fuel) (hD : C.lim.D ≤ fuel) {p : GoStr}
    (hsp : TextOK C.lim p) {a o q op} (ha : RemEnt σ a) (hs : Says σ a o q) (hbe : Belongs σ a op)
    (hso : TextOK C.lim (textOf o)) (hwo : wordsOf (textOf o) = o) :
    WrL C (fun r σ' => Stored σ σ' r o (wordsOf p) op ∧ ¬ BadHead σ (textOf o) ∧ ¬ BadHead σ p ∧
        NewText C.lim σ σ' r (textOf o) p ∧ (C.cfg.zero = true → σ'.T 0 = σ.T 0) ∧
        PairSt σ σ' (textOf o) p .created)
      (apiErr C.cfg C.lim σ (textOf o) p False) (Remark.addRemarkToFact fuel a p) σ := by
  rw [addRemarkToFact_eq]
  refine WrL.bind (WrL.cons (Wr.half hR hU hL hi hB hc hfl hf hD (o := textOf o) (fun σ' h => ?_) hso hsp)
    (fun _ _ _ h => h) (fun _ _ _ h => h.api)) ?_
  · refine Rd.bind (Rd.remarkText h.inv (ha.mono h.mono) (hs.mono h.mono ha) hf hD) ?_
    intro x σ1 h1 _ hx; subst hx
    exact Rd.ret h1.inv rfl
  intro r σ1 h1 hh
  have hsays := hh.says
  rw [hwo] at hsays
  obtain ⟨f, b, hT, hfe⟩ := hbe.target
  refine WrL.bind (good := fun x σ' => Same σ1 σ' ∧ x = f.remark) ?_ ?_
  · unfold Remark.getTargetFact
    refine ((Rd.bind (Rd.targets1 h1.inv (h1.mono.tagEq ha.tf (by simp)) rfl (h1.mono.Teq ha.tf rfl hT (by simp))) ?_).wr hR).loose
    intro x σ2 h2 _ hx; subst hx
    exact Rd.ret h2.inv rfl
  intro x σ2 h2 ⟨hs2, hx⟩; subst hx
  refine WrL.bind ((Rd.factByRemark h2.inv (hfe.mono (h1.mono.trans h2.mono))).wr hR).loose ?_
  intro x σ3 h3 ⟨hs3, hx⟩; subst hx
  have m3 := h2.mono.trans h3.mono
  have hr3 := hh.ent.mono m3
  have T3 : σ3.T r.fact = [] := by rw [hs3.T, hs2.T]; exact hh.Tf
  refine WrL.bind (Wr.toFact hR hU h3.inv hr3 (hfe.mono (h1.mono.trans m3)) T3).loose ?_
  intro _ σ4 h4 ⟨c4, e4⟩
  have m4 := m3.trans h4.mono
  refine WrL.ret h4.inv ⟨⟨hh.ent.mono m4, hsays.mono m4 hh.ent, ?_, hh.fresh⟩, hh.obj, hh.prop, hh.new.mono m4 hh.ent, ?_,
    ((hh.lex.froz h1.inv h2.toExt fun _ => .same hs2).froz h2.inv h3.toExt fun _ => .same hs3).froz h3.inv h4.toExt
      fun _ => by rw [e4]; exact .conn (by rw [hr3.tf]; rfl)⟩
  rotate_left
  · intro hz
    rw [e4, T_conn, if_neg, hs3.T, hs2.T, hh.T0 hz]
    intro e; have := hr3.tf; rw [← e, h3.inv.tag0 hz] at this; cases this
  have hb4 := hbe.mono (h1.mono.trans m4) ha
  obtain ⟨f', hT', hrest⟩ := hb4
  have : f'.remark = f.remark := by
    have := (h1.mono.trans m4).Teq ha.tf rfl hT (by simp)
    rw [hT'] at this; injection this
  exact ⟨f', by rw [e4, T_conn, if_pos rfl, T3, this], hrest⟩

end Semnet
