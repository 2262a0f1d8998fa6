import Verif.Proof.RaceWord
import Verif.Proof.RemarkWrite
/-
  Several processes writing at the same time: details, facts, stories and remarks.
-/
set_option linter.unusedSimpArgs false
namespace Semnet.Race
open Class Spec

/-! ### details -/

theorem one_of_mem {l : List Nat} {x : Nat} (h : l.length ≤ 1) (hx : x ∈ l) : l = [x] := by
  match l, h with
  | [], _ => cases hx
  | [z], _ => simp at hx; rw [hx]

theorem RI.detailTag {cfg lim bs fz} {σ : Rt} (hi : RI cfg lim bs fz σ) {x y : Nat} (hx : σ.tag x = .phD)
    (h : (x, y) ∈ σ.store.edges) : σ.tag y = .dtP ∧ σ.S y = [x] := by
  have he := hi.edge _ _ h
  unfold REdge at he
  rw [hx] at he
  cases ht : σ.tag y <;> rw [ht] at he <;> try exact he.elim
  exact ⟨rfl, one_of_mem (hi.sfix y (by rw [ht]; rfl)) (mem_S.2 h)⟩

theorem RI.detailT {cfg lim bs fz} {σ : Rt} (hi : RI cfg lim bs fz σ) {x y : Nat} (hx : σ.tag x = .dtP)
    (h : (x, y) ∈ σ.store.edges) : σ.T x = [y] :=
  one_of_mem (hi.tfix x (by rw [hx]; rfl)) (mem_T.2 h)

theorem mem_common {l1 l2 : List Nat} {d : Nat} (h : d ∈ Detail.common l1 l2) : d ∈ l1 ∧ d ∈ l2 := by
  unfold Detail.common at h
  obtain ⟨a, ha, hd⟩ := List.mem_flatMap.1 h
  have := List.mem_filter.1 hd
  have e : d = a := by simpa using this.2
  subst e
  exact ⟨ha, this.1⟩

/-- node 0 cannot be connected -/
theorem From.connect0 {C : RC} (hC : C.tot = false) (hz : C.cfg.zero = false) {σ0 σ : Rt} (hl : Later C σ0 σ) {y : Nat}
    {good : Unit → Rt → Prop} :
    From C σ0 good (Go.connect 0 y) σ := by
  intro _ c hc σ1 he
  have hlv : σ1.store.live 0 = false := by
    cases h : σ1.store.live 0 with
    | false => rfl
    | true => exact absurd (he.inv.node0 hz) ((he.inv.live 0).1 h)
  have e : σ1.store.step c (.connect 0 y) = (.error .noNode, σ1.store) := by
    simp [Store.step, hlv]
  have ea : σ1.after c (.connect 0 y) σ1.tag σ1.own = σ1 := by
    simp only [Rt.after, e]
  refine ⟨⟨σ1.tag, σ1.own, ?_⟩, fun _ => ⟨hl.trans he.toLater, hC⟩, fun _ => ⟨σ1.tag, σ1.own, ?_⟩⟩
  · rw [ea, e]; exact ⟨.refl he.inv, hl.trans he.toLater, hC⟩
  · rw [ea]; exact ⟨.refl he.inv, hl.trans he.toLater, hC⟩

theorem From.detailCreate {C : RC} (hz : C.fz = none) {σ0 σ : Rt} (hl : Later C σ0 σ) {po pp : PhraseE} (hpo : σ.tag po.detail = .phD)
    (hpp : σ.tag pp.detail = .phD)
    (hg : C.lim.solo = true → σ.own po.detail = C.me ∧ σ0.tag po.detail = .none) :
    From C σ0 (fun d σ' => DetailEnt σ' d po pp) (Detail.createEntity po pp) σ := by
  unfold Detail.createEntity
  refine From.bind ((Does.createNode hl.inv (by decide)).from hl) ?_
  intro n σ1 l1 ⟨h1, fn, hn⟩
  replace fn := hl.mono.fresh fn
  refine From.bind (From.create l1 (t := .dtP) (by constructor <;> simp [TagOK])) ?_
  intro a σ2 l2 ⟨m2, fa, ha⟩
  have na : n ≠ a := ne_fresh hn.live fa
  replace hn := hn.keep m2
  replace fa := l1.mono.fresh fa
  have h2 := h1.mono.trans m2.mono
  have po2 := h2.tagEq hpo (by simp)
  refine From.bind (From.connectS l2 ha rfl rfl po2 (by simp) rfl rfl ?_ fa ?_ ?_
    (hg := fun h _ => ⟨by rw [h2.own _ (by rw [hpo]; simp)]; exact (hg h).1, (hg h).2⟩)) ?_
  · intro e; have := ha.tag; rw [(l2.inv.root a).2 (by rw [e]; decide)] at this; cases this
  · intro e; have := ha.tag; rw [← e, po2] at this; cases this
  · intro σ' m _
    simp only [REdge, m.tagEq po2 (by simp), m.tagEq ha.tag (by simp)]
  intro _ σ3 l3 ⟨m3, ha, _⟩
  replace hn := hn.keepC m3 (fun _ e => by
    have := hn.tag; rw [e, po2] at this; cases this) (fun h => by simp [Tag.scrit] at h)
  have pp3 := (h2.trans m3.mono).tagEq hpp (by simp)
  refine From.bind (From.connectT l3 ha rfl rfl pp3 (by simp) rfl rfl ?_ fa ?_ ?_) ?_
  · intro e; rw [(l3.inv.root pp.detail).2 (by rw [e]; decide)] at pp3; cases pp3
  · intro e; have := ha.tag; rw [e, pp3] at this; cases this
  · intro σ' m _
    simp only [REdge, m.tagEq pp3 (by simp), m.tagEq ha.tag (by simp)]
  intro _ σ4 l4 ⟨m4, ha⟩
  replace hn := hn.keepC m4 (fun _ => na) (fun h => by simp [Tag.scrit] at h)
  refine From.bind (From.create l4 (t := .dtR) (by constructor <;> simp [TagOK])) ?_
  intro b σ5 l5 ⟨m5, fb, hb⟩
  have nb : n ≠ b := ne_fresh hn.live fb
  have ab : a ≠ b := ne_fresh ha.live fb
  replace hn := hn.keep m5
  replace ha := ha.keep m5
  replace fb := l4.mono.fresh fb
  refine From.bind (From.setRef l5 hn ha na (by simp) (by simp) fn fa) ?_
  intro _ σ6 l6 ⟨m6, hn, ha⟩
  replace hb := hb.keepX m6 (by simp [nb.symm, ab.symm])
  refine From.bind (From.setRef l6 ha hb ab (by simp) (fun _ => rfl) fa fb) ?_
  intro _ σ7 l7 ⟨m7, ha, hb⟩
  exact From.ret l7 ⟨⟨ha.fwd, hb.back, ha.ne0 l7.inv, hb.ne0 l7.inv⟩, ha.tag, hb.tag, ha.S rfl, ha.T rfl⟩

theorem Does.detailCreate {C : RC} (hz : C.fz = none) (hso : C.lim.solo = false) {σ : Rt} (hi : C.I σ) {po pp : PhraseE}
    (hpo : σ.tag po.detail = .phD) (hpp : σ.tag pp.detail = .phD) :
    Does C (fun d σ' => DetailEnt σ' d po pp) (Detail.createEntity po pp) σ :=
  From.detailCreate hz (.refl hi) hpo hpp (fun h => by rw [hso] at h; cases h)

/-- A detail of another process may be found before its remark node is there. -/
theorem Does.detailProvideEntity {C : RC} (hC : C.tot = false) (hz : C.fz = none) (hso : C.lim.solo = false) {σ : Rt} (hi : C.I σ) {po pp : PhraseE}
    (hpo : σ.tag po.detail = .phD) (hpp : σ.tag pp.detail = .phD) :
    Does C (fun d σ' => d.remark = 0 ∨ DetailEnt σ' d po pp) (Detail.provideEntity po pp) σ := by
  unfold Detail.provideEntity
  refine Does.bind (good := fun l σ' => ∀ y ∈ l, (po.detail, y) ∈ σ'.store.edges) ?_ ?_
  · refine Does.targets hi (by rw [hpo]; simp) ?_
    intro σ1 l _ hp y hy
    exact mem_T.1 (hp.mem_iff.1 hy)
  intro l1 σ1 h1 hl1
  refine Does.bind (good := fun (r : Except Err (List Nat)) σ' => ∀ y ∈ r.toOption.getD [], (y, pp.detail) ∈ σ'.store.edges) ?_ ?_
  · refine (Does.sources h1.inv (by rw [h1.mono.tagEq hpp (by simp)]; simp)
      (good := fun l σ' => ∀ y ∈ l, (y, pp.detail) ∈ σ'.store.edges) ?_).attempt.cons ?_
    · intro σ2 l _ hp y hy
      exact mem_S.1 (hp.mem_iff.1 hy)
    · intro r σ' _ hr
      cases r with
      | ok a => exact hr
      | error e => intro y hy; cases hy
  intro r σ2 h2 hr
  have po2 := h2.mono.tagEq (h1.mono.tagEq hpo (by simp)) (by simp)
  have pp2 := h2.mono.tagEq (h1.mono.tagEq hpp (by simp)) (by simp)
  cases hcm : Detail.common l1 (r.toOption.getD []) with
  | nil => exact (Does.detailCreate hz hso h2.inv po2 pp2).cons fun _ _ _ h => .inr h
  | cons d l =>
    cases l with
    | cons _ _ => exact From.err (.refl h2.inv) hC
    | nil =>
      have hm := mem_common (l1 := l1) (l2 := r.toOption.getD []) (d := d) (by rw [hcm]; simp)
      have e1 := h2.mono.edges _ _ (hl1 d hm.1)
      have e2 := hr d hm.2
      obtain ⟨td, Sd⟩ := h2.inv.detailTag po2 e1
      have Td := h2.inv.detailT td e2
      simp only
      unfold Detail.readEntityByPhrase
      refine Does.bind (good := fun p σ' => p.2 = 0 ∨ DetailEnt σ' ⟨p.1, d, p.2⟩ po pp) ?_ ?_
      · refine Does.getRef h2.inv (by rw [td]; simp) ?_
        intro σ3 h3
        by_cases h0 : σ3.fwd d = 0
        · exact .inl h0
        · have td3 := h3.mono.tagEq td (by simp)
          obtain ⟨x, y⟩ := h3.inv.refDt d td3 h0
          exact .inr ⟨⟨rfl, y, h3.inv.ne0 (by rw [td3]; simp) (by rw [td3]; simp), h0⟩, td3, x, h3.mono.Seq td rfl Sd (by simp),
            h3.mono.Teq td rfl Td (by simp)⟩
      · intro p σ3 h3 hp
        exact Does.ret h3.inv hp

theorem Does.detailProvide {C : RC} (hC : C.tot = false) (hz : C.fz = none) (hso : C.lim.solo = false) {σ : Rt} (hi : C.I σ) {fuel : Nat} (hf : C.lim.L ≤ fuel)
    (hD : C.lim.D ≤ fuel) {o p : GoStr} (ho : TextOK C.lim o) (hp : TextOK C.lim p) :
    Does C (fun d σ' => ∃ po pp, Ph C.bs σ' (wordsOf o) po ∧ Ph C.bs σ' (wordsOf p) pp ∧
      (d.remark = 0 ∨ DetailEnt σ' d po pp)) (Detail.provide fuel o p) σ := by
  unfold Detail.provide
  refine Does.bind (Does.phraseProvide hC hz hso hi hf hD ho) ?_
  intro po σ1 h1 hpo
  refine Does.bind (Does.phraseProvide hC hz hso h1.inv hf hD hp) ?_
  intro pp σ2 h2 hpp
  refine Does.bind (Does.provideEntity h2.inv) ?_
  intro _ σ3 h3 _
  have hpo := (hpo.mono h2.mono).mono h3.mono
  have hpp := hpp.mono h3.mono
  refine (Does.detailProvideEntity hC hz hso h3.inv hpo.tagD hpp.tagD).cons ?_
  intro d σ4 h4 hd
  exact ⟨po, pp, hpo.mono h4.mono, hpp.mono h4.mono, hd⟩

/-- from now on the detail of `o` and `p` will be provided -/
def Prov (C : RC) (σ : Rt) (fuel : Nat) (o p : GoStr) : Prop :=
  ∀ σ1, Later C σ σ1 → Does C (fun d σ' => ∃ po pp, Ph C.bs σ' (wordsOf o) po ∧ Ph C.bs σ' (wordsOf p) pp ∧
    ((d.remark = 0 ∧ C.tot = false ∧ C.cfg.zero = false) ∨ DetailEnt σ' d po pp)) (Detail.provide fuel o p) σ1

theorem Prov.free {C : RC} (hC : C.tot = false) (hz : C.fz = none) (hso : C.lim.solo = false) (h0 : C.cfg.zero = false) {σ : Rt} {fuel : Nat} (hf : C.lim.L ≤ fuel)
    (hD : C.lim.D ≤ fuel) {o p : GoStr} (ho : TextOK C.lim o) (hp : TextOK C.lim p) : Prov C σ fuel o p := by
  intro σ1 h1
  refine (Does.detailProvide hC hz hso h1.inv hf hD ho hp).cons ?_
  intro d σ' _ ⟨po, pp, h2, h3, h4⟩
  exact ⟨po, pp, h2, h3, h4.imp (fun h => ⟨h, hC, h0⟩) id⟩

/-! ### the common beginning of the four writing calls -/

/-- a remark of this process with its text, not yet with its fact -/
structure RHalf (C : RC) (σ0 σ : Rt) (o p : GoStr) (r : RemE) : Prop where
  ent : RemEnt σ r
  says : Says C.bs σ r (wordsOf o) (wordsOf p)
  node : ∃ b, Nd C σ r.fact .rmF 0 b [] []
  ff : σ0.tag r.fact = .none
  fresh : σ0.tag r.cls = .none
  own : σ.own r.cls = C.me

theorem not_root {cfg lim bs fz} {σ : Rt} (hi : RI cfg lim bs fz σ) {x : Nat} {t : Tag} (h : σ.tag x = t) (ht : t ≠ .root) :
    x ≠ bitId := by
  intro e
  rw [(hi.root x).2 (by rw [e]; decide)] at h
  exact ht h.symm

theorem tag_ne {σ : Rt} {x y : Nat} {t u : Tag} (hx : σ.tag x = t) (hy : σ.tag y = u) (h : t ≠ u) : x ≠ y := by
  intro e; subst e; exact h (hx.symm.trans hy)

theorem Does.half {C : RC} {σ : Rt} (hi : C.I σ) {fuel : Nat} {o p : GoStr} {src : Go GoStr}
    (hsrc : ∀ σ', Later C σ σ' → Does C (fun a _ => a = o) src σ') (hpr : Prov C σ fuel o p) :
    Does C (fun r σ' => RHalf C σ σ' o p r) (half fuel src p) σ := by
  unfold Semnet.half
  refine From.bind (Does.provideEntity hi) ?_
  intro _ σ1 l1 _
  rw [remark_newEnt]
  refine From.bind ((Does.newEnt l1.inv (by decide) remarkTags).from l1) ?_
  intro q σ2 l2 ⟨h2, hn⟩
  obtain ⟨n, a, b, d⟩ := q
  simp only at hn ⊢
  replace hn := hn.early l1.mono
  have hr2 : RemEnt σ2 ⟨n, a, b, d⟩ := ⟨hn.chain l2.inv, hn.wn.tag, hn.wa.tag, hn.wb.tag, hn.wc.tag, hn.wn.T rfl⟩
  refine From.bind ((hsrc σ2 l2).from l2) ?_
  intro obj σ3 l3 ⟨h3, eo⟩
  subst eo
  refine From.bind ((hpr σ3 l3).from l3) ?_
  intro dt σ4 l4 ⟨h4, po, pp, hpo, hpp, hd⟩
  replace hn := (hn.keep h3).keep h4
  have hr4 := h4.mono.rem (h3.mono.rem hr2)
  rcases hd with ⟨h0, hC, hz⟩ | hd
  · rw [h0]; exact From.bind (From.connect0 hC hz l4 (good := fun _ _ => False)) fun _ _ _ h => h.elim
  refine From.bind (From.connectS l4 hn.wa rfl rfl hd.tr (by simp) rfl rfl (not_root l4.inv hn.wa.tag (by simp)) hn.fa
    (tag_ne hd.tr hn.wa.tag (by simp)) ?_) ?_
  · intro σ' m _
    simp only [REdge, m.tagEq hd.tr (by simp), m.tagEq hn.wa.tag (by simp)]
  intro _ σ5 l5 ⟨m5, ha, _⟩
  refine From.ret l5 ⟨m5.mono.rem hr4, ⟨dt, po, pp, ha.S rfl, m5.mono.detail hd, hpo.mono m5.mono, hpp.mono m5.mono⟩,
    ⟨b, hn.wc.keepC m5 (fun _ => tag_ne hn.wc.tag hd.tr (by simp)) (fun h => by simp [Tag.scrit] at h)⟩, hn.fc, hn.fn, ?_⟩
  rw [m5.mono.own n hn.wn.live]; exact hn.wn.own

/-! ### facts and stories -/

/-- a fact of this process with its story -/
structure NewFact (C : RC) (σ0 σ : Rt) (f : FactE) (s : StoryE) : Prop where
  fact : FactEnt σ false f
  story : StoryEnt σ s
  Ts : σ.T f.story = [s.fact]
  Tb : σ.T s.fact = [f.story]
  node : ∃ x b, Nd C σ f.remark (.ftR false) x b [] []
  fr : σ0.tag f.remark = .none

theorem Does.createStoryE {C : RC} {σ : Rt} (hi : C.I σ) :
    Does C (fun s σ' => NewE C σ σ' storyId .stF .stP .stT s.cls s.fact s.position s.tree) Story.createStory σ := by
  unfold Story.createStory
  refine From.bind (Does.provideEntity hi) ?_
  intro _ σ1 l1 _
  rw [story_newEnt]
  refine From.bind ((Does.newEnt l1.inv (by decide) storyTags).from l1) ?_
  intro q σ2 l2 ⟨_, hn⟩
  exact From.ret l2 (hn.early l1.mono)

theorem Does.createFirstStoryFact {C : RC} {σ : Rt} (hi : C.I σ) :
    Does C (fun f σ' => ∃ s, NewFact C σ σ' f.fact s) Fact.createFirstStoryFact σ := by
  unfold Fact.createFirstStoryFact
  refine From.bind (Does.provideEntity hi) ?_
  intro _ σ1 l1 _
  rw [fact_newEnt]
  refine From.bind ((Does.newEnt l1.inv (by decide) (factTags (b := false))).from l1) ?_
  intro q σ2 l2 ⟨h2, hn⟩
  obtain ⟨n, a, b, d⟩ := q
  simp only at hn ⊢
  replace hn := hn.early l1.mono
  refine From.bind ((Does.createStoryE l2.inv).from l2) ?_
  intro s σ3 l3 ⟨h3, hs⟩
  replace hs := hs.early l2.mono
  replace hn := hn.keep h3
  have hne := tag_ne hn.wc.tag hs.wa.tag (by simp)
  have hf3 : FactEnt σ3 false ⟨n, a, b, d⟩ := ⟨hn.chain l3.inv, hn.wn.tag, hn.wn.T rfl, hn.wa.tag, hn.wb.tag, hn.wc.tag⟩
  have hs3 : StoryEnt σ3 s := ⟨hs.chain l3.inv, hs.wa.tag, hs.wb.tag, hs.wc.tag⟩
  refine From.bind (From.connectT l3 hn.wc rfl rfl hs.wa.tag (by simp) rfl rfl (not_root l3.inv hs.wa.tag (by simp)) hn.fc
    hne ?_) ?_
  · intro σ' m _
    simp only [REdge, m.tagEq hn.wc.tag (by simp), m.tagEq hs.wa.tag (by simp)]
  intro _ σ4 l4 ⟨m4, hc⟩
  have ha4 := hn.wa.keepC m4 (fun _ => hn.ac) (fun h => by simp [Tag.scrit] at h)
  have hsa := hs.wa.keepC m4 (fun _ => hne.symm) (fun h => by simp [Tag.scrit] at h)
  refine From.bind (From.connectT l4 hsa rfl rfl hc.tag (by simp) rfl rfl (not_root l4.inv hc.tag (by simp)) hs.fa
    hne.symm ?_) ?_
  · intro σ' m _
    simp only [REdge, m.tagEq hc.tag (by simp), m.tagEq hsa.tag (by simp)]
  intro _ σ5 l5 ⟨m5, hsa5⟩
  have m := m4.mono.trans m5.mono
  exact From.ret l5 ⟨s, m.fact hf3, m.story hs3, m5.mono.Teq hc.tag rfl (hc.T rfl) (by simp), hsa5.T rfl,
    ⟨_, _, ha4.keepC m5 (fun _ => tag_ne ha4.tag hsa.tag (by simp)) (fun h => by simp [Tag.scrit] at h)⟩, hn.fa⟩

/-- the fact node of a remark taken for the remark node of a fact -/
theorem Does.factOfRmF {C : RC} (hC : C.tot = false) (hz : C.cfg.zero = false) {σ : Rt} (hi : C.I σ) {r} (h : RemEnt σ r) {good : FactE → Rt → Prop} :
    Does C good (Fact.readEntityByRemark r.fact) σ := by
  unfold Fact.readEntityByRemark
  refine Does.bind (good := fun a _ => a.2 = 0) ?_ ?_
  · refine Does.getRef hi (by rw [h.tf]; simp) ?_
    intro σ1 h1
    exact h1.inv.rmF _ (h1.mono.rem h).tf
  · intro a σ1 h1 ha
    simp only [ha]
    exact Does.bind (Does.getRef0 hC hz h1.inv (good := fun _ _ => False)) fun _ _ _ h => h.elim

/-! ### the four calls -/

/-- a newly stored remark -/
structure New (C : RC) (σ0 σ : Rt) (o p : List (List Int)) (r : RemE) (r1 : Option RemE) : Prop where
  ent : RemEnt σ r
  says : Says C.bs σ r o p
  fact : At σ r r1
  fresh : σ0.tag r.cls = .none
  own : σ.own r.cls = C.me

theorem Does.createStory {C : RC} {σ : Rt} (hi : C.I σ) {fuel : Nat} {o p : GoStr} (hpr : Prov C σ fuel o p) :
    Does C (fun r σ' => New C σ σ' (wordsOf o) (wordsOf p) r (some r)) (Graph.createStory fuel o p) σ := by
  rw [createStory_eq]
  refine From.bind (Does.half hi (fun _ h => Does.ret h.inv rfl) hpr) ?_
  intro r σ1 l1 hr
  refine From.bind ((Does.createFirstStoryFact l1.inv).from l1) ?_
  intro f σ2 l2 ⟨h2, s, hs⟩
  obtain ⟨f, hb⟩ := f
  simp only at hs ⊢
  obtain ⟨b, hn⟩ := hr.node
  replace hn := hn.keep h2
  obtain ⟨x, b', hm⟩ := hs.node
  have hne := tag_ne hn.tag hm.tag (by simp)
  have fm := l1.mono.fresh hs.fr
  have hr2 := h2.mono.rem hr.ent
  refine From.bind (From.connectT l2 hn rfl rfl hm.tag (by simp) rfl rfl (not_root l2.inv hm.tag (by simp)) hr.ff
    hne ?_) ?_
  · intro σ' m _
    simp only [REdge, m.tagEq hn.tag (by simp), m.tagEq hm.tag (by simp)]
  intro _ σ3 l3 ⟨m3, hn3⟩
  have hm3 := hm.keepC m3 (fun _ => hne.symm) (fun h => by simp [Tag.scrit] at h)
  refine From.bind (From.connectT l3 hm3 rfl rfl hn3.tag (by simp) rfl rfl (not_root l3.inv hn3.tag (by simp)) fm
    hne.symm ?_) ?_
  · intro σ' m _
    simp only [REdge, m.tagEq hn3.tag (by simp), m.tagEq hm3.tag (by simp)]
  intro _ σ4 l4 ⟨m4, hm4⟩
  have m := m3.mono.trans m4.mono
  have mm := h2.mono.trans m
  refine From.ret l4 ⟨m.rem hr2, hr.says.mono mm hr.ent, ⟨f, s, ?_⟩, hr.fresh, ?_⟩
  · exact ⟨m4.mono.Teq hn3.tag rfl (hn3.T rfl) (by simp), m.fact hs.fact, m.rem hr2, hm4.T rfl, m.story hs.story,
      m.Teq hs.fact.ts rfl hs.Ts (by simp), m.Teq hs.story.tf rfl hs.Tb (by simp)⟩
  · rw [mm.own r.cls (by rw [hr.ent.tc]; simp)]; exact hr.own

/-- another remark of the same fact -/
theorem At.fact {σ : Rt} {r : RemE} {r1 : Option RemE} (h : At σ r r1) : ∃ b f, σ.T r.fact = [f.remark] ∧ FactEnt σ b f ∧
    ∀ σ' r', RMono σ σ' → σ'.T r'.fact = [f.remark] → At σ' r' r1 := by
  cases r1 with
  | some r1 =>
    obtain ⟨f, s, h⟩ := h
    refine ⟨false, f, h.Tr, h.fact, fun σ' r' m hT => ⟨f, s, ?_⟩⟩
    exact ⟨hT, m.fact h.fact, m.rem h.opener, m.Teq h.fact.tr rfl h.Tf (by simp), m.story h.story,
      m.Teq h.fact.ts rfl h.Ts (by simp), m.Teq h.story.tf rfl h.Tb (by simp)⟩
  | none =>
    obtain ⟨f, h⟩ := h
    exact ⟨true, f, h.Tr, h.fact, fun σ' r' m hT => ⟨f, hT, m.fact h.fact, m.Teq h.fact.ts rfl h.Ts (by simp)⟩⟩

theorem Does.addRemarkToFact {C : RC} {σ : Rt} (hi : C.I σ) {fuel : Nat} (hf : C.lim.L ≤ fuel)
    (hD : C.lim.D ≤ fuel) {a : RemE} {r1 : Option RemE} {o q} {p : GoStr} (ha : RemEnt σ a) (hs : Says C.bs σ a o q)
    (hin : At σ a r1) (hpr : Prov C σ fuel (textOf o) p) (hwo : wordsOf (textOf o) = o) :
    Does C (fun r σ' => New C σ σ' o (wordsOf p) r r1) (Remark.addRemarkToFact fuel a p) σ := by
  rw [addRemarkToFact_eq]
  refine From.bind (Does.half (o := textOf o) hi ?_ hpr) ?_
  · intro σ' h'
    refine Does.bind (Does.remarkText h'.inv (h'.mono.rem ha) (hs.mono h'.mono ha) hf hD) ?_
    intro x σ2 h2 hx
    subst hx
    exact Does.ret h2.inv rfl
  intro r σ1 l1 hr
  have ha1 := l1.mono.rem ha
  obtain ⟨fb, f, Tr, hfe, hat⟩ := At.fact (hin.mono l1.mono ha)
  refine From.bind (good := fun n σ' => Later C σ1 σ' ∧ n = f.remark) ?_ ?_
  · refine Does.from l1 ?_
    unfold Remark.getTargetFact
    refine Does.bind (Does.targets1 l1.inv ha1.tf rfl Tr) ?_
    intro x σ2 h2 hx; subst hx
    exact Does.ret h2.inv rfl
  intro n σ2 l2 ⟨h2, en⟩
  subst en
  refine From.bind ((Does.factByRemark l2.inv (h2.mono.fact hfe)).from l2) ?_
  intro g σ3 l3 ⟨h3, eg⟩
  subst eg
  have h13 := h2.trans h3
  have hf3 := h13.mono.fact hfe
  obtain ⟨b, hn⟩ := hr.node
  replace hn := hn.keep h13
  refine From.bind (From.connectT l3 hn rfl rfl hf3.tr (by simp) rfl rfl (not_root l3.inv hf3.tr (by simp)) hr.ff
    (tag_ne hn.tag hf3.tr (by simp)) ?_) ?_
  · intro σ' m _
    simp only [REdge, m.tagEq hn.tag (by simp), m.tagEq hf3.tr (by simp)]
  intro _ σ4 l4 ⟨m4, hn4⟩
  have mm := h13.mono.trans m4.mono
  refine From.ret l4 ⟨mm.rem hr.ent, ?_, hat _ _ mm (hn4.T rfl), hr.fresh, ?_⟩
  · have := hr.says.mono mm hr.ent
    rw [hwo] at this
    exact this
  · rw [mm.own r.cls (by rw [hr.ent.tc]; simp)]; exact hr.own

/-- Without node 0 the remaining two calls never succeed. -/
theorem Does.addFactToStory {C : RC} (hC : C.tot = false) (hz : C.cfg.zero = false) {σ : Rt} (hi : C.I σ) {fuel : Nat} {a : RemE} (ha : RemEnt σ a)
    {o p : GoStr} (hpr : Prov C σ fuel o p) :
    Does C (fun _ _ => False) (Remark.addFactToStory fuel a o p) σ := by
  rw [addFactToStory_eq]
  refine From.bind (Does.half hi (fun _ h => Does.ret h.inv rfl) hpr) ?_
  intro r σ1 l1 _
  refine From.bind (good := fun _ _ => False) ?_ (fun _ _ _ h => h.elim)
  refine (Does.from l1 (good := fun _ _ => False) ?_).cons (fun _ _ _ h => h.2)
  unfold Fact.createNextFact
  exact Does.bind (Does.factOfRmF hC hz l1.inv (l1.mono.rem ha) (good := fun _ _ => False)) fun _ _ _ h => h.elim

theorem Does.createChildStory {C : RC} (hC : C.tot = false) (hz : C.cfg.zero = false) {σ : Rt} (hi : C.I σ) {fuel : Nat} {a : RemE} (ha : RemEnt σ a)
    {o p : GoStr} (hpr : Prov C σ fuel o p) :
    Does C (fun _ _ => False) (Remark.createChildStory fuel a o p) σ := by
  rw [createChildStory_eq]
  refine From.bind (Does.half hi (fun _ h => Does.ret h.inv rfl) hpr) ?_
  intro r σ1 l1 _
  refine From.bind (good := fun _ _ => False) ?_ (fun _ _ _ h => h.elim)
  refine (Does.from l1 (good := fun _ _ => False) ?_).cons (fun _ _ _ h => h.2)
  unfold Fact.createChildStoryFact
  exact Does.bind (Does.factOfRmF hC hz l1.inv (l1.mono.rem ha) (good := fun _ _ => False)) fun _ _ _ h => h.elim

/-! ### with node 0 -/

theorem RI.tag0 {cfg lim bs fz} {σ : Rt} (hi : RI cfg lim bs fz σ) (hz : cfg.zero = true) : σ.tag 0 = .zero :=
  (hi.zero 0).2 ⟨rfl, hz⟩

theorem Does.ref0 {C : RC} (hz : C.cfg.zero = true) {σ : Rt} (hi : C.I σ) :
    Does C (fun a _ => a = (0, 0)) (Go.getReference 0) σ := by
  refine Does.getRef hi (by rw [hi.tag0 hz]; simp) ?_
  intro σ1 h1
  have := h1.inv.ref00 0 (h1.inv.tag0 hz)
  rw [this.1, this.2]

/-- the new fact belongs to no story -/
theorem Does.createNextFact {C : RC} (hz : C.cfg.zero = true) {σ : Rt} (hi : C.I σ) {r} (hr : RemEnt σ r) :
    Does C (fun f σ' => FactEnt σ' true f.fact ∧ σ'.T f.fact.story = [0]) (Fact.createNextFact r.fact) σ := by
  unfold Fact.createNextFact
  refine From.bind (good := fun f _ => f.story = 0 ∧ f.position = 0) ?_ ?_
  · unfold Fact.readEntityByRemark
    refine Does.bind (good := fun a _ => a.2 = 0) ?_ ?_
    · refine Does.getRef hi (by rw [hr.tf]; simp) ?_
      intro σ1 h1
      exact h1.inv.rmF _ (h1.mono.rem hr).tf
    · intro a σ1 h1 ha
      rw [ha]
      refine Does.bind (Does.ref0 hz h1.inv) ?_
      intro b σ2 h2 hb
      subst hb
      exact Does.ret h2.inv ⟨rfl, rfl⟩
  intro f σ1 l1 ⟨e1, e2⟩
  rw [e1, e2]
  refine From.bind (good := fun s _ => s.fact = 0) ?_ ?_
  · refine (Does.from l1 (good := fun (s : StoryE) _ => s.fact = 0) ?_).cons fun _ _ _ h => h.2
    unfold Story.fetchByFact
    refine Does.bind (Does.ref0 hz l1.inv) ?_
    intro b σ2 h2 hb
    subst hb
    refine Does.bind (Does.ref0 hz h2.inv) ?_
    intro b σ3 h3 hb
    subst hb
    exact Does.ret h3.inv rfl
  intro s σ2 l2 es
  rw [es]
  refine From.bind ((Does.provideEntity l2.inv).from l2) ?_
  intro _ σ3 l3 _
  rw [fact_newEnt]
  refine From.bind ((Does.newEnt l3.inv (by decide) (factTags (b := true))).from l3) ?_
  intro q σ4 l4 ⟨h4, hn⟩
  obtain ⟨n, a, b, d⟩ := q
  simp only at hn ⊢
  replace hn := hn.early l3.mono
  have hf4 : FactEnt σ4 true ⟨n, a, b, d⟩ := ⟨hn.chain l4.inv, hn.wn.tag, hn.wn.T rfl, hn.wa.tag, hn.wb.tag, hn.wc.tag⟩
  have t4 := l4.inv.tag0 hz
  refine From.bind (From.connectT l4 hn.wc rfl rfl t4 (by simp) rfl rfl (by decide) hn.fc
    (tag_ne hn.wc.tag t4 (by simp)) ?_) ?_
  · intro σ' m _
    simp only [REdge, m.tagEq hn.wc.tag (by simp), m.tagEq t4 (by simp)]
  intro _ σ5 l5 ⟨m5, hc5⟩
  have hf5 := m5.mono.fact hf4
  have t5 := l5.inv.tag0 hz
  refine From.bind (From.connect l5 (x := 0) (y := b) ⟨by rw [t5]; simp, by rw [hf5.tp]; simp, by rw [t5]; simp [Race.tfix],
    by rw [t5]; rfl, by rw [hf5.tp]; simp [Tag.scrit], by rw [hf5.tp]; rfl, not_root l5.inv hf5.tp (by simp),
    ftag_old l5.inv t5 (.inr rfl), ftag_old l5.inv hf5.tp (.inr rfl), by rw [t5]; simp [gtag], by rw [t5]; simp⟩
    (by rw [t5]; simp [tkeep, Race.tfix, gtag])
    (by rw [hf5.tp]; simp [Tag.scrit]) ?_) ?_
  · intro σ' m _ _
    simp only [REdge, m.tagEq t5 (by simp), m.tagEq hf5.tp (by simp)]
  intro _ σ6 l6 ⟨m6, _⟩
  exact From.ret l6 ⟨m6.mono.fact hf5, m6.mono.Teq hc5.tag rfl (hc5.T rfl) (by simp)⟩

theorem Does.addLooseFact {C : RC} (hz : C.cfg.zero = true) {σ : Rt} (hi : C.I σ) {fuel : Nat} {a : RemE} (ha : RemEnt σ a)
    {o p : GoStr} (hpr : Prov C σ fuel o p) :
    Does C (fun r σ' => New C σ σ' (wordsOf o) (wordsOf p) r none) (Remark.addFactToStory fuel a o p) σ := by
  rw [addFactToStory_eq]
  refine From.bind (Does.half hi (fun _ h => Does.ret h.inv rfl) hpr) ?_
  intro r σ1 l1 hr
  refine From.bind ((Does.createNextFact hz l1.inv (l1.mono.rem ha)).from l1) ?_
  intro f σ2 l2 ⟨h2, hf, hT⟩
  obtain ⟨b, hn⟩ := hr.node
  replace hn := hn.keep h2
  refine From.bind (From.connectT l2 hn rfl rfl hf.tr (by simp) rfl rfl (not_root l2.inv hf.tr (by simp)) hr.ff
    (tag_ne hn.tag hf.tr (by simp)) ?_) ?_
  · intro σ' m _
    simp only [REdge, m.tagEq hn.tag (by simp), m.tagEq hf.tr (by simp)]
  intro _ σ3 l3 ⟨m3, hn3⟩
  have mm := h2.mono.trans m3.mono
  refine From.ret l3 ⟨mm.rem hr.ent, hr.says.mono mm hr.ent,
    ⟨f.fact, hn3.T rfl, m3.mono.fact hf, m3.mono.Teq hf.ts rfl hT (by simp)⟩, hr.fresh, ?_⟩
  rw [mm.own r.cls (by rw [hr.ent.tc]; simp)]
  exact hr.own

end Semnet.Race
