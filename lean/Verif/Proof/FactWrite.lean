import Verif.Proof.DetailWrite
/-
  Creating facts and stories.
-/
set_option linter.unusedSimpArgs false
namespace Semnet
open Class

/-! ### calls on a node that does not exist -/

theorem wp_dead {C : Ctx} (hR : C.R = false) {σ : St} (hi : Inv C.cfg C.lim σ) {o : Op} {bad}
    (hs : ∀ c, σ.store.step c o = (.error .noNode, σ.store)) (hb : bad false σ) :
    Wr C (fun _ _ => False) bad (Go.call o) σ := by
  intro σ1 he c _
  rw [he.eq hR]
  have hs := hs c
  have ea : σ.after c o σ.tag σ.bits = σ := by
    simp only [St.after, hs]
  refine ⟨⟨σ.tag, σ.bits, ?_, ?_⟩, fun hF => ⟨?_, ?_⟩, fun hF => ⟨σ.tag, σ.bits, ?_, ?_⟩⟩
  · rw [ea]; exact .of_same hi (.refl _) rfl id
  · rw [ea, hs]; exact ⟨.refl hi, .inr hb⟩
  · exact .of_same hi (.fail _) rfl fun _ => rfl
  · exact Wr.fault (.fail hi) rfl
  · rw [ea]; exact .of_same hi (.fail _) rfl fun _ => rfl
  · rw [ea]; exact Wr.fault (.fail hi) rfl

theorem Inv.notLive {cfg lim} {σ : St} (hi : Inv cfg lim σ) {x : Nat} (h : σ.tag x = .none) :
    σ.store.live x = false := by
  cases hl : σ.store.live x with
  | false => rfl
  | true => exact absurd h ((hi.live x).1 hl)

theorem Wr.getRefDead {C : Ctx} (hR : C.R = false) {σ : St} (hi : Inv C.cfg C.lim σ) {x : Nat} {bad}
    (hx : σ.tag x = .none) (hb : bad false σ) : Wr C (fun _ _ => False) bad (Go.getReference x) σ :=
  wp_dead hR hi (by simp [Store.step, hi.notLive hx]) hb

theorem Wr.connectDead {C : Ctx} (hR : C.R = false) {σ : St} (hi : Inv C.cfg C.lim σ) {x y : Nat} {bad}
    (hx : σ.tag x = .none) (hb : bad false σ) : Wr C (fun _ _ => False) bad (Go.connect x y) σ :=
  wp_dead hR hi (by simp [Store.step, hi.notLive hx]) hb

/-! ### node 0 -/

theorem Rd.ref0 {C : Ctx} {σ : St} (hi : Inv C.cfg C.lim σ) (hz : C.cfg.zero = true) :
    Rd C (· = (0, 0)) (Go.getReference 0) σ := by
  refine Rd.getRef hi (by rw [hi.tag0 hz]; simp) ?_
  intro σ1 h1 _
  have ht := h1.inv.tag0 hz
  rw [h1.inv.noB 0 (by rw [ht]; rfl), h1.inv.noF 0 (by rw [ht]; rfl)]

theorem Rd.storyOf0 {C : Ctx} {σ : St} (hi : Inv C.cfg C.lim σ) (hz : C.cfg.zero = true) :
    Rd C (· = ⟨0, 0, 0, 0⟩) (Story.fetchByFact 0) σ := by
  unfold Story.fetchByFact
  refine Rd.bind (Rd.ref0 hi hz) ?_
  intro a σ1 h1 _ ha; subst ha
  refine Rd.bind (Rd.ref0 h1.inv hz) ?_
  intro a σ2 h2 _ ha; subst ha
  exact Rd.ret h2.inv rfl

theorem Rd.storyOfTree0 {C : Ctx} {σ : St} (hi : Inv C.cfg C.lim σ) (hz : C.cfg.zero = true) :
    Rd C (· = ⟨0, 0, 0, 0⟩) (Story.fetchByTree 0) σ := by
  unfold Story.fetchByTree
  refine Rd.bind (Rd.ref0 hi hz) ?_
  intro a σ1 h1 _ ha; subst ha
  refine Rd.bind (Rd.ref0 h1.inv hz) ?_
  intro a σ2 h2 _ ha; subst ha
  refine Rd.bind (Rd.ref0 h2.inv hz) ?_
  intro a σ3 h3 _ ha; subst ha
  exact Rd.ret h3.inv rfl

/-- the fact node of a remark taken for the remark node of a fact -/
theorem Rd.refRmF {C : Ctx} {σ : St} (hi : Inv C.cfg C.lim σ) {r} (h : RemEnt σ r) :
    Rd C (· = (r.position, 0)) (Go.getReference r.fact) σ := by
  refine Rd.getRef hi (by rw [h.tf]; simp) ?_
  intro σ1 h1 _
  have h' := h.mono h1.mono
  rw [h1.inv.noF r.fact (by rw [h'.tf]; rfl), h'.chain.cd.b]

theorem Rd.factOfRmF {C : Ctx} {σ : St} (hi : Inv C.cfg C.lim σ) {r} (h : RemEnt σ r) (hz : C.cfg.zero = true) :
    Rd C (· = ⟨r.position, r.fact, 0, 0⟩) (Fact.readEntityByRemark r.fact) σ := by
  unfold Fact.readEntityByRemark
  refine Rd.bind (Rd.refRmF hi h) ?_
  intro a σ1 h1 _ ha; subst ha
  refine Rd.bind (Rd.ref0 h1.inv hz) ?_
  intro a σ2 h2 _ ha; subst ha
  exact Rd.ret h2.inv rfl

theorem Wr.factOfRmFDead {C : Ctx} (hR : C.R = false) {σ : St} (hi : Inv C.cfg C.lim σ) {r} (h : RemEnt σ r)
    (hz : C.cfg.zero = false) {bad} (hb : ∀ σ', Same σ σ' → bad false σ') :
    Wr C (fun _ _ => False) bad (Fact.readEntityByRemark r.fact) σ := by
  unfold Fact.readEntityByRemark
  refine Wr.rbind hR (Rd.refRmF hi h) ?_
  intro a σ1 h1 hs1 ha; subst ha
  exact Wr.bind (Wr.getRefDead hR h1.inv (h1.inv.node0 hz) (hb _ hs1)) fun _ _ _ h => h.elim

/-! ### connecting above the details -/

theorem ConnOK.up {cfg lim} {σ : St} (hi : Inv cfg lim σ) {x y : Nat} (new : (x, y) ∉ σ.store.edges)
    (tc : (σ.tag x).tcrit = true → σ.T x = []) (nt : (σ.tag x).noT = false)
    (sc : (σ.tag y).scrit = true → σ.S y = []) (hx : (σ.tag x).high = true ∨ σ.tag x = .dtR)
    (hy : (σ.tag y).high = true) : ConnOK σ x y where
  new := new
  tc := tc
  nt := nt
  sc := sc
  ns := by cases h : σ.tag y <;> rw [h] at hy <;> simp at hy <;> rfl
  sib y' q _ h := by rw [h] at hy; cases hy
  wd h := by rw [h] at hx; simp at hx
  bit := by
    intro e
    rw [(hi.root y).2 (by rw [e]; decide)] at hy; cases hy

theorem high_src {t : Tag} (h : t.high = true) : t.src = false := by cases t <;> simp at h <;> rfl

theorem high_ne_dtP {t : Tag} (h : t.high = true) : t ≠ .dtP := by intro e; rw [e] at h; cases h

/-- one connection above the details, not from a node whose target list matters to `Clean` -/
theorem Wr.connectU {C : Ctx} (hR : C.R = false) (hU : C.up = true) {σ : St} (hi : Inv C.cfg C.lim σ) {x y : Nat}
    (new : (x, y) ∉ σ.store.edges)
    (tc : (σ.tag x).tcrit = true → σ.T x = []) (nt : (σ.tag x).noT = false)
    (sc : (σ.tag y).scrit = true → σ.S y = []) (hx : (σ.tag x).high = true ∨ σ.tag x = .dtR)
    (hy : (σ.tag y).high = true) (he : EdgeOK (σ.conn C.cfg x y) x y) (h0 : x ≠ 0) (hf : σ.tag x ≠ .ftP) {bad} :
    Wr C (fun _ σ' => ∃ c, σ' = σ.conn c x y) bad (Go.connect x y) σ := by
  refine Wr.connect hR hi (.up hi new tc nt sc hx hy) he ?_ (high_ne_dtP hy) h0 ⟨hf, (fun h => by rw [hU] at h; cases h), fun _ => hx.elim high_src (fun h => by rw [h]; rfl)⟩
  rcases hx with h | h
  · exact high_ne_dtP h
  · rw [h]; simp

theorem not_edge_of_T {σ : St} {x y : Nat} (h : σ.T x = []) : (x, y) ∉ σ.store.edges := by
  intro h'; have := mem_T.2 h'; rw [h] at this; cases this

/-! ### new facts and stories -/

theorem factTags {lim : Lim} {b : Bool} : EntTags lim (.ftR b) .ftP .ftS := by
  constructor <;> first | rfl | (constructor <;> simp [TagOK]) | simp
theorem storyTags {lim : Lim} : EntTags lim .stF .stP .stT := by
  constructor <;> first | rfl | (constructor <;> simp [TagOK]) | simp

theorem fact_newEnt (f : FactE → Go α) :
    (do let cls ← Class.createNode factId; let e ← Fact.createEntity cls; f e) =
    (newEnt factId >>= fun r => f ⟨r.1, r.2.1, r.2.2.1, r.2.2.2⟩) := by
  simp only [newEnt, mk4, Fact.createEntity, bind_assoc, pure_bind]

theorem story_newEnt :
    (do let cls ← Class.createNode storyId; Story.createEntity cls) =
    (newEnt storyId >>= fun r => pure ⟨r.1, r.2.1, r.2.2.1, r.2.2.2⟩) := by
  simp only [newEnt, mk4, Story.createEntity, bind_assoc, pure_bind]

/-- a new story without connections -/
structure NewStory (σ σ' : St) (s : StoryE) : Prop where
  ent : StoryEnt σ' s
  Tf : σ'.T s.fact = []
  Tt : σ'.T s.tree = []
  Str : σ'.S s.tree = []
  Sp : σ'.S s.position = []
  frT : ∀ x, σ.tag x ≠ .none → σ'.T x = σ.T x
  newT : σ.tag s.tree = .none

theorem NewStory.pre {σ0 σ σ' : St} {s} (hs : Same σ0 σ) (h : NewStory σ σ' s) : NewStory σ0 σ' s :=
  ⟨h.ent, h.Tf, h.Tt, h.Str, h.Sp, fun x hx => by rw [h.frT x (by rw [hs.tag]; exact hx), hs.T],
    by rw [← hs.tag]; exact h.newT⟩

theorem Wr.createStory {C : Ctx} (hR : C.R = false) {σ : St} (hi : Inv C.cfg C.lim σ) {bad} :
    Wr C (fun s σ' => NewStory σ σ' s) bad Story.createStory σ := by
  unfold Story.createStory
  refine Wr.rbind hR (Rd.provideEntity hi) ?_
  intro _ σ1 h1 hs1 _
  rw [story_newEnt]
  refine Wr.bind (Wr.newEnt hR h1.inv (by decide) storyTags .story) ?_
  intro r σ2 h2 hn
  obtain ⟨n, a, b, d⟩ := r
  simp only at hn
  refine Wr.ret h2.inv (NewStory.pre hs1 ⟨⟨hn.chain, hn.ta, hn.tb, hn.tc⟩, hn.Ta, hn.Tc, hn.Sc, hn.Sb, hn.frT, hn.fc⟩)

/-- a fact with its story, ready to be connected to its first remark -/
structure StoryFact (σ : St) (f : FactE) : Prop where
  ent : FactEnt σ false f
  Tr : σ.T f.remark = []
  story : ∃ s, StoryEnt σ s ∧ σ.T f.story = [s.fact] ∧ σ.T s.fact = [f.story]

/-- what connecting facts and stories leaves alone -/
def Tag.still : Tag → Bool
  | .rmF | .zero => true
  | _ => false

theorem still_ne {σ : St} {x : Nat} (h : (σ.tag x).still = true) : σ.tag x ≠ .none := by
  intro e; rw [e] at h; cases h

theorem still_mono {σ σ' : St} {x : Nat} (m : Mono σ σ') (h : (σ.tag x).still = true) : (σ'.tag x).still = true := by
  rw [m.tag x (still_ne h)]; exact h

/-- connect a new fact and a new story -/
theorem Wr.linkStory {C : Ctx} (hR : C.R = false) (hU : C.up = true) {σ : St} (hi : Inv C.cfg C.lim σ) {f s}
    (hf : FactEnt σ false f) (hs : StoryEnt σ s) (Tr : σ.T f.remark = []) (Ts : σ.T f.story = [])
    (Tf : σ.T s.fact = []) {bad} :
    Wr C (fun a σ' => a = ⟨f, true⟩ ∧ StoryFact σ' f ∧ ∀ x, (σ.tag x).still = true → σ'.T x = σ.T x) bad (do
      Go.connect f.story s.fact
      Go.connect s.fact f.story
      pure (⟨f, true⟩ : FactAgg)) σ := by
  have hne : s.fact ≠ f.story := by intro e; have := hs.tf; rw [e, hf.ts] at this; cases this
  have hne2 : f.remark ≠ f.story := by intro e; have := hf.tr; rw [e, hf.ts] at this; cases this
  have hne3 : f.remark ≠ s.fact := by intro e; have := hf.tr; rw [e, hs.tf] at this; cases this
  refine Wr.bind (Wr.connectU hR hU hi (not_edge_of_T Ts) (fun _ => Ts) (by rw [hf.ts]; rfl)
    (by rw [hs.tf]; simp [Tag.scrit]) (.inl (by rw [hf.ts]; rfl)) (by rw [hs.tf]; rfl)
    (by simp only [EdgeOK, tag_conn, hf.ts, hs.tf]) hf.chain.cd.hy (by rw [hf.ts]; simp)) ?_
  intro _ σ1 h1 ⟨c, e1⟩
  subst e1
  have hf1 := hf.mono h1.mono
  have hs1 := hs.mono h1.mono
  have Tf1 : (σ.conn c f.story s.fact).T s.fact = [] := by rw [T_conn, if_neg hne]; exact Tf
  refine Wr.bind (Wr.connectU hR hU h1.inv (not_edge_of_T Tf1) (fun _ => Tf1) (by rw [hs1.tf]; rfl)
    (by rw [hf1.ts]; simp [Tag.scrit]) (.inl (by rw [hs1.tf]; rfl)) (by rw [hf1.ts]; rfl)
    (by simp only [EdgeOK]; rw [tag_conn, hf1.ts, hs1.tf]; trivial) hs.chain.ab.hy (by rw [hs1.tf]; simp)) ?_
  intro _ σ2 h2 ⟨d, e2⟩
  subst e2
  refine Wr.ret h2.inv ⟨rfl, ⟨hf1.mono h2.mono, ?_, ⟨s, hs1.mono h2.mono, ?_, ?_⟩⟩, ?_⟩
  · rw [T_conn, if_neg hne3, T_conn, if_neg hne2]; exact Tr
  · rw [T_conn, if_neg (Ne.symm hne), T_conn, if_pos rfl, Ts]
  · rw [T_conn, if_pos rfl, Tf1]
  · intro x hx
    rw [T_conn, if_neg, T_conn, if_neg]
    · intro e; rw [e, hf.ts] at hx; cases hx
    · intro e; rw [e, hs.tf] at hx; cases hx

theorem Wr.createFirstStoryFact {C : Ctx} (hR : C.R = false) (hU : C.up = true) {σ : St} (hi : Inv C.cfg C.lim σ) {bad} :
    Wr C (fun a σ' => a.hasFactStorage = true ∧ StoryFact σ' a.fact ∧ ∀ x, (σ.tag x).still = true → σ'.T x = σ.T x) bad
      Fact.createFirstStoryFact σ := by
  unfold Fact.createFirstStoryFact
  refine Wr.rbind hR (Rd.provideEntity hi) ?_
  intro _ σ1 h1 hs1 _
  rw [fact_newEnt]
  refine Wr.bind (Wr.newEnt hR h1.inv (by decide) (factTags (b := false)) (.fact _)) ?_
  intro r σ2 h2 hn
  obtain ⟨n, a, b, d⟩ := r
  simp only at hn ⊢
  have hf2 : FactEnt σ2 false ⟨n, a, b, d⟩ := ⟨hn.chain, hn.tn, hn.Tn, hn.ta, hn.tb, hn.tc⟩
  refine Wr.bind (Wr.createStory hR h2.inv) ?_
  intro s σ3 h3 hns
  have hf3 := hf2.mono h3.mono
  refine Wr.cons (Wr.linkStory hR hU h3.inv (f := ⟨n, a, b, d⟩) hf3 hns.ent ?_ ?_ hns.Tf) ?_ (fun _ _ _ h => h)
  · rw [hns.frT _ (by rw [hf2.tr]; simp)]; exact hn.Ta
  · rw [hns.frT _ (by rw [hf2.ts]; simp)]; exact hn.Tc
  · intro a σ4 h4 ⟨e, h, hr⟩
    subst e
    refine ⟨rfl, h, ?_⟩
    intro x hx
    have hx1 : (σ1.tag x).still = true := by rw [hs1.tag]; exact hx
    have hx2 := still_mono h2.mono hx1
    have hx3 := still_mono h3.mono hx2
    rw [hr x hx3, hns.frT x (still_ne hx2), hn.frT x (still_ne hx1), hs1.T]

/-! ### the next fact: on node 0 -/

theorem CleanB.conn0 {cfg : Cfg} {σ : St} {y : Nat} (hx : σ.tag 0 = .zero) (hy : σ.tag y = .ftP)
    (hT : σ.T y = []) (hc : CleanB σ) : CleanB (σ.conn cfg 0 y) where
  full z h1 h2 h3 := by
    have h1' : σ.tag z = .dtP := h1
    rw [S_conn, if_neg (by intro e; rw [e, hy] at h1'; cases h1')] at h2
    rw [T_conn, if_neg (by intro e; rw [e, hx] at h1'; cases h1')] at h3
    exact hc.full z h1' h2 h3
  uniq z w h1 h2 h3 h4 h5 h6 := by
    have h1' : σ.tag z = .dtP := h1
    have h2' : σ.tag w = .dtP := h2
    rw [S_conn, if_neg (by intro e; rw [e, hy] at h1'; cases h1')] at h3 h5
    rw [T_conn, if_neg (by intro e; rw [e, hx] at h1'; cases h1')] at h4 h6
    rw [S_conn, if_neg (by intro e; rw [e, hy] at h2'; cases h2')] at h5
    rw [T_conn, if_neg (by intro e; rw [e, hx] at h2'; cases h2')] at h6
    exact hc.uniq z w h1' h2' h3 h4 h5 h6
  zero t h := by
    rw [T_conn, if_pos rfl] at h
    have e : y = t := by injection h
    subst e
    refine ⟨hy, ?_⟩
    rw [T_conn, if_neg]
    · exact hT
    · intro e; rw [e, hx] at hy; cases hy

theorem Wr.createNextFact {C : Ctx} (hR : C.R = false) (hU : C.up = true) {σ : St} (hi : Inv C.cfg C.lim σ) {r}
    (hr : RemEnt σ r) {bad} (hb : C.cfg.zero = false → ∀ σ', bad false σ') :
    Wr C (fun a σ' => C.cfg.zero = true ∧ a.hasFactStorage = true ∧ FactEnt σ' true a.fact ∧ σ'.T a.fact.story = [0] ∧ σ'.T 0 = a.fact.position :: σ.T 0 ∧
        ∀ x, σ.tag x = .rmF → σ'.T x = σ.T x) bad (Fact.createNextFact r.fact) σ := by
  unfold Fact.createNextFact
  cases hz : C.cfg.zero with
  | false => exact Wr.bind (Wr.factOfRmFDead hR hi hr hz (fun σ' _ => hb hz σ')) fun _ _ _ h => h.elim
  | true =>
    refine Wr.rbind hR (Rd.factOfRmF hi hr hz) ?_
    intro a σ1 h1 hs1 ha; subst ha
    refine Wr.rbind hR (Rd.storyOf0 h1.inv hz) ?_
    intro a σ2 h2 hs2 ha; subst ha
    refine Wr.rbind hR (Rd.provideEntity h2.inv) ?_
    intro _ σ3 h3 hs3 _
    have s3 := (hs1.trans hs2).trans hs3
    rw [fact_newEnt]
    refine Wr.bind (Wr.newEnt hR h3.inv (by decide) (factTags (b := true)) (.fact _)) ?_
    intro q σ4 h4 hn
    obtain ⟨n, a, b, d⟩ := q
    simp only at hn ⊢
    have hf4 : FactEnt σ4 true ⟨n, a, b, d⟩ := ⟨hn.chain, hn.tn, hn.Tn, hn.ta, hn.tb, hn.tc⟩
    have t4 := h4.inv.tag0 hz
    refine Wr.bind (Wr.connectU hR hU h4.inv (not_edge_of_T hn.Tc) (fun _ => hn.Tc) (by rw [hn.tc]; rfl)
      (by rw [t4]; simp [Tag.scrit]) (.inl (by rw [hn.tc]; rfl)) (by rw [t4]; rfl)
      (by simp only [EdgeOK, tag_conn, hn.tc, t4]) hn.chain.cd.hy (by rw [hn.tc]; simp)) ?_
    intro _ σ5 h5 ⟨c5, e5⟩
    have t5 := h5.inv.tag0 hz
    have hf5 := hf4.mono h5.mono
    have hTb5 : σ5.T b = [] := by
      subst e5
      rw [T_conn, if_neg]
      · exact hn.Tb
      · intro e; have := hn.tb; rw [e, hn.tc] at this; cases this
    have hSb5 : σ5.S b = [] := by
      subst e5
      rw [S_conn, if_neg]
      · exact hn.Sb
      · intro e; have := hn.tb; rw [e, t4] at this; cases this
    have hr5 : ∀ x, σ.tag x = .rmF → σ5.tag x = .rmF ∧ σ5.T x = σ.T x := by
      intro x hx
      have hx3 : σ3.tag x = .rmF := by rw [s3.tag]; exact hx
      have hx4 := h4.mono.tagEq hx3 (by simp)
      refine ⟨h5.mono.tagEq hx4 (by simp), ?_⟩
      rw [e5, T_conn, if_neg, hn.frT x (by rw [hx3]; simp), s3.T]
      intro e; rw [e, hn.tc] at hx4; cases hx4
    have new5 : (0, b) ∉ σ5.store.edges := by
      intro h'; have := mem_S.2 h'; rw [hSb5] at this; cases this
    have k5 : ConnOK σ5 0 b := .up h5.inv new5 (by rw [t5]; simp [Tag.tcrit]) (by rw [t5]; rfl)
      (by rw [hf5.tp]; simp [Tag.scrit]) (.inl (by rw [t5]; rfl)) (by rw [hf5.tp]; rfl)
    have m5 := Mono.conn (cfg := C.cfg) k5
    have hE5 : EdgeOK (σ5.conn C.cfg 0 b) 0 b := by
      unfold EdgeOK
      rw [tag_conn, t5, hf5.tp]
      exact ⟨_, hf5.mono m5, rfl, m5.Teq hf5.ts rfl (by rw [e5, T_conn, if_pos rfl, hn.Tc]) (by simp)⟩
    have hx5 : ∀ c, ExtC C σ5 (σ5.conn c 0 b) := fun c =>
      ⟨⟨.conn h5.inv k5 hE5, fun hc _ => hc.conn0 t5 hf5.tp hTb5, fun h => by (rw [hU] at h; cases h),
        fun _ _ => .conn (by rw [t5]; rfl)⟩, fun hw _ => hw.mono (m5.trans (.conn_conn _ c _ _ _)) (fun _ _ hx => .inl hx) fun _ hx => .inl hx⟩
    refine Wr.bind (good := fun _ σ' => ∃ c, σ' = σ5.conn c 0 b)
      (wp_connect hR h5.inv k5 hE5 (fun c => ⟨hx5 c, ⟨c, rfl⟩, rfl⟩) fun _ h1 h2 => Wr.fault h1 h2) ?_
    intro _ σ6 h6 ⟨c6, e6⟩
    subst e6
    have m5 := m5.trans (.conn_conn _ c6 _ _ _)
    have hTd : (σ5.conn c6 0 b).T d = [0] := by
      rw [T_conn, if_neg (by intro e; have := hf5.ts; simp only [e, t5] at this; cases this)]
      rw [e5, T_conn, if_pos rfl, hn.Tc]
    have hT0 : σ5.T 0 = σ.T 0 := by
      have h3' : σ3.tag 0 ≠ .none := by rw [h3.inv.tag0 hz]; simp
      rw [e5, T_conn, if_neg, hn.frT 0 h3', s3.T]
      intro e; have := hn.tc; rw [← e, t4] at this; cases this
    refine Wr.ret h6.inv ⟨trivial, rfl, hf5.mono m5, hTd, ?_, ?_⟩
    · rw [T_conn, if_pos rfl, hT0]
    intro x hx
    obtain ⟨a1, a2⟩ := hr5 x hx
    rw [T_conn, if_neg, a2]
    intro e; rw [e, t5] at a1; cases a1

/-! ### a child story: on node 0 -/

/-- `lastSibling` from node 0: one step to the only fact behind it -/
theorem Wr.lastSibling0 {C : Ctx} (hR : C.R = false) {σ : St} (hi : Inv C.cfg C.lim σ) (hz : C.cfg.zero = true)
    (hcz : CleanZ σ) (hne : σ.T 0 ≠ []) {n : Nat} {bad}
    (hb : 2 ≤ (σ.T 0).length → ∀ σ', Same σ σ' → bad false σ') :
    Wr C (fun s σ' => Same σ σ' ∧ ∃ t, σ.T 0 = [t] ∧ s.position = t) bad
      (Fact.lastSibling (n + 2) ⟨0, 0, 0, 0⟩) σ := by
  unfold Fact.lastSibling
  have t0 := hi.tag0 hz
  have rd0 : ∀ σ1, Inv C.cfg C.lim σ1 → Same σ σ1 → Rd C (fun l => l.Perm (σ.T 0)) (Go.readTargets 0) σ1 := by
    intro σ1 h1 hs1
    refine Rd.targets h1 (by rw [hs1.tag, t0]; simp) ?_
    intro σ2 l _ ro hl
    rw [(ro hR).T, hs1.T] at hl; exact hl
  refine Wr.rbind hR (good := (· = true)) ?_ ?_
  · unfold Story.hasTargetPosition
    refine Rd.bind (rd0 σ hi (.refl σ)) ?_
    intro l σ1 h1 _ hl
    refine Rd.ret h1.inv ?_
    cases l with
    | nil => exact absurd (List.nil_perm.1 hl) hne
    | cons => rfl
  intro a σ1 h1 hs1 ha; subst ha
  simp only [if_true]
  unfold Story.getTargetPosition
  simp only [bind_assoc]
  refine Wr.rbind hR (rd0 σ1 h1.inv hs1) ?_
  intro l σ2 h2 hs2 hl
  have s2 := hs1.trans hs2
  match hT : σ.T 0 with
  | [] => exact absurd hT hne
  | x :: y :: ts =>
    rw [hT] at hl
    have hlen := hl.length_eq
    match l, hlen with
    | _ :: _ :: _, _ =>
      exact Wr.bind (good := fun _ _ => False) (Wr.err h2.inv (hb (by rw [hT]; simp) _ s2)) fun _ _ _ h => h.elim
  | [t] =>
    rw [hT] at hl
    rw [perm_one hl]
    simp only [pure_bind]
    have hed := hi.edge 0 t (mem_T.1 (by rw [hT]; simp))
    obtain ⟨ht, hTt⟩ := hcz t hT
    unfold EdgeOK at hed
    rw [t0, ht] at hed
    obtain ⟨f, hf, hft, _⟩ := hed
    have hf2 := hf.mono s2.mono
    refine Wr.rbind hR (good := fun s : StoryE => s.position = t) ?_ ?_
    · unfold Story.fetchByPosition
      rw [← hft]
      refine Rd.bind (Rd.getRefMid h2.inv hf2.chain.bc hf2.chain.cd) ?_
      intro a σ3 h3 _ ha; subst ha
      refine Rd.bind (Rd.getRefMid h3.inv (hf2.mono h3.mono).chain.ab (hf2.mono h3.mono).chain.bc) ?_
      intro a σ4 h4 _ ha; subst ha
      exact Rd.ret h4.inv rfl
    intro s σ3 h3 hs3 hsp
    have s3 := s2.trans hs3
    unfold Fact.lastSibling
    refine Wr.rbind hR (good := (· = false)) ?_ ?_
    · unfold Story.hasTargetPosition
      rw [hsp]
      refine Rd.bind (good := (· = [])) (Rd.targets h3.inv (by rw [s3.tag, ht]; simp) ?_) ?_
      · intro σ4 l _ ro hl
        rw [(ro hR).T, s3.T, hTt] at hl
        exact perm_nil' hl
      · intro a σ4 h4 _ ha; subst ha; exact Rd.ret h4.inv rfl
    intro a σ4 h4 hs4 ha; subst ha
    exact Wr.ret h4.inv ⟨s3.trans hs4, t, rfl, hsp⟩

/-- connect the last sibling, then node 0, to the new story -/
theorem Wr.linkSibling {C : Ctx} (hR : C.R = false) (hU : C.up = true) {σ : St} (hi : Inv C.cfg C.lim σ)
    (hz : C.cfg.zero = true) {t : Nat} {s : StoryE} (hs : StoryEnt σ s) (hT : σ.T 0 = [t]) (ht : σ.tag t = .ftP)
    (Tt : σ.T t = []) (Sp : (0, s.tree) ∉ σ.store.edges) {bad} :
    Wr C (fun _ σ' => σ'.T 0 = [s.tree, t] ∧ ∀ x, σ.tag x ≠ .ftP → x ≠ 0 → σ'.T x = σ.T x) bad (do
      Go.connect t s.position
      Go.connect 0 s.tree) σ := by
  have t0 := hi.tag0 hz
  have ht0 : t ≠ 0 := by intro e; rw [e, t0] at ht; cases ht
  have k1 : ConnOK σ t s.position := .up hi (not_edge_of_T Tt) (fun _ => Tt) (by rw [ht]; rfl)
    (by rw [hs.tp]; simp [Tag.scrit]) (.inl (by rw [ht]; rfl)) (by rw [hs.tp]; rfl)
  have E1 : EdgeOK (σ.conn C.cfg t s.position) t s.position := by simp only [EdgeOK, tag_conn, ht, hs.tp]
  refine wp_bind (wp_connect hR hi k1 E1 ?_ fun _ a b => ⟨.faulty a b, .inl b⟩)
  intro c1
  have x1 := Ext.conn (c := c1) hi k1 E1
  generalize hσ1 : σ.conn c1 t s.position = σ1 at *
  have t01 := x1.inv.tag0 hz
  have hs1 := hs.mono x1.mono
  have hT1 : ∀ x, σ1.T x = if x = t then s.position :: σ.T x else σ.T x := by
    intro x; rw [← hσ1, T_conn]
  have hS1 : ∀ x, σ1.S x = if x = s.position then t :: σ.S x else σ.S x := by
    intro x; rw [← hσ1, S_conn]
  have hne : (0, s.tree) ∉ σ1.store.edges := by
    rw [← hσ1, edges_conn]
    intro h
    rcases List.mem_cons.1 h with h | h
    · exact ht0 (Prod.mk.inj h).1.symm
    · exact Sp h
  have k2 : ConnOK σ1 0 s.tree := .up x1.inv hne (by rw [t01]; simp [Tag.tcrit]) (by rw [t01]; rfl)
    (by rw [hs1.tt]; simp [Tag.scrit]) (.inl (by rw [t01]; rfl)) (by rw [hs1.tt]; rfl)
  have E2 : EdgeOK (σ1.conn C.cfg 0 s.tree) 0 s.tree := by simp only [EdgeOK, tag_conn, t01, hs1.tt]
  refine wp_connect hR x1.inv k2 E2 ?_ fun _ a b => Wr.fault (x1.trans a) b
  intro c2
  have x2 := x1.trans (Ext.conn (c := c2) x1.inv k2 E2)
  have htag1 : σ1.tag = σ.tag := by rw [← hσ1]; rfl
  have hfw1 : σ1.fwd = σ.fwd := by rw [← hσ1]; rfl
  have hfl1 : σ1.flt = σ.flt := by rw [← hσ1]; rfl
  have hd : ∀ x, σ.tag x = .dtP → (σ1.conn c2 0 s.tree).T x = σ.T x ∧ (σ1.conn c2 0 s.tree).S x = σ.S x := by
    intro x hx
    constructor
    · rw [T_conn, if_neg, hT1, if_neg]
      · intro e; rw [e, ht] at hx; cases hx
      · intro e; rw [e, t0] at hx; cases hx
    · rw [S_conn, if_neg, hS1, if_neg]
      · intro e; rw [e, hs.tp] at hx; cases hx
      · intro e; rw [e, hs.tt] at hx; cases hx
  have hz1 : Froz σ σ1 := by rw [← hσ1]; exact .conn (by rw [ht]; rfl)
  refine ⟨⟨⟨x2, ?_, (fun h => by rw [hU] at h; cases h), fun _ _ =>
    hz1.trans x1.inv x1.mono (Mono.conn k2) (.conn (by rw [t01]; rfl))⟩,
    fun hw _ => hw.mono x2.mono (fun x k hx => .inl (by rw [tag_conn, htag1] at hx; exact hx))
      fun x hx => .inl (by rw [tag_conn, htag1] at hx; exact hx)⟩, ?_, hfl1⟩
  · intro hc _
    refine ⟨?_, ?_, ?_⟩
    · intro x h1 h2 h3
      rw [tag_conn, htag1] at h1
      obtain ⟨a, b⟩ := hd x h1
      rw [b] at h2; rw [a] at h3
      rw [fwd_conn, hfw1]
      exact hc.full x h1 h2 h3
    · intro x y h1 h2 h3 h4 h5 h6
      rw [tag_conn, htag1] at h1 h2
      obtain ⟨a, b⟩ := hd x h1
      obtain ⟨a', b'⟩ := hd y h2
      rw [b] at h3 h5; rw [a] at h4 h6; rw [b'] at h5; rw [a'] at h6
      exact hc.uniq x y h1 h2 h3 h4 h5 h6
    · intro u hu
      rw [T_conn, if_pos rfl, hT1, if_neg (Ne.symm ht0), hT] at hu
      cases hu
  · refine ⟨by rw [T_conn, if_pos rfl, hT1, if_neg (Ne.symm ht0), hT], ?_⟩
    intro x hx hx0
    rw [T_conn, if_neg hx0, hT1, if_neg]
    intro e; rw [e] at hx; exact hx ht

/-- the end of `CreateChildStoryFact`: the first fact of the new story -/
theorem Wr.firstFactOf {C : Ctx} (hR : C.R = false) (hU : C.up = true) {σ : St} (hi : Inv C.cfg C.lim σ) {s}
    (hs : StoryEnt σ s) (Tf : σ.T s.fact = []) {bad} :
    Wr C (fun a σ' => a.hasFactStorage = true ∧ StoryFact σ' a.fact ∧ ∀ x, (σ.tag x).still = true → σ'.T x = σ.T x) bad (do
      Class.provideEntity
      let classIdentifier ← Class.createNode Class.factId
      let firstFact ← Fact.createEntity classIdentifier
      Go.connect firstFact.story s.fact
      Go.connect s.fact firstFact.story
      pure (⟨firstFact, true⟩ : FactAgg)) σ := by
  refine Wr.rbind hR (Rd.provideEntity hi) ?_
  intro _ σ1 h1 hs1 _
  rw [fact_newEnt]
  refine Wr.bind (Wr.newEnt hR h1.inv (by decide) (factTags (b := false)) (.fact _)) ?_
  intro r σ2 h2 hn
  obtain ⟨n, a, b, d⟩ := r
  simp only at hn ⊢
  have hf2 : FactEnt σ2 false ⟨n, a, b, d⟩ := ⟨hn.chain, hn.tn, hn.Tn, hn.ta, hn.tb, hn.tc⟩
  have hss1 := hs.mono hs1.mono
  refine Wr.cons (Wr.linkStory hR hU h2.inv (f := ⟨n, a, b, d⟩) hf2 (hss1.mono h2.mono) hn.Ta hn.Tc ?_) ?_ (fun _ _ _ h => h)
  · rw [hn.frT _ (by rw [hss1.tf]; simp), hs1.T]; exact Tf
  · intro a σ4 h4 ⟨e, h, hr⟩
    subst e
    refine ⟨rfl, h, ?_⟩
    intro x hx
    have hx1 : (σ1.tag x).still = true := by rw [hs1.tag]; exact hx
    have hx2 := still_mono h2.mono hx1
    rw [hr x hx2, hn.frT x (still_ne hx1), hs1.T]

/-- the targets of node 0 after a child story was made -/
def Grown (σ σ' : St) : Prop := (σ.T 0 = [] ∧ σ'.T 0 = []) ∨ ∃ t x, σ.T 0 = [t] ∧ σ'.T 0 = [x, t]

theorem Wr.createChildStoryFact {C : Ctx} (hR : C.R = false) (hU : C.up = true) {σ : St} (hi : Inv C.cfg C.lim σ)
    {r} (hr : RemEnt σ r) {fuel : Nat} (hfu : 2 ≤ fuel) (hcz : C.cfg.zero = true → CleanZ σ) {bad}
    (hb : C.cfg.zero = false ∨ 2 ≤ (σ.T 0).length → ∀ σ', (C.cfg.zero = true → σ'.T 0 = σ.T 0) → bad false σ') :
    Wr C (fun a σ' => C.cfg.zero = true ∧ a.hasFactStorage = true ∧ StoryFact σ' a.fact ∧ Grown σ σ' ∧
        ∀ x, σ.tag x = .rmF → σ'.T x = σ.T x) bad (Fact.createChildStoryFact fuel r.fact) σ := by
  unfold Fact.createChildStoryFact
  cases hz : C.cfg.zero with
  | false => exact Wr.bind (Wr.factOfRmFDead hR hi hr hz (fun σ' _ => hb (.inl hz) σ' (fun h => absurd (hz.symm.trans h) (by simp)))) fun _ _ _ h => h.elim
  | true =>
    have hcz := hcz hz
    refine Wr.rbind hR (Rd.factOfRmF hi hr hz) ?_
    intro a σ1 h1 hs1 ha; subst ha
    refine Wr.rbind hR (Rd.storyOf0 h1.inv hz) ?_
    intro a σ2 h2 hs2 ha; subst ha
    have s2 := hs1.trans hs2
    refine Wr.rbind hR (good := fun b => b = !(σ.T 0).isEmpty) ?_ ?_
    · unfold Story.hasTargetTree
      refine Rd.bind (good := fun l => l.Perm (σ.T 0)) (Rd.targets h2.inv (by rw [h2.inv.tag0 hz]; simp) ?_) ?_
      · intro σ4 l _ ro hl
        rw [(ro hR).T, s2.T] at hl; exact hl
      · intro l σ4 h4 _ hl
        refine Rd.ret h4.inv ?_
        rw [hl.isEmpty_eq]
    intro has σ3 h3 hs3 hhas
    have s3 := s2.trans hs3
    refine Wr.bind (Wr.createStory hR h3.inv) ?_
    intro s σ4 h4 hns
    have t04 := h4.inv.tag0 hz
    have hs4 := hns.ent
    refine Wr.bind (Wr.connectU hR hU h4.inv (x := s.tree) (y := 0) (not_edge_of_T hns.Tt) (fun _ => hns.Tt)
      (by rw [hs4.tt]; rfl) (by rw [t04]; simp [Tag.scrit]) (.inl (by rw [hs4.tt]; rfl)) (by rw [t04]; rfl)
      (by simp only [EdgeOK, tag_conn, hs4.tt, t04]) hs4.chain.cd.hy (by rw [hs4.tt]; simp)) ?_
    intro _ σ5 h5 ⟨c5, e5⟩
    have hs5 := hs4.mono h5.mono
    have t05 := h5.inv.tag0 hz
    have Tf5 : σ5.T s.fact = [] := by
      rw [e5, T_conn, if_neg]
      · exact hns.Tf
      · intro e; have := hs4.tf; rw [e, hs4.tt] at this; cases this
    have S5 : σ5.S s.tree = [] := by
      rw [e5, S_conn, if_neg]
      · exact hns.Str
      · intro e; have := hs4.tt; rw [e, t04] at this; cases this
    have old5 : ∀ x, σ.tag x ≠ .none → σ5.T x = σ.T x ∧ σ5.tag x = σ.tag x := by
      intro x hx
      have hx3 : σ3.tag x ≠ .none := by rw [s3.tag]; exact hx
      have e4 := h4.mono.tag x hx3
      refine ⟨?_, ?_⟩
      · rw [e5, T_conn, if_neg, hns.frT x hx3, s3.T]
        intro e
        rw [e] at hx3; exact hx3 hns.newT
      · rw [e5, tag_conn, e4, s3.tag]
    have hc5 : CleanZ σ5 := by
      intro t ht
      rw [(old5 0 (by rw [hi.tag0 hz]; simp)).1] at ht
      obtain ⟨a, b⟩ := hcz t ht
      obtain ⟨c, d⟩ := old5 t (by rw [a]; simp)
      rw [c, d]; exact ⟨a, b⟩
    have T05 : σ5.T 0 = σ.T 0 := (old5 0 (by rw [hi.tag0 hz]; simp)).1
    subst hhas
    cases hT0 : σ.T 0 with
    | nil =>
      simp only [List.isEmpty_nil, Bool.not_true, Bool.false_eq_true, if_false]
      refine Wr.cons (Wr.firstFactOf hR hU h5.inv hs5 Tf5) ?_ (fun _ _ _ h => h)
      intro a σ6 h6 ⟨a1, a2, a3⟩
      refine ⟨trivial, a1, a2, .inl ⟨hT0, ?_⟩, fun x hx => ?_⟩
      · rw [a3 0 (by rw [t05]; rfl), T05, hT0]
      obtain ⟨c, d⟩ := old5 x (by rw [hx]; simp)
      rw [a3 x (by rw [d, hx]; rfl), c]
    | cons t ts =>
      simp only [List.isEmpty_cons, Bool.not_false, if_true]
      refine Wr.rbind hR (Rd.storyOfTree0 h5.inv hz) ?_
      intro a σ6 h6 hs6 ha; subst ha
      obtain ⟨m, rfl⟩ : ∃ m, fuel = m + 2 := ⟨fuel - 2, by omega⟩
      have hc6 : CleanZ σ6 := by
        intro t ht
        rw [hs6.T] at ht
        obtain ⟨a, b⟩ := hc5 t ht
        rw [hs6.tag, hs6.T]; exact ⟨a, b⟩
      refine Wr.bind (Wr.lastSibling0 hR h6.inv hz hc6 (by rw [hs6.T, T05, hT0]; simp)
        (fun h σ' hs => hb (.inr (by rw [hs6.T, T05] at h; exact h)) σ' (fun _ => by rw [hs.T, hs6.T, T05]))) ?_
      intro sib σ7 h7 ⟨hs7, u, hu, hp⟩
      have s7 := hs6.trans hs7
      rw [hs6.T] at hu
      obtain ⟨hut, huT⟩ := hc5 u hu
      have hss7 := hs5.mono s7.mono
      rw [hp, ← bind_assoc]
      refine Wr.bind (Wr.linkSibling hR hU h7.inv hz (t := u) hss7 (by rw [s7.T]; exact hu)
        (by rw [s7.tag]; exact hut) (by rw [s7.T]; exact huT) ?_) ?_
      · intro h'; have := mem_S.2 h'; rw [s7.S, S5] at this; cases this
      intro _ σ8 h8 ⟨hT8, hfr⟩
      refine Wr.cons (Wr.firstFactOf hR hU h8.inv (hss7.mono h8.mono) ?_) ?_ (fun _ _ _ h => h)
      · rw [hfr _ (by rw [hss7.tf]; simp) hss7.chain.ab.hy, s7.T]; exact Tf5
      intro a σ9 h9 ⟨a1, a2, a3⟩
      refine ⟨trivial, a1, a2, .inr ⟨u, s.tree, ?_, ?_⟩, fun x hx => ?_⟩
      · rw [← T05]; exact hu
      · rw [a3 0 (by rw [h8.inv.tag0 hz]; rfl), hT8]
      obtain ⟨c, d⟩ := old5 x (by rw [hx]; simp)
      have hx7 : σ7.tag x = .rmF := by rw [s7.tag, d]; exact hx
      rw [a3 x (still_mono h8.mono (by rw [hx7]; rfl)), hfr x (by rw [hx7]; simp), s7.T, c]
      intro e; rw [e, hi.tag0 hz] at hx; cases hx

end Semnet
