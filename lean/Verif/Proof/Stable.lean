import Verif.Proof.Inv
/-
  Everything expressed by the entity predicates survives `Mono`.
-/
namespace Semnet

theorem Mono.tagEq {σ σ' : St} (m : Mono σ σ') {x : Nat} {t : Tag} (h : σ.tag x = t) (ht : t ≠ .none) :
    σ'.tag x = t := by
  rw [m.tag x (by rw [h]; exact ht), h]

theorem Mono.Teq {σ σ' : St} (m : Mono σ σ') {x : Nat} {t : Tag} {l : List Nat} (h : σ.tag x = t)
    (ht : t.tcrit = true) (hT : σ.T x = l) (hl : l ≠ []) : σ'.T x = l := by
  rw [m.T x (by rw [h]; exact ht) (by rw [hT]; exact hl), hT]

theorem Mono.Seq {σ σ' : St} (m : Mono σ σ') {x : Nat} {t : Tag} {l : List Nat} (h : σ.tag x = t)
    (ht : t.scrit = true) (hS : σ.S x = l) (hl : l ≠ []) : σ'.S x = l := by
  rw [m.S x (by rw [h]; exact ht) (by rw [hS]; exact hl), hS]

theorem Ref.mono {σ σ' : St} (m : Mono σ σ') {x y : Nat} (h : Ref σ x y) : Ref σ' x y :=
  ⟨by rw [m.fwd x (by rw [h.f]; exact h.hy), h.f], by rw [m.back y (by rw [h.b]; exact h.hx), h.b],
   h.hx, h.hy⟩

theorem Chain.mono {σ σ' : St} (m : Mono σ σ') {a b c d : Nat} (h : Chain σ a b c d) :
    Chain σ' a b c d := ⟨h.ab.mono m, h.bc.mono m, h.cd.mono m⟩

theorem Kind.none {k t1 t2 t3} (h : Kind k t1 t2 t3) : t1 ≠ .none ∧ t2 ≠ .none ∧ t3 ≠ .none := by
  cases h <;> simp

theorem Whole.mono {σ σ' : St} (m : Mono σ σ') {k x : Nat} (hx : σ.tag x = .cls k) (h : Whole σ k x) : Whole σ' k x where
  T := m.Teq hx rfl h.T (by simp)
  nodes := by
    rcases h.nodes with ⟨a, b, c, t1, t2, t3, hk, hc, h1, h2, h3⟩ | ⟨hk, a, b, h1, h2, h3, h4⟩ | ⟨hk, a, v, h1, h2⟩
    · exact .inl ⟨a, b, c, t1, t2, t3, hk, hc.mono m, m.tagEq h1 hk.none.1, m.tagEq h2 hk.none.2.1, m.tagEq h3 hk.none.2.2⟩
    · exact .inr (.inl ⟨hk, a, b, h1.mono m, h2.mono m, m.tagEq h3 (by simp), m.tagEq h4 (by simp)⟩)
    · exact .inr (.inr ⟨hk, a, v, h1.mono m, m.tagEq h2 (by simp)⟩)

theorem Owns.mono {σ σ' : St} (m : Mono σ σ') {x y : Nat} (h : Owns σ x y) : Owns σ' x y := by
  induction h with
  | head => exact .head
  | step _ hr ih => exact .step ih (hr.mono m)

theorem Owned.mono {σ σ' : St} (m : Mono σ σ') {y : Nat} (h : Owned σ y) : Owned σ' y := by
  obtain ⟨x, k, h1, h2⟩ := h
  exact ⟨x, k, m.tagEq h1 (by simp), h2.mono m⟩

theorem Wholes.mono {σ σ' : St} (m : Mono σ σ') (h : Wholes σ)
    (hn : ∀ x k, σ'.tag x = .cls k → σ.tag x = .cls k ∨ Whole σ' k x)
    (ho : ∀ y, σ'.tag y ≠ .none → σ.tag y ≠ .none ∨ Owned σ' y) : Wholes σ' where
  heads x k hx := by
    rcases hn x k hx with h' | h'
    · exact (h.heads x k h').mono m h'
    · exact h'
  owned y hy h9 := by
    rcases ho y hy with h' | h'
    · exact (h.owned y h' h9).mono m
    · exact h'

theorem CharBase.mono {σ σ' : St} (m : Mono σ σ') {e p v bs} (h : CharBase σ e p v bs) :
    CharBase σ' e p v bs where
  chain := h.chain.mono m
  tb := m.tagEq h.tb (by simp)
  tc := m.tagEq h.tc (by simp)
  tw := m.tagEq h.tw (by simp)
  bits := m.bits _ h.bits
  Tb := m.Teq h.tb rfl h.Tb (by simp)

theorem CharEnt.mono {σ σ' : St} (m : Mono σ σ') {p e} (h : CharEnt σ p e) : CharEnt σ' p e := by
  induction h with
  | head hb hS hT ht =>
    exact .head (hb.mono m) (m.S0 _ (by rw [hb.tc]; rfl) hS) (m.Teq ht rfl hT (by simp))
      (m.tagEq ht (by simp))
  | tail _ hb hS ht ih =>
    exact .tail ih (hb.mono m) (m.Seq hb.tc rfl hS (by simp)) (m.tagEq ht (by simp))

theorem WordBase.mono {σ σ' : St} (m : Mono σ σ') {w rs p c} (h : WordBase σ w rs p c) :
    WordBase σ' w rs p c where
  chain := h.chain.mono m
  tc := m.tagEq h.tc (by simp)
  tw := m.tagEq h.tw (by simp)
  tp := m.tagEq h.tp (by simp)
  ch := h.ch.mono m
  Tc := m.Teq h.tc rfl h.Tc (by simp)
  good := h.good

theorem WordEnt.mono {σ σ' : St} (m : Mono σ σ') {p e} (h : WordEnt σ p e) : WordEnt σ' p e := by
  induction h with
  | head hb hS => exact .head (hb.mono m) (m.S0 _ (by rw [hb.tw]; rfl) hS)
  | tail _ hb hS ih => exact .tail ih (hb.mono m) (m.Seq hb.tw rfl hS (by simp))

theorem PhraseBase.mono {σ σ' : St} (m : Mono σ σ') {e ws rs w} (h : PhraseBase σ e ws rs w) :
    PhraseBase σ' e ws rs w where
  chain := h.chain.mono m
  tw := m.tagEq h.tw (by simp)
  tp := m.tagEq h.tp (by simp)
  td := m.tagEq h.td (by simp)
  wd := h.wd.mono m
  Tw := m.Teq h.tw rfl h.Tw (by simp)

theorem PhraseEnt.mono {σ σ' : St} (m : Mono σ σ') {p e} (h : PhraseEnt σ p e) : PhraseEnt σ' p e := by
  induction h with
  | head hb hS => exact .head (hb.mono m) (m.S0 _ (by rw [hb.tp]; rfl) hS)
  | tail _ hb hS ih => exact .tail ih (hb.mono m) (m.Seq hb.tp rfl hS (by simp))

theorem DetailEnt.mono {σ σ' : St} (m : Mono σ σ') {d o p} (h : DetailEnt σ d o p) : DetailEnt σ' d o p where
  ref := h.ref.mono m
  tp := m.tagEq h.tp (by simp)
  tr := m.tagEq h.tr (by simp)
  So := m.Seq h.tp rfl h.So (by simp)
  Tp := m.Teq h.tp rfl h.Tp (by simp)

theorem FactEnt.mono {σ σ' : St} (m : Mono σ σ') {b f} (h : FactEnt σ b f) : FactEnt σ' b f where
  chain := h.chain.mono m
  tc := m.tagEq h.tc (by simp)
  Tc := m.Teq h.tc rfl h.Tc (by simp)
  tr := m.tagEq h.tr (by simp)
  tp := m.tagEq h.tp (by simp)
  ts := m.tagEq h.ts (by simp)

theorem StoryEnt.mono {σ σ' : St} (m : Mono σ σ') {f} (h : StoryEnt σ f) : StoryEnt σ' f where
  chain := h.chain.mono m
  tf := m.tagEq h.tf (by simp)
  tp := m.tagEq h.tp (by simp)
  tt := m.tagEq h.tt (by simp)

theorem RemEnt.mono {σ σ' : St} (m : Mono σ σ') {r} (h : RemEnt σ r) : RemEnt σ' r where
  chain := h.chain.mono m
  tc := m.tagEq h.tc (by simp)
  td := m.tagEq h.td (by simp)
  tp := m.tagEq h.tp (by simp)
  tf := m.tagEq h.tf (by simp)
  Tc := m.Teq h.tc rfl h.Tc (by simp)

theorem Says.mono {σ σ' : St} (m : Mono σ σ') {r o p} (hr : RemEnt σ r) (h : Says σ r o p) :
    Says σ' r o p := by
  obtain ⟨d, po, pp, hS, hd, ho, hp⟩ := h
  exact ⟨d, po, pp, m.Seq hr.td rfl hS (by simp), hd.mono m, ho.mono m, hp.mono m⟩

theorem Belongs.mono {σ σ' : St} (m : Mono σ σ') {r o} (hr : RemEnt σ r) (h : Belongs σ r o) :
    Belongs σ' r o := by
  obtain ⟨f, hT, h⟩ := h
  refine ⟨f, m.Teq hr.tf rfl hT (by simp), ?_⟩
  cases o with
  | none => exact ⟨h.1.mono m, m.Teq h.1.ts rfl h.2 (by simp)⟩
  | some r1 =>
    obtain ⟨hf, hr1, hTf, s, hs, h1, h2⟩ := h
    exact ⟨hf.mono m, hr1.mono m, m.Teq hf.tr rfl hTf (by simp), s, hs.mono m,
      m.Teq hf.ts rfl h1 (by simp), m.Teq hs.tf rfl h2 (by simp)⟩

private theorem wordEnt_tag {σ : St} {rs w} (h : WordEnt σ rs w) : σ.tag w.character = .wdC := by
  cases h with
  | head hb _ => exact hb.tc
  | tail _ hb _ => exact hb.tc

private theorem phraseEnt_tag {σ : St} {ws e} (h : PhraseEnt σ ws e) : σ.tag e.word = .phW := by
  cases h with
  | head hb _ => exact hb.tw
  | tail _ hb _ => exact hb.tw

theorem EdgeOK.mono {σ σ' : St} (m : Mono σ σ') {x y} (h : EdgeOK σ x y) : EdgeOK σ' x y := by
  have hx : σ'.tag x = σ.tag x := by
    apply m.tag; intro h0; simp [EdgeOK, h0] at h
  have hy : σ'.tag y = σ.tag y := by
    apply m.tag; intro h0
    unfold EdgeOK at h; rw [h0] at h; split at h <;> simp_all
  unfold EdgeOK at *
  rw [hx, hy]
  generalize σ.tag x = a at h ⊢
  generalize σ.tag y = b at h ⊢
  clear hx hy
  split at h <;> try exact h
  · obtain ⟨e, he, h⟩ := h; exact ⟨e, he.mono m, h⟩
  · obtain ⟨p, v, e, e', h1, h2, h3, h4⟩ := h; exact ⟨p, v, e, e', h1.mono m, h2, h3.mono m, h4⟩
  · obtain ⟨p, e, w, h1, h2, h3, h4, h5⟩ := h
    exact ⟨p, e, w, h1.mono m, h2, h3.mono m, h4, m.Teq (h4 ▸ wordEnt_tag h3) rfl h5 (by simp)⟩
  · obtain ⟨rs, r, w, w', h1, h2, h3, h4⟩ := h; exact ⟨rs, r, w, w', h1.mono m, h2, h3.mono m, h4⟩
  · obtain ⟨rs, w, e, h1, h2, h3, h4, h5⟩ := h
    exact ⟨rs, w, e, h1.mono m, h2, h3.mono m, h4, m.Teq (h4 ▸ phraseEnt_tag h3) rfl h5 (by simp)⟩
  · obtain ⟨ws, rs, e, e', h1, h2, h3, h4⟩ := h; exact ⟨ws, rs, e, e', h1.mono m, h2, h3.mono m, h4⟩
  · obtain ⟨f, h1, h2, h3⟩ := h; exact ⟨f, h1.mono m, h2, m.Teq h1.ts rfl h3 (by simp)⟩

theorem mem_T {σ : St} {x y : Nat} : y ∈ σ.T x ↔ (x, y) ∈ σ.store.edges := by
  simp [St.T, Store.targets]

theorem mem_S {σ : St} {x y : Nat} : x ∈ σ.S y ↔ (x, y) ∈ σ.store.edges := by
  simp [St.S, Store.sources]

theorem Mono.refl (σ : St) : Mono σ σ := by
  constructor <;> intros <;> simp_all

theorem Mono.Tne {σ σ' : St} (m : Mono σ σ') {x : Nat} (h : σ.T x ≠ []) : σ'.T x ≠ [] := by
  obtain ⟨y, hy⟩ := List.exists_mem_of_ne_nil _ h
  exact List.ne_nil_of_mem (mem_T.2 (m.edges _ _ (mem_T.1 hy)))

theorem Mono.Sne {σ σ' : St} (m : Mono σ σ') {x : Nat} (h : σ.S x ≠ []) : σ'.S x ≠ [] := by
  obtain ⟨y, hy⟩ := List.exists_mem_of_ne_nil _ h
  exact List.ne_nil_of_mem (mem_S.2 (m.edges _ _ (mem_S.1 hy)))

theorem tag_ne_of_tcrit {t : Tag} (h : t.tcrit = true) : t ≠ .none := by
  intro h'; simp [h', Tag.tcrit] at h
theorem tag_ne_of_scrit {t : Tag} (h : t.scrit = true) : t ≠ .none := by
  intro h'; simp [h', Tag.scrit] at h
theorem tag_ne_of_noT {t : Tag} (h : t.noT = true) : t ≠ .none := by
  intro h'; simp [h', Tag.noT] at h
theorem tag_ne_of_noS {t : Tag} (h : t.noS = true) : t ≠ .none := by
  intro h'; simp [h', Tag.noS] at h

theorem Mono.trans {a b c : St} (m : Mono a b) (n : Mono b c) : Mono a c where
  tag x h := by
    have h1 := m.tag x h
    rw [n.tag x (by rw [h1]; exact h), h1]
  fwd x h := by
    have h1 := m.fwd x h
    rw [n.fwd x (by rw [h1]; exact h), h1]
  back x h := by
    have h1 := m.back x h
    rw [n.back x (by rw [h1]; exact h), h1]
  T x h h' := by
    have h1 := m.T x h h'
    rw [n.T x (by rw [m.tag x (tag_ne_of_tcrit h)]; exact h) (by rw [h1]; exact h'), h1]
  S x h h' := by
    have h1 := m.S x h h'
    rw [n.S x (by rw [m.tag x (tag_ne_of_scrit h)]; exact h) (by rw [h1]; exact h'), h1]
  S0 x h h' := n.S0 x (by rw [m.tag x (tag_ne_of_noS h)]; exact h) (m.S0 x h h')
  T0 x h h' := n.T0 x (by rw [m.tag x (tag_ne_of_noT h)]; exact h) (m.T0 x h h')
  edges x y h := n.edges x y (m.edges x y h)
  bits b h := n.bits b (m.bits b h)
  word p e h h' := by
    rw [n.word p e (h.mono m) (m.Tne h'), m.word p e h h']

end Semnet
