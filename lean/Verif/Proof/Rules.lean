import Verif.Proof.Wp
/-
  Rules for single reading storage calls.
-/
namespace Semnet

theorem Inv.liveT {cfg lim} {σ : St} (hi : Inv cfg lim σ) {x t} (h : σ.tag x = t) (ht : t ≠ .none) :
    σ.store.live x = true := (hi.live x).2 (by rw [h]; exact ht)

theorem perm_one {α : Type} {l : List α} {a : α} (h : l.Perm [a]) : l = [a] := List.perm_singleton.1 h
theorem perm_nil' {α : Type} {l : List α} (h : l.Perm []) : l = [] := List.perm_nil.1 h

theorem perm_two {α : Type} {l : List α} {a b : α} (h : l.Perm [a, b]) : l = [a, b] ∨ l = [b, a] := by
  have hl := h.length_eq
  match l, hl with
  | [x, y], _ =>
    have hx : x ∈ [a, b] := h.subset (by simp)
    rcases List.mem_cons.1 hx with rfl | hx
    · left
      have := (List.perm_cons x).1 h
      rw [perm_one this]
    · rw [List.mem_singleton] at hx
      subst hx
      right
      have := (List.perm_cons x).1 (h.trans (List.Perm.swap _ _ _))
      rw [perm_one this]

/-- targets of `x`, listing order unknown -/
theorem Rd.targets {C : Ctx} {σ : St} (hi : Inv C.cfg C.lim σ) {x : Nat} (hx : σ.tag x ≠ .none)
    {good : List Nat → Prop}
    (h : ∀ σ1 l, Ext C σ σ1 → RO C σ σ1 → l.Perm (σ1.T x) → good l) :
    Rd C good (Go.readTargets x) σ := by
  refine Rd.call hi (fun _ _ => rfl) ?_
  intro σ1 h1 h2 c
  have hl : σ1.store.live x = true := (h1.inv.live x).2 (by rw [h1.mono.tag x hx]; exact hx)
  exact ⟨_, by simp only [Store.step, hl, if_true]; rfl, h σ1 _ h1 h2 (c.ord_perm _ _ _)⟩

theorem Rd.sources {C : Ctx} {σ : St} (hi : Inv C.cfg C.lim σ) {x : Nat} (hx : σ.tag x ≠ .none)
    {good : List Nat → Prop}
    (h : ∀ σ1 l, Ext C σ σ1 → RO C σ σ1 → l.Perm (σ1.S x) → good l) :
    Rd C good (Go.readSources x) σ := by
  refine Rd.call hi (fun _ _ => rfl) ?_
  intro σ1 h1 h2 c
  have hl : σ1.store.live x = true := (h1.inv.live x).2 (by rw [h1.mono.tag x hx]; exact hx)
  exact ⟨_, by simp only [Store.step, hl, if_true]; rfl, h σ1 _ h1 h2 (c.ord_perm _ _ _)⟩

theorem Rd.targets1 {C : Ctx} {σ : St} (hi : Inv C.cfg C.lim σ) {x y : Nat} {t : Tag} (hx : σ.tag x = t)
    (ht : t.tcrit = true) (hT : σ.T x = [y]) : Rd C (· = [y]) (Go.readTargets x) σ := by
  refine Rd.targets hi (by rw [hx]; exact tag_ne_of_tcrit ht) ?_
  intro σ1 l h1 _ hl
  rw [h1.mono.Teq hx ht hT (by simp)] at hl
  exact perm_one hl

theorem Rd.sources1 {C : Ctx} {σ : St} (hi : Inv C.cfg C.lim σ) {x y : Nat} {t : Tag} (hx : σ.tag x = t)
    (ht : t.scrit = true) (hS : σ.S x = [y]) : Rd C (· = [y]) (Go.readSources x) σ := by
  refine Rd.sources hi (by rw [hx]; exact tag_ne_of_scrit ht) ?_
  intro σ1 l h1 _ hl
  rw [h1.mono.Seq hx ht hS (by simp)] at hl
  exact perm_one hl

theorem Rd.sources0 {C : Ctx} {σ : St} (hi : Inv C.cfg C.lim σ) {x : Nat} {t : Tag} (hx : σ.tag x = t)
    (ht : t.noS = true) : Rd C (· = []) (Go.readSources x) σ := by
  refine Rd.sources hi (by rw [hx]; exact tag_ne_of_noS ht) ?_
  intro σ1 l h1 _ hl
  rw [h1.inv.noS x (by rw [h1.mono.tag x (by rw [hx]; exact tag_ne_of_noS ht), hx]; exact ht)] at hl
  exact perm_nil' hl

theorem Rd.targets0 {C : Ctx} {σ : St} (hi : Inv C.cfg C.lim σ) {x : Nat} {t : Tag} (hx : σ.tag x = t)
    (ht : t.noT = true) : Rd C (· = []) (Go.readTargets x) σ := by
  refine Rd.targets hi (by rw [hx]; exact tag_ne_of_noT ht) ?_
  intro σ1 l h1 _ hl
  rw [h1.inv.noT x (by rw [h1.mono.tag x (by rw [hx]; exact tag_ne_of_noT ht), hx]; exact ht)] at hl
  exact perm_nil' hl

theorem Rd.getRef {C : Ctx} {σ : St} (hi : Inv C.cfg C.lim σ) {x : Nat} (hx : σ.tag x ≠ .none)
    {good : Nat × Nat → Prop}
    (h : ∀ σ1, Ext C σ σ1 → RO C σ σ1 → good (σ1.back x, σ1.fwd x)) :
    Rd C good (Go.getReference x) σ := by
  refine Rd.call hi (fun _ _ => rfl) ?_
  intro σ1 h1 h2 c
  have hl : σ1.store.live x = true := (h1.inv.live x).2 (by rw [h1.mono.tag x hx]; exact hx)
  exact ⟨_, by simp only [Store.step, hl, if_true]; rfl, h σ1 h1 h2⟩

theorem Ref.tagx {cfg lim} {σ : St} (hi : Inv cfg lim σ) {x y} (h : Ref σ x y) : σ.tag x ≠ .none := by
  intro h0
  exact h.hy (h.f ▸ (hi.ref0 x h0).1)
theorem Ref.tagy {cfg lim} {σ : St} (hi : Inv cfg lim σ) {x y} (h : Ref σ x y) : σ.tag y ≠ .none := by
  intro h0
  exact h.hx (h.b ▸ (hi.ref0 y h0).2)

/-- inner node of a chain -/
theorem Rd.getRefMid {C : Ctx} {σ : St} (hi : Inv C.cfg C.lim σ) {w x y : Nat} (h1 : Ref σ w x)
    (h2 : Ref σ x y) : Rd C (· = (w, y)) (Go.getReference x) σ :=
  Rd.getRef hi (h2.tagx hi) fun _ he _ => by rw [(h1.mono he.mono).b, (h2.mono he.mono).f]

/-- first node of a chain -/
theorem Rd.getRefF {C : Ctx} {σ : St} (hi : Inv C.cfg C.lim σ) {x y : Nat}
    (h2 : Ref σ x y) : Rd C (·.2 = y) (Go.getReference x) σ :=
  Rd.getRef hi (h2.tagx hi) fun _ he _ => (h2.mono he.mono).f

/-- last node of a chain -/
theorem Rd.getRefB {C : Ctx} {σ : St} (hi : Inv C.cfg C.lim σ) {x y : Nat}
    (h2 : Ref σ x y) : Rd C (·.1 = x) (Go.getReference y) σ :=
  Rd.getRef hi (h2.tagy hi) fun _ he _ => (h2.mono he.mono).b

theorem Rd.provideEntity {C : Ctx} {σ : St} (hi : Inv C.cfg C.lim σ) :
    Rd C (fun _ => True) Class.provideEntity σ := by
  unfold Class.provideEntity
  refine Rd.bind (good := (· = true)) ?_ ?_
  · refine Rd.call hi (fun _ _ => rfl) ?_
    intro σ1 h1 _ _
    refine ⟨_, rfl, ?_⟩
    exact h1.inv.liveT ((h1.inv.root 1).2 (by omega)) (by simp)
  · intro a σ' h1 _ ha
    subst ha
    exact Rd.ret h1.inv trivial

end Semnet
