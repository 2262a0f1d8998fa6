import Verif.Proof.RaceStep
/-
  Several processes writing at the same time: the creation of an entity with its chain of nodes.
-/
set_option linter.unusedSimpArgs false
namespace Semnet.Race
open Class

theorem ne_fresh {σ' : Rt} {x y : Nat} (hx : σ'.tag x ≠ .none) (hy : σ'.tag y = .none) : x ≠ y := by
  intro e; subst e; exact hx hy

/-- a new entity of class `k` -/
structure NewE (C : RC) (σ σ' : Rt) (k : Nat) (t1 t2 t3 : Tag) (n a b c : Nat) : Prop where
  fn : σ.tag n = .none
  fa : σ.tag a = .none
  fb : σ.tag b = .none
  fc : σ.tag c = .none
  wn : Nd C σ' n (.cls k) a 0 [k] []
  wa : Nd C σ' a t1 b n [] []
  wb : Nd C σ' b t2 c a [] []
  wc : Nd C σ' c t3 0 b [] []
  ab : a ≠ b
  ac : a ≠ c
  bc : b ≠ c
  na : n ≠ a
  nb : n ≠ b
  nc : n ≠ c

theorem NewE.chain {C : RC} {σ σ' : Rt} {k t1 t2 t3 n a b c} (hi : C.I σ') (h : NewE C σ σ' k t1 t2 t3 n a b c) :
    Chain σ' n a b c := by
  have n0 := h.wn.ne0 hi
  have a0 := h.wa.ne0 hi
  have b0 := h.wb.ne0 hi
  have c0 := h.wc.ne0 hi
  exact ⟨⟨h.wn.fwd, h.wa.back, n0, a0⟩, ⟨h.wa.fwd, h.wb.back, a0, b0⟩, ⟨h.wb.fwd, h.wc.back, b0, c0⟩⟩

theorem NewE.keep {C : RC} {σ σ' σ'' : Rt} {k t1 t2 t3 n a b c} (h : NewE C σ σ' k t1 t2 t3 n a b c) (hl : Later C σ' σ'') :
    NewE C σ σ'' k t1 t2 t3 n a b c :=
  { h with wn := h.wn.keep hl, wa := h.wa.keep hl, wb := h.wb.keep hl, wc := h.wc.keep hl }

theorem NewE.early {C : RC} {σ0 σ σ' : Rt} {k t1 t2 t3 n a b c} (h : NewE C σ σ' k t1 t2 t3 n a b c) (m : RMono σ0 σ) :
    NewE C σ0 σ' k t1 t2 t3 n a b c :=
  { h with fn := m.fresh h.fn, fa := m.fresh h.fa, fb := m.fresh h.fb, fc := m.fresh h.fc }

theorem Does.createNode {C : RC} {σ : Rt} (hi : C.I σ) {k : Nat} (hk : 2 ≤ k ∧ k ≤ 8) :
    Does C (fun n σ' => σ.tag n = .none ∧ Nd C σ' n (.cls k) 0 0 [k] []) (createNode k) σ := by
  unfold Class.createNode
  refine From.bind (From.create (.refl hi) (t := .cls k) ⟨by simp, by simp, by simp, by simp, trivial⟩) ?_
  intro n σ1 l1 ⟨_, fn, hn⟩
  have hroot : σ1.tag k = .root := (l1.inv.root k).2 (by omega)
  refine From.bind (From.connectT l1 hn rfl rfl hroot (by simp) rfl rfl (by simp [bitId]; omega) fn ?_ ?_) ?_
  · intro e; subst e; have := hn.tag; rw [hroot] at this; cases this
  · intro σ' m _
    simp only [REdge, m.tagEq hn.tag (by simp), m.tagEq hroot (by simp)]
  · intro _ σ2 l2 ⟨_, hn2⟩
    exact From.ret l2 ⟨fn, hn2⟩

theorem Does.newEnt {C : RC} {σ : Rt} (hi : C.I σ) {k : Nat} (hk : 2 ≤ k ∧ k ≤ 8) {t1 t2 t3 : Tag}
    (ht : EntTags C.lim t1 t2 t3) :
    Does C (fun r σ' => NewE C σ σ' k t1 t2 t3 r.1 r.2.1 r.2.2.1 r.2.2.2) (Semnet.newEnt k) σ := by
  unfold Semnet.newEnt
  have r1 : t1 ≠ .rmF := fun e => by have := ht.f1; rw [e] at this; cases this
  have r2 : t2 ≠ .rmF := fun e => by have := ht.f2; rw [e] at this; cases this
  refine From.bind (Does.createNode hi hk) ?_
  intro n σ1 l1 ⟨fn, hn⟩
  unfold Semnet.mk4
  refine From.bind (good := fun (r : Nat × Nat × Nat) σ' => NewE C σ σ' k t1 t2 t3 n r.1 r.2.1 r.2.2) ?_ ?_
  · refine From.bind (From.create l1 ht.h1) ?_
    intro a σ2 l2 ⟨m2, fa, ha⟩
    have na : n ≠ a := ne_fresh hn.live fa
    replace hn := hn.keep m2
    replace fa := l1.mono.fresh fa
    refine From.bind (From.create l2 ht.h2) ?_
    intro b σ3 l3 ⟨m3, fb, hb⟩
    have nb : n ≠ b := ne_fresh hn.live fb
    have ab : a ≠ b := ne_fresh ha.live fb
    replace hn := hn.keep m3
    replace ha := ha.keep m3
    replace fb := l2.mono.fresh fb
    refine From.bind (From.create l3 ht.h3) ?_
    intro c σ4 l4 ⟨m4, fc, hc⟩
    have nc : n ≠ c := ne_fresh hn.live fc
    have ac : a ≠ c := ne_fresh ha.live fc
    have bc : b ≠ c := ne_fresh hb.live fc
    replace hn := hn.keep m4
    replace ha := ha.keep m4
    replace hb := hb.keep m4
    replace fc := l3.mono.fresh fc
    refine From.bind (From.setRef l4 hn ha na (by simp) (by simp) fn fa) ?_
    intro _ σ5 l5 ⟨m5, hn, ha⟩
    replace hb := hb.keepX m5 (by simp [nb.symm, ab.symm])
    replace hc := hc.keepX m5 (by simp [nc.symm, ac.symm])
    refine From.bind (From.setRef l5 ha hb ab r1 (fun e => absurd e ht.d1) fa fb) ?_
    intro _ σ6 l6 ⟨m6, ha, hb⟩
    replace hn := hn.keepX m6 (by simp [nb, na])
    replace hc := hc.keepX m6 (by simp [bc.symm, ac.symm])
    refine From.bind (From.setRef l6 hb hc bc r2 (fun e => absurd e ht.d2) fb fc) ?_
    intro _ σ7 l7 ⟨m7, hb, hc⟩
    replace hn := hn.keepX m7 (by simp [nb, nc])
    replace ha := ha.keepX m7 (by simp [ab, ac])
    exact From.ret l7 ⟨fn, fa, fb, fc, hn, ha, hb, hc, ab, ac, bc, na, nb, nc⟩
  · intro r σ2 l2 h
    exact From.ret l2 h

end Semnet.Race
