import Verif.Proof.Write
/-
  `bit.layer.initialize` on a storage without bits.  Between its steps the invariant does not hold, so this
  needs storage calls that do not fail.
-/
set_option linter.unusedSimpArgs false
namespace Semnet
open Class

/-- the two bits made by `bit.layer.initialize` -/
def newBitsOf (c d : Cfg) (σ : St) : BitE × BitE :=
  (⟨false, σ.store.next, σ.store.next + 1 + c.arrow + 1 + d.arrow, true⟩,
   ⟨true, σ.store.next + 1 + c.arrow, σ.store.next + 1 + c.arrow + 1 + d.arrow + 1, true⟩)

/-- the state after it -/
def St.newBits (c d : Cfg) (σ : St) : St :=
  let n := σ.store.next
  let m := n + 1 + c.arrow
  let z := m + 1 + d.arrow
  let σ4 := ((((((σ.mk' (.cls bitId)).conn c n bitId).mk' (.cls bitId)).conn d m bitId).mk'
    (.bitc false)).ref n z |>.mk' (.bitc true)).ref m (z + 1)
  { σ4 with bits := some (newBitsOf c d σ), mem := ⟨true, (newBitsOf c d σ).1, (newBitsOf c d σ).2⟩ }

structure NewBits (c d : Cfg) (σ σ' : St) (n m z : Nat) : Prop where
  hm : m = n + 1 + c.arrow
  hz : z = m + 1 + d.arrow
  next : σ'.store.next = z + 2
  live : ∀ x, σ'.store.live x = true ↔ x = z + 1 ∨ x = z ∨ x = m ∨ x = n ∨ σ.store.live x = true
  tag : ∀ x, σ'.tag x = if x = z + 1 then .bitc true else if x = z then .bitc false else
    if x = m then .cls bitId else if x = n then .cls bitId else σ.tag x
  edges : σ'.store.edges = (m, bitId) :: (n, bitId) :: σ.store.edges
  T : ∀ x, σ'.T x = if x = m then bitId :: σ.T x else if x = n then bitId :: σ.T x else σ.T x
  S : ∀ x, σ'.S x = if x = bitId then m :: n :: σ.S x else σ.S x
  fwd : ∀ x, σ'.fwd x = if x = m then z + 1 else if x = n then z else σ.fwd x
  back : ∀ x, σ'.back x = if x = z + 1 then m else if x = z then n else σ.back x
  bits : σ'.bits = some (⟨false, n, z, true⟩, ⟨true, m, z + 1, true⟩)
  mem : σ'.mem = ⟨true, ⟨false, n, z, true⟩, ⟨true, m, z + 1, true⟩⟩
  flt : σ'.flt = σ.flt

theorem newBits_spec (c d : Cfg) (σ : St) :
    NewBits c d σ (σ.newBits c d) σ.store.next (σ.store.next + 1 + c.arrow)
      (σ.store.next + 1 + c.arrow + 1 + d.arrow) := by
  have hnm : σ.store.next ≠ σ.store.next + 1 + c.arrow := by omega
  constructor
  · rfl
  · rfl
  · rfl
  · intro x
    simp only [St.newBits, St.mk', St.conn, St.ref, Store.live, Store.created, Store.connected, Store.referred,
      List.contains_cons, Bool.or_eq_true, beq_iff_eq]
  · intro x
    rfl
  · rfl
  · intro x
    show (((((σ.mk' (.cls bitId)).conn c σ.store.next bitId).mk' (.cls bitId)).conn d
      (σ.store.next + 1 + c.arrow) bitId).T x) = _
    rw [T_conn, T_mk, T_conn, T_mk]
    by_cases h1 : x = σ.store.next + 1 + c.arrow
    · rw [if_pos h1, if_pos h1, if_neg (by omega)]
    · rw [if_neg h1, if_neg h1]
  · intro x
    show (((((σ.mk' (.cls bitId)).conn c σ.store.next bitId).mk' (.cls bitId)).conn d
      (σ.store.next + 1 + c.arrow) bitId).S x) = _
    rw [S_conn, S_mk, S_conn, S_mk]
    by_cases h1 : x = bitId
    · rw [if_pos h1, if_pos h1, if_pos h1]
    · rw [if_neg h1, if_neg h1, if_neg h1]
  · intro x
    show ((((((((σ.mk' (.cls bitId)).conn c σ.store.next bitId).mk' (.cls bitId)).conn d
      (σ.store.next + 1 + c.arrow) bitId).mk' (.bitc false)).ref _ _).mk' (.bitc true)).ref _ _).fwd x = _
    rw [fwd_ref, fwd_mk, fwd_ref]
    rfl
  · intro x
    show ((((((((σ.mk' (.cls bitId)).conn c σ.store.next bitId).mk' (.cls bitId)).conn d
      (σ.store.next + 1 + c.arrow) bitId).mk' (.bitc false)).ref _ _).mk' (.bitc true)).ref _ _).back x = _
    rw [back_ref, back_mk, back_ref]
    rfl
  · rfl
  · rfl
  · rfl

section
variable {cfg c d : Cfg} {lim : Lim} {σ σ' : St} {n m z : Nat}

theorem Mono.newBits (hi : Inv cfg lim σ) (hb : σ.bits = none) (hn : n = σ.store.next)
    (h : NewBits c d σ σ' n m z) : Mono σ σ' := by
  have hno : ∀ x, σ.store.next ≤ x → σ.tag x = .none := fun x h => hi.tagNext h
  have hm := h.hm
  have hz := h.hz
  have lt : ∀ x, σ.tag x ≠ .none → x < σ.store.next := hi.bound
  have hfw : ∀ x, σ.fwd x ≠ 0 → x < σ.store.next := by
    intro x hx
    apply lt; intro h0; exact hx (hi.ref0 x h0).1
  have hbk : ∀ x, σ.back x ≠ 0 → x < σ.store.next := by
    intro x hx
    apply lt; intro h0; exact hx (hi.ref0 x h0).2
  have h9 := hi.next
  constructor
  · intro x hx
    have := lt x hx
    rw [h.tag, if_neg (by omega), if_neg (by omega), if_neg (by omega), if_neg (by omega)]
  · intro x hx
    have := hfw x hx
    rw [h.fwd, if_neg (by omega), if_neg (by omega)]
  · intro x hx
    have := hbk x hx
    rw [h.back, if_neg (by omega), if_neg (by omega)]
  · intro x hx _
    have := lt x (by intro h0; rw [h0] at hx; cases hx)
    rw [h.T, if_neg (by omega), if_neg (by omega)]
  · intro x hx _
    rw [h.S, if_neg]
    intro e
    rw [e, (hi.root bitId).2 (by decide)] at hx; cases hx
  · intro x hx hS
    rw [h.S, if_neg]
    · exact hS
    · intro e
      rw [e, (hi.root bitId).2 (by decide)] at hx; cases hx
  · intro x hx hT
    have := lt x (by intro h0; rw [h0] at hx; cases hx)
    rw [h.T, if_neg (by omega), if_neg (by omega)]
    exact hT
  · intro x y hxy
    rw [h.edges]; simp [hxy]
  · intro b hb'; rw [hb] at hb'; cases hb'
  · intro p e he
    obtain ⟨bs, hbs⟩ := he.bits
    rw [hb] at hbs; cases hbs

theorem Inv.newBits (hi : Inv cfg lim σ) (hb : σ.bits = none) (hn : n = σ.store.next)
    (h : NewBits c d σ σ' n m z) : Inv cfg lim σ' := by
  have hM := Mono.newBits hi hb hn h
  have hno : ∀ x, σ.store.next ≤ x → σ.tag x = .none := fun x h => hi.tagNext h
  have hm := h.hm
  have hz := h.hz
  have h9 := hi.next
  have T0 : ∀ x, σ.store.next ≤ x → σ.T x = [] := fun x h => hi.Tnone (hno x h)
  have S0 : ∀ x, σ.store.next ≤ x → σ.S x = [] := fun x h => hi.Snone (hno x h)
  have F0 : ∀ x, σ.store.next ≤ x → σ.fwd x = 0 := fun x h => (hi.ref0 x (hno x h)).1
  have B0 : ∀ x, σ.store.next ≤ x → σ.back x = 0 := fun x h => (hi.ref0 x (hno x h)).2
  have hbits := hi.bits
  rw [hb] at hbits
  obtain ⟨hS1, hnb⟩ := hbits
  have hroot : σ.tag bitId = .root := (hi.root bitId).2 (by decide)
  have hroot' : σ'.tag bitId = .root := hM.tagEq hroot (by simp)
  -- tag of new and old nodes
  have tn : σ'.tag n = .cls bitId := by
    rw [h.tag, if_neg (by omega), if_neg (by omega), if_neg (by omega), if_pos rfl]
  have tm : σ'.tag m = .cls bitId := by
    rw [h.tag, if_neg (by omega), if_neg (by omega), if_pos rfl]
  have tz : σ'.tag z = .bitc false := by
    rw [h.tag, if_neg (by omega), if_pos rfl]
  have tz1 : σ'.tag (z + 1) = .bitc true := by
    rw [h.tag, if_pos rfl]
  have told : ∀ x, x ≠ n → x ≠ m → x ≠ z → x ≠ z + 1 → σ'.tag x = σ.tag x := by
    intro x h1 h2 h3 h4
    rw [h.tag, if_neg h4, if_neg h3, if_neg h2, if_neg h1]
  have split : ∀ (P : Tag → Nat → Prop), P (.cls bitId) n → P (.cls bitId) m → P (.bitc false) z →
      P (.bitc true) (z + 1) → (∀ x, x ≠ n → x ≠ m → x ≠ z → x ≠ z + 1 → P (σ.tag x) x) →
      ∀ x, P (σ'.tag x) x := by
    intro P h1 h2 h3 h4 h5 x
    by_cases e1 : x = n
    · rw [e1, tn]; exact h1
    by_cases e2 : x = m
    · rw [e2, tm]; exact h2
    by_cases e3 : x = z
    · rw [e3, tz]; exact h3
    by_cases e4 : x = z + 1
    · rw [e4, tz1]; exact h4
    rw [told x e1 e2 e3 e4]; exact h5 x e1 e2 e3 e4
  have edge_in : ∀ x y, (x, y) ∈ σ'.store.edges → (x = m ∧ y = bitId) ∨ (x = n ∧ y = bitId) ∨
      (x, y) ∈ σ.store.edges := by
    intro x y hxy
    rw [h.edges] at hxy
    rcases List.mem_cons.1 hxy with e | hxy
    · cases e; exact .inl ⟨rfl, rfl⟩
    rcases List.mem_cons.1 hxy with e | hxy
    · cases e; exact .inr (.inl ⟨rfl, rfl⟩)
    exact .inr (.inr hxy)
  constructor
  · exact hi.dup
  · rw [h.next]; omega
  · intro x
    rw [h.live]
    revert x
    apply split (fun t x => (x = z + 1 ∨ x = z ∨ x = m ∨ x = n ∨ σ.store.live x = true) ↔ t ≠ .none)
    · simp
    · simp
    · simp
    · simp
    · intro x h1 h2 h3 h4
      simp [h1, h2, h3, h4, hi.live x]
  · intro x
    rw [h.next]
    revert x
    apply split (fun t x => t ≠ .none → x < z + 2)
    · intro _; omega
    · intro _; omega
    · intro _; omega
    · intro _; omega
    · intro x _ _ _ _ hx
      have := hi.bound x hx; omega
  · apply split (fun t x => t = .zero ↔ (x = 0 ∧ cfg.zero = true))
    · simp; omega
    · simp; omega
    · simp; omega
    · simp
    · intro x _ _ _ _; exact hi.zero x
  · intro hz0
    rw [told 0 (by omega) (by omega) (by omega) (by omega)]; exact hi.node0 hz0
  · apply split (fun t x => t = .root ↔ (1 ≤ x ∧ x ≤ 8))
    · simp; omega
    · simp; omega
    · simp; omega
    · simp; omega
    · intro x _ _ _ _; exact hi.root x
  · rw [h.edges]
    have ed : ∀ x y, σ.store.next ≤ x → (x, y) ∉ σ.store.edges := by
      intro x y hx hxy
      exact (hi.edge x y hxy).tags.1 (hno x hx)
    refine List.nodup_cons.2 ⟨?_, List.nodup_cons.2 ⟨?_, hi.nodup⟩⟩
    · intro hc
      rcases List.mem_cons.1 hc with e | hc
      · cases e; omega
      · exact ed _ _ (by omega) hc
    · exact ed _ _ (by omega)
  · intro x y hxy
    rcases edge_in x y hxy with ⟨rfl, rfl⟩ | ⟨rfl, rfl⟩ | hxy
    · simp only [EdgeOK, tm, hroot']
    · simp only [EdgeOK, tn, hroot']
    · exact (hi.edge x y hxy).mono hM
  · apply split (fun t x => t = .none → σ'.fwd x = 0 ∧ σ'.back x = 0)
    · intro h; cases h
    · intro h; cases h
    · intro h; cases h
    · intro h; cases h
    · intro x h1 h2 h3 h4 hx
      rw [h.fwd, h.back, if_neg h2, if_neg h1, if_neg h4, if_neg h3]; exact hi.ref0 x hx
  · apply split (fun t x => t.noF = true → σ'.fwd x = 0)
    · intro h; cases h
    · intro h; cases h
    · intro _; rw [h.fwd, if_neg (by omega), if_neg (by omega)]; exact F0 _ (by omega)
    · intro _; rw [h.fwd, if_neg (by omega), if_neg (by omega)]; exact F0 _ (by omega)
    · intro x h1 h2 h3 h4 hx
      rw [h.fwd, if_neg h2, if_neg h1]; exact hi.noF x hx
  · apply split (fun t x => t.noB = true → σ'.back x = 0)
    · intro _; rw [h.back, if_neg (by omega), if_neg (by omega)]; exact B0 _ (by omega)
    · intro _; rw [h.back, if_neg (by omega), if_neg (by omega)]; exact B0 _ (by omega)
    · intro h; cases h
    · intro h; cases h
    · intro x h1 h2 h3 h4 hx
      rw [h.back, if_neg h4, if_neg h3]; exact hi.noB x hx
  · intro x hx
    by_cases e1 : x = m
    · rw [h.fwd, if_pos e1, h.back, if_pos rfl]; exact ⟨e1.symm, by omega⟩
    by_cases e2 : x = n
    · rw [h.fwd, if_neg e1, if_pos e2, h.back, if_neg (by omega), if_pos rfl]; exact ⟨e2.symm, by omega⟩
    rw [h.fwd, if_neg e1, if_neg e2] at hx ⊢
    have hr := hi.refB x hx
    have hlt : σ.fwd x < σ.store.next := by
      apply hi.bound; intro h0
      rw [(hi.ref0 _ h0).2] at hr
      exact hr.2 hr.1.symm
    rw [h.back, if_neg (by omega), if_neg (by omega)]
    exact hr
  · intro x hx hf
    have e1 : x ≠ n := by rintro rfl; rw [tn] at hx; cases hx
    have e2 : x ≠ m := by rintro rfl; rw [tm] at hx; cases hx
    have e3 : x ≠ z := by rintro rfl; rw [tz] at hx; cases hx
    have e4 : x ≠ z + 1 := by rintro rfl; rw [tz1] at hx; cases hx
    rw [told x e1 e2 e3 e4] at hx
    rw [h.fwd, if_neg e2, if_neg e1] at hf ⊢
    exact hM.tagEq (hi.refDt x hx hf) (by simp)
  · apply split (fun t x => t.tcrit = true → (σ'.T x).length ≤ 1)
    · intro _; rw [h.T, if_neg (by omega), if_pos rfl, T0 _ (by omega)]; simp
    · intro _; rw [h.T, if_pos rfl, T0 _ (by omega)]; simp
    · intro _; rw [h.T, if_neg (by omega), if_neg (by omega), T0 _ (by omega)]; simp
    · intro _; rw [h.T, if_neg (by omega), if_neg (by omega), T0 _ (by omega)]; simp
    · intro x h1 h2 h3 h4 hx
      rw [h.T, if_neg h2, if_neg h1]; exact hi.tcrit x hx
  · apply split (fun t x => t.noT = true → σ'.T x = [])
    · intro h; cases h
    · intro h; cases h
    · intro h; cases h
    · intro h; cases h
    · intro x h1 h2 h3 h4 hx
      rw [h.T, if_neg h2, if_neg h1]; exact hi.noT x hx
  · apply split (fun t x => t.scrit = true → (σ'.S x).length ≤ 1)
    · intro h; cases h
    · intro h; cases h
    · intro h; cases h
    · intro h; cases h
    · intro x h1 h2 h3 h4 hx
      rw [h.S, if_neg (by rintro rfl; rw [hroot] at hx; cases hx)]; exact hi.scrit x hx
  · apply split (fun t x => t.noS = true → σ'.S x = [])
    · intro h; cases h
    · intro h; cases h
    · intro h; cases h
    · intro h; cases h
    · intro x h1 h2 h3 h4 hx
      rw [h.S, if_neg (by rintro rfl; rw [hroot] at hx; cases hx)]; exact hi.noS x hx
  · apply split (fun t _ => TagOK lim t)
    · trivial
    · trivial
    · trivial
    · trivial
    · intro x _ _ _ _; exact hi.tagOK x
  · intro x y y' q h1 h2 h3 h4
    have old : ∀ x y, (x, y) ∈ σ'.store.edges → σ'.tag y = .chC q → (x, y) ∈ σ.store.edges ∧ σ.tag y = .chC q := by
      intro x y hxy hy
      rcases edge_in x y hxy with ⟨_, rfl⟩ | ⟨_, rfl⟩ | hxy
      · rw [hroot'] at hy; cases hy
      · rw [hroot'] at hy; cases hy
      · refine ⟨hxy, ?_⟩
        rw [← hM.tag y (hi.edge x y hxy).tags.2]; exact hy
    exact hi.sib x y y' q (old x y h1 h3).1 (old x y' h2 h4).1 (old x y h1 h3).2 (old x y' h2 h4).2
  · rw [h.bits]
    refine ⟨rfl, rfl, rfl, rfl, ?_, ?_, ?_, ?_, ?_, ?_, tz, tz1, tn, tm, ?_⟩
    · show n < m; omega
    · rw [h.S, if_pos rfl, hS1]
      exact List.Perm.swap _ _ _
    · show σ'.fwd n = z
      rw [h.fwd, if_neg (by omega), if_pos rfl]
    · show σ'.fwd m = z + 1
      rw [h.fwd, if_pos rfl]
    · show z ≠ 0; omega
    · show z + 1 ≠ 0; omega
    · intro x v hx
      by_cases e1 : x = n
      · rw [e1, tn] at hx; cases hx
      by_cases e2 : x = m
      · rw [e2, tm] at hx; cases hx
      by_cases e3 : x = z
      · rw [e3, tz] at hx; cases hx; exact e3
      by_cases e4 : x = z + 1
      · rw [e4, tz1] at hx; cases hx; exact e4
      rw [told x e1 e2 e3 e4] at hx
      exact absurd hx (hnb x v)
  · intro i h1 h2
    have := hi.roots i h1 h2
    rw [hM.fwd i (by omega), this]
  · have := hi.next
    rw [h.fwd, h.back, if_neg (by omega), if_neg (by omega), if_neg (by omega), if_neg (by omega)]
    exact hi.ends
  · intro _
    rw [h.bits, h.mem]

theorem Keep.newBits (hi : Inv cfg lim σ) (hn : n = σ.store.next) (h : NewBits c d σ σ' n m z) : Keep σ σ' := by
  have hm := h.hm
  constructor
  · intro x hx
    have hlt : x < σ.store.next := hi.bound x (by intro e; rw [e] at hx; cases hx)
    rw [h.T, if_neg (by omega), if_neg (by omega)]
  · intro x hx
    rw [h.S, if_neg]
    intro e
    rw [(hi.root x).2 (by rw [e]; decide)] at hx
    cases hx

theorem Froz.newBits (hn : n = σ.store.next) (h : NewBits c d σ σ' n m z) : Froz σ σ' := by
  subst hn
  have hm := h.hm
  have hz := h.hz
  intro x hx
  rw [h.T, if_neg, if_neg]
  · intro e
    rw [h.tag, e, if_neg (by omega), if_neg (by omega), if_neg (by omega), if_pos rfl] at hx; cases hx
  · intro e
    rw [h.tag, e, if_neg (by omega), if_neg (by omega), if_pos rfl] at hx; cases hx

theorem Wholes.newBits (mo : Mono σ σ') (h0 : n ≠ 0) (T0 : ∀ x, n ≤ x → σ.T x = [])
    (h : NewBits c d σ σ' n m z) (hc : Wholes σ) : Wholes σ' := by
  have hm := h.hm
  have hz := h.hz
  have tn : σ'.tag n = .cls bitId := by
    rw [h.tag, if_neg (by omega), if_neg (by omega), if_neg (by omega), if_pos rfl]
  have tm : σ'.tag m = .cls bitId := by rw [h.tag, if_neg (by omega), if_neg (by omega), if_pos rfl]
  have r0 : Ref σ' n z := by
    refine ⟨?_, ?_, h0, by omega⟩
    · rw [h.fwd, if_neg (by omega), if_pos rfl]
    · rw [h.back, if_neg (by omega), if_pos rfl]
  have r1 : Ref σ' m (z + 1) := by
    refine ⟨?_, ?_, by omega, by omega⟩
    · rw [h.fwd, if_pos rfl]
    · rw [h.back, if_pos rfl]
  refine hc.mono mo (fun x k hx => ?_) fun y hy => ?_
  · have hx' := hx
    rw [h.tag] at hx
    split at hx
    · cases hx
    split at hx
    · cases hx
    split at hx
    · rename_i e
      injection hx with hx
      subst e hx
      refine .inr ⟨?_, .inr (.inr ⟨rfl, z + 1, true, r1, by rw [h.tag, if_pos rfl]⟩)⟩
      rw [h.T, if_pos rfl, T0 _ (by omega)]
    split at hx
    · rename_i e
      injection hx with hx
      subst e hx
      refine .inr ⟨?_, .inr (.inr ⟨rfl, z, false, r0, by rw [h.tag, if_neg (by omega), if_pos rfl]⟩)⟩
      rw [h.T, if_neg (by omega), if_pos rfl, T0 _ (by omega)]
    · exact .inl hx
  · rw [h.tag] at hy
    split at hy
    · rename_i e; rw [e]; exact .inr ⟨_, _, tm, .step .head r1⟩
    split at hy
    · rename_i e; rw [e]; exact .inr ⟨_, _, tn, .step .head r0⟩
    split at hy
    · rename_i e; rw [e]; exact .inr ⟨_, _, tm, .head⟩
    split at hy
    · rename_i e; rw [e]; exact .inr ⟨_, _, tn, .head⟩
    · exact .inl hy

theorem CleanB.newBits (hi : Inv cfg lim σ) (hn : n = σ.store.next)
    (h : NewBits c d σ σ' n m z) (hc : CleanB σ) : CleanB σ' := by
  have hm := h.hm
  have hz := h.hz
  have h9 := hi.next
  have T0 : ∀ x, σ.store.next ≤ x → σ.T x = [] := fun x h => hi.Tnone (hi.tagNext h)
  have told : ∀ x, σ'.tag x = .dtP ∨ σ'.tag x = .ftP → σ'.tag x = σ.tag x ∧ σ'.T x = σ.T x ∧ σ'.fwd x = σ.fwd x ∧
      (σ.tag x = .dtP → σ'.S x = σ.S x) := by
    intro x hx
    by_cases e1 : x = n
    · rw [h.tag, e1, if_neg (by omega), if_neg (by omega), if_neg (by omega), if_pos rfl] at hx; simp at hx
    by_cases e2 : x = m
    · rw [h.tag, e2, if_neg (by omega), if_neg (by omega), if_pos rfl] at hx; simp at hx
    by_cases e3 : x = z
    · rw [h.tag, e3, if_neg (by omega), if_pos rfl] at hx; simp at hx
    by_cases e4 : x = z + 1
    · rw [h.tag, e4, if_pos rfl] at hx; simp at hx
    refine ⟨?_, ?_, ?_, ?_⟩
    · rw [h.tag, if_neg e4, if_neg e3, if_neg e2, if_neg e1]
    · rw [h.T, if_neg e2, if_neg e1]
    · rw [h.fwd, if_neg e2, if_neg e1]
    · intro ht
      rw [h.S, if_neg]
      rintro rfl
      rw [(hi.root bitId).2 (by decide)] at ht; cases ht
  constructor
  · intro x h1 h2 h3
    obtain ⟨a, b, c, d⟩ := told x (.inl h1)
    rw [a] at h1; rw [d h1] at h2; rw [b] at h3; rw [c]
    exact hc.full x h1 h2 h3
  · intro x y h1 h2 h3 h4 h5 h6
    obtain ⟨a, b, _, d⟩ := told x (.inl h1)
    obtain ⟨a', b', _, d'⟩ := told y (.inl h2)
    rw [a] at h1; rw [a'] at h2; rw [d h1] at h3; rw [d h1, d' h2] at h5; rw [b] at h4; rw [b, b'] at h6
    exact hc.uniq x y h1 h2 h3 h4 h5 h6
  · intro t ht
    rw [h.T, if_neg (by omega), if_neg (by omega)] at ht
    have := hc.zero t ht
    have hlt : t < σ.store.next := by apply hi.bound; rw [this.1]; simp
    rw [h.tag, if_neg (by omega), if_neg (by omega), if_neg (by omega), if_neg (by omega),
      h.T, if_neg (by omega), if_neg (by omega)]
    exact this
end

/-! ### the program -/

theorem wp_raw {α : Type} {C : Ctx} (hF : C.F = false) (hR : C.R = false) {Q : Out α → St → Prop} {o : Op}
    {k : Except Err o.Res → Go α} {σ : St} (tag : Nat → Tag) (bits : Option (BitE × BitE))
    (h : ∀ c, wp C Q (k (σ.store.step c o).1) (σ.after c o tag bits)) : wp C Q (.op o k) σ := by
  intro σ1 he c _
  rw [he.eq hR]
  refine ⟨⟨tag, bits, ⟨fun h => ?_, fun h => ?_⟩, h c⟩, fun h => ?_, fun h => ?_⟩
  · simp [hF, hR] at h
  · simp [hR] at h
  · simp [hF] at h
  · simp [hF] at h

theorem wp_create_raw {C : Ctx} (hF : C.F = false) (hR : C.R = false) {σ : St} (t : Tag)
    {Q : Out Nat → St → Prop} (h : Q (.ok σ.store.next) (σ.mk' t)) : wp C Q Go.create σ :=
  wp_raw hF hR (σ.mk' t).tag σ.bits fun _ => h

theorem wp_setRef_raw {C : Ctx} (hF : C.F = false) (hR : C.R = false) {σ : St} {x y : Nat} {bits}
    (hx : σ.store.live x = true) (hy : σ.store.live y = true)
    {Q : Out Unit → St → Prop} (h : Q (.ok ()) { σ.ref x y with bits := bits }) :
    wp C Q (Go.setReference x y) σ := by
  have e : ∀ c, σ.store.step c (.setReference x y) = (.ok (), σ.store.referred x y) := by
    intro c; simp only [Store.step, hx, hy, Bool.and_self, if_true]
  refine wp_raw hF hR σ.tag bits ?_
  intro c
  rw [e]
  have ea : σ.after c (.setReference x y) σ.tag bits = { σ.ref x y with bits := bits } := by
    simp only [St.after, e]; rfl
  rw [ea]; exact h

theorem wp_connect_raw {C : Ctx} (hF : C.F = false) (hR : C.R = false) {σ : St} {x y : Nat}
    (hx : σ.store.live x = true) (hy : σ.store.live y = true) (hn : (x, y) ∉ σ.store.edges)
    {Q : Out Unit → St → Prop} (h : ∀ c, Q (.ok ()) (σ.conn c x y)) :
    wp C Q (Go.connect x y) σ := by
  have hc : σ.store.edges.contains (x, y) = false := by simpa using hn
  have e : ∀ c, σ.store.step c (.connect x y) = (.ok (), σ.store.connected c x y) := by
    intro c; simp only [Store.step, hx, hy, Bool.and_self, if_true, hc]; rfl
  refine wp_raw hF hR σ.tag σ.bits ?_
  intro c
  rw [e]
  have ea : σ.after c (.connect x y) σ.tag σ.bits = σ.conn c x y := by
    simp only [St.after, e]; rfl
  rw [ea]; exact h c

theorem wp_assign_raw {C : Ctx} (hF : C.F = false) (hR : C.R = false) {σ : St} {u : Assign}
    {Q : Out Unit → St → Prop} (h : Q (.ok ()) { σ with mem := σ.mem.set u }) : wp C Q (Go.assign u) σ :=
  ⟨⟨fun h => by simp [hF, hR] at h, fun h => by simp [hR] at h⟩, h⟩

theorem live_mk (σ : St) (t : Tag) (x : Nat) :
    (σ.mk' t).store.live x = true ↔ x = σ.store.next ∨ σ.store.live x = true := by
  simp only [St.mk', Store.live, Store.created, List.contains_cons, Bool.or_eq_true, beq_iff_eq]
theorem live_conn (cfg : Cfg) (σ : St) (x y z : Nat) : (σ.conn cfg x y).store.live z = σ.store.live z := rfl
theorem live_ref (σ : St) (x y z : Nat) : (σ.ref x y).store.live z = σ.store.live z := rfl

theorem Wr.bitInit {C : Ctx} (hR : C.R = false) {σ : St} (hi : Inv C.cfg C.lim σ)
    (hB : C.F = true → σ.bits ≠ none) {bad} :
    Wr C (fun bs σ' => σ'.bits = some bs ∧ Froz σ σ') bad Bit.init σ := by
  cases hb : σ.bits with
  | some bs =>
    refine ((Rd.bitInit hi hb).wr hR).cons ?_ (fun _ _ _ h => h)
    intro a σ' h1 ⟨h2, h3⟩
    refine ⟨?_, .same h2⟩
    rw [h2.bits, h3]; exact hb
  | none =>
    have hF : C.F = false := by
      cases h : C.F with
      | false => rfl
      | true => exact absurd hb (hB h)
    have hbits := hi.bits
    rw [hb] at hbits
    have hm : ¬σ.mem.isInitialized = true := by
      intro hm
      have := hi.mem hm
      rw [hb] at this; cases this
    show Wr C _ _ ((if σ.mem.isInitialized = true then pure () else Bit.fill) >>= fun _ => do
      let z ← Go.readMem
      let o ← Go.readMem
      pure (z.zeroEntity, o.oneEntity)) σ
    rw [if_neg hm]
    unfold Bit.fill
    rw [bind_assoc]
    refine Wr.rbind hR (Rd.provideEntity hi) ?_
    intro _ σ2 h2 s12 _
    rw [bind_assoc]
    refine Wr.rbind hR (good := fun l => l = []) (p := Class.getAllBits) ?_ ?_
    · refine Rd.sources h2.inv ?_ ?_
      · rw [(h2.inv.root bitId).2 (by decide)]; simp
      · intro σ3 l h3 ro3 hl
        rw [(ro3 hR).S, s12.S, hbits.1] at hl
        exact perm_nil' hl
    intro cs σ3 h3 hs3 hcs
    subst hcs
    have s13 := s12.trans hs3
    have hi3 := h3.inv
    have hb3 : σ3.bits = none := by rw [s13.bits, hb]
    have h9 := hi3.next
    have l1 : σ3.store.live bitId = true := hi3.liveT ((hi3.root bitId).2 (by decide)) (by simp)
    have ne : ∀ x y, σ3.store.next ≤ x → (x, y) ∉ σ3.store.edges := by
      intro x y hx hxy
      exact (hi3.edge x y hxy).tags.1 (hi3.tagNext hx)
    show wp C _ _ σ3
    simp only [Class.createNode, bind_assoc, pure_bind]
    refine wp_bind (wp_create_raw hF hR (.cls bitId) ?_)
    refine wp_bind (wp_connect_raw hF hR ?_ ?_ ?_ ?_)
    · rw [live_mk]; exact .inl rfl
    · rw [live_mk]; exact .inr l1
    · exact ne _ _ (Nat.le_refl _)
    intro c
    have lt : σ3.store.next < σ3.store.next + 1 + c.arrow := by omega
    refine wp_bind (wp_create_raw hF hR (.cls bitId) ?_)
    refine wp_bind (wp_connect_raw hF hR ?_ ?_ ?_ ?_)
    · rw [live_mk]; exact .inl rfl
    · rw [live_mk, live_conn, live_mk]; exact .inr (.inr l1)
    · intro hc
      rw [edges_mk, edges_conn, edges_mk] at hc
      rcases List.mem_cons.1 hc with e | hc
      · injection e with e1 _
        exact absurd e1 (Nat.ne_of_gt lt)
      · exact ne _ _ (Nat.le_of_lt lt) hc
    intro d
    have spec := newBits_spec c d σ3
    have eC : ExtC C σ3 (σ3.newBits c d) :=
      ⟨⟨⟨Inv.newBits hi3 hb3 rfl spec, Mono.newBits hi3 hb3 rfl spec, fun h => by rw [spec.flt]; exact h⟩,
        fun hc _ => CleanB.newBits hi3 rfl spec hc, fun _ _ => Keep.newBits hi3 rfl spec, fun _ _ => Froz.newBits rfl spec⟩,
        fun hc _ => hc.newBits (Mono.newBits hi3 hb3 rfl spec) hi3.nextNe0
          (fun x h => hi3.Tnone (hi3.tagNext h)) spec⟩
    show wp C _ _ _
    have i1 : (if σ3.store.next < σ3.store.next + 1 + c.arrow then σ3.store.next
      else σ3.store.next + 1 + c.arrow) = σ3.store.next := if_pos lt
    have i2 : (if σ3.store.next < σ3.store.next + 1 + c.arrow then σ3.store.next + 1 + c.arrow
      else σ3.store.next) = σ3.store.next + 1 + c.arrow := if_pos lt
    have e1 : (St.conn c (σ3.mk' (Tag.cls bitId)) σ3.store.next bitId).store.next =
      σ3.store.next + 1 + c.arrow := rfl
    simp only [e1, i1, i2]
    refine wp_bind (wp_create_raw hF hR (.bitc false) ?_)
    refine wp_bind (wp_setRef_raw hF hR (bits := none) ?_ ?_ ?_)
    · rw [live_mk, live_conn, live_mk, live_conn, live_mk]; exact .inr (.inr (.inl rfl))
    · rw [live_mk]; exact .inl rfl
    refine wp_bind (wp_assign_raw hF hR ?_)
    refine wp_bind (wp_create_raw hF hR (.bitc true) ?_)
    refine wp_bind (wp_setRef_raw hF hR (bits := some (newBitsOf c d σ3)) ?_ ?_ ?_)
    · rw [live_mk]
      refine .inr ((live_mk _ (.bitc false) _).2 (.inr ?_))
      rw [live_conn, live_mk]; exact .inl rfl
    · rw [live_mk]; exact .inl rfl
    refine wp_bind (wp_assign_raw hF hR ?_)
    refine wp_bind (wp_assign_raw hF hR ?_)
    refine ⟨eC, ⟨spec.bits, ?_⟩, spec.flt⟩
    have hz : Froz σ3 (σ3.newBits c d) := .newBits rfl spec
    intro x hx
    exact (hz x hx).trans (by rw [s13.T])

end Semnet
