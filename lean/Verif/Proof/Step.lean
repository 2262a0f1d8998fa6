import Verif.Proof.Rules
/-
  The three writing storage calls keep the invariant and are monotone.
-/
set_option linter.unusedSimpArgs false
namespace Semnet
open Class

/-- ghost-extended `Create` -/
def St.mk' (σ : St) (t : Tag) : St :=
  { σ with store := σ.store.created, tag := fun x => if x = σ.store.next then t else σ.tag x }
/-- ghost-extended `SetReference` -/
def St.ref (σ : St) (x y : Nat) : St := { σ with store := σ.store.referred x y }
/-- ghost-extended `Connect`, adding the edge -/
def St.conn (cfg : Cfg) (σ : St) (x y : Nat) : St := { σ with store := σ.store.connected cfg x y }

/-! ### the views -/

@[simp] theorem T_mk (σ : St) (t : Tag) : (σ.mk' t).T = σ.T := rfl
@[simp] theorem S_mk (σ : St) (t : Tag) : (σ.mk' t).S = σ.S := rfl
@[simp] theorem fwd_mk (σ : St) (t : Tag) : (σ.mk' t).fwd = σ.fwd := rfl
@[simp] theorem back_mk (σ : St) (t : Tag) : (σ.mk' t).back = σ.back := rfl
theorem tag_mk (σ : St) (t : Tag) (x : Nat) :
    (σ.mk' t).tag x = if x = σ.store.next then t else σ.tag x := rfl
@[simp] theorem tag_mk_self (σ : St) (t : Tag) : (σ.mk' t).tag σ.store.next = t := by simp [tag_mk]
@[simp] theorem next_mk (σ : St) (t : Tag) : (σ.mk' t).store.next = σ.store.next + 1 := rfl
@[simp] theorem edges_mk (σ : St) (t : Tag) : (σ.mk' t).store.edges = σ.store.edges := rfl
@[simp] theorem bits_mk (σ : St) (t : Tag) : (σ.mk' t).bits = σ.bits := rfl
@[simp] theorem mem_mk (σ : St) (t : Tag) : (σ.mk' t).mem = σ.mem := rfl
@[simp] theorem flt_mk (σ : St) (t : Tag) : (σ.mk' t).flt = σ.flt := rfl

@[simp] theorem T_ref (σ : St) (x y : Nat) : (σ.ref x y).T = σ.T := rfl
@[simp] theorem S_ref (σ : St) (x y : Nat) : (σ.ref x y).S = σ.S := rfl
@[simp] theorem tag_ref (σ : St) (x y : Nat) : (σ.ref x y).tag = σ.tag := rfl
@[simp] theorem next_ref (σ : St) (x y : Nat) : (σ.ref x y).store.next = σ.store.next := rfl
@[simp] theorem edges_ref (σ : St) (x y : Nat) : (σ.ref x y).store.edges = σ.store.edges := rfl
@[simp] theorem bits_ref (σ : St) (x y : Nat) : (σ.ref x y).bits = σ.bits := rfl
@[simp] theorem mem_ref (σ : St) (x y : Nat) : (σ.ref x y).mem = σ.mem := rfl
@[simp] theorem flt_ref (σ : St) (x y : Nat) : (σ.ref x y).flt = σ.flt := rfl
theorem fwd_ref (σ : St) (x y z : Nat) : (σ.ref x y).fwd z = if z = x then y else σ.fwd z := by
  simp only [St.fwd, St.ref, Store.fwd, Store.referred, List.find?_cons]
  by_cases h : z = x
  · subst h; simp
  · have h' : (x == z) = false := by simp [Ne.symm h]
    simp [h, h']
theorem back_ref (σ : St) (x y z : Nat) : (σ.ref x y).back z = if z = y then x else σ.back z := by
  simp only [St.back, St.ref, Store.back, Store.referred, List.find?_cons]
  by_cases h : z = y
  · subst h; simp
  · have h' : (y == z) = false := by simp [Ne.symm h]
    simp [h, h']

theorem T_conn (cfg : Cfg) (σ : St) (x y z : Nat) :
    (σ.conn cfg x y).T z = if z = x then y :: σ.T z else σ.T z := by
  simp only [St.T, St.conn, Store.targets, Store.connected, List.filter_cons]
  by_cases h : z = x
  · subst h; simp
  · simp [h, Ne.symm h]
theorem S_conn (cfg : Cfg) (σ : St) (x y z : Nat) :
    (σ.conn cfg x y).S z = if z = y then x :: σ.S z else σ.S z := by
  simp only [St.S, St.conn, Store.sources, Store.connected, List.filter_cons]
  by_cases h : z = y
  · subst h; simp
  · simp [h, Ne.symm h]
@[simp] theorem tag_conn (cfg : Cfg) (σ : St) (x y : Nat) : (σ.conn cfg x y).tag = σ.tag := rfl
@[simp] theorem fwd_conn (cfg : Cfg) (σ : St) (x y : Nat) : (σ.conn cfg x y).fwd = σ.fwd := rfl
@[simp] theorem back_conn (cfg : Cfg) (σ : St) (x y : Nat) : (σ.conn cfg x y).back = σ.back := rfl
@[simp] theorem edges_conn (cfg : Cfg) (σ : St) (x y : Nat) :
    (σ.conn cfg x y).store.edges = (x, y) :: σ.store.edges := rfl
@[simp] theorem bits_conn (cfg : Cfg) (σ : St) (x y : Nat) : (σ.conn cfg x y).bits = σ.bits := rfl
@[simp] theorem mem_conn (cfg : Cfg) (σ : St) (x y : Nat) : (σ.conn cfg x y).mem = σ.mem := rfl
@[simp] theorem flt_conn (cfg : Cfg) (σ : St) (x y : Nat) : (σ.conn cfg x y).flt = σ.flt := rfl

/-! ### a node that is not there yet -/

theorem Inv.tagNext {cfg lim} {σ : St} (hi : Inv cfg lim σ) {x : Nat} (h : σ.store.next ≤ x) :
    σ.tag x = .none := by
  apply Classical.byContradiction
  intro hx
  exact Nat.lt_irrefl _ (Nat.lt_of_lt_of_le (hi.bound x hx) h)

theorem EdgeOK.tags {σ : St} {x y : Nat} (h : EdgeOK σ x y) : σ.tag x ≠ .none ∧ σ.tag y ≠ .none := by
  constructor
  · intro h0; simp [EdgeOK, h0] at h
  · intro h0; unfold EdgeOK at h; rw [h0] at h; split at h <;> simp_all

theorem Inv.Tnone {cfg lim} {σ : St} (hi : Inv cfg lim σ) {x : Nat} (h : σ.tag x = .none) : σ.T x = [] := by
  apply List.eq_nil_iff_forall_not_mem.2
  intro y hy
  exact (hi.edge x y (mem_T.1 hy)).tags.1 h

theorem Inv.Snone {cfg lim} {σ : St} (hi : Inv cfg lim σ) {x : Nat} (h : σ.tag x = .none) : σ.S x = [] := by
  apply List.eq_nil_iff_forall_not_mem.2
  intro y hy
  exact (hi.edge y x (mem_S.1 hy)).tags.2 h

/-! ### Create -/

structure CreateOK (lim : Lim) (t : Tag) : Prop where
  h1 : t ≠ .none
  h2 : t ≠ .zero
  h3 : t ≠ .root
  h4 : ∀ v, t ≠ .bitc v
  ok : TagOK lim t

theorem Mono.add {cfg lim} {σ : St} (hi : Inv cfg lim σ) (t : Tag) : Mono σ (σ.mk' t) := by
  have hn : σ.tag σ.store.next = .none := hi.tagNext (Nat.le_refl _)
  constructor <;> intros <;> simp_all [tag_mk]
  · intro h; simp_all

theorem Inv.add {cfg lim} {σ : St} (hi : Inv cfg lim σ) {t : Tag} (ht : CreateOK lim t) :
    Inv cfg lim (σ.mk' t) := by
  have hn : σ.tag σ.store.next = .none := hi.tagNext (Nat.le_refl _)
  have h9 := hi.next
  have hm := Mono.add hi t
  have hT := hi.Tnone hn
  have hS := hi.Snone hn
  have hr := hi.ref0 _ hn
  have hcases : ∀ (P : Tag → Nat → Prop), (∀ x, P (σ.tag x) x) → P t σ.store.next →
      ∀ x, P ((σ.mk' t).tag x) x := by
    intro P h1 h2 x
    rw [tag_mk]
    by_cases hx : x = σ.store.next
    · rw [if_pos hx, hx]; exact h2
    · rw [if_neg hx]; exact h1 x
  constructor
  · exact hi.dup
  · simp; omega
  · intro x
    rw [tag_mk]
    simp only [St.mk', Store.live, Store.created, List.contains_cons, Bool.or_eq_true, beq_iff_eq]
    by_cases hx : x = σ.store.next
    · simp [hx, ht.h1]
    · simp [hx]
      have := hi.live x
      simp [Store.live] at this
      exact this
  · intro x hx
    rw [tag_mk] at hx
    simp
    by_cases h : x = σ.store.next
    · omega
    · rw [if_neg h] at hx
      have := hi.bound x hx
      omega
  · exact hcases (fun t x => t = .zero ↔ (x = 0 ∧ cfg.zero = true)) hi.zero ⟨fun h => absurd h ht.h2, fun h => by omega⟩
  · intro h
    rw [tag_mk, if_neg (by omega)]
    exact hi.node0 h
  · exact hcases (fun t x => t = .root ↔ (1 ≤ x ∧ x ≤ 8)) hi.root ⟨fun h => absurd h ht.h3, fun h => by omega⟩
  · exact hi.nodup
  · intro x y h
    exact (hi.edge x y h).mono hm
  · exact hcases (fun t x => t = .none → σ.fwd x = 0 ∧ σ.back x = 0) hi.ref0 (fun h => absurd h ht.h1)
  · exact hcases (fun t x => t.noF = true → σ.fwd x = 0) hi.noF (fun _ => hr.1)
  · exact hcases (fun t x => t.noB = true → σ.back x = 0) hi.noB (fun _ => hr.2)
  · exact hi.refB
  · intro x hx hf
    simp only [fwd_mk] at hf ⊢
    by_cases h : x = σ.store.next
    · rw [h] at hf; exact absurd hr.1 hf
    · rw [tag_mk, if_neg h] at hx
      have := hi.refDt x hx hf
      exact hm.tagEq this (by simp)
  · exact hcases (fun t x => t.tcrit = true → (σ.T x).length ≤ 1) hi.tcrit (fun _ => by simp [hT])
  · exact hcases (fun t x => t.noT = true → σ.T x = []) hi.noT (fun _ => by simp [hT])
  · exact hcases (fun t x => t.scrit = true → (σ.S x).length ≤ 1) hi.scrit (fun _ => by simp [hS])
  · exact hcases (fun t x => t.noS = true → σ.S x = []) hi.noS (fun _ => by simp [hS])
  · exact hcases (fun t _ => TagOK lim t) hi.tagOK ht.ok
  · intro x y y' q h1 h2 h3 h4
    have e1 := (hi.edge x y h1).tags.2
    have e2 := (hi.edge x y' h2).tags.2
    rw [hm.tag y e1] at h3
    rw [hm.tag y' e2] at h4
    exact hi.sib x y y' q h1 h2 h3 h4
  · have hb := hi.bits
    simp only [bits_mk]
    cases h : σ.bits with
    | none =>
      rw [h] at hb
      refine ⟨hb.1, ?_⟩
      exact hcases (fun t _ => ∀ v, t ≠ .bitc v) hb.2 ht.h4
    | some bs =>
      rw [h] at hb
      refine ⟨hb.v0, hb.v1, hb.s0, hb.s1, hb.lt, hb.S1, hb.f0, hb.f1, hb.c0, hb.c1, hm.tagEq hb.t0 (by simp),
        hm.tagEq hb.t1 (by simp), hm.tagEq hb.tc0 (by simp), hm.tagEq hb.tc1 (by simp), ?_⟩
      exact hcases (fun t x => ∀ v, t = .bitc v → x = bitNode bs v) hb.only (fun v h => absurd h (ht.h4 v))
  · exact hi.roots
  · exact hi.ends
  · exact hi.mem

theorem Ext.add {C : Ctx} {σ : St} (hi : Inv C.cfg C.lim σ) {t : Tag} (ht : CreateOK C.lim t) :
    Ext C σ (σ.mk' t) := ⟨hi.add ht, .add hi t, id⟩

/-! ### SetReference -/

structure RefOK (σ : St) (x y : Nat) : Prop where
  x0 : x ≠ 0
  y0 : y ≠ 0
  tx : σ.tag x ≠ .none
  ty : σ.tag y ≠ .none
  fx : σ.fwd x = 0
  by' : σ.back y = 0
  nf : (σ.tag x).noF = false
  nb : (σ.tag y).noB = false
  dt : σ.tag x = .dtP → σ.tag y = .dtR
  x8 : x ≠ 8
  y1 : y ≠ 1

theorem Mono.ref {σ : St} {x y : Nat} (h : RefOK σ x y) : Mono σ (σ.ref x y) := by
  constructor <;> intros <;> simp_all [fwd_ref, back_ref]
  · intro hx; subst hx; rename_i h'; exact absurd h.fx h'
  · intro hx; subst hx; rename_i h'; exact absurd h.by' h'

theorem Inv.ref {cfg lim} {σ : St} (hi : Inv cfg lim σ) {x y : Nat} (h : RefOK σ x y) :
    Inv cfg lim (σ.ref x y) where
  dup := hi.dup
  next := hi.next
  live := hi.live
  bound := hi.bound
  zero := hi.zero
  node0 := hi.node0
  root := hi.root
  nodup := hi.nodup
  edge a b hab := (hi.edge a b hab).mono (.ref h)
  ref0 z hz := by
    have hz' : σ.tag z = .none := hz
    rw [fwd_ref, back_ref, if_neg, if_neg]
    · exact hi.ref0 z hz'
    · intro e; subst e; exact h.ty hz'
    · intro e; subst e; exact h.tx hz'
  noF z hz := by
    have hz' : (σ.tag z).noF = true := hz
    rw [fwd_ref, if_neg]
    · exact hi.noF z hz'
    · intro e; subst e; rw [h.nf] at hz'; cases hz'
  noB z hz := by
    have hz' : (σ.tag z).noB = true := hz
    rw [back_ref, if_neg]
    · exact hi.noB z hz'
    · intro e; subst e; rw [h.nb] at hz'; cases hz'
  refB z hz := by
    rw [fwd_ref] at hz ⊢
    by_cases e : z = x
    · subst e; rw [if_pos rfl, back_ref, if_pos rfl]; exact ⟨rfl, h.x0⟩
    · rw [if_neg e] at hz ⊢
      have hb := hi.refB z hz
      rw [back_ref, if_neg]
      · exact hb
      · intro e'
        rw [e', h.by'] at hb
        exact hb.2 hb.1.symm
  refDt z hz hf := by
    have hz' : σ.tag z = .dtP := hz
    show σ.tag _ = .dtR
    rw [fwd_ref] at hf ⊢
    by_cases e : z = x
    · subst e; rw [if_pos rfl]; exact h.dt hz'
    · rw [if_neg e] at hf ⊢
      exact hi.refDt z hz' hf
  tcrit := hi.tcrit
  noT := hi.noT
  scrit := hi.scrit
  noS := hi.noS
  tagOK := hi.tagOK
  sib := hi.sib
  bits := by
    have hb := hi.bits
    simp only [bits_ref]
    have hm := Mono.ref h
    cases h' : σ.bits with
    | none => rw [h'] at hb; exact hb
    | some bs =>
      rw [h'] at hb
      refine ⟨hb.v0, hb.v1, hb.s0, hb.s1, hb.lt, hb.S1, ?_, ?_, hb.c0, hb.c1, hb.t0, hb.t1, hb.tc0, hb.tc1, hb.only⟩
      · rw [hm.fwd _ (by rw [hb.f0]; exact hb.c0)]; exact hb.f0
      · rw [hm.fwd _ (by rw [hb.f1]; exact hb.c1)]; exact hb.f1
  roots i h1 h2 := by
    have := hi.roots i h1 h2
    rw [(Mono.ref h).fwd i (by omega), this]
  ends := by
    rw [fwd_ref, back_ref, if_neg (Ne.symm h.x8), if_neg (Ne.symm h.y1)]
    exact hi.ends
  mem := hi.mem

theorem Ext.ref {C : Ctx} {σ : St} (hi : Inv C.cfg C.lim σ) {x y : Nat} (h : RefOK σ x y) :
    Ext C σ (σ.ref x y) := ⟨hi.ref h, .ref h, id⟩

/-! ### Connect -/

structure ConnOK (σ : St) (x y : Nat) : Prop where
  new : (x, y) ∉ σ.store.edges
  tc : (σ.tag x).tcrit = true → σ.T x = []
  nt : (σ.tag x).noT = false
  sc : (σ.tag y).scrit = true → σ.S y = []
  ns : (σ.tag y).noS = false
  sib : ∀ y' q, (x, y') ∈ σ.store.edges → σ.tag y = .chC q → σ.tag y' = .chC q → False
  wd : σ.tag x = .chW → ∀ p e, CharEnt σ p e → e.word = x → σ.T e.character = []
  bit : y ≠ bitId

theorem Mono.conn {cfg : Cfg} {σ : St} {x y : Nat} (h : ConnOK σ x y) : Mono σ (σ.conn cfg x y) where
  tag _ _ := rfl
  fwd _ _ := rfl
  back _ _ := rfl
  T z h1 h2 := by
    rw [T_conn, if_neg]
    intro e; subst e; exact h2 (h.tc h1)
  S z h1 h2 := by
    rw [S_conn, if_neg]
    intro e; subst e; exact h2 (h.sc h1)
  S0 z h1 h2 := by
    rw [S_conn, if_neg]
    · exact h2
    · intro e; subst e; rw [h.ns] at h1; cases h1
  T0 z h1 h2 := by
    rw [T_conn, if_neg]
    · exact h2
    · intro e; subst e; rw [h.nt] at h1; cases h1
  edges a b hab := by simp [hab]
  bits _ hb := hb
  word p e he hT := by
    rw [T_conn, if_neg]
    intro e'
    exact hT (h.wd (e' ▸ he.casesOn (fun hb _ _ _ => hb.tw) (fun _ hb _ _ => hb.tw)) p e he e')

theorem Inv.conn {cfg lim} {c : Cfg} {σ : St} (hi : Inv cfg lim σ) {x y : Nat} (h : ConnOK σ x y)
    (he : EdgeOK (σ.conn c x y) x y) : Inv cfg lim (σ.conn c x y) := by
  have hm := Mono.conn (cfg := c) h
  constructor
  · exact hi.dup
  · exact Nat.le_trans hi.next (Nat.le_add_right _ _)
  · exact hi.live
  · intro z hz; exact Nat.lt_of_lt_of_le (hi.bound z hz) (Nat.le_add_right _ _)
  · exact hi.zero
  · exact hi.node0
  · exact hi.root
  · simp [h.new, hi.nodup]
  · intro a b hab
    rw [edges_conn] at hab
    rcases List.mem_cons.1 hab with hab | hab
    · cases hab; exact he
    · exact (hi.edge a b hab).mono hm
  · exact hi.ref0
  · exact hi.noF
  · exact hi.noB
  · exact hi.refB
  · exact hi.refDt
  · intro z hz
    rw [T_conn]
    by_cases e : z = x
    · rw [if_pos e]; subst e; rw [h.tc hz]; simp
    · rw [if_neg e]; exact hi.tcrit z hz
  · intro z hz
    exact hm.T0 z hz (hi.noT z hz)
  · intro z hz
    rw [S_conn]
    by_cases e : z = y
    · rw [if_pos e]; subst e; rw [h.sc hz]; simp
    · rw [if_neg e]; exact hi.scrit z hz
  · intro z hz
    exact hm.S0 z hz (hi.noS z hz)
  · exact hi.tagOK
  · intro a b b' q h1 h2 h3 h4
    rw [edges_conn] at h1 h2
    rw [tag_conn] at h3 h4
    rcases List.mem_cons.1 h1 with h1 | h1 <;> rcases List.mem_cons.1 h2 with h2 | h2
    · cases h1; cases h2; rfl
    · cases h1; exact (h.sib _ _ h2 h3 h4).elim
    · cases h2; exact (h.sib _ _ h1 h4 h3).elim
    · exact hi.sib a b b' q h1 h2 h3 h4
  · have hb := hi.bits
    simp only [bits_conn]
    cases h' : σ.bits with
    | none =>
      rw [h'] at hb
      refine ⟨?_, hb.2⟩
      rw [S_conn, if_neg (Ne.symm h.bit)]; exact hb.1
    | some bs =>
      rw [h'] at hb
      refine ⟨hb.v0, hb.v1, hb.s0, hb.s1, hb.lt, ?_, hb.f0, hb.f1, hb.c0, hb.c1, hb.t0, hb.t1, hb.tc0, hb.tc1, hb.only⟩
      rw [S_conn, if_neg (Ne.symm h.bit)]; exact hb.S1
  · exact hi.roots
  · exact hi.ends
  · exact hi.mem


/-- what `Connect` yields does not depend on the identifiers it consumes -/
theorem Mono.conn_conn (c c' : Cfg) (σ : St) (x y : Nat) : Mono (σ.conn c x y) (σ.conn c' x y) := by
  constructor <;> intros <;> first | rfl | assumption

theorem EdgeOK.any {c : Cfg} (c' : Cfg) {σ : St} {x y : Nat} (h : EdgeOK (σ.conn c x y) x y) :
    EdgeOK (σ.conn c' x y) x y := h.mono (.conn_conn c c' σ x y)

theorem Ext.conn {C : Ctx} {c c' : Cfg} {σ : St} (hi : Inv C.cfg C.lim σ) {x y : Nat} (h : ConnOK σ x y)
    (he : EdgeOK (σ.conn c' x y) x y) : Ext C σ (σ.conn c x y) := ⟨hi.conn h (he.any c), .conn h, id⟩

/-! ### wp rules -/

theorem wp_create {C : Ctx} (hR : C.R = false) {σ : St} (hi : Inv C.cfg C.lim σ) {t : Tag}
    (ht : CreateOK C.lim t) {Q : Out Nat → St → Prop}
    (hq : Q (.ok σ.store.next) (σ.mk' t))
    (hf : ∀ σ', Ext C σ σ' → σ'.flt = true → Q (.err .fault) σ') :
    wp C Q Go.create σ := by
  intro σ1 he c hc
  rw [he.eq hR]
  have hext := Ext.add hi ht
  refine ⟨⟨(σ.mk' t).tag, σ.bits, ⟨fun _ => hext, fun h => by simp [hR] at h⟩, hq⟩, fun hF => ⟨?_, ?_⟩,
    fun hF => ⟨(σ.mk' t).tag, σ.bits, ?_, ?_⟩⟩
  · exact .of_same hi (.fail _) rfl fun _ => rfl
  · exact hf _ (.fail hi) rfl
  · exact ⟨fun _ => hext.trans (.fail hext.inv), fun h => by simp [hR] at h⟩
  · exact hf _ (hext.trans (.fail hext.inv)) rfl

theorem wp_setRef {C : Ctx} (hR : C.R = false) {σ : St} (hi : Inv C.cfg C.lim σ) {x y : Nat}
    (h : RefOK σ x y) {Q : Out Unit → St → Prop}
    (hq : Q (.ok ()) (σ.ref x y))
    (hf : ∀ σ', Ext C σ σ' → σ'.flt = true → Q (.err .fault) σ') :
    wp C Q (Go.setReference x y) σ := by
  intro σ1 he c hc
  rw [he.eq hR]
  have hext := Ext.ref hi h
  have hl : (σ.store.live x && σ.store.live y) = true := by
    rw [(hi.live x).2 h.tx, (hi.live y).2 h.ty]; rfl
  have e : σ.store.step c (.setReference x y) = (.ok (), σ.store.referred x y) := by
    simp only [Store.step, hl, if_true]
  have ea : σ.after c (.setReference x y) σ.tag σ.bits = σ.ref x y := by
    simp only [St.after, e]; rfl
  refine ⟨⟨σ.tag, σ.bits, ?_, ?_⟩, fun hF => ⟨?_, ?_⟩, fun hF => ⟨σ.tag, σ.bits, ?_, ?_⟩⟩
  · rw [ea]; exact ⟨fun _ => hext, fun h => by simp [hR] at h⟩
  · rw [ea, e]; exact hq
  · exact .of_same hi (.fail _) rfl fun _ => rfl
  · exact hf _ (.fail hi) rfl
  · rw [ea]; exact ⟨fun _ => hext.trans (.fail hext.inv), fun h => by simp [hR] at h⟩
  · rw [ea]; exact hf _ (hext.trans (.fail hext.inv)) rfl

theorem wp_connect {C : Ctx} (hR : C.R = false) {σ : St} (hi : Inv C.cfg C.lim σ) {x y : Nat}
    (h : ConnOK σ x y) (hE : EdgeOK (σ.conn C.cfg x y) x y) {Q : Out Unit → St → Prop}
    (hq : ∀ c, Q (.ok ()) (σ.conn c x y))
    (hf : ∀ σ', Ext C σ σ' → σ'.flt = true → Q (.err .fault) σ') :
    wp C Q (Go.connect x y) σ := by
  intro σ1 he c hc
  rw [he.eq hR]
  have hext := Ext.conn hi h hE (c := c)
  have hl : (σ.store.live x && σ.store.live y) = true := by
    rw [(hi.live x).2 hE.tags.1, (hi.live y).2 hE.tags.2]; rfl
  have hn : σ.store.edges.contains (x, y) = false := by
    simpa using h.new
  have e : σ.store.step c (.connect x y) = (.ok (), σ.store.connected c x y) := by
    simp only [Store.step, hl, if_true, hn]; rfl
  have ea : σ.after c (.connect x y) σ.tag σ.bits = σ.conn c x y := by
    simp only [St.after, e]; rfl
  refine ⟨⟨σ.tag, σ.bits, ?_, ?_⟩, fun hF => ⟨?_, ?_⟩, fun hF => ⟨σ.tag, σ.bits, ?_, ?_⟩⟩
  · rw [ea]; exact ⟨fun _ => hext, fun h => by simp [hR] at h⟩
  · rw [ea, e]; exact hq c
  · exact .of_same hi (.fail _) rfl fun _ => rfl
  · exact hf _ (.fail hi) rfl
  · rw [ea]; exact ⟨fun _ => hext.trans (.fail hext.inv), fun h => by simp [hR] at h⟩
  · rw [ea]; exact hf _ (hext.trans (.fail hext.inv)) rfl

/-- connecting what is connected -/
theorem wp_connect_dup {C : Ctx} (hR : C.R = false) {σ : St} (hi : Inv C.cfg C.lim σ) {x y : Nat}
    (hd : C.cfg.dup = .ignore) (h : (x, y) ∈ σ.store.edges) {Q : Out Unit → St → Prop}
    (hq : Q (.ok ()) σ)
    (hf : ∀ σ', Ext C σ σ' → σ'.flt = true → Q (.err .fault) σ') :
    wp C Q (Go.connect x y) σ := by
  intro σ1 he c hc
  rw [he.eq hR]
  have hE := hi.edge x y h
  have hl : (σ.store.live x && σ.store.live y) = true := by
    rw [(hi.live x).2 hE.tags.1, (hi.live y).2 hE.tags.2]; rfl
  have hn : σ.store.edges.contains (x, y) = true := by
    simpa using h
  have e : σ.store.step c (.connect x y) = (.ok (), σ.store) := by
    simp only [Store.step, hl, if_true, hn, hc.trans hd]
  have ea : σ.after c (.connect x y) σ.tag σ.bits = σ := by
    simp only [St.after, e]
  refine ⟨⟨σ.tag, σ.bits, ?_, ?_⟩, fun hF => ⟨?_, ?_⟩, fun hF => ⟨σ.tag, σ.bits, ?_, ?_⟩⟩
  · rw [ea]; exact .of_same hi (.refl _) rfl id
  · rw [ea, e]; exact hq
  · exact .of_same hi (.fail _) rfl fun _ => rfl
  · exact hf _ (.fail hi) rfl
  · rw [ea]; exact .of_same hi (.fail _) rfl fun _ => rfl
  · rw [ea]; exact hf _ (.fail hi) rfl

end Semnet
