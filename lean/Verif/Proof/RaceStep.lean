import Verif.Proof.RaceRead
import Verif.Proof.Write
/-
  Several processes writing at the same time: the three writing storage calls.
-/
set_option linter.unusedSimpArgs false
namespace Semnet.Race
open Class

/-- A later state; this process may have worked on its nodes in `E`. -/
structure LaterX (C : RC) (σ σ' : Rt) (E : Nat → Prop) : Prop where
  inv : C.I σ'
  mono : RMono σ σ'
  keep : ∀ x, σ.tag x ≠ .none → σ.own x = C.me → ¬ E x → Kept C.lim.solo σ σ' x

theorem Later.x {C : RC} {σ σ' : Rt} {E : Nat → Prop} (h : Later C σ σ') : LaterX C σ σ' E :=
  ⟨h.inv, h.mono, fun x hx ho _ => h.keep x hx ho⟩

theorem LaterX.trans {C : RC} {a b c : Rt} {E : Nat → Prop} (h : LaterX C a b E) (h' : LaterX C b c E) : LaterX C a c E :=
  ⟨h'.inv, h.mono.trans h'.mono, fun x hx ho hE => (h.keep x hx ho hE).trans h.mono hx
    (h'.keep x (by rw [h.mono.tag x hx]; exact hx) (by rw [h.mono.own x hx]; exact ho) hE)⟩

theorem LaterX.cons {C : RC} {a b : Rt} {E E' : Nat → Prop} (h : LaterX C a b E) (hE : ∀ x, E x → E' x) : LaterX C a b E' :=
  ⟨h.inv, h.mono, fun x hx ho hn => h.keep x hx ho (fun he => hn (hE x he))⟩

theorem Later.transX {C : RC} {σ0 σ σ' : Rt} {E : Nat → Prop} (h : Later C σ0 σ) (h' : LaterX C σ σ' E)
    (hE : ∀ x, E x → σ0.tag x = .none) : Later C σ0 σ' :=
  ⟨h'.inv, h.mono.trans h'.mono, fun x hx ho => (h.keep x hx ho).trans h.mono hx
    (h'.keep x (by rw [h.mono.tag x hx]; exact hx) (by rw [h.mono.own x hx]; exact ho) (fun he => hx (hE x he)))⟩

/-- what a process knows about a node it has created -/
structure Nd (C : RC) (σ : Rt) (x : Nat) (t : Tag) (f b : Nat) (ts ss : List Nat) : Prop where
  own : σ.own x = C.me
  tag : σ.tag x = t
  ne : t ≠ .none ∧ t ≠ .zero
  fwd : σ.fwd x = f
  back : σ.back x = b
  T : tkeep C.lim.solo t = true → σ.T x = ts
  S : t.scrit = true → σ.S x = ss
  new : ∀ σf, C.fz = some σf → σf.tag x = .none

theorem Nd.keepX {C : RC} {σ σ' : Rt} {E : Nat → Prop} {x t f b ts ss} (h : Nd C σ x t f b ts ss) (hl : LaterX C σ σ' E)
    (hx : ¬ E x) : Nd C σ' x t f b ts ss := by
  have hn : σ.tag x ≠ .none := by rw [h.tag]; exact h.ne.1
  have k := hl.keep x hn h.own hx
  exact ⟨by rw [hl.mono.own x hn, h.own], by rw [hl.mono.tag x hn, h.tag], h.ne, k.fwd.trans h.fwd, k.back.trans h.back,
    fun ht => (k.T (by rw [h.tag]; exact ht)).trans (h.T ht), fun ht => (k.S (by rw [h.tag]; exact ht)).trans (h.S ht), h.new⟩

theorem Nd.keep {C : RC} {σ σ' : Rt} {x t f b ts ss} (h : Nd C σ x t f b ts ss) (hl : Later C σ σ') :
    Nd C σ' x t f b ts ss := h.keepX (E := fun _ => False) hl.x id

theorem Nd.live {C : RC} {σ : Rt} {x t f b ts ss} (h : Nd C σ x t f b ts ss) : σ.tag x ≠ .none := by
  rw [h.tag]; exact h.ne.1

theorem RI.ne0 {cfg lim bs fz} {σ : Rt} (hi : RI cfg lim bs fz σ) {x : Nat} (hx : σ.tag x ≠ .none)
    (hx' : σ.tag x ≠ .zero) : x ≠ 0 := by
  intro h
  subst h
  cases hz : cfg.zero with
  | false => exact hx (hi.node0 hz)
  | true => exact hx' ((hi.zero 0).2 ⟨rfl, hz⟩)

theorem Nd.ne0 {C : RC} {σ : Rt} {x t f b ts ss} (hi : C.I σ) (h : Nd C σ x t f b ts ss) : x ≠ 0 :=
  hi.ne0 h.live (by rw [h.tag]; exact h.ne.2)

/-! ### ghost-extended calls -/

def Rt.mk' (σ : Rt) (me : Nat) (t : Tag) : Rt :=
  { toSt := σ.toSt.mk' t, own := fun x => if x = σ.store.next then me else σ.own x }
def Rt.ref (σ : Rt) (x y : Nat) : Rt := { toSt := σ.toSt.ref x y, own := σ.own }
def Rt.conn (cfg : Cfg) (σ : Rt) (x y : Nat) : Rt := { toSt := σ.toSt.conn cfg x y, own := σ.own }

theorem RMono.add {cfg lim bs fz} {σ : Rt} (hi : RI cfg lim bs fz σ) (me : Nat) (t : Tag) : RMono σ (σ.mk' me t) := by
  have hn : σ.tag σ.store.next = .none := hi.tagNext (Nat.le_refl _)
  have ht : ∀ x, σ.tag x ≠ .none → x ≠ σ.store.next := fun x hx e => hx (e ▸ hn)
  constructor
  · intro x hx
    show (σ.toSt.mk' t).tag x = _
    rw [tag_mk, if_neg (ht x hx)]
  · intro x hx
    show (if x = σ.store.next then me else σ.own x) = _
    rw [if_neg (ht x hx)]
  · intros; rfl
  · intros; rfl
  · intros; rfl
  · intros; rfl
  · intro x y h; exact h

theorem RI.add {cfg lim bs fz} {σ : Rt} (hi : RI cfg lim bs fz σ) (me : Nat) {t : Tag} (ht : CreateOK lim t) :
    RI cfg lim bs fz (σ.mk' me t) := by
  have hn : σ.tag σ.store.next = .none := hi.tagNext (Nat.le_refl _)
  have h9 := hi.next
  have hm := RMono.add hi me t
  have hT := hi.Tnone hn
  have hS := hi.Snone hn
  have hr := hi.ref0 _ hn
  have hcases : ∀ (P : Tag → Nat → Prop), (∀ x, P (σ.tag x) x) → P t σ.store.next →
      ∀ x, P ((σ.mk' me t).tag x) x := by
    intro P h1 h2 x
    show P ((σ.toSt.mk' t).tag x) x
    rw [tag_mk]
    by_cases hx : x = σ.store.next
    · rw [if_pos hx, hx]; exact h2
    · rw [if_neg hx]; exact h1 x
  constructor
  · exact hi.dup
  · exact hcases (fun t x => t = .zero ↔ (x = 0 ∧ cfg.zero = true)) hi.zero ⟨fun h => absurd h ht.h2, fun h => by omega⟩
  · show 9 ≤ σ.store.next + 1; omega
  · intro x
    show (σ.toSt.mk' t).store.live x = true ↔ (σ.toSt.mk' t).tag x ≠ .none
    rw [tag_mk]
    simp only [St.mk', Store.live, Store.created, List.contains_cons, Bool.or_eq_true, beq_iff_eq]
    by_cases hx : x = σ.store.next
    · simp [hx, ht.h1]
    · simp [hx]
      have := hi.live x
      simp [Store.live] at this
      exact this
  · intro x hx
    replace hx : (σ.toSt.mk' t).tag x ≠ .none := hx
    rw [tag_mk] at hx
    show x < σ.store.next + 1
    by_cases h : x = σ.store.next
    · omega
    · rw [if_neg h] at hx
      have := hi.bound x hx
      omega
  · intro hz
    show (σ.toSt.mk' t).tag 0 = .none
    rw [tag_mk, if_neg (by omega)]
    exact hi.node0 hz
  · exact hcases (fun t x => t = .zero → σ.fwd x = 0 ∧ σ.back x = 0) hi.ref00 (fun h => absurd h ht.h2)
  · exact hcases (fun t x => t = .root ↔ (1 ≤ x ∧ x ≤ 8)) hi.root ⟨fun h => absurd h ht.h3, fun h => by omega⟩
  · intro x y h
    exact (hi.edge x y h).mono hm
  · exact hcases (fun t x => t = .none → σ.fwd x = 0 ∧ σ.back x = 0) hi.ref0 (fun h => absurd h ht.h1)
  · exact hcases (fun t x => t = .rmF → σ.fwd x = 0) hi.rmF (fun _ => hr.1)
  · intro x hx hf
    replace hx : (σ.toSt.mk' t).tag x = .dtP := hx
    replace hf : σ.fwd x ≠ 0 := hf
    by_cases h : x = σ.store.next
    · rw [h] at hf; exact absurd hr.1 hf
    · rw [tag_mk, if_neg h] at hx
      have := hi.refDt x hx hf
      exact ⟨hm.tagEq this.1 (by simp), this.2⟩
  · exact hcases (fun t x => Race.tfix t = true → (σ.T x).length ≤ 1) hi.tfix (fun _ => by rw [hT]; simp)
  · exact hcases (fun t x => t.noT = true → σ.T x = []) hi.noT (fun _ => hT)
  · exact hcases (fun t x => t.scrit = true → (σ.S x).length ≤ 1) hi.sfix (fun _ => by rw [hS]; simp)
  · exact hcases (fun t x => t.noS = true → σ.S x = []) hi.noS (fun _ => hS)
  · exact hcases (fun t _ => TagOK lim t) hi.tagOK ht.ok
  · have hb := hi.bits
    refine ⟨hb.v0, hb.v1, hb.s0, hb.s1, hb.lt, hb.S1, hb.f0, hb.f1, hb.c0, hb.c1, hm.tagEq hb.t0 (by simp),
      hm.tagEq hb.t1 (by simp), hm.tagEq hb.tc0 (by simp), hm.tagEq hb.tc1 (by simp), ?_⟩
    exact hcases (fun t x => ∀ v, t = .bitc v → x = bitNode bs v) hb.only (fun v h => absurd h (ht.h4 v))
  · intro σ0 h0
    have z := hi.frz σ0 h0
    exact ⟨z.mono.trans hm, z.fwd, z.back, z.T, z.S⟩
  · exact hi.hd

theorem Kept.add {s : Bool} {σ : Rt} {me : Nat} {t : Tag} {x : Nat} : Kept s σ (σ.mk' me t) x :=
  ⟨rfl, rfl, fun _ => rfl, fun _ => rfl⟩

theorem eff_create {C : RC} {σ : Rt} (hi : C.I σ) {t : Tag} (ht : CreateOK C.lim t) :
    Guar C σ (σ.mk' C.me t) ∧ Later C σ (σ.mk' C.me t) ∧ Nd C (σ.mk' C.me t) σ.store.next t 0 0 [] [] := by
  have hn : σ.tag σ.store.next = .none := hi.tagNext (Nat.le_refl _)
  refine ⟨⟨hi.add _ ht, .add hi _ _, fun _ _ _ => .add⟩, ⟨hi.add _ ht, .add hi _ _, fun _ _ _ => .add⟩, ?_⟩
  exact ⟨if_pos rfl, if_pos rfl, ⟨ht.h1, ht.h2⟩, (hi.ref0 _ hn).1, (hi.ref0 _ hn).2, fun _ => hi.Tnone hn, fun _ => hi.Snone hn,
    fun σf h => (hi.frz σf h).mono.fresh hn⟩

/-! ### SetReference -/

theorem eff_ref {C : RC} {σ : Rt} (hi : C.I σ) {x y tx ty bx fy Tx Sx Ty Sy} (hx : Nd C σ x tx 0 bx Tx Sx)
    (hy : Nd C σ y ty fy 0 Ty Sy) (hne : x ≠ y) (hf : tx ≠ .rmF) (hd : tx = .dtP → ty = .dtR) :
    Guar C σ (σ.ref x y) ∧ LaterX C σ (σ.ref x y) (fun z => z = x ∨ z = y) ∧
      Nd C (σ.ref x y) x tx y bx Tx Sx ∧ Nd C (σ.ref x y) y ty fy x Ty Sy := by
  have F : ∀ z, (σ.ref x y).fwd z = if z = x then y else σ.fwd z := fwd_ref σ.toSt x y
  have B : ∀ z, (σ.ref x y).back z = if z = y then x else σ.back z := back_ref σ.toSt x y
  have x0 := hx.ne0 hi
  have y0 := hy.ne0 hi
  have hm : RMono σ (σ.ref x y) := by
    constructor
    · intros; rfl
    · intros; rfl
    · intro z hz; rw [F, if_neg]; intro e; subst e; exact hz hx.fwd
    · intro z hz; rw [B, if_neg]; intro e; subst e; exact hz hy.back
    · intros; rfl
    · intros; rfl
    · intro _ _ h; exact h
  have hinv : C.I (σ.ref x y) := by
    refine ⟨hi.dup, hi.zero, hi.next, hi.live, hi.bound, hi.node0, ?_, hi.root, fun a b h => (hi.edge a b h).mono hm, ?_, ?_, ?_,
      hi.tfix, hi.noT, hi.sfix, hi.noS, hi.tagOK, ?_, ?_, hi.hd⟩
    · intro z hz
      have e0 := ((hi.zero z).1 hz).1
      rw [F, B, if_neg (fun e => x0 (e.symm.trans e0)), if_neg (fun e => y0 (e.symm.trans e0))]
      exact hi.ref00 z hz
    · intro z hz
      have hz' : σ.tag z = .none := hz
      rw [F, B, if_neg, if_neg]
      · exact hi.ref0 z hz'
      · intro e; subst e; exact hy.live hz'
      · intro e; subst e; exact hx.live hz'
    · intro z hz
      have hz' : σ.tag z = .rmF := hz
      rw [F, if_neg]
      · exact hi.rmF z hz'
      · intro e; subst e; exact hf (hx.tag ▸ hz')
    · intro z hz hz0
      have hz' : σ.tag z = .dtP := hz
      show σ.tag _ = .dtR ∧ _
      rw [F] at hz0 ⊢
      by_cases e : z = x
      · subst e
        rw [if_pos rfl, B, if_pos rfl]
        exact ⟨hy.tag.trans (hd (hx.tag ▸ hz')), rfl⟩
      · rw [if_neg e] at hz0 ⊢
        have := hi.refDt z hz' hz0
        refine ⟨this.1, ?_⟩
        rw [B, if_neg]
        · exact this.2
        · intro e'
          rw [e', hy.back] at this
          exact hi.ne0 (by rw [hz']; simp) (by rw [hz']; simp) this.2.symm
    · have hb := hi.bits
      refine ⟨hb.v0, hb.v1, hb.s0, hb.s1, hb.lt, hb.S1, ?_, ?_, hb.c0, hb.c1, hb.t0, hb.t1, hb.tc0, hb.tc1, hb.only⟩
      · rw [hm.fwd _ (by rw [hb.f0]; exact hb.c0)]; exact hb.f0
      · rw [hm.fwd _ (by rw [hb.f1]; exact hb.c1)]; exact hb.f1
    · intro σf hf'
      have k := hi.frz σf hf'
      refine ⟨k.mono.trans hm, fun z hz => ?_, fun z hz => ?_, k.T, k.S⟩
      · rw [F, if_neg]
        · exact k.fwd z hz
        · intro e; subst e; exact hz (hx.new σf hf')
      · rw [B, if_neg]
        · exact k.back z hz
        · intro e; subst e; exact hz (hy.new σf hf')
  have hk : ∀ z, z ≠ x → z ≠ y → Kept C.lim.solo σ (σ.ref x y) z := fun z h1 h2 =>
    ⟨by rw [F, if_neg h1], by rw [B, if_neg h2], fun _ => rfl, fun _ => rfl⟩
  refine ⟨⟨hinv, hm, fun z _ ho => hk z ?_ ?_⟩, ⟨hinv, hm, fun z _ _ hE => hk z ?_ ?_⟩, ?_, ?_⟩
  · intro e; subst e; exact ho hx.own
  · intro e; subst e; exact ho hy.own
  · intro e; exact hE (.inl e)
  · intro e; exact hE (.inr e)
  · exact ⟨hx.own, hx.tag, hx.ne, by rw [F, if_pos rfl], by rw [B, if_neg hne]; exact hx.back, hx.T, hx.S, hx.new⟩
  · exact ⟨hy.own, hy.tag, hy.ne, by rw [F, if_neg (Ne.symm hne)]; exact hy.fwd, by rw [B, if_pos rfl], hy.T, hy.S, hy.new⟩

/-! ### Connect -/

/-- A later state in which this process has connected its nodes `x` and `y`. -/
structure LaterC (C : RC) (σ σ' : Rt) (x y : Nat) : Prop where
  inv : C.I σ'
  mono : RMono σ σ'
  fwd : ∀ z, σ.tag z ≠ .none → σ.own z = C.me → σ'.fwd z = σ.fwd z
  back : ∀ z, σ.tag z ≠ .none → σ.own z = C.me → σ'.back z = σ.back z
  T : ∀ z, σ.tag z ≠ .none → σ.own z = C.me → tkeep C.lim.solo (σ.tag z) = true → z ≠ x → σ'.T z = σ.T z
  S : ∀ z, σ.tag z ≠ .none → σ.own z = C.me → (σ.tag z).scrit = true → z ≠ y → σ'.S z = σ.S z

theorem Later.c {C : RC} {σ σ' : Rt} {x y : Nat} (h : Later C σ σ') : LaterC C σ σ' x y :=
  ⟨h.inv, h.mono, fun z h1 h2 => (h.keep z h1 h2).fwd, fun z h1 h2 => (h.keep z h1 h2).back,
    fun z h1 h2 h3 _ => (h.keep z h1 h2).T h3, fun z h1 h2 h3 _ => (h.keep z h1 h2).S h3⟩

theorem Later.transC {C : RC} {a b c : Rt} {x y : Nat} (h : Later C a b) (h' : LaterC C b c x y) : LaterC C a c x y := by
  have ht : ∀ z, a.tag z ≠ .none → b.tag z ≠ .none := fun z hz => by rw [h.mono.tag z hz]; exact hz
  have ho : ∀ z, a.tag z ≠ .none → a.own z = C.me → b.own z = C.me := fun z hz h1 => by rw [h.mono.own z hz]; exact h1
  refine ⟨h'.inv, h.mono.trans h'.mono, fun z h1 h2 => ?_, fun z h1 h2 => ?_, fun z h1 h2 h3 h4 => ?_, fun z h1 h2 h3 h4 => ?_⟩
  · exact (h'.fwd z (ht z h1) (ho z h1 h2)).trans (h.keep z h1 h2).fwd
  · exact (h'.back z (ht z h1) (ho z h1 h2)).trans (h.keep z h1 h2).back
  · exact (h'.T z (ht z h1) (ho z h1 h2) (by rw [h.mono.tag z h1]; exact h3) h4).trans ((h.keep z h1 h2).T h3)
  · exact (h'.S z (ht z h1) (ho z h1 h2) (by rw [h.mono.tag z h1]; exact h3) h4).trans ((h.keep z h1 h2).S h3)

theorem LaterC.later {C : RC} {σ0 σ σ' : Rt} {x y : Nat} (h : Later C σ0 σ) (h' : LaterC C σ σ' x y)
    (fx : tkeep C.lim.solo (σ.tag x) = true → σ0.tag x = .none) (fy : (σ.tag y).scrit = true → σ0.tag y = .none) : Later C σ0 σ' := by
  refine ⟨h'.inv, h.mono.trans h'.mono, fun z h1 h2 => ?_⟩
  have e := h.mono.tag z h1
  have k := h.keep z h1 h2
  have ht : σ.tag z ≠ .none := by rw [e]; exact h1
  have ho : σ.own z = C.me := (h.mono.own z h1).trans h2
  refine ⟨(h'.fwd z ht ho).trans k.fwd, (h'.back z ht ho).trans k.back, fun h3 => ?_, fun h3 => ?_⟩
  · refine (h'.T z ht ho (by rw [e]; exact h3) ?_).trans (k.T h3)
    intro ex; subst ex; exact h1 (fx (by rw [e]; exact h3))
  · refine (h'.S z ht ho (by rw [e]; exact h3) ?_).trans (k.S h3)
    intro ex; subst ex; exact h1 (fy (by rw [e]; exact h3))

structure RConn (C : RC) (σ : Rt) (x y : Nat) : Prop where
  tx : σ.tag x ≠ .none
  ty : σ.tag y ≠ .none
  tf : tfix (σ.tag x) = true → σ.own x = C.me ∧ σ.T x = []
  nt : (σ.tag x).noT = false
  sc : (σ.tag y).scrit = true → σ.own y = C.me ∧ σ.S y = []
  ns : (σ.tag y).noS = false
  bit : y ≠ bitId
  zx : ∀ σf, C.fz = some σf → ftag (σf.tag x) = false
  zy : ∀ σf, C.fz = some σf → ftag (σf.tag y) = false
  gt : C.lim.solo = true → gtag (σ.tag x) = true → σ.own x = C.me
  hd : C.lim.solo = true → σ.tag x ≠ .bitc true

/-- an old node of the role `t` may be connected -/
theorem ftag_old {C : RC} {σ : Rt} (hi : C.I σ) {x : Nat} {t : Tag} (hx : σ.tag x = t) (h : C.fz = none ∨ ftag t = false)
    (σf : Rt) (hf : C.fz = some σf) : ftag (σf.tag x) = false := by
  rcases h with h | h
  · rw [h] at hf; cases hf
  · cases ht : ftag (σf.tag x) with
    | false => rfl
    | true =>
      have hn : σf.tag x ≠ .none := by intro e; rw [e] at ht; cases ht
      rw [← (hi.frz σf hf).mono.tag x hn, hx, h] at ht
      cases ht

theorem Nd.zero {C : RC} {σ : Rt} {x t f b ts ss} (h : Nd C σ x t f b ts ss) (σf : Rt) (hf : C.fz = some σf) :
    ftag (σf.tag x) = false := by rw [h.new σf hf]; rfl

theorem RConn.mono {C : RC} {σ : Rt} {x y : Nat} (h : RConn C σ x y) (c : Cfg) : RMono σ (σ.conn c x y) where
  tag _ _ := rfl
  own _ _ := rfl
  fwd _ _ := rfl
  back _ _ := rfl
  T z h1 h2 := by
    show (σ.toSt.conn c x y).T z = _
    rw [T_conn, if_neg]
    intro e; subst e; exact h2 (h.tf h1).2
  S z h1 h2 := by
    show (σ.toSt.conn c x y).S z = _
    rw [S_conn, if_neg]
    intro e; subst e; exact h2 (h.sc h1).2
  edges a b hab := by
    show (a, b) ∈ (σ.toSt.conn c x y).store.edges
    rw [edges_conn]; exact List.mem_cons_of_mem _ hab

theorem RConn.later {C : RC} {σ σ' : Rt} {x y : Nat} (h : RConn C σ x y) (hl : Later C σ σ') : RConn C σ' x y := by
  have ex := hl.mono.tag x h.tx
  have ey := hl.mono.tag y h.ty
  refine ⟨by rw [ex]; exact h.tx, by rw [ey]; exact h.ty, ?_, by rw [ex]; exact h.nt, ?_, by rw [ey]; exact h.ns, h.bit, h.zx, h.zy,
    fun h1 h2 => (hl.mono.own x h.tx).trans (h.gt h1 (by rw [← ex]; exact h2)), fun h1 => by rw [ex]; exact h.hd h1⟩
  · rw [ex]; intro ht
    exact ⟨(hl.mono.own x h.tx).trans (h.tf ht).1, ((hl.keep x h.tx (h.tf ht).1).T (tkeep_fix ht)).trans (h.tf ht).2⟩
  · rw [ey]; intro ht
    exact ⟨(hl.mono.own y h.ty).trans (h.sc ht).1, ((hl.keep y h.ty (h.sc ht).1).S ht).trans (h.sc ht).2⟩

theorem eff_conn {C : RC} {c : Cfg} {σ : Rt} (hi : C.I σ) {x y : Nat} (h : RConn C σ x y)
    (he : REdge C.bs (σ.conn c x y) x y) :
    Guar C σ (σ.conn c x y) ∧ LaterC C σ (σ.conn c x y) x y := by
  have hT : ∀ z, (σ.conn c x y).T z = if z = x then y :: σ.T z else σ.T z := T_conn c σ.toSt x y
  have hS : ∀ z, (σ.conn c x y).S z = if z = y then x :: σ.S z else σ.S z := S_conn c σ.toSt x y
  have hm := h.mono c
  have hinv : C.I (σ.conn c x y) := by
    refine ⟨hi.dup, hi.zero, Nat.le_trans hi.next (Nat.le_add_right _ _), hi.live,
      fun z hz => Nat.lt_of_lt_of_le (hi.bound z hz) (Nat.le_add_right _ _), hi.node0, hi.ref00, hi.root, ?_, hi.ref0, hi.rmF,
      hi.refDt, ?_, ?_, ?_, ?_, hi.tagOK, ?_, ?_, ?_⟩
    · intro a b hab
      replace hab : (a, b) ∈ (x, y) :: σ.store.edges := hab
      rcases List.mem_cons.1 hab with hab | hab
      · cases hab; exact he
      · exact (hi.edge a b hab).mono hm
    · intro z hz
      rw [hT]
      by_cases e : z = x
      · rw [if_pos e]; subst e; rw [(h.tf hz).2]; simp
      · rw [if_neg e]; exact hi.tfix z hz
    · intro z hz
      rw [hT, if_neg]
      · exact hi.noT z hz
      · intro e; subst e; have := h.nt; rw [show (σ.tag z).noT = true from hz] at this; cases this
    · intro z hz
      rw [hS]
      by_cases e : z = y
      · rw [if_pos e]; subst e; rw [(h.sc hz).2]; simp
      · rw [if_neg e]; exact hi.sfix z hz
    · intro z hz
      rw [hS, if_neg]
      · exact hi.noS z hz
      · intro e; subst e; have := h.ns; rw [show (σ.tag z).noS = true from hz] at this; cases this
    · have hb := hi.bits
      refine ⟨hb.v0, hb.v1, hb.s0, hb.s1, hb.lt, ?_, hb.f0, hb.f1, hb.c0, hb.c1, hb.t0, hb.t1, hb.tc0, hb.tc1, hb.only⟩
      rw [hS, if_neg (Ne.symm h.bit)]; exact hb.S1
    · intro σf hf
      have k := hi.frz σf hf
      refine ⟨k.mono.trans hm, k.fwd, k.back, fun z hz => ?_, fun z hz => ?_⟩
      · rw [hT, if_neg]
        · exact k.T z hz
        · intro e; subst e; rw [h.zx σf hf] at hz; cases hz
      · rw [hS, if_neg]
        · exact k.S z hz
        · intro e; subst e; rw [h.zy σf hf] at hz; cases hz
    · intro hs
      rw [hT, if_neg]
      · exact hi.hd hs
      · intro e; exact h.hd hs (by rw [← e]; exact hi.bits.t1)
  have hk : ∀ z, (tkeep C.lim.solo (σ.tag z) = true → z ≠ x) → ((σ.tag z).scrit = true → z ≠ y) →
      Kept C.lim.solo σ (σ.conn c x y) z :=
    fun z h1 h2 => ⟨rfl, rfl, fun ht => by rw [hT, if_neg (h1 ht)], fun ht => by rw [hS, if_neg (h2 ht)]⟩
  refine ⟨⟨hinv, hm, fun z _ ho => hk z (fun ht e => ?_) (fun ht e => ?_)⟩,
    ⟨hinv, hm, fun _ _ _ => rfl, fun _ _ _ => rfl, fun z _ _ _ hz => by rw [hT, if_neg hz], fun z _ _ _ hz => by rw [hS, if_neg hz]⟩⟩
  · subst e
    rcases tkeep_cases ht with ht | ht
    · exact ho (h.tf ht).1
    · exact ho (h.gt ht.1 ht.2)
  · subst e; exact ho (h.sc ht).1

/-! ### rules -/

theorem From.write {C : RC} {σ0 : Rt} {o : Op} {good : o.Res → Rt → Prop} {σ : Rt} (hl : Later C σ0 σ)
    (h : ∀ c, C.Like c → ∀ σ1, Env C σ σ1 → ∃ tag own a, (σ1.store.step c o).1 = .ok a ∧
      Guar C σ1 (σ1.after c o tag own) ∧ Later C σ0 (σ1.after c o tag own) ∧
      good a (σ1.after c o tag own)) :
    From C σ0 good (Go.call o) σ := by
  intro _ c hc σ1 he
  obtain ⟨tag, own, a, e, g, l, ga⟩ := h c hc σ1 he
  refine ⟨⟨tag, own, g, ?_⟩, fun hF => ⟨hl.trans he.toLater, hF⟩, fun hF => ⟨tag, own, g, l, hF⟩⟩
  rw [e]
  exact ⟨l, ga⟩

theorem From.create {C : RC} {σ0 σ : Rt} (hl : Later C σ0 σ) {t : Tag} (ht : CreateOK C.lim t) :
    From C σ0 (fun n σ' => Later C σ σ' ∧ σ.tag n = .none ∧ Nd C σ' n t 0 0 [] []) Go.create σ := by
  refine From.write hl ?_
  intro c hc σ1 he
  obtain ⟨g, l, n⟩ := eff_create he.inv ht
  have hn : σ.tag σ1.store.next = .none := by
    apply Classical.byContradiction
    intro hx
    have := he.mono.tag _ hx
    rw [he.inv.tagNext (Nat.le_refl _)] at this
    exact hx this.symm
  exact ⟨(σ1.mk' C.me t).tag, (σ1.mk' C.me t).own, _, rfl, g, hl.trans (he.toLater.trans l), he.toLater.trans l, hn, n⟩

theorem From.setRef {C : RC} {σ0 σ : Rt} (hl : Later C σ0 σ) {x y tx ty bx fy Tx Sx Ty Sy}
    (hx : Nd C σ x tx 0 bx Tx Sx) (hy : Nd C σ y ty fy 0 Ty Sy) (hne : x ≠ y) (hf : tx ≠ .rmF) (hd : tx = .dtP → ty = .dtR)
    (fx : σ0.tag x = .none) (fy' : σ0.tag y = .none) :
    From C σ0 (fun _ σ' => LaterX C σ σ' (fun z => z = x ∨ z = y) ∧ Nd C σ' x tx y bx Tx Sx ∧ Nd C σ' y ty fy x Ty Sy)
      (Go.setReference x y) σ := by
  refine From.write hl ?_
  intro c hc σ1 he
  have hx1 := hx.keep he.toLater
  have hy1 := hy.keep he.toLater
  obtain ⟨g, l, n1, n2⟩ := eff_ref he.inv hx1 hy1 hne hf hd
  have hlv : (σ1.store.live x && σ1.store.live y) = true := by
    rw [(he.inv.live x).2 hx1.live, (he.inv.live y).2 hy1.live]; rfl
  have e : σ1.store.step c (.setReference x y) = (.ok (), σ1.store.referred x y) := by
    simp only [Store.step, hlv, if_true]
  have ea : σ1.after c (.setReference x y) σ1.tag σ1.own = σ1.ref x y := by
    simp only [Rt.after, e]; rfl
  refine ⟨σ1.tag, σ1.own, (), by rw [e], ?_⟩
  rw [ea]
  refine ⟨g, (hl.trans he.toLater).transX l ?_, he.toLater.x.trans l, n1, n2⟩
  intro z hz
  rcases hz with rfl | rfl
  · exact fx
  · exact fy'

/-- the general rule; `good` has to hold whether the edge is new or there already -/
theorem From.connect {C : RC} {σ0 σ : Rt} (hl : Later C σ0 σ) {x y : Nat} (h : RConn C σ x y)
    (fx : tkeep C.lim.solo (σ.tag x) = true → σ0.tag x = .none) (fy : (σ.tag y).scrit = true → σ0.tag y = .none)
    (hE : ∀ σ', RMono σ σ' → (tfix (σ.tag x) = true → σ'.T x = [y]) → ((σ.tag y).scrit = true → σ'.S y = [x]) →
      REdge C.bs σ' x y) :
    From C σ0 (fun _ σ' => LaterC C σ σ' x y ∧ (tfix (σ.tag x) = true → σ'.T x = [y]) ∧
      ((σ.tag y).scrit = true → σ'.S y = [x]) ∧ (x, y) ∈ σ'.store.edges) (Go.connect x y) σ := by
  refine From.write hl ?_
  intro c hc σ1 he
  have h1 := h.later he.toLater
  have ex := he.mono.tag x h.tx
  have ey := he.mono.tag y h.ty
  have hlv : (σ1.store.live x && σ1.store.live y) = true := by
    rw [(he.inv.live x).2 h1.tx, (he.inv.live y).2 h1.ty]; rfl
  by_cases hin : (x, y) ∈ σ1.store.edges
  · have e : σ1.store.step c (.connect x y) = (.ok (), σ1.store) := by
      simp only [Store.step, hlv, if_true, List.contains_iff_mem.2 hin, hc.1, he.inv.dup]
    have ea : σ1.after c (.connect x y) σ1.tag σ1.own = σ1 := by
      simp only [Rt.after, e]
    refine ⟨σ1.tag, σ1.own, (), by rw [e], ?_⟩
    rw [ea]
    refine ⟨.refl he.inv, hl.trans he.toLater, he.toLater.c, ?_, ?_, hin⟩
    · intro ht
      have : σ1.T x = [] := (h1.tf (by rw [ex]; exact ht)).2
      have hm := mem_T.2 hin
      rw [this] at hm; cases hm
    · intro ht
      have : σ1.S y = [] := (h1.sc (by rw [ey]; exact ht)).2
      have hm := mem_S.2 hin
      rw [this] at hm; cases hm
  · have hc : σ1.store.edges.contains (x, y) = false := by
      cases hh : σ1.store.edges.contains (x, y) with
      | false => rfl
      | true => exact absurd (List.contains_iff_mem.1 hh) hin
    have e : σ1.store.step c (.connect x y) = (.ok (), σ1.store.connected c x y) := by
      simp only [Store.step, hlv, if_true, hc]; rfl
    have ea : σ1.after c (.connect x y) σ1.tag σ1.own = σ1.conn c x y := by
      simp only [Rt.after, e]; rfl
    have hT : tfix (σ.tag x) = true → (σ1.conn c x y).T x = [y] := by
      intro ht
      have : σ1.T x = [] := (h1.tf (by rw [ex]; exact ht)).2
      show (σ1.toSt.conn c x y).T x = _
      rw [T_conn, if_pos rfl, this]
    have hS : (σ.tag y).scrit = true → (σ1.conn c x y).S y = [x] := by
      intro ht
      have : σ1.S y = [] := (h1.sc (by rw [ey]; exact ht)).2
      show (σ1.toSt.conn c x y).S y = _
      rw [S_conn, if_pos rfl, this]
    have hm := h1.mono c
    obtain ⟨g, l⟩ := eff_conn he.inv h1 (hE _ (he.mono.trans hm) hT hS)
    have l' := he.toLater.transC l
    refine ⟨σ1.tag, σ1.own, (), by rw [e], ?_⟩
    rw [ea]
    refine ⟨g, l'.later hl fx fy, l', hT, hS, ?_⟩
    show (x, y) ∈ (σ1.toSt.conn c x y).store.edges
    rw [edges_conn]; exact List.mem_cons_self

theorem Nd.keepC {C : RC} {σ σ' : Rt} {x y z t f b ts ss} (h : Nd C σ z t f b ts ss) (hl : LaterC C σ σ' x y)
    (hx : tkeep C.lim.solo t = true → z ≠ x) (hy : t.scrit = true → z ≠ y) : Nd C σ' z t f b ts ss := by
  have hn := h.live
  refine ⟨by rw [hl.mono.own z hn, h.own], by rw [hl.mono.tag z hn, h.tag], h.ne, (hl.fwd z hn h.own).trans h.fwd,
    (hl.back z hn h.own).trans h.back, fun ht => ?_, fun ht => ?_, h.new⟩
  · exact (hl.T z hn h.own (by rw [h.tag]; exact ht) (hx ht)).trans (h.T ht)
  · exact (hl.S z hn h.own (by rw [h.tag]; exact ht) (hy ht)).trans (h.S ht)

/-- from a node of this process that has no target yet -/
theorem From.connectT {C : RC} {σ0 σ : Rt} (hl : Later C σ0 σ) {x y t f b ss} {u : Tag} (hx : Nd C σ x t f b [] ss)
    (ht : tfix t = true) (nt : t.noT = false) (hy : σ.tag y = u) (hu : u ≠ .none) (us : u.scrit = false)
    (un : u.noS = false) (hb : y ≠ bitId) (fx : σ0.tag x = .none) (hne : x ≠ y)
    (hE : ∀ σ', RMono σ σ' → σ'.T x = [y] → REdge C.bs σ' x y)
    (hz : C.fz = none ∨ ftag u = false := by first | exact .inr rfl | exact .inl ‹_›) :
    From C σ0 (fun _ σ' => LaterC C σ σ' x y ∧ Nd C σ' x t f b [y] ss) (Go.connect x y) σ := by
  have htx : tfix (σ.tag x) = true := by rw [hx.tag]; exact ht
  have hsy : (σ.tag y).scrit = false := by rw [hy]; exact us
  refine (From.connect hl ⟨hx.live, by rw [hy]; exact hu, fun _ => ⟨hx.own, hx.T (tkeep_fix ht)⟩, by rw [hx.tag]; exact nt,
    fun h => by (rw [hsy] at h; cases h), by rw [hy]; exact un, hb, hx.zero, ftag_old hl.inv hy hz,
    fun _ _ => hx.own, fun _ e => by (rw [hx.tag] at e; rw [e] at ht; cases ht)⟩ (fun _ => fx) (fun h => by (rw [hsy] at h; cases h))
    (fun σ' m hT _ => hE σ' m (hT htx))).cons ?_
  intro _ σ' _ ⟨l, hT, _, _⟩
  refine ⟨l, by rw [l.mono.own x hx.live, hx.own], by rw [l.mono.tag x hx.live, hx.tag], hx.ne,
    (l.fwd x hx.live hx.own).trans hx.fwd, (l.back x hx.live hx.own).trans hx.back, fun _ => hT htx, fun h => ?_, hx.new⟩
  exact (l.S x hx.live hx.own (by rw [hx.tag]; exact h) hne).trans (hx.S h)

/-- to a node of this process that has no source yet -/
theorem From.connectS {C : RC} {σ0 σ : Rt} (hl : Later C σ0 σ) {x y t f b ts} {u : Tag} (hy : Nd C σ y t f b ts [])
    (ht : t.scrit = true) (ns : t.noS = false) (hx : σ.tag x = u) (hu : u ≠ .none) (us : tfix u = false)
    (un : u.noT = false) (hb : y ≠ bitId) (fy : σ0.tag y = .none) (hne : x ≠ y)
    (hE : ∀ σ', RMono σ σ' → σ'.S y = [x] → REdge C.bs σ' x y)
    (hz : C.fz = none ∨ ftag u = false := by first | exact .inr rfl | exact .inl ‹_›)
    (hg : C.lim.solo = true → gtag u = true → σ.own x = C.me ∧ σ0.tag x = .none := by intro _ h; cases h)
    (hh : C.lim.solo = true → u ≠ .bitc true := by intro _ h; cases h) :
    From C σ0 (fun _ σ' => LaterC C σ σ' x y ∧ Nd C σ' y t f b ts [x] ∧ (x, y) ∈ σ'.store.edges) (Go.connect x y) σ := by
  have hty : (σ.tag y).scrit = true := by rw [hy.tag]; exact ht
  have htx : tfix (σ.tag x) = false := by rw [hx]; exact us
  refine (From.connect hl ⟨by rw [hx]; exact hu, hy.live, fun h => by (rw [htx] at h; cases h), by rw [hx]; exact un,
    fun _ => ⟨hy.own, hy.S ht⟩, by rw [hy.tag]; exact ns, hb, ftag_old hl.inv hx hz, hy.zero,
    fun h1 h2 => (hg h1 (by rw [← hx]; exact h2)).1, fun h1 e => hh h1 (hx.symm.trans e)⟩ ?_ (fun _ => fy)
    (fun σ' m _ hS => hE σ' m (hS hty))).cons ?_
  · intro h
    rcases tkeep_cases h with h | h
    · rw [htx] at h; cases h
    · exact (hg h.1 (by rw [← hx]; exact h.2)).2
  intro _ σ' _ ⟨l, _, hS, he⟩
  refine ⟨l, ⟨by rw [l.mono.own y hy.live, hy.own], by rw [l.mono.tag y hy.live, hy.tag], hy.ne,
    (l.fwd y hy.live hy.own).trans hy.fwd, (l.back y hy.live hy.own).trans hy.back, fun h => ?_, fun _ => hS hty, hy.new⟩, he⟩
  exact (l.T y hy.live hy.own (by rw [hy.tag]; exact h) hne.symm).trans (hy.T h)

/-- an edge whose ends do not limit their connections -/
theorem From.connectN {C : RC} {σ0 σ : Rt} (hl : Later C σ0 σ) {x y : Nat} {u t : Tag} (hx : σ.tag x = u) (hy : σ.tag y = t)
    (hu : u ≠ .none) (ht : t ≠ .none) (us : tfix u = false) (un : u.noT = false) (ts : t.scrit = false) (tn : t.noS = false)
    (hb : y ≠ bitId) (hE : ∀ σ', RMono σ σ' → REdge C.bs σ' x y) (hz : C.fz = none)
    (hg : C.lim.solo = true → gtag u = false) (hh : C.lim.solo = true → u ≠ .bitc true) :
    From C σ0 (fun _ σ' => Later C σ σ') (Go.connect x y) σ := by
  have htx : tfix (σ.tag x) = false := by rw [hx]; exact us
  have hty : (σ.tag y).scrit = false := by rw [hy]; exact ts
  have hk : tkeep C.lim.solo (σ.tag x) ≠ true := by
    intro h
    rcases tkeep_cases h with h | h
    · rw [htx] at h; cases h
    · have h2 := h.2
      rw [hx, hg h.1] at h2; cases h2
  refine (From.connect hl ⟨by rw [hx]; exact hu, by rw [hy]; exact ht, fun h => by (rw [htx] at h; cases h),
    by rw [hx]; exact un, fun h => by (rw [hty] at h; cases h), by rw [hy]; exact tn, hb,
    ftag_old hl.inv hx (.inl hz), ftag_old hl.inv hy (.inl hz), fun h1 h2 => by (rw [hx, hg h1] at h2; cases h2),
    fun h1 e => hh h1 (hx.symm.trans e)⟩
    (fun h => absurd h hk) (fun h => by (rw [hty] at h; cases h)) (fun σ' m _ _ => hE σ' m)).cons ?_
  intro _ σ' _ ⟨l, _, _, _⟩
  exact l.later (.refl hl.inv) (fun h => absurd h hk) (fun h => by (rw [hty] at h; cases h))

/-- an edge that is there already -/
theorem From.connectOld {C : RC} {σ0 σ : Rt} (hl : Later C σ0 σ) {x y : Nat} (h : (x, y) ∈ σ.store.edges) :
    From C σ0 (fun _ σ' => Later C σ σ') (Go.connect x y) σ := by
  refine From.write hl ?_
  intro c hc σ1 he
  have hin := he.mono.edges x y h
  have ht := (he.inv.edge x y hin).tags
  have hlv : (σ1.store.live x && σ1.store.live y) = true := by
    rw [(he.inv.live x).2 ht.1, (he.inv.live y).2 ht.2]; rfl
  have e : σ1.store.step c (.connect x y) = (.ok (), σ1.store) := by
    simp only [Store.step, hlv, if_true, List.contains_iff_mem.2 hin, hc.1, he.inv.dup]
  have ea : σ1.after c (.connect x y) σ1.tag σ1.own = σ1 := by
    simp only [Rt.after, e]
  refine ⟨σ1.tag, σ1.own, (), by rw [e], ?_⟩
  rw [ea]
  exact ⟨.refl he.inv, hl.trans he.toLater, he.toLater⟩

end Semnet.Race
