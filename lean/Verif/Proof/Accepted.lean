import Verif.Proof.Stray
/-
  Proof: which identifiers `GetRemark` accepts, in terms of the entities of the storage.
-/
namespace Semnet
open Spec

variable {cfg : Cfg} {lim : Lim} {σ : St}

/-- from the node number `i` of an entity the references go on to its end -/
theorem Whole.runs_at {k x : Nat} (h : Whole σ k x) {i y : Nat} (hy : (trail σ.store (size k) x)[i]? = some y) :
    i + 1 ≤ size k ∧ Runs σ (size k - 1 - i) y := by
  rcases h.nodes with ⟨a, b, c, t1, t2, t3, hk, hc, h1, h2, h3⟩ | ⟨hk, a, b, r1, r2, h1, h2⟩ | ⟨hk, a, v, r1, h1⟩
  · have hsz : size k = 4 := by cases hk <;> rfl
    have e : trail σ.store (size k) x = [x, a, b, c] := by
      rw [hsz]
      simp [trail, (back_fwd hc.ab).1, (back_fwd hc.bc).1, (back_fwd hc.cd).1]
    have l : Runs σ 0 c := .last (by rw [h3]; cases hk <;> rfl)
    rw [e] at hy
    rw [hsz]
    match i, hy with
    | 0, hy => cases hy; exact ⟨by omega, .next hc.ab (.next hc.bc (.next hc.cd l))⟩
    | 1, hy => cases hy; exact ⟨by omega, .next hc.bc (.next hc.cd l)⟩
    | 2, hy => cases hy; exact ⟨by omega, .next hc.cd l⟩
    | 3, hy => cases hy; exact ⟨by omega, l⟩
    | i + 4, hy => simp at hy
  · subst hk
    have e : trail σ.store (size Class.detailId) x = [x, a, b] := by
      show trail σ.store 3 x = _
      simp [trail, (back_fwd r1).1, (back_fwd r2).1]
    have l : Runs σ 0 b := .last (by rw [h2]; rfl)
    have hsz : size Class.detailId = 3 := rfl
    rw [e] at hy
    rw [hsz]
    match i, hy with
    | 0, hy => cases hy; exact ⟨by omega, .next r1 (.next r2 l)⟩
    | 1, hy => cases hy; exact ⟨by omega, .next r2 l⟩
    | 2, hy => cases hy; exact ⟨by omega, l⟩
    | i + 3, hy => simp at hy
  · subst hk
    have e : trail σ.store (size Class.bitId) x = [x, a] := by
      show trail σ.store 2 x = _
      simp [trail, (back_fwd r1).1]
    have l : Runs σ 0 a := .last (by rw [h1]; rfl)
    have hsz : size Class.bitId = 2 := rfl
    rw [e] at hy
    rw [hsz]
    match i, hy with
    | 0, hy => cases hy; exact ⟨by omega, .next r1 l⟩
    | 1, hy => cases hy; exact ⟨by omega, l⟩
    | i + 2, hy => simp at hy

/-- two references further there is a node exactly if the entity has two more nodes -/
theorem Runs.two (hz : cfg.zero = false) (hi : Inv cfg lim σ) {n x : Nat} (h : Runs σ n x) (hx : σ.tag x ≠ .none) :
    (σ.store.live x = true ∧ σ.store.live (σ.store.fwd x) = true ∧ σ.store.live (σ.store.fwd (σ.store.fwd x)) = true) ↔
      2 ≤ n := by
  have d0 := hi.dead0 hz
  have lx := (hi.live x).2 hx
  cases h with
  | last h =>
    have : σ.store.fwd x = 0 := hi.noF _ h
    simp [this, d0]
  | @next n x y r h =>
    have e : σ.store.fwd x = y := r.f
    have ly : ∀ {y m}, Runs σ m y → σ.store.live y = true := by
      intro y m h
      refine (hi.live y).2 fun e => ?_
      cases h with
      | last h => rw [e] at h; cases h
      | next r _ => exact r.hy (r.f.symm.trans (hi.ref0 y e).1)
    rw [e]
    have ly1 := ly h
    cases h with
    | last h =>
      have : σ.store.fwd y = 0 := hi.noF _ h
      simp [this, d0]
    | @next n _ z r' h' =>
      have e' : σ.store.fwd y = z := r'.f
      rw [e']
      simp [lx, ly1, ly h']

theorem Sound.accepted {st : State} (hz : cfg.zero = false) (hs : Sound cfg lim st) (x : Nat) :
    (st.world.store.live x = true ∧ st.world.store.live (st.world.store.fwd x) = true ∧
        st.world.store.live (st.world.store.fwd (st.world.store.fwd x)) = true) ↔
      (st.world.store.live 1 = true ∧ 1 ≤ x ∧ x ≤ 6) ∨
      ∃ k ∈ classes, ∃ y ∈ st.world.store.sources k, ∃ i, i + 2 < size k ∧
        (trail st.world.store (size k) y)[i]? = some x := by
  rcases hs with hb | ⟨σ, h, hc⟩
  · rw [hb]
    simp [State.init, World.open, Store.empty, Store.live, hz]
    intro k _ y hy
    cases hy
  · rw [← h.is.store]
    have hi := h.inv
    have d0 := hi.dead0 hz
    have lroot : ∀ j, 1 ≤ j → j ≤ 8 → σ.store.live j = true := fun j h1 h2 =>
      (hi.live j).2 (by rw [(hi.root j).2 ⟨h1, h2⟩]; simp)
    constructor
    · rintro ⟨l1, l2, l3⟩
      have hx := (hi.live x).1 l1
      by_cases h9 : 9 ≤ x
      · right
        obtain ⟨k, hk, y, hy, hm⟩ := Semnet.mem_inventory.1 ((hc.mem_inventory hi x).2 ⟨h9, hx⟩)
        obtain ⟨i, hit⟩ := List.mem_iff_getElem?.1 hm
        obtain ⟨_, hw, _⟩ := hc.strand hi hk hy
        obtain ⟨h1, hr⟩ := hw.runs_at hit
        have := (hr.two hz hi hx).1 ⟨l1, l2, l3⟩
        exact ⟨k, hk, y, hy, i, by omega, hit⟩
      · left
        have x0 : x ≠ 0 := fun e => by rw [e, d0] at l1; cases l1
        have f8 : σ.store.fwd 8 = 0 := hi.ends.1
        have f7 : σ.store.fwd 7 = 8 := hi.roots 7 (by omega) (by omega)
        have x7 : x ≠ 7 := fun e => by rw [e, f7, f8, d0] at l3; cases l3
        have x8 : x ≠ 8 := fun e => by rw [e, f8, d0] at l2; cases l2
        exact ⟨lroot 1 (by omega) (by omega), by omega, by omega⟩
    · rintro (⟨_, h1, h6⟩ | ⟨k, hk, y, hy, i, hlt, hit⟩)
      · have e : σ.store.fwd x = x + 1 := hi.roots x (by omega) (by omega)
        have e' : σ.store.fwd (x + 1) = x + 1 + 1 := hi.roots (x + 1) (by omega) (by omega)
        rw [e, e']
        exact ⟨lroot _ (by omega) (by omega), lroot _ (by omega) (by omega), lroot _ (by omega) (by omega)⟩
      · obtain ⟨_, hw, hst⟩ := hc.strand hi hk hy
        obtain ⟨h1, hr⟩ := hw.runs_at hit
        exact (hr.two hz hi (hst.some x (List.mem_iff_getElem?.2 ⟨i, hit⟩)).1).2 (by omega)

/-- where there is a node 0, the node that a node refers to exists -/
theorem Sound.fwd_live {st : State} (hz : cfg.zero = true) (hs : Sound cfg lim st) (x : Nat) :
    st.world.store.live (st.world.store.fwd x) = true := by
  rcases hs with hb | ⟨σ, h, _⟩
  · rw [hb]
    simp [State.init, World.open, Store.empty, Store.live, hz]
    rfl
  · rw [← h.is.store]
    have hi := h.inv
    by_cases h0 : σ.fwd x = 0
    · have : σ.store.fwd x = 0 := h0
      rw [this]
      exact (hi.live 0).2 (by rw [(hi.zero 0).2 ⟨rfl, hz⟩]; simp)
    · refine (hi.live _).2 fun e => ?_
      obtain ⟨h1, h2⟩ := hi.refB x h0
      exact h2 (h1.symm.trans (hi.ref0 _ e).2)

end Semnet
