import Verif.Proof.Maimed
import Verif.Proof.Api
/-
  Every run that makes the two bits passes through a storage with one bit.
-/
namespace Semnet
open Spec

theorem crashAfter_zero {α : Type} {cfg : Cfg} : ∀ {p : Go α} {f : Nat → Fate} {w : World}, p.crashAfter cfg 0 f w = w.store := by
  intro p
  induction p with
  | getMem k ih => intro f w; exact ih _
  | setMem u k ih => intro f w; exact ih (w := ⟨w.store, w.mem.set u⟩)
  | _ => intro f w; rfl

/-- one storage call connects at most one node to the first class node, which then exists -/
theorem step_sources {cfg : Cfg} {s : Store} (h : s.sources 1 = []) (o : Op) :
    (s.step cfg o).2.sources 1 = [] ∨ ∃ x, (s.step cfg o).2.sources 1 = [x] ∧ (s.step cfg o).2.live 1 = true := by
  cases o with
  | create => exact .inl h
  | setReference x y =>
    simp only [Store.step]
    split <;> exact .inl h
  | connect x y =>
    cases hl : (s.live x && s.live y) with
    | false => simp only [Store.step, hl]; exact .inl h
    | true =>
      have hy : s.live y = true := (Bool.and_eq_true_iff.1 hl).2
      have h' : (s.connected cfg x y).sources 1 = [] ∨ ∃ z, (s.connected cfg x y).sources 1 = [z] ∧ (s.connected cfg x y).live 1 = true := by
        by_cases h1 : y = 1
        · subst h1
          refine .inr ⟨x, ?_, hy⟩
          simp only [Store.connected, Store.sources] at h ⊢
          rw [List.filter_cons_of_pos (by simp)]
          simp [h]
        · refine .inl ?_
          simp only [Store.connected, Store.sources] at h ⊢
          rw [List.filter_cons_of_neg (by simpa using h1)]
          exact h
      simp only [Store.step, hl, if_true]
      split
      · split
        · exact .inl h
        · exact h'
        · exact .inl h
      · exact h'
  | _ => exact .inl h

/-- Whatever fails, a run from no bit to two or more bits can be cut where there is one. -/
theorem cut {α : Type} {cfg : Cfg} : ∀ {p : Go α} {f : Nat → Fate} {w : World}, w.store.sources 1 = [] →
    2 ≤ ((p.run cfg f w).2.store.sources 1).length → ∃ n x, Maimed [x] (p.crashAfter cfg n f w) := by
  intro p
  induction p with
  | op o k ih =>
    intro f w h h2
    have key : ∀ (s : Store) (r : Except Err o.Res), (s.sources 1 = [] ∨ ∃ x, s.sources 1 = [x] ∧ s.live 1 = true) →
        2 ≤ (((k r).run cfg (fun i => f (i + 1)) ⟨s, w.mem⟩).2.store.sources 1).length →
        ∃ n x, Maimed [x] ((k r).crashAfter cfg n (fun i => f (i + 1)) ⟨s, w.mem⟩) := by
      intro s r hs h2
      rcases hs with hs | ⟨x, hx, hl⟩
      · exact ih r (w := ⟨s, w.mem⟩) hs h2
      · exact ⟨0, x, by rw [crashAfter_zero]; exact ⟨hl, hx, by simp, by simp⟩⟩
    unfold Go.run at h2
    cases hf : f 0 with
    | ok =>
      rw [hf] at h2
      obtain ⟨n, x, hn⟩ := key _ _ (step_sources h o) h2
      exact ⟨n + 1, x, by unfold Go.crashAfter; rw [hf]; exact hn⟩
    | fail =>
      rw [hf] at h2
      obtain ⟨n, x, hn⟩ := key w.store _ (.inl h) h2
      exact ⟨n + 1, x, by unfold Go.crashAfter; rw [hf]; exact hn⟩
    | failLate =>
      rw [hf] at h2
      obtain ⟨n, x, hn⟩ := key _ _ (step_sources h o) h2
      exact ⟨n + 1, x, by unfold Go.crashAfter; rw [hf]; exact hn⟩
  | getMem k ih =>
    intro f w h h2
    obtain ⟨n, x, hn⟩ := ih w.mem h h2
    refine ⟨n, x, ?_⟩
    cases n <;> exact hn
  | setMem u k ih =>
    intro f w h h2
    obtain ⟨n, x, hn⟩ := ih (w := ⟨w.store, w.mem.set u⟩) h h2
    refine ⟨n, x, ?_⟩
    cases n <;> exact hn
  | _ => intro f w h h2; exact absurd h2 (by show ¬ 2 ≤ (w.store.sources 1).length; rw [h]; simp)

/-- where there is a remark, there are two bits -/
theorem holds_bits {cfg lim st σ} (h : Holds cfg lim st σ) (hl : st.log ≠ []) : (st.world.store.sources 1).length = 2 := by
  obtain ⟨e, he⟩ := List.exists_mem_of_ne_nil _ hl
  have hb := (h.keeps.ok e he).bits
  have hi := h.inv
  have := hi.bits
  cases hb' : σ.bits with
  | none => exact absurd hb' hb
  | some bs =>
    rw [hb'] at this
    have hp := this.S1
    unfold St.S at hp
    rw [show Class.bitId = 1 from rfl, h.is.store] at hp
    simpa using hp.length_eq

end Semnet
