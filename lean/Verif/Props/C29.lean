import Verif.Proof.Finish
import Verif.Props.Sample
/- C29: every API call finishes. -/
namespace Semnet.Props
open Spec Sample

/-- The loop budget `fuel` is one more than the number of bytes of the longest string passed so far (at least 31, the
    bits of a rune).  With it no API call after a fault-free history - creating call, query on a logged remark or
    `GetRemark` of any identifier - runs out of iterations in any of its loops. -/
theorem C29_calls_finish {cfg : Cfg} {fuel : Nat} {es : List Event} (h : Calm cfg fuel es) {c : Call}
    (ht : ∀ t ∈ c.texts, t.length < fuel) :
    ((c.prog fuel (after cfg fuel es).log).exec cfg (after cfg fuel es).world).1 ≠ .spin :=
  h.finishes ht

/-- The same on storages without a node 0 after any failures and crashes, and while storage calls fail in any
    pattern. -/
theorem C29_calls_finish_under_failures {cfg : Cfg} (hz : cfg.zero = false) {fuel : Nat} {es es' : List Event}
    (h : Stormy cfg fuel es es') {c : Call} (ht : ∀ t ∈ c.texts, t.length < fuel) (f : Nat → Fate) :
    ((c.prog fuel (after cfg fuel (es ++ es')).log).run cfg f (after cfg fuel (es ++ es')).world).1 ≠ .spin :=
  h.finishes hz ht f

/-- So the budget is immaterial: whole histories end in the same state whatever larger budget they are run with, as
    they would with the unbounded loops of the code. -/
theorem C29_budget_is_immaterial {cfg : Cfg} {fuel fuel' : Nat} (hf : fuel ≤ fuel') {es : List Event}
    (h : Calm cfg fuel es) : after cfg fuel' es = after cfg fuel es := by
  have key : ∀ (n : Nat) (es : List Event), es.length = n → Calm cfg fuel es → after cfg fuel' es = after cfg fuel es := by
    intro n
    induction n with
    | zero => intro es hn _; rw [List.length_eq_zero_iff.1 hn]; simp only [after, State.events, List.foldl_nil]
    | succ n ih =>
      intro es hn h
      obtain ⟨es1, e, rfl⟩ : ∃ es1 e, es = es1 ++ [e] := by
        rcases List.eq_nil_or_concat es with h0 | ⟨es1, e, h0⟩
        · rw [h0] at hn; cases hn
        · exact ⟨es1, e, by simpa using h0⟩
      have h1 := h.left
      have := ih es1 (by simpa using hn) h1
      rw [after_append, after_append, this]
      have he := h.calm e (by simp)
      have hb := h.budget.2 e (by simp)
      exact event_fuel hf he fun c hc => h1.finishes (by rw [hc] at hb; exact hb)
  exact key es.length es rfl h

/-- With failures and crashes, on storages without a node 0. -/
theorem C29_budget_is_immaterial_under_failures {cfg : Cfg} (hz : cfg.zero = false) {fuel fuel' : Nat}
    (hf : fuel ≤ fuel') {es es' : List Event} (h : Stormy cfg fuel es es') {c : Call}
    (ht : ∀ t ∈ c.texts, t.length < fuel) (f : Nat → Fate) :
    (c.prog fuel' (after cfg fuel (es ++ es')).log).run cfg f (after cfg fuel (es ++ es')).world =
    (c.prog fuel (after cfg fuel (es ++ es')).log).run cfg f (after cfg fuel (es ++ es')).world :=
  (le_call hf _ c).run (h.finishes hz ht f)

example : Calm cfgA fuel es ∧ (after cfgA fuel es).log.length = 3 := by
  refine ⟨calmA, ?_⟩
  rw [after_es]; decide +kernel

/-- a budget that is too small is used up: reading back text needs one iteration per bit -/
example : ((after cfgA fuel es).log[0]?.map fun e =>
    ((Remark.getObjectAndProperty 3 e.handle).exec cfgA (after cfgA fuel es).world).1) = some .spin := by
  rw [after_es]; decide +kernel

end Semnet.Props
