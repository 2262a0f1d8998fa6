import Verif.Proof.Vain
/-
  A class node that does not exist although its identifier has been given away never exists, so nothing can be connected to
  it.
-/
namespace Semnet
open Spec

abbrev VainL {α : Type} (cfg : Cfg) (c : Nat) (good : α → Prop) (p : Go α) : Prop :=
  Vain cfg (Lost c) (fun _ => True) good p

theorem lost_step {c : Nat} {s : Store} (h : Lost c s) (cfg : Cfg) (o : Op) : Lost c (s.step cfg o).2 := by
  cases o with
  | create =>
    refine ⟨?_, ?_, ?_⟩
    · have := h.live
      simp only [Store.step, Store.created, Store.live, List.contains_cons, Bool.or_eq_true] at this ⊢
      exact .inr this
    · have := h.gone
      have := h.past
      simp only [Store.step, Store.created, Store.live, List.contains_cons, Bool.or_eq_false_iff] at *
      refine ⟨?_, ‹_›⟩
      simp only [beq_eq_false_iff_ne]
      omega
    · have := h.past
      simp only [Store.step, Store.created]
      omega
  | setReference x y =>
    simp only [Store.step]
    split
    · exact ⟨h.live, h.gone, h.past⟩
    · exact h
  | connect x y =>
    have h' : Lost c (s.connected cfg x y) := ⟨h.live, h.gone, by have := h.past; simp only [Store.connected]; omega⟩
    simp only [Store.step]
    split
    · split
      · split
        · exact h
        · exact h'
        · exact h
      · exact h'
    · exact h
  | _ => exact h

namespace VainL
open Vain (seq stop bind mono)
variable {cfg : Cfg} {c : Nat}

/-- nothing that a program can do makes the node -/
theorem any {α : Type} : ∀ p : Go α, VainL cfg c (fun _ => True) p := by
  intro p
  induction p with
  | op o k ih => exact ⟨fun s hs => ⟨lost_step hs cfg o, ih _⟩, ih _⟩
  | getMem k ih => exact fun m _ => ih m
  | setMem u k ih => exact ⟨fun _ _ => trivial, ih⟩
  | _ => trivial

theorem node : VainL cfg c (fun _ => False) (Class.createNode c) := by
  refine seq (any _) fun x => stop ⟨fun s hs => ⟨lost_step hs cfg _, ?_⟩, trivial⟩
  simp only [Store.step, hs.gone, Bool.and_false]
  trivial

theorem story : VainL cfg Class.storyId (fun _ => False) Story.createStory := seq (any _) fun _ => stop node

theorem fact (hc : c = Class.factId ∨ c = Class.storyId) : VainL cfg c (fun _ => False) Fact.createFirstStoryFact := by
  rcases hc with rfl | rfl
  · exact seq (any _) fun _ => stop node
  · exact seq (any _) fun _ => seq (any _) fun _ => seq (any _) fun _ => stop story

theorem createStory (hc : c = Class.remarkId ∨ c = Class.factId ∨ c = Class.storyId) (fuel : Nat) (o p : GoStr) :
    VainL cfg c (fun _ => False) (Graph.createStory fuel o p) := by
  rcases hc with rfl | hc
  · exact seq (any _) fun _ => stop node
  · exact seq (any _) fun _ => seq (any _) fun _ => seq (any _) fun _ => seq (any _) fun _ => seq (any _) fun _ => stop (fact hc)

end VainL

/-- no remark -/
def Futile (_ : Call) (y : Yield) : Prop := ∀ r, y ≠ .created r

open Vain (seq stop bind mono) in
open VainL in
theorem lost_blight (cfg : Cfg) (fuel : Nat) {c : Nat} (hc : c = Class.remarkId ∨ c = Class.factId ∨ c = Class.storyId) :
    Blight cfg fuel (Lost c) (fun _ => True) Futile (fun _ => True) [] := by
  refine ⟨trivial, ?_, ?_, fun c r h => h r rfl, fun i qs => any _⟩
  · intro k
    cases k with
    | createStory o p => exact stop (VainL.createStory hc fuel o p)
    | getRemark i => exact seq (any _) fun _ => fun r h => by cases h
    | _ => exact fun r h => by cases h
  · intro k
    cases k with
    | createStory o p => exact stop (VainL.createStory hc fuel o p)
    | getRemark i => exact seq (any _) fun _ => (rfl : none = none)
    | _ => exact (rfl : none = none)

end Semnet
