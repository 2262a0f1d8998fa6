import Verif.Proof.Machine
import Verif.Props.Sample
/- C40: CreateChildStory stops working for ever. -/
namespace Semnet.Props
open Spec Sample

/-- Once `AddFactToStory` has returned two facts, of any stories, `CreateChildStory` never returns a remark again: for no
    remark, no texts, after no further fault-free calls. -/
theorem C40_no_child_after_two_facts {cfg : Cfg} {fuel : Nat} {es es' : List Event} (h : Calm cfg fuel (es ++ es'))
    (h2 : 2 ≤ factsAdded cfg fuel es) (i : Nat) {o p : GoStr} (ho : o.length < fuel) (hp : p.length < fuel) (r : RemE) :
    ((Call.prog fuel (after cfg fuel (es ++ es')).log (.addChild i o p)).exec cfg (after cfg fuel (es ++ es')).world).1 ≠
      .ok (some r) := by
  refine h.sound.child_refused (.inl h.dup) h.budget.fits (fun hz => ?_) ⟨.std ho, .std hp⟩ r
  rw [links_T0 hz h]
  exact Nat.le_trans h2 (Nat.le_trans (facts_le_links cfg fuel es) (links_later cfg fuel es es'))

/-- After one fact `CreateChildStory` returns a remark at most once. -/
theorem C40_one_child_after_a_fact {cfg : Cfg} {fuel : Nat} {es es' : List Event} {j : Nat} {o' p' : GoStr}
    (h : Calm cfg fuel (es ++ [.call (.addChild j o' p') Go.noFault] ++ es')) (h1 : 1 ≤ factsAdded cfg fuel es)
    (hj : (after cfg fuel es).log.length < (after cfg fuel (es ++ [.call (.addChild j o' p') Go.noFault])).log.length)
    (i : Nat) {o p : GoStr} (ho : o.length < fuel) (hp : p.length < fuel) (r : RemE) :
    let st := after cfg fuel (es ++ [.call (.addChild j o' p') Go.noFault] ++ es')
    ((Call.prog fuel st.log (.addChild i o p)).exec cfg st.world).1 ≠ .ok (some r) := by
  refine h.sound.child_refused (.inl h.dup) h.budget.fits (fun hz => ?_) ⟨.std ho, .std hp⟩ r
  rw [links_T0 hz h]
  refine Nat.le_trans ?_ (links_later cfg fuel _ es')
  have h2 := Nat.le_trans h1 (facts_le_links cfg fuel es)
  rw [after_append] at hj
  rw [links_append]
  simp only [State.tally]
  have e : (after cfg fuel es).event cfg fuel (.call (.addChild j o' p') Go.noFault) =
      (after cfg fuel es).events cfg fuel [.call (.addChild j o' p') Go.noFault] := rfl
  rw [if_neg (by rw [e]; omega)]
  simp only [Call.link]
  split <;> omega

def twoFacts : List Event :=
  [call (.createStory (bytes "a") (bytes "b")), call (.addFact 0 (bytes "c") (bytes "d")),
   call (.addFact 0 (bytes "d") (bytes "c"))]

/-- two facts added to one story -/
example : Calm cfgB fuel (twoFacts ++ []) ∧ factsAdded cfgB fuel twoFacts = 2 := by
  refine ⟨⟨rfl, ⟨by decide, by decide +kernel⟩, by simp [twoFacts, call, Event.Calm]⟩, ?_⟩
  decide +kernel

/-- a fact and then a child story -/
example : factsAdded cfgB fuel (esB.take 2) = 1 ∧ (after cfgB fuel (esB.take 2)).log.length = 2 ∧
    (after cfgB fuel (esB.take 2 ++ [.call (.addChild 1 (bytes "c") (bytes "a")) Go.noFault])).log.length = 3 := by
  decide +kernel

end Semnet.Props
