import Verif.Props.C15
import Verif.Props.C16
import Verif.Proof.Lost
/- C64: a class node whose identifier has been given away. -/
namespace Semnet.Props
open Spec Sample

/-- Let the first class node exist, but not the class node of remarks, of facts or of stories, its identifier having been
    given to something else.  If no remark exists, then whatever threads and processes do - any calls in any interleaving,
    with failing storage calls, crashes and new processes - none is ever created. -/
theorem C64_no_remark_ever {cfg : Cfg} {fuel : Nat} {home : Nat → Nat} {c : Nat}
    (hc : c = Class.remarkId ∨ c = Class.factId ∨ c = Class.storyId) {s : Store} (h : Lost c s) (ts : List Move) :
    let y := (Crowd.start ⟨World.open s, []⟩).moves cfg fuel home ts
    y.log = [] ∧ Lost c y.store := by
  have k := (lost_blight cfg fuel hc).reached h home ts
  exact ⟨k.log, k.store⟩

/-- Every call of CreateStory fails. -/
theorem C64_calls_fail {cfg : Cfg} {fuel : Nat} {home : Nat → Nat} {c : Nat}
    (hc : c = Class.remarkId ∨ c = Class.factId ∨ c = Class.storyId) {s : Store} (h : Lost c s) (ts : List Move)
    {i : Nat} {b : Begun} {r : RemE} (hb : ((Crowd.start ⟨World.open s, []⟩).moves cfg fuel home ts).cur i = some b) :
    Spec.Go.end b.prog ≠ some (.ok (.created r)) :=
  fun he => (((lost_blight cfg fuel hc).reached h home ts).cur i b hb).end he r rfl

/-- The same for a history of calls made one after the other, with failing storage calls, crashes and restarts. -/
theorem C64_history {cfg : Cfg} {fuel : Nat} {c : Nat} (hc : c = Class.remarkId ∨ c = Class.factId ∨ c = Class.storyId)
    {s : Store} (h : Lost c s) (es : List Event) :
    (State.events cfg fuel ⟨World.open s, []⟩ es).log = [] ∧ Lost c (State.events cfg fuel ⟨World.open s, []⟩ es).world.store := by
  obtain ⟨h1, _, h3⟩ := (lost_blight cfg fuel hc).events es (st := ⟨World.open s, []⟩) h trivial rfl
  exact ⟨h3, h1⟩

/-- Witness: the process dies in the very first call after making the first class node; five calls, which fail, make the
    class nodes up to that of remarks, and the identifier of the next one is spent on an edge. -/
theorem C64_after_crash :
    Lost Class.factId (after cfgA fuel (.crash (.createStory (bytes "1") (bytes "0")) Go.noFault 2 ::
      List.replicate 5 (call (.createStory (bytes "1") (bytes "0"))))).world.store := by
  refine ⟨?_, ?_, ?_⟩ <;> decide +kernel

/-- Witness: the process dies in the very first call after making the class node of remarks; one call, which fails, spends
    the identifier of the class node of stories. -/
theorem C64_after_late_crash :
    Lost Class.storyId (after cfgA fuel [.crash (.createStory (bytes "1") (bytes "0")) Go.noFault 12,
      call (.createStory (bytes "1") (bytes "0"))]).world.store := by
  refine ⟨?_, ?_, ?_⟩ <;> decide +kernel

/-- Witness: a storage whose edges take no identifiers recovers, but the first remark it then creates cannot be read. -/
theorem C64_unreadable_remark :
    let cfg : Cfg := { cfgA with arrow := 0 }
    let st := after cfg fuel [.crash (.createStory (bytes "1") (bytes "0")) Go.noFault 12,
      call (.createStory (bytes "1") (bytes "0"))]
    ∃ e ∈ st.log, ((Remark.getObjectAndProperty fuel e.handle).exec cfg st.world).1 = .err .remarkSourceDetails := by
  decide +kernel

/-- a thread whose CreateStory fails on such a storage, at the class node of facts -/
example : ((((Crowd.start ⟨World.open (after cfgA fuel (.crash (.createStory (bytes "1") (bytes "0")) Go.noFault 2 ::
      List.replicate 5 (call (.createStory (bytes "1") (bytes "0"))))).world.store, []⟩).moves cfgA fuel (fun i => i)
      (.begin 1 (.createStory (bytes "1") (bytes "0")) :: List.replicate 173 (.step 1 .ok))).cur 1).map
        (fun b => Spec.Go.end b.prog matches some (.err .noNode))) = some true := by
  decide +kernel

end Semnet.Props
