import Verif.Props.C16
import Verif.Props.C33
import Verif.Proof.MaimedReach
import Verif.Proof.Cost
/- C62: a storage with a wrong number of bit nodes can never be used again. -/
namespace Semnet.Props
open Spec Sample

/-- Let any number of nodes other than none and two be connected to the class node of bits.  Whatever threads and processes
    then do - any calls in any interleaving, with failing storage calls, crashes and new processes - no remark is ever
    created, no question about texts is ever answered, no process ever gets its bits, and the nodes connected to the class
    node remain the same. -/
theorem C62_unusable_for_ever {cfg : Cfg} {fuel : Nat} {home : Nat → Nat} {l : List Nat} {s : Store} (h : Maimed l s)
    (log : List Entry) (ts : List Move) :
    let y := (Crowd.start ⟨World.open s, log⟩).moves cfg fuel home ts
    y.log = log ∧ (∀ x ∈ y.heard, ¬ x.call.Textual) ∧ (∀ p, (y.mem p).isInitialized = false) ∧ Maimed l y.store := by
  have k := (maimed_blight cfg fuel l log).reached h home ts
  refine ⟨k.log, fun x hx => ?_, k.mem, k.store⟩
  rcases k.heard x hx with h | ⟨h, _⟩
  · cases h
  · exact h

/-- In particular none of the calls that store or read texts succeeds, whatever the others do meanwhile. -/
theorem C62_calls_fail {cfg : Cfg} {fuel : Nat} {home : Nat → Nat} {l : List Nat} {s : Store} (h : Maimed l s)
    (log : List Entry) (ts : List Move) {i : Nat} {b : Begun} {z : Yield}
    (hb : ((Crowd.start ⟨World.open s, log⟩).moves cfg fuel home ts).cur i = some b) (ht : b.call.Textual)
    (he : Spec.Go.end b.prog = some (.ok z)) : z = .nothing := by
  rcases (((maimed_blight cfg fuel l log).reached h home ts).cur i b hb).end he with h | ⟨h, _⟩
  · exact h
  · exact absurd ht h

/-- A thread that gets a remark by its identifier and asks about its texts is never answered, although none of its storage
    calls fails. -/
theorem C62_readers_fail {cfg : Cfg} {fuel : Nat} {home : Nat → Nat} {l : List Nat} {s : Store} (h : Maimed l s)
    (log : List Entry) (ts : List Move) {j : Nat} {rd : Asker} {as : List Answer}
    (hr : ((Crowd.start ⟨World.open s, log⟩).moves cfg fuel home ts).readers j = some rd)
    (ht : ∃ q ∈ rd.asked, q.Textual) : Spec.Go.end rd.prog ≠ some (.ok as) := by
  obtain ⟨q, hq, hq'⟩ := ht
  exact fun he => (((maimed_blight cfg fuel l log).reached h home ts).readers j rd hr).end he q hq hq'

/-- The same for a history of calls made one after the other, with failing storage calls, crashes and restarts. -/
theorem C62_history {cfg : Cfg} {fuel : Nat} {l : List Nat} {s : Store} (h : Maimed l s) (log : List Entry) (es : List Event) :
    let st := State.events cfg fuel ⟨World.open s, log⟩ es
    st.log = log ∧ st.world.mem.isInitialized = false ∧ Maimed l st.world.store := by
  obtain ⟨h1, h2, h3⟩ := (maimed_blight cfg fuel l log).events es (st := ⟨World.open s, log⟩) h rfl rfl
  exact ⟨h3, h2, h1⟩

/-- Every first call that succeeds can be cut so: there is a storage call after which the death of the process leaves such a
    storage. -/
theorem C62_every_first_call {cfg : Cfg} {fuel : Nat} {c : Call} (h : Calm cfg fuel [call c])
    (hl : (after cfg fuel [call c]).log ≠ []) :
    ∃ n x, Maimed [x] (after cfg fuel [.crash c Go.noFault n]).world.store := by
  obtain ⟨σ, hs, _⟩ := h.codes hl
  have h2 := holds_bits hs hl
  refine cut (p := c.prog fuel []) (w := World.open (Store.empty cfg)) rfl ?_
  have : (after cfg fuel [call c]).world.store = ((c.prog fuel []).run cfg Go.noFault (World.open (Store.empty cfg))).2.store := by
    show (State.call cfg fuel (State.init cfg) c Go.noFault).world.store = _
    simp only [State.call]
    split <;> simp_all [State.init]
  rw [← this]
  omega

/-- Witness: a crash of the very first call leaves such a storage. -/
theorem C62_after_crash :
    Maimed [14] (after cfgA fuel [.crash (.createStory (bytes "1") (bytes "0")) Go.noFault 28]).world.store := by
  refine ⟨?_, ?_, ?_, ?_⟩ <;> decide +kernel

/-- Witness: without any crash, so does one storage call of the very first API call that fails. -/
theorem C62_after_failure :
    Maimed [14] (after cfgA fuel [.call (.createStory (bytes "1") (bytes "0")) (failAt 29)]).world.store := by
  refine ⟨?_, ?_, ?_, ?_⟩ <;> decide +kernel

/-- Witness: two processes that write to an empty storage at the same time leave such a storage. -/
theorem C62_after_race :
    Maimed [146, 144, 21, 19]
      (overlap cfgA 26 (Duo.start fuel (Store.empty cfgA) (bytes "a") (bytes "b") (bytes "c") (bytes "d"))).store := by
  refine ⟨?_, ?_, ?_, ?_⟩ <;> decide +kernel

/-- two calls that succeed as the first ones, on two kinds of storages -/
example : (Calm cfgA fuel [call (.createStory (bytes "1") (bytes "0"))] ∧
      (after cfgA fuel [call (.createStory (bytes "1") (bytes "0"))]).log ≠ []) ∧
    (Calm cfgB fuel [call (.createStory (bytes "ab") (bytes "c d"))] ∧
      (after cfgB fuel [call (.createStory (bytes "ab") (bytes "c d"))]).log ≠ []) := by
  refine ⟨⟨⟨rfl, ⟨by decide, by decide +kernel⟩, by simp [call, Event.Calm]⟩, ?_⟩,
    ⟨⟨rfl, ⟨by decide, by decide +kernel⟩, by simp [call, Event.Calm]⟩, ?_⟩⟩ <;> decide +kernel

/-! a thread that has ended its CreateStory, a reader that has asked for texts -/

def storeHalf : Store := (after cfgA fuel [.crash (.createStory (bytes "1") (bytes "0")) Go.noFault 28]).world.store

example : (((Crowd.start ⟨World.open storeHalf, []⟩).moves cfgA fuel (fun i => i)
    (.begin 1 (.createStory (bytes "1") (bytes "0")) :: List.replicate 30 (.step 1 .ok))).cur 1).isNone = true := by
  decide +kernel

/-- a question that needs no texts is answered on a storage that was destroyed after it had been used: the remark made by
    one of two racing processes -/
example : (((Crowd.start ⟨World.open
      (overlap cfgA 26 (Duo.start fuel (Store.empty cfgA) (bytes "a") (bytes "b") (bytes "c") (bytes "d"))).store, []⟩).moves
      cfgA fuel (fun i => i) (.begin 1 (.getRemark 9) :: List.replicate 30 (.step 1 .ok))).heard.map
        (fun x => decide (x.answer = .remark ⟨9, 11, 12, 13⟩))) = [true] := by
  decide +kernel

example : ((((Crowd.start ⟨World.open
      (overlap cfgA 26 (Duo.start fuel (Store.empty cfgA) (bytes "a") (bytes "b") (bytes "c") (bytes "d"))).store, []⟩).moves
      cfgA fuel (fun i => i) (.spawn 1 9 [.getObjectAndProperty] :: List.replicate 40 (.read 1))).readers 1).map
        (fun rd => (decide (rd.asked = [.getObjectAndProperty]), Spec.Go.end rd.prog matches some (.err .wrongBitNodes)))) =
      some (true, true) := by
  decide +kernel

end Semnet.Props
