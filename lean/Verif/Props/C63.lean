import Verif.Props.C15
import Verif.Props.C16
import Verif.Proof.CharlessReach
/- C63: bits that were left without characters. -/
namespace Semnet.Props
open Spec Sample

/-- FALSE of the code on storages with node 0: the process dies in the very first call, between making the bits and making
    their characters; afterwards CreateStory and AddRemarkToFact report success, and the texts read back are other texts. -/
theorem C63_wrong_texts :
    let st := after cfgB fuel [.crash (.createStory (bytes "1") (bytes "0")) Go.noFault 30,
      call (.createStory (bytes "ab") (bytes "c d"))]
    ∃ e ∈ st.log, e.object = bytes "ab" ∧ e.property = bytes "c d" ∧
      ((Remark.getObjectAndProperty fuel e.handle).exec cfgB st.world).1 = .ok ([0, 0], [0, 32, 0]) := by
  decide +kernel

/-- The same after a storage call that fails, without any crash. -/
theorem C63_wrong_texts_after_failure :
    let st := after cfgB fuel [.call (.createStory (bytes "1") (bytes "0")) (failAt 30),
      call (.createStory (bytes "ab") (bytes "c d"))]
    ∃ e ∈ st.log, e.object = bytes "ab" ∧ e.property = bytes "c d" ∧
      ((Remark.getObjectAndProperty fuel e.handle).exec cfgB st.world).1 = .ok ([0, 0], [0, 32, 0]) := by
  decide +kernel

/-- What holds on storages without node 0: let the two bits refer to no characters.  Whatever threads and processes then do -
    any calls in any interleaving, with failing storage calls, crashes and new processes - no remark is ever created, no
    question about texts is ever answered, and the bits never get characters.  (Missing: storages with node 0, for which it
    is false.) -/
theorem C63_unusable_for_ever_partial {cfg : Cfg} {fuel : Nat} {home : Nat → Nat} {a b : Nat} {s : Store} (h : Charless a b s)
    (log : List Entry) (ts : List Move) :
    let y := (Crowd.start ⟨World.open s, log⟩).moves cfg fuel home ts
    y.log = log ∧ (∀ x ∈ y.heard, ¬ x.call.Textual) ∧ Charless a b y.store := by
  have k := (charless_blight cfg fuel a b log).reached h home ts
  refine ⟨k.log, fun x hx => ?_, k.store⟩
  rcases k.heard x hx with h | ⟨h, _⟩
  · cases h
  · exact h

/-- No call that stores or reads texts succeeds. -/
theorem C63_calls_fail_partial {cfg : Cfg} {fuel : Nat} {home : Nat → Nat} {a b : Nat} {s : Store} (h : Charless a b s)
    (log : List Entry) (ts : List Move) {i : Nat} {c : Begun} {z : Yield}
    (hb : ((Crowd.start ⟨World.open s, log⟩).moves cfg fuel home ts).cur i = some c) (ht : c.call.Textual)
    (he : Spec.Go.end c.prog = some (.ok z)) : z = .nothing := by
  rcases (((charless_blight cfg fuel a b log).reached h home ts).cur i c hb).end he with h | ⟨h, _⟩
  · exact h
  · exact absurd ht h

/-- No reader that asks about texts is answered. -/
theorem C63_readers_fail_partial {cfg : Cfg} {fuel : Nat} {home : Nat → Nat} {a b : Nat} {s : Store} (h : Charless a b s)
    (log : List Entry) (ts : List Move) {j : Nat} {rd : Asker} {as : List Answer}
    (hr : ((Crowd.start ⟨World.open s, log⟩).moves cfg fuel home ts).readers j = some rd)
    (ht : ∃ q ∈ rd.asked, q.Textual) : Spec.Go.end rd.prog ≠ some (.ok as) := by
  obtain ⟨q, hq, hq'⟩ := ht
  exact fun he => (((charless_blight cfg fuel a b log).reached h home ts).readers j rd hr).end he q hq hq'

/-- The same for a history of calls made one after the other, with failing storage calls, crashes and restarts. -/
theorem C63_history_partial {cfg : Cfg} {fuel : Nat} {a b : Nat} {s : Store} (h : Charless a b s) (log : List Entry)
    (es : List Event) :
    (State.events cfg fuel ⟨World.open s, log⟩ es).log = log ∧
      Charless a b (State.events cfg fuel ⟨World.open s, log⟩ es).world.store := by
  obtain ⟨h1, _, h3⟩ := (charless_blight cfg fuel a b log).events es (st := ⟨World.open s, log⟩) h ⟨rfl, rfl⟩ rfl
  exact ⟨h3, h1⟩

/-- On storages without node 0, every first call that succeeds can be cut so: there is a storage call after which the death of
    the process leaves such a storage. -/
theorem C63_every_first_call {cfg : Cfg} (hz : cfg.zero = false) {fuel : Nat} {c : Call}
    (hl : (after cfg fuel [call c]).log ≠ []) :
    ∃ n a b, Charless a b (after cfg fuel [.crash c Go.noFault n]).world.store := by
  obtain ⟨n, hn⟩ := first_cut hz (fuel := fuel) (c := c) hl
  exact ⟨n, _, _, hn⟩

/-- So every first call that succeeds can be interrupted in such a way that no call ever creates a remark again. -/
theorem C63_every_first_call_can_be_fatal {cfg : Cfg} (hz : cfg.zero = false) {fuel : Nat} {c : Call}
    (hl : (after cfg fuel [call c]).log ≠ []) :
    ∃ n, ∀ es, (after cfg fuel (.crash c Go.noFault n :: es)).log = [] := by
  obtain ⟨n, a, b, h⟩ := C63_every_first_call hz hl
  refine ⟨n, fun es => ?_⟩
  exact (C63_history_partial (cfg := cfg) (fuel := fuel) h [] es).1

/-- two calls that succeed as the first ones -/
example : cfgA.zero = false ∧ (after cfgA fuel [call (.createStory (bytes "1") (bytes "0"))]).log ≠ [] ∧
    (after cfgA fuel [call (.createStory (bytes "ab") (bytes "c d"))]).log ≠ [] := by
  decide +kernel

/-- Witness: a crash of the very first call leaves such a storage. -/
theorem C63_after_crash :
    Charless 16 14 (after cfgA fuel [.crash (.createStory (bytes "1") (bytes "0")) Go.noFault 30]).world.store := by
  refine ⟨?_, ?_, ?_, ?_, ?_, ?_, ?_⟩ <;> decide +kernel

/-- Witness: so does one failing storage call. -/
theorem C63_after_failure :
    Charless 16 14 (after cfgA fuel [.call (.createStory (bytes "1") (bytes "0")) (failAt 30)]).world.store := by
  refine ⟨?_, ?_, ?_, ?_, ?_, ?_, ?_⟩ <;> decide +kernel

/-- a thread whose CreateStory panics on such a storage -/
example : ((((Crowd.start ⟨World.open
      (after cfgA fuel [.crash (.createStory (bytes "1") (bytes "0")) Go.noFault 30]).world.store, []⟩).moves
      cfgA fuel (fun i => i) (.begin 1 (.createStory (bytes "ab") (bytes "c")) :: List.replicate 21 (.step 1 .ok))).cur 1).map
        (fun b => (b.call matches .createStory _ _, Spec.Go.end b.prog matches some .panic))) = some (true, true) := by
  decide +kernel

end Semnet.Props
