import Verif.Proof.Uses
import Verif.Props.C35
/- C33: two writers at the same time. -/
namespace Semnet.Props
open Spec Sample

/-- The first process performs `n` storage calls, then the second runs to its end, then the first. -/
def overlap (cfg : Cfg) (n : Nat) (y : Duo) : Duo :=
  y.turns cfg (List.replicate n true ++ List.replicate 300 false ++ List.replicate 300 true)

/-- FALSE of the code.  Two processes begin CreateStory on an empty storage; both calls succeed, and afterwards neither
    remark can be read by a new process and no story can be created any more: both processes had created the two bits. -/
theorem C33_two_writers_destroy_storage :
    let y := overlap cfgA 26 (Duo.start fuel (Store.empty cfgA) (bytes "a") (bytes "b") (bytes "c") (bytes "d"))
    ∃ r1 r2, y.first.out = some (.ok r1) ∧ y.second.out = some (.ok r2) ∧
      ((Remark.getObjectAndProperty fuel r1).exec cfgA (World.open y.store)).1 = .err .wrongBitNodes ∧
      ((Remark.getObjectAndProperty fuel r2).exec cfgA (World.open y.store)).1 = .err .wrongBitNodes ∧
      ((Graph.createStory fuel (bytes "e") (bytes "f")).exec cfgA (World.open y.store)).1 = .err .wrongBitNodes := by
  refine ⟨⟨9, 11, 12, 13⟩, ⟨14, 16, 17, 18⟩, ?_⟩
  decide +kernel

/-- FALSE of the code also on a storage that has long been in use: two processes create the same remark, both calls
    succeed, and afterwards the pair can never be used again: it is stored twice. -/
theorem C33_two_writers_poison_pair :
    let y := overlap cfgA 90
      (Duo.start fuel (after cfgA fuel esShared).world.store (bytes "1") (bytes "0") (bytes "1") (bytes "0"))
    y.first.out.any (· matches .ok _) = true ∧ y.second.out.any (· matches .ok _) = true ∧
      ((Graph.createStory fuel (bytes "1") (bytes "0")).exec cfgA (World.open y.store)).1 = .err .tooManyCommonDetails := by
  decide +kernel

/-- What is true: processes that do not overlap.  After a calm history that has created a remark, any number of processes
    are started on the storage and perform API calls, each call from its beginning to its end, in any order.  Storage and
    log are as if one process had performed all the calls; so C01 to C09 hold of each remark.
    Missing for the full statement: calls that overlap, for which it is false. -/
theorem C33_taking_turns_partial {cfg : Cfg} {fuel : Nat} {es : List Event} (h : Calm cfg fuel es)
    (hl : (after cfg fuel es).log ≠ []) {ics : List (Nat × Call)} (ht : ∀ ic ∈ ics, ∀ t ∈ ic.2.texts, t.length < fuel) :
    ((Team.start (after cfg fuel es)).calls cfg fuel ics).store =
      (after cfg fuel (es ++ ics.map fun ic => .call ic.2 Go.noFault)).world.store ∧
    ((Team.start (after cfg fuel es)).calls cfg fuel ics).log =
      (after cfg fuel (es ++ ics.map fun ic => .call ic.2 Go.noFault)).log := by
  have := (TeamOK.start h hl).calls h.budget.fits ics fun ic hic t htt => .std (ht ic hic t htt)
  rw [← after_append] at this
  exact ⟨this.store, this.log⟩

/-- three processes, two stories and a remark added by a process to another's story -/
example : (Team.calls cfgA fuel (Team.start stA) [(0, .createStory (bytes "é") (bytes "d")),
      (1, .createStory (bytes "dc") (bytes "d")), (2, .addRemark 3 (bytes "b")), (0, .query 5 .getFirstFact)]).log.map
        (fun e => (e.object, e.property)) =
    [(bytes "ab", bytes "c"), (bytes "ab", bytes "d a"), (bytes "ba", bytes "c"), (bytes "é", bytes "d"),
      (bytes "dc", bytes "d"), (bytes "é", bytes "b")] := by
  decide +kernel

end Semnet.Props
