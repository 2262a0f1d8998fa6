import Verif.Proof.Api
import Verif.Props.Sample
/- C17: queries never write. -/
namespace Semnet.Props
open Spec Sample

/-- On any storage with the class nodes and at least one bit node — whatever else it contains, reachable or
    not — any query with any handle leaves the storage exactly as it was, whichever storage calls fail. -/
theorem C17_queries_never_write (cfg : Cfg) (fuel : Nat) (r : RemE) (q : Query) (f : Nat → Fate) (w : World)
    (h1 : w.store.live 1 = true) (h2 : w.store.sources 1 ≠ []) :
    ((q.ask fuel r).run cfg f w).2.store = w.store :=
  ((Quiet.query fuel r q).stays h1 h2).run rfl

/-- The same if the process dies in the middle of the query. -/
theorem C17_dying_queries_never_write (cfg : Cfg) (fuel : Nat) (r : RemE) (q : Query) (f : Nat → Fate) (n : Nat)
    (w : World) (h1 : w.store.live 1 = true) (h2 : w.store.sources 1 ≠ []) :
    (q.ask fuel r).crashAfter cfg n f w = w.store :=
  ((Quiet.query fuel r q).stays h1 h2).crash rfl

/-- GetRemark does not write, on any storage, initialised or not. -/
theorem C17_get_remark_never_writes (cfg : Cfg) (i : Nat) (f : Nat → Fate) (w : World) :
    ((Graph.getRemark i).run cfg f w).2.store = w.store ∧
    ∀ n, (Graph.getRemark i).crashAfter cfg n f w = w.store :=
  ⟨(stays_getRemark cfg i w.store).run rfl, fun _ => (stays_getRemark cfg i w.store).crash rfl⟩

/-- So nothing is written by any query, with any handle, after any fault-free history that has stored a
    remark, whatever fails during the query. -/
theorem C17_after_calm_history {cfg : Cfg} {fuel : Nat} {es : List Event} (h : Calm cfg fuel es)
    (hl : (after cfg fuel es).log ≠ []) (r : RemE) (q : Query) (f : Nat → Fate) :
    ((q.ask fuel r).run cfg f (after cfg fuel es).world).2.store = (after cfg fuel es).world.store := by
  obtain ⟨σ, hs, _⟩ := h.sound.holds hl
  obtain ⟨h1, h2⟩ := holds_initialised hs hl
  exact C17_queries_never_write cfg fuel r q f _ h1 h2

/-- Nor after storage failures and crashes (storages without node 0). -/
theorem C17_after_stormy_history {cfg : Cfg} (hz : cfg.zero = false) {fuel : Nat} {es es' : List Event}
    (h : Stormy cfg fuel es es') (r : RemE) (q : Query) (f : Nat → Fate) :
    ((q.ask fuel r).run cfg f (after cfg fuel (es ++ es')).world).2.store =
      (after cfg fuel (es ++ es')).world.store := by
  obtain ⟨σ, hs⟩ := h.holds hz
  obtain ⟨e, he⟩ := List.exists_mem_of_ne_nil _ h.log
  obtain ⟨h1, h2⟩ := holds_initialised hs (ne_nil_of_mem (mem_later (es' := es') he))
  exact C17_queries_never_write cfg fuel r q f _ h1 h2

/-- the sample storage is initialised, and a query on it does storage calls -/
example : stA.world.store.live 1 = true ∧ stA.world.store.sources 1 ≠ [] ∧
    succeeds ((Query.getStory.ask fuel ⟨146, 148, 149, 150⟩).exec cfgA stA.world) = true := by decide +kernel

end Semnet.Props
