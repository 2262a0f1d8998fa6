import Verif.Proof.Api
import Verif.Props.Sample
/- C15: storage failures never lead to a wrong success.  True without a node 0, false with one. -/
namespace Semnet.Props
open Spec Sample

/-- Storages without node 0: after a calm beginning, storage calls may fail with or without effect, processes
    may crash and be restarted, in any order and number.  Every remark that any creating call returned, during
    the failures or before, answers all its queries as expected and is found by its identifier. -/
theorem C15_success_is_never_wrong {cfg : Cfg} (hz : cfg.zero = false) {fuel : Nat} {es es' : List Event}
    (h : Stormy cfg fuel es es') {e : Entry} (he : e ∈ (after cfg fuel (es ++ es')).log) :
    Readable cfg fuel (after cfg fuel (es ++ es')).log (after cfg fuel (es ++ es')).world e := by
  obtain ⟨σ, hs⟩ := h.holds hz
  exact hs.readable h.start.budget.fits he

/-- Storages without node 0: a query that succeeds although storage calls fail while it runs gives the
    expected answer. -/
theorem C15_faulty_query_is_never_wrong {cfg : Cfg} (hz : cfg.zero = false) {fuel : Nat} {es es' : List Event}
    (h : Stormy cfg fuel es es') {e : Entry} (he : e ∈ (after cfg fuel (es ++ es')).log) {q : Query} {a : Answer}
    (ha : e.answer (after cfg fuel (es ++ es')).log q = some a) (f : Nat → Fate) {x : Answer} {w : World}
    (hx : (q.ask fuel e.handle).run cfg f (after cfg fuel (es ++ es')).world = (.ok x, w)) : x = a := by
  obtain ⟨σ, hs⟩ := h.holds hz
  exact (hs.faulty hz h.start.budget.fits he ha f).2 x (by rw [hx])

/-- All storages: one call with failing storage calls (or one crash) after a calm history.  The remark it
    returns, and all earlier ones, read back as expected.  Missing: further calls, on storages with node 0. -/
theorem C15_one_faulty_call_partial {cfg : Cfg} {fuel : Nat} {es : List Event} (h : Calm cfg fuel es)
    (hl : (after cfg fuel es).log ≠ []) (ev : Event) (ht : ∀ t ∈ ev.texts, t.length < fuel) {e : Entry}
    (he : e ∈ (after cfg fuel (es ++ [ev])).log) :
    Readable cfg fuel (after cfg fuel (es ++ [ev])).log (after cfg fuel (es ++ [ev])).world e := by
  obtain ⟨σ, hs⟩ := h.stormOne hl ev ht
  exact hs.readable h.budget.fits he

/-- only the n-th storage call fails -/
def failAt (n : Nat) : Nat → Fate := fun k => if k = n then .fail else .ok

def esHalf : List Event :=
  [call (.createStory (bytes "0") (bytes "1")), call (.createStory (bytes "a") (bytes "b"))]

def esWrong : List Event :=
  esHalf ++ [.call (.createStory (bytes "1") (bytes "0")) (failAt 93), call (.createStory (bytes "1") (bytes "0"))]

/-- Witness on a storage with node 0: one storage call of `CreateStory("1", "0")` fails; the call is repeated
    and returns a remark, whose text cannot be read. -/
theorem C15_wrong_success_with_node_zero : (after cfgB fuel esWrong).log.length = 3 ∧
    ((after cfgB fuel esWrong).log[2]?.map fun e => (e.object, e.property,
      succeeds ((Remark.getObjectAndProperty fuel e.handle).exec cfgB (after cfgB fuel esWrong).world))) =
      some (bytes "1", bytes "0", false) := by
  decide +kernel

/-- a crash, a call with a failing storage call, a call that succeeds -/
example : Stormy cfgA fuel es [.crash (.addRemark 0 (bytes "b")) (failAt 3) 20,
    .call (.createStory (bytes "b") (bytes "a")) (failAt 40), call (.createStory (bytes "b") (bytes "a"))] :=
  ⟨calmA, by rw [after_es]; decide +kernel, by decide, by decide +kernel⟩

end Semnet.Props
