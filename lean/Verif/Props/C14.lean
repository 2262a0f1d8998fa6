import Verif.Proof.Api
import Verif.Props.Sample
/- C14: a crash loses nothing that was stored. -/
namespace Semnet.Props
open Spec Sample

/-- A calm history that has created a remark; then the process dies after the n-th storage call of any call
    `c`, some of whose storage calls may have failed before; then the graph is reopened.  Every remark
    returned earlier still answers all its queries as expected and is found by its identifier. -/
theorem C14_crash_loses_nothing {cfg : Cfg} {fuel : Nat} {es : List Event} (h : Calm cfg fuel es) {c : Call}
    (ht : ∀ t ∈ c.texts, t.length < fuel) (f : Nat → Fate) (n : Nat) {e : Entry} (he : e ∈ (after cfg fuel es).log) :
    Readable cfg fuel (after cfg fuel es).log (after cfg fuel (es ++ [.crash c f n])).world e := by
  obtain ⟨σ, hs⟩ := h.stormOne (ne_nil_of_mem he) (.crash c f n) ht
  have h1 : (after cfg fuel (es ++ [.crash c f n])).log = (after cfg fuel es).log := by rw [after_append]; rfl
  have := hs.readable h.budget.fits (e := e) (by rw [h1]; exact he)
  rwa [h1] at this

/-- Any number of crashes, failing calls and reopenings (storages without node 0). -/
theorem C14_many_crashes_lose_nothing {cfg : Cfg} (hz : cfg.zero = false) {fuel : Nat} {es es' : List Event}
    (h : Stormy cfg fuel es es') {e : Entry} (he : e ∈ (after cfg fuel es).log) :
    Readable cfg fuel (after cfg fuel (es ++ es')).log (after cfg fuel (es ++ es')).world e := by
  obtain ⟨σ, hs⟩ := h.holds hz
  exact hs.readable h.start.budget.fits (mem_later he)

/-- the call dies after 30 storage calls, among them writes -/
example : ((Call.createStory (bytes "é") (bytes "d")).prog fuel stA.log).crashAfter cfgA 30 Go.noFault stA.world
    ≠ stA.world.store := by decide +kernel

end Semnet.Props
