import Verif.Proof.Cost
import Verif.Props.Sample
/- C47: reading back costs what the text costs, however much is stored. -/
namespace Semnet.Props
open Spec Sample

/-- After any calm history, the queries on a remark make exactly as many storage calls as the text asked for requires:
    five for every word, character and binary digit, whatever else the storage holds. -/
theorem C47_reading_cost {cfg : Cfg} {fuel : Nat} {es : List Event} (h : Calm cfg fuel es) {e : Entry}
    (he : e ∈ (after cfg fuel es).log) : Costs cfg fuel (after cfg fuel es).log (after cfg fuel es).world e := by
  obtain ⟨σ, hs, _⟩ := h.codes (ne_nil_of_mem he)
  exact hs.costs h.budget.fits.L he

/-- On storages without a node 0 this is so after any storage failures and crashes as well: what was left behind is
    never read. -/
theorem C47_reading_cost_after_failures {cfg : Cfg} (hz : cfg.zero = false) {fuel : Nat} {es es' : List Event}
    (h : Stormy cfg fuel es es') {e : Entry} (he : e ∈ (after cfg fuel (es ++ es')).log) :
    Costs cfg fuel (after cfg fuel (es ++ es')).log (after cfg fuel (es ++ es')).world e := by
  obtain ⟨σ, hs⟩ := h.codes hz
  exact hs.costs h.start.budget.fits.L he

/-- Two remarks with the same text, in two storages of whatever contents and behaviour, cost the same. -/
theorem C47_independent_of_storage {cfg cfg' : Cfg} {fuel fuel' : Nat} {es es' : List Event} (h : Calm cfg fuel es)
    (h' : Calm cfg' fuel' es') {e e' : Entry} (he : e ∈ (after cfg fuel es).log) (he' : e' ∈ (after cfg' fuel' es').log)
    (ho : e.object = e'.object) (hp : e.property = e'.property)
    (hm : (after cfg fuel es).world.mem.isInitialized = (after cfg' fuel' es').world.mem.isInitialized) :
    storageCalls cfg (Remark.getObjectAndProperty fuel e.handle) (after cfg fuel es).world =
    storageCalls cfg' (Remark.getObjectAndProperty fuel' e'.handle) (after cfg' fuel' es').world := by
  rw [(C47_reading_cost h he).text, (C47_reading_cost h' he').text, ho, hp]
  simp only [entrance, hm]

/-- In bytes: at most 85 storage calls for each byte of the remark, and 19. -/
theorem C47_linear {cfg : Cfg} {fuel : Nat} {es : List Event} (h : Calm cfg fuel es) {e : Entry}
    (he : e ∈ (after cfg fuel es).log) :
    storageCalls cfg (Remark.getObjectAndProperty fuel e.handle) (after cfg fuel es).world ≤
      19 + 85 * (e.object.length + e.property.length) := by
  rw [(C47_reading_cost h he).text]
  have h1 := bulk_le e.object
  have h2 := bulk_le e.property
  have h3 : entrance (after cfg fuel es).world.mem ≤ 4 := by unfold entrance; split <;> omega
  unfold readingCost
  omega

/-! ### concrete cases -/

/-- the second remark of `es`, "ab" / "d a", takes 5 * (1 + 17 + 18) calls in the process that wrote it, and four more
    in a process that has just opened the storage -/
example : Calm cfgA fuel es ∧ ∃ e ∈ (after cfgA fuel es).log, e.object = bytes "ab" ∧ e.property = bytes "d a" ∧
    storageCalls cfgA (Remark.getObjectAndProperty fuel e.handle) (after cfgA fuel es).world = 180 ∧
    storageCalls cfgA (Remark.getObjectAndProperty fuel e.handle) (World.open (after cfgA fuel es).world.store) = 184 := by
  refine ⟨calmA, ?_⟩
  rw [after_es]
  exact ⟨⟨⟨146, 148, 149, 150⟩, bytes "ab", bytes "d a", some 0⟩, by decide +kernel, rfl, rfl, by decide +kernel, by decide +kernel⟩
/-- its story opens with "ab" / "c" -/
example : ∃ e ∈ (after cfgA fuel es).log, ∃ e', e.opener.bind ((after cfgA fuel es).log[·]?) = some e' ∧
    e'.property = bytes "c" ∧
    storageCalls cfgA (Output.getStory fuel e.handle) (after cfgA fuel es).world = 15 + 5 * (1 + 17 + 9) := by
  rw [after_es]
  exact ⟨⟨⟨146, 148, 149, 150⟩, bytes "ab", bytes "d a", some 0⟩, by decide +kernel,
    ⟨⟨9, 11, 12, 13⟩, bytes "ab", bytes "c", some 0⟩, by decide +kernel, rfl, by decide +kernel⟩
example : Stormy cfgA fuel es [.crash (.createStory (bytes "é") [0xFF]) (fun n => if n = 7 then .failLate else .ok) 30] :=
  ⟨calmA, by rw [after_es]; decide, ⟨by decide, by decide +kernel⟩⟩

end Semnet.Props
