import Verif.Proof.Api
import Verif.Props.Sample
/- C07: remark identifiers are unique. -/
namespace Semnet.Props
open Spec Sample

/-- The remarks returned by the creating calls of a calm history have pairwise different identifiers. -/
theorem C07_identifiers_unique {cfg : Cfg} {fuel : Nat} {es : List Event} (h : Calm cfg fuel es) :
    ((after cfg fuel es).log.map fun e => Remark.getIdentifier e.handle).Nodup := by
  cases hl : (after cfg fuel es).log with
  | nil => simp
  | cons e l =>
    rw [← hl]
    obtain ⟨σ, hs, _⟩ := h.holds (e := e) (by rw [hl]; simp)
    exact hs.keeps.nodup

/-- None of them is 0 or a class identifier. -/
theorem C07_identifiers_above_classes {cfg : Cfg} {fuel : Nat} {es : List Event} (h : Calm cfg fuel es)
    {e : Entry} (he : e ∈ (after cfg fuel es).log) : 8 < Remark.getIdentifier e.handle := by
  obtain ⟨σ, hs, _⟩ := h.holds he
  have ok := hs.keeps.ok e he
  have h1 := ok.ent.tc
  show 8 < e.handle.cls
  refine Nat.lt_of_not_le fun hle => ?_
  have h0 : e.handle.cls ≠ 0 := ok.ent.chain.ab.hx
  have := (hs.inv.root e.handle.cls).2 ⟨by omega, hle⟩
  rw [this] at h1
  cases h1

example : ((after cfgB fuel esB).log.map fun e => Remark.getIdentifier e.handle) = [9, 88, 127, 158] := by
  rw [after_esB]; decide +kernel

end Semnet.Props
