import Verif.Proof.Api
import Verif.Props.Sample
/- C25: initialisation happens once. -/
namespace Semnet.Props
open Spec Sample

/-- the storage has the eight class nodes, chained in order -/
def Classes (s : Store) : Prop :=
  (∀ i, 1 ≤ i → i ≤ 8 → s.live i = true) ∧ ∀ i, 1 ≤ i → i < 8 → s.fwd i = i + 1 ∧ s.back (i + 1) = i

/-- exactly two nodes are connected to the bit class: `z` and `o`, referring to the different nodes `zc`, `oc` -/
structure Bits (s : Store) (z o zc oc : Nat) : Prop where
  sources : (s.sources 1).Perm [z, o]
  lt : z < o
  fwd : s.fwd z = zc ∧ s.fwd o = oc
  ne : zc ≠ oc
  live : s.live zc = true ∧ s.live oc = true

theorem holds_classes {cfg lim st σ} (h : Holds cfg lim st σ) : Classes st.world.store := by
  rw [← h.is.store]
  refine ⟨fun i h1 h2 => (h.inv.live i).2 (by rw [(h.inv.root i).2 ⟨h1, h2⟩]; simp), fun i h1 h2 => ?_⟩
  have := h.inv.roots i h1 h2
  refine ⟨this, ?_⟩
  have h3 := (h.inv.refB i (by omega)).1
  rw [this] at h3
  exact h3

theorem bits_store {cfg lim} {σ : St} (hi : Inv cfg lim σ) {bs} (hb : BitsOK σ bs) :
    Bits σ.store bs.1.cls bs.2.cls bs.1.character bs.2.character :=
  ⟨hb.S1, hb.lt, ⟨hb.f0, hb.f1⟩, hb.ne, (hi.live _).2 (by rw [hb.t0]; simp), (hi.live _).2 (by rw [hb.t1]; simp)⟩

/-- After any fault-free history: either nothing has been written, or the class nodes are there and there are
    no bits, or exactly two. -/
theorem C25_initialised_completely {cfg : Cfg} {fuel : Nat} {es : List Event} (h : Calm cfg fuel es) :
    (after cfg fuel es).world.store = Store.empty cfg ∨
    Classes (after cfg fuel es).world.store ∧ ((after cfg fuel es).world.store.sources 1 = [] ∨
      ∃ z o zc oc, Bits (after cfg fuel es).world.store z o zc oc) := by
  rcases h.sound with h1 | ⟨σ, hs, hc⟩
  · left; rw [h1]; rfl
  · refine .inr ⟨holds_classes hs, ?_⟩
    have := hs.inv.bits
    rw [← hs.is.store]
    cases hb : σ.bits with
    | none => rw [hb] at this; exact .inl this.1
    | some bs => rw [hb] at this; exact .inr ⟨_, _, _, _, bits_store hs.inv this⟩

/-- Once a remark has been stored there are two bits, and they stay the same two for ever. -/
theorem C25_same_bits_for_ever {cfg : Cfg} {fuel : Nat} {es : List Event} (h : Calm cfg fuel es)
    (hl : (after cfg fuel es).log ≠ []) :
    ∃ z o zc oc, Bits (after cfg fuel es).world.store z o zc oc ∧
      ∀ es', Calm cfg fuel (es ++ es') → Classes (after cfg fuel (es ++ es')).world.store ∧
        Bits (after cfg fuel (es ++ es')).world.store z o zc oc := by
  obtain ⟨σ, hs, hc⟩ := h.sound.holds hl
  obtain ⟨e, he⟩ := List.exists_mem_of_ne_nil _ hl
  obtain ⟨bs, hb⟩ := Option.ne_none_iff_exists'.1 (hs.keeps.ok e he).bits
  have hB : ∀ {σ' : St} {st}, Holds cfg (stdLim fuel) st σ' → σ'.bits = some bs →
      Bits st.world.store bs.1.cls bs.2.cls bs.1.character bs.2.character := by
    intro σ' st h' hb'
    have := h'.inv.bits
    rw [hb'] at this
    rw [← h'.is.store]
    exact bits_store h'.inv this
  refine ⟨_, _, _, _, hB hs hb, fun es' h' => ?_⟩
  obtain ⟨σ', hs', _, m⟩ := h'.from hs hc
  exact ⟨holds_classes hs', hB hs' (m.bits _ hb)⟩

/-- The same under storage failures and crashes after the first remark (storages without node 0). -/
theorem C25_same_bits_in_storms {cfg : Cfg} (hz : cfg.zero = false) {fuel : Nat} {es : List Event}
    (h : Calm cfg fuel es) (hl : (after cfg fuel es).log ≠ []) :
    ∃ z o zc oc, ∀ es', Budget fuel es' → Classes (after cfg fuel (es ++ es')).world.store ∧
        Bits (after cfg fuel (es ++ es')).world.store z o zc oc := by
  obtain ⟨σ, hs, hc⟩ := h.sound.holds hl
  obtain ⟨e, he⟩ := List.exists_mem_of_ne_nil _ hl
  obtain ⟨bs, hb⟩ := Option.ne_none_iff_exists'.1 (hs.keeps.ok e he).bits
  refine ⟨bs.1.cls, bs.2.cls, bs.1.character, bs.2.character, fun es' h' => ?_⟩
  obtain ⟨σ', hs', m, _⟩ := storm_events hz h.budget.fits es' hs hl h'.texts
  rw [after_append]
  refine ⟨holds_classes hs', ?_⟩
  have := hs'.inv.bits
  rw [m.bits _ hb] at this
  rw [← hs'.is.store]
  exact bits_store hs'.inv this

/-- the sample storage: bits 14 and 16 -/
example : Bits stA.world.store 14 16 18 19 :=
  ⟨by decide +kernel, by decide, by decide +kernel, by decide, by decide +kernel⟩

end Semnet.Props
