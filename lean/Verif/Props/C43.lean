import Verif.Proof.Growth
import Verif.Props.Sample
/- C43: a call adds a number of records that is linear in the length of its texts. -/
namespace Semnet.Props
open Spec Sample

/-- On any storage that has its class nodes and bits, whatever else it contains, whatever remark the call is given
    and whatever storage calls fail: a call other than AddRemarkToFact adds at most its allowance. -/
theorem C43_any_storage (cfg : Cfg) (fuel : Nat) (log : List Entry) (c : Call) (hc : ∀ h p, c ≠ .addRemark h p)
    (f : Nat → Fate) (w : World) (hw : Ready w.store) :
    records ((c.prog fuel log).run cfg f w).2.store ≤ records w.store + c.allowance log := by
  have := ((Adds.prog (F := true) (cfg := cfg) fuel log c hc).run (f := f) (.inl rfl) hw.inited).2
  rw [hw.owed] at this
  omega

/-- ... and so it does if the process dies in the middle. -/
theorem C43_any_storage_crash (cfg : Cfg) (fuel : Nat) (log : List Entry) (c : Call) (hc : ∀ h p, c ≠ .addRemark h p)
    (f : Nat → Fate) (w : World) (hw : Ready w.store) (n : Nat) :
    records ((c.prog fuel log).crashAfter cfg n f w) ≤ records w.store + c.allowance log :=
  Nat.le_trans (records_crash cfg _ n f w) (C43_any_storage cfg fuel log c hc f w hw)

/-- A calm history on an empty storage has stored no more than the allowances of its calls and 24 records for the
    class nodes and the bits.  Here AddRemarkToFact is included. -/
theorem C43_calm_history {cfg : Cfg} {fuel : Nat} {es : List Event} (h : Calm cfg fuel es) :
    records (after cfg fuel es).world.store ≤ 24 + allowed cfg fuel (State.init cfg) es :=
  calm_grow (.inl h.dup) h.budget.fits es (Sound.init _ _) h.calm h.budget.texts (.inl ⟨rfl, Nat.le_refl _⟩)

/-- After a calm history that has made a remark, one event in which anything fails, or a crash, adds at most its
    allowance (also on storages with a node 0). -/
theorem C43_one_faulty_event {cfg : Cfg} {fuel : Nat} {es : List Event} (h : Calm cfg fuel es)
    (hl : (after cfg fuel es).log ≠ []) (e : Event) :
    records ((after cfg fuel es).event cfg fuel e).world.store ≤
      records (after cfg fuel es).world.store + e.allowance (after cfg fuel es).log := by
  obtain ⟨σ, hs, hc⟩ := h.sound.holds hl
  have g := grow_event (C := stormCtx cfg (stdLim fuel)) (hs.storm h.budget.fits (fun _ => hc) hl) hs.is e (.inl rfl)
    (hs.ready hl).inited
  have := (hs.ready hl).owed
  simp only [stormCtx, if_true] at g
  omega

/-- On storages without a node 0: any number of events in which anything fails add at most their allowances. -/
theorem C43_stormy_history {cfg : Cfg} (hz : cfg.zero = false) {fuel : Nat} {es es' : List Event}
    (h : Stormy cfg fuel es es') :
    records (after cfg fuel (es ++ es')).world.store ≤
      records (after cfg fuel es).world.store + allowed cfg fuel (after cfg fuel es) es' := by
  obtain ⟨σ, hs, _⟩ := h.start.sound.holds h.log
  rw [after_append]
  exact storm_grow hz h.start.budget.fits es' hs h.log h.budget.texts

/-- In numbers: `n` calls with texts of at most `B` bytes leave at most `24 + n (60 + 684 B)` records. -/
theorem C43_linear {cfg : Cfg} {fuel : Nat} {es : List Event} (h : Calm cfg fuel es) {B : Nat}
    (hB : ∀ e ∈ es, ∀ t ∈ e.texts, t.length ≤ B) :
    records (after cfg fuel es).world.store ≤ 24 + es.length * (60 + 684 * B) :=
  Nat.le_trans (C43_calm_history h) (Nat.add_le_add_left (short_allowed cfg fuel es (fun _ h => by cases h) hB) _)

/-- The other side: every creating call, whether it succeeds or not, leaves at least the four nodes of a remark. -/
theorem C43_failed_calls_grow {cfg : Cfg} {fuel : Nat} {es : List Event} (h : Calm cfg fuel es)
    (h1 : (after cfg fuel es).world.store.live 1 = true) (c : Call) (hc : c.pair (after cfg fuel es).log ≠ none) :
    (after cfg fuel es).world.store.nodes.length + 4 ≤
      ((after cfg fuel es).call cfg fuel c Go.noFault).world.store.nodes.length := by
  have h6 : (after cfg fuel es).world.store.live 6 = true := by
    rcases h.sound with hb | ⟨σ, hs, _⟩
    · unfold Blank at hb
      rw [hb] at h1
      cases hz : cfg.zero <;> simp [State.init, World.open, Store.empty, Store.live, hz] at h1
    · rw [← hs.is.store]; exact (hs.inv.live 6).2 (by rw [(hs.inv.root 6).2 (by omega)]; simp)
  have hd : cfg.dup ≠ .reject := by rw [h.dup]; simp
  rw [call_store]
  generalize after cfg fuel es = st at *
  have key : ∀ {α : Type} (k : RemE → Go α),
      st.world.store.nodes.length + 4 ≤ ((do
        Class.provideEntity; let c ← Class.createNode Class.remarkId; let r ← Remark.createEntity c; k r : Go α).run cfg
          Go.noFault st.world).2.store.nodes.length :=
    fun k => ends_run (Q := fun s => st.world.store.nodes.length + 4 ≤ s.nodes.length) (.inr rfl) (remark_first hd h1 h6 k)
  cases c with
  | createStory o p =>
    simp only [Call.prog, Graph.createStory, bind_assoc]
    exact key _
  | addRemark i p =>
    cases hl : st.log[i]? with
    | none => simp [Call.pair, hl] at hc
    | some e =>
      simp only [Call.prog, hl, Remark.addRemarkToFact, bind_assoc]
      exact key _
  | addFact i o p =>
    cases hl : st.log[i]? with
    | none => simp [Call.pair, hl] at hc
    | some e =>
      simp only [Call.prog, hl, Remark.addFactToStory, bind_assoc]
      exact key _
  | addChild i o p =>
    cases hl : st.log[i]? with
    | none => simp [Call.pair, hl] at hc
    | some e =>
      simp only [Call.prog, hl, Remark.createChildStory, bind_assoc]
      exact key _
  | query => exact absurd rfl hc
  | getRemark => exact absurd rfl hc

/-! ### concrete cases -/

/-- a call on the storage left by `es`, half of whose storage calls fail -/
example : Ready (after cfgA fuel es).world.store ∧ (∀ h p, Call.createStory (bytes "é") [0xFF] ≠ .addRemark h p) ∧
    Call.allowance (after cfgA fuel es).log (.createStory (bytes "é") [0xFF]) = 57 + 171 * 3 := by
  rw [after_es]; unfold Ready; exact ⟨by decide +kernel, by simp, by decide +kernel⟩

/-- the sizes for `es`: 443 records, allowed 24 + 2261 -/
example : Calm cfgA fuel es ∧ records (after cfgA fuel es).world.store = 443 ∧ (after cfgA fuel es).log ≠ [] ∧
    (after cfgA fuel es).world.store.live 1 = true ∧
    Call.pair (after cfgA fuel es).log (.addRemark 2 (bytes "")) = some (bytes "ba", []) := by
  refine ⟨calmA, ?_⟩
  rw [after_es]; decide +kernel
example : ∀ e ∈ es, ∀ t ∈ e.texts, t.length ≤ 3 := by decide +kernel
example : Stormy cfgA fuel es [.crash (.createStory (bytes "é") [0xFF]) (fun n => if n = 7 then .failLate else .ok) 30] :=
  ⟨calmA, by rw [after_es]; decide, ⟨by decide, by decide +kernel⟩⟩

end Semnet.Props
