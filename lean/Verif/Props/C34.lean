import Verif.Proof.Accepted
import Verif.Props.Sample
/- C34: GetRemark only accepts remarks.  False of the code. -/
namespace Semnet.Props
open Spec Sample

/-- Witness: after one `CreateStory`, `GetRemark(1)` returns a remark made of class nodes. -/
theorem C34_class_node_accepted :
    ((Graph.getRemark 1).exec cfgA (after cfgA fuel [call (.createStory (bytes "ab") (bytes "c"))]).world).1 =
      .ok ⟨1, 2, 3, 4⟩ ∧
    (after cfgA fuel [call (.createStory (bytes "ab") (bytes "c"))]).log.map (·.handle.cls) = [9] := by
  decide +kernel

/-- Exactly when `GetRemark` succeeds, on any storage: the identifier, the node it refers to and the node that one refers
    to exist.  Nothing else is checked. -/
theorem C34_what_get_remark_checks (cfg : Cfg) (w : World) (x : Nat) :
    (∃ r w', (Graph.getRemark x).exec cfg w = (.ok r, w')) ↔
      w.store.live x = true ∧ w.store.live (w.store.fwd x) = true ∧
        w.store.live (w.store.fwd (w.store.fwd x)) = true := by
  show (∃ r w', (Graph.getRemark x).run cfg Go.noFault w = (.ok r, w')) ↔ _
  simp only [Graph.getRemark, Remark.readEntityByClass, Go.getReference, Go.call, bind, Go.bind, Go.run, Go.noFault, Store.step]
  by_cases h1 : w.store.live x = true
  · by_cases h2 : w.store.live (w.store.fwd x) = true
    · by_cases h3 : w.store.live (w.store.fwd (w.store.fwd x)) = true
      · simp [h1, h2, h3, Go.bind, Go.run, Store.step, pure]
      · simp [h1, h2, h3, Go.bind, Go.run, Store.step]
    · simp [h1, h2, Go.bind, Go.run, Store.step]
  · simp [h1, Go.bind, Go.run]

/-- What holds: an identifier that is no node of the storage is rejected with an error. (Missing: identifiers of other
    nodes, many of which are accepted.) -/
theorem C34_unknown_identifier_rejected_partial (cfg : Cfg) (w : World) (x : Nat) (h : w.store.live x = false) :
    (Graph.getRemark x).exec cfg w = (.err .noNode, w) := by
  show (Graph.getRemark x).run cfg Go.noFault w = _
  simp [Graph.getRemark, Remark.readEntityByClass, Go.getReference, Go.call, bind, Go.bind, Go.run, Go.noFault, Store.step, h]

/-- What holds: on a storage without node 0 the third and fourth node of a remark are rejected (the second one is
    accepted, as a remark of four nodes the last of which is 0). -/
theorem C34_own_nodes_partial {cfg : Cfg} {fuel : Nat} {es : List Event} (h : Calm cfg fuel es) (hz : cfg.zero = false)
    {e : Entry} (he : e ∈ (after cfg fuel es).log) :
    ((Graph.getRemark e.handle.position).exec cfg (after cfg fuel es).world).1 = .err .noNode ∧
    ((Graph.getRemark e.handle.fact).exec cfg (after cfg fuel es).world).1 = .err .noNode ∧
    ((Graph.getRemark e.handle.detail).exec cfg (after cfg fuel es).world).1 =
      .ok ⟨e.handle.detail, e.handle.position, e.handle.fact, 0⟩ := by
  obtain ⟨σ, hs, _⟩ := h.holds he
  have ent := (hs.keeps.ok e he).ent
  have lv : ∀ {x}, σ.tag x ≠ .none → (after cfg fuel es).world.store.live x = true := fun hx => by
    rw [← hs.is.store]; exact (hs.inv.live _).2 hx
  have l2 := lv (x := e.handle.detail) (by rw [ent.td]; simp)
  have l3 := lv (x := e.handle.position) (by rw [ent.tp]; simp)
  have l4 := lv (x := e.handle.fact) (by rw [ent.tf]; simp)
  have l0 : (after cfg fuel es).world.store.live 0 = false := by
    rw [← hs.is.store]
    have := hs.inv.node0 hz
    cases h0 : σ.store.live 0 with
    | false => rfl
    | true => exact absurd this ((hs.inv.live 0).1 h0)
  have f2 : (after cfg fuel es).world.store.fwd e.handle.detail = e.handle.position := by
    rw [← hs.is.store]; exact ent.chain.bc.f
  have f3 : (after cfg fuel es).world.store.fwd e.handle.position = e.handle.fact := by
    rw [← hs.is.store]; exact ent.chain.cd.f
  have f4 : (after cfg fuel es).world.store.fwd e.handle.fact = 0 := by
    rw [← hs.is.store]; exact hs.inv.noF _ (by rw [ent.tf]; rfl)
  refine ⟨?_, ?_, ?_⟩ <;>
    · show ((Graph.getRemark _).run cfg Go.noFault _).1 = _
      simp [Graph.getRemark, Remark.readEntityByClass, Go.getReference, Go.call, bind, Go.bind, Go.run, Go.noFault,
        Store.step, l2, l3, l4, l0, f2, f3, f4, pure]

/-- Exactly which identifiers `GetRemark` accepts after a history of calls that do not fail, on a storage without node 0: those
    of the first six class nodes, and those of the nodes of entities - of any class - that two more nodes of the same entity
    follow.  So it accepts the first node of every character, word, phrase, detail, remark, fact and story and the second node
    of all of these but details; it accepts no node of a bit. -/
theorem C34_accepted_exactly {cfg : Cfg} {fuel : Nat} {es : List Event} (h : Calm cfg fuel es) (hz : cfg.zero = false)
    (x : Nat) :
    (∃ r w', (Graph.getRemark x).exec cfg (after cfg fuel es).world = (.ok r, w')) ↔
      ((after cfg fuel es).world.store.live 1 = true ∧ 1 ≤ x ∧ x ≤ 6) ∨
      ∃ k ∈ classes, ∃ y ∈ (after cfg fuel es).world.store.sources k, ∃ i, i + 2 < size k ∧
        (trail (after cfg fuel es).world.store (size k) y)[i]? = some x := by
  rw [C34_what_get_remark_checks]
  exact h.sound.accepted hz x

/-- the sample: 149 is the third node of the remark 146, 148 its second -/
example : (146 ∈ (after cfgA fuel es).world.store.sources 6 ∧ trail (after cfgA fuel es).world.store 4 146 = [146, 148, 149, 150]) ∧
    cfgA.zero = false := by
  rw [after_es]; decide +kernel

/-- On a storage with a node 0 `GetRemark` accepts every node there is. -/
theorem C34_accepted_node_zero {cfg : Cfg} {fuel : Nat} {es : List Event} (h : Calm cfg fuel es) (hz : cfg.zero = true)
    (x : Nat) :
    (∃ r w', (Graph.getRemark x).exec cfg (after cfg fuel es).world = (.ok r, w')) ↔
      (after cfg fuel es).world.store.live x = true := by
  rw [C34_what_get_remark_checks]
  exact ⟨fun h => h.1, fun hl => ⟨hl, h.sound.fwd_live hz _, h.sound.fwd_live hz _⟩⟩

/-- such a storage: 0, the last class node and the last node there is -/
example : cfgB.zero = true ∧ ∀ x ∈ [0, 8, (after cfgB fuel [call (.createStory (bytes "ab") (bytes "c"))]).world.store.next - 1],
    succeeds ((Graph.getRemark x).exec cfgB (after cfgB fuel [call (.createStory (bytes "ab") (bytes "c"))]).world) = true := by
  decide +kernel

/-- the sample: the remark 146 consists of the nodes 146, 148, 149, 150 -/
example : ((Graph.getRemark 149).exec cfgA (after cfgA fuel es).world).1 = .err .noNode ∧
    ((Graph.getRemark 148).exec cfgA (after cfgA fuel es).world).1 = .ok ⟨148, 149, 150, 0⟩ ∧
    ((Graph.getRemark 5000).exec cfgA (after cfgA fuel es).world).1 = .err .noNode := by
  rw [after_es]; decide +kernel

end Semnet.Props
