import Verif.Proof.Stray
import Verif.Props.Sample
/-
  C66: a call on a handle that `GetRemark` returned for an identifier that is no remark's fails and harms nothing.
  False of the code for two identifiers, and on storages with a node 0.
-/
namespace Semnet.Props
open Spec Sample

/-- one story -/
def oneStory : List Event := [call (.createStory (bytes "ab") (bytes "c"))]

/-- Witness: AddFactToStory succeeds on `GetRemark(1)` and on `GetRemark(2)`, which are no remarks (the only remark is 9).  The
    node of a new fact then becomes a member of the class of remarks (6), or of facts (7), and the class node of details (5),
    or of remarks (6), gets a target. -/
theorem C66_class_nodes_accept_facts :
    (after cfgA fuel oneStory).log.map (·.handle.cls) = [9] ∧
    succeeds (((Errand.addFact (bytes "b") (bytes "a")).prog fuel 1).exec cfgA (after cfgA fuel oneStory).world) = true ∧
    succeeds (((Errand.addFact (bytes "b") (bytes "a")).prog fuel 2).exec cfgA (after cfgA fuel oneStory).world) = true ∧
    (after cfgA fuel oneStory).world.store.targets 5 = [] ∧
    ((after cfgA fuel oneStory).deed cfgA fuel (.errand 1 (.addFact (bytes "b") (bytes "a")))).world.store.targets 5 ≠ [] ∧
    (after cfgA fuel oneStory).world.store.targets 6 = [] ∧
    ((after cfgA fuel oneStory).deed cfgA fuel (.errand 2 (.addFact (bytes "b") (bytes "a")))).world.store.targets 6 ≠ [] := by
  decide +kernel

/-- Witness: CreateChildStory succeeds on `GetRemark(1)`, too. -/
theorem C66_class_node_accepts_stories :
    succeeds (((Errand.addChild (bytes "b") (bytes "a")).prog fuel 1).exec cfgA (after cfgA fuel oneStory).world) = true := by
  decide +kernel

/-- Witness: on a storage with a node 0, AddFactToStory succeeds on the second node of a remark. -/
theorem C66_node_zero :
    ∃ e ∈ (after cfgB fuel oneStory).log,
      succeeds (((Errand.addFact (bytes "b") (bytes "a")).prog fuel e.handle.detail).exec cfgB
        (after cfgB fuel oneStory).world) = true := by
  decide +kernel

/-- What holds on storages without a node 0: a history of calls that do not fail, mixed with calls on handles fetched by
    arbitrary identifiers, keeps every remark readable.  (Missing: AddFactToStory on 1 and 2, CreateChildStory on 1;
    AddRemarkToFact on remarks whose creation failed; failures of the storage; storages with a node 0.) -/
theorem C66_remarks_stay_readable_partial {cfg : Cfg} {fuel : Nat} {ds : List Deed} (hz : cfg.zero = false)
    (h : Errands cfg fuel ds) {e : Entry} (he : e ∈ ((State.init cfg).deeds cfg fuel ds).log) :
    Readable cfg fuel ((State.init cfg).deeds cfg fuel ds).log ((State.init cfg).deeds cfg fuel ds).world e := by
  obtain ⟨σ, hs, _⟩ := h.sound hz |>.holds (ne_nil_of_mem he)
  exact hs.readable h.fits he

/-- What holds on storages without a node 0: no such call ever returns a remark. -/
theorem C66_no_remark_partial {cfg : Cfg} {fuel : Nat} {ds : List Deed} (hz : cfg.zero = false) (h : Errands cfg fuel ds)
    {x : Nat} {c : Errand} (hc : c.Fair ((State.init cfg).deeds cfg fuel ds) x) (ht : ∀ t ∈ c.texts, t.length < fuel) (r : RemE) :
    ((c.prog fuel x).exec cfg ((State.init cfg).deeds cfg fuel ds).world).1 ≠ .ok (some r) :=
  (fails_errand hz h.fits (h.sound hz) hc fun t h' => TextOK.std (ht t h')).out r

/-- AddRemarkToFact in particular: if the identifier is not marked as a remark, the call fails. -/
theorem C66_add_remark_partial {cfg : Cfg} {fuel : Nat} {ds : List Deed} (hz : cfg.zero = false) (h : Errands cfg fuel ds)
    {x : Nat} (hx : Class.remarkId ∉ ((State.init cfg).deeds cfg fuel ds).world.store.targets x) {a : RemE} {p : GoStr}
    (ha : (Graph.getRemark x).exec cfg ((State.init cfg).deeds cfg fuel ds).world =
      (.ok a, ((State.init cfg).deeds cfg fuel ds).world)) (hp : p.length < fuel) (r : RemE) :
    ((Remark.addRemarkToFact fuel a p).exec cfg ((State.init cfg).deeds cfg fuel ds).world).1 ≠ .ok r := by
  intro hr
  refine C66_no_remark_partial hz h (c := .addRemark p) hx (by simpa [Errand.texts] using hp) r ?_
  show ((Graph.getRemark x >>= fun a => (Remark.addRemarkToFact fuel a p >>= fun r => pure (some r))).exec cfg _).1 = _
  rw [exec_bind, ha]
  simp only
  rw [exec_bind]
  generalize (Remark.addRemarkToFact fuel a p).exec cfg _ = out at hr
  obtain ⟨o, w⟩ := out
  simp only at hr
  subst hr
  rfl

/-! ### examples -/

instance (st : State) (x : Nat) (c : Errand) : Decidable (c.Fair st x) := by
  cases c <;> unfold Errand.Fair <;> infer_instance

/-- a story; calls on the handle of a class node, of the second node of the remark, and of the remark itself; a story -/
def strayDeeds : List Deed :=
  [.event (call (.createStory (bytes "ab") (bytes "c"))), .errand 3 (.addFact (bytes "b") (bytes "a")),
   .errand 11 (.addRemark (bytes "a")), .errand 9 (.addFact (bytes "a") (bytes "b")), .errand 11 (.query .getStory),
   .errand 2 (.addChild (bytes "d") (bytes "b")), .event .reopen, .errand 4 (.addRemark (bytes "b")),
   .event (call (.createStory (bytes "ba") (bytes "d")))]

theorem fair_errand {st : State} {x : Nat} {c : Errand} (h : c.Fair st x) : (Deed.errand x c).Fair st := h

theorem strayDeeds_errands : Errands cfgA fuel strayDeeds :=
  ⟨rfl, by decide, by decide +kernel,
    rfl, fair_errand (by decide +kernel), fair_errand (by decide +kernel), fair_errand (by decide +kernel),
    fair_errand (by decide +kernel), fair_errand (by decide +kernel), trivial, fair_errand (by decide +kernel), rfl, trivial⟩

/-- the handles exist, and there are two remarks in the end -/
example : cfgA.zero = false ∧ (∀ x ∈ [2, 3, 4, 9, 11], succeeds ((Graph.getRemark x).exec cfgA
      ((State.init cfgA).deeds cfgA fuel strayDeeds).world) = true) ∧
    ((State.init cfgA).deeds cfgA fuel strayDeeds).log.length = 2 ∧
    Class.remarkId ∉ ((State.init cfgA).deeds cfgA fuel strayDeeds).world.store.targets 11 := by
  decide +kernel

end Semnet.Props
