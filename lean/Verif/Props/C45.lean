import Verif.Proof.Layer
import Verif.Props.Sample
/- C45: the fact layer on its own does not keep stories together. -/
namespace Semnet.Props
open Spec Sample

/-- `CreateFirstStoryFact` works on every storage that is in order: the new fact opens a new story, `ToFirstFact` leads
    from it to itself, and there is no next fact, no next story and no parent story.  Nothing that was there changes. -/
theorem C45_first_fact_partial {cfg : Cfg} {s : Store} (h : Sane s) (m : Layer) :
    ∃ F S s', Fact.createFirstStoryFact.exec cfg ⟨s, m⟩ = (.ok ⟨F, true⟩, ⟨s', m⟩) ∧ Sane s' ∧ Opens s' F S ∧
      (Fact.toFirstFact ⟨F, true⟩).exec cfg ⟨s', m⟩ = (.ok ⟨F, false⟩, ⟨s', m⟩) ∧
      (Fact.hasNextFact ⟨F, true⟩).exec cfg ⟨s', m⟩ = (.ok false, ⟨s', m⟩) ∧
      (Fact.hasNextStory ⟨F, true⟩).exec cfg ⟨s', m⟩ = (.ok false, ⟨s', m⟩) ∧
      (Fact.hasParentStory ⟨F, true⟩).exec cfg ⟨s', m⟩ = (.ok false, ⟨s', m⟩) ∧
      (∀ x, s.live x = true → s'.live x = true ∧ s'.targets x = s.targets x ∧ s'.fwd x = s.fwd x ∧ s'.back x = s.back x) := by
  obtain ⟨F, S, s', he, hs, ho, fp, sp, _, st, _, hk⟩ := first_fact (cfg := cfg) (m := m) h
  refine ⟨F, S, s', he, hs, ho, opens_first ho, ?_, ?_, ?_, hk⟩
  · rw [opens_hasNextFact ho, fp, ord_nil]; rfl
  · rw [opens_hasNextStory ho, sp, ord_nil]; rfl
  · rw [opens_hasParent ho, st, ord_nil]; rfl

/-- Without a node 0, `CreateNextFact` and `CreateChildStoryFact` return an error for every whole fact, although they
    are given its identifier.  The storage is unchanged. -/
theorem C45_need_node_zero {cfg : Cfg} {s : Store} {F : FactE} (h : WholeFact s F) (h0 : s.live 0 = false) (fuel : Nat) (m : Layer) :
    (Fact.createNextFact F.remark).exec cfg ⟨s, m⟩ = (.err .noNode, ⟨s, m⟩) ∧
    (Fact.createChildStoryFact fuel F.remark).exec cfg ⟨s, m⟩ = (.err .noNode, ⟨s, m⟩) :=
  ⟨whole_next h h0, whole_child h h0 fuel⟩

/-- With a node 0, `CreateNextFact` makes a fact, and `ToNextFact` leads to it if there was no next fact before. -/
theorem C45_next_fact_partial {cfg : Cfg} {s : Store} {F : FactE} (h : Sane s) (hz : Zero s) (hF : WholeFact s F) (m : Layer) :
    ∃ G s', (Fact.createNextFact F.remark).exec cfg ⟨s, m⟩ = (.ok ⟨G, true⟩, ⟨s', m⟩) ∧ Sane s' ∧ Zero s' ∧ WholeFact s' G ∧
      (s.targets F.position = [] → (Fact.toNextFact ⟨F, true⟩).exec cfg ⟨s', m⟩ = (.ok ⟨G, false⟩, ⟨s', m⟩)) := by
  obtain ⟨G, s', he, hs, hz', wG, wF, _, _, _, ht, _⟩ := next_fact (cfg := cfg) (m := m) h hz hF
  exact ⟨G, s', he, hs, hz', wG, fun hp => next_of wF wG (by rw [ht, hp])⟩

/-- But the new fact is not in the story: `ToFirstFact` succeeds with a fact that does not exist (two of its nodes are
    node 0), for every fact `F` that opens a story. -/
theorem C45_next_fact_not_in_story {cfg : Cfg} {s : Store} {F : FactE} {S : StoryE} (h : Sane s) (hz : Zero s)
    (hF : Opens s F S) (m : Layer) :
    ∃ G s', (Fact.createNextFact F.remark).exec cfg ⟨s, m⟩ = (.ok ⟨G, true⟩, ⟨s', m⟩) ∧ Opens s' F S ∧
      (Fact.toFirstFact ⟨G, true⟩).exec cfg ⟨s', m⟩ = (.ok ⟨⟨0, 0, S.cls, S.fact⟩, false⟩, ⟨s', m⟩) ∧
      ¬ WholeFact s' ⟨0, 0, S.cls, S.fact⟩ := by
  obtain ⟨G, s', he, hs, hz', wG, wF, _, _, gt, _, _, keep, st⟩ := next_fact (cfg := cfg) (m := m) h hz hF.fact
  have lF := hF.fact.live
  have lS := hF.story.live
  simp only [List.mem_cons, List.not_mem_nil, or_false, forall_eq_or_imp, forall_eq] at lF lS
  have pF := hF.fact.pos
  have pS := hF.story.pos
  simp only [List.mem_cons, List.not_mem_nil, or_false, forall_eq_or_imp, forall_eq] at pF pS
  have n1 : F.story ≠ F.position := fun e => by
    have := hF.fact.fwd.2.2.2
    rw [e, hF.fact.fwd.2.2.1] at this
    exact pF.2.2.2 this
  have n2 : S.fact ≠ F.position := fun e => by
    have h1 := hF.story.fwd.2.1
    rw [e, hF.fact.fwd.2.2.1] at h1
    have h2 := hF.fact.fwd.2.2.2
    rw [h1, hF.story.fwd.2.2.1] at h2
    exact pS.2.2.2 h2
  have op : Opens s' F S :=
    ⟨wF, st S hF.story, by rw [keep _ lF.2.2.2 n1, hF.up], by rw [keep _ lS.2.1 n2, hF.down]⟩
  exact ⟨G, s', he, op, first_of_next hz' wG op gt, fun w => w.pos 0 (by simp) rfl⟩

/-- The first fact of a new child story has no way back: `HasParentStory` says whether node 0 had targets before, and
    `ToParentStory` always returns an error. -/
theorem C45_child_without_parent {cfg : Cfg} {s : Store} {F : FactE} (h : Sane s) (hz : Zero s) (hF : WholeFact s F) (fuel : Nat)
    (m : Layer) {a : FactAgg} {w : World} (he : (Fact.createChildStoryFact fuel F.remark).exec cfg ⟨s, m⟩ = (.ok a, w)) :
    (Fact.toFirstFact a).exec cfg w = (.ok ⟨a.fact, false⟩, w) ∧
    (Fact.hasParentStory a).exec cfg w = (.ok (!(s.targets 0).isEmpty), w) ∧
    (Fact.toParentStory a).exec cfg w = (.err .storyTargetFacts, w) := by
  obtain ⟨o, s', he', _, _, hk⟩ := child_fact (cfg := cfg) (m := m) h hz hF fuel
  rw [he] at he'
  obtain ⟨rfl, rfl⟩ := Prod.mk.inj he'
  obtain ⟨G, T, rfl, hz', op, _, _, _, _, tt, ss, t0⟩ := hk a rfl
  refine ⟨opens_first op, ?_, opens_parent_zero op hz' tt t0⟩
  rw [opens_hasParent op, ss]
  by_cases e : s.targets 0 = []
  · rw [if_pos e, ord_nil, e]
  · rw [if_neg e, ord_one]
    cases hc : s.targets 0 with
    | nil => exact absurd hc e
    | cons => rfl

/-- It is made whenever node 0 has no targets yet. -/
theorem C45_child_made {cfg : Cfg} {s : Store} {F : FactE} (h : Sane s) (hz : Zero s) (hF : WholeFact s F) (fuel : Nat) (m : Layer)
    (h0 : s.targets 0 = []) : ∃ a w, (Fact.createChildStoryFact fuel F.remark).exec cfg ⟨s, m⟩ = (.ok a, w) := by
  obtain ⟨o, s', he, _, ho, _⟩ := child_fact (cfg := cfg) (m := m) h hz hF fuel
  obtain ⟨a, rfl⟩ := ho h0
  exact ⟨a, _, he⟩

/-- All this applies to every fact in the storage, after every calm history that has stored something. -/
theorem C45_facts_of_histories {cfg : Cfg} {fuel : Nat} {es : List Event} (h : Calm cfg fuel es) {x : Nat}
    (hx : x ∈ (after cfg fuel es).world.store.sources 7) :
    Sane (after cfg fuel es).world.store ∧ (cfg.zero = true → Zero (after cfg fuel es).world.store) ∧
    (cfg.zero = false → (after cfg fuel es).world.store.live 0 = false) ∧
    ∃ F : FactE, F.cls = x ∧ WholeFact (after cfg fuel es).world.store F := by
  have h1 : (after cfg fuel es).world.store.live 1 = true := by
    rcases h.sound with hb | ⟨σ, hs, hc⟩
    · unfold Blank at hb; rw [hb] at hx; cases hx
    · rw [← hs.is.store]
      exact (hs.inv.live 1).2 (by rw [(hs.inv.root 1).2 (by omega)]; simp)
  obtain ⟨a, b, c⟩ := h.sane h1
  exact ⟨a, b, c, h.facts hx⟩

/-- the storage with the class nodes only -/
def bare : Store := rootStore cfgB

/-- ... and with one story in it -/
def opened : Store := (Fact.createFirstStoryFact.exec cfgB ⟨bare, Layer.fresh⟩).2.store

example : Sane bare ∧ Zero bare ∧ Sane opened ∧ Zero opened ∧ opened.targets 0 = [] ∧
    Opens opened ⟨9, 10, 11, 12⟩ ⟨13, 14, 15, 16⟩ := by
  have hs : Sane bare := by
    refine ⟨fun x hx => ?_, by decide, by decide, by decide⟩
    simp [bare, rootStore, cfgB, Store.live] at hx ⊢
    omega
  refine ⟨hs, ⟨by decide, by decide, by decide⟩, ?_, ⟨by decide, by decide, by decide⟩, by decide,
    ⟨⟨by decide, by decide, by decide, by decide⟩, ⟨by decide, by decide, by decide, by decide⟩, by decide, by decide⟩⟩
  obtain ⟨F, S, s', he, h', _⟩ := C45_first_fact_partial (cfg := cfgB) hs Layer.fresh
  have : opened = s' := by unfold opened; rw [he]
  rw [this]; exact h'

/-- on a storage with a node 0: three facts in the storage, to each of which the theorems apply -/
example : Calm cfgB fuel esB ∧ ((after cfgB fuel esB).world.store.sources 7).length = 3 := by
  refine ⟨calmB, ?_⟩
  rw [after_esB]; decide +kernel

end Semnet.Props
