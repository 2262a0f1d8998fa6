import Verif.Proof.Catalogue
import Verif.Spec.Layer
/-
  Direct execution of programs on storages that are in order.
-/
set_option linter.unusedSimpArgs false
namespace Semnet
open Spec

/-! ### one storage call -/

section
variable {α : Type} {cfg : Cfg} {s : Store} {m : Layer}

theorem do_create {k : Nat → Go α} : (Go.create >>= k).exec cfg ⟨s, m⟩ = (k s.next).exec cfg ⟨s.created, m⟩ := rfl

theorem do_ref {x : Nat} {k : Nat × Nat → Go α} (h : s.live x = true) :
    (Go.getReference x >>= k).exec cfg ⟨s, m⟩ = (k (s.back x, s.fwd x)).exec cfg ⟨s, m⟩ :=
  exec_ref (w := ⟨s, m⟩) h

theorem no_ref {x : Nat} {k : Nat × Nat → Go α} (h : s.live x = false) :
    (Go.getReference x >>= k).exec cfg ⟨s, m⟩ = (.err .noNode, ⟨s, m⟩) := by
  rw [exec_bind]
  simp [Go.getReference, Go.call, Go.exec, Go.run, Go.noFault, Store.step, h]

theorem do_setRef {x y : Nat} {k : Unit → Go α} (hx : s.live x = true) (hy : s.live y = true) :
    (Go.setReference x y >>= k).exec cfg ⟨s, m⟩ = (k ()).exec cfg ⟨s.referred x y, m⟩ := by
  rw [exec_bind]
  simp [Go.setReference, Go.call, Go.exec, Go.run, Go.noFault, Store.step, hx, hy]

theorem do_connect {x y : Nat} {k : Unit → Go α} (hx : s.live x = true) (hy : s.live y = true) (h : y ∉ s.targets x) :
    (Go.connect x y >>= k).exec cfg ⟨s, m⟩ = (k ()).exec cfg ⟨s.connected cfg x y, m⟩ := by
  have : (x, y) ∉ s.edges := fun hm => h (by
    unfold Store.targets
    exact List.mem_map.2 ⟨(x, y), List.mem_filter.2 ⟨hm, by simp⟩, rfl⟩)
  rw [exec_bind]
  simp [Go.connect, Go.call, Go.exec, Go.run, Go.noFault, Store.step, hx, hy, this]

theorem do_targets {x : Nat} {k : List Nat → Go α} (hx : s.live x = true) :
    (Go.readTargets x >>= k).exec cfg ⟨s, m⟩ = (k (cfg.ord s (.readTargets x) (s.targets x))).exec cfg ⟨s, m⟩ := by
  rw [exec_bind]
  simp [Go.readTargets, Go.call, Go.exec, Go.run, Go.noFault, Store.step, hx]

theorem do_sources {x : Nat} {k : List Nat → Go α} (hx : s.live x = true) :
    (Go.readSources x >>= k).exec cfg ⟨s, m⟩ = (k (cfg.ord s (.readSources x) (s.sources x))).exec cfg ⟨s, m⟩ := by
  rw [exec_bind]
  simp [Go.readSources, Go.call, Go.exec, Go.run, Go.noFault, Store.step, hx]

theorem do_pure {a : α} : (Pure.pure a : Go α).exec cfg ⟨s, m⟩ = (.ok a, ⟨s, m⟩) := rfl

theorem do_classes {k : Unit → Go α} (h : s.live 1 = true) :
    (Class.provideEntity >>= k).exec cfg ⟨s, m⟩ = (k ()).exec cfg ⟨s, m⟩ := by
  rw [exec_bind]
  simp [Class.provideEntity, Go.has, Go.call, Bind.bind, Pure.pure, Go.bind, Go.exec, Go.run, Go.noFault, Store.step, h]

theorem do_assoc {β γ : Type} {p : Go β} {f : β → Go γ} {g : γ → Go α} :
    ((p >>= f) >>= g).exec cfg ⟨s, m⟩ = (p >>= fun x => f x >>= g).exec cfg ⟨s, m⟩ := by
  rw [bind_assoc]

theorem do_pure_bind {β : Type} {a : β} {k : β → Go α} : ((Pure.pure a : Go β) >>= k).exec cfg ⟨s, m⟩ = (k a).exec cfg ⟨s, m⟩ := rfl

end

/-! ### storages as functions -/

namespace Store
variable {cfg : Cfg} {s : Store} {x y z : Nat}

theorem live_created : s.created.live z = (s.live z || z == s.next) := by
  unfold created live
  simp only [List.contains_cons]
  rw [Bool.or_comm]
theorem fwd_created : s.created.fwd z = s.fwd z := rfl
theorem back_created : s.created.back z = s.back z := rfl
theorem targets_created : s.created.targets z = s.targets z := rfl
theorem sources_created : s.created.sources z = s.sources z := rfl
theorem next_created : s.created.next = s.next + 1 := rfl

theorem live_referred : (s.referred x y).live z = s.live z := rfl
theorem targets_referred : (s.referred x y).targets z = s.targets z := rfl
theorem sources_referred : (s.referred x y).sources z = s.sources z := rfl
theorem next_referred : (s.referred x y).next = s.next := rfl
theorem fwd_referred_self : (s.referred x y).fwd x = y := by simp [fwd, referred]
theorem fwd_referred (h : z ≠ x) : (s.referred x y).fwd z = s.fwd z := by
  have : (x == z) = false := by simp; exact fun e => h e.symm
  simp [fwd, referred, this]
theorem back_referred_self : (s.referred x y).back y = x := by simp [back, referred]
theorem back_referred (h : z ≠ y) : (s.referred x y).back z = s.back z := by
  have : (y == z) = false := by simp; exact fun e => h e.symm
  simp [back, referred, this]

theorem live_connected : (s.connected cfg x y).live z = s.live z := rfl
theorem fwd_connected : (s.connected cfg x y).fwd z = s.fwd z := rfl
theorem back_connected : (s.connected cfg x y).back z = s.back z := rfl
theorem next_connected : (s.connected cfg x y).next = s.next + cfg.arrow := rfl
theorem targets_connected_self : (s.connected cfg x y).targets x = y :: s.targets x := by simp [targets, connected]
theorem targets_connected (h : z ≠ x) : (s.connected cfg x y).targets z = s.targets z := by
  have : (x == z) = false := by simp; exact fun e => h e.symm
  simp [targets, connected, this]
theorem sources_connected_self : (s.connected cfg x y).sources y = x :: s.sources y := by simp [sources, connected]
theorem sources_connected (h : z ≠ y) : (s.connected cfg x y).sources z = s.sources z := by
  have : (y == z) = false := by simp; exact fun e => h e.symm
  simp [sources, connected, this]

end Store

section
variable {s : Store} {x : Nat}

theorem Spec.Sane.dead (h : Sane s) (hx : s.next ≤ x) : s.live x = false := by
  cases hl : s.live x with
  | false => rfl
  | true => have := h.nodes x hl; omega

theorem Spec.Sane.targets (h : Sane s) (hx : s.next ≤ x) : s.targets x = [] := by
  unfold Store.targets
  rw [List.map_eq_nil_iff, List.filter_eq_nil_iff]
  intro e he hn
  have := h.nodes _ (h.edges e he).1
  simp at hn; omega

theorem Spec.Sane.sources (h : Sane s) (hx : s.next ≤ x) : s.sources x = [] := by
  unfold Store.sources
  rw [List.map_eq_nil_iff, List.filter_eq_nil_iff]
  intro e he hn
  have := h.nodes _ (h.edges e he).2
  simp at hn; omega

theorem Spec.Sane.fwd (h : Sane s) (hx : s.next ≤ x) : s.fwd x = 0 := by
  unfold Store.fwd
  rw [List.find?_eq_none.2]
  · rfl
  intro e he hn
  have := h.nodes _ (h.refs e he).1
  simp at hn; omega

theorem Spec.Sane.back (h : Sane s) (hx : s.next ≤ x) : s.back x = 0 := by
  unfold Store.back
  rw [List.find?_eq_none.2]
  · rfl
  intro e he hn
  have := h.nodes _ (h.refs e he).2
  simp at hn; omega

end

/-! ### a new entity of four nodes -/

namespace Store
variable {cfg : Cfg} {s : Store} {k z : Nat}

/-- the storage after a class node and three further nodes were made for class `k` -/
def grown (cfg : Cfg) (k : Nat) (s : Store) : Store :=
  ((((s.created.connected cfg s.next k).created.created.created.referred s.next (s.next + 1 + cfg.arrow)).referred
    (s.next + 1 + cfg.arrow) (s.next + 2 + cfg.arrow)).referred (s.next + 2 + cfg.arrow) (s.next + 3 + cfg.arrow))

theorem next_grown : (s.grown cfg k).next = s.next + 4 + cfg.arrow := by
  simp only [grown, next_referred, next_created, next_connected]; omega

theorem live_grown : (s.grown cfg k).live z = (s.live z || z == s.next || z == s.next + 1 + cfg.arrow ||
    z == s.next + 2 + cfg.arrow || z == s.next + 3 + cfg.arrow) := by
  simp only [grown, live_referred, live_created, live_connected, next_created, next_connected,
    show s.next + 1 + cfg.arrow + 1 = s.next + 2 + cfg.arrow by omega,
    show s.next + 2 + cfg.arrow + 1 = s.next + 3 + cfg.arrow by omega]

theorem live_grown_old (h : s.live z = true) : (s.grown cfg k).live z = true := by rw [live_grown, h]; simp
theorem live_grown0 : (s.grown cfg k).live s.next = true := by rw [live_grown]; simp
theorem live_grown1 : (s.grown cfg k).live (s.next + 1 + cfg.arrow) = true := by rw [live_grown]; simp
theorem live_grown2 : (s.grown cfg k).live (s.next + 2 + cfg.arrow) = true := by rw [live_grown]; simp
theorem live_grown3 : (s.grown cfg k).live (s.next + 3 + cfg.arrow) = true := by rw [live_grown]; simp

theorem fwd_grown (h : z < s.next ∨ s.next + 3 + cfg.arrow ≤ z) : (s.grown cfg k).fwd z = s.fwd z := by
  simp (disch := omega) only [grown, fwd_referred, fwd_created, fwd_connected]
theorem fwd_grown0 : (s.grown cfg k).fwd s.next = s.next + 1 + cfg.arrow := by
  simp (disch := omega) only [grown, fwd_referred, fwd_referred_self, fwd_created, fwd_connected]
theorem fwd_grown1 : (s.grown cfg k).fwd (s.next + 1 + cfg.arrow) = s.next + 2 + cfg.arrow := by
  simp (disch := omega) only [grown, fwd_referred, fwd_referred_self, fwd_created, fwd_connected]
theorem fwd_grown2 : (s.grown cfg k).fwd (s.next + 2 + cfg.arrow) = s.next + 3 + cfg.arrow := by
  simp (disch := omega) only [grown, fwd_referred, fwd_referred_self, fwd_created, fwd_connected]

theorem back_grown (h : z < s.next + 1 + cfg.arrow ∨ s.next + 4 + cfg.arrow ≤ z) : (s.grown cfg k).back z = s.back z := by
  simp (disch := omega) only [grown, back_referred, back_created, back_connected]
theorem back_grown1 : (s.grown cfg k).back (s.next + 1 + cfg.arrow) = s.next := by
  simp (disch := omega) only [grown, back_referred, back_referred_self, back_created, back_connected]
theorem back_grown2 : (s.grown cfg k).back (s.next + 2 + cfg.arrow) = s.next + 1 + cfg.arrow := by
  simp (disch := omega) only [grown, back_referred, back_referred_self, back_created, back_connected]
theorem back_grown3 : (s.grown cfg k).back (s.next + 3 + cfg.arrow) = s.next + 2 + cfg.arrow := by
  simp (disch := omega) only [grown, back_referred, back_referred_self, back_created, back_connected]

theorem targets_grown (h : z ≠ s.next) : (s.grown cfg k).targets z = s.targets z := by
  simp (disch := omega) only [grown, targets_referred, targets_created, targets_connected]
theorem sources_grown (h : z ≠ k) : (s.grown cfg k).sources z = s.sources z := by
  simp (disch := omega) only [grown, sources_referred, sources_created, sources_connected]

end Store

theorem Spec.Sane.grown {s : Store} (h : Sane s) (cfg : Cfg) {k : Nat} (hk : s.live k = true) : Sane (s.grown cfg k) where
  nodes x hx := by
    rw [Store.live_grown] at hx
    rw [Store.next_grown]
    simp only [Bool.or_eq_true, beq_iff_eq] at hx
    have := h.nodes x
    rcases hx with (((hx | rfl) | rfl) | rfl) | rfl
    · have := this hx; omega
    all_goals omega
  edges e he := by
    have : e ∈ (s.next, k) :: s.edges := he
    rcases List.mem_cons.1 this with rfl | he
    · exact ⟨Store.live_grown0, Store.live_grown_old hk⟩
    · exact ⟨Store.live_grown_old (h.edges e he).1, Store.live_grown_old (h.edges e he).2⟩
  refs e he := by
    have : e ∈ (s.next + 2 + cfg.arrow, s.next + 3 + cfg.arrow) :: (s.next + 1 + cfg.arrow, s.next + 2 + cfg.arrow) ::
      (s.next, s.next + 1 + cfg.arrow) :: s.refs := he
    simp only [List.mem_cons] at this
    rcases this with rfl | rfl | rfl | he
    · exact ⟨Store.live_grown2, Store.live_grown3⟩
    · exact ⟨Store.live_grown1, Store.live_grown2⟩
    · exact ⟨Store.live_grown0, Store.live_grown1⟩
    · exact ⟨Store.live_grown_old (h.refs e he).1, Store.live_grown_old (h.refs e he).2⟩
  classes k hk := Store.live_grown_old (h.classes k hk)

theorem Spec.Sane.connected {s : Store} (h : Sane s) (cfg : Cfg) {x y : Nat} (hx : s.live x = true) (hy : s.live y = true) :
    Sane (s.connected cfg x y) where
  nodes z hz := by
    have := h.nodes z hz
    rw [Store.next_connected]; omega
  edges e he := by
    rcases List.mem_cons.1 (show e ∈ (x, y) :: s.edges from he) with rfl | he
    · exact ⟨hx, hy⟩
    · exact h.edges e he
  refs := h.refs
  classes := h.classes

theorem ord_one (cfg : Cfg) (s : Store) (o : Op) (a : Nat) : cfg.ord s o [a] = [a] := List.perm_singleton.1 (cfg.ord_perm s o [a])
theorem ord_nil (cfg : Cfg) (s : Store) (o : Op) : cfg.ord s o [] = [] := List.perm_nil.1 (cfg.ord_perm s o [])


section
variable {α : Type} {cfg : Cfg} {s : Store} {m : Layer}

theorem live_connected_new {x y : Nat} : (s.created.connected cfg x y).live s.next = true := by
  rw [Store.live_connected, Store.live_created]; simp

theorem do_newFact (h : Sane s) {k : FactE → Go α} :
    (Class.createNode Class.factId >>= fun c => Fact.createEntity c >>= k).exec cfg ⟨s, m⟩ =
    (k ⟨s.next, s.next + 1 + cfg.arrow, s.next + 2 + cfg.arrow, s.next + 3 + cfg.arrow⟩).exec cfg ⟨s.grown cfg 7, m⟩ := by
  have h7 := h.classes 7 (by decide)
  have l7 : s.created.live 7 = true := by rw [Store.live_created, h7]; rfl
  have ln : s.created.live s.next = true := by rw [Store.live_created]; simp
  have ht : (7 : Nat) ∉ s.created.targets s.next := by
    rw [Store.targets_created, h.targets (Nat.le_refl _)]; simp
  simp only [Class.createNode, Class.factId, Fact.createEntity, bind_assoc, pure_bind, do_create]
  rw [do_connect ln l7 ht]
  simp only [do_create, Store.next_created, Store.next_connected]
  rw [do_setRef, do_setRef, do_setRef]
  · simp only [Store.grown, show s.next + 1 + cfg.arrow + 1 = s.next + 2 + cfg.arrow by omega,
      show s.next + 2 + cfg.arrow + 1 = s.next + 3 + cfg.arrow by omega]
  all_goals
    simp only [Store.live_referred, Store.live_created, Store.live_connected, Store.next_created, Store.next_connected]
    simp

theorem do_newStory (h : Sane s) {k : StoryE → Go α} :
    (Class.createNode Class.storyId >>= fun c => Story.createEntity c >>= k).exec cfg ⟨s, m⟩ =
    (k ⟨s.next, s.next + 1 + cfg.arrow, s.next + 2 + cfg.arrow, s.next + 3 + cfg.arrow⟩).exec cfg ⟨s.grown cfg 8, m⟩ := by
  have h7 := h.classes 8 (by decide)
  have l7 : s.created.live 8 = true := by rw [Store.live_created, h7]; rfl
  have ln : s.created.live s.next = true := by rw [Store.live_created]; simp
  have ht : (8 : Nat) ∉ s.created.targets s.next := by
    rw [Store.targets_created, h.targets (Nat.le_refl _)]; simp
  simp only [Class.createNode, Class.storyId, Story.createEntity, bind_assoc, pure_bind, do_create]
  rw [do_connect ln l7 ht]
  simp only [do_create, Store.next_created, Store.next_connected]
  rw [do_setRef, do_setRef, do_setRef]
  · simp only [Store.grown, show s.next + 1 + cfg.arrow + 1 = s.next + 2 + cfg.arrow by omega,
      show s.next + 2 + cfg.arrow + 1 = s.next + 3 + cfg.arrow by omega]
  all_goals
    simp only [Store.live_referred, Store.live_created, Store.live_connected, Store.next_created, Store.next_connected]
    simp

end


/-! ### the fact layer -/

section
variable {cfg : Cfg} {s : Store} {m : Layer} {F G : FactE} {S : StoryE}

theorem whole_next (h : WholeFact s F) (h0 : s.live 0 = false) :
    (Fact.createNextFact F.remark).exec cfg ⟨s, m⟩ = (.err .noNode, ⟨s, m⟩) := by
  have hl := h.live
  simp only [List.mem_cons, List.not_mem_nil, or_false, forall_eq_or_imp, forall_eq] at hl
  simp only [Fact.createNextFact, Fact.readEntityByRemark, Story.fetchByFact, bind_assoc, pure_bind, do_ref, no_ref, hl, h.fwd, h.back, h0]

theorem whole_child (h : WholeFact s F) (h0 : s.live 0 = false) (fuel : Nat) :
    (Fact.createChildStoryFact fuel F.remark).exec cfg ⟨s, m⟩ = (.err .noNode, ⟨s, m⟩) := by
  have hl := h.live
  simp only [List.mem_cons, List.not_mem_nil, or_false, forall_eq_or_imp, forall_eq] at hl
  simp only [Fact.createChildStoryFact, Fact.readEntityByRemark, Story.fetchByFact, bind_assoc, pure_bind, do_ref, no_ref, hl, h.fwd, h.back, h0]

theorem opens_targetStory (h : Opens s F S) {α : Type} {b : Bool} {k : Nat → Go α} :
    (Fact.targetStoryOrZero ⟨F, b⟩ >>= k).exec cfg ⟨s, m⟩ = (k S.fact).exec cfg ⟨s, m⟩ := by
  have hl := h.fact.live
  simp only [List.mem_cons, List.not_mem_nil, or_false, forall_eq_or_imp, forall_eq] at hl
  rw [exec_bind]
  have : (Fact.targetStoryOrZero ⟨F, b⟩).exec cfg ⟨s, m⟩ = (.ok S.fact, ⟨s, m⟩) := by
    simp [Fact.targetStoryOrZero, Fact.getTargetStory, Go.readTargets, Go.call, Go.attempt, Bind.bind, Pure.pure,
      Go.bind, Go.exec, Go.run, Go.noFault, Store.step, hl, h.up, ord_one, Except.toOption]
  rw [this]

theorem opens_first (h : Opens s F S) : (Fact.toFirstFact ⟨F, true⟩).exec cfg ⟨s, m⟩ = (.ok ⟨F, false⟩, ⟨s, m⟩) := by
  have hl := h.fact.live
  have hs := h.story.live
  simp only [List.mem_cons, List.not_mem_nil, or_false, forall_eq_or_imp, forall_eq] at hl hs
  simp only [Fact.toFirstFact, opens_targetStory h, Story.fetchByFact, bind_assoc, pure_bind, do_ref, hs, h.story.back, h.story.fwd,
    Story.getTargetFact, do_targets, h.down, ord_one, Fact.viaStorage, if_true, Fact.readEntityByStory, hl, h.fact.back, do_pure]

theorem opens_hasNextFact (h : Opens s F S) (b : Bool) :
    (Fact.hasNextFact ⟨F, b⟩).exec cfg ⟨s, m⟩ = (.ok (!(cfg.ord s (.readTargets F.position) (s.targets F.position)).isEmpty), ⟨s, m⟩) := by
  have hl := h.fact.live
  simp only [List.mem_cons, List.not_mem_nil, or_false, forall_eq_or_imp, forall_eq] at hl
  simp only [Fact.hasNextFact, do_targets, hl, do_pure]

theorem opens_hasNextStory (h : Opens s F S) (b : Bool) :
    (Fact.hasNextStory ⟨F, b⟩).exec cfg ⟨s, m⟩ = (.ok (!(cfg.ord s (.readTargets S.position) (s.targets S.position)).isEmpty), ⟨s, m⟩) := by
  have hs := h.story.live
  simp only [List.mem_cons, List.not_mem_nil, or_false, forall_eq_or_imp, forall_eq] at hs
  simp only [Fact.hasNextStory, opens_targetStory h, Story.fetchByFact, bind_assoc, pure_bind, do_ref, hs, h.story.back, h.story.fwd,
    Story.hasTargetPosition, do_targets, do_pure]

theorem opens_hasParent (h : Opens s F S) (b : Bool) :
    (Fact.hasParentStory ⟨F, b⟩).exec cfg ⟨s, m⟩ = (.ok (!(cfg.ord s (.readSources S.tree) (s.sources S.tree)).isEmpty), ⟨s, m⟩) := by
  have hs := h.story.live
  simp only [List.mem_cons, List.not_mem_nil, or_false, forall_eq_or_imp, forall_eq] at hs
  simp only [Fact.hasParentStory, opens_targetStory h, Story.fetchByFact, bind_assoc, pure_bind, do_ref, hs, h.story.back, h.story.fwd,
    Story.hasSourceTree, do_sources, do_pure]

theorem opens_parent_zero (h : Opens s F S) (hz : Zero s) (ht : s.targets S.tree = [0]) (h0 : (s.targets 0).length ≠ 1) :
    (Fact.toParentStory ⟨F, true⟩).exec cfg ⟨s, m⟩ = (.err .storyTargetFacts, ⟨s, m⟩) := by
  have hs := h.story.live
  simp only [List.mem_cons, List.not_mem_nil, or_false, forall_eq_or_imp, forall_eq] at hs
  simp only [Fact.toParentStory, opens_targetStory h, Story.fetchByFact, bind_assoc, pure_bind, do_ref, hs, h.story.back, h.story.fwd,
    Story.getTargetTree, do_targets, ht, ord_one, Story.fetchByTree, hz.live, hz.back, hz.fwd, Story.getTargetFact]
  have : (cfg.ord s (.readTargets 0) (s.targets 0)).length ≠ 1 := by rw [(cfg.ord_perm _ _ _).length_eq]; exact h0
  split
  · rename_i t ht; rw [ht] at this; exact absurd rfl this
  · rfl


theorem Store.mem_targets {x y : Nat} : y ∈ s.targets x ↔ (x, y) ∈ s.edges := by
  unfold Store.targets
  simp

theorem Spec.Sane.mem_targets (h : Sane s) {x y : Nat} (hy : y ∈ s.targets x) : s.live x = true ∧ s.live y = true :=
  h.edges _ (Store.mem_targets.1 hy)

/-- a new fact is whole -/
theorem whole_grown (h : Sane s) (k : Nat) :
    WholeFact (s.grown cfg k) ⟨s.next, s.next + 1 + cfg.arrow, s.next + 2 + cfg.arrow, s.next + 3 + cfg.arrow⟩ where
  live := by simp [Store.live_grown]
  pos := by have := h.nodes 1 (h.classes 1 (by decide)); simp; omega
  fwd := ⟨Store.fwd_grown0, Store.fwd_grown1, Store.fwd_grown2, by rw [Store.fwd_grown (by dsimp only; omega), h.fwd (by dsimp only; omega)]⟩
  back := ⟨by rw [Store.back_grown (by dsimp only; omega), h.back (by dsimp only; omega)], Store.back_grown1, Store.back_grown2, Store.back_grown3⟩

theorem whole_grown_story (h : Sane s) (k : Nat) :
    WholeStory (s.grown cfg k) ⟨s.next, s.next + 1 + cfg.arrow, s.next + 2 + cfg.arrow, s.next + 3 + cfg.arrow⟩ where
  live := by simp [Store.live_grown]
  pos := by have := h.nodes 1 (h.classes 1 (by decide)); simp; omega
  fwd := ⟨Store.fwd_grown0, Store.fwd_grown1, Store.fwd_grown2, by rw [Store.fwd_grown (by dsimp only; omega), h.fwd (by dsimp only; omega)]⟩
  back := ⟨by rw [Store.back_grown (by dsimp only; omega), h.back (by dsimp only; omega)], Store.back_grown1, Store.back_grown2, Store.back_grown3⟩

theorem Spec.WholeFact.kept_grown (hs : Sane s) (h : WholeFact s F) (k : Nat) : WholeFact (s.grown cfg k) F := by
  have hl := h.live
  simp only [List.mem_cons, List.not_mem_nil, or_false, forall_eq_or_imp, forall_eq] at hl
  have h1 := hs.nodes _ hl.1
  have h2 := hs.nodes _ hl.2.1
  have h3 := hs.nodes _ hl.2.2.1
  have h4 := hs.nodes _ hl.2.2.2
  refine ⟨fun x hx => Store.live_grown_old (h.live x hx), h.pos, ?_, ?_⟩
  · simp (disch := omega) only [Store.fwd_grown]; exact h.fwd
  · simp (disch := omega) only [Store.back_grown]; exact h.back

theorem Spec.WholeStory.kept_grown (hs : Sane s) (h : WholeStory s S) (k : Nat) : WholeStory (s.grown cfg k) S := by
  have hl := h.live
  simp only [List.mem_cons, List.not_mem_nil, or_false, forall_eq_or_imp, forall_eq] at hl
  have h1 := hs.nodes _ hl.1
  have h2 := hs.nodes _ hl.2.1
  have h3 := hs.nodes _ hl.2.2.1
  have h4 := hs.nodes _ hl.2.2.2
  refine ⟨fun x hx => Store.live_grown_old (h.live x hx), h.pos, ?_, ?_⟩
  · simp (disch := omega) only [Store.fwd_grown]; exact h.fwd
  · simp (disch := omega) only [Store.back_grown]; exact h.back

theorem Spec.WholeFact.connected (h : WholeFact s F) (x y : Nat) : WholeFact (s.connected cfg x y) F := ⟨h.live, h.pos, h.fwd, h.back⟩
theorem Spec.WholeStory.connected (h : WholeStory s S) (x y : Nat) : WholeStory (s.connected cfg x y) S := ⟨h.live, h.pos, h.fwd, h.back⟩
theorem Spec.Zero.connected (h : Zero s) (x y : Nat) : Zero (s.connected cfg x y) := ⟨h.live, h.fwd, h.back⟩
theorem Spec.Zero.kept_grown (hs : Sane s) (h : Zero s) (k : Nat) : Zero (s.grown cfg k) := by
  have := hs.nodes 0 h.live
  exact ⟨Store.live_grown_old h.live, by rw [Store.fwd_grown (by omega), h.fwd], by rw [Store.back_grown (by omega), h.back]⟩

/-- `CreateFirstStoryFact` -/
theorem first_fact (h : Sane s) : ∃ F S s', Fact.createFirstStoryFact.exec cfg ⟨s, m⟩ = (.ok ⟨F, true⟩, ⟨s', m⟩) ∧ Sane s' ∧
    Opens s' F S ∧ s'.targets F.position = [] ∧ s'.targets S.position = [] ∧ s'.targets S.tree = [] ∧ s'.sources S.tree = [] ∧
    s'.sources F.position = [] ∧
    (∀ x, s.live x = true → s'.live x = true ∧ s'.targets x = s.targets x ∧ s'.fwd x = s.fwd x ∧ s'.back x = s.back x) := by
  have hs1 := h.grown cfg (k := 7) (h.classes 7 (by decide))
  have hs2 := hs1.grown cfg (k := 8) (hs1.classes 8 (by decide))
  have c7 := h.nodes 7 (h.classes 7 (by decide))
  have c8 := h.nodes 8 (h.classes 8 (by decide))
  have e : (s.grown cfg 7).next = s.next + 4 + cfg.arrow := Store.next_grown
  let F : FactE := ⟨s.next, s.next + 1 + cfg.arrow, s.next + 2 + cfg.arrow, s.next + 3 + cfg.arrow⟩
  let S : StoryE := ⟨(s.grown cfg 7).next, (s.grown cfg 7).next + 1 + cfg.arrow, (s.grown cfg 7).next + 2 + cfg.arrow,
    (s.grown cfg 7).next + 3 + cfg.arrow⟩
  have wF : WholeFact ((s.grown cfg 7).grown cfg 8) F := (whole_grown h 7).kept_grown hs1 8
  have wS : WholeStory ((s.grown cfg 7).grown cfg 8) S := whole_grown_story hs1 8
  have lF := wF.live
  have lS := wS.live
  simp only [List.mem_cons, List.not_mem_nil, or_false, forall_eq_or_imp, forall_eq] at lF lS
  have tF : ((s.grown cfg 7).grown cfg 8).targets F.story = [] := by
    rw [Store.targets_grown (by simp [F, e] <;> omega), Store.targets_grown (by simp [F] <;> omega), h.targets (by simp [F] <;> omega)]
  have tS : ((s.grown cfg 7).grown cfg 8).targets S.fact = [] := by
    rw [Store.targets_grown (by simp [S] <;> omega), hs1.targets (by simp [S] <;> omega)]
  have hs3 := hs2.connected cfg lF.2.2.2 lS.2.1
  have hs4 := hs3.connected cfg (x := S.fact) (y := F.story) lS.2.1 lF.2.2.2
  have ne : S.fact ≠ F.story := by simp [F, S, e] <;> omega
  refine ⟨F, S, _, ?_, hs4, ⟨(wF.connected _ _).connected _ _, (wS.connected _ _).connected _ _, ?_, ?_⟩, ?_, ?_, ?_, ?_, ?_, ?_⟩
  · simp only [Fact.createFirstStoryFact, Story.createStory, bind_assoc, do_classes (h.classes 1 (by decide)), do_newFact h,
      do_classes (hs1.classes 1 (by decide)), do_newStory hs1]
    rw [do_connect lF.2.2.2 lS.2.1 (by rw [tF]; simp), do_connect, do_pure]
    · exact lS.2.1
    · exact lF.2.2.2
    · rw [Store.targets_connected ne, tS]; simp
  · rw [Store.targets_connected ne.symm, Store.targets_connected_self, tF]
  · rw [Store.targets_connected_self, Store.targets_connected ne, tS]
  · rw [Store.targets_connected (by simp [F, S, e] <;> omega), Store.targets_connected (by simp [F] <;> omega),
      Store.targets_grown (by simp [F, e] <;> omega), Store.targets_grown (by simp [F] <;> omega), h.targets (by simp [F] <;> omega)]
  · rw [Store.targets_connected (by simp [S] <;> omega), Store.targets_connected (by simp [F, S, e] <;> omega),
      Store.targets_grown (by simp [S] <;> omega), hs1.targets (by simp [S] <;> omega)]
  · rw [Store.targets_connected (by simp [S] <;> omega), Store.targets_connected (by simp [F, S, e] <;> omega),
      Store.targets_grown (by simp [S] <;> omega), hs1.targets (by simp [S] <;> omega)]
  · rw [Store.sources_connected (by simp [F, S, e] <;> omega), Store.sources_connected (by simp [S] <;> omega),
      Store.sources_grown (by simp [S, e] <;> omega), hs1.sources (by simp [S] <;> omega)]
  · rw [Store.sources_connected (by simp [F] <;> omega), Store.sources_connected (by simp [F, S, e] <;> omega),
      Store.sources_grown (by simp [F] <;> omega), Store.sources_grown (by simp [F] <;> omega), h.sources (by simp [F] <;> omega)]
  · intro x hx
    have lx := h.nodes x hx
    refine ⟨?_, ?_, ?_, ?_⟩
    · rw [Store.live_connected, Store.live_connected]
      exact Store.live_grown_old (Store.live_grown_old hx)
    · rw [Store.targets_connected (by simp [S, e] <;> omega), Store.targets_connected (by simp [F] <;> omega),
        Store.targets_grown (by rw [e] <;> omega), Store.targets_grown (by omega)]
    · rw [Store.fwd_connected, Store.fwd_connected, Store.fwd_grown (by rw [e] <;> omega), Store.fwd_grown (by omega)]
    · rw [Store.back_connected, Store.back_connected, Store.back_grown (by rw [e] <;> omega), Store.back_grown (by omega)]

/-- `CreateNextFact` with the right identifier, on a storage with a node 0 -/
theorem next_fact (h : Sane s) (hz : Zero s) (hF : WholeFact s F) :
    ∃ G s', (Fact.createNextFact F.remark).exec cfg ⟨s, m⟩ = (.ok ⟨G, true⟩, ⟨s', m⟩) ∧ Sane s' ∧ Zero s' ∧
    WholeFact s' G ∧ WholeFact s' F ∧ s.live G.story = false ∧ G ≠ F ∧ s'.targets G.story = [F.story] ∧
    s'.targets F.position = G.position :: s.targets F.position ∧ s'.targets G.position = [] ∧
    (∀ x, s.live x = true → x ≠ F.position → s'.targets x = s.targets x) ∧
    (∀ S, WholeStory s S → WholeStory s' S) := by
  have hs1 := h.grown cfg (k := 7) (h.classes 7 (by decide))
  let G : FactE := ⟨s.next, s.next + 1 + cfg.arrow, s.next + 2 + cfg.arrow, s.next + 3 + cfg.arrow⟩
  have wG : WholeFact (s.grown cfg 7) G := whole_grown h 7
  have wF : WholeFact (s.grown cfg 7) F := hF.kept_grown h 7
  have lG := wG.live
  have lF := wF.live
  have l0 := hF.live
  simp only [List.mem_cons, List.not_mem_nil, or_false, forall_eq_or_imp, forall_eq] at lF lG l0
  have nS := h.nodes _ l0.2.2.2
  have nP := h.nodes _ l0.2.2.1
  have tG : (s.grown cfg 7).targets G.story = [] := by
    rw [Store.targets_grown (by simp [G] <;> omega), h.targets (by simp [G] <;> omega)]
  have ne : F.position ≠ G.story := by simp [G] <;> omega
  have np : G.position ≠ F.position := by simp [G] <;> omega
  have hs2 := hs1.connected cfg lG.2.2.2 lF.2.2.2
  have hs3 := hs2.connected cfg (x := F.position) (y := G.position) lF.2.2.1 lG.2.2.1
  refine ⟨G, _, ?_, hs3, ((hz.kept_grown h 7).connected _ _).connected _ _, (wG.connected _ _).connected _ _,
    (wF.connected _ _).connected _ _, h.dead (by simp [G] <;> omega), ?_, ?_, ?_, ?_, ?_, ?_⟩
  · simp only [Fact.createNextFact, Fact.readEntityByRemark, Story.fetchByFact, bind_assoc, pure_bind, do_ref, l0, hF.fwd, hF.back, hz.live,
      do_classes (h.classes 1 (by decide)), do_newFact h]
    rw [do_connect lG.2.2.2 lF.2.2.2 (by rw [tG]; simp), do_connect, do_pure]
    · exact lF.2.2.1
    · exact lG.2.2.1
    · rw [Store.targets_connected ne, Store.targets_grown (by omega)]
      intro hm
      have := h.nodes _ (h.mem_targets hm).2
      have e : G.position = s.next + 2 + cfg.arrow := rfl
      omega
  · intro e
    have : G.position = F.position := by rw [e]
    exact np this
  · rw [Store.targets_connected ne.symm, Store.targets_connected_self, tG]
  · rw [Store.targets_connected_self, Store.targets_connected ne, Store.targets_grown (by omega)]
  · rw [Store.targets_connected np, Store.targets_connected (by simp [G] <;> omega), Store.targets_grown (by simp [G] <;> omega),
      h.targets (by simp [G] <;> omega)]
  · intro x hx hp
    have := h.nodes x hx
    rw [Store.targets_connected hp, Store.targets_connected (by simp [G] <;> omega), Store.targets_grown (by omega)]
  · intro S hS
    exact ((hS.kept_grown h 7).connected _ _).connected _ _


theorem Store.mem_sources {x y : Nat} : x ∈ s.sources y ↔ (x, y) ∈ s.edges := by
  unfold Store.sources
  simp

/-- the loop over sibling stories ends at a node that it can reach -/
theorem sibling_loop {Q : Nat → Prop} (hl : ∀ x, Q x → s.live x = true) (hQ : ∀ x, Q x → ∀ y ∈ s.targets x, Q y) :
    ∀ (n : Nat) (st : StoryE), Q st.position → ∃ o, (Fact.lastSibling n st).exec cfg ⟨s, m⟩ = (o, ⟨s, m⟩) ∧
      ∀ r, o = .ok r → Q r.position := by
  intro n
  induction n with
  | zero => intro st _; exact ⟨.spin, rfl, by simp⟩
  | succ n ih =>
    intro st hst
    simp only [Fact.lastSibling, Story.hasTargetPosition, Story.getTargetPosition, bind_assoc, pure_bind, do_targets (hl _ hst)]
    split
    · rw [do_targets (hl _ hst)]
      split
      · rename_i t ht
        have hm : t ∈ s.targets st.position := (cfg.ord_perm _ _ _).subset (by rw [ht]; simp)
        have qt := hQ _ hst _ hm
        simp only [Story.fetchByPosition, bind_assoc, pure_bind, do_ref (hl _ qt)]
        cases hb : s.live (s.back t) with
        | true => rw [do_ref hb]; exact ih _ qt
        | false => rw [no_ref hb]; exact ⟨_, rfl, by simp⟩
      · exact ⟨_, rfl, by simp⟩
    · exact ⟨_, rfl, fun r hr => by cases hr; exact hst⟩

/-- the part of `CreateChildStoryFact` after the new story was linked -/
def childTail (T : StoryE) : Go FactAgg := do
  Class.provideEntity
  let classIdentifier ← Class.createNode Class.factId
  let firstFact ← Fact.createEntity classIdentifier
  Go.connect firstFact.story T.fact
  Go.connect T.fact firstFact.story
  pure ⟨firstFact, true⟩

theorem child_tail (h : Sane s) {T : StoryE} (hT : WholeStory s T) (tT : s.targets T.fact = []) :
    ∃ G s', (childTail T).exec cfg ⟨s, m⟩ = (.ok ⟨G, true⟩, ⟨s', m⟩) ∧ Sane s' ∧ Opens s' G T ∧ s'.targets G.position = [] ∧
    s.live G.cls = false ∧
    (Zero s → Zero s') ∧ (∀ x, s.live x = true → x ≠ T.fact → s'.targets x = s.targets x) ∧
    (∀ x, s.live x = true → x ≠ T.fact → x ≠ 7 → s'.sources x = s.sources x) ∧
    (∀ S, WholeStory s S → WholeStory s' S) ∧ (∀ F, WholeFact s F → WholeFact s' F) := by
  have hs1 := h.grown cfg (k := 7) (h.classes 7 (by decide))
  let G : FactE := ⟨s.next, s.next + 1 + cfg.arrow, s.next + 2 + cfg.arrow, s.next + 3 + cfg.arrow⟩
  have wG : WholeFact (s.grown cfg 7) G := whole_grown h 7
  have wT : WholeStory (s.grown cfg 7) T := hT.kept_grown h 7
  have lG := wG.live
  have lT := wT.live
  have l0 := hT.live
  simp only [List.mem_cons, List.not_mem_nil, or_false, forall_eq_or_imp, forall_eq] at lT lG l0
  have nT := h.nodes _ l0.2.1
  have tG : (s.grown cfg 7).targets G.story = [] := by
    rw [Store.targets_grown (by simp [G] <;> omega), h.targets (by simp [G] <;> omega)]
  have tT' : (s.grown cfg 7).targets T.fact = [] := by rw [Store.targets_grown (by omega), tT]
  have ne : T.fact ≠ G.story := by simp [G] <;> omega
  have hs2 := hs1.connected cfg lG.2.2.2 lT.2.1
  have hs3 := hs2.connected cfg (x := T.fact) (y := G.story) lT.2.1 lG.2.2.2
  refine ⟨G, _, ?_, hs3, ⟨(wG.connected _ _).connected _ _, (wT.connected _ _).connected _ _, ?_, ?_⟩, ?_,
    h.dead (by simp [G]), fun hz => ((hz.kept_grown h 7).connected _ _).connected _ _, ?_, ?_,
    fun S hS => ((hS.kept_grown h 7).connected _ _).connected _ _, fun F hF => ((hF.kept_grown h 7).connected _ _).connected _ _⟩
  · simp only [childTail, bind_assoc, do_classes (h.classes 1 (by decide)), do_newFact h]
    rw [do_connect lG.2.2.2 lT.2.1 (by rw [tG]; simp), do_connect, do_pure]
    · exact lT.2.1
    · exact lG.2.2.2
    · rw [Store.targets_connected ne, tT']; simp
  · rw [Store.targets_connected ne.symm, Store.targets_connected_self, tG]
  · rw [Store.targets_connected_self, Store.targets_connected ne, tT']
  · rw [Store.targets_connected (by simp [G] <;> omega), Store.targets_connected (by simp [G] <;> omega),
      Store.targets_grown (by simp [G] <;> omega), h.targets (by simp [G] <;> omega)]
  · intro x hx hp
    have := h.nodes x hx
    rw [Store.targets_connected hp, Store.targets_connected (by simp [G] <;> omega), Store.targets_grown (by omega)]
  · intro x hx hp h7
    have := h.nodes x hx
    rw [Store.sources_connected (by simp [G] <;> omega), Store.sources_connected hp, Store.sources_grown h7]

/-- what `CreateChildStoryFact`, given the right identifier, leaves behind on a storage with a node 0 -/
theorem child_fact (h : Sane s) (hz : Zero s) (hF : WholeFact s F) (fuel : Nat) :
    ∃ o s', (Fact.createChildStoryFact fuel F.remark).exec cfg ⟨s, m⟩ = (o, ⟨s', m⟩) ∧ Sane s' ∧
    (s.targets 0 = [] → ∃ a, o = .ok a) ∧
    ∀ a, o = .ok a → ∃ G T, a = ⟨G, true⟩ ∧ Zero s' ∧ Opens s' G T ∧ WholeFact s' F ∧ G ≠ F ∧ s'.targets G.position = [] ∧
      s'.targets T.position = [] ∧ s'.targets T.tree = [0] ∧ s'.sources T.tree = (if s.targets 0 = [] then [] else [0]) ∧
      (s'.targets 0).length ≠ 1 := by
  let T : StoryE := ⟨s.next, s.next + 1 + cfg.arrow, s.next + 2 + cfg.arrow, s.next + 3 + cfg.arrow⟩
  let s1 := (s.grown cfg 8).connected cfg T.tree 0
  have l0 := hF.live
  simp only [List.mem_cons, List.not_mem_nil, or_false, forall_eq_or_imp, forall_eq] at l0
  have hg := h.grown cfg (k := 8) (h.classes 8 (by decide))
  have wTg : WholeStory (s.grown cfg 8) T := whole_grown_story h 8
  have wT : WholeStory s1 T := wTg.connected _ _
  have wF : WholeFact s1 F := (hF.kept_grown h 8).connected _ _
  have lT := wT.live
  simp only [List.mem_cons, List.not_mem_nil, or_false, forall_eq_or_imp, forall_eq] at lT
  have z1 : Zero s1 := (hz.kept_grown h 8).connected _ _
  have n0 := h.nodes 0 hz.live
  have n8 := h.nodes 8 (h.classes 8 (by decide))
  have h1 : Sane s1 := hg.connected cfg lT.2.2.2 (hz.kept_grown (cfg := cfg) h 8).live
  have told : ∀ x, s.live x = true → s1.targets x = s.targets x := fun x hx => by
    have := h.nodes x hx
    rw [Store.targets_connected (by simp [T] <;> omega), Store.targets_grown (by omega)]
  have tTt : s1.targets T.tree = [0] := by
    rw [Store.targets_connected_self, Store.targets_grown (by simp [T] <;> omega), h.targets (by simp [T] <;> omega)]
  have tTp : s1.targets T.position = [] := by
    rw [Store.targets_connected (by simp [T] <;> omega), Store.targets_grown (by simp [T] <;> omega), h.targets (by simp [T] <;> omega)]
  have tTf : s1.targets T.fact = [] := by
    rw [Store.targets_connected (by simp [T] <;> omega), Store.targets_grown (by simp [T] <;> omega), h.targets (by simp [T] <;> omega)]
  have sT : ∀ x, s.next ≤ x → s1.sources x = [] := fun x hx => by
    rw [Store.sources_connected (by omega), Store.sources_grown (by omega), h.sources hx]
  have gF : ∀ {s2 : Store} {G : FactE}, WholeFact s2 F → s2.live G.cls = false → G ≠ F := by
    intro s2 G hw hd e
    rw [e, hw.live F.cls (by simp)] at hd
    cases hd
  have head : ∀ b, (s.targets 0 = [] ↔ b = false) →
      (Fact.createChildStoryFact fuel F.remark).exec cfg ⟨s, m⟩ =
      ((if b then do
          let siblingStory ← Story.fetchByTree 0
          let siblingStory ← Fact.lastSibling fuel siblingStory
          Go.connect siblingStory.position T.position
          Go.connect 0 T.tree
        else pure ()) >>= fun _ => childTail T).exec cfg ⟨s1, m⟩ := by
    intro b hb
    have hb' : (!(cfg.ord s (.readTargets 0) (s.targets 0)).isEmpty) = b := by
      have hp := cfg.ord_perm s (.readTargets 0) (s.targets 0)
      cases b with
      | false => rw [hb.2 rfl, ord_nil]; rfl
      | true =>
        have : s.targets 0 ≠ [] := fun e => by have := hb.1 e; cases this
        cases hc : cfg.ord s (.readTargets 0) (s.targets 0) with
        | nil => rw [hc] at hp; exact absurd (List.nil_perm.1 hp) this
        | cons => rfl
    simp only [Fact.createChildStoryFact, Fact.readEntityByRemark, Story.fetchByFact, bind_assoc, pure_bind, do_ref, l0, hF.fwd, hF.back,
      hz.live, hz.back, hz.fwd, Story.hasTargetTree, do_targets, hb', Story.createStory, do_classes (h.classes 1 (by decide)), do_newStory h]
    rw [do_connect (s := s.grown cfg 8) lT.2.2.2 (hz.kept_grown h 8).live]
    · cases b <;> simp only [childTail, bind_assoc, if_true, if_false, pure_bind] <;> rfl
    · rw [Store.targets_grown (by simp [T] <;> omega), h.targets (by simp [T] <;> omega)]; simp
  by_cases h0 : s.targets 0 = []
  · rw [head false (by simp [h0])]
    obtain ⟨G, s', he, hs', op, gp, gd, zz, tt, ss, ws, wf⟩ := child_tail (cfg := cfg) (m := m) h1 wT tTf
    refine ⟨_, s', he, hs', fun _ => ⟨_, rfl⟩, fun a ha => ?_⟩
    cases ha
    refine ⟨G, T, rfl, zz z1, op, wf F wF, gF wF gd, gp, ?_, ?_, ?_, ?_⟩
    · rw [tt _ lT.2.2.1 (by simp [T] <;> omega), tTp]
    · rw [tt _ lT.2.2.2 (by simp [T] <;> omega), tTt]
    · rw [ss _ lT.2.2.2 (by simp [T] <;> omega) (by simp [T] <;> omega), sT _ (by simp [T] <;> omega), if_pos h0]
    · rw [tt 0 z1.live (by simp [T] <;> omega), told 0 hz.live, h0]; simp
  · rw [head true (by simp [h0])]
    simp only [if_true, bind_assoc, Story.fetchByTree, do_ref z1.live, z1.back, pure_bind]
    obtain ⟨o, he, ho⟩ := sibling_loop (cfg := cfg) (m := m) (s := s1) (Q := fun x => s.live x = true)
      (fun x hx => Store.live_grown_old hx) (fun x hx y hy => (h.mem_targets (by rw [← told x hx]; exact hy)).2) fuel ⟨0, 0, 0, 0⟩ hz.live
    rw [exec_bind, he]
    cases o with
    | err e => exact ⟨_, s1, rfl, h1, fun e => absurd e h0, fun a ha => by cases ha⟩
    | panic => exact ⟨_, s1, rfl, h1, fun e => absurd e h0, fun a ha => by cases ha⟩
    | spin => exact ⟨_, s1, rfl, h1, fun e => absurd e h0, fun a ha => by cases ha⟩
    | ok r =>
      have lr := ho r rfl
      have nr := h.nodes _ lr
      have lr1 : s1.live r.position = true := Store.live_grown_old lr
      have h2 := h1.connected cfg (x := r.position) (y := T.position) lr1 lT.2.2.1
      have h3 := h2.connected cfg (x := 0) (y := T.tree) z1.live lT.2.2.2
      have nor : ∀ x y, s.live x = true → s.next ≤ y → y ∉ s.targets x := fun x y hx hy hm => by
        have := h.nodes _ (h.mem_targets hm).2; omega
      have wT3 : WholeStory ((s1.connected cfg r.position T.position).connected cfg 0 T.tree) T :=
        (wT.connected _ _).connected _ _
      obtain ⟨G, s', he, hs', op, gp, gd, zz, tt, ss, ws, wf⟩ := child_tail (cfg := cfg) (m := m) h3 wT3 (by
        rw [Store.targets_connected (by simp [T] <;> omega), Store.targets_connected (by simp [T] <;> omega), tTf])
      have wF3 : WholeFact ((s1.connected cfg r.position T.position).connected cfg 0 T.tree) F := (wF.connected _ _).connected _ _
      refine ⟨.ok ⟨G, true⟩, s', ?_, hs', fun e => absurd e h0, fun a ha => ?_⟩
      · rw [← he]
        dsimp only
        rw [do_connect lr1 lT.2.2.1 (by rw [told _ lr]; exact nor _ _ lr (by simp [T] <;> omega)), do_connect]
        · exact z1.live
        · exact lT.2.2.2
        · by_cases hr : 0 = r.position
          · rw [← hr, Store.targets_connected_self, told 0 hz.live]
            rw [List.mem_cons, not_or]
            exact ⟨by simp [T] <;> omega, nor _ _ hz.live (by simp [T] <;> omega)⟩
          · rw [Store.targets_connected hr, told 0 hz.live]
            exact nor _ _ hz.live (by simp [T] <;> omega)
      · cases ha
        refine ⟨G, T, rfl, zz ((z1.connected _ _).connected _ _), op, wf F wF3, gF wF3 gd, gp, ?_, ?_, ?_, ?_⟩
        · rw [tt _ lT.2.2.1 (by simp [T] <;> omega), Store.targets_connected (by simp [T] <;> omega), Store.targets_connected (by simp [T] <;> omega), tTp]
        · rw [tt _ lT.2.2.2 (by simp [T] <;> omega), Store.targets_connected (by simp [T] <;> omega), Store.targets_connected (by simp [T] <;> omega), tTt]
        · rw [ss _ lT.2.2.2 (by simp [T] <;> omega) (by simp [T] <;> omega), Store.sources_connected_self, Store.sources_connected (by simp [T] <;> omega),
            sT _ (by simp [T] <;> omega), if_neg h0]
        · rw [tt 0 z1.live (by simp [T] <;> omega), Store.targets_connected_self]
          have : (s1.connected cfg r.position T.position).targets 0 ≠ [] := by
            by_cases hr : 0 = r.position
            · rw [← hr, Store.targets_connected_self]; simp
            · rw [Store.targets_connected hr, told 0 hz.live]; exact h0
          cases hc : (s1.connected cfg r.position T.position).targets 0 with
          | nil => exact absurd hc this
          | cons => simp


/-- `ToFirstFact` of a fact whose story node points to the story node of another fact -/
theorem first_of_next (hz : Zero s) (hG : WholeFact s G) (hF : Opens s F S) (ht : s.targets G.story = [F.story]) :
    (Fact.toFirstFact ⟨G, true⟩).exec cfg ⟨s, m⟩ = (.ok ⟨⟨0, 0, S.cls, S.fact⟩, false⟩, ⟨s, m⟩) := by
  have lG := hG.live
  have lF := hF.fact.live
  have lS := hF.story.live
  simp only [List.mem_cons, List.not_mem_nil, or_false, forall_eq_or_imp, forall_eq] at lG lF lS
  have h1 : ∀ {α : Type} {k : Nat → Go α},
      (Fact.targetStoryOrZero ⟨G, true⟩ >>= k).exec cfg ⟨s, m⟩ = (k F.story).exec cfg ⟨s, m⟩ := by
    intro α k
    rw [exec_bind]
    have : (Fact.targetStoryOrZero ⟨G, true⟩).exec cfg ⟨s, m⟩ = (.ok F.story, ⟨s, m⟩) := by
      simp [Fact.targetStoryOrZero, Fact.getTargetStory, Go.readTargets, Go.call, Go.attempt, Bind.bind, Pure.pure,
        Go.bind, Go.exec, Go.run, Go.noFault, Store.step, lG, ht, ord_one, Except.toOption]
    rw [this]
  simp only [Fact.toFirstFact, h1, Story.fetchByFact, bind_assoc, pure_bind, do_ref, lF, lS, hz.live, hz.back, hz.fwd, hF.fact.back,
    hF.fact.fwd, Story.getTargetFact, do_targets, hF.up, ord_one, Fact.viaStorage, if_true, Fact.readEntityByStory, hF.story.back, do_pure]

theorem next_of (h : WholeFact s F) (hG : WholeFact s G) (ht : s.targets F.position = [G.position]) :
    (Fact.toNextFact ⟨F, true⟩).exec cfg ⟨s, m⟩ = (.ok ⟨G, false⟩, ⟨s, m⟩) := by
  have lG := hG.live
  have lF := h.live
  simp only [List.mem_cons, List.not_mem_nil, or_false, forall_eq_or_imp, forall_eq] at lG lF
  simp only [Fact.toNextFact, Fact.getTargetFact, bind_assoc, pure_bind, do_targets, lF, ht, ord_one, Fact.viaStorage, if_true,
    Fact.readEntityByPosition, do_ref, lG, hG.back, hG.fwd, do_pure]

end

/-! ### histories -/

theorem Spec.Calm.sane {cfg : Cfg} {fuel : Nat} {es : List Event} (h : Calm cfg fuel es)
    (h1 : (after cfg fuel es).world.store.live 1 = true) : Sane (after cfg fuel es).world.store ∧
    (cfg.zero = true → Zero (after cfg fuel es).world.store) ∧
    (cfg.zero = false → (after cfg fuel es).world.store.live 0 = false) := by
  have ht := tidy_after cfg fuel es
  rcases h.sound with hb | ⟨σ, hs, hc⟩
  · unfold Blank at hb
    rw [hb] at h1
    cases hz : cfg.zero <;> simp [State.init, World.open, Store.empty, Store.live, hz] at h1
  · have hi := hs.inv
    rw [← hs.is.store] at ht ⊢
    refine ⟨⟨fun x hx => hi.bound x ((hi.live x).1 hx), ht.edges, ht.refs, fun k hk => ?_⟩, fun hz => ?_, fun hz => ?_⟩
    · refine (hi.live k).2 ?_
      have : σ.tag k = .root := (hi.root k).2 (by simp [classes] at hk; omega)
      rw [this]; simp
    · have t0 : σ.tag 0 = .zero := (hi.zero 0).2 ⟨rfl, hz⟩
      exact ⟨(hi.live 0).2 (by rw [t0]; simp), hi.noF 0 (by rw [t0]; rfl), hi.noB 0 (by rw [t0]; rfl)⟩
    · have := hi.node0 hz
      cases hl : σ.store.live 0 with
      | false => rfl
      | true => exact absurd this ((hi.live 0).1 hl)

theorem Spec.Calm.facts {cfg : Cfg} {fuel : Nat} {es : List Event} (h : Calm cfg fuel es) {x : Nat}
    (hx : x ∈ (after cfg fuel es).world.store.sources 7) :
    ∃ F : FactE, F.cls = x ∧ WholeFact (after cfg fuel es).world.store F := by
  obtain ⟨σ, is, hi, hc, ht, hw⟩ := h.catalogue (k := 7) (by decide) hx
  rw [← is.store]
  rcases hw.nodes with ⟨a, b, c, t1, t2, t3, hk', hch, h1, h2, h3⟩ | ⟨hk', _⟩ | ⟨hk', _⟩
  · obtain ⟨l0, l1, l2, l3⟩ := hi.chain_live ht hk' h1 h2 h3
    refine ⟨⟨x, a, b, c⟩, rfl, by simp [l0, l1, l2, l3], ?_, ⟨(back_fwd hch.ab).1, (back_fwd hch.bc).1, (back_fwd hch.cd).1, ?_⟩,
      ⟨?_, (back_fwd hch.ab).2, (back_fwd hch.bc).2, (back_fwd hch.cd).2⟩⟩
    · have z : ∀ y, σ.tag y ≠ .zero → σ.store.live y = true → y ≠ 0 := fun y hy hl e => by
        subst e
        cases hz : cfg.zero with
        | true => exact hy ((hi.zero 0).2 ⟨rfl, hz⟩)
        | false => exact (hi.live 0).1 hl (hi.node0 hz)
      cases hk'
      simp only [List.mem_cons, List.not_mem_nil, or_false, forall_eq_or_imp, forall_eq]
      exact ⟨z x (by rw [ht]; simp) l0, z a (by rw [h1]; simp) l1, z b (by rw [h2]; simp) l2, z c (by rw [h3]; simp) l3⟩
    · refine hi.noF c ?_
      cases hk'; rw [h3]; rfl
    · exact hi.noB x (by rw [ht]; rfl)
  · cases hk'
  · cases hk'

end Semnet
