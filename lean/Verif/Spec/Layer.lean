import Verif.Spec.Catalogue
/-
  Specification: the fact layer (`internal/concrete/fact`) on its own, on any storage that is in order.
-/
namespace Semnet.Spec

/-- The storage is in order: identifiers of nodes are below the next one, edges and references join nodes, the class
    nodes exist.  Nothing is said about what the nodes are used for. -/
structure Sane (s : Store) : Prop where
  nodes : ∀ x, s.live x = true → x < s.next
  edges : ∀ e ∈ s.edges, s.live e.1 = true ∧ s.live e.2 = true
  refs : ∀ e ∈ s.refs, s.live e.1 = true ∧ s.live e.2 = true
  classes : ∀ k ∈ classes, s.live k = true

/-- the node 0, if there is one, takes no part in references -/
structure Zero (s : Store) : Prop where
  live : s.live 0 = true
  fwd : s.fwd 0 = 0
  back : s.back 0 = 0

/-- the four nodes of a fact are there and refer to each other in turn -/
structure WholeFact (s : Store) (F : FactE) : Prop where
  live : ∀ x ∈ [F.cls, F.remark, F.position, F.story], s.live x = true
  pos : ∀ x ∈ [F.cls, F.remark, F.position, F.story], x ≠ 0
  fwd : s.fwd F.cls = F.remark ∧ s.fwd F.remark = F.position ∧ s.fwd F.position = F.story ∧ s.fwd F.story = 0
  back : s.back F.cls = 0 ∧ s.back F.remark = F.cls ∧ s.back F.position = F.remark ∧ s.back F.story = F.position

/-- the four nodes of a story are there and refer to each other in turn -/
structure WholeStory (s : Store) (S : StoryE) : Prop where
  live : ∀ x ∈ [S.cls, S.fact, S.position, S.tree], s.live x = true
  pos : ∀ x ∈ [S.cls, S.fact, S.position, S.tree], x ≠ 0
  fwd : s.fwd S.cls = S.fact ∧ s.fwd S.fact = S.position ∧ s.fwd S.position = S.tree ∧ s.fwd S.tree = 0
  back : s.back S.cls = 0 ∧ s.back S.fact = S.cls ∧ s.back S.position = S.fact ∧ s.back S.tree = S.position

/-- `F` opens the story `S` -/
structure Opens (s : Store) (F : FactE) (S : StoryE) : Prop where
  fact : WholeFact s F
  story : WholeStory s S
  up : s.targets F.story = [S.fact]
  down : s.targets S.fact = [F.story]

end Semnet.Spec
