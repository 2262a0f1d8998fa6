import Verif.Model.Remark
/-
  Specification: the catalogue.  The sources of the eight class nodes list the entities of the storage; an
  entity is its class node and the nodes that follow it by references.
-/
namespace Semnet.Spec

/-- how many nodes an entity of a class has -/
def size : Nat → Nat
  | 1 => 2
  | 5 => 3
  | _ => 4

/-- `x` and what follows it by references, `n` nodes in all -/
def trail (s : Store) : Nat → Nat → List Nat
  | 0, _ => []
  | n + 1, x => x :: trail s n (s.fwd x)

/-- the eight class nodes -/
def classes : List Nat := [1, 2, 3, 4, 5, 6, 7, 8]

/-- the nodes of all entities -/
def inventory (s : Store) : List Nat :=
  classes.flatMap fun k => (s.sources k).flatMap fun x => trail s (size k) x

/-- the number of nodes that the entities of the catalogue account for -/
def weight (s : Store) : Nat := (classes.map fun k => size k * (s.sources k).length).sum

/-- every reader, applied to the node it reads by, finds `e` and changes nothing -/
def FoundBy {β : Type} (cfg : Cfg) (w : World) (e : β) (readers : List (Go β)) : Prop :=
  ∀ r ∈ readers, r.exec cfg w = (.ok e, w)

end Semnet.Spec
