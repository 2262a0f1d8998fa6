import Verif.Spec.History
/-
  Specification: how many storage calls an execution makes, and how much there is to read in a text.
-/
namespace Semnet.Spec

/-- the number of storage calls of an execution without failures -/
def storageCalls {α : Type} (cfg : Cfg) : Go α → World → Nat
  | .op o k, w => 1 + storageCalls cfg (k (w.store.step cfg o).1) ⟨(w.store.step cfg o).2, w.mem⟩
  | .getMem k, w => storageCalls cfg (k w.mem) w
  | .setMem u k, w => storageCalls cfg k ⟨w.store, w.mem.set u⟩
  | _, _ => 0

/-- the number of binary digits of `n` -/
def binaryLength (n : Nat) : Nat := if n = 0 then 1 else Nat.log2 n + 1

/-- the bulk of a text: its words, its characters and the binary digits of their code points -/
def bulk (t : GoStr) : Nat :=
  ((splitSpace t).map (fun w => 1 + ((runesOf w).map (fun r => 1 + binaryLength r.toNat)).sum)).sum

/-- What a process has to pay once, when it first needs the two bits: `Has` on the first class node, `ReadSources`
    of the class of bits, `GetReference` of each bit. -/
def entrance (m : Layer) : Nat := if m.isInitialized then 0 else 4

/-- the storage calls needed to read back a remark with the texts `o` and `p` -/
def readingCost (o p : GoStr) : Nat := 5 * (1 + bulk o + bulk p)

/-- The queries on the remark of entry `e` make exactly so many storage calls: as many as its own text (for
    GetStory: the text of the remark that opened the story) requires, and no more. -/
structure Costs (cfg : Cfg) (fuel : Nat) (log : List Entry) (w : World) (e : Entry) : Prop where
  text : storageCalls cfg (Remark.getObjectAndProperty fuel e.handle) w = readingCost e.object e.property + entrance w.mem
  get : storageCalls cfg (Graph.getRemark (Remark.getIdentifier e.handle)) w = 3
  next : storageCalls cfg (Remark.hasNextRemark e.handle) w = 1
  first : ∀ e', e.opener.bind (log[·]?) = some e' → storageCalls cfg (Remark.getFirstFact e.handle) w = 14
  story : ∀ e', e.opener.bind (log[·]?) = some e' →
    storageCalls cfg (Output.getStory fuel e.handle) w = 15 + readingCost e'.object e'.property + entrance w.mem

end Semnet.Spec
