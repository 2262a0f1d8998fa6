import Verif.Model.Remark
import Verif.Spec.History
/-
  The repository's own tests, run inside the model.  These are tests of the transcription, not proofs about it.

  `clew` is represented by a storage with a node 0 whose `Connect` consumes one identifier and ignores existing edges.
  Where a Go test returns before its last check (`else { return }` in word, phrase and detail tests) the check is made here.
-/
namespace Semnet.Tests
open Spec

def clew : Cfg := ⟨1, true, .ignore, fun _ _ l => l, fun _ _ _ => .refl _⟩
def new : World := World.open (Store.empty clew)
def budget : Nat := 40

-- class/repository_test.go:8-26
#guard ((do Class.provideEntity; Class.provideEntity; Go.has 8 : Go Bool).exec clew new).1 = .ok true

-- bit/repository_test.go:9-34
#guard ((do let a ← Bit.provide false; let b ← Bit.provide false; pure (a.character, b.character) : Go (Nat × Nat)).exec
    clew new).1 = .ok (13, 13)

-- bit/repository_test.go:36-61
#guard ((do let a ← Bit.provide true; let b ← Bit.provide true; pure (a.character, b.character) : Go (Nat × Nat)).exec
    clew new).1 = .ok (14, 14)

-- character/repository_test.go:10-50
#guard ∀ r ∈ [(0 : Rune), 1, 2, 3, 7, 8],
    ((do let a ← Character.provide r; Character.extract budget a : Go Rune).exec clew new).1 = .ok r

-- word/repository_test.go:12-55
def word (s : String) : Out GoStr :=
  ((do let a ← Word.provide budget (bytes s); Word.extract budget a : Go GoStr).exec clew new).1

#guard word "" = .err .noCharacter
#guard ∀ s ∈ ["a", "house", "pppp", "a cat", "in in in"], word s = .ok (bytes s)

-- phrase/repository_test.go:13-56
def phrase (s : String) : Out GoStr :=
  ((do let a ← Phrase.provide budget (bytes s); Phrase.extract budget a : Go GoStr).exec clew new).1

#guard phrase "" = .err .noCharacter
#guard ∀ s ∈ ["hello", "this practical guide", "a b c", "cat cab"], phrase s = .ok (bytes s)

-- detail/repository_test.go:13-54
#guard ((do let a ← Detail.provide budget (bytes "can think") (bytes "smart people");
               Detail.getObjectAndProperty budget a : Go (GoStr × GoStr)).exec clew new).1 =
    .ok (bytes "can think", bytes "smart people")

-- detail/storage_test.go:11-129: `CreateEntity` returns the three new nodes; it fails if `SetReference` from the second
-- to the third fails (the mocks of those tests are replaced by two stored phrases)
def create (f : Nat → Fate) : Out DetailE :=
  match (do let a ← Phrase.provide budget (bytes "a"); let b ← Phrase.provide budget (bytes "b"); pure (a, b)
          : Go (PhraseE × PhraseE)).exec clew new with
  | (.ok (a, b), w) => ((Detail.createEntity a b).run clew f w).1
  | _ => .spin

#guard create (fun _ => .ok) = .ok ⟨106, 108, 111⟩
#guard create (fun n => if n = 7 then .fail else .ok) = .err .fault

-- graph_test.go:8-78
def newGraph : Go (List (GoStr × GoStr) × GoStr) := do
  let goesACat ← Graph.createStory budget (bytes "goes") (bytes "a cat")
  let p1 ← Remark.getObjectAndProperty budget goesACat
  let goesToPlay ← Remark.addRemarkToFact budget goesACat (bytes "to play")
  let p2 ← Remark.getObjectAndProperty budget goesToPlay
  let hidesTheMouse ← Remark.addFactToStory budget goesACat (bytes "hides") (bytes "the mouse")
  let p3 ← Remark.getObjectAndProperty budget hidesTheMouse
  let remark ← Graph.getRemark (Remark.getIdentifier goesACat)
  let story ← Output.getStory budget remark
  pure ([p1, p2, p3], story)

#guard (newGraph.exec clew new).1 =
    .ok ([(bytes "goes", bytes "a cat"), (bytes "goes", bytes "to play"), (bytes "hides", bytes "the mouse")],
      bytes "goes a cat ")

-- ... and the same test on a storage without node 0 fails in `AddFactToStory`
#guard (newGraph.exec { clew with zero := false } (World.open (Store.empty { clew with zero := false }))).1 =
    .err .noNode

end Semnet.Tests
