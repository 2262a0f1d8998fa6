import Verif.Model.Storage
/-
  `internal/concrete/class`: the eight class nodes and the class membership of entities.
-/
namespace Semnet
namespace Class

/-- `class/repository.go:10-17` -/
def bitId : Nat := 1
/-- `class/repository.go:11` -/
def characterId : Nat := 2
/-- `class/repository.go:12` -/
def wordId : Nat := 3
/-- `class/repository.go:13` -/
def phraseId : Nat := 4
/-- `class/repository.go:14` -/
def detailId : Nat := 5
/-- `class/repository.go:15` -/
def remarkId : Nat := 6
/-- `class/repository.go:16` -/
def factId : Nat := 7
/-- `class/repository.go:17` -/
def storyId : Nat := 8

/-- `Create` and compare with the expected class identifier (`class/repository.go:46-53` and its seven
    repetitions). -/
def createRoot (expected : Nat) : Go Unit := do
  let result ← Go.create
  if result = expected then pure () else Go.err .wrongClassNode

/-- `class.Repository.ProvideEntity` (`class/repository.go:36-167`).  `isInitialized` is never assigned
    true by the code, so the guard at line 38 is always taken.  The returned entity only holds the eight
    constants and the storage, so the model returns `Unit`. -/
def provideEntity : Go Unit := do
  let hasFirstNode ← Go.has 1
  if hasFirstNode then pure () else do
    createRoot bitId
    createRoot characterId
    Go.setReference bitId characterId
    createRoot wordId
    Go.setReference characterId wordId
    createRoot phraseId
    Go.setReference wordId phraseId
    createRoot detailId
    Go.setReference phraseId detailId
    createRoot remarkId
    Go.setReference detailId remarkId
    createRoot factId
    Go.setReference remarkId factId
    createRoot storyId
    Go.setReference factId storyId

/-- `node.X.Create` (`class/node/bit.go:17-30`, `character.go`, `word.go`, `phrase.go`, `detail.go`,
    `remark.go:21-34`, `fact.go`, `story.go`): all eight are the same code with a different constant.
    `class.Entity.CreateX` (`class/entity.go:37-109`) only forwards to them. -/
def createNode (root : Nat) : Go Nat := do
  let identifier ← Go.create
  Go.connect identifier root
  pure identifier

/-- `node.X.Is` (`class/node/bit.go:32-44`, `remark.go:36-48` and the other six). -/
def isNode (root : Nat) (identifier : Nat) : Go Bool := do
  let targets ← Go.readTargets identifier
  match targets with
  | [t] => pure (t == root)
  | _ => Go.err .wrongTargetsAtClassNode

/-- `node.Bit.GetAll` (`class/node/bit.go:46-49`). -/
def getAllBits : Go (List Nat) := Go.readSources bitId

end Class
end Semnet
