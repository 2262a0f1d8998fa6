import Verif.Model.Class
/-
  `internal/concrete/story` and `internal/concrete/fact`.
-/
namespace Semnet

/-- `story.Entity` (`story/entity.go:9-15`), `storage` implicit. -/
structure StoryE where
  cls : Nat
  fact : Nat
  position : Nat
  tree : Nat
  deriving DecidableEq, Repr

/-- `fact.Entity` (`fact/entity.go:9-15`), `storage` implicit. -/
structure FactE where
  cls : Nat
  remark : Nat
  position : Nat
  story : Nat
  deriving DecidableEq, Repr

/-- `fact.Aggregate` (`fact/aggregate.go:8-12`).  `factStorage` is an interface that
    `ToNextFact`/`ToNextStory`/`ToParentStory`/`ToFirstFact` leave nil in the aggregate they return. -/
structure FactAgg where
  fact : FactE
  hasFactStorage : Bool
  deriving DecidableEq, Repr

namespace Story

/-- `story.Storage.CreateEntity` (`story/storage.go:21-60`). -/
def createEntity (cls : Nat) : Go StoryE := do
  let fact ← Go.create
  let position ← Go.create
  let tree ← Go.create
  Go.setReference cls fact
  Go.setReference fact position
  Go.setReference position tree
  pure ⟨cls, fact, position, tree⟩

/-- `story.Storage.ReadEntityByClass` (`story/storage.go:62-86`); not reached from the API. -/
def readEntityByClass (cls : Nat) : Go StoryE := do
  let p ← Go.getReference cls
  let fact := p.2
  let p ← Go.getReference fact
  let position := p.2
  let p ← Go.getReference position
  let tree := p.2
  pure ⟨cls, fact, position, tree⟩

/-- `story.Repository.FetchByFact` (`story/repository.go:44-47`) = `ReadEntityByFact`
    (`story/storage.go:88-107`). -/
def fetchByFact (fact : Nat) : Go StoryE := do
  let p ← Go.getReference fact
  let cls := p.1
  let position := p.2
  let p ← Go.getReference position
  let tree := p.2
  pure ⟨cls, fact, position, tree⟩

/-- `story.Repository.FetchByPosition` (`story/repository.go:49-52`) = `ReadEntityByPosition`
    (`story/storage.go:109-128`). -/
def fetchByPosition (position : Nat) : Go StoryE := do
  let p ← Go.getReference position
  let fact := p.1
  let tree := p.2
  let p ← Go.getReference fact
  let cls := p.1
  pure ⟨cls, fact, position, tree⟩

/-- `story.Repository.FetchByTree` (`story/repository.go:54-57`) = `ReadEntityByTree`
    (`story/storage.go:130-154`). -/
def fetchByTree (tree : Nat) : Go StoryE := do
  let p ← Go.getReference tree
  let position := p.1
  let p ← Go.getReference position
  let fact := p.1
  let p ← Go.getReference fact
  let cls := p.1
  pure ⟨cls, fact, position, tree⟩

/-- `story.Repository.CreateStory` (`story/repository.go:24-42`). -/
def createStory : Go StoryE := do
  Class.provideEntity
  let classIdentifier ← Class.createNode Class.storyId
  createEntity classIdentifier

/-- `story.Entity.HasTargetPosition` (`story/entity.go:54-62`). -/
def hasTargetPosition (e : StoryE) : Go Bool := do
  let targets ← Go.readTargets e.position
  pure (!targets.isEmpty)

/-- `story.Entity.GetTargetPosition` (`story/entity.go:64-76`). -/
def getTargetPosition (e : StoryE) : Go Nat := do
  let targets ← Go.readTargets e.position
  match targets with
  | [t] => pure t
  | _ => Go.err .storyNext

/-- `story.Entity.GetTargetFact` (`story/entity.go:78-90`). -/
def getTargetFact (e : StoryE) : Go Nat := do
  let targets ← Go.readTargets e.fact
  match targets with
  | [t] => pure t
  | _ => Go.err .storyTargetFacts

/-- `story.Entity.HasTargetTree` (`story/entity.go:92-100`). -/
def hasTargetTree (e : StoryE) : Go Bool := do
  let targets ← Go.readTargets e.tree
  pure (!targets.isEmpty)

/-- `story.Entity.GetTargetTree` (`story/entity.go:102-114`). -/
def getTargetTree (e : StoryE) : Go Nat := do
  let targets ← Go.readTargets e.tree
  match targets with
  | [t] => pure t
  | _ => Go.err .storyTargetTrees

/-- `story.Entity.HasSourceTree` (`story/entity.go:116-124`). -/
def hasSourceTree (e : StoryE) : Go Bool := do
  let sources ← Go.readSources e.tree
  pure (!sources.isEmpty)

end Story

namespace Fact

/-- `fact.Storage.CreateEntity` (`fact/storage.go:21-60`). -/
def createEntity (cls : Nat) : Go FactE := do
  let remark ← Go.create
  let position ← Go.create
  let story ← Go.create
  Go.setReference cls remark
  Go.setReference remark position
  Go.setReference position story
  pure ⟨cls, remark, position, story⟩

/-- `fact.Storage.ReadEntityByClass` (`fact/storage.go:62-86`); not reached from the API. -/
def readEntityByClass (cls : Nat) : Go FactE := do
  let p ← Go.getReference cls
  let remark := p.2
  let p ← Go.getReference remark
  let position := p.2
  let p ← Go.getReference position
  let story := p.2
  pure ⟨cls, remark, position, story⟩

/-- `fact.Storage.ReadEntityByRemark` (`fact/storage.go:88-107`). -/
def readEntityByRemark (remark : Nat) : Go FactE := do
  let p ← Go.getReference remark
  let cls := p.1
  let position := p.2
  let p ← Go.getReference position
  let story := p.2
  pure ⟨cls, remark, position, story⟩

/-- `fact.Storage.ReadEntityByPosition` (`fact/storage.go:109-128`). -/
def readEntityByPosition (position : Nat) : Go FactE := do
  let p ← Go.getReference position
  let remark := p.1
  let story := p.2
  let p ← Go.getReference remark
  let cls := p.1
  pure ⟨cls, remark, position, story⟩

/-- `fact.Storage.ReadEntityByStory` (`fact/storage.go:130-154`). -/
def readEntityByStory (story : Nat) : Go FactE := do
  let p ← Go.getReference story
  let position := p.1
  let p ← Go.getReference position
  let remark := p.1
  let p ← Go.getReference remark
  let cls := p.1
  pure ⟨cls, remark, position, story⟩

/-- `fact.Entity.HasTargetFact` (`fact/entity.go:54-62`), `fact.Aggregate.HasNextFact`
    (`fact/aggregate.go:31-34`). -/
def hasNextFact (a : FactAgg) : Go Bool := do
  let targets ← Go.readTargets a.fact.position
  pure (!targets.isEmpty)

/-- `fact.Entity.GetTargetFact` (`fact/entity.go:64-76`). -/
def getTargetFact (e : FactE) : Go Nat := do
  let targets ← Go.readTargets e.position
  match targets with
  | [t] => pure t
  | _ => Go.err .factTargetFacts

/-- `fact.Entity.GetFirstRemark` (`fact/entity.go:78-90`), `fact.Aggregate.GetFirstRemark`
    (`fact/aggregate.go:54-57`). -/
def getFirstRemark (a : FactAgg) : Go Nat := do
  let targets ← Go.readTargets a.fact.remark
  match targets with
  | [t] => pure t
  | _ => Go.err .factFirstRemarks

/-- `fact.Entity.GetTargetStory` (`fact/entity.go:92-104`). -/
def getTargetStory (e : FactE) : Go Nat := do
  let targets ← Go.readTargets e.story
  match targets with
  | [t] => pure t
  | _ => Go.err .factStories

/-- Method call on `a.factStorage`, which may be a nil interface (`fact/aggregate.go:36-52` and the methods below). -/
def viaStorage {α : Type} (a : FactAgg) (p : Go α) : Go α :=
  if a.hasFactStorage then p else Go.panic

/-- `storyIdentifier, err := a.fact.GetTargetStory()` with `err` overwritten on the next line
    (`fact/aggregate.go:61-63,73-75,108-110,120-122,155-157`): on error the identifier is 0. -/
def targetStoryOrZero (a : FactAgg) : Go Nat := do
  let r ← (getTargetStory a.fact).attempt
  pure (r.toOption.getD 0)

/-- `fact.Aggregate.ToNextFact` (`fact/aggregate.go:36-52`). -/
def toNextFact (a : FactAgg) : Go FactAgg := do
  let nextFactIdentifier ← getTargetFact a.fact
  let nextFact ← viaStorage a (readEntityByPosition nextFactIdentifier)
  pure ⟨nextFact, false⟩

/-- `fact.Aggregate.HasNextStory` (`fact/aggregate.go:59-69`). -/
def hasNextStory (a : FactAgg) : Go Bool := do
  let storyIdentifier ← targetStoryOrZero a
  let story ← Story.fetchByFact storyIdentifier
  Story.hasTargetPosition story

/-- `fact.Aggregate.ToNextStory` (`fact/aggregate.go:71-104`). -/
def toNextStory (a : FactAgg) : Go FactAgg := do
  let storyIdentifier ← targetStoryOrZero a
  let story ← Story.fetchByFact storyIdentifier
  let nextStoryIdentifier ← Story.getTargetPosition story
  let nextStory ← Story.fetchByPosition nextStoryIdentifier
  let nextFactIdentifier ← Story.getTargetFact nextStory
  let nextFact ← viaStorage a (readEntityByStory nextFactIdentifier)
  pure ⟨nextFact, false⟩

/-- `fact.Aggregate.HasParentStory` (`fact/aggregate.go:106-116`).  Not reachable from the public API. -/
def hasParentStory (a : FactAgg) : Go Bool := do
  let storyIdentifier ← targetStoryOrZero a
  let story ← Story.fetchByFact storyIdentifier
  Story.hasSourceTree story

/-- `fact.Aggregate.ToParentStory` (`fact/aggregate.go:118-151`).  Not reachable from the public API. -/
def toParentStory (a : FactAgg) : Go FactAgg := do
  let storyIdentifier ← targetStoryOrZero a
  let story ← Story.fetchByFact storyIdentifier
  let parentStoryIdentifier ← Story.getTargetTree story
  let parentStory ← Story.fetchByTree parentStoryIdentifier
  let parentFactIdentifier ← Story.getTargetFact parentStory
  let parentFact ← viaStorage a (readEntityByStory parentFactIdentifier)
  pure ⟨parentFact, false⟩

/-- `fact.Aggregate.ToFirstFact` (`fact/aggregate.go:153-176`). -/
def toFirstFact (a : FactAgg) : Go FactAgg := do
  let storyIdentifier ← targetStoryOrZero a
  let story ← Story.fetchByFact storyIdentifier
  let firstFactIdentifier ← Story.getTargetFact story
  let firstFact ← viaStorage a (readEntityByStory firstFactIdentifier)
  pure ⟨firstFact, false⟩

/-- `fact.Repository.FetchByRemark` (`fact/repository.go:69-81`). -/
def fetchByRemark (remarkIdentifier : Nat) : Go FactAgg := do
  let fact ← readEntityByRemark remarkIdentifier
  pure ⟨fact, true⟩

/-- `fact.Repository.CreateFirstStoryFact` (`fact/repository.go:30-67`). -/
def createFirstStoryFact : Go FactAgg := do
  Class.provideEntity
  let classIdentifier ← Class.createNode Class.factId
  let fact ← createEntity classIdentifier
  let story ← Story.createStory
  Go.connect fact.story story.fact
  Go.connect story.fact fact.story
  pure ⟨fact, true⟩

/-- `fact.Repository.CreateNextFact` (`fact/repository.go:83-125`). -/
def createNextFact (remarkIdentifier : Nat) : Go FactAgg := do
  let fact ← readEntityByRemark remarkIdentifier
  let story ← Story.fetchByFact fact.story
  Class.provideEntity
  let classIdentifier ← Class.createNode Class.factId
  let nextFact ← createEntity classIdentifier
  Go.connect nextFact.story story.fact
  Go.connect fact.position nextFact.position
  pure ⟨nextFact, true⟩

/-- loop `fact/repository.go:161-180` -/
def lastSibling : Nat → StoryE → Go StoryE
  | 0, _ => Go.spin
  | n + 1, siblingStory => do
    let hasTargetPosition ← Story.hasTargetPosition siblingStory
    if hasTargetPosition then do
      let targetPosition ← Story.getTargetPosition siblingStory
      let siblingStory ← Story.fetchByPosition targetPosition
      lastSibling n siblingStory
    else pure siblingStory

/-- `fact.Repository.CreateChildStoryFact` (`fact/repository.go:127-228`). -/
def createChildStoryFact (fuel : Nat) (remarkIdentifier : Nat) : Go FactAgg := do
  let fact ← readEntityByRemark remarkIdentifier
  let story ← Story.fetchByFact fact.story
  let hasTargetTree ← Story.hasTargetTree story
  let childStory ← Story.createStory
  Go.connect childStory.tree story.tree
  if hasTargetTree then do
    let siblingStory ← Story.fetchByTree story.tree
    let siblingStory ← lastSibling fuel siblingStory
    Go.connect siblingStory.position childStory.position
    Go.connect story.tree childStory.tree
  else pure ()
  Class.provideEntity
  let classIdentifier ← Class.createNode Class.factId
  let firstFact ← createEntity classIdentifier
  Go.connect firstFact.story childStory.fact
  Go.connect childStory.fact firstFact.story
  pure ⟨firstFact, true⟩

end Fact
end Semnet
