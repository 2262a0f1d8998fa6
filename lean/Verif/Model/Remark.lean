import Verif.Model.Detail
import Verif.Model.Story
/-
  `internal/concrete/remark`, `graph.go`, `remark.go`, `output.go`: the public API.
-/
namespace Semnet

/-- `remark.Entity` (`remark/entity.go:10-16`).  A `remark.Aggregate` (`remark/aggregate.go:11-17`) and the
    public `semnet.Remark` (`remark.go:5-7`) are this entity plus fixed collaborators, so `RemE` is also the
    handle a user holds. -/
structure RemE where
  cls : Nat
  detail : Nat
  position : Nat
  fact : Nat
  deriving DecidableEq, Repr

namespace Remark

/-! ### storage (`remark/storage.go`) -/

/-- `remark.Storage.CreateEntity` (`remark/storage.go:21-60`). -/
def createEntity (cls : Nat) : Go RemE := do
  let detail ← Go.create
  let position ← Go.create
  let fact ← Go.create
  Go.setReference cls detail
  Go.setReference detail position
  Go.setReference position fact
  pure ⟨cls, detail, position, fact⟩

/-- `remark.Storage.ReadEntityByClass` (`remark/storage.go:62-86`). -/
def readEntityByClass (cls : Nat) : Go RemE := do
  let p ← Go.getReference cls
  let detail := p.2
  let p ← Go.getReference detail
  let position := p.2
  let p ← Go.getReference position
  let fact := p.2
  pure ⟨cls, detail, position, fact⟩

/-- `remark.Storage.ReadEntityByDetail` (`remark/storage.go:88-107`); not reached from the API. -/
def readEntityByDetail (detail : Nat) : Go RemE := do
  let p ← Go.getReference detail
  let cls := p.1
  let position := p.2
  let p ← Go.getReference position
  let fact := p.2
  pure ⟨cls, detail, position, fact⟩

/-- `remark.Storage.ReadEntityByPosition` (`remark/storage.go:109-128`). -/
def readEntityByPosition (position : Nat) : Go RemE := do
  let p ← Go.getReference position
  let detail := p.1
  let fact := p.2
  let p ← Go.getReference detail
  let cls := p.1
  pure ⟨cls, detail, position, fact⟩

/-- `remark.Storage.ReadEntityByFact` (`remark/storage.go:130-154`). -/
def readEntityByFact (fact : Nat) : Go RemE := do
  let p ← Go.getReference fact
  let position := p.1
  let p ← Go.getReference position
  let detail := p.1
  let p ← Go.getReference detail
  let cls := p.1
  pure ⟨cls, detail, position, fact⟩

/-! ### entity (`remark/entity.go`) -/

/-- `remark.Entity.GetTargetFact` (`remark/entity.go:50-62`). -/
def getTargetFact (e : RemE) : Go Nat := do
  let targetFacts ← Go.readTargets e.fact
  match targetFacts with
  | [t] => pure t
  | _ => Go.err .remarkTargetFacts

/-- `remark.Entity.GetSourceDetail` (`remark/entity.go:64-76`). -/
def getSourceDetail (e : RemE) : Go Nat := do
  let sourceDetails ← Go.readSources e.detail
  match sourceDetails with
  | [s] => pure s
  | _ => Go.err .remarkSourceDetails

/-- `remark.Entity.GetNextRemark` (`remark/entity.go:104-116`). -/
def getNextRemarkId (e : RemE) : Go Nat := do
  let targets ← Go.readTargets e.position
  match targets with
  | [t] => pure t
  | _ => Go.err .nextRemarks

/-! ### aggregate (`remark/aggregate.go`): the methods of the public `Remark` -/

/-- `Remark.GetIdentifier` (`remark/aggregate.go:21-23`). -/
def getIdentifier (a : RemE) : Nat := a.cls

/-- `Remark.HasNextRemark` (`remark/aggregate.go:25-28`, `remark/entity.go:93-102`). -/
def hasNextRemark (a : RemE) : Go Bool := do
  let targets ← Go.readTargets a.position
  pure (!targets.isEmpty)

/-- `Remark.GetNextRemark` (`remark/aggregate.go:30-60`).  The error of `ReadEntityByPosition` (line 37) is
    dropped; the entity is then the zero `Entity{}` whose class is 0 and whose storage is nil.  Should
    `IsRemark(0)` hold, the returned handle would panic on first use; the model panics at once. -/
def getNextRemark (a : RemE) : Go RemE := do
  let nextRemarkIdentifier ← getNextRemarkId a
  let nextRemark ← (readEntityByPosition nextRemarkIdentifier).attempt
  Class.provideEntity
  let cls := (nextRemark.toOption.map (·.cls)).getD 0
  let isRemark ← Class.isNode Class.remarkId cls
  if isRemark then Character.deref nextRemark.toOption
  else Go.err .remarkWrongClass

/-- `Remark.HasNextFact` (`remark/aggregate.go:62-70`).  Note line 64: the remark's own fact node is passed
    where `FetchByRemark` expects a fact's remark node. -/
def hasNextFact (a : RemE) : Go Bool := do
  let fact ← Fact.fetchByRemark a.fact
  Fact.hasNextFact fact

/-- `Remark.GetNextFact` (`remark/aggregate.go:72-101`). -/
def getNextFact (a : RemE) : Go RemE := do
  let fact ← Fact.fetchByRemark a.fact
  let nextFact ← Fact.toNextFact fact
  let remarkFact ← Fact.getFirstRemark nextFact
  readEntityByFact remarkFact

/-- `Remark.GetFirstFact` (`remark/aggregate.go:103-138`). -/
def getFirstFact (a : RemE) : Go RemE := do
  let factIdentifier ← getTargetFact a
  let fact ← Fact.fetchByRemark factIdentifier
  let firstFact ← Fact.toFirstFact fact
  let remarkFact ← Fact.getFirstRemark firstFact
  readEntityByFact remarkFact

/-- `Remark.HasNextStory` (`remark/aggregate.go:140-148`). -/
def hasNextStory (a : RemE) : Go Bool := do
  let fact ← Fact.fetchByRemark a.fact
  Fact.hasNextStory fact

/-- `Remark.GetNextStory` (`remark/aggregate.go:150-179`). -/
def getNextStory (a : RemE) : Go RemE := do
  let fact ← Fact.fetchByRemark a.fact
  let nextFact ← Fact.toNextStory fact
  let nextIdentifier ← Fact.getFirstRemark nextFact
  readEntityByFact nextIdentifier

/-- `Remark.GetObjectAndProperty` (`remark/aggregate.go:181-194`). -/
def getObjectAndProperty (fuel : Nat) (a : RemE) : Go (GoStr × GoStr) := do
  let detailIdentifier ← getSourceDetail a
  let detail ← Detail.fetch detailIdentifier
  Detail.getObjectAndProperty fuel detail

/-- `Remark.AddRemarkToFact` (`remark/aggregate.go:196-264`). -/
def addRemarkToFact (fuel : Nat) (a : RemE) (property : GoStr) : Go RemE := do
  Class.provideEntity
  let classIdentifier ← Class.createNode Class.remarkId
  let remark ← createEntity classIdentifier
  let detailIdentifier ← getSourceDetail a
  let aggregateDetail ← Detail.fetch detailIdentifier
  let p ← Detail.getObjectAndProperty fuel aggregateDetail
  let aggregateObject := p.1
  let detail ← Detail.provide fuel aggregateObject property
  Go.connect detail.remark remark.detail
  let factIdentifier ← getTargetFact a
  let fact ← Fact.fetchByRemark factIdentifier
  Go.connect remark.fact fact.fact.remark
  pure remark

/-- `Remark.AddFactToStory` (`remark/aggregate.go:266-314`). -/
def addFactToStory (fuel : Nat) (a : RemE) (object property : GoStr) : Go RemE := do
  Class.provideEntity
  let classIdentifier ← Class.createNode Class.remarkId
  let remark ← createEntity classIdentifier
  let detail ← Detail.provide fuel object property
  Go.connect detail.remark remark.detail
  let nextFact ← Fact.createNextFact a.fact
  Go.connect remark.fact nextFact.fact.remark
  pure remark

/-- `Remark.CreateChildStory` (`remark/aggregate.go:316-369`). -/
def createChildStory (fuel : Nat) (a : RemE) (object property : GoStr) : Go RemE := do
  Class.provideEntity
  let classIdentifier ← Class.createNode Class.remarkId
  let remark ← createEntity classIdentifier
  let detail ← Detail.provide fuel object property
  Go.connect detail.remark remark.detail
  let firstFact ← Fact.createChildStoryFact fuel a.fact
  Go.connect remark.fact firstFact.fact.remark
  Go.connect firstFact.fact.remark remark.fact
  pure remark

end Remark

namespace Graph

/-- `Graph.CreateStory` (`graph.go:43-51`) = `remark.Repository.CreateFirstUserRemark`
    (`remark/repository.go:35-88`). -/
def createStory (fuel : Nat) (object property : GoStr) : Go RemE := do
  Class.provideEntity
  let classIdentifier ← Class.createNode Class.remarkId
  let remark ← Remark.createEntity classIdentifier
  let detail ← Detail.provide fuel object property
  Go.connect detail.remark remark.detail
  let fact ← Fact.createFirstStoryFact
  Go.connect remark.fact fact.fact.remark
  Go.connect fact.fact.remark remark.fact
  pure remark

/-- `Graph.GetRemark` (`graph.go:53-61`) = `remark.Repository.GetRemark` (`remark/repository.go:90-104`). -/
def getRemark (remarkIdentifier : Nat) : Go RemE := Remark.readEntityByClass remarkIdentifier

end Graph

namespace Output

/-- loop `output.go:25-49`; the buffer is an argument. -/
def loop (fuel : Nat) : Nat → RemE → GoStr → Go GoStr
  | 0, _, _ => Go.spin
  | n + 1, factRemark, buffer => do
    let p ← Remark.getObjectAndProperty fuel factRemark
    let object := p.1
    let property := p.2
    let buffer := buffer ++ object ++ [spaceByte] ++ property ++ [spaceByte]
    let hasNextRemark ← Remark.hasNextRemark factRemark
    if hasNextRemark then do
      let factRemark ← Remark.getNextRemark factRemark
      loop fuel n factRemark buffer
    else pure buffer

/-- `Output.GetStory` (`output.go:16-52`). -/
def getStory (fuel : Nat) (remark : RemE) : Go GoStr := do
  let factRemark ← Remark.getFirstFact remark
  loop fuel fuel factRemark []

end Output
end Semnet
