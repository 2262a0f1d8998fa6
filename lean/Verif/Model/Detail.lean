import Verif.Model.Phrase
/-
  `internal/concrete/detail`: an (object phrase, property phrase) pair.
-/
namespace Semnet

/-- `detail.Entity` (`detail/entity.go:9-14`), `storage` implicit. -/
structure DetailE where
  cls : Nat
  phrase : Nat
  remark : Nat
  deriving DecidableEq, Repr

namespace Detail

/-- `detail.Storage.CreateEntity` (`detail/storage.go:22-69`).  `AddTargetDetail` and `AddSourceDetail` are
    `Connect` calls (`phrase/entity.go:117-125`). -/
def createEntity (objectPhrase propertyPhrase : PhraseE) : Go DetailE := do
  let cls ← Class.createNode Class.detailId
  let phrase ← Go.create
  Go.connect objectPhrase.detail phrase
  Go.connect phrase propertyPhrase.detail
  let remark ← Go.create
  Go.setReference cls phrase
  Go.setReference phrase remark
  pure ⟨cls, phrase, remark⟩

/-- `detail.Storage.ReadEntityByClass` (`detail/storage.go:71-89`); not reached from the API. -/
def readEntityByClass (cls : Nat) : Go DetailE := do
  let p ← Go.getReference cls
  let phrase := p.2
  let p ← Go.getReference phrase
  let remark := p.2
  pure ⟨cls, phrase, remark⟩

/-- `detail.Storage.ReadEntityByPhrase` (`detail/storage.go:91-104`). -/
def readEntityByPhrase (phrase : Nat) : Go DetailE := do
  let p ← Go.getReference phrase
  let cls := p.1
  let remark := p.2
  pure ⟨cls, phrase, remark⟩

/-- `detail.Storage.ReadEntityByRemark` (`detail/storage.go:106-124`). -/
def readEntityByRemark (remark : Nat) : Go DetailE := do
  let p ← Go.getReference remark
  let phrase := p.1
  let p ← Go.getReference phrase
  let cls := p.1
  pure ⟨cls, phrase, remark⟩

/-- nested loops `detail/factory.go:38-44` -/
def common (objectTargetDetails propertySourceDetails : List Nat) : List Nat :=
  objectTargetDetails.flatMap (fun o => propertySourceDetails.filter (fun p => p == o))

/-- `detail.Factory.ProvideEntity` (`detail/factory.go:22-54`).  The error of `GetSourceDetails` (line 33)
    is dropped; the slice is then nil, i.e. empty. -/
def provideEntity (objectPhrase propertyPhrase : PhraseE) : Go DetailE := do
  let objectTargetDetails ← Go.readTargets objectPhrase.detail
  let propertySourceDetails ← (Go.readSources propertyPhrase.detail).attempt
  match common objectTargetDetails (propertySourceDetails.toOption.getD []) with
  | [] => createEntity objectPhrase propertyPhrase
  | [d] => readEntityByPhrase d
  | _ => Go.err .tooManyCommonDetails

/-- `detail.Repository.Provide` (`detail/repository.go:35-64`). -/
def provide (fuel : Nat) (object property : GoStr) : Go DetailE := do
  let objectPhrase ← Phrase.provide fuel object
  let propertyPhrase ← Phrase.provide fuel property
  Class.provideEntity
  provideEntity objectPhrase propertyPhrase

/-- `detail.Repository.Fetch` (`detail/repository.go:66-80`). -/
def fetch (remark : Nat) : Go DetailE := readEntityByRemark remark

/-- `detail.Entity.GetObjectAndPropertyPhrases` (`detail/entity.go:38-59`). -/
def getObjectAndPropertyPhrases (e : DetailE) : Go (Nat × Nat) := do
  let sources ← Go.readSources e.phrase
  match sources with
  | [s] => do
    let targets ← Go.readTargets e.phrase
    match targets with
    | [t] => pure (s, t)
    | _ => Go.err .detailTargetPhrases
  | _ => Go.err .detailSourcePhrases

/-- `detail.Aggregate.GetObjectAndProperty` (`detail/aggregate.go:32-60`). -/
def getObjectAndProperty (fuel : Nat) (e : DetailE) : Go (GoStr × GoStr) := do
  let p ← getObjectAndPropertyPhrases e
  let objectIdentifier := p.1
  let propertyIdentifier := p.2
  let objectPhrase ← Phrase.fetch objectIdentifier
  let objectPhraseValue ← Phrase.extract fuel objectPhrase
  let propertyPhrase ← Phrase.fetch propertyIdentifier
  let propertyPhraseValue ← Phrase.extract fuel propertyPhrase
  pure (objectPhraseValue, propertyPhraseValue)

end Detail
end Semnet
