import Verif.Model.Word
/-
  `internal/concrete/phrase`: phrases as paths of words.
-/
namespace Semnet

/-- `phrase.Entity` (`phrase/entity.go:9-15`), `storage` implicit. -/
structure PhraseE where
  cls : Nat
  word : Nat
  phrase : Nat
  detail : Nat
  deriving DecidableEq, Repr

namespace Phrase
open Character (deref)

/-! ### storage (`phrase/storage.go`) -/

/-- `phrase.Storage.CreateEntity` (`phrase/storage.go:20-59`). -/
def createEntity (cls : Nat) : Go PhraseE := do
  let word ← Go.create
  let phrase ← Go.create
  let detail ← Go.create
  Go.setReference cls word
  Go.setReference word phrase
  Go.setReference phrase detail
  pure ⟨cls, word, phrase, detail⟩

/-- `phrase.Storage.ReadEntityByClass` (`phrase/storage.go:61-85`); not reached from the API. -/
def readEntityByClass (cls : Nat) : Go PhraseE := do
  let p ← Go.getReference cls
  let word := p.2
  let p ← Go.getReference word
  let phrase := p.2
  let p ← Go.getReference phrase
  let detail := p.2
  pure ⟨cls, word, phrase, detail⟩

/-- `phrase.Storage.ReadEntityByWord` (`phrase/storage.go:87-106`). -/
def readEntityByWord (word : Nat) : Go PhraseE := do
  let p ← Go.getReference word
  let cls := p.1
  let phrase := p.2
  let p ← Go.getReference phrase
  let detail := p.2
  pure ⟨cls, word, phrase, detail⟩

/-- `phrase.Storage.ReadEntityByPhrase` (`phrase/storage.go:108-127`). -/
def readEntityByPhrase (phrase : Nat) : Go PhraseE := do
  let p ← Go.getReference phrase
  let word := p.1
  let detail := p.2
  let p ← Go.getReference word
  let cls := p.1
  pure ⟨cls, word, phrase, detail⟩

/-- `phrase.Storage.ReadEntityByDetail` (`phrase/storage.go:129-153`). -/
def readEntityByDetail (detail : Nat) : Go PhraseE := do
  let p ← Go.getReference detail
  let phrase := p.1
  let p ← Go.getReference phrase
  let word := p.1
  let p ← Go.getReference word
  let cls := p.1
  pure ⟨cls, word, phrase, detail⟩

/-! ### entity (`phrase/entity.go`) -/

/-- `phrase.Entity.GetTargetWord` (`phrase/entity.go:68-80`). -/
def getTargetWord (e : PhraseE) : Go Nat := do
  let targetWords ← Go.readTargets e.word
  match targetWords with
  | [t] => pure t
  | _ => Go.err .phraseTargetWords

/-- `phrase.Entity.HasSourcePhrase` (`phrase/entity.go:82-91`). -/
def hasSourcePhrase (e : PhraseE) : Go Bool := do
  let sourcePhrases ← Go.readSources e.phrase
  pure (!sourcePhrases.isEmpty)

/-- `phrase.Entity.GetSourcePhrase` (`phrase/entity.go:93-105`). -/
def getSourcePhrase (e : PhraseE) : Go Nat := do
  let sourcePhrases ← Go.readSources e.phrase
  match sourcePhrases with
  | [s] => pure s
  | _ => Go.err .phraseSources

/-! ### factory (`phrase/factory.go`) -/

/-- `phrase.Factory.ProvideHeadEntity` (`phrase/factory.go:22-60`). -/
def provideHeadEntity (w : WordE) : Go PhraseE := do
  let hasTargetPhrase ← Word.hasTargetPhrase w
  if hasTargetPhrase then do
    let word ← Word.getTargetPhrase w
    readEntityByWord word
  else do
    let cls ← Class.createNode Class.phraseId
    let phraseEntity ← createEntity cls
    Go.connect phraseEntity.word w.phrase
    Go.connect w.phrase phraseEntity.word
    pure phraseEntity

/-- `phrase.Factory.CreateTailEntity` (`phrase/factory.go:62-89`). -/
def createTailEntity (w : WordE) (previous : PhraseE) : Go PhraseE := do
  let cls ← Class.createNode Class.phraseId
  let newPhraseEntity ← createEntity cls
  Go.connect newPhraseEntity.word w.phrase
  Go.connect previous.phrase newPhraseEntity.phrase
  pure newPhraseEntity

/-! ### element (`phrase/element.go`, `phrase/elements.go`) -/

/-- loop `phrase/element.go:32-40` -/
def readAll : List Nat → Go (List PhraseE)
  | [] => pure []
  | i :: is => do
    let c ← readEntityByPhrase i
    let cs ← readAll is
    pure (c :: cs)

/-- `phrase.Element.ExtractWordValue` (`phrase/element.go:95-108`); the loop body
    `phrase/element.go:44-57` is the same three calls. -/
def extractWordValue (fuel : Nat) (e : PhraseE) : Go GoStr := do
  let targetWordIdentifier ← getTargetWord e
  let word ← Word.fetch targetWordIdentifier
  Word.extract fuel word

/-- loop `phrase/element.go:43-68` -/
def search (fuel : Nat) (wordValue : GoStr) : List PhraseE → Go (Option PhraseE)
  | [] => pure none
  | c :: cs => do
    let targetValue ← extractWordValue fuel c
    if wordValue = targetValue then pure (some c) else search fuel wordValue cs

/-- `phrase.Element.ProvideNextElement` (`phrase/element.go:24-93`). -/
def provideNextElement (fuel : Nat) (e : PhraseE) (wordValue : GoStr) : Go PhraseE := do
  let targetPhraseIdentifiers ← Go.readTargets e.phrase
  let targetPhrases ← readAll targetPhraseIdentifiers
  let found ← search fuel wordValue targetPhrases
  match found with
  | some p => pure p
  | none => do
    Class.provideEntity
    let word ← Word.provide fuel wordValue
    createTailEntity word e

/-- `phrase.Element.GetPreviousElement` (`phrase/element.go:115-134`). -/
def getPreviousElement (e : PhraseE) : Go PhraseE := do
  let phraseIdentifier ← getSourcePhrase e
  readEntityByPhrase phraseIdentifier

/-- `phrase.Elements.ProvideFirstElement` (`phrase/elements.go:33-57`). -/
def provideFirstElement (fuel : Nat) (wordValue : GoStr) : Go PhraseE := do
  let firstWord ← Word.provide fuel wordValue
  Class.provideEntity
  provideHeadEntity firstWord

/-! ### repository, aggregate -/

/-- loop `phrase/repository.go:42-45`, errors dropped -/
def walk (fuel : Nat) : Option PhraseE → List GoStr → Go (Option PhraseE)
  | e, [] => pure e
  | e, w :: ws => do
    let e ← deref e
    let e' ← (provideNextElement fuel e w).attempt
    walk fuel e'.toOption ws

/-- `phrase.Repository.Provide` (`phrase/repository.go:30-52`) with `paths.collect`
    (`phrase/paths.go:22-31`). -/
def provide (fuel : Nat) (words : GoStr) : Go PhraseE :=
  match splitSpace words with
  | [] => Go.err .noWords
  | w :: ws => do
    let phraseElement ← provideFirstElement fuel w
    let phraseElement ← walk fuel (some phraseElement) ws
    deref phraseElement

/-- `phrase.Repository.Fetch` (`phrase/repository.go:54-66`). -/
def fetch (detail : Nat) : Go PhraseE := readEntityByDetail detail

/-- loop `phrase/aggregate.go:44-62`; the error at line 54 is dropped, the nil element panics at line 56 -/
def extractLoop (fuel : Nat) : Nat → PhraseE → List GoStr → Go (List GoStr)
  | 0, _, _ => Go.spin
  | n + 1, e, path => do
    let hasPrevious ← hasSourcePhrase e
    if hasPrevious then do
      let previous ← (getPreviousElement e).attempt
      let e' ← deref previous.toOption
      let wordValue ← extractWordValue fuel e'
      extractLoop fuel n e' (path ++ [wordValue])
    else pure path

/-- `phrase.Aggregate.Extract` (`phrase/aggregate.go:33-65`). -/
def extract (fuel : Nat) (e : PhraseE) : Go GoStr := do
  let wordValue ← extractWordValue fuel e
  let path ← extractLoop fuel fuel e [wordValue]
  pure (joinSpace path.reverse)

end Phrase
end Semnet
