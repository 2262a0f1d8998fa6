import Verif.Model.Character
/-
  `internal/concrete/word`: words as paths of characters.
-/
namespace Semnet

/-- `word.Entity` (`word/entity.go:9-15`), `storage` implicit. -/
structure WordE where
  cls : Nat
  character : Nat
  word : Nat
  phrase : Nat
  deriving DecidableEq, Repr

namespace Word
open Character (deref)

/-! A `word.Element` / `word.Aggregate` is its (always non-nil) entity plus fixed collaborators, so the
    model uses `WordE` for both; a nil `Element` interface (`word/repository.go:46-49`) is `none`. -/

/-! ### storage (`word/storage.go`) -/

/-- `word.Storage.CreateEntity` (`word/storage.go:20-59`). -/
def createEntity (cls : Nat) : Go WordE := do
  let character ← Go.create
  let word ← Go.create
  let phrase ← Go.create
  Go.setReference cls character
  Go.setReference character word
  Go.setReference word phrase
  pure ⟨cls, character, word, phrase⟩

/-- `word.Storage.ReadEntityByClass` (`word/storage.go:61-85`); not reached from the API. -/
def readEntityByClass (cls : Nat) : Go WordE := do
  let p ← Go.getReference cls
  let character := p.2
  let p ← Go.getReference character
  let word := p.2
  let p ← Go.getReference word
  let phrase := p.2
  pure ⟨cls, character, word, phrase⟩

/-- `word.Storage.ReadEntityByCharacter` (`word/storage.go:87-106`). -/
def readEntityByCharacter (character : Nat) : Go WordE := do
  let p ← Go.getReference character
  let cls := p.1
  let word := p.2
  let p ← Go.getReference word
  let phrase := p.2
  pure ⟨cls, character, word, phrase⟩

/-- `word.Storage.ReadEntityByWord` (`word/storage.go:108-127`). -/
def readEntityByWord (word : Nat) : Go WordE := do
  let p ← Go.getReference word
  let character := p.1
  let phrase := p.2
  let p ← Go.getReference character
  let cls := p.1
  pure ⟨cls, character, word, phrase⟩

/-- `word.Storage.ReadEntityByPhrase` (`word/storage.go:129-153`). -/
def readEntityByPhrase (phrase : Nat) : Go WordE := do
  let p ← Go.getReference phrase
  let word := p.1
  let p ← Go.getReference word
  let character := p.1
  let p ← Go.getReference character
  let cls := p.1
  pure ⟨cls, character, word, phrase⟩

/-! ### entity (`word/entity.go`) -/

/-- `word.Entity.GetTargetPhrase` (`word/entity.go:63-75`). -/
def getTargetPhrase (e : WordE) : Go Nat := do
  let targets ← Go.readTargets e.phrase
  match targets with
  | [t] => pure t
  | _ => Go.err .wordTargetPhrases

/-- `word.Entity.HasTargetPhrase` (`word/entity.go:77-92`). -/
def hasTargetPhrase (e : WordE) : Go Bool := do
  let targets ← Go.readTargets e.phrase
  match targets with
  | [] => pure false
  | [_] => pure true
  | _ => Go.err .wordTargetPhrases

/-- `word.Entity.GetTargetCharacter` (`word/entity.go:99-111`). -/
def getTargetCharacter (e : WordE) : Go Nat := do
  let targetCharacters ← Go.readTargets e.character
  match targetCharacters with
  | [t] => pure t
  | _ => Go.err .wordTargetCharacters

/-- `word.Entity.HasSourceWord` (`word/entity.go:113-122`). -/
def hasSourceWord (e : WordE) : Go Bool := do
  let sourceWords ← Go.readSources e.word
  pure (!sourceWords.isEmpty)

/-- `word.Entity.GetSourceWord` (`word/entity.go:124-136`). -/
def getSourceWord (e : WordE) : Go Nat := do
  let sourceWords ← Go.readSources e.word
  match sourceWords with
  | [s] => pure s
  | _ => Go.err .wordSources

/-! ### factory (`word/factory.go`) -/

/-- `word.Factory.ProvideHeadEntity` (`word/factory.go:22-63`). -/
def provideHeadEntity (a : CharAgg) : Go WordE := do
  let c ← deref a.character
  let hasTargetWord ← Character.hasTargetWord c
  if hasTargetWord then do
    let character ← Character.getTargetWord c
    readEntityByCharacter character
  else do
    let cls ← Class.createNode Class.wordId
    let wordEntity ← createEntity cls
    Go.connect wordEntity.character c.word
    Go.connect c.word wordEntity.character
    pure wordEntity

/-- `word.Factory.CreateTailEntity` (`word/factory.go:65-92`). -/
def createTailEntity (a : CharAgg) (previous : WordE) : Go WordE := do
  let cls ← Class.createNode Class.wordId
  let newWordEntity ← createEntity cls
  let c ← deref a.character
  Go.connect newWordEntity.character c.word
  Go.connect previous.word newWordEntity.word
  pure newWordEntity

/-! ### element (`word/element.go`, `word/elements.go`) -/

/-- loop `word/element.go:32-40` -/
def readAll : List Nat → Go (List WordE)
  | [] => pure []
  | i :: is => do
    let c ← readEntityByWord i
    let cs ← readAll is
    pure (c :: cs)

/-- `word.Element.ExtractCharacterValue` (`word/element.go:100-113`); the loop body
    `word/element.go:44-57` is the same three calls. -/
def extractCharacterValue (fuel : Nat) (e : WordE) : Go Rune := do
  let targetCharacterIdentifier ← getTargetCharacter e
  let character ← Character.fetch targetCharacterIdentifier
  Character.extract fuel character

/-- loop `word/element.go:43-68` -/
def search (fuel : Nat) (characterValue : Rune) : List WordE → Go (Option WordE)
  | [] => pure none
  | c :: cs => do
    let targetValue ← extractCharacterValue fuel c
    if characterValue = targetValue then pure (some c) else search fuel characterValue cs

/-- `word.Element.ProvideNextElement` (`word/element.go:24-98`).  `CreateTailEntity` already connects the
    previous word to the new one (`word/factory.go:86`); line 86 here connects them again. -/
def provideNextElement (fuel : Nat) (e : WordE) (characterValue : Rune) : Go WordE := do
  let targetWordIdentifiers ← Go.readTargets e.word
  let targetWords ← readAll targetWordIdentifiers
  let found ← search fuel characterValue targetWords
  match found with
  | some w => pure w
  | none => do
    Class.provideEntity
    let character ← Character.provide characterValue
    let newWord ← createTailEntity character e
    Go.connect e.word newWord.word
    pure newWord

/-- `word.Element.GetPreviousElement` (`word/element.go:120-139`). -/
def getPreviousElement (e : WordE) : Go WordE := do
  let wordIdentifier ← getSourceWord e
  readEntityByWord wordIdentifier

/-- `word.Elements.ProvideFirstElement` (`word/elements.go:33-57`). -/
def provideFirstElement (characterValue : Rune) : Go WordE := do
  let firstCharacter ← Character.provide characterValue
  Class.provideEntity
  provideHeadEntity firstCharacter

/-! ### repository, aggregate -/

/-- loop `word/repository.go:46-49`, errors dropped -/
def walk (fuel : Nat) : Option WordE → List Rune → Go (Option WordE)
  | e, [] => pure e
  | e, r :: rs => do
    let e ← deref e
    let e' ← (provideNextElement fuel e r).attempt
    walk fuel e'.toOption rs

/-- `word.Repository.Provide` (`word/repository.go:34-56`) with `paths.collect`
    (`word/paths.go:21-30`). -/
def provide (fuel : Nat) (word : GoStr) : Go WordE :=
  match runesOf word with
  | [] => Go.err .noCharacter
  | r :: rs => do
    let wordElement ← provideFirstElement r
    let wordElement ← walk fuel (some wordElement) rs
    deref wordElement

/-- `word.Repository.Fetch` (`word/repository.go:58-70`). -/
def fetch (phrase : Nat) : Go WordE := readEntityByPhrase phrase

/-- loop `word/aggregate.go:26-44`; the error at line 36 is dropped, the nil element panics at line 38 -/
def extractLoop (fuel : Nat) : Nat → WordE → List Rune → Go (List Rune)
  | 0, _, _ => Go.spin
  | n + 1, e, path => do
    let hasPrevious ← hasSourceWord e
    if hasPrevious then do
      let previous ← (getPreviousElement e).attempt
      let e' ← deref previous.toOption
      let characterValue ← extractCharacterValue fuel e'
      extractLoop fuel n e' (path ++ [characterValue])
    else pure path

/-- `word.Aggregate.Extract` (`word/aggregate.go:15-47`). -/
def extract (fuel : Nat) (e : WordE) : Go GoStr := do
  let characterValue ← extractCharacterValue fuel e
  let path ← extractLoop fuel fuel e [characterValue]
  pure (stringOf path.reverse)

end Word
end Semnet
