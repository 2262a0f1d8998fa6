import Verif.Model.Bit
import Verif.Model.GoStr
/-
  `internal/concrete/character`: characters as paths in a binary trie.
-/
namespace Semnet

/-- `character.Entity` (`character/entity.go:9-15`); the `storage` field is implicit (every constructor
    reached from the API sets it). -/
structure CharE where
  cls : Nat
  bit : Nat
  character : Nat
  word : Nat
  deriving DecidableEq, Repr

/-- `character.Element` (`character/element.go:9-15`).  The entity is an interface value and may be nil
    (`none`), see `Character.provideFirstElement`.  The other fields are fixed collaborators. -/
structure CharElem where
  character : Option CharE
  deriving DecidableEq, Repr

/-- `character.Aggregate` (`character/aggragate.go:7-11`); the entity may be a nil interface. -/
structure CharAgg where
  character : Option CharE
  deriving DecidableEq, Repr

namespace Character

/-- Using a nil interface value panics: a method call on the nil entity of an element (`character/element.go:26-112`), on the
    nil element of a loop (`character/repository.go:42-45`, `aggragate.go:58`) or on the nil entity of an aggregate. -/
def deref {α : Type} : Option α → Go α
  | some a => pure a
  | none => Go.panic

/-! ### storage (`character/storage.go`) -/

/-- `character.Storage.CreateEntity` (`character/storage.go:20-59`). -/
def createEntity (cls : Nat) : Go CharE := do
  let bit ← Go.create
  let character ← Go.create
  let word ← Go.create
  Go.setReference cls bit
  Go.setReference bit character
  Go.setReference character word
  pure ⟨cls, bit, character, word⟩

/-- `character.Storage.ReadEntityByClass` (`character/storage.go:61-84`); not reached from the API. -/
def readEntityByClass (cls : Nat) : Go CharE := do
  let p ← Go.getReference cls
  let bit := p.2
  let p ← Go.getReference bit
  let character := p.2
  let p ← Go.getReference character
  let word := p.2
  pure ⟨cls, bit, character, word⟩

/-- `character.Storage.ReadEntityByBit` (`character/storage.go:86-105`). -/
def readEntityByBit (bit : Nat) : Go CharE := do
  let p ← Go.getReference bit
  let cls := p.1
  let character := p.2
  let p ← Go.getReference character
  let word := p.2
  pure ⟨cls, bit, character, word⟩

/-- `character.Storage.ReadEntityByCharacter` (`character/storage.go:107-126`). -/
def readEntityByCharacter (character : Nat) : Go CharE := do
  let p ← Go.getReference character
  let bit := p.1
  let word := p.2
  let p ← Go.getReference bit
  let cls := p.1
  pure ⟨cls, bit, character, word⟩

/-- `character.Storage.ReadEntityByWord` (`character/storage.go:128-152`). -/
def readEntityByWord (word : Nat) : Go CharE := do
  let p ← Go.getReference word
  let character := p.1
  let p ← Go.getReference character
  let bit := p.1
  let p ← Go.getReference bit
  let cls := p.1
  pure ⟨cls, bit, character, word⟩

/-! ### entity (`character/entity.go`) -/

/-- `character.Entity.GetTargetBit` (`character/entity.go:44-56`). -/
def getTargetBit (e : CharE) : Go Nat := do
  let targetBits ← Go.readTargets e.bit
  match targetBits with
  | [t] => pure t
  | _ => Go.err .characterTargetBits

/-- `character.Entity.HasSourceCharacter` (`character/entity.go:63-72`). -/
def hasSourceCharacter (e : CharE) : Go Bool := do
  let sourceCharacters ← Go.readSources e.character
  pure (!sourceCharacters.isEmpty)

/-- `character.Entity.GetSourceCharacter` (`character/entity.go:74-86`). -/
def getSourceCharacter (e : CharE) : Go Nat := do
  let sourceCharacters ← Go.readSources e.character
  match sourceCharacters with
  | [s] => pure s
  | _ => Go.err .characterSources

/-- `character.Entity.HasTargetWord` (`character/entity.go:103-118`).  Note that the code reads the
    targets of `e.character` (line 105), not of `e.word`. -/
def hasTargetWord (e : CharE) : Go Bool := do
  let targets ← Go.readTargets e.character
  match targets with
  | [] => pure false
  | [_] => pure true
  | _ => Go.err .characterTargetWords

/-- `character.Entity.GetTargetWord` (`character/entity.go:120-132`). -/
def getTargetWord (e : CharE) : Go Nat := do
  let targets ← Go.readTargets e.word
  match targets with
  | [t] => pure t
  | _ => Go.err .characterTargetWords

/-! ### factory (`character/factory.go`) -/

/-- `character.Factory.ProvideHeadEntity` (`character/factory.go:24-64`). -/
def provideHeadEntity (bitEntity : BitE) : Go CharE := do
  let hasTargetCharacter ← Bit.hasTargetCharacter bitEntity
  if hasTargetCharacter then do
    let bit ← Bit.getTargetCharacter bitEntity
    readEntityByBit bit
  else do
    let cls ← Class.createNode Class.characterId
    let characterEntity ← createEntity cls
    Go.connect characterEntity.bit bitEntity.character
    Bit.pointToCharacter bitEntity characterEntity.bit
    pure characterEntity

/-- `character.Factory.CreateTailEntity` (`character/factory.go:66-93`). -/
def createTailEntity (bitEntity : BitE) (previous : CharE) : Go CharE := do
  let cls ← Class.createNode Class.characterId
  let newCharacterEntity ← createEntity cls
  Go.connect newCharacterEntity.bit bitEntity.character
  Go.connect previous.character newCharacterEntity.character
  pure newCharacterEntity

/-! ### element (`character/element.go`, `character/elements.go`) -/

/-- loop `character/element.go:32-40` -/
def readAll : List Nat → Go (List CharE)
  | [] => pure []
  | i :: is => do
    let c ← readEntityByCharacter i
    let cs ← readAll is
    pure (c :: cs)

/-- loop `character/element.go:43-65`: the first target character with the wanted bit -/
def search (bitValue : Bool) : List CharE → Go (Option CharE)
  | [] => pure none
  | c :: cs => do
    let targetBitIdentifier ← getTargetBit c
    let targetBit ← Bit.fetch targetBitIdentifier
    if bitValue = targetBit.value then pure (some c) else search bitValue cs

/-- `character.Element.ProvideNextElement` (`character/element.go:24-90`). -/
def provideNextElement (e : CharElem) (bitValue : Bool) : Go CharElem := do
  let self ← deref e.character
  let targetCharacterIdentifiers ← Go.readTargets self.character
  let targetCharacters ← readAll targetCharacterIdentifiers
  let found ← search bitValue targetCharacters
  match found with
  | some c => pure ⟨some c⟩
  | none => do
    Class.provideEntity
    let bit ← Bit.provide bitValue
    let newCharacter ← createTailEntity bit self
    pure ⟨some newCharacter⟩

/-- `character.Element.ExtractBitValue` (`character/element.go:92-105`). -/
def extractBitValue (e : CharElem) : Go Bool := do
  let self ← deref e.character
  let targetBitIdentifier ← getTargetBit self
  let bit ← Bit.fetch targetBitIdentifier
  pure bit.value

/-- `character.Element.HasPreviousElement` (`character/element.go:107-110`). -/
def hasPreviousElement (e : CharElem) : Go Bool := do
  let self ← deref e.character
  hasSourceCharacter self

/-- `character.Element.GetPreviousElement` (`character/element.go:112-131`). -/
def getPreviousElement (e : CharElem) : Go CharElem := do
  let self ← deref e.character
  let characterIdentifier ← getSourceCharacter self
  let character ← readEntityByCharacter characterIdentifier
  pure ⟨some character⟩

/-- `character.Elements.ProvideFirstElement` (`character/elements.go:33-54`).  The error of
    `ProvideHeadEntity` (line 45) is dropped: the element then holds a nil entity. -/
def provideFirstElement (bitValue : Bool) : Go CharElem := do
  let firstBit ← Bit.provide bitValue
  Class.provideEntity
  let character ← (provideHeadEntity firstBit).attempt
  pure ⟨character.toOption⟩

/-! ### paths, aggregate, repository -/

/-- loop `character/paths.go:31-36` -/
def collectBits : List Char → Except Err (List Bool)
  | [] => .ok []
  | c :: cs =>
    if c ≠ '0' ∧ c ≠ '1' then .error .invalidBitName
    else match collectBits cs with
      | .ok bs => .ok ((c == '1') :: bs)
      | .error e => .error e

/-- `character.paths.collect` (`character/paths.go:21-39`). -/
def collect (integer : Rune) : Except Err (List Bool) :=
  let bitNames := sprintfB integer
  if bitNames.length < 1 then .error .noBits else collectBits bitNames

/-- loop `character/repository.go:42-45`: the error is dropped, a failed step leaves a nil element and the
    next use of it panics. -/
def walk : Option CharElem → List Bool → Go (Option CharElem)
  | e, [] => pure e
  | e, b :: bs => do
    let e ← deref e
    let e' ← (provideNextElement e b).attempt
    walk e'.toOption bs

/-- `character.Repository.Provide` (`character/repository.go:30-52`). -/
def provide (integer : Rune) : Go CharAgg :=
  match collect integer with
  | .error e => Go.err e
  | .ok path => match path with
    | [] => Go.panic              -- `path[0]` out of range; `collect` never returns an empty path
    | b :: bs => do
      let characterElement ← provideFirstElement b
      let characterElement ← walk (some characterElement) bs
      let e ← deref characterElement
      pure ⟨e.character⟩

/-- `character.Repository.Fetch` (`character/repository.go:54-66`). -/
def fetch (word : Nat) : Go CharAgg := do
  let character ← readEntityByWord word
  pure ⟨some character⟩

/-- loop `character/aggragate.go:46-64`.  The error of `GetPreviousElement` (line 56) is dropped; the nil
    element then panics at line 58.  `fuel` bounds the number of iterations. -/
def extractLoop : Nat → CharElem → List Bool → Go (List Bool)
  | 0, _, _ => Go.spin
  | fuel + 1, e, path => do
    let hasPrevious ← hasPreviousElement e
    if hasPrevious then do
      let previous ← (getPreviousElement e).attempt
      let e' ← deref previous.toOption
      let bitValue ← extractBitValue e'
      extractLoop fuel e' (path ++ [bitValue])
    else pure path

/-- loop `character/aggragate.go:66-73` -/
def toRune (bits : List Bool) : Rune :=
  bits.foldl (fun n b => if b then i32 (i32 (n * 2) + 1) else i32 (n * 2)) 0

/-- `character.Aggregate.Extract` (`character/aggragate.go:35-76`). -/
def extract (fuel : Nat) (a : CharAgg) : Go Rune := do
  let bitValue ← extractBitValue ⟨a.character⟩
  let path ← extractLoop fuel ⟨a.character⟩ [bitValue]
  pure (toRune path.reverse)

end Character
end Semnet
