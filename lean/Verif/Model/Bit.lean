import Verif.Model.Class
/-
  `internal/concrete/bit`: the two bits.
-/
namespace Semnet
namespace Bit

/-- `bit.layer.initialize`, the layer not being initialized (`bit/layer.go:28-143`). -/
def fill : Go Unit := do
  Class.provideEntity
  let classIdentifiers ← Class.getAllBits
  match classIdentifiers with
  | [] => do
    let c0 ← Class.createNode Class.bitId
    let c1 ← Class.createNode Class.bitId
    let zeroClass := if c0 < c1 then c0 else c1
    let oneClass := if c0 < c1 then c1 else c0
    let zeroCharacter ← Go.create
    Go.setReference zeroClass zeroCharacter
    Go.assign (.zeroEntity ⟨false, zeroClass, zeroCharacter, true⟩)
    let oneCharacter ← Go.create
    Go.setReference oneClass oneCharacter
    Go.assign (.oneEntity ⟨true, oneClass, oneCharacter, true⟩)
    Go.assign .isInitialized
  | [c0, c1] => do
    let zeroClass := if c0 < c1 then c0 else c1
    let oneClass := if c0 < c1 then c1 else c0
    let zr ← Go.getReference zeroClass
    Go.assign (.zeroEntity ⟨false, zeroClass, zr.2, true⟩)
    let or ← Go.getReference oneClass
    Go.assign (.oneEntity ⟨true, oneClass, or.2, true⟩)
    Go.assign .isInitialized
  | _ => Go.err .wrongBitNodes

/-- `bit.layer.initialize` up to its last line (`bit/layer.go:27-144`). -/
def ensure : Go Unit := do
  let l ← Go.readMem
  if l.isInitialized then pure () else fill

/-- `bit.layer.initialize` (`bit/layer.go:25-147`); the fields are read and assigned one at a time. -/
def init : Go (BitE × BitE) := do
  ensure
  let z ← Go.readMem
  let o ← Go.readMem
  pure (z.zeroEntity, o.oneEntity)

/-- `bit.Repository.Provide` (`bit/repository.go:25-37`). -/
def provide (value : Bool) : Go BitE := do
  let p ← init
  let zeroEntity := p.1
  let oneEntity := p.2
  pure (if value then oneEntity else zeroEntity)

/-- `bit.Repository.Fetch` (`bit/repository.go:39-55`). -/
def fetch (identifier : Nat) : Go BitE := do
  let p ← init
  let zeroEntity := p.1
  let oneEntity := p.2
  if identifier = zeroEntity.character then pure zeroEntity
  else if identifier = oneEntity.character then pure oneEntity
  else Go.err .wrongBitIdentifier

/-- `e.storage` is used (`bit/entity.go:34`, `51`, `65`); a call on a nil interface panics. -/
def use (e : BitE) : Go Unit := if e.storage then pure () else Go.panic

/-- `bit.Entity.HasTargetCharacter` (`bit/entity.go:32-47`). -/
def hasTargetCharacter (e : BitE) : Go Bool := do
  use e
  let targets ← Go.readTargets e.character
  match targets with
  | [] => pure false
  | [_] => pure true
  | _ => Go.err .bitTargetCharacters

/-- `bit.Entity.PointToCharacter` (`bit/entity.go:49-61`). -/
def pointToCharacter (e : BitE) (character : Nat) : Go Unit := do
  use e
  let targets ← Go.readTargets e.character
  match targets with
  | [] => Go.connect e.character character
  | _ => Go.err .bitTargetTaken

/-- `bit.Entity.GetTargetCharacter` (`bit/entity.go:63-75`). -/
def getTargetCharacter (e : BitE) : Go Nat := do
  use e
  let targets ← Go.readTargets e.character
  match targets with
  | [t] => pure t
  | _ => Go.err .bitTargetCharacters

end Bit
end Semnet
