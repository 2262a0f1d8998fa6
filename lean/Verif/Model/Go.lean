/-
  The effect language of the model: a Go function that talks to `abstract.Storage`
  (`internal/abstract/storage.go:3-13`) is a value of type `Go α`.

  `Go α` is a tree of storage calls.  Its leaves are the ways a Go call can end:
  a value with `err == nil` (`ok`), a non-nil `error` (`err`), a run-time panic (`panic`, here always a
  method call on a nil interface), or the step budget of an unbounded `for` loop being exhausted (`spin`).
-/
namespace Semnet

/-- Errors, with the lines of `internal/concrete` that make them.  `fault`, `noNode`, `dupEdge` come from the storage, the rest are the `fmt.Errorf` sites. -/
inductive Err
  | fault                     -- the storage call failed (I/O error, injected)
  | noNode                    -- the storage does not know the identifier
  | dupEdge                   -- the storage refuses a duplicate edge (one possible policy, see `Dup`)
  | wrongClassNode            -- class/repository.go:52,61,75,89,103,117,131,145
  | wrongTargetsAtClassNode   -- class/node/*.go `Is`
  | wrongBitNodes             -- bit/layer.go:140
  | wrongBitIdentifier        -- bit/repository.go:54
  | bitTargetCharacters       -- bit/entity.go:45,71
  | bitTargetTaken            -- bit/entity.go:57
  | invalidBitName            -- character/paths.go:33
  | noBits                    -- character/paths.go:26
  | characterTargetBits       -- character/entity.go:52
  | characterSources          -- character/entity.go:82
  | characterTargetWords      -- character/entity.go:116,128
  | noCharacter               -- word/paths.go:26
  | wordTargetCharacters      -- word/entity.go:107
  | wordSources               -- word/entity.go:132
  | wordTargetPhrases         -- word/entity.go:71,90
  | wordSourceCharacters      -- word/entity.go:47
  | noWords                   -- phrase/paths.go:27
  | phraseTargetWords         -- phrase/entity.go:76
  | phraseSourceWords         -- phrase/entity.go:57
  | phraseSources             -- phrase/entity.go:101
  | detailSourcePhrases       -- detail/entity.go:46
  | detailTargetPhrases       -- detail/entity.go:55
  | tooManyCommonDetails      -- detail/factory.go:52
  | remarkTargetFacts         -- remark/entity.go:58,86
  | remarkSourceDetails       -- remark/entity.go:72
  | nextRemarks               -- remark/entity.go:112
  | remarkWrongClass          -- remark/aggregate.go:50
  | factTargetFacts           -- fact/entity.go:72
  | factFirstRemarks          -- fact/entity.go:86
  | factStories               -- fact/entity.go:100
  | storyNext                 -- story/entity.go:72
  | storyTargetFacts          -- story/entity.go:86
  | storyTargetTrees          -- story/entity.go:110
  | storySourceTrees          -- story/entity.go:134
  deriving DecidableEq, Repr

/-- Calls of `abstract.Storage` that semnet issues (`internal/abstract/storage.go:3-13`).
    `Disconnect` and `Delete` are declared by the interface but never called by semnet. -/
inductive Op
  | has (source : Nat)
  | create
  | readSources (target : Nat)
  | readTargets (source : Nat)
  | setReference (source reference : Nat)
  | getReference (source : Nat)
  | connect (source target : Nat)
  deriving DecidableEq, Repr

/-- Result type of each storage call (without the `error`). `getReference` returns
    (node pointing here, node pointed to). -/
abbrev Op.Res : Op → Type
  | .has _ => Bool
  | .create => Nat
  | .readSources _ => List Nat
  | .readTargets _ => List Nat
  | .setReference _ _ => Unit
  | .getReference _ => Nat × Nat
  | .connect _ _ => Unit

/-- `bit.Entity` (`internal/concrete/bit/entity.go:9-14`); `storage`: whether this field has been assigned (if it has, it is
    the storage of the process; otherwise it is nil). -/
structure BitE where
  value : Bool
  cls : Nat
  character : Nat
  storage : Bool
  deriving DecidableEq, Repr

/-- The per-process state of a `Graph`: `bit.layer` (`internal/concrete/bit/layer.go:9-15`).
    `class.Repository.isInitialized` (`class/repository.go:22`) is never set to true by the code, so it is
    a constant and needs no state.  All other repositories are stateless. -/
structure Layer where
  isInitialized : Bool
  zeroEntity : BitE
  oneEntity : BitE
  deriving DecidableEq, Repr

/-- A fresh `bit.layer` (`internal/concrete/bit/layer.go:17-23`). -/
def Layer.fresh : Layer := ⟨false, ⟨false, 0, 0, false⟩, ⟨false, 0, 0, false⟩⟩

/-- An assignment to one field of the `bit.layer` (`bit/layer.go:9-15`, assigned at lines 28-143). -/
inductive Assign
  | isInitialized
  | zeroEntity (e : BitE)
  | oneEntity (e : BitE)
  deriving DecidableEq, Repr

/-- The `bit.layer` (`bit/layer.go:9-15`) after the assignment; `isInitialized` is only ever set to true. -/
def Layer.set (l : Layer) : Assign → Layer
  | .isInitialized => { l with isInitialized := true }
  | .zeroEntity e => { l with zeroEntity := e }
  | .oneEntity e => { l with oneEntity := e }

/-- A Go computation over the storage. -/
inductive Go (α : Type) : Type
  | ok (a : α)
  | err (e : Err)
  | panic
  | spin
  | op (o : Op) (k : Except Err o.Res → Go α)
  | getMem (k : Layer → Go α)
  | setMem (u : Assign) (k : Go α)

namespace Go

/-- Sequencing with the idiom `x, err := f(); if err != nil { return err }`. -/
def bind {α β : Type} : Go α → (α → Go β) → Go β
  | ok a, f => f a
  | err e, _ => err e
  | panic, _ => panic
  | spin, _ => spin
  | op o k, f => op o (fun r => (k r).bind f)
  | getMem k, f => getMem (fun m => (k m).bind f)
  | setMem u k, f => setMem u (k.bind f)

instance : Monad Go where
  pure := Go.ok
  bind := Go.bind

/-- Call a function and keep its `error` as a value (for the places where semnet ignores it). -/
def attempt {α : Type} : Go α → Go (Except Err α)
  | ok a => ok (.ok a)
  | err e => ok (.error e)
  | panic => panic
  | spin => spin
  | op o k => op o (fun r => (k r).attempt)
  | getMem k => getMem (fun m => (k m).attempt)
  | setMem u k => setMem u k.attempt

/-- One storage call (`internal/abstract/storage.go:3-13`); a storage error becomes the function's error. -/
def call (o : Op) : Go o.Res :=
  op o (fun r => match r with | .ok a => ok a | .error e => err e)

/-- `storage.Has` (`internal/abstract/storage.go:4`). -/
def has (x : Nat) : Go Bool := call (.has x)
/-- `storage.Create` (`internal/abstract/storage.go:5`). -/
def create : Go Nat := call .create
/-- `storage.ReadSources` (`internal/abstract/storage.go:6`). -/
def readSources (x : Nat) : Go (List Nat) := call (.readSources x)
/-- `storage.ReadTargets` (`internal/abstract/storage.go:7`). -/
def readTargets (x : Nat) : Go (List Nat) := call (.readTargets x)
/-- `storage.SetReference` (`internal/abstract/storage.go:8`). -/
def setReference (x y : Nat) : Go Unit := call (.setReference x y)
/-- `storage.GetReference` (`internal/abstract/storage.go:9`). -/
def getReference (x : Nat) : Go (Nat × Nat) := call (.getReference x)
/-- `storage.Connect` (`internal/abstract/storage.go:10`). -/
def connect (x y : Nat) : Go Unit := call (.connect x y)

/-- read the process-local bit layer (`bit/layer.go:27`, `146`) -/
def readMem : Go Layer := getMem ok
/-- assign to a field of the process-local bit layer (`bit/layer.go:28-143`) -/
def assign (u : Assign) : Go Unit := setMem u (ok ())

end Go

/-- How a Go call ends. -/
inductive Out (α : Type) : Type
  | ok (a : α)
  | err (e : Err)
  | panic
  | spin
  deriving DecidableEq, Repr

end Semnet
