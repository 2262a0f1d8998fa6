import Verif.Model.Go
/-
  The storage contract.  semnet is written against the interface `abstract.Storage`
  (`internal/abstract/storage.go:3-13`); the implementation (module `github.com/mem-memov/clew`) is not in
  the repository.  The contract below is what the calls in semnet rely on; everything that the interface
  leaves open is a parameter in `Cfg`, and the theorems quantify over it.
-/
namespace Semnet

/-- What `Connect` (`internal/abstract/storage.go:10`) does when the edge already exists. -/
inductive Dup
  | ignore    -- nothing, returns nil
  | parallel  -- adds a second, parallel edge
  | reject    -- returns an error
  deriving DecidableEq, Repr

/-- The persistent graph behind `internal/abstract/storage.go:3-13`. -/
structure Store where
  /-- next identifier `Create` will return -/
  next : Nat
  /-- live nodes -/
  nodes : List Nat
  /-- edges (source, target) -/
  edges : List (Nat × Nat)
  /-- references (source, reference), latest first -/
  refs : List (Nat × Nat)
  deriving DecidableEq, Repr

/-- Storage behaviour left open by the interface (`internal/abstract/storage.go:3-13`). -/
structure Cfg where
  /-- identifiers consumed by a `Connect` that adds an edge.  `bit/repository_test.go:20,47` (the first bit
      node after the 8 class nodes, 2 creates and 2 connects is 13) shows 1 for clew. -/
  arrow : Nat
  /-- is identifier 0 a live node? -/
  zero : Bool
  /-- behaviour of `Connect` on an existing edge -/
  dup : Dup
  /-- order in which `ReadSources`/`ReadTargets` list their result; it may depend on the call and on all that is stored -/
  ord : Store → Op → List Nat → List Nat
  ord_perm : ∀ s o l, (ord s o l).Perm l

namespace Store

/-- An empty storage. -/
def empty (cfg : Cfg) : Store := ⟨1, if cfg.zero then [0] else [], [], []⟩

/-- does the node exist: `Has` (`internal/abstract/storage.go:4`) -/
def live (s : Store) (x : Nat) : Bool := s.nodes.contains x
/-- targets of `x`, what `ReadTargets` lists (`internal/abstract/storage.go:7`) -/
def targets (s : Store) (x : Nat) : List Nat := (s.edges.filter (fun e => e.1 == x)).map (·.2)
/-- sources of `x`, what `ReadSources` lists (`internal/abstract/storage.go:6`) -/
def sources (s : Store) (x : Nat) : List Nat := (s.edges.filter (fun e => e.2 == x)).map (·.1)
/-- the node `x` refers to, 0 if none; second result of `GetReference` (`internal/abstract/storage.go:9`) -/
def fwd (s : Store) (x : Nat) : Nat := ((s.refs.find? (fun e => e.1 == x)).map (·.2)).getD 0
/-- the node referring to `x`, 0 if none; first result of `GetReference` (`internal/abstract/storage.go:9`) -/
def back (s : Store) (x : Nat) : Nat := ((s.refs.find? (fun e => e.2 == x)).map (·.1)).getD 0

/-- `Create` (`internal/abstract/storage.go:5`) -/
def created (s : Store) : Store := { s with next := s.next + 1, nodes := s.next :: s.nodes }
/-- `SetReference` (`internal/abstract/storage.go:8`) -/
def referred (s : Store) (x y : Nat) : Store := { s with refs := (x, y) :: s.refs }
/-- `Connect`, the edge being added (`internal/abstract/storage.go:10`) -/
def connected (s : Store) (cfg : Cfg) (x y : Nat) : Store :=
  { s with next := s.next + cfg.arrow, edges := (x, y) :: s.edges }

/-- Effect and answer of one storage call (`internal/abstract/storage.go:3-13`). -/
def step (cfg : Cfg) (s : Store) : (o : Op) → Except Err o.Res × Store
  | .has x => (.ok (s.live x), s)
  | .create => (.ok s.next, s.created)
  | .readSources x => (if s.live x then .ok (cfg.ord s (.readSources x) (s.sources x)) else .error .noNode, s)
  | .readTargets x => (if s.live x then .ok (cfg.ord s (.readTargets x) (s.targets x)) else .error .noNode, s)
  | .setReference x y =>
    if s.live x && s.live y then (.ok (), s.referred x y) else (.error .noNode, s)
  | .getReference x => (if s.live x then .ok (s.back x, s.fwd x) else .error .noNode, s)
  | .connect x y =>
    if s.live x && s.live y then
      if s.edges.contains (x, y) then
        match cfg.dup with
        | .ignore => (.ok (), s)
        | .parallel => (.ok (), s.connected cfg x y)
        | .reject => (.error .dupEdge, s)
      else (.ok (), s.connected cfg x y)
    else (.error .noNode, s)

end Store

/-- A running process on a storage. -/
structure World where
  store : Store
  mem : Layer
  deriving DecidableEq, Repr

/-- A new `Graph` (`graph.go:24-41`) over a storage: the bit layer is fresh. -/
def World.open (s : Store) : World := ⟨s, Layer.fresh⟩

/-- What happens to one storage call. -/
inductive Fate
  | ok        -- it is executed and answers
  | fail      -- it fails without effect
  | failLate  -- it takes effect but the caller gets an error
  deriving DecidableEq, Repr

namespace Go

/-- Execute a computation; `f n` is the fate of the n-th storage call. -/
def run {α : Type} (cfg : Cfg) : Go α → (Nat → Fate) → World → Out α × World
  | .ok a, _, w => (.ok a, w)
  | .err e, _, w => (.err e, w)
  | .panic, _, w => (.panic, w)
  | .spin, _, w => (.spin, w)
  | .op o k, f, w =>
    let r := w.store.step cfg o
    match f 0 with
    | .ok => (k r.1).run cfg (fun n => f (n + 1)) ⟨r.2, w.mem⟩
    | .fail => (k (.error .fault)).run cfg (fun n => f (n + 1)) w
    | .failLate => (k (.error .fault)).run cfg (fun n => f (n + 1)) ⟨r.2, w.mem⟩
  | .getMem k, f, w => (k w.mem).run cfg f w
  | .setMem u k, f, w => k.run cfg f ⟨w.store, w.mem.set u⟩

/-- No storage call fails. -/
def noFault : Nat → Fate := fun _ => .ok

/-- Fault-free execution. -/
def exec {α : Type} (cfg : Cfg) (p : Go α) (w : World) : Out α × World := p.run cfg noFault w

/-- The storage contents if the process dies right after its `n`-th storage call; `f` is the fate of the
    storage calls as in `run`. -/
def crashAfter {α : Type} (cfg : Cfg) : Nat → Go α → (Nat → Fate) → World → Store
  | n + 1, .op o k, f, w =>
    let r := w.store.step cfg o
    match f 0 with
    | .ok => (k r.1).crashAfter cfg n (fun n => f (n + 1)) ⟨r.2, w.mem⟩
    | .fail => (k (.error .fault)).crashAfter cfg n (fun n => f (n + 1)) w
    | .failLate => (k (.error .fault)).crashAfter cfg n (fun n => f (n + 1)) ⟨r.2, w.mem⟩
  | 0, .op _ _, _, w => w.store
  | n, .getMem k, f, w => (k w.mem).crashAfter cfg n f w
  | n, .setMem u k, f, w => k.crashAfter cfg n f ⟨w.store, w.mem.set u⟩
  | _, _, _, w => w.store

end Go
end Semnet
