import Verif.Spec.Race
/-
  Specification: goroutines that share a `Graph` under Go's memory model.  The code reads and assigns the fields of the bit
  layer without any synchronization (`bit/layer.go:25-147`).  So a goroutine may miss assignments of other goroutines, it
  may see them in any order, and it may see parts of an entity only.  Here a read may see, of each word of the layer, any
  assignment made so far or none: this is more than Go allows.
-/
namespace Semnet.Spec

/-- From which assignments the words of an entity are seen; `none`: the word is seen as it was when the goroutines started. -/
structure Glance where
  value : Option Nat
  cls : Option Nat
  character : Option Nat
  storage : Option Nat

/-- the entity is seen as it was assigned -/
def Glance.Whole (g : Glance) : Prop := g.cls = g.value ∧ g.character = g.value ∧ g.storage = g.value

instance (g : Glance) : Decidable g.Whole := by unfold Glance.Whole; infer_instance

def Glance.whole (n : Option Nat) : Glance := ⟨n, n, n, n⟩

/-- From which assignments the words of the layer are seen. -/
structure Sight where
  isInitialized : Option Nat
  zeroEntity : Glance
  oneEntity : Glance

def Sight.Whole (s : Sight) : Prop := s.zeroEntity.Whole ∧ s.oneEntity.Whole

instance (s : Sight) : Decidable s.Whole := by unfold Sight.Whole; infer_instance

/-- the `n`-th assignment, as far as it is one to `zeroEntity` -/
def zeroSeen (m : Layer) (us : List Assign) (n : Option Nat) : BitE :=
  match n.bind fun n => us[n]? with
  | some (.zeroEntity e) => e
  | _ => m.zeroEntity

def oneSeen (m : Layer) (us : List Assign) (n : Option Nat) : BitE :=
  match n.bind fun n => us[n]? with
  | some (.oneEntity e) => e
  | _ => m.oneEntity

def doneSeen (m : Layer) (us : List Assign) (n : Option Nat) : Bool :=
  match n.bind fun n => us[n]? with
  | some .isInitialized => true
  | _ => m.isInitialized

/-- what is seen of an entity -/
def Glance.see (at' : Option Nat → BitE) (g : Glance) : BitE :=
  ⟨(at' g.value).value, (at' g.cls).cls, (at' g.character).character, (at' g.storage).storage⟩

/-- What is seen of the layer `m` after the assignments `us`. -/
def Sight.see (m : Layer) (us : List Assign) (s : Sight) : Layer :=
  ⟨doneSeen m us s.isInitialized, s.zeroEntity.see (zeroSeen m us), s.oneEntity.see (oneSeen m us)⟩

/-- Processes whose goroutines may miss assignments to the bit layer. -/
structure Lax where
  /-- here `mem` is what the goroutines of each process saw of its bit layer when they started -/
  crowd : Crowd
  /-- the assignments to the bit layer of each process, since then -/
  said : Nat → List Assign

/-- all assignments, one after another -/
def Lax.latest (y : Lax) (p : Nat) : Layer := (y.said p).foldl Layer.set (y.crowd.mem p)

/-- what a goroutine of process `p` sees; `none`: all assignments -/
def Lax.view (y : Lax) (p : Nat) : Option Sight → Layer
  | none => y.latest p
  | some s => s.see (y.crowd.mem p) (y.said p)

/-- the assignment that a program is about to perform -/
def Go.says {α : Type} : Go α → List Assign
  | .setMem u _ => [u]
  | _ => []

/-- the assignment performed by the move -/
def Crowd.says (y : Crowd) : Move → List Assign
  | .step i _ => match y.cur i with
    | some b => Go.says b.prog
    | none => []
  | .read j => match y.readers j with
    | some rd => Go.says rd.prog
    | none => []
  | _ => []

/-- the process in which something happens -/
def Move.at (home : Nat → Nat) : Move → Nat
  | .begin i _ => home i
  | .step i _ => home i
  | .die p => p
  | .spawn j _ _ => home j
  | .read j => home j

/-- A move; if the layer is read, this is seen. -/
def Lax.move (cfg : Cfg) (fuel : Nat) (home : Nat → Nat) (y : Lax) (t : Move × Option Sight) : Lax :=
  let p := t.1.at home
  match t.1 with
  | .die _ => ⟨y.crowd.move cfg fuel home t.1, upd y.said p []⟩
  | _ =>
    let c := ({ y.crowd with mem := upd y.crowd.mem p (y.view p t.2) }).move cfg fuel home t.1
    ⟨{ c with mem := y.crowd.mem }, upd y.said p (y.said p ++ y.crowd.says t.1)⟩

def Lax.moves (cfg : Cfg) (fuel : Nat) (home : Nat → Nat) (y : Lax) (ts : List (Move × Option Sight)) : Lax :=
  ts.foldl (Lax.move cfg fuel home) y

/-- `st` is the state of process 0; all other processes are new -/
def Lax.start (st : State) : Lax := ⟨Crowd.start st, fun _ => []⟩

/-- Assignments are missed only in processes whose bit layer had been initialized before their goroutines started, and that
    are not started anew. -/
def FilledFirst (home : Nat → Nat) (y : Lax) (ts : List (Move × Option Sight)) : Prop :=
  ∀ t ∈ ts, t.2 = none ∨ ((y.crowd.mem (t.1.at home)).isInitialized = true ∧ ∀ t' ∈ ts, t'.1 ≠ .die (t.1.at home))

/-- What happens in a program that synchronizes its goroutines at times. -/
inductive Act
  /-- a move; if the layer is read, this is seen -/
  | move (t : Move) (s : Option Sight)
  /-- from now on all goroutines of the process see what was assigned so far (they are started after that, wait for a channel,
      or the like) -/
  | sync (p : Nat)

def Lax.sync (y : Lax) (p : Nat) : Lax := ⟨{ y.crowd with mem := upd y.crowd.mem p (y.latest p) }, upd y.said p []⟩

def Lax.act (cfg : Cfg) (fuel : Nat) (home : Nat → Nat) (y : Lax) : Act → Lax
  | .move t s => y.move cfg fuel home (t, s)
  | .sync p => y.sync p

def Lax.acts (cfg : Cfg) (fuel : Nat) (home : Nat → Nat) (y : Lax) (as : List Act) : Lax := as.foldl (Lax.act cfg fuel home) y

/-- the moves alone -/
def Act.moves : List Act → List Move
  | [] => []
  | .move t _ :: as => t :: Act.moves as
  | .sync _ :: as => Act.moves as

/-- all calls and readers of the process have come to their ends -/
def Lax.Quiet (home : Nat → Nat) (y : Lax) (p : Nat) : Prop :=
  (∀ i, home i = p → ∀ b, y.crowd.cur i = some b → Go.end b.prog ≠ none) ∧
  ∀ j, home j = p → ∀ rd, y.crowd.readers j = some rd → Go.end rd.prog ≠ none

/-- Assignments are missed only in processes that have synchronized, after their bit layer was initialized, at a time when all
    their calls had returned.  `done`: the processes that have done so. -/
def Careful (cfg : Cfg) (fuel : Nat) (home : Nat → Nat) : (Nat → Prop) → Lax → List Act → Prop
  | _, _, [] => True
  | done, y, .sync p :: as =>
    Careful cfg fuel home (fun q => done q ∨ (q = p ∧ (y.latest p).isInitialized = true ∧ y.Quiet home p)) (y.sync p) as
  | done, y, .move t s :: as => (s ≠ none → done (t.at home)) ∧
    Careful cfg fuel home (fun q => done q ∧ t ≠ .die q) (y.move cfg fuel home (t, s)) as

/-- entities are seen as they were assigned; but assignments may be missed -/
def WholeSights (ts : List (Move × Option Sight)) : Prop := ∀ t ∈ ts, ∀ s, t.2 = some s → s.Whole

end Semnet.Spec
