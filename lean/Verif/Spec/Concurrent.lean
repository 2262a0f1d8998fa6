import Verif.Model.Concurrent
import Verif.Spec.History
/-
  Specification: one process performs API calls one after the other, while any number of other processes are started
  at any moment, get a remark by its identifier and ask questions about it.
-/
namespace Semnet.Spec

/-- a reading process: GetRemark, then the questions in order -/
def asks (fuel : Nat) (r : RemE) : List Query → Go (List Answer)
  | [] => pure []
  | q :: qs => do
    let a ← q.ask fuel r
    let as ← asks fuel r qs
    pure (a :: as)

def interview (fuel : Nat) (identifier : Nat) (qs : List Query) : Go (List Answer) := do
  let r ← Graph.getRemark identifier
  asks fuel r qs

/-- the expected answers -/
def Entry.answers (log : List Entry) (e : Entry) : List Query → Option (List Answer)
  | [] => some []
  | q :: qs => match e.answer log q, Entry.answers log e qs with
    | some a, some as => some (a :: as)
    | _, _ => none

structure Reader where
  proc : Proc (List Answer)
  /-- the identifier it was given -/
  identifier : Nat
  /-- its questions -/
  asked : List Query
  /-- what the writer had logged when the reader was started -/
  log : List Entry

/-- The writing process, the storage and the readers. -/
structure System where
  store : Store
  /-- the writer's bit layer -/
  mem : Layer
  /-- the writer's API call in progress -/
  cur : Option (Call × Go (Option RemE))
  /-- its further API calls -/
  todo : List Call
  log : List Entry
  readers : List Reader

/-- What can happen next. -/
inductive Turn
  /-- the writer's next storage call has this fate; or it returns from the API call, or begins the next -/
  | write (f : Fate)
  /-- the writer dies and is started anew; the API call in progress is lost -/
  | die
  /-- a new reader -/
  | spawn (identifier : Nat) (qs : List Query)
  /-- the next storage call of the `j`-th reader -/
  | read (j : Nat)

/-- a turn of the writer -/
def System.write (cfg : Cfg) (fuel : Nat) (f : Fate) (y : System) : System :=
  match y.cur with
  | none => match y.todo with
    | [] => y
    | c :: cs => { y with cur := some (c, c.prog fuel y.log), todo := cs }
  | some (c, p) => match Proc.out ⟨p, y.mem⟩ with
    | none =>
      let t := Proc.turn cfg f ⟨p, y.mem⟩ y.store
      { y with store := t.2, mem := t.1.mem, cur := some (c, t.1.prog) }
    | some (.ok (some r)) =>
      { y with mem := (p.settle y.mem).mem, cur := none, log := y.log ++ (c.entry y.log r).toList }
    | some _ => { y with mem := (p.settle y.mem).mem, cur := none }

/-- a turn of a reader -/
def System.read (cfg : Cfg) (j : Nat) (y : System) : System :=
  match y.readers[j]? with
  | none => y
  | some rd =>
    let t := rd.proc.turn cfg .ok y.store
    { y with store := t.2, readers := y.readers.set j { rd with proc := t.1 } }

def System.turn (cfg : Cfg) (fuel : Nat) (y : System) : Turn → System
  | .write f => y.write cfg fuel f
  | .die => { y with mem := Layer.fresh, cur := none }
  | .spawn i qs => { y with readers := y.readers ++ [⟨⟨interview fuel i qs, Layer.fresh⟩, i, qs, y.log⟩] }
  | .read j => y.read cfg j

def System.turns (cfg : Cfg) (fuel : Nat) (y : System) (ts : List Turn) : System :=
  ts.foldl (System.turn cfg fuel) y

/-- the writer does not fail -/
def Turn.Calm : Turn → Prop
  | .write f => f = .ok
  | .die => False
  | _ => True

/-- of the writer -/
def Turn.writes : Turn → Bool
  | .write _ => true
  | .die => true
  | _ => false

/-- the state `st` of the writer, who is going to perform the calls `cs` -/
def System.start (st : State) (cs : List Call) : System := ⟨st.world.store, st.world.mem, none, cs, st.log, []⟩

/-- the writer is done -/
def System.done (y : System) : Bool := y.cur.isNone && y.todo.isEmpty

/-- the writer's state -/
def System.state (y : System) : State := ⟨⟨y.store, y.mem⟩, y.log⟩

/-- How a reader will end if it is left alone with the storage from now on; if it has ended, how it ended. -/
def Reader.result (cfg : Cfg) (s : Store) (rd : Reader) : Out (List Answer) :=
  (rd.proc.prog.exec cfg ⟨s, rd.proc.mem⟩).1

/-! ### two writers -/

/-- Two processes in the middle of API calls, on one storage. -/
structure Duo where
  store : Store
  first : Proc RemE
  second : Proc RemE

/-- `true`: the first process performs its next storage call; `false`: the second. -/
def Duo.turn (cfg : Cfg) (y : Duo) : Bool → Duo
  | true => let t := y.first.turn cfg .ok y.store; { y with store := t.2, first := t.1 }
  | false => let t := y.second.turn cfg .ok y.store; { y with store := t.2, second := t.1 }

def Duo.turns (cfg : Cfg) (y : Duo) (ts : List Bool) : Duo := ts.foldl (Duo.turn cfg) y

/-- two new processes begin these calls of CreateStory -/
def Duo.start (fuel : Nat) (s : Store) (o1 p1 o2 p2 : GoStr) : Duo :=
  ⟨s, ⟨Graph.createStory fuel o1 p1, Layer.fresh⟩, ⟨Graph.createStory fuel o2 p2, Layer.fresh⟩⟩

/-! ### processes that take turns -/

/-- Any number of processes on one storage, each with its own bit layer; what they have created is logged together. -/
structure Team where
  store : Store
  mems : Nat → Layer
  log : List Entry

/-- the `i`-th process performs an API call from its beginning to its end -/
def Team.call (cfg : Cfg) (fuel : Nat) (t : Team) (ic : Nat × Call) : Team :=
  let st := (State.mk ⟨t.store, t.mems ic.1⟩ t.log).call cfg fuel ic.2 Go.noFault
  ⟨st.world.store, fun j => if j = ic.1 then st.world.mem else t.mems j, st.log⟩

def Team.calls (cfg : Cfg) (fuel : Nat) (t : Team) (ics : List (Nat × Call)) : Team := ics.foldl (Team.call cfg fuel) t

/-- all processes begin on the storage of `st` -/
def Team.start (st : State) : Team := ⟨st.world.store, fun _ => Layer.fresh, st.log⟩

end Semnet.Spec
