import Verif.Spec.Concurrent
/-
  Specification: any number of threads (goroutines) in any number of processes, each performing API calls of its own choice
  on one storage at the same time.  The threads of one process share its `Graph`, i.e. its bit layer.  Between any two
  storage calls of one thread, and between its reading or writing the bit layer, the others may act; any storage call may
  fail, with or without effect; a process may die in the middle of calls and be started anew.
-/
namespace Semnet.Spec

/-- what an API call yields -/
inductive Yield
  | created (r : RemE)
  | answered (a : Answer)
  /-- the call named a remark that is not logged: no call at all -/
  | nothing
  deriving DecidableEq

/-- the API function -/
def Call.yields (fuel : Nat) (log : List Entry) : Call → Go Yield
  | .createStory o p => do let r ← Graph.createStory fuel o p; pure (.created r)
  | .addRemark h p => match log[h]? with
    | none => pure .nothing
    | some e => do let r ← Remark.addRemarkToFact fuel e.handle p; pure (.created r)
  | .addFact h o p => match log[h]? with
    | none => pure .nothing
    | some e => do let r ← Remark.addFactToStory fuel e.handle o p; pure (.created r)
  | .addChild h o p => match log[h]? with
    | none => pure .nothing
    | some e => do let r ← Remark.createChildStory fuel e.handle o p; pure (.created r)
  | .query h q => match log[h]? with
    | none => pure .nothing
    | some e => do let a ← q.ask fuel e.handle; pure (.answered a)
  | .getRemark i => do let r ← Graph.getRemark i; pure (.answered (.remark r))

/-- an API call in progress -/
structure Begun where
  call : Call
  /-- what had been logged when it began -/
  log : List Entry
  /-- what it still has to do -/
  prog : Go Yield

/-- an answer that a thread was given -/
structure Heard where
  call : Call
  /-- what had been logged when the call began -/
  log : List Entry
  answer : Answer

/-- The answer is the expected one, if there is an expectation. -/
def Heard.Right (h : Heard) : Prop :=
  match h.call with
  | .query i q => ∃ e, h.log[i]? = some e ∧ ∀ a, e.answer h.log q = some a → h.answer = a
  | .getRemark i => ∀ e ∈ h.log, Remark.getIdentifier e.handle = i → h.answer = .remark e.handle
  | _ => False

/-- A thread that gets a remark by its identifier and asks questions about it; its storage calls do not fail. -/
structure Asker where
  prog : Go (List Answer)
  /-- the identifier it was given -/
  identifier : Nat
  /-- its questions -/
  asked : List Query
  /-- what had been logged when it began -/
  log : List Entry

structure Crowd where
  store : Store
  /-- the bit layer of each process, shared by its threads -/
  mem : Nat → Layer
  /-- the API call in progress of each thread -/
  cur : Nat → Option Begun
  readers : Nat → Option Asker
  /-- what the threads have created -/
  log : List Entry
  /-- what they were answered -/
  heard : List Heard

/-- What can happen next. -/
inductive Move
  /-- the `i`-th thread begins an API call, unless it is in the middle of one -/
  | begin (i : Nat) (c : Call)
  /-- it reads or writes its bit layer; or performs a storage call with this fate; or returns from the API call -/
  | step (i : Nat) (f : Fate)
  /-- the `p`-th process dies and is started anew; the API calls in progress are lost -/
  | die (p : Nat)
  /-- the `j`-th reader begins, anew if it has begun before -/
  | spawn (j : Nat) (identifier : Nat) (qs : List Query)
  /-- it reads or writes its bit layer, or performs a storage call -/
  | read (j : Nat)

/-- the strings passed by the caller -/
def Move.texts : Move → List GoStr
  | .begin _ c => c.texts
  | _ => []

def upd {α : Type} (f : Nat → α) (i : Nat) (a : α) : Nat → α := fun j => if j = i then a else f j

/-- One step of a program: a storage call, with its fate; or reading or writing the bit layer. -/
def Go.one {α : Type} (cfg : Cfg) (f : Fate) : Go α → Store → Layer → Go α × Store × Layer
  | .op o k, s, m =>
    let r := s.step cfg o
    match f with
    | .ok => (k r.1, r.2, m)
    | .fail => (k (.error .fault), s, m)
    | .failLate => (k (.error .fault), r.2, m)
  | .getMem k, s, m => (k m, s, m)
  | .setMem u k, s, m => (k, s, m.set u)
  | p, s, m => (p, s, m)

/-- How the program has ended; `none` if it has not. -/
def Go.end {α : Type} : Go α → Option (Out α)
  | .ok a => some (.ok a)
  | .err e => some (.err e)
  | .panic => some .panic
  | .spin => some .spin
  | _ => none

/-- the `i`-th thread, in the middle of the call `b`, returns with `o` -/
def Crowd.return (y : Crowd) (i : Nat) (b : Begun) (o : Out Yield) : Crowd :=
  let y := { y with cur := upd y.cur i none }
  match o with
  | .ok (.created r) => { y with log := y.log ++ (b.call.entry y.log r).toList }
  | .ok (.answered a) => { y with heard := y.heard ++ [⟨b.call, b.log, a⟩] }
  | _ => y

/-- The `i`-th thread, and the `i`-th reader, are in the process `home i`. -/
def Crowd.move (cfg : Cfg) (fuel : Nat) (home : Nat → Nat) (y : Crowd) : Move → Crowd
  | .begin i c => match y.cur i with
    | none => { y with cur := upd y.cur i (some ⟨c, y.log, c.yields fuel y.log⟩) }
    | some _ => y
  | .step i f => match y.cur i with
    | none => y
    | some b => match Go.end b.prog with
      | some o => y.return i b o
      | none =>
        let t := Go.one cfg f b.prog y.store (y.mem (home i))
        { y with store := t.2.1, mem := upd y.mem (home i) t.2.2, cur := upd y.cur i (some { b with prog := t.1 }) }
  | .die p => { y with
      mem := upd y.mem p Layer.fresh
      cur := fun i => if home i = p then none else y.cur i
      readers := fun j => if home j = p then none else y.readers j }
  | .spawn j i qs => { y with readers := upd y.readers j (some ⟨interview fuel i qs, i, qs, y.log⟩) }
  | .read j => match y.readers j with
    | none => y
    | some rd =>
      let t := Go.one cfg .ok rd.prog y.store (y.mem (home j))
      { y with store := t.2.1, mem := upd y.mem (home j) t.2.2, readers := upd y.readers j (some { rd with prog := t.1 }) }

def Crowd.moves (cfg : Cfg) (fuel : Nat) (home : Nat → Nat) (y : Crowd) (ts : List Move) : Crowd :=
  ts.foldl (Crowd.move cfg fuel home) y

/-- an endless run: the crowd after the first `n` moves of the schedule `s` -/
def Crowd.run (cfg : Cfg) (fuel : Nat) (home : Nat → Nat) (y : Crowd) (s : Nat → Move) : Nat → Crowd
  | 0 => y
  | n + 1 => (y.run cfg fuel home s n).move cfg fuel home (s n)

/-- `st` is the state of process 0; all other processes are new -/
def Crowd.start (st : State) : Crowd :=
  ⟨st.world.store, upd (fun _ => Layer.fresh) 0 st.world.mem, fun _ => none, fun _ => none, st.log, []⟩

/-- How the reader will end if it is left alone from now on; if it has ended, how it ended. -/
def Asker.result (cfg : Cfg) (s : Store) (m : Layer) (rd : Asker) : Out (List Answer) := (rd.prog.exec cfg ⟨s, m⟩).1

end Semnet.Spec
