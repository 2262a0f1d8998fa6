import Verif.Model.Remark
/-
  Several processes on one storage.  Each has its own `Graph` (`graph.go:24-41`), i.e. its own bit layer; the storage is
  shared.  A storage call is atomic (the interface `internal/abstract/storage.go:3-13` promises nothing about concurrent
  use, so this is the weakest sensible reading); between two storage calls of one process others may act.
-/
namespace Semnet

/-- A process: what it still has to do, and its bit layer. -/
structure Proc (α : Type) where
  prog : Go α
  mem : Layer

/-- Run up to the next storage call, or to the end: only the process's own memory is used. -/
def Go.settle {α : Type} : Go α → Layer → Proc α
  | .getMem k, m => (k m).settle m
  | .setMem u k, m => k.settle (m.set u)
  | p, m => ⟨p, m⟩

/-- One storage call of the process, with its fate; a finished process does nothing. -/
def Proc.turn {α : Type} (cfg : Cfg) (f : Fate) (p : Proc α) (s : Store) : Proc α × Store :=
  match p.prog.settle p.mem with
  | ⟨.op o k, m⟩ =>
    let r := s.step cfg o
    match f with
    | .ok => (⟨k r.1, m⟩, r.2)
    | .fail => (⟨k (.error .fault), m⟩, s)
    | .failLate => (⟨k (.error .fault), m⟩, r.2)
  | q => (q, s)

/-- How the process has ended; `none` if it has not. -/
def Proc.out {α : Type} (p : Proc α) : Option (Out α) :=
  match p.prog.settle p.mem with
  | ⟨.ok a, _⟩ => some (.ok a)
  | ⟨.err e, _⟩ => some (.err e)
  | ⟨.panic, _⟩ => some .panic
  | ⟨.spin, _⟩ => some .spin
  | _ => none

end Semnet
