import Verif.Spec.Race
import Verif.Spec.Moody
/-
  Specification: the crowd of `Spec/Race.lean` on a storage that behaves differently at every call.  A move makes at most one
  storage call; each move comes with the `Cfg` that answers it.
-/
namespace Semnet.Spec

/-- the crowd after these moves -/
def Crowd.feel (fuel : Nat) (home : Nat → Nat) (y : Crowd) (ts : List (Cfg × Move)) : Crowd :=
  ts.foldl (fun y t => y.move t.1 fuel home t.2) y

/-- an endless run: the crowd after the first `n` moves of the schedule `s` -/
def Crowd.feels (fuel : Nat) (home : Nat → Nat) (y : Crowd) (s : Nat → Cfg × Move) : Nat → Crowd
  | 0 => y
  | n + 1 => (y.feels fuel home s n).move (s n).1 fuel home (s n).2

/-- How the reader will end if it is left alone from now on, the storage being in this mood. -/
def Asker.results (g : Nat → Cfg) (s : Store) (m : Layer) (rd : Asker) : Out (List Answer) :=
  (rd.prog.runs g Go.noFault ⟨s, m⟩).1

end Semnet.Spec
