import Verif.Spec.Alphabet
import Verif.Spec.MoodyWarm
/-
  Specification: processes that store new text at the same time.
-/
namespace Semnet.Spec

/-- The moves pass texts over the alphabet, and shorter than `fuel`, only. -/
def Alphabet.Writes (A : Alphabet) (fuel : Nat) (ts : List (Cfg × Move)) : Prop :=
  ∀ t ∈ ts, ∀ s ∈ t.2.texts, s.length < fuel ∧ A.Over s

/-- No storage call of the `i`-th thread fails.  (Those of the others may.) -/
def Spared (i : Nat) (ts : List (Cfg × Move)) : Prop := ∀ c f, (c, Move.step i f) ∈ ts → f = .ok

/-- A storage that has a node 0 is not asked to do more than it can: no child stories, no questions for the story of a fact
    that has none; and no storage call fails.  (`Move.WarmBy`, but any text may be new.) -/
def Modest (cfg : Cfg) (fuel : Nat) (home : Nat → Nat) (st : State) (ts : List (Cfg × Move)) : Prop :=
  ∀ ts1 t ts2, ts = ts1 ++ t :: ts2 → t.2.WarmBy cfg (fun _ _ => True) ((Crowd.start st).feel fuel home ts1).log

/-- the same of an endless run -/
def Modests (cfg : Cfg) (fuel : Nat) (home : Nat → Nat) (st : State) (s : Nat → Cfg × Move) : Prop :=
  ∀ n, (s n).2.WarmBy cfg (fun _ _ => True) ((Crowd.start st).feels fuel home s n).log

end Semnet.Spec
