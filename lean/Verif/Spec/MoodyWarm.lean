import Verif.Spec.Warm
import Verif.Spec.MoodyRace
/-
  Specification: texts that are stored already, on a storage that behaves differently at every call.
-/
namespace Semnet.Spec

/-- `Go.look` with a mood -/
def Go.looks {α : Type} : (Nat → Cfg) → Go α → Store → Layer → Option (Out α × Layer)
  | _, .ok a, _, m => some (.ok a, m)
  | _, .err e, _, m => some (.err e, m)
  | _, .panic, _, m => some (.panic, m)
  | _, .spin, _, m => some (.spin, m)
  | g, .op (.has x) k, s, m => Go.looks (fun n => g (n + 1)) (k (s.step (g 0) (.has x)).1) s m
  | g, .op (.readSources x) k, s, m => Go.looks (fun n => g (n + 1)) (k (s.step (g 0) (.readSources x)).1) s m
  | g, .op (.readTargets x) k, s, m => Go.looks (fun n => g (n + 1)) (k (s.step (g 0) (.readTargets x)).1) s m
  | g, .op (.getReference x) k, s, m => Go.looks (fun n => g (n + 1)) (k (s.step (g 0) (.getReference x)).1) s m
  | _, .op _ _, _, _ => none
  | g, .getMem k, s, m => Go.looks g (k m) s m
  | g, .setMem u k, s, m => Go.looks g k s (m.set u)

/-- Object `o` with property `p` is stored and found, whatever the mood. -/
def FamiliarMoods (cfg : Cfg) (fuel : Nat) (w : World) (o p : GoStr) : Prop :=
  ∀ g, Suits cfg g → ∃ d m, Go.looks g (Detail.provide fuel o p) w.store w.mem = some (.ok d, m) ∧ d.remark ≠ 0

/-- The storage holds a remark.  If it has no node 0, the history may contain failures and crashes after the first remark;
    otherwise it contains none. -/
def Settled (cfg : Cfg) (fuel : Nat) (es : List ((Nat → Cfg) × Event)) : Prop :=
  (cfg.zero = false ∧ ∃ es1 es2, es = es1 ++ es2 ∧ StormyMoods cfg fuel es1 es2) ∨
  (CalmMoods cfg fuel es ∧ (moodily cfg fuel es).log ≠ [])

/-- None of the moves needs text that is not there in the state `st` in which they start. -/
def WarmFeel (cfg : Cfg) (fuel : Nat) (home : Nat → Nat) (st : State) (ts : List (Cfg × Move)) : Prop :=
  ∀ ts1 t ts2, ts = ts1 ++ t :: ts2 →
    t.2.WarmBy cfg (FamiliarMoods cfg fuel st.world) ((Crowd.start st).feel fuel home ts1).log

/-- the same of an endless run -/
def WarmFeels (cfg : Cfg) (fuel : Nat) (home : Nat → Nat) (st : State) (s : Nat → Cfg × Move) : Prop :=
  ∀ n, (s n).2.WarmBy cfg (FamiliarMoods cfg fuel st.world) ((Crowd.start st).feels fuel home s n).log

end Semnet.Spec
