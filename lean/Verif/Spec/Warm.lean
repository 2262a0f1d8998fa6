import Verif.Spec.Race
/-
  Specification: texts that are stored already.
-/
namespace Semnet.Spec

/-- What the program yields if it can be carried out without writing to the storage, and the bit layer then; `none` if it
    comes to a write. -/
def Go.look {α : Type} (cfg : Cfg) : Go α → Store → Layer → Option (Out α × Layer)
  | .ok a, _, m => some (.ok a, m)
  | .err e, _, m => some (.err e, m)
  | .panic, _, m => some (.panic, m)
  | .spin, _, m => some (.spin, m)
  | .op (.has x) k, s, m => Go.look cfg (k (s.step cfg (.has x)).1) s m
  | .op (.readSources x) k, s, m => Go.look cfg (k (s.step cfg (.readSources x)).1) s m
  | .op (.readTargets x) k, s, m => Go.look cfg (k (s.step cfg (.readTargets x)).1) s m
  | .op (.getReference x) k, s, m => Go.look cfg (k (s.step cfg (.getReference x)).1) s m
  | .op _ _, _, _ => none
  | .getMem k, s, m => Go.look cfg (k m) s m
  | .setMem u k, s, m => Go.look cfg k s (m.set u)

/-- The order in which the storage answers a call does not change as long as the answer has the same members. -/
def Steady (cfg : Cfg) : Prop := ∀ s s' o l, cfg.ord s o l = cfg.ord s' o l

/-- Object `o` with property `p` is stored and found: looking the pair up in the storage ends at a complete detail, and
    nothing has to be added on the way. -/
def Familiar (cfg : Cfg) (fuel : Nat) (w : World) (o p : GoStr) : Prop :=
  ∃ d m, Go.look cfg (Detail.provide fuel o p) w.store w.mem = some (.ok d, m) ∧ d.remark ≠ 0

/-- The call needs no new text but such that is `known`.  `AddFactToStory` is allowed for storages with node 0 only, because it fails for all
    others; `CreateChildStory` is not, since it fails or depends on what other threads hang on node 0.  If there is a node 0,
    `GetStory` is only asked about remarks that have a story: from others it strays from node 0 to node 0. -/
def Call.WarmBy (cfg : Cfg) (known : GoStr → GoStr → Prop) (log : List Entry) : Call → Prop
  | .createStory o p => known o p
  | .addRemark h p => ∀ e, log[h]? = some e → known e.object p
  | .addFact _ o p => cfg.zero = true ∧ known o p
  | .addChild _ _ _ => False
  | .query h q => cfg.zero = true → q = .getStory → ∀ e, log[h]? = some e → e.opener ≠ none
  | .getRemark _ => True

/-- The call does not need new text. -/
def Call.Warm (cfg : Cfg) (fuel : Nat) (w : World) (log : List Entry) (c : Call) : Prop := c.WarmBy cfg (Familiar cfg fuel w) log

/-- The call has a result: it creates a remark, or has an expected answer. -/
def Call.Due (cfg : Cfg) (log : List Entry) : Call → Prop
  | .createStory _ _ => True
  | .addRemark h _ => h < log.length
  | .addFact h _ _ => cfg.zero = true ∧ h < log.length
  | .addChild _ _ _ => False
  | .query h q => ∃ e a, log[h]? = some e ∧ e.answer log q = some a
  | .getRemark i => ∃ e ∈ log, Remark.getIdentifier e.handle = i

/-- The move needs no new text but such that is `known`, and no storage call fails. -/
def Move.WarmBy (cfg : Cfg) (known : GoStr → GoStr → Prop) (log : List Entry) : Move → Prop
  | .begin _ c => c.WarmBy cfg known log
  | .step _ f => f = .ok
  | _ => True

/-- The move does not need new text, and no storage call fails. -/
def Move.Warm (cfg : Cfg) (fuel : Nat) (w : World) (log : List Entry) (t : Move) : Prop := t.WarmBy cfg (Familiar cfg fuel w) log

/-- None of the moves needs text that is not there in the state `st` in which they start. -/
def WarmMoves (cfg : Cfg) (fuel : Nat) (home : Nat → Nat) (st : State) (ts : List Move) : Prop :=
  ∀ ts1 t ts2, ts = ts1 ++ t :: ts2 → t.Warm cfg fuel st.world ((Crowd.start st).moves cfg fuel home ts1).log

/-- the same of an endless run -/
def WarmRun (cfg : Cfg) (fuel : Nat) (home : Nat → Nat) (st : State) (s : Nat → Move) : Prop :=
  ∀ n, (s n).Warm cfg fuel st.world ((Crowd.start st).run cfg fuel home s n).log

end Semnet.Spec
