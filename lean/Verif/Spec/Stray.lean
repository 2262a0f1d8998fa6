import Verif.Spec.History
/-
  Specification: calls made on whatever `GetRemark` returns for an arbitrary identifier.

  `Graph.GetRemark` accepts identifiers of nodes that are no remarks (C34), so a caller may hold a handle made of other nodes.
  An errand fetches a handle by identifier and makes one call on it.  The log is not extended: nothing is promised about
  what an errand returns.
-/
namespace Semnet.Spec

/-- what is done with the handle -/
inductive Errand
  | addRemark (property : GoStr)
  | addFact (object property : GoStr)
  | addChild (object property : GoStr)
  | query (q : Query)
  deriving DecidableEq

/-- the two API calls: `GetRemark`, and one on the handle it returned -/
def Errand.prog (fuel : Nat) (x : Nat) : Errand → Go (Option RemE)
  | .addRemark p => do let a ← Graph.getRemark x; let r ← Remark.addRemarkToFact fuel a p; pure (some r)
  | .addFact o p => do let a ← Graph.getRemark x; let r ← Remark.addFactToStory fuel a o p; pure (some r)
  | .addChild o p => do let a ← Graph.getRemark x; let r ← Remark.createChildStory fuel a o p; pure (some r)
  | .query q => do let a ← Graph.getRemark x; let _ ← q.ask fuel a; pure none

def Errand.texts : Errand → List GoStr
  | .addRemark p => [p]
  | .addFact o p => [o, p]
  | .addChild o p => [o, p]
  | .query _ => []

/-- an event, or an errand -/
inductive Deed
  | event (e : Event)
  | errand (identifier : Nat) (c : Errand)

def Deed.texts : Deed → List GoStr
  | .event e => e.texts
  | .errand _ c => c.texts

def State.deed (cfg : Cfg) (fuel : Nat) (st : State) : Deed → State
  | .event e => st.event cfg fuel e
  | .errand x c => ⟨((c.prog fuel x).exec cfg st.world).2, st.log⟩

def State.deeds (cfg : Cfg) (fuel : Nat) (st : State) (ds : List Deed) : State := ds.foldl (State.deed cfg fuel) st

/-- The identifiers errands are about: for AddRemarkToFact, those of nodes that are not marked as remarks; for AddFactToStory
    and CreateChildStory, all but those of two class nodes.  Queries are made once a remark exists. -/
def Errand.Fair (st : State) (x : Nat) : Errand → Prop
  | .addRemark _ => Class.remarkId ∉ st.world.store.targets x
  | .addFact _ _ => x ≠ 1 ∧ x ≠ 2
  | .addChild _ _ => x ≠ 1
  | .query _ => st.log ≠ []

def Deed.Fair (st : State) : Deed → Prop
  | .event e => e.Calm
  | .errand x c => c.Fair st x

/-- every deed is fair when it is done -/
def Fair (cfg : Cfg) (fuel : Nat) : State → List Deed → Prop
  | _, [] => True
  | st, d :: ds => d.Fair st ∧ Fair cfg fuel (st.deed cfg fuel d) ds

/-- The same as `Calm`, with errands. -/
structure Errands (cfg : Cfg) (fuel : Nat) (ds : List Deed) : Prop where
  dup : cfg.dup = .ignore
  budget : 31 ≤ fuel
  texts : ∀ d ∈ ds, ∀ t ∈ d.texts, t.length < fuel
  fair : Fair cfg fuel (State.init cfg) ds

end Semnet.Spec
