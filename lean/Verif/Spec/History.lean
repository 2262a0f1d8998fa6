import Verif.Model.Remark
/-
  Specification: histories of API calls and what they are expected to have stored.

  Nothing here looks inside the storage.  A history is a list of events; its effect is computed with the
  model (`Call.prog` names the API function), and beside it a *log* is kept: one entry per creating call that
  returned a remark, with the text the caller is entitled to read back (`Call.entry`).
-/
namespace Semnet.Spec

/-- The bytes of a Lean string (always valid UTF-8): a Go string a caller would normally pass. -/
def bytes (s : String) : GoStr := s.toUTF8.data.toList

/-- Go's `string([]rune(s))`: `s` with every undecodable byte replaced by U+FFFD. -/
def asText (s : GoStr) : GoStr := stringOf (runesOf s)

/-- Some word of `s` is empty: `s` is empty, starts with a space, ends with a space, or has two spaces in a
    row. -/
def Gap (s : GoStr) : Prop :=
  s = [] ∨ (∃ a, s = 32 :: a) ∨ (∃ a, s = a ++ [32]) ∨ (∃ a b, s = a ++ 32 :: 32 :: b)

/-- `s` is empty or starts with a space. -/
def LeadingGap (s : GoStr) : Prop := s = [] ∨ ∃ a, s = 32 :: a

/-- What is expected of one remark that was returned by a creating call. -/
structure Entry where
  /-- the remark returned -/
  handle : RemE
  /-- its object, as read back -/
  object : GoStr
  /-- its property, as read back -/
  property : GoStr
  /-- position in the log of the remark that opened its story; `none` for facts added by AddFactToStory,
      which the code does not attach to a story -/
  opener : Option Nat
  deriving DecidableEq

/-- Queries on a remark. -/
inductive Query
  | getObjectAndProperty | hasNextRemark | getNextRemark | hasNextFact | getNextFact | getFirstFact
  | hasNextStory | getNextStory | getStory
  deriving DecidableEq

/-- Answers. -/
inductive Answer
  | pair (object property : GoStr)
  | flag (b : Bool)
  | remark (r : RemE)
  | text (s : GoStr)
  deriving DecidableEq

/-- the API function of a query, asked of the remark `r` -/
def Query.ask (fuel : Nat) (r : RemE) : Query → Go Answer
  | .getObjectAndProperty => do let p ← Remark.getObjectAndProperty fuel r; pure (.pair p.1 p.2)
  | .hasNextRemark => do let b ← Remark.hasNextRemark r; pure (.flag b)
  | .getNextRemark => do let r' ← Remark.getNextRemark r; pure (.remark r')
  | .hasNextFact => do let b ← Remark.hasNextFact r; pure (.flag b)
  | .getNextFact => do let r' ← Remark.getNextFact r; pure (.remark r')
  | .getFirstFact => do let r' ← Remark.getFirstFact r; pure (.remark r')
  | .hasNextStory => do let b ← Remark.hasNextStory r; pure (.flag b)
  | .getNextStory => do let r' ← Remark.getNextStory r; pure (.remark r')
  | .getStory => do let s ← Output.getStory fuel r; pure (.text s)

/-- What a query on a logged remark is expected to answer.  `none`: no expectation. -/
def Entry.answer (log : List Entry) (e : Entry) : Query → Option Answer
  | .getObjectAndProperty => some (.pair e.object e.property)
  | .hasNextRemark => some (.flag false)
  | .getFirstFact => (e.opener.bind (log[·]?)).map fun e' => .remark e'.handle
  | .getStory => (e.opener.bind (log[·]?)).map fun e' => .text (e'.object ++ bytes " " ++ e'.property ++ bytes " ")
  | _ => none

/-- API calls.  A remark is named by its position in the log; a position beyond the end is no call at all. -/
inductive Call
  | createStory (object property : GoStr)
  | addRemark (remark : Nat) (property : GoStr)
  | addFact (remark : Nat) (object property : GoStr)
  | addChild (remark : Nat) (object property : GoStr)
  | query (remark : Nat) (q : Query)
  | getRemark (identifier : Nat)
  deriving DecidableEq

/-- the API function; creating calls yield the new remark -/
def Call.prog (fuel : Nat) (log : List Entry) : Call → Go (Option RemE)
  | .createStory o p => do let r ← Graph.createStory fuel o p; pure (some r)
  | .addRemark h p => match log[h]? with
    | none => pure none
    | some e => do let r ← Remark.addRemarkToFact fuel e.handle p; pure (some r)
  | .addFact h o p => match log[h]? with
    | none => pure none
    | some e => do let r ← Remark.addFactToStory fuel e.handle o p; pure (some r)
  | .addChild h o p => match log[h]? with
    | none => pure none
    | some e => do let r ← Remark.createChildStory fuel e.handle o p; pure (some r)
  | .query h q => match log[h]? with
    | none => pure none
    | some e => do let _ ← q.ask fuel e.handle; pure none
  | .getRemark i => do let _ ← Graph.getRemark i; pure none

/-- the expectation if the creating call returns `r` -/
def Call.entry (log : List Entry) (r : RemE) : Call → Option Entry
  | .createStory o p => some ⟨r, asText o, asText p, some log.length⟩
  | .addRemark h p => match log[h]? with
    | none => none
    | some e => some ⟨r, e.object, asText p, e.opener⟩
  | .addFact _ o p => some ⟨r, asText o, asText p, none⟩
  | .addChild _ o p => some ⟨r, asText o, asText p, some log.length⟩
  | .query _ _ => none
  | .getRemark _ => none

/-- the object and property of the remark that a creating call is to make -/
def Call.pair (log : List Entry) : Call → Option (GoStr × GoStr)
  | .createStory o p => some (o, p)
  | .addRemark h p => log[h]?.map fun e => (e.object, p)
  | .addFact h o p => log[h]?.map fun _ => (o, p)
  | .addChild h o p => log[h]?.map fun _ => (o, p)
  | .query _ _ => none
  | .getRemark _ => none

/-- the strings passed by the caller -/
def Call.texts : Call → List GoStr
  | .createStory o p => [o, p]
  | .addRemark _ p => [p]
  | .addFact _ o p => [o, p]
  | .addChild _ o p => [o, p]
  | .query _ _ => []
  | .getRemark _ => []

/-- A process on a storage, and the log. -/
structure State where
  world : World
  log : List Entry
  deriving DecidableEq

/-- a new graph on an empty storage -/
def State.init (cfg : Cfg) : State := ⟨World.open (Store.empty cfg), []⟩

/-- one API call; `f` decides which of its storage calls fail -/
def State.call (cfg : Cfg) (fuel : Nat) (st : State) (c : Call) (f : Nat → Fate) : State :=
  match (c.prog fuel st.log).run cfg f st.world with
  | (.ok (some r), w) => ⟨w, st.log ++ (c.entry st.log r).toList⟩
  | (_, w) => ⟨w, st.log⟩

/-- What can happen. -/
inductive Event
  /-- an API call, some of whose storage calls may fail -/
  | call (c : Call) (f : Nat → Fate)
  /-- an API call during which the process dies after `n` storage calls; then the graph is reopened -/
  | crash (c : Call) (f : Nat → Fate) (n : Nat)
  /-- a new graph on the same storage -/
  | reopen

def State.event (cfg : Cfg) (fuel : Nat) (st : State) : Event → State
  | .call c f => st.call cfg fuel c f
  | .crash c f n => ⟨World.open ((c.prog fuel st.log).crashAfter cfg n f st.world), st.log⟩
  | .reopen => ⟨World.open st.world.store, st.log⟩

def State.events (cfg : Cfg) (fuel : Nat) (st : State) (es : List Event) : State :=
  es.foldl (State.event cfg fuel) st

/-- nothing fails and nothing crashes -/
def Event.Calm : Event → Prop
  | .call _ f => f = Go.noFault
  | .crash _ _ _ => False
  | .reopen => True

/-- the strings passed by the caller -/
def Event.texts : Event → List GoStr
  | .call c _ => c.texts
  | .crash c _ _ => c.texts
  | .reopen => []

/-- only queries -/
def Event.ReadOnly : Event → Prop
  | .call (.query _ _) _ => True
  | .call (.getRemark _) _ => True
  | .crash (.query _ _) _ _ => True
  | .crash (.getRemark _) _ _ => True
  | .reopen => True
  | _ => False

/-- The loop budget `fuel` exceeds what any text of the history needs (a rune has at most 31 bits). -/
def Budget (fuel : Nat) (es : List Event) : Prop :=
  31 ≤ fuel ∧ ∀ e ∈ es, ∀ t ∈ e.texts, t.length < fuel

/-! ### abbreviations used in the theorems -/

/-- the state after a history on an empty storage -/
def after (cfg : Cfg) (fuel : Nat) (es : List Event) : State := (State.init cfg).events cfg fuel es

/-- A history without failures and crashes, on a storage whose `Connect` ignores existing edges, with a
    sufficient loop budget. -/
structure Calm (cfg : Cfg) (fuel : Nat) (es : List Event) : Prop where
  dup : cfg.dup = .ignore
  budget : Budget fuel es
  calm : ∀ e ∈ es, e.Calm

/-- A calm history that has created at least one remark, followed by any events: storage failures with or
    without effect, crashes, reopening. -/
structure Stormy (cfg : Cfg) (fuel : Nat) (es es' : List Event) : Prop where
  start : Calm cfg fuel es
  log : (after cfg fuel es).log ≠ []
  budget : Budget fuel es'

/-- The remark of entry `e` reads back as promised in `w`. -/
structure Readable (cfg : Cfg) (fuel : Nat) (log : List Entry) (w : World) (e : Entry) : Prop where
  /-- queries answer as expected -/
  ask : ∀ q a, e.answer log q = some a → ∃ w', (q.ask fuel e.handle).exec cfg w = (.ok a, w')
  /-- the identifier leads back to the remark -/
  get : ∃ w', (Graph.getRemark (Remark.getIdentifier e.handle)).exec cfg w = (.ok e.handle, w')

end Semnet.Spec
