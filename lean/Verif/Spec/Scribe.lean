import Verif.Spec.Lexicon
/-
  Specification: the abstract machine for arbitrary texts, its commands and its run.

  A scribe keeps the remarks made so far, the number of links of the shared chain (see `Spec/Machine.lean`) and a
  lexicon.  A text is a list of characters.
-/
namespace Semnet.Spec

/-- the bytes of a text -/
def utf8 (t : List Char) : GoStr := t.flatMap String.utf8EncodeChar

/-- What a client does: calls with texts, and reopening the storage in a new process. -/
inductive Cmd
  | createStory (object property : List Char)
  | addRemark (h : Nat) (property : List Char)
  | addFact (h : Nat) (object property : List Char)
  | addChild (h : Nat) (object property : List Char)
  | query (h : Nat) (q : Query)
  | getRemark (id : Nat)
  | reopen

/-- the call that a command makes -/
def Cmd.call : Cmd → Option Call
  | .createStory o p => some (.createStory (utf8 o) (utf8 p))
  | .addRemark h p => some (.addRemark h (utf8 p))
  | .addFact h o p => some (.addFact h (utf8 o) (utf8 p))
  | .addChild h o p => some (.addChild h (utf8 o) (utf8 p))
  | .query h q => some (.query h q)
  | .getRemark x => some (.getRemark x)
  | .reopen => none

/-- the event that a command is; storage operations do not fail -/
def Cmd.event (c : Cmd) : Event :=
  match c.call with
  | some k => .call k Go.noFault
  | none => .reopen

/-- What the scribe knows of a remark. -/
structure Note where
  object : List Char
  property : List Char
  /-- position of the remark that opened its story; `none` for facts added by AddFactToStory -/
  opener : Option Nat
  deriving DecidableEq

def Note.item (n : Note) : Item := ⟨utf8 n.object, utf8 n.property, n.opener⟩

structure Scribe where
  notes : List Note
  links : Nat
  lex : Lexicon
  deriving DecidableEq

/-- the scribe's notes, as a machine -/
def Scribe.machine (s : Scribe) : Machine := ⟨s.notes.map Note.item, s.links⟩

/-- the note on the remark that a command is to make -/
def Scribe.note (s : Scribe) : Cmd → Option Note
  | .createStory o p => some ⟨o, p, some s.notes.length⟩
  | .addRemark h p => s.notes[h]?.map fun n => ⟨n.object, p, n.opener⟩
  | .addFact h o p => s.notes[h]?.map fun _ => ⟨o, p, none⟩
  | .addChild h o p => s.notes[h]?.map fun _ => ⟨o, p, some s.notes.length⟩
  | _ => none

/-- refused whatever the texts: there is no node 0, or the shared chain branches already -/
def Scribe.refuses (zero : Bool) (s : Scribe) : Cmd → Bool
  | .addFact _ _ _ => !zero
  | .addChild _ _ _ => !zero || decide (2 ≤ s.links)
  | _ => false

/-- The lexicon after a command that is to make a remark, and how the command ends.  The texts are entered first, and
    stay in the lexicon if the command is refused afterwards. -/
def Scribe.judge (zero : Bool) (s : Scribe) (c : Cmd) : Option (Lexicon × Verdict) :=
  (s.note c).map fun n =>
    match s.lex.pair (words n.object) (words n.property) with
    | (l, .created) => (l, if s.refuses zero c then .error else .created)
    | r => r

/-- how the shared chain grows -/
def Cmd.link (n : Nat) : Cmd → Nat
  | .addFact _ _ _ => n + 1
  | .addChild _ _ _ => if n = 1 then 2 else n
  | _ => n

def Scribe.step (zero : Bool) (s : Scribe) (c : Cmd) : Scribe :=
  match s.judge zero c with
  | some (l, .created) => ⟨s.notes ++ (s.note c).toList, c.link s.links, l⟩
  | some (l, _) => { s with lex := l }
  | none => s

/-- the scribe after a history -/
def scribe (zero : Bool) (cs : List Cmd) : Scribe := cs.foldl (Scribe.step zero) ⟨[], 0, ⟨[], [], []⟩⟩

end Semnet.Spec
