import Verif.Spec.Alphabet
/-
  Specification: an abstract machine for the fault-free API.

  It knows nothing of nodes, edges and references.  Its state is the list of remarks returned so far (texts and the
  position of the story opener) and one number, `links`: how many facts are linked into the one chain that all
  stories share on storages with a node 0.
-/
namespace Semnet.Spec

/-! ### empty words, decidably -/

/-- a space that is followed by another one, or by nothing -/
def blanks : GoStr → Bool
  | [] => false
  | b :: s => (b == 32 && (s.head?.getD 32 == 32)) || blanks s

theorem blanks_iff {s : GoStr} : blanks s = true ↔ (∃ a, s = a ++ [32]) ∨ ∃ a b, s = a ++ 32 :: 32 :: b := by
  induction s with
  | nil => simp [blanks]
  | cons x s ih =>
    simp only [blanks, Bool.or_eq_true, Bool.and_eq_true, beq_iff_eq, ih]
    constructor
    · rintro (⟨h1, h2⟩ | ⟨a, h⟩ | ⟨a, b, h⟩)
      · subst h1
        cases s with
        | nil => exact .inl ⟨[], rfl⟩
        | cons y s =>
          simp only [List.head?_cons, Option.getD_some] at h2
          subst h2
          exact .inr ⟨[], s, rfl⟩
      · exact .inl ⟨x :: a, by rw [h]; rfl⟩
      · exact .inr ⟨x :: a, b, by rw [h]; rfl⟩
    · rintro (⟨a, h⟩ | ⟨a, b, h⟩)
      · cases a with
        | nil => cases h; exact .inl ⟨rfl, rfl⟩
        | cons y a => cases h; exact .inr (.inl ⟨a, rfl⟩)
      · cases a with
        | nil => cases h; exact .inl ⟨rfl, rfl⟩
        | cons y a => cases h; exact .inr (.inr ⟨a, b, rfl⟩)

instance (s : GoStr) : Decidable (LeadingGap s) :=
  decidable_of_iff (s.head?.getD 32 = 32) (by
    cases s with
    | nil => simp [LeadingGap]
    | cons b s =>
      simp only [LeadingGap, List.head?_cons, Option.getD_some]
      constructor
      · rintro rfl; exact .inr ⟨s, rfl⟩
      · rintro (h | ⟨a, h⟩)
        · cases h
        · cases h; rfl)

instance (s : GoStr) : Decidable (Gap s) :=
  decidable_of_iff (LeadingGap s ∨ blanks s = true) (by
    rw [blanks_iff]
    unfold LeadingGap Gap
    constructor
    · rintro ((h | h) | h | h)
      · exact .inl h
      · exact .inr (.inl h)
      · exact .inr (.inr (.inl h))
      · exact .inr (.inr (.inr h))
    · rintro (h | h | h | h)
      · exact .inl (.inl h)
      · exact .inl (.inr h)
      · exact .inr (.inl h)
      · exact .inr (.inr h))

/-! ### the machine -/

/-- What the machine knows of a remark. -/
structure Item where
  object : GoStr
  property : GoStr
  /-- position of the remark that opened its story; `none` for facts added by AddFactToStory -/
  opener : Option Nat
  deriving DecidableEq

def Entry.item (e : Entry) : Item := ⟨e.object, e.property, e.opener⟩

structure Machine where
  items : List Item
  links : Nat
  deriving DecidableEq

/-- How a creating call ends. -/
inductive Verdict
  | created | error | panic
  deriving DecidableEq

/-- object and property of the remark that a creating call is to make -/
def Machine.pair (m : Machine) : Call → Option (GoStr × GoStr)
  | .createStory o p => some (o, p)
  | .addRemark h p => m.items[h]?.map fun i => (i.object, p)
  | .addFact h o p => m.items[h]?.map fun _ => (o, p)
  | .addChild h o p => m.items[h]?.map fun _ => (o, p)
  | .query _ _ => none
  | .getRemark _ => none

/-- the item of the remark that a creating call makes -/
def Machine.item (m : Machine) : Call → Option Item
  | .createStory o p => some ⟨o, p, some m.items.length⟩
  | .addRemark h p => m.items[h]?.map fun i => ⟨i.object, p, i.opener⟩
  | .addFact _ o p => some ⟨o, p, none⟩
  | .addChild _ o p => some ⟨o, p, some m.items.length⟩
  | .query _ _ => none
  | .getRemark _ => none

/-- calls that are refused whatever their texts: there is no node 0, or the shared chain branches already -/
def Machine.refuses (zero : Bool) (m : Machine) : Call → Bool
  | .addFact _ _ _ => !zero
  | .addChild _ _ _ => !zero || decide (2 ≤ m.links)
  | _ => false

/-- how a creating call with these texts ends -/
def verdict (o p : GoStr) (refused : Bool) : Verdict :=
  if LeadingGap o then .error else if Gap o then .panic else if LeadingGap p then .error else if Gap p then .panic
  else if refused then .error else .created

/-- how the shared chain grows -/
def Call.link (n : Nat) : Call → Nat
  | .addFact _ _ _ => n + 1
  | .addChild _ _ _ => if n = 1 then 2 else n
  | _ => n

/-- the verdict on a call; `none` if it is not a creating call on an existing remark -/
def Machine.judge (zero : Bool) (m : Machine) (c : Call) : Option Verdict :=
  (m.pair c).map fun q => verdict q.1 q.2 (m.refuses zero c)

def Machine.call (zero : Bool) (m : Machine) (c : Call) : Machine :=
  if m.judge zero c = some .created then ⟨m.items ++ (m.item c).toList, c.link m.links⟩ else m

def Machine.event (zero : Bool) (m : Machine) : Event → Machine
  | .call c _ => m.call zero c
  | .crash _ _ _ => m
  | .reopen => m

/-- the machine after a history -/
def machine (zero : Bool) (es : List Event) : Machine := es.foldl (Machine.event zero) ⟨[], 0⟩

/-! ### queries -/

/-- What a query replies. -/
inductive Reply
  | pair (object property : GoStr)
  | flag (b : Bool)
  /-- the remark at this position -/
  | item (k : Nat)
  /-- the class nodes 4, 5, 6, 7 in the guise of a remark -/
  | classes
  | text (s : GoStr)
  | error
  deriving DecidableEq

def Machine.reply (zero : Bool) (m : Machine) (i : Item) : Query → Reply
  | .getObjectAndProperty => .pair i.object i.property
  | .hasNextRemark => .flag false
  | .getNextRemark => .error
  | .hasNextFact => if zero then .flag (m.links != 0) else .error
  | .getNextFact => .error
  | .hasNextStory => if zero then .flag (m.links != 0) else .error
  | .getNextStory => if zero && m.links == 1 then .classes else .error
  | .getFirstFact => match i.opener with
    | some k => .item k
    | none => if m.links = 1 then .classes else .error
  | .getStory => match i.opener.bind (m.items[·]?) with
    | some j => .text (j.object ++ bytes " " ++ j.property ++ bytes " ")
    | none => .error

/-- the outcome of a query that the reply stands for -/
def Reply.Is (log : List Entry) (out : Out Answer) : Reply → Prop
  | .pair o p => out = .ok (.pair o p)
  | .flag b => out = .ok (.flag b)
  | .item k => ∃ e, log[k]? = some e ∧ out = .ok (.remark e.handle)
  | .classes => out = .ok (.remark ⟨4, 5, 6, 7⟩)
  | .text s => out = .ok (.text s)
  | .error => ∃ x, out = .err x

/-- the outcome of a creating call that the verdict stands for -/
def Verdict.Is (out : Out (Option RemE)) : Verdict → Prop
  | .created => ∃ r, out = .ok (some r)
  | .error => ∃ x, out = .err x
  | .panic => out = .panic

/-! ### the number of links in any fault-free history -/

/-- `links` counted along a history, according to which calls did return a remark -/
def State.tally (cfg : Cfg) (fuel : Nat) (s : State × Nat) (e : Event) : State × Nat :=
  (s.1.event cfg fuel e, match e with
    | .call c _ => if (s.1.event cfg fuel e).log.length = s.1.log.length then s.2 else c.link s.2
    | _ => s.2)

def links (cfg : Cfg) (fuel : Nat) (es : List Event) : Nat := (es.foldl (State.tally cfg fuel) (State.init cfg, 0)).2

/-- how many facts `AddFactToStory` has returned in a history -/
def State.countFact (cfg : Cfg) (fuel : Nat) (s : State × Nat) (e : Event) : State × Nat :=
  (s.1.event cfg fuel e, match e with
    | .call (.addFact _ _ _) _ => if (s.1.event cfg fuel e).log.length = s.1.log.length then s.2 else s.2 + 1
    | _ => s.2)

def factsAdded (cfg : Cfg) (fuel : Nat) (es : List Event) : Nat :=
  (es.foldl (State.countFact cfg fuel) (State.init cfg, 0)).2

end Semnet.Spec
