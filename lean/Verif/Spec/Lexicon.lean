import Verif.Spec.Machine
/-
  Specification: the abstract machine for arbitrary texts.

  Words can be refused, because a character that continues the binary code of a word's first character blocks the
  word.  The machine keeps a lexicon: the characters seen, the first characters of the words entered, and the
  beginnings of the phrases entered.  It knows nothing of nodes, edges and references.
-/
namespace Semnet.Spec

/-- the words of a text: what is between its spaces -/
def words : List Char → List (List Char)
  | [] => [[]]
  | c :: cs => if c = ' ' then [] :: words cs else
    match words cs with
    | [] => [[c]]
    | w :: ws => (c :: w) :: ws

structure Lexicon where
  /-- the characters seen -/
  used : List Char
  /-- the first characters of words entered, as often as the word was entered from scratch -/
  heads : List Char
  /-- the beginnings of the phrases entered -/
  phrases : List (List (List Char))
  deriving DecidableEq

/-- How a word starts. -/
inductive Start
  /-- with a character that begins no other code: the word is entered from scratch -/
  | fresh
  /-- with a character that begins other codes and has exactly one word: the word is looked up -/
  | known
  /-- otherwise: the word is refused -/
  | dead
  deriving DecidableEq

/-- the number of bits that continue the code of `c` to the beginning of another code -/
def Lexicon.branches (l : Lexicon) (c : Char) : Nat :=
  (['0', '1'].filter fun d => l.used.any fun b => (code c ++ [d]).isPrefixOf (code b)).length

def Lexicon.start (l : Lexicon) (c : Char) : Start :=
  if l.branches c = 0 then .fresh
  else if l.branches c = 1 ∧ l.heads.count c = 1 then .known
  else .dead

def Lexicon.see (l : Lexicon) (u : List Char) : Lexicon := { l with used := u ++ l.used }
def Lexicon.enter (l : Lexicon) (c : Char) : Lexicon := { l with heads := c :: l.heads }
def Lexicon.keep (l : Lexicon) (ws : List (List Char)) : Lexicon := { l with phrases := ws :: l.phrases }

/-- Entering a word: the lexicon afterwards, and how the word started if it is accepted. -/
def Lexicon.word (l : Lexicon) : List Char → Lexicon × Option Start
  | [] => (l, none)
  | c :: u =>
    match (l.see [c]).start c with
    | .fresh => (((l.see [c]).enter c).see u, some .fresh)
    | .known => ((l.see [c]).see u, some .known)
    | .dead => (l.see [c], none)

/-- Entering the remaining words of a phrase after `before`; beginnings of phrases are looked up unless the phrase is
    `new`. -/
def Lexicon.rest (new : Bool) : Lexicon → List (List Char) → List (List Char) → Lexicon × Verdict
  | l, _, [] => (l, .created)
  | l, before, w :: ws =>
    if !new && l.phrases.contains (before ++ [w]) then l.rest new (before ++ [w]) ws
    else match l.word w with
      | (l1, none) => (l1, .panic)
      | (l1, some _) => (l1.keep (before ++ [w])).rest new (before ++ [w]) ws

/-- Entering a phrase. -/
def Lexicon.phrase (l : Lexicon) : List (List Char) → Lexicon × Verdict
  | [] => (l, .error)
  | w :: ws =>
    match l.word w with
    | (l1, none) => (l1, .error)
    | (l1, some s) => (l1.keep [w]).rest (s == .fresh) [w] ws

/-- Entering object and property. -/
def Lexicon.pair (l : Lexicon) (o p : List (List Char)) : Lexicon × Verdict :=
  match l.phrase o with
  | (l1, .created) => l1.phrase p
  | r => r

end Semnet.Spec
