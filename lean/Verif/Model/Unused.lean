import Verif.Model.Remark
/-
  Functions that nothing in the repository calls.
-/
namespace Semnet

namespace Character

/-- `character.Entity.MarkWord` (`character/entity.go:98-101`). -/
def markWord (e : CharE) (sourceIdentifier : Nat) : Go Unit := Go.connect sourceIdentifier e.word

end Character

namespace Word

/-- `word.Entity.GetSourceCharacter` (`word/entity.go:39-51`). -/
def getSourceCharacter (e : WordE) : Go Nat := do
  let sourceCharacters ← Go.readSources e.character
  match sourceCharacters with
  | [s] => pure s
  | _ => Go.err .wordSourceCharacters

end Word

namespace Phrase

/-- `phrase.Entity.GetSourceWord` (`phrase/entity.go:49-61`). -/
def getSourceWord (e : PhraseE) : Go Nat := do
  let sourceWords ← Go.readSources e.word
  match sourceWords with
  | [s] => pure s
  | _ => Go.err .phraseSourceWords

/-- `phrase.Entity.Mark` (`phrase/entity.go:127-130`). -/
def mark (e : PhraseE) (sourceIdentifier : Nat) : Go Unit := Go.connect sourceIdentifier e.detail

end Phrase

namespace Detail

/-- `detail.Aggregate.ExtendObject` (`detail/aggregate.go:19-21`); `none` is a nil aggregate. -/
def extendObject (_ : DetailE) : Go (Option DetailE) := pure none

/-- `detail.Aggregate.ExtendProperty` (`detail/aggregate.go:23-25`). -/
def extendProperty (_ : DetailE) : Go (Option DetailE) := pure none

end Detail

namespace Story

/-- `story.Entity.GetSourceTree` (`story/entity.go:126-138`). -/
def getSourceTree (e : StoryE) : Go Nat := do
  let sources ← Go.readSources e.tree
  match sources with
  | [s] => pure s
  | _ => Go.err .storySourceTrees

end Story

namespace Remark

/-- `remark.Entity.CreateNextStoryFact` (`remark/entity.go:78-91`); `none` is a nil aggregate. -/
def createNextStoryFact (e : RemE) : Go (Option FactAgg) := do
  let targetFacts ← Go.readTargets e.fact
  match targetFacts with
  | [_] => pure none
  | _ => Go.err .remarkTargetFacts

end Remark
end Semnet
