import Verif.Spec.History
/-
  Specification: histories in which, beside the API, the repositories of the text layers are used directly.
-/
namespace Semnet.Spec

/-- One use of the library: an event at the API, or a call of `Provide` of one of the four text layers. -/
inductive Use
  | event (e : Event)
  | character (r : Rune)
  | word (s : GoStr)
  | phrase (s : GoStr)
  | detail (o p : GoStr)

/-- What a direct call of `Provide` returned, and the text given to it. -/
inductive Part
  | character (a : CharAgg) (r : Rune)
  | word (e : WordE) (s : GoStr)
  | phrase (e : PhraseE) (s : GoStr)
  | detail (d : DetailE) (o p : GoStr)
  deriving DecidableEq

/-- a process on a storage, the log of the API, and what the layers returned -/
structure Shop where
  state : State
  parts : List Part
  deriving DecidableEq

/-- keep the world; add the part if there is one -/
def Shop.got {α : Type} (s : Shop) (part : α → Part) : Out α × World → Shop
  | (.ok a, w) => ⟨⟨w, s.state.log⟩, s.parts ++ [part a]⟩
  | (_, w) => ⟨⟨w, s.state.log⟩, s.parts⟩

/-- one use -/
def Shop.use (cfg : Cfg) (fuel : Nat) (s : Shop) : Use → Shop
  | .event e => ⟨s.state.event cfg fuel e, s.parts⟩
  | .character r => s.got (.character · r) ((Character.provide r).exec cfg s.state.world)
  | .word t => s.got (.word · t) ((Word.provide fuel t).exec cfg s.state.world)
  | .phrase t => s.got (.phrase · t) ((Phrase.provide fuel t).exec cfg s.state.world)
  | .detail o p => s.got (.detail · o p) ((Detail.provide fuel o p).exec cfg s.state.world)

/-- after any number of uses, starting with an empty storage -/
def shop (cfg : Cfg) (fuel : Nat) (us : List Use) : Shop := us.foldl (Shop.use cfg fuel) ⟨State.init cfg, []⟩

/-- Allowed uses: nothing fails; texts fit the loop budget; runes are int32; a word given to the word layer
    has no space in it (the phrase layer never passes one). -/
def Use.Fine (fuel : Nat) : Use → Prop
  | .event e => e.Calm ∧ ∀ t ∈ e.texts, t.length < fuel
  | .character r => r < 2 ^ 31
  | .word s => s.length < fuel ∧ 32 ∉ s
  | .phrase s => s.length < fuel
  | .detail o p => o.length < fuel ∧ p.length < fuel

/-- The part yields the text it was made from: directly, and after `Fetch` by the node it offers to the layer
    above. -/
def Part.Reads (cfg : Cfg) (fuel : Nat) (w : World) : Part → Prop
  | .character a r =>
    (∃ w', (Character.extract fuel a).exec cfg w = (.ok r, w')) ∧
    ∃ e, a.character = some e ∧ ∃ w', (Character.fetch e.word).exec cfg w = (.ok a, w')
  | .word e s =>
    (∃ w', (Word.extract fuel e).exec cfg w = (.ok (asText s), w')) ∧
    ∃ w', (Word.fetch e.phrase).exec cfg w = (.ok e, w')
  | .phrase e s =>
    (∃ w', (Phrase.extract fuel e).exec cfg w = (.ok (asText s), w')) ∧
    ∃ w', (Phrase.fetch e.detail).exec cfg w = (.ok e, w')
  | .detail d o p =>
    (∃ w', (Detail.getObjectAndProperty fuel d).exec cfg w = (.ok (asText o, asText p), w')) ∧
    ∃ d' w', (Detail.fetch d.remark).exec cfg w = (.ok d', w') ∧
      ∃ w'', (Detail.getObjectAndProperty fuel d').exec cfg w' = (.ok (asText o, asText p), w'')

end Semnet.Spec
