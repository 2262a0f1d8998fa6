import Verif.Proof.Apart
import Verif.Props.Sample
/- C31: equal text is shared.  False of the code. -/
namespace Semnet.Props
open Spec Sample

/-- the number of words in the storage: nodes connected to the word class node -/
def wordCount (st : State) : Nat := (st.world.store.sources Class.wordId).length
/-- the number of phrases in the storage -/
def phraseCount (st : State) : Nat := (st.world.store.sources Class.phraseId).length

def again (n : Nat) : List Event := List.replicate n (call (.createStory (bytes "a") (bytes "b")))

/-- Witness: every repetition of `CreateStory("a", "b")` succeeds and creates two more words and two more phrases. -/
theorem C31_equal_text_stored_again :
    (wordCount (after cfgA fuel (again 1)), phraseCount (after cfgA fuel (again 1))) = (2, 2) ∧
    (wordCount (after cfgA fuel (again 2)), phraseCount (after cfgA fuel (again 2))) = (4, 4) ∧
    (wordCount (after cfgA fuel (again 3)), phraseCount (after cfgA fuel (again 3))) = (6, 6) ∧
    (after cfgA fuel (again 3)).log.length = 3 := by
  decide +kernel

/-- the detail a remark hangs on connects its object phrase with its property phrase -/
def phrasesOf (s : Store) (r : RemE) : List Nat :=
  let detail := s.back ((s.sources r.detail).headD 0)
  s.sources detail ++ s.targets detail

/-- Not only sometimes: let no word start have a code that is a proper prefix of the code of a character in use, e.g.
    only letters in use.  Then no phrase is ever used twice: after every calm history over this alphabet the n remarks
    have 2n different phrase nodes, whatever texts are equal. -/
theorem C31_no_phrase_shared {A : Alphabet} (hA : A.Free) {cfg : Cfg} {fuel : Nat} {es : List Event}
    (h : Calm cfg fuel es) (hes : ∀ e ∈ es, ∀ t ∈ e.texts, A.Over t) :
    let st := after cfg fuel es
    (st.log.flatMap fun e => phrasesOf st.world.store e.handle).Nodup ∧
    (st.log.flatMap fun e => phrasesOf st.world.store e.handle).length = 2 * st.log.length :=
  ⟨(Apart.after hA h hes).nodup, (Apart.after hA h hes).length⟩

/-- three remarks with the same text have six phrases -/
example : (let st := after cfgA fuel (again 3)
    st.log.flatMap fun e => phrasesOf st.world.store e.handle) = [80, 108, 148, 162, 202, 216] := by
  decide +kernel

/-- the hypotheses are met by repeated calls -/
example : Calm cfgA fuel (again 3) ∧ ∀ e ∈ again 3, ∀ t ∈ e.texts, (Alphabet.same 7).Over t := by
  refine ⟨⟨rfl, ⟨by decide, by decide +kernel⟩, by simp [again, call, Event.Calm]⟩, ?_⟩
  have mem : ∀ e ∈ again 3, ∀ t ∈ e.texts, t ∈ ["a", "b"].map bytes := by decide +kernel
  intro e he t ht
  obtain ⟨s, hs, rfl⟩ := List.mem_map.1 (mem e he t ht)
  exact Alphabet.same_over ((by decide +kernel : ∀ s ∈ ["a", "b"], ∀ c ∈ s.toList, c = ' ' ∨ (code c).length = 7) s hs)

/-- Sharing does happen outside such alphabets: the third story below uses the phrases of the first. -/
example : (let st := after cfgA fuel [call (.createStory (bytes "0") (bytes "1")),
      call (.createStory (bytes "a") (bytes "b")), call (.createStory (bytes "0") (bytes "1"))]
    st.log.map fun e => phrasesOf st.world.store e.handle) = [[73, 94], [141, 162], [73, 94]] := by
  decide +kernel

end Semnet.Props
