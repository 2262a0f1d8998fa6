import Verif.Proof.Scribe
import Verif.Props.Sample
/- C12: calls do not panic.  False of the code. -/
namespace Semnet.Props
open Spec Sample

/-- Witness: on an empty storage `CreateStory("a ", "b")` panics. -/
theorem C12_trailing_space_panics :
    (((Call.createStory (bytes "a ") (bytes "b")).prog fuel []).exec cfgA (after cfgA fuel []).world).1 = .panic := by
  decide +kernel

/-- Witness: a panic on well-formed text.  After the stories ("a 1", "a") and ("b", "c"), `AddRemarkToFact("a")` on
    the first story panics. -/
theorem C12_well_formed_text_panics :
    (((Call.addRemark 0 (bytes "a")).prog fuel (after cfgA fuel
      [call (.createStory (bytes "a 1") (bytes "a")), call (.createStory (bytes "b") (bytes "c"))]).log).exec cfgA
      (after cfgA fuel
      [call (.createStory (bytes "a 1") (bytes "a")), call (.createStory (bytes "b") (bytes "c"))]).world).1 =
      .panic := by
  decide +kernel

/-- What holds: a creating call whose object and property have no spaces does not panic (missing: texts of
    several words). -/
theorem C12_single_words_do_not_panic_partial {cfg : Cfg} {fuel : Nat} {es : List Event} (h : Calm cfg fuel es)
    {c : Call} (ht : ∀ t ∈ c.texts, t.length < fuel) {o p : GoStr}
    (hc : c.pair (after cfg fuel es).log = some (o, p)) (ho : (32 : UInt8) ∉ o) (hp : (32 : UInt8) ∉ p) :
    ((c.prog fuel (after cfg fuel es).log).exec cfg (after cfg fuel es).world).1 ≠ .panic := by
  intro hx
  rcases ((h.outcome ht hc).panic hx).2 with h1 | h1
  · exact ho h1
  · exact hp h1.2

/-- Also: after a history over a prefix-free alphabet (`Alphabet.Free`) a creating call without empty words does not
    panic, whatever the number of words.  (Missing: other alphabets, for which it is false.) -/
theorem C12_free_alphabet_does_not_panic_partial {A : Alphabet} (hA : A.Free) {cfg : Cfg} {fuel : Nat}
    {es : List Event} (h : Calm cfg fuel es) (hes : ∀ e ∈ es, ∀ t ∈ e.texts, A.Over t) {c : Call}
    (ht : ∀ t ∈ c.texts, t.length < fuel ∧ A.Over t ∧ ¬ Gap t)
    (hc : (∃ o p, c = .createStory o p) ∨ (∃ i p, c = .addRemark i p ∧ i < (after cfg fuel es).log.length)) :
    ((c.prog fuel (after cfg fuel es).log).exec cfg (after cfg fuel es).world).1 ≠ .panic := by
  have : ∃ r w, (c.prog fuel (after cfg fuel es).log).exec cfg (after cfg fuel es).world = (.ok (some r), w) := by
    rcases hc with ⟨o, p, rfl⟩ | ⟨i, p, rfl, hi⟩
    · exact hA.accepts h hes ht (by simp [Call.pair]) (fun σ h => h)
    · exact hA.accepts h hes ht (by simp [Call.pair, hi]) (fun σ h => h)
  obtain ⟨r, w, h'⟩ := this
  rw [h']; intro hx; cases hx

/-- Exactly when calls panic: in every fault-free history with valid UTF-8 texts a creating call panics if and only if
    the scribe of `Spec/Scribe.lean` judges so. -/
theorem C12_panics_exactly {cfg : Cfg} {fuel : Nat} {cs : List Cmd} (h : Calm cfg fuel (cs.map Cmd.event)) {c : Cmd} {k : Call}
    (hk : c.call = some k) (ht : ∀ t ∈ k.texts, t.length < fuel)
    (hp : k.pair (after cfg fuel (cs.map Cmd.event)).log ≠ none) :
    ((k.prog fuel (after cfg fuel (cs.map Cmd.event)).log).exec cfg (after cfg fuel (cs.map Cmd.event)).world).1 = .panic ↔
      ((scribe cfg.zero cs).judge cfg.zero c).map Prod.snd = some .panic :=
  scribe_iff h hk ht hp .panic

example : ((scribe false [.createStory ['a', ' ', '1'] ['a'], .createStory ['b'] ['c']]).judge false
    (.addRemark 0 ['a', ' '])).map Prod.snd = some .panic := by decide +kernel

/-- A text with an empty word is never stored: the call returns an error or panics. -/
theorem C12_empty_words_never_stored {cfg : Cfg} {fuel : Nat} {es : List Event} (h : Calm cfg fuel es)
    {c : Call} (ht : ∀ t ∈ c.texts, t.length < fuel) {o p : GoStr}
    (hc : c.pair (after cfg fuel es).log = some (o, p)) (hg : Gap o ∨ Gap p) (x : Option RemE) :
    ((c.prog fuel (after cfg fuel es).log).exec cfg (after cfg fuel es).world).1 ≠ .ok x := by
  intro hx
  have := (h.outcome ht hc).ok x hx
  exact hg.elim this.1 this.2

example : (Call.addRemark 2 (bytes "é")).pair (after cfgA fuel es).log = some (bytes "ba", bytes "é") := by
  rw [after_es]; decide +kernel
example : Gap (bytes "a  b") := .inr (.inr (.inr ⟨bytes "a", bytes "b", by decide +kernel⟩))

end Semnet.Props
