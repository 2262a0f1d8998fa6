import Verif.Proof.Scribe
import Verif.Props.Sample
/- C22: well-formed text is accepted.  False of the code in general. -/
namespace Semnet.Props
open Spec Sample

theorem not_gap_one {x : UInt8} (h : x ≠ 32) : ¬ Gap [x] := by
  rintro (h1 | ⟨a, h1⟩ | ⟨a, h1⟩ | ⟨a, b, h1⟩)
  · cases h1
  · cases h1; exact h rfl
  · cases a with
    | nil => cases h1; exact h rfl
    | cons y a => simp at h1
  · cases a <;> simp at h1

/-- Witness: the first call on an empty storage is `CreateStory("a", "0")`, and it returns an error: "a" is stored
    as 1100001, whose first six bits are the code of "0". -/
theorem C22_not_in_general :
    ((Graph.createStory fuel (bytes "a") (bytes "0")).exec cfgA (after cfgA fuel []).world).1 =
      .err .characterTargetWords ∧ ¬ Gap (bytes "a") ∧ ¬ Gap (bytes "0") := by
  exact ⟨by decide +kernel, not_gap_one (by decide), not_gap_one (by decide)⟩

/-- What holds: let no word start have a code that is a proper prefix of the code of a character in use.  Then after
    every calm history over this alphabet a creating call without empty words succeeds: `CreateStory`,
    `AddRemarkToFact`, and on storages with a node 0 also `AddFactToStory`.  (Missing: other alphabets, for which it
    is false; `CreateChildStory`, which fails for other reasons, see C26.) -/
theorem C22_well_formed_text_accepted_partial {A : Alphabet} (hA : A.Free) {cfg : Cfg} {fuel : Nat} {es : List Event}
    (h : Calm cfg fuel es) (hes : ∀ e ∈ es, ∀ t ∈ e.texts, A.Over t) {c : Call}
    (ht : ∀ t ∈ c.texts, t.length < fuel ∧ A.Over t ∧ ¬ Gap t)
    (hc : (∃ o p, c = .createStory o p) ∨ (∃ i p, c = .addRemark i p ∧ i < (after cfg fuel es).log.length) ∨
      (∃ i o p, c = .addFact i o p ∧ i < (after cfg fuel es).log.length ∧ cfg.zero = true)) :
    ∃ r w, (c.prog fuel (after cfg fuel es).log).exec cfg (after cfg fuel es).world = (.ok (some r), w) := by
  rcases hc with ⟨o, p, rfl⟩ | ⟨i, p, rfl, hi⟩ | ⟨i, o, p, rfl, hi, hz⟩
  · exact hA.accepts h hes ht (by simp [Call.pair]) (fun σ h => h)
  · exact hA.accepts h hes ht (by simp [Call.pair, hi]) (fun σ h => h)
  · exact hA.accepts h hes ht (by simp [Call.pair, hi]) (fun σ h => by rw [extraErr, hz] at h; cases h)

/-- In particular if all characters other than spaces have codes of the same length, e.g. ASCII letters. -/
theorem C22_same_bit_length_partial {cfg : Cfg} {fuel : Nat} {es : List Event} (h : Calm cfg fuel es) (n : Nat)
    (hes : ∀ e ∈ es, ∀ t ∈ e.texts, ∃ s : String, t = bytes s ∧ ∀ c ∈ s.toList, c = ' ' ∨ (code c).length = n)
    (o p : String) (ho : (bytes o).length < fuel ∧ ¬ Gap (bytes o)) (hp : (bytes p).length < fuel ∧ ¬ Gap (bytes p))
    (ho' : ∀ c ∈ o.toList, c = ' ' ∨ (code c).length = n) (hp' : ∀ c ∈ p.toList, c = ' ' ∨ (code c).length = n) :
    ∃ r w, (Graph.createStory fuel (bytes o) (bytes p)).exec cfg (after cfg fuel es).world = (.ok r, w) := by
  obtain ⟨r, w, h'⟩ := C22_well_formed_text_accepted_partial (Alphabet.same_free n) h
    (fun e he t ht => by obtain ⟨s, rfl, h'⟩ := hes e he t ht; exact Alphabet.same_over h')
    (c := .createStory (bytes o) (bytes p))
    (fun t ht => by
      simp only [Call.texts, List.mem_cons, List.not_mem_nil, or_false] at ht
      rcases ht with rfl | rfl
      · exact ⟨ho.1, Alphabet.same_over ho', ho.2⟩
      · exact ⟨hp.1, Alphabet.same_over hp', hp.2⟩) (.inl ⟨_, _, rfl⟩)
  simp only [Call.prog, exec_bind] at h'
  generalize (Graph.createStory fuel (bytes o) (bytes p)).exec cfg (after cfg fuel es).world = out at h'
  obtain ⟨x, w'⟩ := out
  cases x with
  | ok r' => exact ⟨r', w', rfl⟩
  | _ => cases (Prod.mk.inj h').1

/-- texts of ASCII letters and spaces, with any other calls before -/
theorem C22_letters_partial {cfg : Cfg} {fuel : Nat} {es : List Event} (h : Calm cfg fuel es)
    (hes : ∀ e ∈ es, ∀ t ∈ e.texts, ∃ s : String, t = bytes s ∧ ∀ c ∈ s.toList, c = ' ' ∨ c.isAlpha)
    (o p : String) (ho : (bytes o).length < fuel ∧ ¬ Gap (bytes o)) (hp : (bytes p).length < fuel ∧ ¬ Gap (bytes p))
    (ho' : ∀ c ∈ o.toList, c = ' ' ∨ c.isAlpha) (hp' : ∀ c ∈ p.toList, c = ' ' ∨ c.isAlpha) :
    ∃ r w, (Graph.createStory fuel (bytes o) (bytes p)).exec cfg (after cfg fuel es).world = (.ok r, w) :=
  C22_same_bit_length_partial h 7
    (fun e he t ht => by
      obtain ⟨s, rfl, h'⟩ := hes e he t ht
      exact ⟨s, rfl, fun c hc => (h' c hc).imp_right code_letter⟩)
    o p ho hp (fun c hc => (ho' c hc).imp_right code_letter) (fun c hc => (hp' c hc).imp_right code_letter)

/-- the history `es` (it has a failed call among its events) is over ASCII letters -/
example : ∀ e ∈ es, ∀ t ∈ e.texts, ∃ s : String, t = bytes s ∧ ∀ c ∈ s.toList, c = ' ' ∨ c.isAlpha := by
  have key : ∀ s ∈ ["ab", "c", "d a", "a", "", "ba"], ∀ c ∈ s.toList, c = ' ' ∨ c.isAlpha := by decide +kernel
  have mem : ∀ e ∈ es, ∀ t ∈ e.texts, t ∈ ["ab", "c", "d a", "a", "", "ba"].map bytes := by decide +kernel
  intro e he t ht
  obtain ⟨s, hs, rfl⟩ := List.mem_map.1 (mem e he t ht)
  exact ⟨s, rfl, key s hs⟩

/-- a free alphabet with codes of different lengths: digits in words, letters at the start of words -/
example : (Alphabet.mk (fun c => c ∈ ['a', 'b', '0', '1']) (fun c => c ∈ ['a', 'b'])).Free := by
  have key : ∀ a ∈ ['a', 'b'], ∀ b ∈ ['a', 'b', '0', '1'], code a <+: code b → a = b := by decide +kernel
  refine ⟨fun c h => ?_, fun a b ha hb h => key a ha b hb h⟩
  simp only [List.mem_cons, List.not_mem_nil, or_false] at h ⊢
  rcases h with rfl | rfl <;> simp

/-- Exactly when text is accepted: in every fault-free history with valid UTF-8 texts a creating call returns a remark if
    and only if the scribe of `Spec/Scribe.lean` judges so. -/
theorem C22_accepted_exactly {cfg : Cfg} {fuel : Nat} {cs : List Cmd} (h : Calm cfg fuel (cs.map Cmd.event)) {c : Cmd} {k : Call}
    (hk : c.call = some k) (ht : ∀ t ∈ k.texts, t.length < fuel)
    (hp : k.pair (after cfg fuel (cs.map Cmd.event)).log ≠ none) :
    (∃ r, ((k.prog fuel (after cfg fuel (cs.map Cmd.event)).log).exec cfg (after cfg fuel (cs.map Cmd.event)).world).1 =
      .ok (some r)) ↔ ((scribe cfg.zero cs).judge cfg.zero c).map Prod.snd = some .created :=
  scribe_iff h hk ht hp .created

example : ((scribe false []).judge false (.createStory ['a'] ['0'])).map Prod.snd = some .error ∧
    ((scribe false []).judge false (.createStory ['0'] ['a'])).map Prod.snd = some .created := by decide +kernel

end Semnet.Props
