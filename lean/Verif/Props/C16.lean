import Verif.Props.C15
import Verif.Props.C22
/- C16: work can continue after a crash.  False of the code in general. -/
namespace Semnet.Props
open Spec Sample

def esPair : List Event :=
  [call (.createStory (bytes "0") (bytes "1")), call (.createStory (bytes "a") (bytes "b"))]

/-- Witness: `CreateStory("1", "0")` would succeed.  The process dies during the call, after 93 storage calls,
    and the graph is reopened.  Now the same call fails: the pair is left half-built. -/
theorem C16_half_built_pair :
    succeeds ((Graph.createStory fuel (bytes "1") (bytes "0")).exec cfgA (after cfgA fuel esPair).world) = true ∧
    ((Graph.createStory fuel (bytes "1") (bytes "0")).exec cfgA (after cfgA fuel
      (esPair ++ [.crash (.createStory (bytes "1") (bytes "0")) Go.noFault 93])).world).1 = .err .noNode := by
  decide +kernel

/-- Witness: a crash during the very first call leaves one bit node; the next calls fail. -/
theorem C16_half_built_bits :
    succeeds ((Graph.createStory fuel (bytes "1") (bytes "0")).exec cfgA (after cfgA fuel []).world) = true ∧
    ((Graph.createStory fuel (bytes "1") (bytes "0")).exec cfgA (after cfgA fuel
      [.crash (.createStory (bytes "1") (bytes "0")) Go.noFault 28]).world).1 = .err .wrongBitNodes := by
  decide +kernel

/-- What holds, on storages without node 0: let no word start have a code that is a proper prefix of the code of a
    character in use.  After a calm beginning, storage calls may fail with or without effect, processes may crash and
    be restarted, in any order and number.  Then `CreateStory` and `AddRemarkToFact` without empty words succeed, and
    the new remark and all earlier ones read back as expected.  (Missing: other alphabets and a crash of the very first
    call, for which it is false; storages with node 0.) -/
theorem C16_continue_after_crash_partial {A : Alphabet} (hA : A.Free) {cfg : Cfg} (hz : cfg.zero = false) {fuel : Nat}
    {es es' : List Event} (h : Stormy cfg fuel es es') (hes : ∀ e ∈ es ++ es', ∀ t ∈ e.texts, A.Over t) {c : Call}
    (ht : ∀ t ∈ c.texts, t.length < fuel ∧ A.Over t ∧ ¬ Gap t)
    (hc : (∃ o p, c = .createStory o p) ∨ (∃ i p, c = .addRemark i p ∧ i < (after cfg fuel (es ++ es')).log.length)) :
    ∃ e, (after cfg fuel (es ++ es' ++ [call c])).log = (after cfg fuel (es ++ es')).log ++ [e] ∧
      c.entry (after cfg fuel (es ++ es')).log e.handle = some e ∧
      ∀ e' ∈ (after cfg fuel (es ++ es' ++ [call c])).log,
        Readable cfg fuel (after cfg fuel (es ++ es' ++ [call c])).log (after cfg fuel (es ++ es' ++ [call c])).world e' := by
  have hr : ∃ r w, (c.prog fuel (after cfg fuel (es ++ es')).log).exec cfg (after cfg fuel (es ++ es')).world =
      (.ok (some r), w) := by
    rcases hc with ⟨o, p, rfl⟩ | ⟨i, p, rfl, hi⟩
    · exact hA.accepts_after hz h hes ht (by simp [Call.pair]) (fun σ h => h)
    · exact hA.accepts_after hz h hes ht (by simp [Call.pair, hi]) (fun σ h => h)
  obtain ⟨r, w, hr⟩ := hr
  have he : ∃ e, c.entry (after cfg fuel (es ++ es')).log r = some e ∧ e.handle = r := by
    rcases hc with ⟨o, p, rfl⟩ | ⟨i, p, rfl, hi⟩
    · exact ⟨_, rfl, rfl⟩
    · refine ⟨_, by simp [Call.entry, hi]; rfl, rfl⟩
  obtain ⟨e, he, rfl⟩ := he
  have hl : (after cfg fuel (es ++ es' ++ [call c])).log = (after cfg fuel (es ++ es')).log ++ [e] := by
    rw [after_append]
    simp only [State.events, List.foldl_cons, List.foldl_nil, State.event, call, State.call]
    have h1 : (Call.prog fuel (after cfg fuel (es ++ es')).log c).run cfg Go.noFault (after cfg fuel (es ++ es')).world =
      (.ok (some e.handle), w) := hr
    rw [h1]
    simp only [he]; rfl
  refine ⟨e, hl, he, fun e' he' => ?_⟩
  rw [List.append_assoc] at he' ⊢
  refine C15_success_is_never_wrong hz ⟨h.start, h.log, h.budget.1, fun a ha t htt => ?_⟩ he'
  rcases List.mem_append.1 ha with ha | ha
  · exact h.budget.2 a ha t htt
  · rw [List.mem_singleton.1 ha] at htt
    exact (ht t htt).1

/-- a crash and a failing storage call -/
def esStorm : List Event :=
  [.crash (.addRemark 0 (bytes "b")) (failAt 3) 20, .call (.createStory (bytes "b") (bytes "a")) (failAt 40)]

/-- the hypotheses are met: the history consists of letters and spaces -/
example : Stormy cfgA fuel es esStorm ∧ (∀ e ∈ es ++ esStorm, ∀ t ∈ e.texts, (Alphabet.same 7).Over t) ∧
    (Alphabet.same 7).Over (bytes "b c") ∧ ¬ Gap (bytes "b") := by
  refine ⟨⟨calmA, by rw [after_es]; decide +kernel, by decide, by decide +kernel⟩, ?_, ?_, not_gap_one (by decide)⟩
  · have key : ∀ s ∈ ["ab", "c", "d a", "a", "", "ba", "b"], ∀ c ∈ s.toList, c = ' ' ∨ (code c).length = 7 := by
      decide +kernel
    have mem : ∀ e ∈ es ++ esStorm, ∀ t ∈ e.texts, t ∈ ["ab", "c", "d a", "a", "", "ba", "b"].map bytes := by
      decide +kernel
    intro e he t ht
    obtain ⟨s, hs, rfl⟩ := List.mem_map.1 (mem e he t ht)
    exact Alphabet.same_over (key s hs)
  · exact Alphabet.same_over (by decide +kernel)

end Semnet.Props
