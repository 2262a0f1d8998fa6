import Verif.Proof.OneLetter
import Verif.Props.C01
/- C32: correctness does not depend on how Connect treats duplicates.  False of the code. -/
namespace Semnet.Props
open Spec Sample

/-- a storage whose `Connect` adds a second, parallel edge -/
def cfgP : Cfg := ⟨1, false, .parallel, fun _ _ l => l, fun _ _ _ => .refl _⟩
/-- a storage whose `Connect` refuses an existing edge -/
def cfgR : Cfg := ⟨1, false, .reject, fun _ _ l => l, fun _ _ _ => .refl _⟩

/-- Witness: on a storage with parallel edges `CreateStory("ab", "c")` succeeds but its remark cannot be read: the
    call panics.  The reason is that "a" and "b" are connected twice (`word/factory.go:86`, `word/element.go:86`), and the error of
    the step back from "b" is dropped. -/
theorem C32_parallel_edges_unreadable :
    ∃ r w, (Graph.createStory fuel (bytes "ab") (bytes "c")).exec cfgP (after cfgP fuel []).world = (.ok r, w) ∧
      ((Remark.getObjectAndProperty fuel r).exec cfgP w).1 = .panic := by
  refine ⟨⟨9, 11, 12, 13⟩,
    ((Graph.createStory fuel (bytes "ab") (bytes "c")).exec cfgP (after cfgP fuel []).world).2, ?_, ?_⟩
  · have h : ((Graph.createStory fuel (bytes "ab") (bytes "c")).exec cfgP (after cfgP fuel []).world).1 =
        .ok ⟨9, 11, 12, 13⟩ := by decide +kernel
    exact Prod.ext h rfl
  · decide +kernel

/-- Witness: on a storage that refuses duplicate edges `CreateStory("ab", "c")` panics. -/
theorem C32_refused_edges_panic :
    ((Graph.createStory fuel (bytes "ab") (bytes "c")).exec cfgR (after cfgR fuel []).world).1 = .panic := by
  decide +kernel

/-- What holds: among the storages that ignore duplicate edges nothing depends on the storage.  Whatever identifiers
    `Connect` consumes, whether there is a node 0 and however sources and targets are ordered, a remark returned by
    `CreateStory` reads back.  (Missing: the other two policies, for which it is false.) -/
theorem C32_ignored_edges_partial (arrow : Nat) (zero : Bool) (ord : Store → Op → List Nat → List Nat) (hord : ∀ s o l, (ord s o l).Perm l)
    {fuel : Nat} {es : List Event} (hb : Budget fuel es) (hc : ∀ e ∈ es, e.Calm) (o p : String)
    (ho : (bytes o).length < fuel) (hp : (bytes p).length < fuel) {r : RemE} {w : World}
    (hr : (Graph.createStory fuel (bytes o) (bytes p)).exec ⟨arrow, zero, .ignore, ord, hord⟩
      (after ⟨arrow, zero, .ignore, ord, hord⟩ fuel es).world = (.ok r, w)) :
    ∃ w', (Remark.getObjectAndProperty fuel r).exec ⟨arrow, zero, .ignore, ord, hord⟩ w =
      (.ok (bytes o, bytes p), w') :=
  C01_create_story_round_trip ⟨rfl, hb, hc⟩ o p ho hp hr

/-- What holds for every policy: if all words of the history have one character, every remark returned by a creating
    call answers its queries as expected and is found by its identifier - whether `Connect` ignores, duplicates or
    refuses existing edges.  (Missing: longer words.) -/
theorem C32_one_letter_words_partial {cfg : Cfg} {fuel : Nat} {es : List Event} (hb : Budget fuel es)
    (hc : ∀ e ∈ es, e.Calm) (h1 : ∀ e ∈ es, ∀ t ∈ e.texts, OneLetter t) {e : Entry}
    (he : e ∈ (after cfg fuel es).log) :
    Readable cfg fuel (after cfg fuel es).log (after cfg fuel es).world e :=
  oneLetter_readable hb hc h1 he

/-- Such texts are also accepted, whatever the policy: `CreateStory` and `AddRemarkToFact` succeed, if no word start
    has a code that is a proper prefix of the code of a character in use. -/
theorem C32_one_letter_words_accepted_partial {A : Alphabet} (hA : A.Free) {cfg : Cfg} {fuel : Nat} {es : List Event}
    (hb : Budget fuel es) (hc : ∀ e ∈ es, e.Calm) (h1 : ∀ e ∈ es, ∀ t ∈ e.texts, OneLetter t ∧ A.Over t) {c : Call}
    (ht : ∀ t ∈ c.texts, t.length < fuel ∧ OneLetter t ∧ A.Over t ∧ ¬ Gap t)
    (hk : (∃ o p, c = .createStory o p) ∨ (∃ i p, c = .addRemark i p ∧ i < (after cfg fuel es).log.length)) :
    ∃ r w, (c.prog fuel (after cfg fuel es).log).exec cfg (after cfg fuel es).world = (.ok (some r), w) := by
  rcases hk with ⟨o, p, rfl⟩ | ⟨i, p, rfl, hi⟩
  · exact oneLetter_accepts hA hb hc h1 ht (by simp [Call.pair]) (fun σ h => h)
  · exact oneLetter_accepts hA hb hc h1 ht (by simp [Call.pair, hi]) (fun σ h => h)

theorem oneLetter_of {s : String} (h : ∀ i, i < s.toList.length → s.toList[i]? = some ' ' ∨ s.toList[i + 1]? = some ' ' ∨
    s.toList[i + 1]? = none) : OneLetter (bytes s) := by
  refine ⟨s, rfl, fun u a b v e => ?_⟩
  have := h u.length (by rw [e]; simp)
  rw [e] at this
  simpa using this

def esOne : List Event :=
  [call (.createStory (bytes "a b") (bytes "c")), call (.addRemark 0 (bytes "a d")),
   call (.createStory (bytes "a b") (bytes "a"))]

/-- the hypotheses are met, and the storages do behave differently (above); all three calls succeed on both -/
example : Budget fuel esOne ∧ (∀ e ∈ esOne, e.Calm) ∧ (∀ e ∈ esOne, ∀ t ∈ e.texts, OneLetter t) ∧
    (after cfgP fuel esOne).log.length = 3 ∧ (after cfgR fuel esOne).log.length = 3 := by
  refine ⟨⟨by decide, by decide +kernel⟩, by simp [esOne, call, Event.Calm], ?_, by decide +kernel, by decide +kernel⟩
  have mem : ∀ e ∈ esOne, ∀ t ∈ e.texts, t ∈ ["a b", "c", "a d", "a"].map bytes := by decide +kernel
  intro e he t ht
  obtain ⟨s, hs, rfl⟩ := List.mem_map.1 (mem e he t ht)
  exact oneLetter_of ((by decide +kernel : ∀ s ∈ ["a b", "c", "a d", "a"], ∀ i, i < s.toList.length →
    s.toList[i]? = some ' ' ∨ s.toList[i + 1]? = some ' ' ∨ s.toList[i + 1]? = none) s hs)

end Semnet.Props
