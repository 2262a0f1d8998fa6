import Verif.Proof.Machine
import Verif.Props.Sample
/- C38: over a prefix-free alphabet the API is a small machine. -/
namespace Semnet.Props
open Spec Sample

/-- The remarks created in a fault-free history over a prefix-free alphabet are those that the machine of
    `Spec/Machine.lean` creates, with the same texts and the same story openers, in the same order. -/
theorem C38_same_remarks {A : Alphabet} (hA : A.Free) {cfg : Cfg} {fuel : Nat} {es : List Event} (h : Calm cfg fuel es)
    (hes : ∀ e ∈ es, ∀ t ∈ e.texts, A.Over t) :
    (after cfg fuel es).log.map Entry.item = (machine cfg.zero es).items :=
  (machine_runs hA h hes).1.symm

/-- Every creating call ends as the machine says: with a remark, with an error or with a panic. -/
theorem C38_same_verdicts {A : Alphabet} (hA : A.Free) {cfg : Cfg} {fuel : Nat} {es : List Event} (h : Calm cfg fuel es)
    (hes : ∀ e ∈ es, ∀ t ∈ e.texts, A.Over t) {c : Call} (ht : ∀ t ∈ c.texts, A.Over t ∧ t.length < fuel) {v : Verdict}
    (hv : (machine cfg.zero es).judge cfg.zero c = some v) :
    v.Is ((c.prog fuel (after cfg fuel es).log).exec cfg (after cfg fuel es).world).1 := by
  obtain ⟨hm, hl⟩ := machine_runs hA h hes
  obtain ⟨⟨o, p⟩, hq, hv⟩ := Option.map_eq_some_iff.1 hv
  rw [machine_pair hm c] at hq
  rw [← hv]
  exact verdict_exact hA h.dup (alpha_fits A h.budget) (alpha_sound h hes) (alpha_log cfg fuel hes) hl ht hq

/-- Every query on every remark is answered as the machine says. -/
theorem C38_same_answers {A : Alphabet} (hA : A.Free) {cfg : Cfg} {fuel : Nat} {es : List Event} (h : Calm cfg fuel es)
    (hes : ∀ e ∈ es, ∀ t ∈ e.texts, A.Over t) {e : Entry} (he : e ∈ (after cfg fuel es).log) (q : Query) :
    ((machine cfg.zero es).reply cfg.zero e.item q).Is (after cfg fuel es).log
      ((q.ask fuel e.handle).exec cfg (after cfg fuel es).world).1 := by
  obtain ⟨hm, hl⟩ := machine_runs hA h hes
  obtain ⟨σ, hs, hc⟩ := h.holds he
  exact reply_exact h.budget.fits hs hc hm (fun hz => by rw [hl hz, hs.T0]) he q

/-- the machine on the sample histories: which calls are accepted, and what it replies -/
example : (Alphabet.same 7).Free ∧ (machine true esB).items.length = 4 ∧ (machine true esB).links = 2 ∧
    (machine true esB).judge true (.addChild 0 (bytes "d") (bytes "e")) = some .error ∧
    (machine true esB).judge true (.addFact 3 (bytes "d") (bytes "e")) = some .created ∧
    (machine true esB).judge true (.createStory (bytes "d e ") (bytes "e")) = some .panic ∧
    (machine true esB).reply true ⟨bytes "c", bytes "b", some 2⟩ .getStory = .text (bytes "c a ") ∧
    (machine false es).items.length = 3 := by
  refine ⟨Alphabet.same_free 7, ?_⟩
  decide +kernel

end Semnet.Props
