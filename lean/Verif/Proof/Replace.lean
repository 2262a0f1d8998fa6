import Verif.Proof.Scribe
import Verif.Proof.Growth
import Verif.Spec.Replace
/- Invalid bytes in first words (for C44). -/
namespace Semnet
open Spec

theorem wordProvide_asText (fuel : Nat) (w : GoStr) : Word.provide fuel (asText w) = Word.provide fuel w := by
  unfold Word.provide
  rw [show runesOf (asText w) = runesOf w from runes_twice w]

theorem split_replaced (t : GoStr) : splitSpace (asText t) = (splitSpace t).map asText := split_asText t

theorem phraseProvide_asText (fuel : Nat) {t : GoStr} (h : TailValid t) :
    Phrase.provide fuel (asText t) = Phrase.provide fuel t := by
  unfold Phrase.provide
  rw [split_replaced]
  unfold TailValid at h
  cases hs : splitSpace t with
  | nil => rfl
  | cons w ws =>
    rw [hs] at h
    have : ws.map asText = ws := by
      have h' : ∀ w ∈ ws, asText w = id w := fun w hw => h w hw
      rw [List.map_congr_left h', List.map_id]
    simp only [List.map_cons, this, Phrase.provideFirstElement, wordProvide_asText]

theorem detailProvide_asText (fuel : Nat) {o p : GoStr} (ho : TailValid o) (hp : TailValid p) :
    Detail.provide fuel (asText o) (asText p) = Detail.provide fuel o p := by
  unfold Detail.provide
  rw [phraseProvide_asText fuel ho, phraseProvide_asText fuel hp]

theorem detailProvide_asText' (fuel : Nat) (o : GoStr) {p : GoStr} (hp : TailValid p) :
    Detail.provide fuel o (asText p) = Detail.provide fuel o p := by
  unfold Detail.provide
  rw [phraseProvide_asText fuel hp]

theorem prog_replaced (fuel : Nat) (log : List Entry) (c : Call) (h : ∀ t ∈ c.texts, TailValid t) :
    c.replaced.prog fuel log = c.prog fuel log := by
  cases c with
  | createStory o p =>
    simp only [Call.replaced, Call.prog, Graph.createStory,
      detailProvide_asText fuel (h o (by simp [Call.texts])) (h p (by simp [Call.texts]))]
  | addRemark i p =>
    simp only [Call.replaced, Call.prog, Remark.addRemarkToFact, detailProvide_asText' fuel _ (h p (by simp [Call.texts]))]
  | addFact i o p =>
    simp only [Call.replaced, Call.prog, Remark.addFactToStory,
      detailProvide_asText fuel (h o (by simp [Call.texts])) (h p (by simp [Call.texts]))]
  | addChild i o p =>
    simp only [Call.replaced, Call.prog, Remark.createChildStory,
      detailProvide_asText fuel (h o (by simp [Call.texts])) (h p (by simp [Call.texts]))]
  | query => rfl
  | getRemark => rfl

theorem entry_replaced (log : List Entry) (r : RemE) (c : Call) : c.replaced.entry log r = c.entry log r := by
  cases c <;> simp only [Call.replaced, Call.entry, asText_twice]

theorem call_replaced (cfg : Cfg) (fuel : Nat) (st : State) (c : Call) (f : Nat → Fate) (h : ∀ t ∈ c.texts, TailValid t) :
    st.call cfg fuel c.replaced f = st.call cfg fuel c f := by
  unfold State.call
  rw [prog_replaced fuel st.log c h]
  simp only [entry_replaced]

theorem event_replaced (cfg : Cfg) (fuel : Nat) (st : State) (e : Event) (h : ∀ t ∈ e.texts, TailValid t) :
    st.event cfg fuel e.replaced = st.event cfg fuel e := by
  cases e with
  | call c f => exact call_replaced cfg fuel st c f h
  | crash c f n =>
    simp only [Event.replaced, State.event, prog_replaced fuel st.log c h]
  | reopen => rfl

theorem events_replaced (cfg : Cfg) (fuel : Nat) : ∀ (es : List Event) (st : State),
    (∀ e ∈ es, ∀ t ∈ e.texts, TailValid t) → st.events cfg fuel (es.map Event.replaced) = st.events cfg fuel es := by
  intro es
  induction es with
  | nil => intro st _; rfl
  | cons e es ih =>
    intro st h
    rw [List.map_cons, events_cons, events_cons, event_replaced cfg fuel st e (h e (by simp)),
      ih _ fun a ha => h a (by simp [ha])]

/-- replaced text is the text of some characters -/
theorem asText_chars (t : GoStr) : ∃ u, asText t = utf8 u := by
  suffices ∀ rs : List Int, (∀ r ∈ rs, validRune r = true) → ∃ u, stringOf rs = utf8 u from this _ (runesOf_valid t)
  intro rs
  induction rs with
  | nil => exact fun _ => ⟨[], rfl⟩
  | cons r rs ih =>
    intro h
    obtain ⟨u, hu⟩ := ih fun a ha => h a (by simp [ha])
    refine ⟨charOf r (h r (by simp)) :: u, ?_⟩
    unfold utf8 at hu ⊢
    rw [List.flatMap_cons, ← hu, charOf_encode]
    rfl

theorem replaced_texts {e : Event} {t : GoStr} (h : t ∈ e.replaced.texts) : ∃ t₀ ∈ e.texts, t = asText t₀ := by
  have call : ∀ c : Call, t ∈ c.replaced.texts → ∃ t₀ ∈ c.texts, t = asText t₀ := by
    intro c h
    cases c <;> simp [Call.replaced, Call.texts] at h ⊢ <;> exact h
  cases e with
  | call c f => exact call c h
  | crash c f n => exact call c h
  | reopen => cases h

theorem replaced_calm {e : Event} (h : e.Calm) : e.replaced.Calm := by
  cases e with
  | call c f => exact h
  | crash => exact h
  | reopen => exact h

theorem replaced_budget {fuel : Nat} {es : List Event} (h : Budget fuel es) : Budget (3 * fuel) (es.map Event.replaced) := by
  have := h.1
  refine ⟨by omega, fun e he t ht => ?_⟩
  obtain ⟨a, ha, rfl⟩ := List.mem_map.1 he
  obtain ⟨t₀, h0, rfl⟩ := replaced_texts ht
  have := h.2 a ha t₀ h0
  have := asText_length t₀
  omega

end Semnet
