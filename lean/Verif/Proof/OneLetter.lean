import Verif.Proof.Apart
/-
  Texts of one-letter words, for storages with any policy on existing edges.
-/
namespace Semnet
open Spec

theorem words_adjacent {cs : List Char} : ∀ w ∈ words cs, ∀ a b w', w = a :: b :: w' → ∃ u v, cs = u ++ a :: b :: v := by
  induction cs with
  | nil => intro w hw a b w' e; simp [words] at hw; subst hw; cases e
  | cons d cs ih =>
    unfold words
    by_cases h : d = ' '
    · rw [if_pos h]
      intro w hw a b w' e
      rcases List.mem_cons.1 hw with rfl | hw
      · cases e
      · obtain ⟨u, v, e'⟩ := ih w hw a b w' e
        exact ⟨d :: u, v, by rw [e']; rfl⟩
    · rw [if_neg h]
      have hst := words_starts (cs := cs)
      cases hs : words cs with
      | nil => exact absurd hs (words_ne_nil cs)
      | cons x xs =>
        rw [hs] at ih hst
        intro w hw a b w' e
        rcases List.mem_cons.1 hw with rfl | hw
        · cases e
          obtain ⟨v, hv⟩ := hst.1 (b :: w') (by simp) b w' rfl
          exact ⟨[], v, by rw [hv]; rfl⟩
        · obtain ⟨u, v, e'⟩ := ih w (by simp [hw]) a b w' e
          exact ⟨d :: u, v, by rw [e']; rfl⟩

theorem Spec.OneLetter.words {t : GoStr} (h : OneLetter t) : ∀ w ∈ splitSpace t, (runesOf w).length ≤ 1 := by
  obtain ⟨s, rfl, h⟩ := h
  rw [bytes_eq, splitSpace_chars]
  intro w hw
  obtain ⟨cs, hcs, rfl⟩ := List.mem_map.1 hw
  have hr : runesOf (cs.flatMap String.utf8EncodeChar) = cs.map (fun c => (c.val.toNat : Int)) := by
    have := runesOf_bytes (String.ofList cs)
    rwa [bytes_eq, String.toList_ofList] at this
  rw [hr, List.length_map]
  match cs, hcs with
  | [], _ => simp
  | [_], _ => simp
  | a :: b :: w', hcs =>
    obtain ⟨u, v, e⟩ := words_adjacent _ hcs a b w' rfl
    rcases h u a b v e with e | e
    · exact absurd e (words_mem _ hcs a (by simp)).2
    · exact absurd e (words_mem _ hcs b (by simp)).2

/-- all characters -/
def anyChar : Alphabet := ⟨fun _ => True, fun _ => True⟩

theorem Spec.OneLetter.any {t : GoStr} (h : OneLetter t) : anyChar.Over t := by
  obtain ⟨s, rfl, _⟩ := h
  exact ⟨s, rfl, fun _ _ => .inr trivial, fun _ _ _ _ => trivial, fun _ _ _ _ _ => trivial⟩

theorem oneLetter_sound {A : Alphabet} {cfg : Cfg} {fuel : Nat} {es : List Event} (hb : Budget fuel es)
    (hc : ∀ e ∈ es, e.Calm) (h1 : ∀ e ∈ es, ∀ t ∈ e.texts, OneLetter t) (hA : ∀ e ∈ es, ∀ t ∈ e.texts, A.Over t) :
    Sound cfg (alphaLim A True fuel) (after cfg fuel es) :=
  calm_events (.inr trivial) (alpha_fits A hb) es (.init cfg _) hc
    fun e he t h' => TextOK.alpha (hA e he t h') (hb.2 e he t h') fun _ => (h1 e he t h').words

theorem oneLetter_readable {cfg : Cfg} {fuel : Nat} {es : List Event} (hb : Budget fuel es)
    (hc : ∀ e ∈ es, e.Calm) (h1 : ∀ e ∈ es, ∀ t ∈ e.texts, OneLetter t) {e : Entry}
    (he : e ∈ (after cfg fuel es).log) :
    Readable cfg fuel (after cfg fuel es).log (after cfg fuel es).world e := by
  obtain ⟨σ, hs, _⟩ := (oneLetter_sound hb hc h1 fun e he t h' => (h1 e he t h').any).holds (ne_nil_of_mem he)
  exact hs.readable (alpha_fits _ hb) he

theorem oneLetter_accepts {A : Alphabet} (hA : A.Free) {cfg : Cfg} {fuel : Nat} {es : List Event}
    (hb : Budget fuel es) (hc : ∀ e ∈ es, e.Calm) (h1 : ∀ e ∈ es, ∀ t ∈ e.texts, OneLetter t ∧ A.Over t) {c : Call}
    (ht : ∀ t ∈ c.texts, t.length < fuel ∧ OneLetter t ∧ A.Over t ∧ ¬ Gap t)
    (hpair : c.pair (after cfg fuel es).log ≠ none) (hx : ∀ σ, ¬ extraErr cfg σ c) :
    ∃ r w, (c.prog fuel (after cfg fuel es).log).exec cfg (after cfg fuel es).world = (.ok (some r), w) := by
  cases hp : c.pair (after cfg fuel es).log with
  | none => exact absurd hp hpair
  | some q =>
    obtain ⟨o, p⟩ := q
    obtain ⟨σ, σ', hi, hcl, hk, _, he⟩ := (oneLetter_sound hb hc (fun e he t h' => (h1 e he t h').1)
      (fun e he t h' => (h1 e he t h').2)).creates (.inr trivial) (alpha_fits A hb)
      (fun t h' => TextOK.alpha (ht t h').2.2.1 (ht t h').1 fun _ => (ht t h').2.1.words) hp
    obtain ⟨r, w, h1, _⟩ := hA.ends (pair_over hk (alpha_log cfg fuel fun e he t h' => (h1 e he t h').2)
      (fun t h' => (ht t h').2.2) hp) hx he
    exact ⟨r, w, h1⟩

end Semnet
