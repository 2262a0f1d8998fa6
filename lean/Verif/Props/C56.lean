import Verif.Proof.Final
import Verif.Props.C54
/- C56: a call that was refused is refused for ever. -/
namespace Semnet.Props
open Spec Sample

/-- the events of commands in moods -/
def events (es : List ((Nat → Cfg) × Cmd)) : List ((Nat → Cfg) × Event) := es.map fun e => (e.1, e.2.event)

/-- A creating call returned no remark in a fault-free history.  Whatever calls follow it and in whatever moods the
    storage is, the same call never returns a remark again. -/
theorem C56_refusals_are_final_moody {cfg : Cfg} {fuel : Nat} {es es' : List ((Nat → Cfg) × Cmd)} {g g' : Nat → Cfg} {c : Cmd}
    {k : Call} (h : CalmMoods cfg fuel (events (es ++ (g, c) :: es'))) (hk : c.call = some k)
    (hp : k.pair (moodily cfg fuel (events es)).log ≠ none)
    (hr : ¬ ∃ r, ((k.prog fuel (moodily cfg fuel (events es)).log).runs g Go.noFault
      (moodily cfg fuel (events es)).world).1 = .ok (some r))
    (hg' : Suits cfg g') :
    ¬ ∃ r, ((k.prog fuel (moodily cfg fuel (events (es ++ (g, c) :: es'))).log).runs g' Go.noFault
      (moodily cfg fuel (events (es ++ (g, c) :: es'))).world).1 = .ok (some r) := by
  have hev : c.event = .call k Go.noFault := by unfold Cmd.event; rw [hk]
  have hmem : (g, Event.call k Go.noFault) ∈ events (es ++ (g, c) :: es') := by
    rw [← hev]
    exact List.mem_map.2 ⟨(g, c), by simp, rfl⟩
  have ht : ∀ t ∈ k.texts, t.length < fuel :=
    h.calm.budget.2 _ (List.mem_map.2 ⟨_, hmem, rfl⟩)
  have hsub : ∀ e ∈ events es, e ∈ events (es ++ (g, c) :: es') := by
    intro e he
    unfold events at he ⊢
    rw [List.map_append]
    exact List.mem_append_left _ he
  have h0 : CalmMoods cfg fuel (events es) := by
    refine ⟨⟨h.calm.dup, ⟨h.calm.budget.1, ?_⟩, ?_⟩, fun e he => h.suits e (hsub e he)⟩
    · intro e he
      obtain ⟨x, hx, rfl⟩ := List.mem_map.1 he
      exact h.calm.budget.2 _ (List.mem_map.2 ⟨x, hsub x hx, rfl⟩)
    · intro e he
      obtain ⟨x, hx, rfl⟩ := List.mem_map.1 he
      exact h.calm.calm _ (List.mem_map.2 ⟨x, hsub x hx, rfl⟩)
  have h1 := C54_same_verdicts h0 (h.suits _ hmem) hk ht hp .created
  have hn : (scribe cfg.zero (es.map Prod.snd)).note c ≠ none := by
    intro e
    exact hp ((scribe_pair (scribe_moody h0).notes hk).trans (by rw [e]; rfl))
  obtain ⟨l, hl⟩ := C54_log_grows cfg fuel (events es) (events ((g, c) :: es'))
  have happ : events es ++ events ((g, c) :: es') = events (es ++ (g, c) :: es') := by simp [events]
  rw [happ] at hl
  have hp' : k.pair (moodily cfg fuel (events (es ++ (g, c) :: es'))).log ≠ none := by
    rw [hl]
    cases k with
    | createStory o p => exact hp
    | addRemark i p | addFact i o p | addChild i o p =>
      simp only [Call.pair, ne_eq, Option.map_eq_none_iff, List.getElem?_eq_none_iff] at hp ⊢
      rw [List.length_append]
      omega
    | query i q => exact hp
    | getRemark i => exact hp
  have h2 := C54_same_verdicts h hg' hk ht hp' .created
  have hf := scribe_final (cs' := es'.map Prod.snd) hn fun hj => hr (h1.2 hj)
  intro hc
  refine hf ?_
  have := h2.1 hc
  rw [List.map_append, List.map_cons] at this
  exact this

/-- The same for a storage that keeps its habits: a creating call that returned no remark never returns one again,
    however often it is retried and whatever is called in between. -/
theorem C56_refusals_are_final {cfg : Cfg} {fuel : Nat} {cs cs' : List Cmd} {c : Cmd} {k : Call}
    (h : Calm cfg fuel ((cs ++ c :: cs').map Cmd.event)) (hk : c.call = some k)
    (hp : k.pair (after cfg fuel (cs.map Cmd.event)).log ≠ none)
    (hr : ¬ ∃ r, ((k.prog fuel (after cfg fuel (cs.map Cmd.event)).log).exec cfg (after cfg fuel (cs.map Cmd.event)).world).1 =
      .ok (some r)) :
    ¬ ∃ r, ((k.prog fuel (after cfg fuel ((cs ++ c :: cs').map Cmd.event)).log).exec cfg
      (after cfg fuel ((cs ++ c :: cs').map Cmd.event)).world).1 = .ok (some r) := by
  have ev : ∀ l : List Cmd, moodily cfg fuel (events (l.map fun c => (fun _ => cfg, c))) = after cfg fuel (l.map Cmd.event) := by
    intro l
    rw [← C54_ordinary]
    simp [events, Function.comp_def]
  have em : (cs ++ c :: cs').map (fun c => ((fun _ => cfg : Nat → Cfg), c)) =
      cs.map (fun c => (fun _ => cfg, c)) ++ (fun _ => cfg, c) :: cs'.map (fun c => (fun _ => cfg, c)) := by simp
  have hm : CalmMoods cfg fuel (events ((cs ++ c :: cs').map fun c => (fun _ => cfg, c))) := by
    refine ⟨?_, fun e he => ?_⟩
    · have : (events ((cs ++ c :: cs').map fun c => ((fun _ => cfg : Nat → Cfg), c))).map Prod.snd = (cs ++ c :: cs').map Cmd.event := by
        simp [events, Function.comp_def]
      rw [this]
      exact h
    · simp only [events, List.map_map, List.mem_map] at he
      obtain ⟨x, _, rfl⟩ := he
      exact fun _ => rfl
  rw [em] at hm
  have := C56_refusals_are_final_moody (g' := fun _ => cfg) hm hk (by rw [ev]; exact hp)
    (by rw [ev, runs_const]; exact hr) (fun _ => rfl)
  rw [← em, ev, runs_const] at this
  exact this

/-! ### what is not true -/

/-- whether `CreateStory` with these texts would return a remark now -/
def accepts (cfg : Cfg) (cs : List Cmd) (o p : String) : Bool :=
  match ((Call.createStory (bytes o) (bytes p)).prog fuel (after cfg fuel (cs.map Cmd.event)).log).exec cfg
    (after cfg fuel (cs.map Cmd.event)).world with
  | (.ok (some _), _) => true
  | _ => false

/-- Acceptance is not final: a call that has just succeeded may be refused when it is repeated at once. -/
theorem C56_success_is_not_final :
    accepts cfgA [] "1 1 b" "7" = true ∧ accepts cfgA [.createStory "1 1 b".toList "7".toList] "1 1 b" "7" = false := by
  decide +kernel

/-- It matters that the refused call was made.  After these two stories `CreateStory("2 1", "7")` is refused.  If it is
    not made, and the story of "d" is created instead, it is accepted; if it is made, it is refused after the story of
    "d" too. -/
theorem C56_only_what_was_tried :
    let cs : List Cmd := [.createStory "2 1".toList "7".toList, .createStory "b".toList "c".toList]
    let d : Cmd := .createStory "d".toList "7".toList
    accepts cfgA cs "2 1" "7" = false ∧
    accepts cfgA (cs ++ [d]) "2 1" "7" = true ∧
    accepts cfgA (cs ++ [.createStory "2 1".toList "7".toList, d]) "2 1" "7" = false := by
  decide +kernel

/-! ### example -/

/-- "a" continues the code of "0", so the call below is refused; other calls follow -/
def retried : List Cmd := [.createStory "a".toList "0".toList, .reopen, .createStory "7".toList "b".toList]

example : Calm cfgA fuel (([] ++ Cmd.createStory "a".toList "0".toList :: retried).map Cmd.event) ∧
    accepts cfgA [] "a" "0" = false ∧ accepts cfgA (.createStory "a".toList "0".toList :: retried) "a" "0" = false ∧
    accepts cfgA [] "0" "a" = true ∧
    (after cfgA fuel ((.createStory "a".toList "0".toList :: retried).map Cmd.event)).log.length = 1 := by
  refine ⟨⟨rfl, ⟨by decide, by decide +kernel⟩, ?_⟩, by decide +kernel, by decide +kernel, by decide +kernel, by decide +kernel⟩
  intro e he
  simp [retried, Cmd.event, Cmd.call] at he
  rcases he with rfl | rfl | rfl | rfl <;> trivial

end Semnet.Props
