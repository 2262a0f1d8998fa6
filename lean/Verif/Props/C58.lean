import Verif.Proof.Found
import Verif.Props.C57
/- C58: which pairs of object and property are found. -/
namespace Semnet.Props
open Spec Sample

/-! C51, C52 and C57 are about racing calls that need no new text: about pairs that are stored and found (`Spec.Familiar`,
    `Spec.FamiliarMoods`).  Whether a pair is found was a question to the storage.  Here it is answered by the record of who
    called what (`Spec.scribe`): a pair that somebody was given a remark about is found exactly if the first characters of
    both texts begin the codes of other characters and have a single word each (`Spec.Lexicon.opens`).  Every storage call
    may be answered in another order, as in C54. -/

/-- A pair that somebody was given a remark about is found, in whatever mood, if and only if both its texts are looked up. -/
theorem C58_noted_pairs_found_exactly {cfg : Cfg} {fuel : Nat} {es : List ((Nat → Cfg) × Cmd)}
    (h : CalmMoods cfg fuel (es.map fun e => (e.1, e.2.event))) {n : Note} (hn : n ∈ (scribe cfg.zero (es.map Prod.snd)).notes) :
    FamiliarMoods cfg fuel (moodily cfg fuel (es.map fun e => (e.1, e.2.event))).world (utf8 n.object) (utf8 n.property) ↔
      (scribe cfg.zero (es.map Prod.snd)).lex.opens n.object = true ∧
      (scribe cfg.zero (es.map Prod.snd)).lex.opens n.property = true := by
  refine ⟨fun hf => ?_, fun ⟨ho, hp⟩ => found_known h hn ho hp⟩
  obtain ⟨d, m, h1, _⟩ := hf (fun _ => cfg) fun _ => rfl
  obtain ⟨ht, hu⟩ := noted_text h hn
  have := known_found_ok h ht hu (fun _ => rfl) h1
  exact ⟨this.1.1, this.2.1⟩

/-- No pair is found unless both its texts are looked up and stored, whether somebody was given a remark about it or not. -/
theorem C58_found_only_if_stored {cfg : Cfg} {fuel : Nat} {es : List ((Nat → Cfg) × Cmd)}
    (h : CalmMoods cfg fuel (es.map fun e => (e.1, e.2.event))) {o p : List Char} (ho : (utf8 o).length < fuel)
    (hp : (utf8 p).length < fuel) {g : Nat → Cfg} (hg : Suits cfg g) {d m}
    (hl : Go.looks g (Detail.provide fuel (utf8 o) (utf8 p)) (moodily cfg fuel (es.map fun e => (e.1, e.2.event))).world.store
      (moodily cfg fuel (es.map fun e => (e.1, e.2.event))).world.mem = some (.ok d, m)) :
    (scribe cfg.zero (es.map Prod.snd)).lex.opens o = true ∧ (scribe cfg.zero (es.map Prod.snd)).lex.opens p = true ∧
    words o ∈ (scribe cfg.zero (es.map Prod.snd)).lex.phrases ∧ words p ∈ (scribe cfg.zero (es.map Prod.snd)).lex.phrases := by
  have := known_found h ho hp hg hl
  exact ⟨this.1.1, this.2.1, this.1.2, this.2.2⟩

/-- The same of a storage that keeps to one order, in the words of C51 and C52. -/
theorem C58_noted_pairs_familiar_exactly {cfg : Cfg} {fuel : Nat} {cs : List Cmd} (h : Calm cfg fuel (cs.map Cmd.event))
    {n : Note} (hn : n ∈ (scribe cfg.zero cs).notes) :
    Familiar cfg fuel (after cfg fuel (cs.map Cmd.event)).world (utf8 n.object) (utf8 n.property) ↔
      (scribe cfg.zero cs).lex.opens n.object = true ∧ (scribe cfg.zero cs).lex.opens n.property = true := by
  have e1 : (cs.map fun c => ((fun _ => cfg : Nat → Cfg), c)).map (fun e => (e.1, e.2.event)) =
      (cs.map Cmd.event).map fun e => (fun _ => cfg, e) := by simp [Function.comp_def]
  have e2 : (cs.map fun c => ((fun _ => cfg : Nat → Cfg), c)).map Prod.snd = cs := by simp [Function.comp_def]
  have hm : CalmMoods cfg fuel ((cs.map fun c => ((fun _ => cfg : Nat → Cfg), c)).map fun e => (e.1, e.2.event)) := by
    rw [e1]
    refine ⟨by simpa [Function.comp_def] using h, ?_⟩
    intro e he
    obtain ⟨_, _, rfl⟩ := List.mem_map.1 he
    exact fun _ => rfl
  constructor
  · rintro ⟨d, m, h1, _⟩
    obtain ⟨ht, hu⟩ := noted_text hm (n := n) (by rw [e2]; exact hn)
    have := known_found_ok hm ht hu (g := fun _ => cfg) (d := d) (m := m) (fun _ => rfl)
      (by rw [e1, C54_ordinary, Race.looks_const]; exact h1)
    rw [e2] at this
    exact ⟨this.1.1, this.2.1⟩
  · rintro ⟨ho, hp⟩
    have := found_known hm (n := n) (by rw [e2]; exact hn) (by rw [e2]; exact ho) (by rw [e2]; exact hp)
    rw [e1, C54_ordinary] at this
    obtain ⟨d, m, h1, h2⟩ := this (fun _ => cfg) fun _ => rfl
    exact ⟨d, m, by rw [← Race.looks_const]; exact h1, h2⟩

theorem calmMoods_left {cfg : Cfg} {fuel : Nat} {es es' : List ((Nat → Cfg) × Event)} (h : CalmMoods cfg fuel (es ++ es')) :
    CalmMoods cfg fuel es := by
  refine ⟨⟨h.calm.dup, ⟨h.calm.budget.1, ?_⟩, ?_⟩, fun e he => h.suits e (List.mem_append_left _ he)⟩
  · intro e he
    obtain ⟨x, hx, rfl⟩ := List.mem_map.1 he
    exact h.calm.budget.2 _ (List.mem_map.2 ⟨x, List.mem_append_left _ hx, rfl⟩)
  · intro e he
    obtain ⟨x, hx, rfl⟩ := List.mem_map.1 he
    exact h.calm.calm _ (List.mem_map.2 ⟨x, List.mem_append_left _ hx, rfl⟩)

/-- What was found once and is not found any more is never found again, whatever is called. -/
theorem C58_lost_for_ever {cfg : Cfg} {fuel : Nat} {es es' es'' : List ((Nat → Cfg) × Cmd)}
    (h : CalmMoods cfg fuel ((es ++ es' ++ es'').map fun e => (e.1, e.2.event))) {n : Note}
    (hn : n ∈ (scribe cfg.zero (es.map Prod.snd)).notes)
    (h1 : FamiliarMoods cfg fuel (moodily cfg fuel (es.map fun e => (e.1, e.2.event))).world (utf8 n.object) (utf8 n.property))
    (h2 : ¬ FamiliarMoods cfg fuel (moodily cfg fuel ((es ++ es').map fun e => (e.1, e.2.event))).world
      (utf8 n.object) (utf8 n.property)) :
    ¬ FamiliarMoods cfg fuel (moodily cfg fuel ((es ++ es' ++ es'').map fun e => (e.1, e.2.event))).world
      (utf8 n.object) (utf8 n.property) := by
  have c2 : CalmMoods cfg fuel ((es ++ es').map fun e => (e.1, e.2.event)) := by
    rw [List.map_append] at h; exact calmMoods_left h
  have c1 : CalmMoods cfg fuel (es.map fun e => (e.1, e.2.event)) := by
    rw [List.map_append] at c2; exact calmMoods_left c2
  have n2 : n ∈ (scribe cfg.zero ((es ++ es').map Prod.snd)).notes := by
    obtain ⟨_, _, _, l, hl⟩ := steps_grown cfg.zero (es'.map Prod.snd) (scribe cfg.zero (es.map Prod.snd))
    rw [List.map_append]
    unfold scribe at hl hn ⊢
    rw [List.foldl_append, hl]
    exact List.mem_append_left _ hn
  have n3 : n ∈ (scribe cfg.zero ((es ++ es' ++ es'').map Prod.snd)).notes := by
    obtain ⟨_, _, _, l, hl⟩ := steps_grown cfg.zero (es''.map Prod.snd) (scribe cfg.zero ((es ++ es').map Prod.snd))
    rw [List.map_append (l₁ := es ++ es')]
    unfold scribe at hl n2 ⊢
    rw [List.foldl_append, hl]
    exact List.mem_append_left _ n2
  rw [C58_noted_pairs_found_exactly c1 hn] at h1
  rw [C58_noted_pairs_found_exactly c2 n2] at h2
  rw [C58_noted_pairs_found_exactly h n3]
  have g1 := scribe_grown cfg.zero (es.map Prod.snd) (es'.map Prod.snd)
  have g2 := scribe_grown cfg.zero ((es ++ es').map Prod.snd) (es''.map Prod.snd)
  rw [← List.map_append] at g1 g2
  exact fun h3 => h2 ⟨opens_between g1 g2 h1.1 h3.1, opens_between g1 g2 h1.2 h3.2⟩

/-- A race that uses only such pairs needs no new text, so all that C57 says is true of it. -/
theorem C58_race_needs_no_new_text {cfg : Cfg} {fuel : Nat} {es : List ((Nat → Cfg) × Cmd)}
    (h : CalmMoods cfg fuel (es.map fun e => (e.1, e.2.event))) (home : Nat → Nat) {ts : List (Cfg × Move)}
    (hw : ∀ ts1 t ts2, ts = ts1 ++ t :: ts2 → t.2.WarmBy cfg (scribe cfg.zero (es.map Prod.snd)).finds
      (moodyCrowd cfg fuel home (es.map fun e => (e.1, e.2.event)) ts1).log) :
    WarmFeel cfg fuel home (moodily cfg fuel (es.map fun e => (e.1, e.2.event))) ts := by
  intro ts1 t ts2 e
  refine Race.WarmBy.imp ?_ (hw ts1 t ts2 e)
  rintro o p ⟨n, hn, rfl, rfl, ho, hp⟩
  exact found_known h hn ho hp

/-- For one: every call that has a result succeeds, whatever the interleaving and whatever the order of the lists. -/
theorem C58_due_calls_succeed {cfg : Cfg} {fuel : Nat} {es : List ((Nat → Cfg) × Cmd)}
    (h : CalmMoods cfg fuel (es.map fun e => (e.1, e.2.event))) (hl : (scribe cfg.zero (es.map Prod.snd)).notes ≠ [])
    (home : Nat → Nat) {ts : List (Cfg × Move)} (hd : ∀ t ∈ ts, t.1.dup = cfg.dup)
    (ht : ∀ t ∈ ts, ∀ s ∈ t.2.texts, s.length < fuel)
    (hw : ∀ ts1 t ts2, ts = ts1 ++ t :: ts2 → t.2.WarmBy cfg (scribe cfg.zero (es.map Prod.snd)).finds
      (moodyCrowd cfg fuel home (es.map fun e => (e.1, e.2.event)) ts1).log) {i : Nat} {b : Begun}
    (hb : (moodyCrowd cfg fuel home (es.map fun e => (e.1, e.2.event)) ts).cur i = some b) (hdue : b.call.Due cfg b.log)
    {o : Out Yield} (ho : Go.end b.prog = some o) :
    (∃ r e, o = .ok (.created r) ∧
      b.call.entry (moodyCrowd cfg fuel home (es.map fun e => (e.1, e.2.event)) ts).log r = some e) ∨
      (∃ a, o = .ok (.answered a) ∧ Heard.Right ⟨b.call, b.log, a⟩) := by
  refine C57_due_calls_succeed (.inr ⟨h, ?_⟩) home hd ht (C58_race_needs_no_new_text h home hw) hb hdue ho
  have := (scribe_moody h).notes
  intro h0
  rw [h0, List.map_nil, List.map_eq_nil_iff] at this
  exact hl this

/-! ### Sample -/

/-- The pair is noted; is it found? -/
def noted (cs : List Cmd) (o p : List Char) : Bool × Bool :=
  ((scribe false cs).notes.any fun n => n.object == o && n.property == p,
    (scribe false cs).lex.opens o && (scribe false cs).lex.opens p)

/-- whether the model of the code finds it -/
def located (cs : List Cmd) (o p : List Char) : Bool :=
  match Go.look cfgA (Detail.provide fuel (utf8 o) (utf8 p)) (after cfgA fuel (cs.map Cmd.event)).world.store
    (after cfgA fuel (cs.map Cmd.event)).world.mem with
  | some (.ok d, _) => d.remark != 0
  | _ => false

def first : Cmd := .createStory "07 8".toList "1".toList
def second : Cmd := .createStory "a".toList "b".toList
def third : Cmd := .createStory "c".toList "7".toList

/-- A pair is not found right after a remark was made about it: it would be entered anew.  It is found once other characters
    continue its first ones, and it is no longer found after another one does. -/
theorem C58_found_comes_and_goes :
    (noted [first] "07 8".toList "1".toList = (true, false) ∧ located [first] "07 8".toList "1".toList = false) ∧
    (noted [first, second] "07 8".toList "1".toList = (true, true) ∧ located [first, second] "07 8".toList "1".toList = true) ∧
    (noted [first, second, third] "07 8".toList "1".toList = (true, false) ∧
      located [first, second, third] "07 8".toList "1".toList = false) := by
  decide +kernel

/-- the hypotheses hold of this history, every storage call being answered in another order -/
example : CalmMoods cfgA fuel (([first, second].map fun c => ((fun n => if n % 2 = 0 then cfgA else cfgB), c)).map
    fun e => (e.1, e.2.event)) ∧
    (scribe cfgA.zero [first, second]).finds (utf8 "07 8".toList) (utf8 "1".toList) := by
  refine ⟨⟨⟨rfl, ⟨by decide, by decide +kernel⟩, by simp [first, second, Cmd.event, Cmd.call, Event.Calm]⟩, ?_⟩, ?_⟩
  · intro e he
    simp only [List.map_cons, List.map_nil, List.mem_cons, List.not_mem_nil, or_false] at he
    rcases he with rfl | rfl <;> intro n <;> dsimp only <;> split <;> rfl
  · exact ⟨⟨"07 8".toList, "1".toList, some 0⟩, by decide +kernel⟩

end Semnet.Props
