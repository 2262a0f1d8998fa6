import Verif.Proof.RaceCold
import Verif.Props.C57
/- C59: racing calls that store new text over a free alphabet all succeed. -/
namespace Semnet.Props
open Spec Sample

/-! C51 and C57 are about goroutines that need no new text, and `C51_new_text_false` shows that the claim is false if one of
    them stores text.  Here all of them may store new text.  What is assumed instead is that the texts, those of the history
    and those of the race, are over an alphabet in which the code of a character that begins a word is not the beginning of
    the code of another one (`Spec.Alphabet.Free`: for example characters with codes of one length, such as the letters), and
    which does not have NUL.  As in C57 every storage call is answered by a storage of its own, which may list edges in
    another order and consume another number of identifiers.  The storage holds a remark (`Spec.Settled`).  If it has no
    node 0, everything may happen: failures of storage calls, before the race and during it, and deaths of processes.  If it
    has one, no storage call fails, and calls that C52 excludes too are not made (`Spec.Modest`). -/

/-- Whenever a goroutine whose own storage calls have not failed has come to the end of a call that has a result
    (`Spec.Call.Due`) and that was not given a text with an empty word, it succeeds: a creating call with a remark that will be logged, a
    question with the expected answer.  No error, no panic, no endless loop - whatever the others do, and whatever fails for
    them. -/
theorem C59_due_calls_succeed {A : Alphabet} (hA : A.Free) (h0 : ¬ A.used '\x00') {cfg : Cfg} {fuel : Nat}
    {es : List ((Nat → Cfg) × Event)} (h : Settled cfg fuel es) (hes : ∀ e ∈ es, ∀ t ∈ e.2.texts, A.Over t) (home : Nat → Nat)
    {ts : List (Cfg × Move)} (hd : ∀ t ∈ ts, t.1.dup = cfg.dup) (ht : A.Writes fuel ts)
    (hz : cfg.zero = false ∨ Modest cfg fuel home (moodily cfg fuel es) ts) {i : Nat} (hi : Spared i ts) {b : Begun}
    (hb : (moodyCrowd cfg fuel home es ts).cur i = some b) (hdue : b.call.Due cfg b.log) (hg : ∀ t ∈ b.call.texts, ¬ Gap t)
    {o : Out Yield} (ho : Go.end b.prog = some o) :
    (∃ r e, o = .ok (.created r) ∧ b.call.entry (moodyCrowd cfg fuel home es ts).log r = some e) ∨
      (∃ a, o = .ok (.answered a) ∧ Heard.Right ⟨b.call, b.log, a⟩) := by
  obtain ⟨bs, σ, hc⟩ := Race.crowd_cold hA h0 h hes home hd ht hz
  exact hc.succeedsSolo hi hb hdue hg ho

/-- The same on a storage without node 0 that never changes its habits, after a history with failures and crashes. -/
theorem C59_due_calls_succeed_plain {A : Alphabet} (hA : A.Free) (h0 : ¬ A.used '\x00') {cfg : Cfg} (hz : cfg.zero = false)
    {fuel : Nat} {es es' : List Event} (h : Stormy cfg fuel es es') (hes : ∀ e ∈ es ++ es', ∀ t ∈ e.texts, A.Over t)
    (home : Nat → Nat) {ts : List Move} (ht : ∀ t ∈ ts, ∀ s ∈ t.texts, s.length < fuel ∧ A.Over s) {i : Nat}
    (hi : ∀ f, .step i f ∈ ts → f = .ok) {b : Begun} (hb : (sharing cfg fuel home (es ++ es') ts).cur i = some b)
    (hdue : b.call.Due cfg b.log) (hg : ∀ t ∈ b.call.texts, ¬ Gap t) {o : Out Yield} (ho : Go.end b.prog = some o) :
    (∃ r e, o = .ok (.created r) ∧ b.call.entry (sharing cfg fuel home (es ++ es') ts).log r = some e) ∨
      (∃ a, o = .ok (.answered a) ∧ Heard.Right ⟨b.call, b.log, a⟩) := by
  have snd : ∀ es : List Event, (es.map fun e => ((fun _ => cfg : Nat → Cfg), e)).map Prod.snd = es := fun es => by
    rw [List.map_map]; exact List.map_id es
  have suits : ∀ es : List Event, ∀ e ∈ (es.map fun e => ((fun _ => cfg : Nat → Cfg), e)), Suits cfg e.1 := fun es e he => by
    obtain ⟨_, _, rfl⟩ := List.mem_map.1 he; exact fun _ => rfl
  have hs : Settled cfg fuel ((es ++ es').map fun e => (fun _ => cfg, e)) :=
    .inl ⟨hz, _, _, List.map_append, ⟨by rw [snd]; exact h.start, suits _⟩, by rw [C54_ordinary]; exact h.log,
      by rw [snd]; exact h.budget, suits _⟩
  have := C59_due_calls_succeed hA h0 hs (by intro e he; obtain ⟨e', h', rfl⟩ := List.mem_map.1 he; exact hes e' h') home
    (ts := ts.map fun t => (cfg, t)) (by intro t htt; obtain ⟨_, _, rfl⟩ := List.mem_map.1 htt; rfl)
    (by intro t htt; obtain ⟨t', h', rfl⟩ := List.mem_map.1 htt; exact ht t' h') (.inl hz) (i := i)
    (by intro c f hm; obtain ⟨t', h', e⟩ := List.mem_map.1 hm; cases e; exact hi f h') (b := b)
  rw [C55_ordinary] at this
  exact this hb hdue hg ho

/-- Characters with codes of one length, at least two digits long: letters, for instance, have seven digits. -/
theorem C59_letters_succeed {n : Nat} (hn : 2 ≤ n) {cfg : Cfg} (hz : cfg.zero = false)
    {fuel : Nat} {es es' : List Event} (h : Stormy cfg fuel es es')
    (hes : ∀ e ∈ es ++ es', ∀ t ∈ e.texts, ∃ s : String, t = bytes s ∧ ∀ c ∈ s.toList, c = ' ' ∨ (code c).length = n)
    (home : Nat → Nat) {ts : List Move} (hl : ∀ t ∈ ts, ∀ s ∈ t.texts, s.length < fuel)
    (ht : ∀ t ∈ ts, ∀ s ∈ t.texts, ∃ u : String, s = bytes u ∧ ∀ c ∈ u.toList, c = ' ' ∨ (code c).length = n) {i : Nat}
    (hi : ∀ f, .step i f ∈ ts → f = .ok) {b : Begun} (hb : (sharing cfg fuel home (es ++ es') ts).cur i = some b)
    (hdue : b.call.Due cfg b.log) (hg : ∀ t ∈ b.call.texts, ¬ Gap t) {o : Out Yield} (ho : Go.end b.prog = some o) :
    (∃ r e, o = .ok (.created r) ∧ b.call.entry (sharing cfg fuel home (es ++ es') ts).log r = some e) ∨
      (∃ a, o = .ok (.answered a) ∧ Heard.Right ⟨b.call, b.log, a⟩) := by
  refine C59_due_calls_succeed_plain (Alphabet.same_free n) ?_ hz h ?_ home ?_ hi hb hdue hg ho
  · intro hu
    have h1 : (code '\x00').length = 1 := by decide
    have h2 : (code '\x00').length = n := hu
    omega
  · intro e he t htt
    obtain ⟨s, rfl, h'⟩ := hes e he t htt
    exact Alphabet.same_over h'
  · intro t htt s hs
    obtain ⟨u, rfl, h'⟩ := ht t htt s hs
    exact ⟨hl t htt _ hs, Alphabet.same_over h'⟩

/-- An endless run.  A goroutine in the middle of such a call, whose storage calls do not fail, whose process does not die
    and which takes infinitely many steps, returns from it with the result. -/
theorem C59_due_calls_return {A : Alphabet} (hA : A.Free) (h0 : ¬ A.used '\x00') {cfg : Cfg} {fuel : Nat}
    {es : List ((Nat → Cfg) × Event)} (h : Settled cfg fuel es) (hes : ∀ e ∈ es, ∀ t ∈ e.2.texts, A.Over t) (home : Nat → Nat)
    {s : Nat → Cfg × Move} (hm : ∀ k, (s k).1.dup = cfg.dup) (ht : ∀ k, ∀ t ∈ (s k).2.texts, t.length < fuel ∧ A.Over t)
    (hz : cfg.zero = false ∨ Modests cfg fuel home (moodily cfg fuel es) s) {i n : Nat}
    (hi : ∀ k f, (s k).2 = .step i f → f = .ok) {b : Begun}
    (hb : ((Crowd.start (moodily cfg fuel es)).feels fuel home s n).cur i = some b) (hdue : b.call.Due cfg b.log)
    (hg : ∀ t ∈ b.call.texts, ¬ Gap t)
    (hinf : ∀ m, ∃ k, m ≤ k ∧ ∃ f, (s k).2 = .step i f) (hl : ∀ k, n ≤ k → (s k).2 ≠ .die (home i)) :
    ∃ k, n ≤ k ∧ ((Crowd.start (moodily cfg fuel es)).feels fuel home s (k + 1)).cur i = none ∧
      ((∃ r e, b.call.entry ((Crowd.start (moodily cfg fuel es)).feels fuel home s k).log r = some e ∧
        ((Crowd.start (moodily cfg fuel es)).feels fuel home s (k + 1)).log =
          ((Crowd.start (moodily cfg fuel es)).feels fuel home s k).log ++ [e]) ∨
      (∃ a, Heard.Right ⟨b.call, b.log, a⟩ ∧
        ((Crowd.start (moodily cfg fuel es)).feels fuel home s (k + 1)).heard =
          ((Crowd.start (moodily cfg fuel es)).feels fuel home s k).heard ++ [⟨b.call, b.log, a⟩])) := by
  refine Race.due_returnsM ?_ hb hinf hl
  intro k b' o h1 e1 e2 h3
  rw [Race.feels_feel] at h1 ⊢
  exact C59_due_calls_succeed hA h0 h hes home (by intro t htt; obtain ⟨j, _, rfl⟩ := List.mem_map.1 htt; exact hm j)
    (by intro t htt; obtain ⟨j, _, rfl⟩ := List.mem_map.1 htt; exact ht j)
    (hz.imp id fun h => Race.modest_prefix h k)
    (by intro c f hm; obtain ⟨j, _, e⟩ := List.mem_map.1 hm; exact hi j f (by rw [e])) h1
    (by rw [e1, e2]; exact hdue) (by rw [e1]; exact hg) h3

/-- Every remark that any goroutine was ever given reads back as promised, in whatever mood, by a new process and in every
    process of the crowd.  (C55 says so without an alphabet, but of storages without node 0 only.) -/
theorem C59_remarks_readable {A : Alphabet} (hA : A.Free) (h0 : ¬ A.used '\x00') {cfg : Cfg} {fuel : Nat}
    {es : List ((Nat → Cfg) × Event)} (h : Settled cfg fuel es) (hes : ∀ e ∈ es, ∀ t ∈ e.2.texts, A.Over t) (home : Nat → Nat)
    {ts : List (Cfg × Move)} (hd : ∀ t ∈ ts, t.1.dup = cfg.dup) (ht : A.Writes fuel ts)
    (hz : cfg.zero = false ∨ Modest cfg fuel home (moodily cfg fuel es) ts) {e : Entry}
    (he : e ∈ (moodyCrowd cfg fuel home es ts).log) :
    ReadableMoods cfg fuel (moodyCrowd cfg fuel home es ts).log (World.open (moodyCrowd cfg fuel home es ts).store) e ∧
    ∀ p, ReadableMoods cfg fuel (moodyCrowd cfg fuel home es ts).log
      ⟨(moodyCrowd cfg fuel home es ts).store, (moodyCrowd cfg fuel home es ts).mem p⟩ e := by
  obtain ⟨bs, σ, hc⟩ := Race.crowd_cold hA h0 h hes home hd ht hz
  have fits := (h.alpha hes).2.1
  exact ⟨hc.readableAny fits (fun h => by cases h) he, fun p => hc.readableAny fits (hc.mem p) he⟩

/-- No two remarks have the same identifier. -/
theorem C59_remarks_distinct {A : Alphabet} (hA : A.Free) (h0 : ¬ A.used '\x00') {cfg : Cfg} {fuel : Nat}
    {es : List ((Nat → Cfg) × Event)} (h : Settled cfg fuel es) (hes : ∀ e ∈ es, ∀ t ∈ e.2.texts, A.Over t) (home : Nat → Nat)
    {ts : List (Cfg × Move)} (hd : ∀ t ∈ ts, t.1.dup = cfg.dup) (ht : A.Writes fuel ts)
    (hz : cfg.zero = false ∨ Modest cfg fuel home (moodily cfg fuel es) ts) :
    ((moodyCrowd cfg fuel home es ts).log.map fun e => Remark.getIdentifier e.handle).Nodup := by
  obtain ⟨bs, σ, hc⟩ := Race.crowd_cold hA h0 h hes home hd ht hz
  exact hc.logs.nodup

/-- Every answer that any goroutine was ever given is the expected one; what was expected when it asked is still expected. -/
theorem C59_answers_right {A : Alphabet} (hA : A.Free) (h0 : ¬ A.used '\x00') {cfg : Cfg} {fuel : Nat}
    {es : List ((Nat → Cfg) × Event)} (h : Settled cfg fuel es) (hes : ∀ e ∈ es, ∀ t ∈ e.2.texts, A.Over t) (home : Nat → Nat)
    {ts : List (Cfg × Move)} (hd : ∀ t ∈ ts, t.1.dup = cfg.dup) (ht : A.Writes fuel ts)
    (hz : cfg.zero = false ∨ Modest cfg fuel home (moodily cfg fuel es) ts) {x : Heard}
    (hx : x ∈ (moodyCrowd cfg fuel home es ts).heard) : x.Right ∧ x.log <+: (moodyCrowd cfg fuel home es ts).log := by
  obtain ⟨bs, σ, hc⟩ := Race.crowd_cold hA h0 h hes home hd ht hz
  exact hc.heard x hx

/-- A reader that asks about a logged remark is given the expected answers, whatever the mood in which it goes on. -/
theorem C59_readers_succeed {A : Alphabet} (hA : A.Free) (h0 : ¬ A.used '\x00') {cfg : Cfg} {fuel : Nat}
    {es : List ((Nat → Cfg) × Event)} (h : Settled cfg fuel es) (hes : ∀ e ∈ es, ∀ t ∈ e.2.texts, A.Over t) (home : Nat → Nat)
    {ts : List (Cfg × Move)} (hd : ∀ t ∈ ts, t.1.dup = cfg.dup) (ht : A.Writes fuel ts)
    (hz : cfg.zero = false ∨ Modest cfg fuel home (moodily cfg fuel es) ts) {j : Nat} {rd : Asker}
    (hr : (moodyCrowd cfg fuel home es ts).readers j = some rd) {e : Entry} (he : e ∈ rd.log)
    (hid : Remark.getIdentifier e.handle = rd.identifier) {as : List Answer} (ha : e.answers rd.log rd.asked = some as)
    {g : Nat → Cfg} (hg : Suits cfg g) :
    rd.results g (moodyCrowd cfg fuel home es ts).store ((moodyCrowd cfg fuel home es ts).mem (home j)) = .ok as := by
  obtain ⟨bs, σ, hc⟩ := Race.crowd_cold hA h0 h hes home hd ht hz
  exact hc.resultsSolo hr hg e he hid as ha

/-- No goroutine in the middle of a call, with or without a result, has used up the budget of a loop. -/
theorem C59_never_stuck {A : Alphabet} (hA : A.Free) (h0 : ¬ A.used '\x00') {cfg : Cfg} {fuel : Nat}
    {es : List ((Nat → Cfg) × Event)} (h : Settled cfg fuel es) (hes : ∀ e ∈ es, ∀ t ∈ e.2.texts, A.Over t) (home : Nat → Nat)
    {ts : List (Cfg × Move)} (hd : ∀ t ∈ ts, t.1.dup = cfg.dup) (ht : A.Writes fuel ts)
    (hz : cfg.zero = false ∨ Modest cfg fuel home (moodily cfg fuel es) ts) {i : Nat}
    {b : Begun} (hb : (moodyCrowd cfg fuel home es ts).cur i = some b) : Go.end b.prog ≠ some .spin := by
  obtain ⟨bs, σ, hc⟩ := Race.crowd_cold hA h0 h hes home hd ht hz
  exact hc.noSpin hb

/-! ### cold races -/

/-- one story -/
def esLetters : List Event := [call (.createStory (bytes "a") (bytes "b"))]

theorem letters_stormy : Stormy cfgA fuel esLetters [] :=
  ⟨⟨rfl, ⟨by decide, by decide +kernel⟩, by simp [esLetters, call, Event.Calm]⟩, by decide +kernel, ⟨by decide, by simp⟩⟩

/-- Three goroutines in two processes store new texts, two of them the same; the storage calls of the third fail now and then. -/
def coldRace : List Move :=
  [.begin 0 (.createStory (bytes "c") (bytes "d")), .begin 1 (.createStory (bytes "c") (bytes "d")),
    .begin 2 (.addRemark 0 (bytes "d e"))] ++
  (List.replicate 15 [.step 0 .ok, .step 1 .ok, .step 2 .ok]).flatten ++ [.step 2 .failLate] ++
  (List.replicate 280 [.step 0 .ok, .step 1 .ok]).flatten ++ [.step 2 .ok]

theorem over_letters {l : List String} (h : ∀ s ∈ l, ∀ c ∈ s.toList, c = ' ' ∨ (code c).length = 7) {t : GoStr}
    (ht : t ∈ l.map bytes) : ∃ s : String, t = bytes s ∧ ∀ c ∈ s.toList, c = ' ' ∨ (code c).length = 7 := by
  obtain ⟨s, hs, rfl⟩ := List.mem_map.1 ht
  exact ⟨s, rfl, h s hs⟩

/-- the hypotheses hold of it, with the alphabet of the characters with seven digits -/
example : Stormy cfgA fuel esLetters [] ∧
    (∀ e ∈ esLetters ++ [], ∀ t ∈ e.texts, ∃ s : String, t = bytes s ∧ ∀ c ∈ s.toList, c = ' ' ∨ (code c).length = 7) ∧
    (∀ t ∈ coldRace, ∀ s ∈ t.texts, s.length < fuel) ∧
    (∀ t ∈ coldRace, ∀ s ∈ t.texts, ∃ u : String, s = bytes u ∧ ∀ c ∈ u.toList, c = ' ' ∨ (code c).length = 7) ∧
    (∀ i, i < 2 → ∀ f, .step i f ∈ coldRace → f = .ok) := by
  refine ⟨letters_stormy, fun e he t ht => ?_, by decide +kernel, fun t ht s hs => ?_, ?_⟩
  · exact over_letters (l := ["a", "b"]) (by decide +kernel)
      ((by decide +kernel : ∀ e ∈ esLetters ++ [], ∀ t ∈ e.texts, t ∈ ["a", "b"].map bytes) e he t ht)
  · exact over_letters (l := ["c", "d", "d e"]) (by decide +kernel)
      ((by decide +kernel : ∀ e ∈ coldRace, ∀ t ∈ e.texts, t ∈ ["c", "d", "d e"].map bytes) t ht s hs)
  · have : coldRace.all (fun m => match m with | .step 2 _ => true | .step _ .ok => true | .step _ _ => false | _ => true) = true := by
      decide +kernel
    intro i hi f hm
    have := List.all_eq_true.1 this _ hm
    match i, f, hi with
    | _, .ok, _ => rfl
    | 0, .fail, _ => cases this
    | 0, .failLate, _ => cases this
    | 1, .fail, _ => cases this
    | 1, .failLate, _ => cases this

/-- What comes of it: the first two goroutines have their remarks, the third has none. -/
example : (sharing cfgA fuel (· / 2) (esLetters ++ []) coldRace).log.map (fun e => (e.object, e.property, e.opener)) =
    [(bytes "a", bytes "b", some 0), (bytes "c", bytes "d", some 1), (bytes "c", bytes "d", some 2)] ∧
    ∀ i, i < 3 → ((sharing cfgA fuel (· / 2) (esLetters ++ []) coldRace).cur i).isNone = true := by
  decide +kernel

/-- One goroutine adds a fact while another one creates a story, both with new texts, on the storage with node 0. -/
def coldFact : List Move :=
  [.begin 0 (.addFact 0 (bytes "c") (bytes "d")), .begin 1 (.createStory (bytes "c") (bytes "d"))] ++
  (List.replicate 300 [.step 0 .ok, .step 1 .ok]).flatten

/-- the hypotheses hold of it -/
example : Settled cfgB fuel (esLetters.map fun e => (fun _ => cfgB, e)) ∧ (∀ t ∈ whims coldFact, t.1.dup = cfgB.dup) ∧
    (Alphabet.same 7).Writes fuel (whims coldFact) ∧
    Modest cfgB fuel one (moodily cfgB fuel (esLetters.map fun e => (fun _ => cfgB, e))) (whims coldFact) := by
  refine ⟨.inr ⟨⟨?_, ?_⟩, by rw [C54_ordinary]; decide +kernel⟩, whims_suit _, ?_, ?_⟩
  · rw [List.map_map]
    have : Prod.snd ∘ (fun e : Event => ((fun _ => cfgB : Nat → Cfg), e)) = id := rfl
    rw [this, List.map_id]
    exact ⟨rfl, ⟨by decide, by decide +kernel⟩, by simp [esLetters, call, Event.Calm]⟩
  · intro e he
    obtain ⟨_, _, rfl⟩ := List.mem_map.1 he
    exact fun _ => rfl
  · intro t ht s hs
    obtain ⟨i, hi, rfl⟩ := List.mem_mapIdx.1 ht
    refine ⟨(by decide +kernel : ∀ t ∈ coldFact, ∀ s ∈ t.texts, s.length < fuel) _ (List.getElem_mem hi) s hs, ?_⟩
    obtain ⟨u, rfl, h'⟩ := over_letters (l := ["c", "d"]) (by decide +kernel)
      ((by decide +kernel : ∀ e ∈ coldFact, ∀ t ∈ e.texts, t ∈ ["c", "d"].map bytes) _ (List.getElem_mem hi) s hs)
    exact Alphabet.same_over h'
  · intro ts1 t ts2 e
    have ht : t ∈ whims coldFact := by rw [e]; simp
    obtain ⟨i, hi, rfl⟩ := List.mem_mapIdx.1 ht
    have hm : coldFact[i] ∈ coldFact := List.getElem_mem hi
    generalize coldFact[i] = m at hm
    have := List.all_eq_true.1 (by decide +kernel : coldFact.all (fun m => match m with
      | .begin _ (.addFact ..) | .begin _ (.createStory ..) | .step _ .ok => true | _ => false) = true) m hm
    split at this
    · exact ⟨rfl, trivial⟩
    · trivial
    · rfl
    · cases this

example : ((Crowd.start (after cfgB fuel esLetters)).feel fuel one (whims coldFact)).log.map
      (fun e => (e.object, e.property, e.opener)) =
    [(bytes "a", bytes "b", some 0), (bytes "c", bytes "d", none), (bytes "c", bytes "d", some 2)] := by
  decide +kernel

/-- an endless cold run -/
def coldForever : Nat → Move
  | 0 => .begin 0 (.createStory (bytes "c") (bytes "d"))
  | 1 => .begin 1 (.createStory (bytes "e") (bytes "c"))
  | n + 2 => .step (n % 2) .ok

example : (∀ k, ∀ t ∈ (coldForever k).texts, t.length < fuel ∧ (Alphabet.same 7).Over t) ∧
    (∀ k f, coldForever k = .step 0 f → f = .ok) ∧ (∀ m, ∃ k, m ≤ k ∧ ∃ f, coldForever k = .step 0 f) := by
  refine ⟨?_, ?_, ?_⟩
  · have key : ∀ u ∈ ["c", "d", "e"], (bytes u).length < fuel ∧ ∀ c ∈ u.toList, c = ' ' ∨ (code c).length = 7 := by decide +kernel
    have one : ∀ u ∈ ["c", "d", "e"], (bytes u).length < fuel ∧ (Alphabet.same 7).Over (bytes u) :=
      fun u hu => ⟨(key u hu).1, Alphabet.same_over (key u hu).2⟩
    intro k t ht
    match k with
    | 0 => simp [coldForever, Move.texts, Call.texts] at ht; rcases ht with rfl | rfl <;> exact one _ (by simp)
    | 1 => simp [coldForever, Move.texts, Call.texts] at ht; rcases ht with rfl | rfl <;> exact one _ (by simp)
    | k + 2 => simp [coldForever, Move.texts] at ht
  · intro k f h
    match k with
    | 0 => cases h
    | 1 => cases h
    | k + 2 => simp [coldForever] at h; exact h.2.symm
  · intro m
    exact ⟨2 * m + 2, by omega, .ok, by simp [coldForever]⟩

example : ((Crowd.start (after cfgA fuel (esLetters ++ []))).run cfgA fuel one coldForever 520).log.length = 3 := by
  decide +kernel

/-- One goroutine stores a text with NUL while another one is about to. -/
def nulRace : List Move :=
  [.begin 0 (.createStory (bytes "\x00") (bytes "a")), .begin 1 (.createStory (bytes "\x00") (bytes "b"))] ++
  List.replicate 16 (.step 0 .ok) ++ List.replicate 240 (.step 1 .ok) ++ List.replicate 240 (.step 0 .ok)

/-- the alphabet of NUL and the characters with seven digits -/
def nulAlphabet : Alphabet := ⟨fun c => c = '\x00' ∨ (code c).length = 7, fun c => c = '\x00' ∨ (code c).length = 7⟩

/-- With NUL in the alphabet the claim is FALSE: though the alphabet is free and no storage call fails, one of the calls does. -/
theorem C59_nul_false : nulAlphabet.Free ∧ (∀ t ∈ nulRace, ∀ f i, t = .step i f → f = .ok) ∧
    (∀ i, i < 2 → ((sharing cfgA fuel one (esLetters ++ []) nulRace).cur i).isNone = true) ∧
    (sharing cfgA fuel one (esLetters ++ []) nulRace).log.length = 2 := by
  refine ⟨⟨fun c h => h, ?_⟩, ?_, by decide +kernel, by decide +kernel⟩
  · intro a b ha hb hp
    have n0 : code '\x00' = ['0'] := by decide
    have first : ∀ c : Char, (code c).length = 7 → ¬ ['0'] <+: code c := by
      intro c hc h'
      rw [code_eq] at h' hc
      rw [List.length_map] at hc
      cases hb : bitsOf (c.val.toNat : Int) with
      | nil => rw [hb] at hc; cases hc
      | cons v q =>
        rw [hb] at h'
        have hv : v = false := by
          obtain ⟨_, e⟩ := h'
          simp only [List.map_cons, List.cons_append, List.cons.injEq] at e
          cases v with
          | false => rfl
          | true => exact absurd e.1 (by decide)
        subst hv
        have h0 := Race.bits_first _ _ (Nat.le_refl _) hb
        have : (c.val.toNat : Int) = 0 := by omega
        rw [this] at hc
        exact absurd hc (by decide)
    rcases ha with rfl | ha <;> rcases hb with rfl | hb
    · rfl
    · rw [n0] at hp
      exact absurd hp (first b hb)
    · rw [n0] at hp
      have := hp.length_le
      rw [ha] at this
      simp at this
    · exact (Alphabet.same_free 7).2 a b ha hb hp
  · have := (by decide +kernel : nulRace.all (fun m => match m with | .step _ .ok => true | .step _ _ => false | _ => true) = true)
    intro t ht f i e
    subst e
    have := List.all_eq_true.1 this _ ht
    cases f with
    | ok => rfl
    | fail => cases this
    | failLate => cases this

end Semnet.Props
