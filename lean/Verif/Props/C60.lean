import Verif.Props.C49
import Verif.Proof.RaceWeak
import Verif.Proof.Fills
/- C60: goroutines sharing a `Graph` under Go's memory model, once its bit layer has been initialized. -/
namespace Semnet.Props
open Spec Sample

/-! The setting of C49, but a goroutine may miss assignments to the bit layer that other goroutines made, see them in any
    order, and see parts of an entity only (`Spec/Weak.lean`). -/

/-- the processes after the moves `ts`; with each move goes what is seen of the bit layer -/
abbrev weakly (cfg : Cfg) (fuel : Nat) (home : Nat → Nat) (es : List Event) (ts : List (Move × Option Sight)) : Lax :=
  (Lax.start (after cfg fuel es)).moves cfg fuel home ts

/-- If a process has initialized its bit layer before it starts its goroutines, its goroutines may miss what they like:
    everything happens as if all assignments were seen at once.  No assumption on storage, history, or texts. -/
theorem C60_as_if_seen {cfg : Cfg} {fuel : Nat} {es : List Event} {home : Nat → Nat} {ts : List (Move × Option Sight)}
    (hr : FilledFirst home (Lax.start (after cfg fuel es)) ts) :
    { (weakly cfg fuel home es ts).crowd with mem := (weakly cfg fuel home es ts).latest } =
      sharing cfg fuel home es (ts.map Prod.fst) :=
  Race.tight_moves ts fun t ht => (hr t ht).imp id fun ⟨h1, h2⟩ =>
    ⟨⟨rfl, h1, (fun _ _ _ h => by cases h), (fun _ _ _ h => by cases h)⟩, h2⟩

/-- So nothing is ever assigned to the bit layer of such a process. -/
theorem C60_layer_kept {cfg : Cfg} {fuel : Nat} {es : List Event} {home : Nat → Nat} {ts : List (Move × Option Sight)} {p : Nat}
    (hp : ((Crowd.start (after cfg fuel es)).mem p).isInitialized = true) (hd : ∀ t ∈ ts, t.1 ≠ .die p) :
    (weakly cfg fuel home es ts).said p = [] := by
  have key : ∀ (ts : List (Move × Option Sight)) (y : Lax), Race.Settled home y p → (∀ t ∈ ts, t.1 ≠ .die p) →
      Race.Settled home (y.moves cfg fuel home ts) p := by
    intro ts
    induction ts with
    | nil => exact fun _ h _ => h
    | cons t ts ih => exact fun y h hd => ih _ (h.move t (hd t (by simp))) fun t' ht' => hd t' (by simp [ht'])
  exact (key ts _ ⟨rfl, hp, (fun _ _ _ h => by cases h), (fun _ _ _ h => by cases h)⟩ hd).said

/-- The same of a program that synchronizes its goroutines at times, for any number of processes, which may die and be started
    anew: a process may miss what it likes from the moment when its layer is initialized, its calls have returned and it has
    synchronized, until it dies. -/
theorem C60_as_if_seen_synchronized {cfg : Cfg} {fuel : Nat} {es : List Event} {home : Nat → Nat} {as : List Act}
    (hc : Careful cfg fuel home (fun p => ((Crowd.start (after cfg fuel es)).mem p).isInitialized = true)
      (Lax.start (after cfg fuel es)) as) :
    { ((Lax.start (after cfg fuel es)).acts cfg fuel home as).crowd with
        mem := ((Lax.start (after cfg fuel es)).acts cfg fuel home as).latest } =
      sharing cfg fuel home es (Act.moves as) :=
  Race.tight_acts as (fun _ hp => ⟨rfl, hp, (fun _ _ _ h => by cases h), (fun _ _ _ h => by cases h)⟩) hc

/-- A creating call that succeeds has initialized the bit layer of its process, on every storage, whatever failed before or
    in the middle of it. -/
theorem C60_creating_initializes {cfg : Cfg} {fuel : Nat} {log : List Entry} {c : Call} {f : Nat → Fate} {w w' : World} {r : RemE}
    (h : (c.prog fuel log).run cfg f w = (.ok (some r), w')) : w'.mem.isInitialized = true :=
  run_makes _ (makes_prog fuel log c w.mem) h

/-- So has a successful question for the texts of a remark, or for its story. -/
theorem C60_reading_initializes {cfg : Cfg} {fuel : Nat} {r : RemE} {f : Nat → Fate} {w w' : World} :
    (∀ o p, (Remark.getObjectAndProperty fuel r).run cfg f w = (.ok (o, p), w') → w'.mem.isInitialized = true) ∧
    ∀ s, (Output.getStory fuel r).run cfg f w = (.ok s, w') → w'.mem.isInitialized = true :=
  ⟨fun _ _ h => run_fills _ (Fills.texts fuel r w.mem) h, fun _ h => run_fills _ (Fills.story fuel r w.mem) h⟩

/-- Every remark that any goroutine was ever given reads back as promised. -/
theorem C60_remarks_readable {cfg : Cfg} (hz : cfg.zero = false) {fuel : Nat} {es es' : List Event}
    (h : Stormy cfg fuel es es') {home : Nat → Nat} {ts : List (Move × Option Sight)}
    (hr : FilledFirst home (Lax.start (after cfg fuel (es ++ es'))) ts) (ht : ∀ t ∈ ts, ∀ s ∈ t.1.texts, s.length < fuel) {e : Entry}
    (he : e ∈ (weakly cfg fuel home (es ++ es') ts).crowd.log) :
    Readable cfg fuel (weakly cfg fuel home (es ++ es') ts).crowd.log
      (World.open (weakly cfg fuel home (es ++ es') ts).crowd.store) e := by
  have e1 := C60_as_if_seen hr
  have e2 : (weakly cfg fuel home (es ++ es') ts).crowd.log = (sharing cfg fuel home (es ++ es') (ts.map Prod.fst)).log :=
    by rw [← e1]
  have e3 : (weakly cfg fuel home (es ++ es') ts).crowd.store = (sharing cfg fuel home (es ++ es') (ts.map Prod.fst)).store :=
    by rw [← e1]
  rw [e2] at he ⊢
  rw [e3]
  refine (C49_remarks_readable hz h home (ts := ts.map Prod.fst) ?_ he).1
  intro t ht'
  obtain ⟨x, hx, rfl⟩ := List.mem_map.1 ht'
  exact ht x hx

/-- A goroutine that asks about a logged remark, and whose own storage calls do not fail, is given the expected answers, when
    it is left alone from now on. -/
theorem C60_readers_succeed {cfg : Cfg} (hz : cfg.zero = false) {fuel : Nat} {es es' : List Event}
    (h : Stormy cfg fuel es es') {home : Nat → Nat} {ts : List (Move × Option Sight)}
    (hr : FilledFirst home (Lax.start (after cfg fuel (es ++ es'))) ts) (ht : ∀ t ∈ ts, ∀ s ∈ t.1.texts, s.length < fuel) {j : Nat}
    {rd : Asker} (hj : (weakly cfg fuel home (es ++ es') ts).crowd.readers j = some rd) {e : Entry} (he : e ∈ rd.log)
    (hid : Remark.getIdentifier e.handle = rd.identifier) {as : List Answer} (ha : e.answers rd.log rd.asked = some as) :
    rd.result cfg (weakly cfg fuel home (es ++ es') ts).crowd.store ((weakly cfg fuel home (es ++ es') ts).latest (home j)) =
      .ok as := by
  have e1 := C60_as_if_seen hr
  have e2 : (weakly cfg fuel home (es ++ es') ts).crowd.readers = (sharing cfg fuel home (es ++ es') (ts.map Prod.fst)).readers :=
    by rw [← e1]
  have e3 : (weakly cfg fuel home (es ++ es') ts).crowd.store = (sharing cfg fuel home (es ++ es') (ts.map Prod.fst)).store :=
    by rw [← e1]
  have e4 : (weakly cfg fuel home (es ++ es') ts).latest = (sharing cfg fuel home (es ++ es') (ts.map Prod.fst)).mem :=
    by rw [← e1]
  rw [e2] at hj
  rw [e3, e4]
  refine C49_readers_succeed hz h home (ts := ts.map Prod.fst) ?_ hj he hid ha
  intro t ht'
  obtain ⟨x, hx, rfl⟩ := List.mem_map.1 ht'
  exact ht x hx

/-! ### two goroutines and a reader that see next to nothing -/

/-- nothing is seen, except what was there at the start -/
def blind : Sight := ⟨none, .whole none, .whole none⟩

def blindly : List (Move × Option Sight) :=
  ([Move.begin 0 (.createStory (bytes "1") (bytes "0")), .begin 1 (.addRemark 0 (bytes "1")),
    .spawn 2 9 [.getObjectAndProperty, .getFirstFact]] ++
  (List.replicate 300 [Move.step 0 .ok, .step 1 .ok, .read 2]).flatten).map fun t => (t, some blind)

theorem blindly_filled : ((Crowd.start (after cfgA fuel (esShared ++ []))).mem 0).isInitialized = true := by decide +kernel
theorem blindly_stays : ∀ t ∈ blindly, ∀ p, t.1 ≠ .die p := by
  intro t ht p
  obtain ⟨x, hx, rfl⟩ := List.mem_map.1 ht
  revert hx
  simp only [List.mem_append, List.mem_cons, List.not_mem_nil, or_false, List.mem_flatten, List.mem_replicate]
  rintro ((rfl | rfl | rfl) | ⟨l, ⟨_, rfl⟩, hx⟩) <;> try (intro h; cases h; done)
  simp only [List.mem_cons, List.not_mem_nil, or_false] at hx
  rcases hx with hx | hx | hx <;> (intro h; rw [h] at hx; cases hx)
example : FilledFirst one (Lax.start (after cfgA fuel (esShared ++ []))) blindly := by
  intro t ht
  have e : t.1.at one = 0 := by
    cases h : t.1 <;> first | rfl | exact absurd h (blindly_stays t ht _)
  exact .inr (by rw [e]; exact ⟨blindly_filled, fun t' ht' => blindly_stays t' ht' 0⟩)
example : (weakly cfgA fuel one (esShared ++ []) blindly).crowd.log.map (fun e => (e.object, e.property, e.opener)) =
      [(bytes "0", bytes "1", some 0), (bytes "a", bytes "b", some 1), (bytes "1", bytes "0", some 2),
        (bytes "0", bytes "1", some 0)] ∧
    ((weakly cfgA fuel one (esShared ++ []) blindly).crowd.readers 2).map (fun rd => Go.end rd.prog) =
      some (some (.ok [.pair (bytes "0") (bytes "1"), .remark ⟨9, 11, 12, 13⟩])) := by
  decide +kernel

/-! ### a new process that initializes its layer, and then starts goroutines that see next to nothing -/

def pair (i : Nat) : Nat := if i < 2 then 1 else 0

/-- goroutine 0 of process 1 asks for the texts of the first remark -/
def alone : List Move := .begin 0 (.query 0 .getObjectAndProperty) :: List.replicate 270 (.step 0 .ok)

def fanned : List Act :=
  (([Move.begin 0 (.createStory (bytes "1") (bytes "0")), .begin 1 (.addRemark 0 (bytes "1"))] ++
    (List.replicate 300 [Move.step 0 .ok, .step 1 .ok]).flatten).map fun t => (.move t (some ⟨some 2, .whole none, .whole (some 1)⟩)))

theorem alone_returns : let y := (Lax.start (after cfgA fuel (esShared ++ []))).acts cfgA fuel pair (alone.map (Act.move · none))
    (y.latest 1).isInitialized = true ∧ ((Lax.start (after cfgA fuel (esShared ++ []))).latest 1).isInitialized = false ∧
    (List.range 2).all (fun i => ((y.crowd.cur i).map fun b => Go.end b.prog).isNone && (y.crowd.readers i).isNone) = true := by
  decide +kernel

example : Careful cfgA fuel pair (fun p => ((Crowd.start (after cfgA fuel (esShared ++ []))).mem p).isInitialized = true)
    (Lax.start (after cfgA fuel (esShared ++ []))) (alone.map (Act.move · none) ++ .sync 1 :: fanned) := by
  obtain ⟨h1, _, h2⟩ := alone_returns
  have h2 : ∀ i, pair i = 1 → _ := fun i (hi : (if i < 2 then 1 else 0) = 1) => List.all_eq_true.1 h2 i (by
    rw [List.mem_range]
    by_cases h : i < 2
    · exact h
    · rw [if_neg h] at hi; cases hi)
  refine Race.careful_seen _ ?_ (Race.careful_sync h1 ⟨?_, ?_⟩ ?_)
  · intro t ht p
    simp only [alone, List.mem_cons, List.mem_replicate] at ht
    rcases ht with rfl | ⟨_, rfl⟩ <;> (intro h; cases h)
  · intro i hi b hb
    have := h2 i hi
    rw [hb] at this
    cases this
  · intro i hi b hb
    have := h2 i hi
    rw [hb, Option.isNone_some, Bool.and_false] at this
    cases this
  · intro a ha
    simp only [fanned, List.mem_map, List.mem_append, List.mem_cons, List.not_mem_nil, or_false, List.mem_flatten,
      List.mem_replicate] at ha
    obtain ⟨t, ht, rfl⟩ := ha
    refine ⟨t, _, rfl, ?_⟩
    rcases ht with (rfl | rfl) | ⟨l, ⟨_, rfl⟩, ht⟩
    · exact ⟨rfl, fun h => by cases h⟩
    · exact ⟨rfl, fun h => by cases h⟩
    · simp only [List.mem_cons, List.not_mem_nil, or_false] at ht
      rcases ht with rfl | rfl <;> exact ⟨rfl, fun h => by cases h⟩

example : ((Lax.start (after cfgA fuel (esShared ++ []))).acts cfgA fuel pair
      (alone.map (Act.move · none) ++ .sync 1 :: fanned)).crowd.log.map (fun e => (e.object, e.property)) =
    [(bytes "0", bytes "1"), (bytes "a", bytes "b"), (bytes "1", bytes "0"), (bytes "0", bytes "1")] := by
  decide +kernel

example : succeeds ((Call.prog fuel [] (.createStory (bytes "0") (bytes "1"))).run cfgA Go.noFault (World.open (Store.empty cfgA))) = true ∧
    (World.open (Store.empty cfgA)).mem.isInitialized = false := by
  decide +kernel
example : ((after cfgA fuel esShared).log.all fun e => succeeds ((Remark.getObjectAndProperty fuel e.handle).run cfgA Go.noFault
      (World.open (after cfgA fuel esShared).world.store))) = true ∧ (after cfgA fuel esShared).log.length = 2 := by
  decide +kernel

end Semnet.Props
