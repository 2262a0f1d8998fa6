import Verif.Props.C60
/- C61: goroutines sharing a `Graph` under Go's memory model, its bit layer not having been initialized.  Unsafe. -/
namespace Semnet.Props
open Spec Sample

/-! The process has just been started.  Its goroutine 0 asks for the texts of the first remark, and so initializes the bit
    layer: assignment 0 is the one to `zeroEntity`, 1 the one to `oneEntity`, 2 the one to `isInitialized`.  Goroutine 1 has
    not synchronized with it.  So Go allows it to see any of these assignments and to miss the others.  No storage call
    fails. -/

def filling (n : Nat) : List (Move × Option Sight) :=
  [(.die 0, none), (.begin 0 (.query 0 .getObjectAndProperty), none)] ++ List.replicate n (.step 0 .ok, none)

example : ((weakly cfgA fuel one esShared (filling 60)).said 0).map (fun u => match u with
    | .zeroEntity _ => 0 | .oneEntity _ => 1 | .isInitialized => 2) = [0, 1, 2] := by decide +kernel

/-- everything is seen but the value of the one, which is still false: the entity has several words, and they are copied
    without synchronization -/
def torn : Sight := ⟨some 2, .whole (some 0), ⟨none, some 1, some 1, some 1⟩⟩

/-- The answer can be WRONG: the remark says "0" about "1", goroutine 1 is told that both texts are NUL characters. -/
theorem C61_answer_can_be_wrong :
    ((weakly cfgA fuel one esShared (filling 60 ++ (.begin 1 (.query 0 .getObjectAndProperty), none) ::
      List.replicate 220 (.step 1 .ok, some torn))).crowd.heard.map fun x => (x.call, x.answer)) =
      [(.query 0 .getObjectAndProperty, .pair [0] [0])] ∧
    ((after cfgA fuel esShared).log.map fun e => (e.object, e.property))[0]? = some (bytes "0", bytes "1") := by
  decide +kernel

/-- `isInitialized` is seen, the entities are not -/
def early : Sight := ⟨some 2, .whole none, .whole none⟩

/-- A creating call can PANIC: the storage of the entity it uses is nil. -/
theorem C61_call_can_panic :
    ((weakly cfgA fuel one esShared (filling 60 ++ (.begin 1 (.createStory (bytes "1") (bytes "0")), none) ::
      List.replicate 13 (.step 1 .ok, some early))).crowd.cur 1).map (fun b => Go.end b.prog) = some (some .panic) := by
  decide +kernel

/-- A question about a remark can fail. -/
theorem C61_question_can_fail :
    ((weakly cfgA fuel one esShared (filling 60 ++ (.begin 1 (.query 0 .getObjectAndProperty), none) ::
      List.replicate 20 (.step 1 .ok, some early))).crowd.cur 1).map (fun b => Go.end b.prog) =
      some (some (.err .wrongBitIdentifier)) := by
  decide +kernel

/-- the zero is missed -/
def halfway : Sight := ⟨some 2, .whole none, .whole (some 1)⟩

/-- a remark whose texts have no bit 0 -/
def ones : List Event := [call (.createStory [127] [127])]

def spoiled : Crowd := (weakly cfgB fuel one ones (filling 60 ++ (.begin 1 (.createStory (bytes "~") [127]), none) ::
  List.replicate 220 (.step 1 .ok, some halfway))).crowd

/-- On a storage that has a node 0 a creating call can succeed and store a remark that cannot be read, ever: a character is
    connected to node 0 instead of a bit. -/
theorem C61_remark_can_be_lost : spoiled.log.map (fun e => (e.object, e.property)) = [([127], [127]), (bytes "~", [127])] ∧
    ∀ e ∈ spoiled.log.drop 1, ¬ Readable cfgB fuel spoiled.log (World.open spoiled.store) e := by
  have k : ((spoiled.log.drop 1).all fun e => !succeeds ((Query.ask fuel e.handle .getObjectAndProperty).exec cfgB
        (World.open spoiled.store))) = true := by decide +kernel
  refine ⟨by decide +kernel, ?_⟩
  intro e he hr
  obtain ⟨w', hw⟩ := hr.ask .getObjectAndProperty _ rfl
  have := List.all_eq_true.1 k e he
  rw [hw] at this
  cases this

/-! ### what holds

    If entities are seen as they were assigned, and the storage has no node 0, calls may fail, but nothing goes wrong
    silently.  (Missing: entities that are seen in part, and storages with a node 0; for these it is false.)  The process was
    initialized before or is new; further processes are new. -/

/-- Every remark that any goroutine was ever given reads back as promised. -/
theorem C61_remarks_readable_partial {cfg : Cfg} (hz : cfg.zero = false) {fuel : Nat} {es es' : List Event}
    (h : Stormy cfg fuel es es')
    (hm : (after cfg fuel (es ++ es')).world.mem.isInitialized = true ∨ (after cfg fuel (es ++ es')).world.mem = Layer.fresh)
    (home : Nat → Nat) {ts : List (Move × Option Sight)} (hs : WholeSights ts)
    (ht : ∀ t ∈ ts, ∀ s ∈ t.1.texts, s.length < fuel) {e : Entry} (he : e ∈ (weakly cfg fuel home (es ++ es') ts).crowd.log) :
    Readable cfg fuel (weakly cfg fuel home (es ++ es') ts).crowd.log
      (World.open (weakly cfg fuel home (es ++ es') ts).crowd.store) e := by
  obtain ⟨bs, σ, hi⟩ := Race.weak_inv hz h hm home hs ht
  have := Race.Logs.readable hi.inv hi.logs h.budget.fits (m := Layer.fresh) (fun h => by cases h) he
  rw [hi.store] at this
  exact this

/-- No two remarks have the same identifier. -/
theorem C61_remarks_distinct_partial {cfg : Cfg} (hz : cfg.zero = false) {fuel : Nat} {es es' : List Event}
    (h : Stormy cfg fuel es es')
    (hm : (after cfg fuel (es ++ es')).world.mem.isInitialized = true ∨ (after cfg fuel (es ++ es')).world.mem = Layer.fresh)
    (home : Nat → Nat) {ts : List (Move × Option Sight)} (hs : WholeSights ts)
    (ht : ∀ t ∈ ts, ∀ s ∈ t.1.texts, s.length < fuel) :
    ((weakly cfg fuel home (es ++ es') ts).crowd.log.map fun e => Remark.getIdentifier e.handle).Nodup := by
  obtain ⟨bs, σ, hi⟩ := Race.weak_inv hz h hm home hs ht
  exact hi.logs.nodup

/-- Every answer that any goroutine was ever given is the expected one. -/
theorem C61_answers_right_partial {cfg : Cfg} (hz : cfg.zero = false) {fuel : Nat} {es es' : List Event}
    (h : Stormy cfg fuel es es')
    (hm : (after cfg fuel (es ++ es')).world.mem.isInitialized = true ∨ (after cfg fuel (es ++ es')).world.mem = Layer.fresh)
    (home : Nat → Nat) {ts : List (Move × Option Sight)} (hs : WholeSights ts)
    (ht : ∀ t ∈ ts, ∀ s ∈ t.1.texts, s.length < fuel) {x : Heard} (hx : x ∈ (weakly cfg fuel home (es ++ es') ts).crowd.heard) :
    x.Right ∧ x.log <+: (weakly cfg fuel home (es ++ es') ts).crowd.log := by
  obtain ⟨bs, σ, hi⟩ := Race.weak_inv hz h hm home hs ht
  exact hi.heard x hx

/-- Goroutine 1 sees `isInitialized` and the entities at different times; it fails first and succeeds then. -/
def later : List (Move × Option Sight) :=
  filling 60 ++ (.begin 1 (.query 0 .getObjectAndProperty), none) :: List.replicate 21 (.step 1 .ok, some early) ++
  (.begin 1 (.query 0 .getObjectAndProperty), none) ::
    List.replicate 220 (.step 1 .ok, some ⟨some 2, .whole (some 0), .whole (some 1)⟩)

example : (weakly cfgA fuel one (esShared ++ []) later).crowd.heard.map (fun x => (x.call, x.answer)) =
    [(.query 0 .getObjectAndProperty, .pair (bytes "0") (bytes "1"))] := by decide +kernel
example : WholeSights later := by
  intro t ht s hs
  simp only [later, filling, List.mem_append, List.mem_cons, List.mem_replicate, List.not_mem_nil, or_false] at ht
  obtain ⟨a, b⟩ := t
  simp only [Prod.mk.injEq] at ht
  simp only at hs
  subst hs
  rcases ht with (((⟨_, h⟩ | ⟨_, h⟩) | ⟨_, _, h⟩) | ⟨_, h⟩ | ⟨_, _, h⟩) | ⟨_, h⟩ | ⟨_, _, h⟩ <;> cases h <;> decide

end Semnet.Props
