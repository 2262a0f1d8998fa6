import Verif.Proof.RaceSys
import Verif.Props.C35
/- C48: any number of processes writing at the same time. -/
namespace Semnet.Props
open Spec Sample

/-! After a calm history that has created a remark, and then any events, on a storage without a node 0, any number of
    processes perform API calls of their own choice at the same time: the moves `ts` interleave their storage calls in any
    way, any storage call may fail with or without effect, processes may die in the middle of calls and be started anew. -/

/-- the crowd after the moves `ts`: each process has one thread and one reader -/
abbrev crowd (cfg : Cfg) (fuel : Nat) (es : List Event) (ts : List Move) : Crowd :=
  (Crowd.start (after cfg fuel es)).moves cfg fuel id ts

/-- Every remark that any process was ever given reads back as promised, by a new process and in every process of the
    crowd; and the remark that opened its story is logged. -/
theorem C48_remarks_readable {cfg : Cfg} (hz : cfg.zero = false) {fuel : Nat} {es es' : List Event}
    (h : Stormy cfg fuel es es') {ts : List Move} (ht : ∀ t ∈ ts, ∀ s ∈ t.texts, s.length < fuel) {e : Entry}
    (he : e ∈ (crowd cfg fuel (es ++ es') ts).log) :
    Readable cfg fuel (crowd cfg fuel (es ++ es') ts).log (World.open (crowd cfg fuel (es ++ es') ts).store) e ∧
    (∀ p, Readable cfg fuel (crowd cfg fuel (es ++ es') ts).log
      ⟨(crowd cfg fuel (es ++ es') ts).store, (crowd cfg fuel (es ++ es') ts).mem p⟩ e) ∧
    ∃ i e', e.opener = some i ∧ (crowd cfg fuel (es ++ es') ts).log[i]? = some e' := by
  obtain ⟨bs, σ, hi⟩ := Race.crowd_inv hz h id ht
  obtain ⟨i, e', h1, h2⟩ := hi.opener hz he
  exact ⟨hi.readable h.budget.fits (fun h => by cases h) he, fun p => hi.readable h.budget.fits (hi.mem p) he,
    i, e', h1, h2⟩

/-- No two remarks have the same identifier. -/
theorem C48_remarks_distinct {cfg : Cfg} (hz : cfg.zero = false) {fuel : Nat} {es es' : List Event}
    (h : Stormy cfg fuel es es') {ts : List Move} (ht : ∀ t ∈ ts, ∀ s ∈ t.texts, s.length < fuel) :
    ((crowd cfg fuel (es ++ es') ts).log.map fun e => Remark.getIdentifier e.handle).Nodup := by
  obtain ⟨bs, σ, hi⟩ := Race.crowd_inv hz h id ht
  exact hi.logs.nodup

/-- Every answer that any process was ever given is the expected one; what was expected when it asked is still expected. -/
theorem C48_answers_right {cfg : Cfg} (hz : cfg.zero = false) {fuel : Nat} {es es' : List Event}
    (h : Stormy cfg fuel es es') {ts : List Move} (ht : ∀ t ∈ ts, ∀ s ∈ t.texts, s.length < fuel) {x : Heard}
    (hx : x ∈ (crowd cfg fuel (es ++ es') ts).heard) : x.Right ∧ x.log <+: (crowd cfg fuel (es ++ es') ts).log := by
  obtain ⟨bs, σ, hi⟩ := Race.crowd_inv hz h id ht
  exact hi.heard x hx

/-- A process that asks about a logged remark, and whose own storage calls do not fail, is given the expected answers. -/
theorem C48_readers_succeed {cfg : Cfg} (hz : cfg.zero = false) {fuel : Nat} {es es' : List Event}
    (h : Stormy cfg fuel es es') {ts : List Move} (ht : ∀ t ∈ ts, ∀ s ∈ t.texts, s.length < fuel) {j : Nat}
    {rd : Asker} (hr : (crowd cfg fuel (es ++ es') ts).readers j = some rd) {e : Entry} (he : e ∈ rd.log)
    (hid : Remark.getIdentifier e.handle = rd.identifier) {as : List Answer} (ha : e.answers rd.log rd.asked = some as) :
    rd.result cfg (crowd cfg fuel (es ++ es') ts).store ((crowd cfg fuel (es ++ es') ts).mem (id j)) =
      .ok as := by
  obtain ⟨bs, σ, hi⟩ := Race.crowd_inv hz h id ht
  exact hi.result hr e he hid as ha

/-- So nothing that was there before is lost: the earlier remarks are readable too. -/
theorem C48_nothing_lost {cfg : Cfg} (hz : cfg.zero = false) {fuel : Nat} {es es' : List Event}
    (h : Stormy cfg fuel es es') {ts : List Move} (ht : ∀ t ∈ ts, ∀ s ∈ t.texts, s.length < fuel) {e : Entry}
    (he : e ∈ (after cfg fuel (es ++ es')).log) :
    Readable cfg fuel (crowd cfg fuel (es ++ es') ts).log (World.open (crowd cfg fuel (es ++ es') ts).store) e :=
  (C48_remarks_readable hz h ht ((Race.moves_log cfg fuel id ts (Crowd.start _)).subset he)).1

/-! ### a race -/

theorem stormyA : Stormy cfgA fuel esShared [] :=
  ⟨⟨rfl, ⟨by decide, by decide +kernel⟩, by simp [esShared, call, Event.Calm]⟩, by decide +kernel,
    by decide, by simp⟩

/-- Two processes create the same story.  The first is interrupted after `n` steps; the second runs to its end;
    then the first goes on. -/
def race (n : Nat) : List Move :=
  [.begin 0 (.createStory (bytes "1") (bytes "0")), .begin 1 (.createStory (bytes "1") (bytes "0"))] ++
  List.replicate n (.step 0 .ok) ++ List.replicate 300 (.step 1 .ok) ++ List.replicate 300 (.step 0 .ok)

theorem race_texts (n : Nat) : ∀ t ∈ race n, ∀ s ∈ t.texts, s.length < fuel := by
  intro t ht s hs
  simp only [race, List.mem_append, List.mem_cons, List.not_mem_nil, or_false, List.mem_replicate] at ht
  rcases ht with (((rfl | rfl) | ⟨_, rfl⟩) | ⟨_, rfl⟩) | ⟨_, rfl⟩
  · revert s; decide
  · revert s; decide
  · cases hs
  · cases hs
  · cases hs

/-- both succeed: two remarks, each with its own identifier -/
example : (crowd cfgA fuel (esShared ++ []) (race 125)).log.length = 4 ∧
    (crowd cfgA fuel (esShared ++ []) (race 125)).log.map (fun e => (e.object, e.property)) =
      [(bytes "0", bytes "1"), (bytes "a", bytes "b"), (bytes "1", bytes "0"), (bytes "1", bytes "0")] := by
  decide +kernel

/-- one fails: the first is interrupted so that the second finds a detail that is not finished -/
example : (crowd cfgA fuel (esShared ++ []) (race 132)).log.length = 3 := by
  decide +kernel

/-- Three processes and a reader.  Process 1 asks for the story of the first remark and is answered; process 2 adds a remark
    to it, one of its storage calls failing after it has taken effect, and then, after dying, adds another one; process 0
    is creating a story all the while. -/
def melee : List Move :=
  [.begin 0 (.createStory (bytes "ab") (bytes "0")), .begin 1 (.query 0 .getStory), .begin 2 (.addRemark 0 (bytes "1")),
    .spawn 3 9 [.getObjectAndProperty, .getFirstFact]] ++
  (List.replicate 30 [.step 0 .ok, .step 1 .ok, .step 2 .ok, .read 3]).flatten ++
  [.step 2 .failLate, .step 0 .ok, .die 2, .begin 2 (.addRemark 0 (bytes "1"))] ++
  (List.replicate 320 [.step 0 .ok, .step 1 .ok, .step 2 .ok, .read 3]).flatten

example : ∀ t ∈ melee, ∀ s ∈ t.texts, s.length < fuel := by decide +kernel

/-- two more remarks, an answer, a reader's answers -/
example : (crowd cfgA fuel (esShared ++ []) melee).log.map (fun e => (e.object, e.property, e.opener)) =
      [(bytes "0", bytes "1", some 0), (bytes "a", bytes "b", some 1), (bytes "ab", bytes "0", some 2),
        (bytes "0", bytes "1", some 0)] ∧
    (crowd cfgA fuel (esShared ++ []) melee).heard.map (·.answer) = [.text (bytes "0 1 ")] ∧
    ((crowd cfgA fuel (esShared ++ []) melee).readers 3).map (fun rd => Go.end rd.prog) =
      some (some (.ok [.pair (bytes "0") (bytes "1"), .remark ⟨9, 11, 12, 13⟩])) := by
  decide +kernel

/-- On a storage with a node 0 the claim is FALSE: the same race leaves a remark that was returned and cannot be read. -/
theorem C48_node_zero_false :
    ∃ e ∈ (crowd cfgB fuel (esShared ++ []) (race 132)).log,
      ¬ Readable cfgB fuel (crowd cfgB fuel (esShared ++ []) (race 132)).log
        (World.open (crowd cfgB fuel (esShared ++ []) (race 132)).store) e := by
  have key : ∃ e, (crowd cfgB fuel (esShared ++ []) (race 132)).log[2]? = some e ∧
      succeeds ((Query.ask fuel e.handle .getObjectAndProperty).exec cfgB
        (World.open (crowd cfgB fuel (esShared ++ []) (race 132)).store)) = false := by
    have : ((crowd cfgB fuel (esShared ++ []) (race 132)).log[2]?.any fun e =>
      !succeeds ((Query.ask fuel e.handle .getObjectAndProperty).exec cfgB
        (World.open (crowd cfgB fuel (esShared ++ []) (race 132)).store))) = true := by decide +kernel
    cases h : (crowd cfgB fuel (esShared ++ []) (race 132)).log[2]? with
    | none => rw [h] at this; cases this
    | some e => rw [h] at this; exact ⟨e, rfl, by simpa using this⟩
  obtain ⟨e, h1, h2⟩ := key
  refine ⟨e, List.mem_of_getElem? h1, fun hr => ?_⟩
  obtain ⟨w, hw⟩ := hr.ask .getObjectAndProperty _ rfl
  rw [hw] at h2
  cases h2

end Semnet.Props
