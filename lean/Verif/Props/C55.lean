import Verif.Proof.RaceMoody
import Verif.Props.C50
import Verif.Props.C54
/- C55: goroutines racing on a storage that lists edges in another order at every call. -/
namespace Semnet.Props
open Spec Sample

/-! The setting of C49 and C50 - goroutines of any number of processes, any interleaving, any failures and deaths, on a
    storage that has no node 0 and holds a remark - but as in C54 every storage call is answered by a storage of its own: it
    may list edges in another order and consume another number of identifiers each time, during the history, during the
    race and when the results are read. -/

/-- the crowd after the moves `ts` -/
abbrev moodyCrowd (cfg : Cfg) (fuel : Nat) (home : Nat → Nat) (es : List ((Nat → Cfg) × Event)) (ts : List (Cfg × Move)) : Crowd :=
  (Crowd.start (moodily cfg fuel es)).feel fuel home ts

/-- A storage that never changes its habits: the crowd of C49. -/
theorem C55_ordinary (cfg : Cfg) (fuel : Nat) (home : Nat → Nat) (es : List Event) (ts : List Move) :
    moodyCrowd cfg fuel home (es.map fun e => (fun _ => cfg, e)) (ts.map fun t => (cfg, t)) = sharing cfg fuel home es ts := by
  unfold moodyCrowd sharing
  rw [C54_ordinary, Race.moves_feel]

/-- Every remark that any goroutine was ever given reads back as promised, in whatever mood, by a new process and in every
    process of the crowd; and the remark that opened its story is logged. -/
theorem C55_remarks_readable {cfg : Cfg} (hz : cfg.zero = false) {fuel : Nat} {es es' : List ((Nat → Cfg) × Event)}
    (h : StormyMoods cfg fuel es es') (home : Nat → Nat) {ts : List (Cfg × Move)} (hd : ∀ t ∈ ts, t.1.dup = cfg.dup)
    (ht : ∀ t ∈ ts, ∀ s ∈ t.2.texts, s.length < fuel) {e : Entry} (he : e ∈ (moodyCrowd cfg fuel home (es ++ es') ts).log) :
    ReadableMoods cfg fuel (moodyCrowd cfg fuel home (es ++ es') ts).log
      (World.open (moodyCrowd cfg fuel home (es ++ es') ts).store) e ∧
    (∀ p, ReadableMoods cfg fuel (moodyCrowd cfg fuel home (es ++ es') ts).log
      ⟨(moodyCrowd cfg fuel home (es ++ es') ts).store, (moodyCrowd cfg fuel home (es ++ es') ts).mem p⟩ e) ∧
    ∃ i e', e.opener = some i ∧ (moodyCrowd cfg fuel home (es ++ es') ts).log[i]? = some e' := by
  obtain ⟨bs, σ, hi⟩ := Race.moodyCrowd hz h home hd ht
  obtain ⟨i, e', h1, h2⟩ := hi.opener hz he
  exact ⟨hi.readableM h.start.calm.budget.fits (fun h => by cases h) he,
    fun p => hi.readableM h.start.calm.budget.fits (hi.mem p) he, i, e', h1, h2⟩

/-- No two remarks have the same identifier. -/
theorem C55_remarks_distinct {cfg : Cfg} (hz : cfg.zero = false) {fuel : Nat} {es es' : List ((Nat → Cfg) × Event)}
    (h : StormyMoods cfg fuel es es') (home : Nat → Nat) {ts : List (Cfg × Move)} (hd : ∀ t ∈ ts, t.1.dup = cfg.dup)
    (ht : ∀ t ∈ ts, ∀ s ∈ t.2.texts, s.length < fuel) :
    ((moodyCrowd cfg fuel home (es ++ es') ts).log.map fun e => Remark.getIdentifier e.handle).Nodup := by
  obtain ⟨bs, σ, hi⟩ := Race.moodyCrowd hz h home hd ht
  exact hi.logs.nodup

/-- Every answer that any goroutine was ever given is the expected one; what was expected when it asked is still expected. -/
theorem C55_answers_right {cfg : Cfg} (hz : cfg.zero = false) {fuel : Nat} {es es' : List ((Nat → Cfg) × Event)}
    (h : StormyMoods cfg fuel es es') (home : Nat → Nat) {ts : List (Cfg × Move)} (hd : ∀ t ∈ ts, t.1.dup = cfg.dup)
    (ht : ∀ t ∈ ts, ∀ s ∈ t.2.texts, s.length < fuel) {x : Heard} (hx : x ∈ (moodyCrowd cfg fuel home (es ++ es') ts).heard) :
    x.Right ∧ x.log <+: (moodyCrowd cfg fuel home (es ++ es') ts).log := by
  obtain ⟨bs, σ, hi⟩ := Race.moodyCrowd hz h home hd ht
  exact hi.heard x hx

/-- A goroutine that asks about a logged remark, and whose own storage calls do not fail, is given the expected answers,
    whatever the mood in which it goes on. -/
theorem C55_readers_succeed {cfg : Cfg} (hz : cfg.zero = false) {fuel : Nat} {es es' : List ((Nat → Cfg) × Event)}
    (h : StormyMoods cfg fuel es es') (home : Nat → Nat) {ts : List (Cfg × Move)} (hd : ∀ t ∈ ts, t.1.dup = cfg.dup)
    (ht : ∀ t ∈ ts, ∀ s ∈ t.2.texts, s.length < fuel) {j : Nat} {rd : Asker}
    (hr : (moodyCrowd cfg fuel home (es ++ es') ts).readers j = some rd) {e : Entry} (he : e ∈ rd.log)
    (hid : Remark.getIdentifier e.handle = rd.identifier) {as : List Answer} (ha : e.answers rd.log rd.asked = some as)
    {g : Nat → Cfg} (hg : Suits cfg g) :
    rd.results g (moodyCrowd cfg fuel home (es ++ es') ts).store ((moodyCrowd cfg fuel home (es ++ es') ts).mem (home j)) =
      .ok as := by
  obtain ⟨bs, σ, hi⟩ := Race.moodyCrowd hz h home hd ht
  exact hi.results hr hg e he hid as ha

/-- So nothing that was there before is lost. -/
theorem C55_nothing_lost {cfg : Cfg} (hz : cfg.zero = false) {fuel : Nat} {es es' : List ((Nat → Cfg) × Event)}
    (h : StormyMoods cfg fuel es es') (home : Nat → Nat) {ts : List (Cfg × Move)} (hd : ∀ t ∈ ts, t.1.dup = cfg.dup)
    (ht : ∀ t ∈ ts, ∀ s ∈ t.2.texts, s.length < fuel) {e : Entry} (he : e ∈ (moodily cfg fuel (es ++ es')).log) :
    ReadableMoods cfg fuel (moodyCrowd cfg fuel home (es ++ es') ts).log
      (World.open (moodyCrowd cfg fuel home (es ++ es') ts).store) e :=
  (C55_remarks_readable hz h home hd ht ((Race.feel_log fuel home ts (Crowd.start _)).subset he)).1

/-- An endless run: a goroutine in the middle of a call, whose process does not die and which takes infinitely many steps,
    returns from the call, and not because a loop used up its budget - however the order of the lists changes. -/
theorem C55_wait_free {cfg : Cfg} (hz : cfg.zero = false) {fuel : Nat} {es es' : List ((Nat → Cfg) × Event)}
    (h : StormyMoods cfg fuel es es') (home : Nat → Nat) {s : Nat → Cfg × Move} (hm : ∀ k, (s k).1.dup = cfg.dup)
    (ht : ∀ k, ∀ t ∈ (s k).2.texts, t.length < fuel) {i n : Nat} {b : Begun}
    (hb : ((Crowd.start (moodily cfg fuel (es ++ es'))).feels fuel home s n).cur i = some b)
    (hinf : ∀ m, ∃ k, m ≤ k ∧ ∃ f, (s k).2 = .step i f) (hd : ∀ k, n ≤ k → (s k).2 ≠ .die (home i)) :
    ∃ k b' o, n ≤ k ∧ ((Crowd.start (moodily cfg fuel (es ++ es'))).feels fuel home s k).cur i = some b' ∧
      b'.call = b.call ∧ b'.log = b.log ∧ o ≠ .spin ∧
      (Crowd.start (moodily cfg fuel (es ++ es'))).feels fuel home s (k + 1) =
        ((Crowd.start (moodily cfg fuel (es ++ es'))).feels fuel home s k).return i b' o := by
  obtain ⟨k, b', o, h1, h2, h3, h4, h5, h6⟩ := Race.returnsM hinf b.prog b n rfl hb hd
  refine ⟨k, b', o, h1, h2, h3, h4, ?_, h6⟩
  rw [Race.feels_feel] at h2
  obtain ⟨bs, σ, hi⟩ := Race.moodyCrowd hz h home (ts := (List.range k).map s)
    (by intro t htt; obtain ⟨j, _, rfl⟩ := List.mem_map.1 htt; exact hm j)
    (by intro t htt; obtain ⟨j, _, rfl⟩ := List.mem_map.1 htt; exact ht j)
  intro ho
  subst ho
  exact hi.noSpin h2 h5

/-- The budget is immaterial: with any larger one the same calls return the same results and leave the same storage. -/
theorem C55_budget_is_immaterial {cfg : Cfg} (hz : cfg.zero = false) {fuel fuel' : Nat} (hf : fuel ≤ fuel')
    {es es' : List ((Nat → Cfg) × Event)} (h : StormyMoods cfg fuel es es') (home : Nat → Nat) {ts : List (Cfg × Move)}
    (hd : ∀ t ∈ ts, t.1.dup = cfg.dup) (ht : ∀ t ∈ ts, ∀ s ∈ t.2.texts, s.length < fuel)
    (hs : ∀ t ∈ ts, ∀ j i qs, t.2 ≠ .spawn j i qs) :
    ((Crowd.start (moodily cfg fuel (es ++ es'))).feel fuel' home ts).store =
      (moodyCrowd cfg fuel home (es ++ es') ts).store ∧
    ((Crowd.start (moodily cfg fuel (es ++ es'))).feel fuel' home ts).log =
      (moodyCrowd cfg fuel home (es ++ es') ts).log ∧
    ((Crowd.start (moodily cfg fuel (es ++ es'))).feel fuel' home ts).heard =
      (moodyCrowd cfg fuel home (es ++ es') ts).heard := by
  obtain ⟨bs, σ, hi⟩ := Race.moodyStart hz h
  have := Race.Alike.feel hz rfl hf h.start.calm.budget.fits (home := home) ts hi (Race.Alike.start _) hd
    (fun t htt s hs => .std (ht t htt s hs)) hs
  exact ⟨this.store, this.log, this.heard⟩

/-! ### a moody race -/

/-- the moves of `ts`, the storage turning its lists round after each of them -/
def whims (ts : List Move) : List (Cfg × Move) := ts.mapIdx fun i t => (fickle (i % 4), t)

/-- `esShared`, in one mood -/
def steadily : List ((Nat → Cfg) × Event) := esShared.map fun e => (fun _ => cfgA, e)

theorem steadily_stormy : StormyMoods cfgA fuel steadily [] := by
  refine ⟨⟨?_, ?_⟩, ?_, ⟨by decide, by simp⟩, by simp⟩
  · have : steadily.map Prod.snd = esShared := rfl
    rw [this]
    exact stormyA.start
  · intro e he
    obtain ⟨_, _, rfl⟩ := List.mem_map.1 he
    exact fun _ => rfl
  · show (moodily cfgA fuel (esShared.map fun e => (fun _ => cfgA, e))).log ≠ []
    rw [C54_ordinary]
    exact stormyA.log

theorem whims_suit (ts : List Move) : ∀ t ∈ whims ts, t.1.dup = cfgA.dup := by
  intro t ht
  obtain ⟨i, _, rfl⟩ := List.mem_mapIdx.1 ht
  rfl

theorem whims_texts {ts : List Move} (h : ∀ t ∈ ts, ∀ s ∈ t.texts, s.length < fuel) :
    ∀ t ∈ whims ts, ∀ s ∈ t.2.texts, s.length < fuel := by
  intro t ht
  obtain ⟨i, hi, rfl⟩ := List.mem_mapIdx.1 ht
  exact h _ (List.getElem_mem hi)

/-- the hypotheses hold of the race of C48, the lists being turned round all the time; both calls succeed -/
example : StormyMoods cfgA fuel steadily [] ∧ (∀ t ∈ whims (race 125), t.1.dup = cfgA.dup) ∧
    (∀ t ∈ whims (race 125), ∀ s ∈ t.2.texts, s.length < fuel) ∧
    ((Crowd.start (after cfgA fuel esShared)).feel fuel id (whims (race 125))).log.map (fun e => (e.object, e.property)) =
      [(bytes "0", bytes "1"), (bytes "a", bytes "b"), (bytes "1", bytes "0"), (bytes "1", bytes "0")] :=
  ⟨steadily_stormy, whims_suit _, whims_texts (race_texts 125), by decide +kernel⟩

end Semnet.Props
