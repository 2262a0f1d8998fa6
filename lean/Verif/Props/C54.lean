import Verif.Proof.Moody
import Verif.Props.Sample
/- C54: the storage may list edges in another order at every call. -/
namespace Semnet.Props
open Spec Sample

/-- A history in which the storage never changes its habits is an ordinary one. -/
theorem C54_ordinary (cfg : Cfg) (fuel : Nat) (es : List Event) :
    moodily cfg fuel (es.map fun e => (fun _ => cfg, e)) = after cfg fuel es := by
  unfold moodily after State.events
  rw [List.foldl_map]
  congr 1
  funext st e
  cases e with
  | call c f =>
    show st.ended c ((c.prog fuel st.log).runs (fun _ => cfg) f st.world) = st.call cfg fuel c f
    rw [runs_const]
    rfl
  | crash c f n =>
    show State.mk (World.open ((c.prog fuel st.log).crashes n (fun _ => cfg) f st.world)) st.log = _
    rw [crashes_const]
    rfl
  | reopen => rfl

/-- After a fault-free history, in whatever moods, every remark that a call returned reads back as promised, in
    whatever mood it is asked for. -/
theorem C54_readable {cfg : Cfg} {fuel : Nat} {es : List ((Nat → Cfg) × Event)} (h : CalmMoods cfg fuel es) {e : Entry}
    (he : e ∈ (moodily cfg fuel es).log) :
    ReadableMoods cfg fuel (moodily cfg fuel es).log (moodily cfg fuel es).world e := by
  obtain ⟨σ, hs, _⟩ := h.holds he
  exact hs.readableMoods h.calm.budget.fits he

/-- Different calls return different remarks. -/
theorem C54_identifiers {cfg : Cfg} {fuel : Nat} {es : List ((Nat → Cfg) × Event)} (h : CalmMoods cfg fuel es) :
    ((moodily cfg fuel es).log.map fun e => Remark.getIdentifier e.handle).Nodup := by
  by_cases hl : (moodily cfg fuel es).log = []
  · rw [hl]; simp
  · obtain ⟨σ, hs, _⟩ := h.sound.holds hl
    exact hs.keeps.nodup

/-- On storages without a node 0: failures and crashes, in whatever moods, lose nothing. -/
theorem C54_stormy {cfg : Cfg} (hz : cfg.zero = false) {fuel : Nat} {es es' : List ((Nat → Cfg) × Event)}
    (h : StormyMoods cfg fuel es es') {e : Entry} (he : e ∈ (moodily cfg fuel (es ++ es')).log) :
    ReadableMoods cfg fuel (moodily cfg fuel (es ++ es')).log (moodily cfg fuel (es ++ es')).world e := by
  obtain ⟨σ, hs⟩ := h.holds hz
  exact hs.readableMoods h.start.calm.budget.fits he

/-- Whatever happens afterwards, the log keeps its entries at their places. -/
theorem C54_log_grows (cfg : Cfg) (fuel : Nat) (es es' : List ((Nat → Cfg) × Event)) :
    ∃ l, (moodily cfg fuel (es ++ es')).log = (moodily cfg fuel es).log ++ l := by
  rw [moodily_append]
  exact felts_log fuel es' _

/-- The remarks made in a fault-free history with texts of characters are those that the scribe of `Spec/Scribe.lean`
    notes; it knows nothing of moods. -/
theorem C54_same_remarks {cfg : Cfg} {fuel : Nat} {es : List ((Nat → Cfg) × Cmd)}
    (h : CalmMoods cfg fuel (es.map fun e => (e.1, e.2.event))) :
    (moodily cfg fuel (es.map fun e => (e.1, e.2.event))).log.map Entry.item =
      (scribe cfg.zero (es.map Prod.snd)).notes.map Note.item :=
  (scribe_moody h).notes.symm

/-- Every creating call on a logged remark ends as the scribe says, whatever the mood. -/
theorem C54_same_verdicts {cfg : Cfg} {fuel : Nat} {es : List ((Nat → Cfg) × Cmd)}
    (h : CalmMoods cfg fuel (es.map fun e => (e.1, e.2.event))) {g : Nat → Cfg} (hg : Suits cfg g) {c : Cmd} {k : Call}
    (hk : c.call = some k) (ht : ∀ t ∈ k.texts, t.length < fuel)
    (hp : k.pair (moodily cfg fuel (es.map fun e => (e.1, e.2.event))).log ≠ none) (v : Verdict) :
    v.Is ((k.prog fuel (moodily cfg fuel (es.map fun e => (e.1, e.2.event))).log).runs g Go.noFault
      (moodily cfg fuel (es.map fun e => (e.1, e.2.event))).world).1 ↔
      ((scribe cfg.zero (es.map Prod.snd)).judge cfg.zero c).map Prod.snd = some v := by
  have a := scribe_moody h
  have b := (a.callM (.inl h.calm.dup) h.calm.budget.fits hg hk fun t h' => TextOK.std (ht t h')).2
  rw [scribe_pair a.notes hk] at hp
  cases hj : (scribe cfg.zero (es.map Prod.snd)).judge cfg.zero c with
  | none =>
    cases hn : (scribe cfg.zero (es.map Prod.snd)).note c with
    | none => rw [hn] at hp; exact absurd rfl hp
    | some n => rw [judge_eq hn] at hj; cases hj
  | some q =>
    obtain ⟨l, v'⟩ := q
    have hv := b v' (by rw [hj]; rfl)
    simp only [Option.map_some, Option.some.injEq]
    exact ⟨fun h => Verdict.unique hv h, fun h => h ▸ hv⟩

/-- Each of the nine queries on each remark ever returned is answered as the scribe's notes say, whatever the mood. -/
theorem C54_same_answers {cfg : Cfg} {fuel : Nat} {es : List ((Nat → Cfg) × Cmd)}
    (h : CalmMoods cfg fuel (es.map fun e => (e.1, e.2.event))) {g : Nat → Cfg} (hg : Suits cfg g) {e : Entry}
    (he : e ∈ (moodily cfg fuel (es.map fun e => (e.1, e.2.event))).log) (q : Query) :
    (Machine.reply cfg.zero (scribe cfg.zero (es.map Prod.snd)).machine e.item q).Is
      (moodily cfg fuel (es.map fun e => (e.1, e.2.event))).log
      ((q.ask fuel e.handle).runs g Go.noFault (moodily cfg fuel (es.map fun e => (e.1, e.2.event))).world).1 := by
  have a := scribe_moody h
  obtain ⟨σ, hs, hc⟩ := h.holds he
  exact reply_exactM h.calm.budget.fits hs hc a.notes (fun hz => by rw [hs.T0]; exact a.links hz) he hg q

/-- The same commands make the same remarks in all moods. -/
theorem C54_mood_is_immaterial {cfg cfg' : Cfg} (hz : cfg.zero = cfg'.zero) {fuel fuel' : Nat}
    {es es' : List ((Nat → Cfg) × Cmd)} (hc : es.map Prod.snd = es'.map Prod.snd)
    (h : CalmMoods cfg fuel (es.map fun e => (e.1, e.2.event)))
    (h' : CalmMoods cfg' fuel' (es'.map fun e => (e.1, e.2.event))) :
    (moodily cfg fuel (es.map fun e => (e.1, e.2.event))).log.map Entry.item =
      (moodily cfg' fuel' (es'.map fun e => (e.1, e.2.event))).log.map Entry.item := by
  rw [C54_same_remarks h, C54_same_remarks h', hc, hz]

/-! ### examples -/

/-- the storage lists edges forwards and backwards in turn, and consumes more and more identifiers -/
def fickle (n : Nat) : Cfg :=
  ⟨n, false, .ignore, fun _ _ l => if n % 2 = 0 then l else l.reverse,
    fun _ _ l => by split; exact .refl l; exact l.reverse_perm⟩

/-- starting with the opposite order -/
def fickle' (n : Nat) : Cfg := fickle (n + 1)

theorem fickle_suits {cfg : Cfg} (h : cfg.dup = .ignore) : Suits cfg fickle ∧ Suits cfg fickle' :=
  ⟨fun _ => h.symm, fun _ => h.symm⟩

def moody : List ((Nat → Cfg) × Cmd) :=
  [(fickle, .createStory "1 q".toList "2".toList), (fickle', .reopen), (fickle', .addRemark 0 "1 2".toList)]

theorem moody_calm (cfg : Cfg) (h : cfg.dup = .ignore) : CalmMoods cfg 40 (moody.map fun e => (e.1, e.2.event)) := by
  refine ⟨⟨h, ⟨by decide, ?_⟩, ?_⟩, ?_⟩
  · show ∀ e ∈ moody.map fun e => e.2.event, ∀ t ∈ e.texts, t.length < 40
    decide +kernel
  · intro e he
    simp [moody, Cmd.event, Cmd.call] at he
    rcases he with rfl | rfl | rfl <;> trivial
  · intro e he
    simp [moody, Cmd.event, Cmd.call] at he
    rcases he with rfl | rfl | rfl <;>
      first | exact (fickle_suits h).1 | exact (fickle_suits h).2

example : CalmMoods cfgA 40 (moody.map fun e => (e.1, e.2.event)) ∧
    (moodily cfgA 40 (moody.map fun e => (e.1, e.2.event))).log.map Entry.item =
      [⟨bytes "1 q", bytes "2", some 0⟩, ⟨bytes "1 q", bytes "1 2", some 0⟩] :=
  ⟨moody_calm cfgA rfl, by decide +kernel⟩

/-- a call that fails half-way, a crash, and another call -/
def stormy : List ((Nat → Cfg) × Event) :=
  [(fickle, .call (.addRemark 0 (bytes "7")) fun n => if n = 30 then .failLate else .ok),
   (fickle', .crash (.createStory (bytes "1 q") (bytes "9")) Go.noFault 25),
   (fickle', .call (.addRemark 0 (bytes "3")) Go.noFault)]

example : StormyMoods cfgA 40 (moody.map fun e => (e.1, e.2.event)) stormy ∧
    (moodily cfgA 40 (moody.map (fun e => (e.1, e.2.event)) ++ stormy)).log.map Entry.item =
      [⟨bytes "1 q", bytes "2", some 0⟩, ⟨bytes "1 q", bytes "1 2", some 0⟩, ⟨bytes "1 q", bytes "3", some 0⟩] := by
  refine ⟨⟨moody_calm cfgA rfl, ?_, ⟨by decide, by decide +kernel⟩, ?_⟩, by decide +kernel⟩
  · have : (moodily cfgA 40 (moody.map fun e => (e.1, e.2.event))).log.length = 2 := by decide +kernel
    intro h
    rw [h] at this
    cases this
  · intro e he
    simp [stormy] at he
    rcases he with rfl | rfl | rfl <;> first | exact (fickle_suits rfl).1 | exact (fickle_suits rfl).2

end Semnet.Props
