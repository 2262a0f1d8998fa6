import Verif.Proof.Scribe
import Verif.Props.Sample
/- C41: the API over arbitrary texts is a machine with a lexicon. -/
namespace Semnet.Props
open Spec Sample

/-- The remarks created in a fault-free history are those that the scribe of `Spec/Scribe.lean` notes, with the same
    texts and the same story openers, in the same order. -/
theorem C41_same_remarks {cfg : Cfg} {fuel : Nat} {cs : List Cmd} (h : Calm cfg fuel (cs.map Cmd.event)) :
    (after cfg fuel (cs.map Cmd.event)).log.map Entry.item = (scribe cfg.zero cs).notes.map Note.item :=
  (scribe_runs h).notes.symm

/-- Every creating call ends as the scribe says: with a remark, with an error or with a panic. -/
theorem C41_same_verdicts {cfg : Cfg} {fuel : Nat} {cs : List Cmd} (h : Calm cfg fuel (cs.map Cmd.event)) {c : Cmd} {k : Call}
    (hk : c.call = some k) (ht : ∀ t ∈ k.texts, t.length < fuel)
    (hp : k.pair (after cfg fuel (cs.map Cmd.event)).log ≠ none) (v : Verdict) :
    v.Is ((k.prog fuel (after cfg fuel (cs.map Cmd.event)).log).exec cfg (after cfg fuel (cs.map Cmd.event)).world).1 ↔
      ((scribe cfg.zero cs).judge cfg.zero c).map Prod.snd = some v :=
  scribe_iff h hk ht hp v

/-- Every query on every remark is answered as the scribe's notes say. -/
theorem C41_same_answers {cfg : Cfg} {fuel : Nat} {cs : List Cmd} (h : Calm cfg fuel (cs.map Cmd.event)) {e : Entry}
    (he : e ∈ (after cfg fuel (cs.map Cmd.event)).log) (q : Query) :
    ((scribe cfg.zero cs).machine.reply cfg.zero e.item q).Is (after cfg fuel (cs.map Cmd.event)).log
      ((q.ask fuel e.handle).exec cfg (after cfg fuel (cs.map Cmd.event)).world).1 := by
  have a := scribe_runs h
  obtain ⟨σ, hs, hc⟩ := h.holds he
  exact reply_exact h.budget.fits hs hc a.notes (fun hz => (a.links hz).trans (by rw [hs.T0])) he q

/-- Every creating call on an existing remark has a verdict. -/
theorem C41_verdict_exists {cfg : Cfg} {fuel : Nat} {cs : List Cmd} (h : Calm cfg fuel (cs.map Cmd.event)) {c : Cmd} {k : Call}
    (hk : c.call = some k) :
    (scribe cfg.zero cs).judge cfg.zero c ≠ none ↔ k.pair (after cfg fuel (cs.map Cmd.event)).log ≠ none := by
  rw [scribe_pair (scribe_runs h).notes hk]
  unfold Scribe.judge
  cases (scribe cfg.zero cs).note c <;> simp

/-- The histories of commands are the fault-free histories whose texts are valid UTF-8. -/
theorem C41_all_valid_histories {es : List Event} (hc : ∀ e ∈ es, e.Calm)
    (ht : ∀ e ∈ es, ∀ t ∈ e.texts, ∃ s, t = utf8 s) : ∃ cs : List Cmd, cs.map Cmd.event = es := by
  induction es with
  | nil => exact ⟨[], rfl⟩
  | cons e es ih =>
    obtain ⟨cs, rfl⟩ := ih (fun e h => hc e (by simp [h])) (fun e h => ht e (by simp [h]))
    have tx := ht e (by simp)
    have key : ∃ c : Cmd, c.event = e := by
      cases e with
      | crash k f n => exact (hc (.crash k f n) (by simp)).elim
      | reopen => exact ⟨.reopen, rfl⟩
      | call k f =>
        have hf : f = Go.noFault := hc (.call k f) (by simp)
        subst hf
        cases k with
        | createStory o p =>
          obtain ⟨o, rfl⟩ := tx o (by simp [Event.texts, Call.texts])
          obtain ⟨p, rfl⟩ := tx p (by simp [Event.texts, Call.texts])
          exact ⟨.createStory o p, rfl⟩
        | addRemark i p =>
          obtain ⟨p, rfl⟩ := tx p (by simp [Event.texts, Call.texts])
          exact ⟨.addRemark i p, rfl⟩
        | addFact i o p =>
          obtain ⟨o, rfl⟩ := tx o (by simp [Event.texts, Call.texts])
          obtain ⟨p, rfl⟩ := tx p (by simp [Event.texts, Call.texts])
          exact ⟨.addFact i o p, rfl⟩
        | addChild i o p =>
          obtain ⟨o, rfl⟩ := tx o (by simp [Event.texts, Call.texts])
          obtain ⟨p, rfl⟩ := tx p (by simp [Event.texts, Call.texts])
          exact ⟨.addChild i o p, rfl⟩
        | query i q => exact ⟨.query i q, rfl⟩
        | getRemark i => exact ⟨.getRemark i, rfl⟩
    obtain ⟨c, rfl⟩ := key
    exact ⟨c :: cs, rfl⟩

/-- The remarks made do not depend on the storage, apart from the question whether it has a node 0: not on how it
    orders edges, not on how it numbers nodes. -/
theorem C41_storage_independent {cfg cfg' : Cfg} (hz : cfg.zero = cfg'.zero) {fuel fuel' : Nat} {cs : List Cmd}
    (h : Calm cfg fuel (cs.map Cmd.event)) (h' : Calm cfg' fuel' (cs.map Cmd.event)) :
    (after cfg fuel (cs.map Cmd.event)).log.map Entry.item = (after cfg' fuel' (cs.map Cmd.event)).log.map Entry.item := by
  rw [C41_same_remarks h, C41_same_remarks h', hz]

/-- '0' is 110000, 'a' is 1100001: once 'a' is in use, words that start with '0' are refused, unless there is exactly
    one such word already; the texts of refused calls stay in the lexicon. -/
def cmds : List Cmd :=
  [.createStory ['a'] ['0'], .createStory ['1'] ['2', ' ', '1'], .addRemark 0 ['3'], .createStory ['0'] ['a'],
   .reopen, .createStory ['2', ' ', '1'] ['2', ' ', '1', ' ', '1']]

example : Calm cfgA fuel (cmds.map Cmd.event) ∧ (scribe false cmds).notes =
      [⟨['1'], ['2', ' ', '1'], some 0⟩, ⟨['1'], ['3'], some 0⟩, ⟨['2', ' ', '1'], ['2', ' ', '1', ' ', '1'], some 2⟩] ∧
    ((scribe false cmds).judge false (.createStory ['1'] ['0'])).map Prod.snd = some .error ∧
    ((scribe false cmds).judge false (.createStory ['1', ' ', '0'] ['1'])).map Prod.snd = some .panic ∧
    ((scribe false cmds).judge false (.createStory ['1', '0'] ['1'])).map Prod.snd = some .created ∧
    ((scribe false [.createStory ['0'] ['a']]).judge false (.createStory ['0'] ['a', '0'])).map Prod.snd = some .created ∧
    ((scribe false [.createStory ['0'] ['0']]).judge false (.createStory ['a'] ['0'])).map Prod.snd = some .error := by
  refine ⟨⟨rfl, ⟨by decide, by decide +kernel⟩, by simp [cmds, Cmd.event, Cmd.call, Event.Calm]⟩, ?_⟩
  decide +kernel

end Semnet.Props
