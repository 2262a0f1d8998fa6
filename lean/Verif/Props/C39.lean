import Verif.Proof.Machine
import Verif.Props.Sample
/- C39: what queries answer, exactly. -/
namespace Semnet.Props
open Spec Sample

/-- In every fault-free history, over any texts, each of the nine queries on each remark ever returned answers exactly
    what the log and one number say: `links`, the number of links in the chain that all stories share on storages with a
    node 0.  In particular no query depends on anything else, and none panics. -/
theorem C39_queries_exact {cfg : Cfg} {fuel : Nat} {es : List Event} (h : Calm cfg fuel es) {e : Entry}
    (he : e ∈ (after cfg fuel es).log) (q : Query) :
    (Machine.reply cfg.zero ⟨(after cfg fuel es).log.map Entry.item, links cfg fuel es⟩ e.item q).Is (after cfg fuel es).log
      ((q.ask fuel e.handle).exec cfg (after cfg fuel es).world).1 := by
  obtain ⟨σ, hs, hc⟩ := h.holds he
  exact reply_exact h.budget.fits hs hc rfl (fun hz => by rw [← links_T0 hz h, hs.T0]) he q

/-- a history in which one fact was added: `HasNextFact` of the story is true, `GetNextStory` answers the class nodes -/
example : Calm cfgB fuel (esB.take 2) ∧ (after cfgB fuel (esB.take 2)).log.length = 2 ∧
    links cfgB fuel (esB.take 2) = 1 ∧
    Machine.reply true ⟨(after cfgB fuel (esB.take 2)).log.map Entry.item, 1⟩ ⟨bytes "ab", bytes "c", some 0⟩ .getNextStory
      = .classes := by
  refine ⟨⟨rfl, ⟨by decide, by decide +kernel⟩, by simp [esB, call, Event.Calm]⟩, ?_⟩
  decide +kernel

end Semnet.Props
