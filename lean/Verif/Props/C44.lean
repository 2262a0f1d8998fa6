import Verif.Proof.Replace
import Verif.Props.C29
import Verif.Props.C41
/- C44: whether the order of edges matters when texts are not valid UTF-8. -/
namespace Semnet.Props
open Spec Sample

/-- Bytes that are not UTF-8 in the first word of a text make no difference: the call does to the storage, and returns,
    what it does when they are replaced by U+FFFD.  (For any storage, any failures.) -/
theorem C44_replaced (cfg : Cfg) (fuel : Nat) (st : State) (es : List Event)
    (h : ∀ e ∈ es, ∀ t ∈ e.texts, TailValid t) :
    st.events cfg fuel (es.map Event.replaced) = st.events cfg fuel es :=
  events_replaced cfg fuel es st h

/-- If, in each text, only the first word may contain bytes that are not UTF-8, then a fault-free history makes the same
    remarks on all storages that agree on having a node 0.  Missing for the full claim: texts with such bytes in a
    later word, for which it is false (`C44_order_decides`). -/
theorem C44_storage_independent_partial {cfg cfg' : Cfg} (hz : cfg.zero = cfg'.zero) {fuel fuel' : Nat} {es : List Event}
    (h : Calm cfg fuel es) (h' : Calm cfg' fuel' es) (ht : ∀ e ∈ es, ∀ t ∈ e.texts, TailValid t) :
    (after cfg fuel es).log.map Entry.item = (after cfg' fuel' es).log.map Entry.item := by
  have calm : ∀ e ∈ es.map Event.replaced, e.Calm := fun e he => by
    obtain ⟨a, ha, rfl⟩ := List.mem_map.1 he; exact replaced_calm (h.calm a ha)
  obtain ⟨cs, hcs⟩ := C41_all_valid_histories calm fun e he t hte => by
    obtain ⟨a, ha, rfl⟩ := List.mem_map.1 he
    obtain ⟨t₀, _, rfl⟩ := replaced_texts hte
    exact asText_chars t₀
  have key : ∀ {cfg : Cfg} {fuel : Nat}, Calm cfg fuel es →
      Calm cfg (3 * fuel) (cs.map Cmd.event) ∧ after cfg fuel es = after cfg (3 * fuel) (cs.map Cmd.event) := by
    intro cfg fuel h
    refine ⟨⟨h.dup, hcs ▸ replaced_budget h.budget, hcs ▸ calm⟩, ?_⟩
    rw [hcs]
    exact (C29_budget_is_immaterial (by omega) h).symm.trans (C44_replaced cfg (3 * fuel) _ es ht).symm
  rw [(key h).2, (key h').2]
  exact C41_storage_independent hz (key h).1 (key h').1

/-- the storage of `cfgA`, with edges listed in the opposite order -/
def cfgRev : Cfg := ⟨1, false, .ignore, fun _ _ l => l.reverse, fun _ _ l => l.reverse_perm⟩

/-- bytes that are not UTF-8 in first words only -/
def heads : List Event :=
  [.call (.createStory ([0xFF] ++ bytes "1 q") (bytes "2 3")) Go.noFault, .reopen,
   .call (.addRemark 0 [0xE2, 0x82]) Go.noFault]

example : Calm cfgA 40 heads ∧ Calm cfgRev 40 heads ∧ (∀ e ∈ heads, ∀ t ∈ e.texts, TailValid t) ∧
    ¬ TailValid (bytes "1 " ++ [0xFF]) ∧
    (after cfgA 40 heads).log.map Entry.item =
      [⟨bytes "�1 q", bytes "2 3", some 0⟩, ⟨bytes "�1 q", bytes "��", some 0⟩] := by
  refine ⟨⟨rfl, ⟨by decide, by decide +kernel⟩, by simp [heads, Event.Calm]⟩,
    ⟨rfl, ⟨by decide, by decide +kernel⟩, by simp [heads, Event.Calm]⟩, ?_, ?_, ?_⟩
  · unfold TailValid; decide +kernel
  · unfold TailValid; decide +kernel
  · decide +kernel

/-- The second word of the third object is the byte 0xFF.  Its phrase is stored as a twin of the phrase "1 �", and which
    of the twins is found next is decided by the order of edges. -/
def twins : List Event :=
  [.call (.createStory (bytes "1 � 0") (bytes "k")) Go.noFault,
   .call (.createStory (bytes "b") (bytes "k")) Go.noFault,
   .call (.createStory (bytes "1 " ++ [0xFF] ++ bytes " q") (bytes "k")) Go.noFault,
   .call (.createStory (bytes "a") (bytes "`")) Go.noFault,
   .call (.createStory (bytes "1 � 0") (bytes "k")) Go.noFault]

/-- In general the order in which the storage lists edges decides whether a call succeeds. -/
theorem C44_order_decides : Calm cfgA 40 twins ∧ Calm cfgRev 40 twins ∧
    (after cfgA 40 twins).log.length = 4 ∧ (after cfgRev 40 twins).log.length = 5 := by
  refine ⟨⟨rfl, ⟨by decide, by decide +kernel⟩, by simp [twins, Event.Calm]⟩,
    ⟨rfl, ⟨by decide, by decide +kernel⟩, by simp [twins, Event.Calm]⟩, ?_, ?_⟩
  · decide +kernel
  · decide +kernel

end Semnet.Props
