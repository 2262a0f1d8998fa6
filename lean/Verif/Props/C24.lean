import Verif.Proof.Uses
import Verif.Props.C17
/- C24: reopening is invisible. -/
namespace Semnet.Props
open Spec Sample

/-- After a fault-free history that has stored a remark: any query on any handle — and GetRemark of any
    identifier — gives the same outcome whether asked of the old graph or of a new graph on the same storage,
    and neither writes. -/
theorem C24_reopening_invisible {cfg : Cfg} {fuel : Nat} {es : List Event} (h : Calm cfg fuel es)
    (hl : (after cfg fuel es).log ≠ []) (r : RemE) (q : Query) :
    ((q.ask fuel r).exec cfg (World.open (after cfg fuel es).world.store)).1 =
      ((q.ask fuel r).exec cfg (after cfg fuel es).world).1 ∧
    ((q.ask fuel r).exec cfg (World.open (after cfg fuel es).world.store)).2.store =
      (after cfg fuel es).world.store ∧
    ((q.ask fuel r).exec cfg (after cfg fuel es).world).2.store = (after cfg fuel es).world.store := by
  obtain ⟨σ, hs, _⟩ := h.sound.holds hl
  obtain ⟨e, he⟩ := List.exists_mem_of_ne_nil _ hl
  obtain ⟨bs, hb⟩ := Option.ne_none_iff_exists'.1 (hs.keeps.ok e he).bits
  have hr := hs.inv.ready hs.flt hb
  rw [hs.is.store] at hr
  obtain ⟨o, m1, m2, _, _, h1, h2⟩ := (Quiet.query fuel r q).alike hr Layer.fresh (after cfg fuel es).world.mem
    (fun h => by cases h)
    (fun hm => by
      have := hs.inv.mem (by rw [hs.is.mem]; exact hm)
      rw [hb, hs.is.mem] at this
      exact (Option.some.inj this).symm)
  have e1 : World.open (after cfg fuel es).world.store = ⟨(after cfg fuel es).world.store, Layer.fresh⟩ := rfl
  have e2 : (after cfg fuel es).world = ⟨(after cfg fuel es).world.store, (after cfg fuel es).world.mem⟩ := rfl
  rw [e1, h1]
  generalize (after cfg fuel es).world = w at *
  cases w with
  | mk s m => rw [h2]; exact ⟨rfl, rfl, rfl⟩

/-- neither reads nor writes the bit layer, and does not write the storage -/
def Plain {α : Type} (cfg : Cfg) (p : Go α) : Prop :=
  ∀ s m, ∃ o, p.exec cfg ⟨s, m⟩ = (o, ⟨s, m⟩) ∧ ∀ m', p.exec cfg ⟨s, m'⟩ = (o, ⟨s, m'⟩)

theorem Plain.ref {cfg : Cfg} {x : Nat} : Plain cfg (Go.getReference x) := fun _ m => ⟨_, call_read rfl m, call_read rfl⟩

theorem Plain.bind {α β : Type} {cfg : Cfg} {p : Go α} {f : α → Go β} (hp : Plain cfg p)
    (hf : ∀ a, Plain cfg (f a)) : Plain cfg (p >>= f) := by
  intro s m
  obtain ⟨o, h1, h2⟩ := hp s m
  rw [exec_bind, h1]
  cases o with
  | ok a =>
    obtain ⟨o', h3, h4⟩ := hf a s m
    exact ⟨o', h3, fun m' => by rw [exec_bind, h2]; exact h4 m'⟩
  | err e => exact ⟨_, rfl, fun m' => by rw [exec_bind, h2]⟩
  | panic => exact ⟨_, rfl, fun m' => by rw [exec_bind, h2]⟩
  | spin => exact ⟨_, rfl, fun m' => by rw [exec_bind, h2]⟩

/-- GetRemark of any identifier, on any storage. -/
theorem C24_get_remark_after_reopening (cfg : Cfg) (i : Nat) (w : World) :
    ((Graph.getRemark i).exec cfg (World.open w.store)).1 = ((Graph.getRemark i).exec cfg w).1 := by
  have h : Plain cfg (Graph.getRemark i) :=
    Plain.bind .ref fun _ => Plain.bind .ref fun _ => Plain.bind .ref fun _ => fun _ _ => ⟨_, rfl, fun _ => rfl⟩
  obtain ⟨s, m⟩ := w
  obtain ⟨o, h1, h2⟩ := h s m
  rw [h1, show World.open (World.mk s m).store = ⟨s, Layer.fresh⟩ from rfl, h2]

/-- Creating calls too: after a fault-free history that has stored a remark, any API call has the same outcome and leaves
    the same storage and the same log whether it is made on the old graph or on a new one. -/
theorem C24_calls_after_reopening {cfg : Cfg} {fuel : Nat} {es : List Event} (h : Calm cfg fuel es)
    (hl : (after cfg fuel es).log ≠ []) {c : Call} (ht : ∀ t ∈ c.texts, t.length < fuel) :
    ((c.prog fuel (after cfg fuel es).log).exec cfg (World.open (after cfg fuel es).world.store)).1 =
      ((c.prog fuel (after cfg fuel es).log).exec cfg (after cfg fuel es).world).1 ∧
    (after cfg fuel (es ++ [.reopen, .call c Go.noFault])).world.store =
      (after cfg fuel (es ++ [.call c Go.noFault])).world.store ∧
    (after cfg fuel (es ++ [.reopen, .call c Go.noFault])).log = (after cfg fuel (es ++ [.call c Go.noFault])).log := by
  obtain ⟨σ, hs, hc⟩ := h.sound.holds hl
  obtain ⟨bs, hb⟩ := Option.ne_none_iff_exists'.1 (hs.bits hl)
  obtain ⟨m', _, e1, e2⟩ := call_alike h.budget.fits hs hc hl hb (fun t htt => .std (ht t htt)) (m := Layer.fresh)
    (fun h => by cases h)
  refine ⟨e2, ?_, ?_⟩ <;>
    simp only [after_append, State.events, List.foldl_cons, List.foldl_nil, State.event, World.open] <;> rw [e1]

/-- the sample history reopens the storage in its middle -/
example : Event.reopen ∈ es ∧ (after cfgA fuel es).log ≠ [] := by
  rw [after_es]; exact ⟨by simp [es], by decide +kernel⟩

end Semnet.Props
