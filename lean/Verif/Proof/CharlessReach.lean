import Verif.Proof.Charless
import Verif.Proof.MaimedReach
/-
  Every first call that makes a remark passes through a storage whose two bits have no characters yet.
-/
namespace Semnet
open Spec

/-- the death of the process can leave a storage with `P` -/
def Cuttable {α : Type} (cfg : Cfg) (P : Store → Prop) (p : Go α) (w : World) : Prop :=
  ∃ n, P (p.crashAfter cfg n Go.noFault w)

namespace Cuttable
variable {cfg : Cfg} {P : Store → Prop} {α β : Type}

theorem now {p : Go α} {w : World} (h : P w.store) : Cuttable cfg P p w := ⟨0, by rw [crashAfter_zero]; exact h⟩

theorem op {o : Op} {k : Except Err o.Res → Go α} {w : World}
    (h : Cuttable cfg P (k (w.store.step cfg o).1) ⟨(w.store.step cfg o).2, w.mem⟩) : Cuttable cfg P (.op o k) w := by
  obtain ⟨n, hn⟩ := h
  exact ⟨n + 1, by unfold Go.crashAfter; exact hn⟩

theorem mem {k : Layer → Go α} {w : World} (h : Cuttable cfg P (k w.mem) w) : Cuttable cfg P (.getMem k) w := by
  obtain ⟨n, hn⟩ := h
  refine ⟨n, ?_⟩
  cases n <;> exact hn

theorem set {u : Assign} {k : Go α} {w : World} (h : Cuttable cfg P k ⟨w.store, w.mem.set u⟩) : Cuttable cfg P (.setMem u k) w := by
  obtain ⟨n, hn⟩ := h
  refine ⟨n, ?_⟩
  cases n <;> exact hn

/-- what the first part can leave, the whole can leave -/
theorem left {f : α → Go β} : ∀ {p : Go α} {w : World}, Cuttable cfg P p w → Cuttable cfg P (p >>= f) w := by
  intro p
  show ∀ {w : World}, Cuttable cfg P p w → Cuttable cfg P (p.bind f) w
  induction p with
  | op o k ih =>
    intro w ⟨n, hn⟩
    cases n with
    | zero => exact now (by rw [crashAfter_zero] at hn; exact hn)
    | succ n => exact op (ih _ ⟨n, by unfold Go.crashAfter at hn; exact hn⟩)
  | getMem k ih =>
    intro w ⟨n, hn⟩
    exact mem (ih _ ⟨n, by cases n <;> exact hn⟩)
  | setMem u k ih =>
    intro w ⟨n, hn⟩
    exact set (ih (w := ⟨w.store, w.mem.set u⟩) ⟨n, by cases n <;> exact hn⟩)
  | _ =>
    intro w ⟨n, hn⟩
    exact now (by cases n <;> exact hn)

/-- what the second part can leave after the first, the whole can leave -/
theorem right {f : α → Go β} {a : α} {w' : World} : ∀ {p : Go α} {w : World}, p.exec cfg w = (.ok a, w') →
    Cuttable cfg P (f a) w' → Cuttable cfg P (p >>= f) w := by
  intro p
  show ∀ {w : World}, p.exec cfg w = (.ok a, w') → Cuttable cfg P (f a) w' → Cuttable cfg P (p.bind f) w
  induction p with
  | ok x => intro w h hc; cases h; exact hc
  | op o k ih => intro w h hc; exact op (ih _ h hc)
  | getMem k ih => intro w h hc; exact mem (ih _ h hc)
  | setMem u k ih => intro w h hc; exact set (ih (w := ⟨w.store, w.mem.set u⟩) h hc)
  | _ => intro w h; cases h

end Cuttable

/-- the storage with the class nodes and the first remark -/
def remarkStore (cfg : Cfg) : Store :=
  ⟨13 + cfg.arrow, [12 + cfg.arrow, 11 + cfg.arrow, 10 + cfg.arrow, 9, 8, 7, 6, 5, 4, 3, 2, 1], [(9, 6)],
    [(11 + cfg.arrow, 12 + cfg.arrow), (10 + cfg.arrow, 11 + cfg.arrow), (9, 10 + cfg.arrow),
      (7, 8), (6, 7), (5, 6), (4, 5), (3, 4), (2, 3), (1, 2)]⟩

/-- the storage with the two bits in addition -/
def bitStore (cfg : Cfg) : Store :=
  ⟨15 + 3 * cfg.arrow, (14 + 2 * cfg.arrow) :: (13 + cfg.arrow) :: (remarkStore cfg).nodes,
    [(14 + 2 * cfg.arrow, 1), (13 + cfg.arrow, 1), (9, 6)], (remarkStore cfg).refs⟩

theorem bitStore_charless (cfg : Cfg) : Charless (14 + 2 * cfg.arrow) (13 + cfg.arrow) (bitStore cfg) := by
  refine ⟨?_, ?_, ?_, ?_, ?_, ?_, ?_⟩
  · simp [bitStore, remarkStore, Store.live]
  · simp [bitStore, remarkStore, Store.live]
    omega
  · simp [bitStore, Store.sources]
  · simp only [bitStore, remarkStore, Store.fwd]
    rw [List.find?_eq_none.2 ?_]
    · rfl
    · simp
      omega
  · simp only [bitStore, remarkStore, Store.fwd]
    rw [List.find?_eq_none.2 ?_]
    · rfl
    · simp
      omega
  · simp only [bitStore]
    omega
  · simp [bitStore]

theorem node_empty {cfg : Cfg} (hz : cfg.zero = false) (m : Layer) :
    (Class.createNode Class.remarkId >>= Remark.createEntity).exec cfg ⟨rootStore cfg, m⟩ =
      (.ok ⟨9, 10 + cfg.arrow, 11 + cfg.arrow, 12 + cfg.arrow⟩, ⟨remarkStore cfg, m⟩) := by
  have e : ∀ k, 10 + cfg.arrow + k = 10 + k + cfg.arrow := by omega
  simp [rootStore, remarkStore, hz, Class.createNode, Remark.createEntity, Go.create, Go.connect, Go.setReference, Go.call,
    Bind.bind, Pure.pure, Go.bind, Go.exec, Go.run, Go.noFault, Store.step, Store.live, Store.created, Store.connected,
    Store.referred, Class.remarkId, e]
  omega

theorem classes_there (cfg : Cfg) (m : Layer) :
    Class.provideEntity.exec cfg ⟨remarkStore cfg, m⟩ = (.ok (), ⟨remarkStore cfg, m⟩) := by
  simp [remarkStore, Class.provideEntity, Go.has, Go.call, Bind.bind, Pure.pure, Go.bind, Go.exec, Go.run, Go.noFault,
    Store.step, Store.live]

theorem no_bits (cfg : Cfg) (m : Layer) :
    Class.getAllBits.exec cfg ⟨remarkStore cfg, m⟩ = (.ok [], ⟨remarkStore cfg, m⟩) := by
  have hp : ∀ s o, cfg.ord s o [] = [] := fun s o => (cfg.ord_perm s o []).eq_nil
  simp [remarkStore, Class.getAllBits, Class.bitId, Go.readSources, Go.call, Go.exec, Go.run, Go.noFault, Store.step,
    Store.live, Store.sources, hp]

/-- one bit -/
def halfStore (cfg : Cfg) : Store :=
  ⟨14 + 2 * cfg.arrow, (13 + cfg.arrow) :: (remarkStore cfg).nodes, [(13 + cfg.arrow, 1), (9, 6)], (remarkStore cfg).refs⟩

theorem bit_first (cfg : Cfg) (m : Layer) :
    (Class.createNode Class.bitId).exec cfg ⟨remarkStore cfg, m⟩ = (.ok (13 + cfg.arrow), ⟨halfStore cfg, m⟩) := by
  simp [halfStore, remarkStore, Class.createNode, Go.create, Go.connect, Go.call, Bind.bind, Pure.pure, Go.bind, Go.exec,
    Go.run, Go.noFault, Store.step, Store.live, Store.created, Store.connected, Class.bitId]
  omega

theorem bit_second (cfg : Cfg) (m : Layer) :
    (Class.createNode Class.bitId).exec cfg ⟨halfStore cfg, m⟩ = (.ok (14 + 2 * cfg.arrow), ⟨bitStore cfg, m⟩) := by
  have e : 14 + 2 * cfg.arrow ≠ 13 + cfg.arrow := by omega
  simp [halfStore, bitStore, remarkStore, Class.createNode, Go.create, Go.connect, Go.call, Bind.bind, Pure.pure, Go.bind,
    Go.exec, Go.run, Go.noFault, Store.step, Store.live, Store.created, Store.connected, Class.bitId, e]
  omega

abbrev CutC {α : Type} (cfg : Cfg) (p : Go α) (w : World) : Prop :=
  Cuttable cfg (Charless (14 + 2 * cfg.arrow) (13 + cfg.arrow)) p w

theorem fill_empty (cfg : Cfg) (m : Layer) : CutC cfg Bit.fill ⟨remarkStore cfg, m⟩ := by
  refine Cuttable.right (classes_there cfg m) ?_
  refine Cuttable.right (no_bits cfg m) ?_
  refine Cuttable.right (bit_first cfg m) ?_
  refine Cuttable.right (bit_second cfg m) ?_
  exact .now (bitStore_charless cfg)

theorem bit_empty (cfg : Cfg) (v : Bool) {m : Layer} (hm : m.isInitialized = false) :
    CutC cfg (Bit.provide v) ⟨remarkStore cfg, m⟩ := by
  refine .left (.left ?_)
  refine .mem ?_
  show CutC cfg (if m.isInitialized then pure () else Bit.fill) _
  rw [hm]
  exact fill_empty cfg m

/-- the program fails, or it can be cut -/
def FailsOrCut {α : Type} (cfg : Cfg) (p : Go α) (w : World) : Prop :=
  (∀ a w', p.exec cfg w ≠ (.ok a, w')) ∨ CutC cfg p w

namespace FailsOrCut
variable {cfg : Cfg} {α β : Type}

theorem left {f : α → Go β} {p : Go α} {w : World} (h : FailsOrCut cfg p w) : FailsOrCut cfg (p >>= f) w := by
  rcases h with h | h
  · refine .inl fun b w' hb => ?_
    rw [exec_bind] at hb
    split at hb
    · exact absurd ‹_› (h _ _)
    all_goals cases hb
  · exact .inr h.left

theorem right {f : α → Go β} {p : Go α} {a : α} {w w' : World} (h : p.exec cfg w = (.ok a, w'))
    (hf : FailsOrCut cfg (f a) w') : FailsOrCut cfg (p >>= f) w := by
  rcases hf with hf | hf
  · refine .inl fun b w'' hb => ?_
    rw [exec_bind, h] at hb
    exact hf _ _ hb
  · exact .inr (hf.right h)

end FailsOrCut

theorem character_empty (cfg : Cfg) (r : Rune) {m : Layer} (hm : m.isInitialized = false) :
    FailsOrCut cfg (Character.provide r) ⟨remarkStore cfg, m⟩ := by
  unfold Character.provide
  split
  · exact .inl fun a w' h => (by cases h)
  · split
    · exact .inl fun a w' h => (by cases h)
    · exact .inr (.left (.left (bit_empty cfg _ hm)))

theorem phrase_empty (cfg : Cfg) (fuel : Nat) (t : GoStr) {m : Layer} (hm : m.isInitialized = false) :
    FailsOrCut cfg (Phrase.provide fuel t) ⟨remarkStore cfg, m⟩ := by
  unfold Phrase.provide
  split
  · exact .inl fun a w' h => (by cases h)
  · refine .left (.left ?_)
    unfold Word.provide
    split
    · exact .inl fun a w' h => (by cases h)
    · exact .left (.left (character_empty cfg _ hm))

theorem story_empty {cfg : Cfg} (hz : cfg.zero = false) (fuel : Nat) (o p : GoStr) :
    FailsOrCut cfg (Graph.createStory fuel o p) (World.open (Store.empty cfg)) := by
  have hn := node_empty hz Layer.fresh
  rw [exec_bind] at hn
  unfold Graph.createStory
  refine .right (provide_empty cfg Layer.fresh) ?_
  cases hc : (Class.createNode Class.remarkId).exec cfg ⟨rootStore cfg, Layer.fresh⟩ with
  | mk a w1 =>
    rw [hc] at hn
    cases a with
    | ok a =>
      refine .right hc ?_
      refine .right hn ?_
      exact .left (.left (phrase_empty cfg fuel o rfl))
    | _ => cases hn

/-- A call that is the first one and makes a remark can be cut where the two bits have no characters. -/
theorem first_cut {cfg : Cfg} (hz : cfg.zero = false) {fuel : Nat} {c : Call}
    (hl : ((State.init cfg).call cfg fuel c Go.noFault).log ≠ []) :
    CutC cfg (c.prog fuel []) (World.open (Store.empty cfg)) := by
  have quiet : c.prog fuel [] = pure none → False := fun h => hl (by
    simp only [State.call, State.init, h]
    rfl)
  cases c with
  | createStory o p =>
    rcases FailsOrCut.left (f := fun r => (pure (some r) : Go (Option RemE))) (story_empty hz fuel o p) with h | h
    · refine absurd ?_ hl
      simp only [State.call]
      split
      · exact absurd ‹_› (h _ _)
      · rfl
    · exact h
  | getRemark i =>
    refine absurd ?_ hl
    simp only [State.call, State.init, Call.entry]
    split <;> rfl
  | query h q => exact (quiet rfl).elim
  | addRemark h p => exact (quiet rfl).elim
  | addFact h o p => exact (quiet rfl).elim
  | addChild h o p => exact (quiet rfl).elim

end Semnet
