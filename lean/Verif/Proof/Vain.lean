import Verif.Spec.Maimed
import Verif.Proof.Quiet
import Verif.Proof.RaceSys
/-
  Rely and guarantee on storages that never recover: every program keeps an invariant of the storage and one of the bit
  layers, and is told what it may yield.
-/
namespace Semnet
open Spec

/-- The program keeps `I` of the storage and `M` of the bit layer, and if it succeeds, `good` holds of the result.  Others
    may change the storage and the bit layer within `I` and `M` at any time, and any storage call may fail. -/
def Vain {α : Type} (cfg : Cfg) (I : Store → Prop) (M : Layer → Prop) (good : α → Prop) : Go α → Prop
  | .ok a => good a
  | .op o k => (∀ s, I s → I (s.step cfg o).2 ∧ Vain cfg I M good (k (s.step cfg o).1)) ∧ Vain cfg I M good (k (.error .fault))
  | .getMem k => ∀ m : Layer, M m → Vain cfg I M good (k m)
  | .setMem u k => (∀ m, M m → M (m.set u)) ∧ Vain cfg I M good k
  | _ => True

namespace Vain
variable {cfg : Cfg} {I : Store → Prop} {M : Layer → Prop}

theorem bind {α β : Type} {g : α → Prop} {g' : β → Prop} {f : α → Go β} (hf : ∀ a, g a → Vain cfg I M g' (f a)) :
    ∀ {p : Go α}, Vain cfg I M g p → Vain cfg I M g' (p >>= f) := by
  intro p
  induction p with
  | ok a => exact fun h => hf a h
  | op o k ih => exact fun h => ⟨fun s hs => ⟨(h.1 s hs).1, ih _ (h.1 s hs).2⟩, ih _ h.2⟩
  | getMem k ih => exact fun h m hm => ih m (h m hm)
  | setMem u k ih => exact fun h => ⟨h.1, ih h.2⟩
  | _ => exact fun _ => trivial

/-- nothing more is known of the result -/
theorem seq {α β : Type} {g' : β → Prop} {p : Go α} {f : α → Go β} (hp : Vain cfg I M (fun _ => True) p)
    (hf : ∀ a, Vain cfg I M g' (f a)) : Vain cfg I M g' (p >>= f) := bind (fun a _ => hf a) hp

/-- the program fails, so what follows does not matter -/
theorem stop {α β : Type} {g' : β → Prop} {p : Go α} {f : α → Go β} (hp : Vain cfg I M (fun _ => False) p) :
    Vain cfg I M g' (p >>= f) := bind (fun _ h => h.elim) hp

theorem attempt {α : Type} : ∀ {p : Go α}, Vain cfg I M (fun _ => True) p → Vain cfg I M (fun _ => True) p.attempt := by
  intro p
  induction p with
  | op o k ih => exact fun h => ⟨fun s hs => ⟨(h.1 s hs).1, ih _ (h.1 s hs).2⟩, ih _ h.2⟩
  | getMem k ih => exact fun h m hm => ih m (h m hm)
  | setMem u k ih => exact fun h => ⟨h.1, ih h.2⟩
  | _ => exact fun _ => trivial

theorem mono {α : Type} {g g' : α → Prop} (hg : ∀ a, g a → g' a) : ∀ {p : Go α}, Vain cfg I M g p → Vain cfg I M g' p := by
  intro p
  induction p with
  | ok a => exact fun h => hg a h
  | op o k ih => exact fun h => ⟨fun s hs => ⟨(h.1 s hs).1, ih _ (h.1 s hs).2⟩, ih _ h.2⟩
  | getMem k ih => exact fun h m hm => ih m (h m hm)
  | setMem u k ih => exact fun h => ⟨h.1, ih h.2⟩
  | _ => exact fun _ => trivial

theorem call {o : Op} (h : ∀ s, I s → I (s.step cfg o).2) : Vain cfg I M (fun _ => True) (Go.call o) := by
  refine ⟨fun s hs => ⟨h s hs, ?_⟩, trivial⟩
  cases (s.step cfg o).1 <;> trivial

theorem read {o : Op} (h : o.isRead = true) : Vain cfg I M (fun _ => True) (Go.call o) :=
  call fun s hs => by rw [isRead_step h cfg s]; exact hs

/-- an error that the caller drops -/
theorem dropped {α : Type} : ∀ {p : Go α}, Vain cfg I M (fun _ => False) p →
    Vain cfg I M (fun r => ∃ e, r = .error e) p.attempt := by
  intro p
  induction p with
  | ok a => exact fun h => h.elim
  | err e => exact fun _ => ⟨e, rfl⟩
  | op o k ih => exact fun h => ⟨fun s hs => ⟨(h.1 s hs).1, ih _ (h.1 s hs).2⟩, ih _ h.2⟩
  | getMem k ih => exact fun h m hm => ih m (h m hm)
  | setMem u k ih => exact fun h => ⟨h.1, ih h.2⟩
  | _ => exact fun _ => trivial

theorem quiet {α : Type} {p : Go α} (hi : Vain cfg I M (fun _ => True) Bit.init) (hc : Vain cfg I M (fun _ => True) Class.provideEntity)
    (h : Quiet p) : Vain cfg I M (fun _ => True) p := by
  induction h with
  | pure a => trivial
  | err e => trivial
  | panic => trivial
  | spin => trivial
  | call o h => exact read h
  | init => exact hi
  | classes => exact hc
  | bind _ _ ih1 ih2 => exact seq ih1 ih2
  | attempt _ ih => exact attempt ih

end Vain

theorem Vain.one {α : Type} {cfg : Cfg} {I : Store → Prop} {M : Layer → Prop} {g : α → Prop} {p : Go α} {s : Store} {m : Layer}
    {f : Fate} (h : Vain cfg I M g p) (hs : I s) (hm : M m) :
    Vain cfg I M g (Spec.Go.one cfg f p s m).1 ∧ I (Spec.Go.one cfg f p s m).2.1 ∧ M (Spec.Go.one cfg f p s m).2.2 := by
  cases p with
  | op o k =>
    cases f with
    | ok => exact ⟨(h.1 s hs).2, (h.1 s hs).1, hm⟩
    | fail => exact ⟨h.2, hs, hm⟩
    | failLate => exact ⟨h.2, (h.1 s hs).1, hm⟩
  | getMem k => exact ⟨h m hm, hs, hm⟩
  | setMem u k => exact ⟨h.2, hs, h.1 m hm⟩
  | _ => exact ⟨h, hs, hm⟩

theorem Vain.end {α : Type} {cfg : Cfg} {I : Store → Prop} {M : Layer → Prop} {g : α → Prop} {p : Go α} (h : Vain cfg I M g p)
    {a : α} (he : Spec.Go.end p = some (.ok a)) : g a := by
  cases p with
  | ok b => cases he; exact h
  | _ => cases he

/-- what has to be shown of the API: `fruit` is what a call may yield, and no remark; `dumb` are the lists of questions that
    may be answered -/
structure Blight (cfg : Cfg) (fuel : Nat) (I : Store → Prop) (M : Layer → Prop) (fruit : Call → Yield → Prop)
    (dumb : List Query → Prop) (log : List Entry) : Prop where
  fresh : M Layer.fresh
  calls : ∀ c : Call, Vain cfg I M (fruit c) (c.yields fuel log)
  progs : ∀ c : Call, Vain cfg I M (fun r => r = none) (c.prog fuel log)
  barren : ∀ c r, ¬ fruit c (.created r)
  readers : ∀ i qs, Vain cfg I M (fun _ => dumb qs) (Spec.interview fuel i qs)

/-- a crowd on a storage that never recovers -/
structure Ruin (cfg : Cfg) (I : Store → Prop) (M : Layer → Prop) (fruit : Call → Yield → Prop) (dumb : List Query → Prop)
    (log : List Entry) (y : Crowd) : Prop where
  store : I y.store
  mem : ∀ p, M (y.mem p)
  log : y.log = log
  heard : ∀ x ∈ y.heard, fruit x.call (.answered x.answer)
  cur : ∀ i b, y.cur i = some b → Vain cfg I M (fruit b.call) b.prog
  readers : ∀ j rd, y.readers j = some rd → Vain cfg I M (fun _ => dumb rd.asked) rd.prog

theorem upd_some {α : Type} {f : Nat → Option α} {i : Nat} {a : α} {P : α → Prop} (ha : P a) (h : ∀ j b, f j = some b → P b) :
    ∀ j b, upd f i (some a) j = some b → P b := by
  intro j b
  unfold upd
  split
  · intro e; cases e; exact ha
  · exact h j b

theorem upd_all {f : Nat → Layer} {i : Nat} {a : Layer} {P : Layer → Prop} (ha : P a) (h : ∀ j, P (f j)) :
    ∀ j, P (upd f i a j) := by
  intro j
  unfold upd
  split
  · exact ha
  · exact h j

namespace Blight
variable {cfg : Cfg} {fuel : Nat} {I : Store → Prop} {M : Layer → Prop} {fruit : Call → Yield → Prop} {dumb : List Query → Prop}
  {log : List Entry}

theorem start (B : Blight cfg fuel I M fruit dumb log) {s : Store} (h : I s) :
    Ruin cfg I M fruit dumb log (Crowd.start ⟨World.open s, log⟩) :=
  ⟨h, upd_all B.fresh fun _ => B.fresh, rfl, (fun x hx => by cases hx), (fun i b hb => by cases hb), fun i b hb => by cases hb⟩

theorem move (B : Blight cfg fuel I M fruit dumb log) {home : Nat → Nat} {y : Crowd} (h : Ruin cfg I M fruit dumb log y) (t : Move) :
    Ruin cfg I M fruit dumb log (y.move cfg fuel home t) := by
  cases t with
  | «begin» i c =>
    simp only [Crowd.move]
    cases hc : y.cur i with
    | some b => exact h
    | none =>
      refine ⟨h.store, h.mem, h.log, h.heard, upd_some ?_ h.cur, h.readers⟩
      simp only [h.log]
      exact B.calls c
  | step i f =>
    simp only [Crowd.move]
    cases hc : y.cur i with
    | none => exact h
    | some b =>
      have hb := h.cur i b hc
      simp only
      cases ho : Spec.Go.end b.prog with
      | none =>
        obtain ⟨h1, h2, h3⟩ := hb.one (f := f) h.store (h.mem (home i))
        exact ⟨h2, upd_all h3 h.mem, h.log, h.heard, upd_some h1 h.cur, h.readers⟩
      | some o =>
        have cur : ∀ j b', upd y.cur i none j = some b' → Vain cfg I M (fruit b'.call) b'.prog := by
          intro j b'
          unfold upd
          split
          · intro e; cases e
          · exact h.cur j b'
        simp only [Crowd.return]
        cases o with
        | ok z =>
          have hz := hb.end ho
          cases z with
          | created r => exact absurd hz (B.barren _ _)
          | nothing => exact ⟨h.store, h.mem, h.log, h.heard, cur, h.readers⟩
          | answered a =>
            refine ⟨h.store, h.mem, h.log, ?_, cur, h.readers⟩
            intro x hx
            rcases List.mem_append.1 hx with hx | hx
            · exact h.heard x hx
            · rw [List.mem_singleton.1 hx]; exact hz
        | _ => exact ⟨h.store, h.mem, h.log, h.heard, cur, h.readers⟩
  | die p =>
    refine ⟨h.store, upd_all B.fresh h.mem, h.log, h.heard, ?_, ?_⟩
    · intro i b hb
      simp only [Crowd.move] at hb
      split at hb
      · cases hb
      · exact h.cur i b hb
    · intro i b hb
      simp only [Crowd.move] at hb
      split at hb
      · cases hb
      · exact h.readers i b hb
  | spawn j i qs =>
    exact ⟨h.store, h.mem, h.log, h.heard, h.cur,
      upd_some (P := fun rd : Asker => Vain cfg I M (fun _ => dumb rd.asked) rd.prog) (B.readers i qs) h.readers⟩
  | read j =>
    simp only [Crowd.move]
    cases hj : y.readers j with
    | none => exact h
    | some rd =>
      obtain ⟨h1, h2, h3⟩ := (h.readers j rd hj).one (f := .ok) h.store (h.mem (home j))
      exact ⟨h2, upd_all h3 h.mem, h.log, h.heard, h.cur,
        upd_some (P := fun rd : Asker => Vain cfg I M (fun _ => dumb rd.asked) rd.prog) h1 h.readers⟩

theorem moves (B : Blight cfg fuel I M fruit dumb log) {home : Nat → Nat} :
    ∀ (ts : List Move) {y : Crowd}, Ruin cfg I M fruit dumb log y → Ruin cfg I M fruit dumb log (y.moves cfg fuel home ts)
  | [], _, h => h
  | t :: ts, _, h => moves B ts (B.move h t)

theorem reached (B : Blight cfg fuel I M fruit dumb log) {s : Store} (h : I s) (home : Nat → Nat) (ts : List Move) :
    Ruin cfg I M fruit dumb log ((Crowd.start ⟨World.open s, log⟩).moves cfg fuel home ts) := B.moves ts (B.start h)

end Blight

/-! ### histories -/

theorem Vain.run {α : Type} {cfg : Cfg} {I : Store → Prop} {M : Layer → Prop} {g : α → Prop} :
    ∀ {p : Go α} {f : Nat → Fate} {w : World}, Vain cfg I M g p → I w.store → M w.mem →
      (∀ a, (p.run cfg f w).1 = .ok a → g a) ∧ I (p.run cfg f w).2.store ∧ M (p.run cfg f w).2.mem := by
  intro p
  induction p with
  | ok a => exact fun h hs hm => ⟨fun b e => by cases e; exact h, hs, hm⟩
  | err e => exact fun h hs hm => ⟨(fun b e => by cases e), hs, hm⟩
  | panic => exact fun h hs hm => ⟨(fun b e => by cases e), hs, hm⟩
  | spin => exact fun h hs hm => ⟨(fun b e => by cases e), hs, hm⟩
  | op o k ih =>
    intro f w h hs hm
    unfold Go.run
    cases f 0 with
    | ok => exact ih _ (w := ⟨_, w.mem⟩) (h.1 _ hs).2 (h.1 _ hs).1 hm
    | fail => exact ih _ (w := w) h.2 hs hm
    | failLate => exact ih _ (w := ⟨_, w.mem⟩) h.2 (h.1 _ hs).1 hm
  | getMem k ih => intro f w h hs hm; exact ih _ (h _ hm) hs hm
  | setMem u k ih => intro f w h hs hm; exact ih (w := ⟨w.store, w.mem.set u⟩) h.2 hs (h.1 _ hm)

theorem Vain.crash {α : Type} {cfg : Cfg} {I : Store → Prop} {M : Layer → Prop} {g : α → Prop} :
    ∀ {p : Go α} {n : Nat} {f : Nat → Fate} {w : World}, Vain cfg I M g p → I w.store → M w.mem → I (p.crashAfter cfg n f w) := by
  intro p
  induction p with
  | ok a => intro n f w h hs _; cases n <;> exact hs
  | err e => intro n f w h hs _; cases n <;> exact hs
  | panic => intro n f w h hs _; cases n <;> exact hs
  | spin => intro n f w h hs _; cases n <;> exact hs
  | op o k ih =>
    intro n f w h hs hm
    cases n with
    | zero => exact hs
    | succ n =>
      unfold Go.crashAfter
      cases f 0 with
      | ok => exact ih _ (w := ⟨_, w.mem⟩) (h.1 _ hs).2 (h.1 _ hs).1 hm
      | fail => exact ih _ (w := w) h.2 hs hm
      | failLate => exact ih _ (w := ⟨_, w.mem⟩) h.2 (h.1 _ hs).1 hm
  | getMem k ih => intro n f w h hs hm; cases n <;> exact ih _ (h _ hm) hs hm
  | setMem u k ih => intro n f w h hs hm; cases n <;> exact ih (w := ⟨w.store, w.mem.set u⟩) h.2 hs (h.1 _ hm)

theorem Blight.events {cfg : Cfg} {fuel : Nat} {I : Store → Prop} {M : Layer → Prop} {fruit : Call → Yield → Prop}
    {dumb : List Query → Prop} {log : List Entry} (B : Blight cfg fuel I M fruit dumb log) : ∀ (es : List Event) {st : State},
    I st.world.store → M st.world.mem → st.log = log → I (st.events cfg fuel es).world.store ∧
      M (st.events cfg fuel es).world.mem ∧ (st.events cfg fuel es).log = log := by
  intro es
  induction es with
  | nil => exact fun h hm hl => ⟨h, hm, hl⟩
  | cons e es ih =>
    intro st h hm hl
    have key : I (st.event cfg fuel e).world.store ∧ M (st.event cfg fuel e).world.mem ∧ (st.event cfg fuel e).log = log := by
      cases e with
      | call c f =>
        obtain ⟨h1, h2, h3⟩ := Vain.run (f := f) (B.progs c) h hm
        simp only [State.event, State.call, hl]
        match hr : (c.prog fuel log).run cfg f st.world with
        | (o, w) =>
          rw [hr] at h1 h2 h3
          cases o with
          | ok r =>
            have := h1 r rfl
            subst this
            exact ⟨h2, h3, rfl⟩
          | _ => exact ⟨h2, h3, rfl⟩
      | crash c f n =>
        refine ⟨Vain.crash (g := fun r => r = none) ?_ h hm, B.fresh, hl⟩
        rw [hl]
        exact B.progs c
      | reopen => exact ⟨h, B.fresh, hl⟩
    exact ih key.1 key.2.1 key.2.2

end Semnet
