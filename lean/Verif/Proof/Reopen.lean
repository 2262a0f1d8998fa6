import Verif.Proof.Api
/-
  Queries do not depend on whether the bit layer of the process has been initialised.
-/
namespace Semnet
open Spec

/-- the process-local bit layer is fresh or holds the two bits -/
def MemOK (bs : BitE × BitE) (m : Layer) : Prop := m.isInitialized = true → (m.zeroEntity, m.oneEntity) = bs

/-- initialising the layer on `s` yields the two bits -/
def Ready (cfg : Cfg) (s : Store) (bs : BitE × BitE) : Prop :=
  s.live 1 = true ∧ ∀ m, MemOK bs m → ∃ m', MemOK bs m' ∧ Bit.init.exec cfg ⟨s, m⟩ = (.ok bs, ⟨s, m'⟩)

/-- the same program in two processes on the same storage -/
def Alike {α : Type} (cfg : Cfg) (s : Store) (bs : BitE × BitE) (p : Go α) : Prop :=
  ∀ m1 m2, MemOK bs m1 → MemOK bs m2 → ∃ o m1' m2', MemOK bs m1' ∧ MemOK bs m2' ∧
    p.exec cfg ⟨s, m1⟩ = (o, ⟨s, m1'⟩) ∧ p.exec cfg ⟨s, m2⟩ = (o, ⟨s, m2'⟩)

theorem Alike.bind {α β : Type} {cfg : Cfg} {s : Store} {bs : BitE × BitE} {p : Go α} {f : α → Go β}
    (h : Alike cfg s bs p) (hf : ∀ a, Alike cfg s bs (f a)) : Alike cfg s bs (p >>= f) := by
  intro m1 m2 h1 h2
  obtain ⟨o, m1', m2', a1, a2, b1, b2⟩ := h m1 m2 h1 h2
  rw [exec_bind, exec_bind, b1, b2]
  cases o with
  | ok a => exact hf a m1' m2' a1 a2
  | err e => exact ⟨.err e, m1', m2', a1, a2, rfl, rfl⟩
  | panic => exact ⟨.panic, m1', m2', a1, a2, rfl, rfl⟩
  | spin => exact ⟨.spin, m1', m2', a1, a2, rfl, rfl⟩

theorem exec_attempt {α : Type} {cfg : Cfg} : ∀ {p : Go α} {f : Nat → Fate} {w : World},
    p.attempt.run cfg f w = (match p.run cfg f w with
      | (.ok a, w') => (.ok (.ok a), w')
      | (.err e, w') => (.ok (.error e), w')
      | (.panic, w') => (.panic, w')
      | (.spin, w') => (.spin, w')) := by
  intro p
  induction p with
  | ok a => intro f w; rfl
  | err e => intro f w; rfl
  | panic => intro f w; rfl
  | spin => intro f w; rfl
  | op o k ih =>
    intro f w
    unfold Go.attempt Go.run
    cases f 0 <;> exact ih _
  | getMem k ih => intro f w; exact ih _
  | setMem m k ih => intro f w; exact ih

theorem Alike.attempt {α : Type} {cfg : Cfg} {s : Store} {bs : BitE × BitE} {p : Go α}
    (h : Alike cfg s bs p) : Alike cfg s bs p.attempt := by
  intro m1 m2 h1 h2
  obtain ⟨o, m1', m2', a1, a2, b1, b2⟩ := h m1 m2 h1 h2
  unfold Go.exec at *
  rw [exec_attempt, exec_attempt, b1, b2]
  cases o with
  | ok a => exact ⟨_, m1', m2', a1, a2, rfl, rfl⟩
  | err e => exact ⟨_, m1', m2', a1, a2, rfl, rfl⟩
  | panic => exact ⟨_, m1', m2', a1, a2, rfl, rfl⟩
  | spin => exact ⟨_, m1', m2', a1, a2, rfl, rfl⟩

theorem call_read {cfg : Cfg} {s : Store} {o : Op} (h : o.isRead = true) (m : Layer) :
    (Go.call o).exec cfg ⟨s, m⟩ = (match (s.step cfg o).1 with | .ok a => .ok a | .error e => .err e, ⟨s, m⟩) := by
  unfold Go.exec Go.call Go.run
  simp only [Go.noFault]
  rw [isRead_step h]
  cases (s.step cfg o).1 <;> rfl

theorem Quiet.alike {cfg : Cfg} {s : Store} {bs : BitE × BitE} (hr : Ready cfg s bs) {α : Type} {p : Go α}
    (h : Quiet p) : Alike cfg s bs p := by
  induction h with
  | pure a => exact fun m1 m2 h1 h2 => ⟨_, m1, m2, h1, h2, rfl, rfl⟩
  | err e => exact fun m1 m2 h1 h2 => ⟨_, m1, m2, h1, h2, rfl, rfl⟩
  | panic => exact fun m1 m2 h1 h2 => ⟨_, m1, m2, h1, h2, rfl, rfl⟩
  | spin => exact fun m1 m2 h1 h2 => ⟨_, m1, m2, h1, h2, rfl, rfl⟩
  | call o h => exact fun m1 m2 h1 h2 => ⟨_, m1, m2, h1, h2, call_read h m1, call_read h m2⟩
  | init =>
    intro m1 m2 h1 h2
    obtain ⟨m1', a1, b1⟩ := hr.2 m1 h1
    obtain ⟨m2', a2, b2⟩ := hr.2 m2 h2
    exact ⟨_, m1', m2', a1, a2, b1, b2⟩
  | classes =>
    have : ∀ m, Class.provideEntity.exec cfg ⟨s, m⟩ = (.ok (), ⟨s, m⟩) := by
      intro m
      unfold Class.provideEntity
      rw [exec_bind, show Go.has 1 = Go.call (.has 1) from rfl, call_read rfl]
      simp only [Store.step, hr.1]
      rfl
    exact fun m1 m2 h1 h2 => ⟨_, m1, m2, h1, h2, this m1, this m2⟩
  | bind _ _ ih1 ih2 => exact .bind ih1 ih2
  | attempt _ ih => exact .attempt ih

theorem Inv.ready {cfg lim} {σ : St} (hi : Inv cfg lim σ) (hfl : σ.flt = false) {bs} (hb : σ.bits = some bs) :
    Ready cfg σ.store bs := by
  refine ⟨(hi.live 1).2 (by rw [(hi.root 1).2 (by omega)]; simp), ?_⟩
  intro m hm
  have hs : Same σ { σ with mem := m } := ⟨rfl, rfl, rfl⟩
  have hi' : Inv cfg lim { σ with mem := m } := hi.same hs (fun h => by rw [hb, hm h])
  obtain ⟨σ', h1, ⟨h2, h3, h4⟩, h5⟩ := wp_run (C := calmCtx cfg lim) (σ := { σ with mem := m }) rfl (.inr rfl) (w := ⟨σ.store, m⟩) ⟨rfl, rfl⟩
    (Rd.bitInit (C := calmCtx cfg lim) hi' (bs := bs) hb)
  have hfl' : σ'.flt = false := (h5 rfl).trans hfl
  have h6 := h3 rfl
  unfold Go.exec
  change σ'.Is (Go.run cfg Bit.init Go.noFault ⟨σ.store, m⟩).2 at h1
  simp only [calmCtx] at h4
  generalize Go.run cfg Bit.init Go.noFault ⟨σ.store, m⟩ = res at h1 h4
  obtain ⟨o, ⟨st, m'⟩⟩ := res
  have e1 : σ'.store = st := h1.store
  have e2 : σ'.mem = m' := h1.mem
  refine ⟨m', ?_, ?_⟩
  · intro hm'
    have := h2.inv.mem (by rw [e2]; exact hm')
    rw [h6.bits, e2] at this
    have h7 : (some bs : Option (BitE × BitE)) = some (m'.zeroEntity, m'.oneEntity) := by rw [← this]; exact hb.symm
    injection h7 with h7
    exact h7.symm
  · have : st = σ.store := by rw [← e1]; exact h6.store
    subst this
    cases o with
    | ok a => rw [h4.1]
    | err e => simp only at h4; rw [hfl'] at h4; cases h4
    | panic => simp only at h4; rw [hfl'] at h4; cases h4
    | spin => exact h4.elim

end Semnet
