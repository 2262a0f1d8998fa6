import Verif.Proof.RemarkWrite
/-
  From the program logic to executions: runs with failures, crashes.
-/
namespace Semnet

/-- ghost state `σ` describes world `w` -/
structure St.Is (σ : St) (w : World) : Prop where
  store : σ.store = w.store
  mem : σ.mem = w.mem

theorem wp_run {α : Type} {C : Ctx} (hR : C.R = false) {Q : Out α → St → Prop} :
    ∀ {p : Go α} {σ : St} {w : World} {f : Nat → Fate}, (C.F = true ∨ f = Go.noFault) → σ.Is w → wp C Q p σ →
      ∃ σ', σ'.Is (p.run C.cfg f w).2 ∧ Q (p.run C.cfg f w).1 σ' ∧ (f = Go.noFault → σ'.flt = σ.flt) := by
  intro p
  induction p with
  | ok a => intro σ w f _ hw h; exact ⟨σ, hw, h, fun _ => rfl⟩
  | err e => intro σ w f _ hw h; exact ⟨σ, hw, h, fun _ => rfl⟩
  | panic => intro σ w f _ hw h; exact ⟨σ, hw, h, fun _ => rfl⟩
  | spin => intro σ w f _ hw h; exact ⟨σ, hw, h, fun _ => rfl⟩
  | op o k ih =>
    intro σ w f hf hw h
    obtain ⟨⟨t, b, _, h1⟩, h2, h3⟩ := h σ (by simp [Env, hR]) C.cfg (.refl _)
    have hF : f 0 ≠ .ok → C.F = true := by
      intro h0
      rcases hf with hf | hf
      · exact hf
      · exact absurd (by rw [hf]; rfl) h0
    have hn : C.F = true ∨ (fun n => f (n + 1)) = Go.noFault := hf.imp id fun h => by rw [h]; rfl
    have hne : f 0 ≠ .ok → f ≠ Go.noFault := fun h0 h' => h0 (by rw [h']; rfl)
    unfold Go.run
    cases h0 : f 0 with
    | ok =>
      simp only
      rw [hw.store] at h1
      obtain ⟨σ', a1, a2, a3⟩ := ih _ (σ := σ.after C.cfg o t b) (w := ⟨(w.store.step C.cfg o).2, w.mem⟩) hn
        ⟨by simp [St.after, hw.store], hw.mem⟩ h1
      exact ⟨σ', a1, a2, fun h => a3 (by rw [h]; rfl)⟩
    | fail =>
      simp only
      obtain ⟨_, h4⟩ := h2 (hF (by rw [h0]; simp))
      obtain ⟨σ', a1, a2, _⟩ := ih _ (σ := σ.fail) (w := w) hn ⟨hw.store, hw.mem⟩ h4
      exact ⟨σ', a1, a2, fun h => absurd h (hne (by rw [h0]; simp))⟩
    | failLate =>
      simp only
      obtain ⟨t, b, _, h4⟩ := h3 (hF (by rw [h0]; simp))
      obtain ⟨σ', a1, a2, _⟩ := ih _ (σ := (σ.after C.cfg o t b).fail) (w := ⟨(w.store.step C.cfg o).2, w.mem⟩) hn
        ⟨by simp [St.after, St.fail, hw.store], hw.mem⟩ h4
      exact ⟨σ', a1, a2, fun h => absurd h (hne (by rw [h0]; simp))⟩
  | getMem k ih =>
    intro σ w f hf hw h
    unfold Go.run
    have h' : wp C Q (k w.mem) σ := by rw [← hw.mem]; exact h
    exact ih _ hf hw h'
  | setMem m k ih =>
    intro σ w f hf hw h
    unfold Go.run
    obtain ⟨σ', a1, a2, a3⟩ := ih hf (σ := { σ with mem := σ.mem.set m }) (w := ⟨w.store, w.mem.set m⟩) ⟨hw.store, by rw [hw.mem]⟩ h.2
    exact ⟨σ', a1, a2, a3⟩

/-- at every moment of the run the storage is a possible later state -/
theorem wp_crash {α : Type} {C : Ctx} (hR : C.R = false) (hF : C.F = true) {Q : Out α → St → Prop} :
    ∀ {p : Go α} {σ : St} {w : World} {f : Nat → Fate} (n : Nat), Inv C.cfg C.lim σ → σ.Is w → wp C Q p σ →
      ∃ σ', σ'.store = p.crashAfter C.cfg n f w ∧ Ext C σ σ' := by
  intro p
  induction p with
  | ok a => intro σ w f n hi hw h; cases n <;> exact ⟨σ, hw.store, .refl hi⟩
  | err e => intro σ w f n hi hw h; cases n <;> exact ⟨σ, hw.store, .refl hi⟩
  | panic => intro σ w f n hi hw h; cases n <;> exact ⟨σ, hw.store, .refl hi⟩
  | spin => intro σ w f n hi hw h; cases n <;> exact ⟨σ, hw.store, .refl hi⟩
  | op o k ih =>
    intro σ w f n hi hw h
    cases n with
    | zero => exact ⟨σ, hw.store, .refl hi⟩
    | succ n =>
      obtain ⟨⟨t, b, s1, h1⟩, h2, h3⟩ := h σ (by simp [Env, hR]) C.cfg (.refl _)
      unfold Go.crashAfter
      cases h0 : f 0 with
      | ok =>
        simp only
        have e1 := s1.ext (by simp [hF])
        rw [hw.store] at h1
        obtain ⟨σ', a1, a2⟩ := ih _ (σ := σ.after C.cfg o t b) (w := ⟨(w.store.step C.cfg o).2, w.mem⟩) (f := fun n => f (n + 1)) n e1.inv
          ⟨by simp [St.after, hw.store], hw.mem⟩ h1
        exact ⟨σ', a1, e1.trans a2⟩
      | fail =>
        simp only
        obtain ⟨s4, h4⟩ := h2 hF
        have e1 := s4.ext (by simp [hF])
        obtain ⟨σ', a1, a2⟩ := ih _ (σ := σ.fail) (w := w) (f := fun n => f (n + 1)) n e1.inv ⟨hw.store, hw.mem⟩ h4
        exact ⟨σ', a1, e1.trans a2⟩
      | failLate =>
        simp only
        obtain ⟨t, b, s4, h4⟩ := h3 hF
        have e1 := s4.ext (by simp [hF])
        obtain ⟨σ', a1, a2⟩ := ih _ (σ := (σ.after C.cfg o t b).fail) (w := ⟨(w.store.step C.cfg o).2, w.mem⟩) (f := fun n => f (n + 1)) n e1.inv
          ⟨by simp [St.after, St.fail, hw.store], hw.mem⟩ h4
        exact ⟨σ', a1, e1.trans a2⟩
  | getMem k ih =>
    intro σ w f n hi hw h
    have h' : wp C Q (k w.mem) σ := by rw [← hw.mem]; exact h
    obtain ⟨σ', a1, a2⟩ := ih _ (f := f) n hi hw h'
    exact ⟨σ', by rw [a1]; cases n <;> rfl, a2⟩
  | setMem m k ih =>
    intro σ w f n hi hw h
    have e1 := h.1.ext (by simp [hF])
    obtain ⟨σ', a1, a2⟩ := ih (σ := { σ with mem := σ.mem.set m }) (w := ⟨w.store, w.mem.set m⟩) (f := f) n e1.inv ⟨hw.store, by rw [hw.mem]⟩ h.2
    exact ⟨σ', by rw [a1]; cases n <;> rfl, e1.trans a2⟩

end Semnet
