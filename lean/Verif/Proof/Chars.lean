import Verif.Proof.Calls
/-
  The character layer: existing characters are found again.
-/
namespace Semnet
open Spec

/-- the result of a computation that cannot fail, wrapped -/
theorem Rd.attemptC {α : Type} {C : Ctx} {good : α → Prop} {p : Go α} {σ : St} (hF : C.F = false)
    (hfl : σ.flt = false) (h : Rd C good p σ) : Rd C (fun r => ∃ a, r = .ok a ∧ good a) p.attempt σ := by
  refine wp_attempt (wp_mono ?_ (wp_calm hF h))
  intro o σ1 ⟨⟨h1, h2, h3⟩, h4⟩
  have hfl1 : σ1.flt = false := h4.trans hfl
  cases o with
  | ok a => exact ⟨h1, h2, ⟨a, rfl, h3.1⟩, h3.2⟩
  | err e => rw [hfl1] at h3; cases h3
  | panic => rw [hfl1] at h3; cases h3
  | spin => exact h3.elim

theorem Rd.bindC {α β : Type} {C : Ctx} {good : α → Prop} {good' : β → Prop} {p : Go α} {f : α → Go β}
    {σ : St} (_ : C.F = false) (hfl : σ.flt = false) (h : Rd C good p σ)
    (hf : ∀ a σ', Ext C σ σ' → True → σ'.flt = false → good a → Rd C good' (f a) σ') : Rd C good' (p >>= f) σ :=
  Rd.bindF h fun a σ' h1 h2 h3 => hf a σ' h1 trivial (h2.trans hfl) h3

theorem Rd.charHead {C : Ctx} {σ : St} (hi : Inv C.cfg C.lim σ) {bs} (hb : σ.bits = some bs) {v : Bool} {e}
    (he : CharEnt σ [v] e) : Rd C (· = e) (Character.provideHeadEntity (bitEnt bs v)) σ := by
  unfold Character.provideHeadEntity
  have hT : σ.T (bitNode bs v) = [e.bit] := by
    generalize hp : [v] = p at he
    cases he with
    | @head v' _ bs' h1 h2 h3 h4 =>
      cases hp
      have : bs' = bs := by have := h1.bits; rw [hb] at this; cases this; rfl
      subst this; exact h3
    | @tail q v' _ e1 bs' h1 _ _ _ =>
      have := h1.ne_nil
      cases q with
      | nil => exact absurd rfl this
      | cons a q => simp at hp
  have tv := (getD_bits hi hb).tag v
  refine Rd.bind (good := (· = true)) ?_ ?_
  · unfold Bit.hasTargetCharacter
    rw [(getD_bits hi hb).used v]
    rw [bitEnt_character]
    refine Rd.bind (Rd.targets1 hi tv rfl hT) ?_
    intro a σ1 h1 _ ha; subst ha
    exact Rd.ret h1.inv rfl
  intro a σ1 h1 hs ha; subst ha
  simp only [if_true]
  refine Rd.bind (good := (· = e.bit)) ?_ ?_
  · unfold Bit.getTargetCharacter
    rw [(getD_bits hi hb).used v]
    rw [bitEnt_character]
    refine Rd.bind (Rd.targets1 h1.inv (h1.mono.tagEq tv (by simp)) rfl
      (h1.mono.Teq tv rfl hT (by simp))) ?_
    intro a σ1 h1 _ ha; subst ha
    exact Rd.ret h1.inv rfl
  intro a σ2 h2 hs2 ha; subst ha
  exact Rd.charByBit h2.inv (he.mono (h1.trans h2).mono)

theorem Rd.charNext {C : Ctx} (hR : C.R = false) {σ : St} (hi : Inv C.cfg C.lim σ) {v : Bool} {p e e'}
    (he : CharEnt σ p e) (he' : CharEnt σ (p ++ [v]) e') :
    Rd C (· = ⟨some e'⟩) (Character.provideNextElement ⟨some e⟩ v) σ := by
  unfold Character.provideNextElement
  refine Rd.bind (good := (· = e)) (Rd.ret hi rfl) ?_
  intro a σ1 h1 hs1 ha; subst ha
  have hs1 := hs1 hR
  refine Rd.bind (good := fun l => l.Perm (σ.T a.character)) (Rd.targets h1.inv ?_ ?_) ?_
  · rw [(he.mono h1.mono).tagC]; simp
  · intro σ2 l h2 ro hl
    rw [(ro hR).T, hs1.T] at hl; exact hl
  intro ids σ2 h2 hs2 hids
  have s12 := hs1.trans (hs2 hR)
  have h12 := h1.trans h2
  refine Rd.bind (Rd.charReadAll ids h2.inv (p := p) ?_) ?_
  · intro i hi'
    refine h2.inv.charChild (he.mono h12.mono) ?_
    rw [s12.T]; exact hids.mem_iff.1 hi'
  intro cs σ3 h3 hs3 ⟨hcs, hent⟩
  have h13 := h12.trans h3
  refine Rd.bind (Rd.charSearch v cs h3.inv (p := p) ?_) ?_
  · intro c hc
    obtain ⟨v', h'⟩ := hent c hc
    exact ⟨v', h'.mono h3.mono⟩
  intro o σ4 h4 hs4 ho
  have h14 := h13.trans h4
  cases o with
  | some c =>
    refine Rd.ret h4.inv ?_
    rw [(ho.2).unique h3.inv (he'.mono h13.mono)]
  | none =>
    exfalso
    have hc : e'.character ∈ cs.map (·.character) := by
      rw [hcs]; exact hids.mem_iff.2 (he.inT hi he')
    obtain ⟨c, hc1, hc2⟩ := List.mem_map.1 hc
    obtain ⟨v', hv⟩ := hent c hc1
    have := (hv.mono h3.mono).ext (he'.mono h13.mono) hc2
    subst this
    exact ho c hc1 (he'.mono h13.mono)

theorem Rd.charWalk {C : Ctx} (hR : C.R = false) (hF : C.F = false) : ∀ (bs : List Bool) {σ : St} (_ : Inv C.cfg C.lim σ)
    (_ : σ.flt = false) {p e e'} (_ : CharEnt σ p e) (_ : CharEnt σ (p ++ bs) e'),
    Rd C (· = some ⟨some e'⟩) (Character.walk (some ⟨some e⟩) bs) σ := by
  intro bs
  induction bs with
  | nil =>
    intro σ hi _ p e e' he he'
    rw [List.append_nil] at he'
    have := he.unique hi he'
    subst this
    exact Rd.ret hi rfl
  | cons b bs ih =>
    intro σ hi hfl p e e' he he'
    unfold Character.walk
    refine Rd.bindC (good := (· = ⟨some e⟩)) hF hfl (Rd.ret hi rfl) ?_
    intro a σ1 h1 _ hfl1 ha; subst ha
    obtain ⟨e1, he1⟩ := he'.prefix (q := p ++ [b]) (by simp) ⟨bs, by simp⟩
    refine Rd.bindC hF hfl1 (Rd.attemptC hF hfl1 (Rd.charNext hR h1.inv (he.mono h1.mono) (he1.mono h1.mono))) ?_
    intro a σ2 h2 _ hfl2 ⟨x, ha, hx⟩; subst ha; subst hx
    have m := (h1.trans h2).mono
    exact ih h2.inv hfl2 (he1.mono m) (by simpa using he'.mono m)

/-- an existing character is found, and nothing is written -/
theorem Rd.charProvide {C : Ctx} (hR : C.R = false) (hF : C.F = false) {σ : St} (hi : Inv C.cfg C.lim σ)
    (hfl : σ.flt = false) {r : Rune} {path : List Bool} (hc : Character.collect r = .ok path) {e}
    (he : CharEnt σ path e) : Rd C (· = ⟨some e⟩) (Character.provide r) σ := by
  unfold Character.provide
  rw [hc]
  obtain ⟨bs, hb⟩ := he.bits
  match path, he.ne_nil with
  | b :: l, _ =>
    obtain ⟨e1, he1⟩ := he.prefix (q := [b]) (by simp) ⟨l, rfl⟩
    refine Rd.bindC hF hfl (good := (· = ⟨some e1⟩)) ?_ ?_
    · unfold Character.provideFirstElement
      refine Rd.bindC hF hfl (Rd.bitProvide hi hb b) ?_
      intro a σ1 h1 _ hfl1 ha; subst ha
      refine Rd.bindC hF hfl1 (Rd.provideEntity h1.inv) ?_
      intro _ σ2 h2 _ hfl2 _
      have m := (h1.trans h2).mono
      refine Rd.bindC hF hfl2 (Rd.attemptC hF hfl2 (Rd.charHead h2.inv (m.bits _ hb) (he1.mono m))) ?_
      intro a σ3 h3 _ _ ⟨x, ha, hx⟩; subst ha; subst hx
      exact Rd.ret h3.inv rfl
    intro a σ1 h1 _ hfl1 ha; subst ha
    refine Rd.bindC hF hfl1 (Rd.charWalk hR hF l h1.inv hfl1 (he1.mono h1.mono) (by simpa using he.mono h1.mono)) ?_
    intro a σ2 h2 _ _ ha; subst ha
    exact Rd.ret h2.inv rfl

theorem charProvide_empty (cfg : Cfg) {r : Rune} {b : Bool} {bs : List Bool} (hc : Character.collect r = .ok (b :: bs)) :
    (Character.provide r).exec cfg (World.open (Store.empty cfg)) =
      (Character.provide r).exec cfg (World.open (rootStore cfg)) := by
  have h0 : Bit.init.exec cfg (World.open (Store.empty cfg)) = Bit.init.exec cfg (World.open (rootStore cfg)) := by
    unfold Bit.init
    rw [exec_bind, exec_bind]
    suffices h1 : Bit.ensure.exec cfg (World.open (Store.empty cfg)) =
        Bit.ensure.exec cfg (World.open (rootStore cfg)) by rw [h1]
    show (Go.exec cfg (do Class.provideEntity; _) _) = (Go.exec cfg (do Class.provideEntity; _) _)
    rw [exec_bind, exec_bind]
    rw [show World.open (Store.empty cfg) = ⟨Store.empty cfg, Layer.fresh⟩ from rfl,
      show World.open (rootStore cfg) = ⟨rootStore cfg, Layer.fresh⟩ from rfl, provide_empty, provide_roots]
  unfold Character.provide
  rw [hc]
  simp only
  rw [exec_bind, exec_bind]
  unfold Character.provideFirstElement
  rw [exec_bind, exec_bind]
  unfold Bit.provide
  rw [exec_bind, exec_bind, h0]

private theorem natAbs_lt {r : Int} (h0 : 0 ≤ r) (h1 : r < 2 ^ 31) : r.natAbs < 2 ^ 31 := by omega

theorem Holds.charProvide {cfg : Cfg} {fuel : Nat} {st : State} {σ : St} (hs : Holds cfg (stdLim fuel) st σ)
    (hc : Clean σ) {r : Rune} (h0 : 0 ≤ r) (h1 : r < 2 ^ 31) :
    ∃ e w σ', (Character.provide r).exec cfg st.world = (.ok ⟨some e⟩, w) ∧ Holds cfg (stdLim fuel) ⟨w, st.log⟩ σ' ∧
      Clean σ' ∧ CharEnt σ' (bitsOf r) e ∧ Mono σ σ' := by
  have hp : PathOK (stdLim fuel) (bitsOf r) := by
    intro q _ hq
    have hn : r.natAbs < 2 ^ 31 := natAbs_lt h0 h1
    exact Nat.le_trans hq.length_le (bitsOf_length hn (by omega))
  obtain ⟨σ', h2⟩ := WrL.ends hs.is hs.flt (Wr.charProvide (C := calmCtx cfg (stdLim fuel)) (bad := never) rfl rfl hs.inv
    (fun h => by cases h) (collect_ok h0) (bitsOf_ne_nil r) hp)
  obtain ⟨i1, i2, i3, i4⟩ := h2
  generalize (Character.provide r).exec cfg st.world = out at i1 i4
  obtain ⟨o, w⟩ := out
  cases o with
  | ok a =>
    obtain ⟨a⟩ := a
    cases a with
    | none => simp only at i4; rw [i3] at i4; cases i4
    | some e =>
      exact ⟨e, w, σ', rfl, ⟨i1, i2.inv, i3, hs.keeps.mono i2.mono⟩, i2.clean hc i3, i4.1, i2.mono⟩
  | err e => exact i4.elim
  | panic => exact i4.elim
  | spin => exact i4.elim

/-- storing a rune in any calm state -/
theorem Sound.charProvide {cfg : Cfg} {fuel : Nat} (hd : Policy cfg (stdLim fuel)) {st : State}
    (h : Sound cfg (stdLim fuel) st) {r : Rune} (h0 : 0 ≤ r) (h1 : r < 2 ^ 31) :
    ∃ e w σ, (Character.provide r).exec cfg st.world = (.ok ⟨some e⟩, w) ∧ Holds cfg (stdLim fuel) ⟨w, st.log⟩ σ ∧
      Clean σ ∧ CharEnt σ (bitsOf r) e := by
  rcases h with h | ⟨σ, h, hc⟩
  · obtain ⟨e, w, σ', a, b, c, d, _⟩ := (roots_holds (lim := stdLim fuel) hd).charProvide (rootSt_clean cfg) h0 h1
    refine ⟨e, w, σ', ?_, by rw [h]; exact b, c, d⟩
    rw [← a, h]
    cases hb : bitsOf r with
    | nil => exact absurd hb (bitsOf_ne_nil r)
    | cons b bs => exact charProvide_empty cfg (by rw [collect_ok h0, hb])
  · obtain ⟨e, w, σ', a, b, c, d, _⟩ := h.charProvide hc h0 h1
    exact ⟨e, w, σ', a, b, c, d⟩

end Semnet
