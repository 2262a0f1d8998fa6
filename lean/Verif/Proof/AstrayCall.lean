import Verif.Proof.Astray
/-
  Proof: AddRemarkToFact on a remark that belongs to no fact.
-/
namespace Semnet
open Spec

variable {cfg : Cfg} {σ : St}

/-- what the call leaves: a storage in order, with one remark more -/
theorem Holds.astrayCall {fuel : Nat} {st : State} (hf : Fits (stdLim fuel) fuel)
    (h : Holds cfg (stdLim fuel) st σ) (hc : Clean σ) {r : RemE} {o p p' : GoStr} (ho : o.length < fuel)
    (hp' : p'.length < fuel) (hr : RemEnt σ r) (hs : Says σ r (wordsOf o) (wordsOf p))
    (hT : st.world.store.targets r.fact = []) :
    ∃ σ1, Holds cfg (stdLim fuel) ⟨((Remark.addRemarkToFact fuel r p').exec cfg st.world).2, st.log⟩ σ1 ∧ Clean σ1 ∧
      Mono σ σ1 ∧ σ1.T r.fact = [] ∧ st.world.store.next ∈ σ1.S Class.remarkId := by
  have c := h.calm hf hc
  have hsrc : ∀ σ', Ext (calmCtx cfg (stdLim fuel)) σ σ' → Rd (calmCtx cfg (stdLim fuel)) (· = asText o)
      (Remark.getObjectAndProperty fuel r >>= fun q => pure q.1) σ' := fun σ' h => by
    refine Rd.bind (Rd.remarkText h.inv (hr.mono h.mono) (hs.mono h.mono hr) hf.L hf.D) ?_
    intro y σ1 h1 _ hy; subst hy
    exact Rd.ret h1.inv (textOf_wordsOf o)
  obtain ⟨hsp, hh⟩ := h.half hf hc (o := asText o) hsrc (TextOK.std ho).asText (TextOK.std hp') hr.tf
  obtain ⟨σ1, g1, ⟨gx, _⟩, g3⟩ := wp_run (C := calmCtx cfg (stdLim fuel)) rfl (f := Go.noFault) (.inr rfl) h.is
    (Wr.half (C := calmCtx cfg (stdLim fuel)) rfl rfl rfl c.inv c.B c.clean c.flt c.L c.D hsrc (TextOK.std ho).asText
      (TextOK.std hp'))
  have hfl : σ1.flt = false := (g3 rfl).trans h.flt
  have hw : ((Remark.addRemarkToFact fuel r p').exec cfg st.world).2 =
      ((Semnet.half fuel (Remark.getObjectAndProperty fuel r >>= fun q => pure q.1) p').exec cfg st.world).2 := by
    rw [addRemarkToFact_eq, exec_bind]
    generalize hq : (Semnet.half fuel (Remark.getObjectAndProperty fuel r >>= fun q => pure q.1) p').exec cfg st.world = out
    obtain ⟨o1, w1⟩ := out
    cases o1 with
    | ok r1 =>
      obtain ⟨_, σ2, h3, _, m⟩ := hh r1 w1 hq
      have hl : w1.store.live r.fact = true := by
        have : σ2.store = w1.store := h3.is.store
        rw [← this]
        exact (h3.inv.live _).2 (by rw [m.tagEq hr.tf (by simp)]; simp)
      have hT1 : w1.store.targets r.fact = [] := by
        unfold Spares at hsp
        rw [hq, hT] at hsp
        exact hsp
      simp only
      rw [noTarget hl hT1]
    | _ => rfl
  have hedge : (st.world.store.next, Class.remarkId) ∈ ((Remark.addRemarkToFact fuel r p').exec cfg st.world).2.store.edges :=
    h.provide_createNode _ (by decide)
  have hi1 : σ1.Is ((Remark.addRemarkToFact fuel r p').exec cfg st.world).2 := by rw [hw]; exact g1
  refine ⟨σ1, ⟨hi1, gx.inv, hfl, h.keeps.mono gx.mono⟩, gx.clean hc hfl, gx.mono, ?_, ?_⟩
  · have : σ1.store = _ := g1.store
    show σ1.store.targets r.fact = []
    rw [this, ← hT]
    exact hsp
  · exact mem_S.2 (by rw [hi1.store]; exact hedge)

/-- a member of the class of remarks is found -/
theorem Holds.member {lim : Lim} {st : State} (h : Holds cfg lim st σ) (hc : Clean σ) {n : Nat} (hn : n ∈ σ.S Class.remarkId) :
    ∃ r w', (Graph.getRemark n).exec cfg st.world = (.ok r, w') ∧ r.cls = n := by
  obtain ⟨ht, hw, _⟩ := hc.strand h.inv (k := Class.remarkId) (by decide) hn
  rcases hw.nodes with ⟨a, b, c, t1, t2, t3, hk, hch, h1, h2, h3⟩ | ⟨hk, _⟩ | ⟨hk, _⟩
  · cases hk
    obtain ⟨x, m, h1, h2⟩ := Rd.exec (C := calmCtx cfg lim) rfl h.is h.flt
      (Rd.remByClass (C := calmCtx cfg lim) h.inv (r := ⟨n, a, b, c⟩) ⟨hch, ht, h1, h2, h3, hw.T⟩)
    subst h2
    exact ⟨_, _, h1, rfl⟩
  · cases hk
  · cases hk

/-- the ghost state when a failed call has left a remark -/
theorem Spec.Calm.astrayHolds {fuel : Nat} (hz : cfg.zero = false) {es es' : List Event} {c : Call} {o p : GoStr}
    (h : Calm cfg fuel (es ++ [.call c Go.noFault] ++ es')) (ho : o.length < fuel) (hp : p.length < fuel) {e : Entry}
    (he : e ∈ (after cfg fuel es).log) {k : RemE → Go RemE}
    (hc : c.prog fuel (after cfg fuel es).log = ((Semnet.half fuel (pure o) p >>= k) >>= fun r => pure (some r)))
    (hk : ∀ σ, RemEnt σ e.handle → Inv cfg (stdLim fuel) σ → ∀ r, Errs cfg σ.store (k r))
    {r : RemE} {w : World} (hr : (Graph.createStory fuel o p).exec cfg (after cfg fuel es).world = (.ok r, w)) :
    ∃ σ, Holds cfg (stdLim fuel) (after cfg fuel (es ++ [.call c Go.noFault] ++ es')) σ ∧ Clean σ ∧ RemEnt σ r ∧
      Says σ r (wordsOf o) (wordsOf p) ∧ (after cfg fuel (es ++ [.call c Go.noFault] ++ es')).log ≠ [] ∧
      (after cfg fuel (es ++ [.call c Go.noFault] ++ es')).world.store.targets r.fact = [] := by
  have fits := h.budget.fits
  obtain ⟨σ, hs, hcl⟩ := h.left.left.sound.holds (ne_nil_of_mem he)
  obtain ⟨w1, hw⟩ := createStory_half hr
  obtain ⟨⟨er, h1⟩, _, _, σ1, h4, h5, h6, h7⟩ := hs.orphan fits hcl (TextOK.std ho) (TextOK.std hp) hw (k := k)
    fun r σ' hi m => hk σ' ((hs.keeps.ok e he).ent.mono m) hi r
  have ha := after_failed hc h1
  rw [← ha] at h4
  obtain ⟨σ2, h8, h9, m⟩ := h.from h4 h5
  exact ⟨σ2, h8, h9, h6.mono m, h7.mono m h6, ne_nil_of_mem (mem_later (mem_later he)), (h.astray hz ho hp he hc hk hr).1⟩

/-- AddRemarkToFact on it, and then any calm history -/
theorem Holds.astrayAfter {fuel : Nat} (hz : cfg.zero = false) {st : State} (hf : Fits (stdLim fuel) fuel)
    (h : Holds cfg (stdLim fuel) st σ) (hc : Clean σ) (hl : st.log ≠ []) {r : RemE} {o p p' : GoStr} (ho : o.length < fuel)
    (hp' : p'.length < fuel) (hr : RemEnt σ r) (hs : Says σ r (wordsOf o) (wordsOf p))
    (hT : st.world.store.targets r.fact = []) {es : List Event} (he : ∀ e ∈ es, e.Calm)
    (ht : ∀ e ∈ es, ∀ t ∈ e.texts, t.length < fuel) :
    Harmless cfg fuel st.world.store.next (st.astray cfg fuel r p' |>.events cfg fuel es) r o p := by
  obtain ⟨σ1, h1, c1, m1, T1, n1⟩ := h.astrayCall hf hc ho hp' hr hs hT
  obtain ⟨σ2, h2, c2, m2⟩ := calm_from hf es h1 c1 he fun e he t h => TextOK.std (ht e he t h)
  have m := m1.trans m2
  have hT2 := astray_from hz hf es h1 c1 hl he (fun e he t h => TextOK.std (ht e he t h)) (m1.tagEq hr.tf (by simp))
  have hT3 : ((st.astray cfg fuel r p').events cfg fuel es).world.store.targets r.fact = [] := by
    refine hT2.trans ?_
    have : σ1.store.targets r.fact = [] := T1
    rw [h1.is.store] at this
    exact this
  refine ⟨fun e he => h2.readable hf he, h2.fetched hf (hr.mono m) (hs.mono m hr),
    h2.astray hz hf c2 ho (hr.mono m) (hs.mono m hr) hT3, ?_⟩
  exact h2.member c2 (mem_S.2 (m2.edges _ _ (mem_S.1 n1)))

end Semnet
