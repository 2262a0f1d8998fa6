import Verif.Proof.Stray
import Verif.Proof.Unused
import Verif.Spec.Orphan
/-
  Proof: what a call that stores its texts but finds no fact leaves behind.
-/
namespace Semnet
open Spec

variable {cfg : Cfg} {lim : Lim} {σ : St}

theorem bind_ok {α β : Type} {p : Go α} {f : α → Go β} {w w' : World} {b : β} (h : (p >>= f).exec cfg w = (.ok b, w')) :
    ∃ a w1, p.exec cfg w = (.ok a, w1) ∧ (f a).exec cfg w1 = (.ok b, w') := by
  rw [exec_bind] at h
  generalize p.exec cfg w = out at h
  obtain ⟨o, w1⟩ := out
  cases o with
  | ok a => exact ⟨a, w1, rfl, h⟩
  | _ => cases h

/-- CreateStory returns the remark it stored the texts for -/
theorem createStory_half {fuel : Nat} {o p : GoStr} {w w' : World} {r : RemE}
    (h : (Graph.createStory fuel o p).exec cfg w = (.ok r, w')) :
    ∃ w1, (half fuel (pure o) p).exec cfg w = (.ok r, w1) := by
  rw [createStory_eq] at h
  obtain ⟨r1, w1, h1, h⟩ := bind_ok h
  obtain ⟨_, _, _, h⟩ := bind_ok h
  obtain ⟨_, _, _, h⟩ := bind_ok h
  obtain ⟨_, _, _, h⟩ := bind_ok h
  have : r1 = r := by
    have : (Out.ok r1, _) = (Out.ok r, w') := h
    injection this with h1
    injection h1
  exact ⟨w1, this ▸ h1⟩

/-- the storage when the texts are stored and the rest of the call fails without writing -/
theorem Holds.orphan {fuel : Nat} (hf : Fits lim fuel) {st : State} (h : Holds cfg lim st σ) (hc : Clean σ) {o p : GoStr}
    (ho : TextOK lim o) (hp : TextOK lim p) {w1 : World} {r : RemE}
    (hr : (half fuel (pure o) p).exec cfg st.world = (.ok r, w1)) {k : RemE → Go RemE}
    (hk : ∀ r σ', Inv cfg lim σ' → Mono σ σ' → Errs cfg σ'.store (k r)) :
    (∃ e, (half fuel (pure o) p >>= k).exec cfg st.world = (.err e, w1)) ∧
    st.world.store.live r.cls = false ∧ w1.store.targets r.fact = [] ∧
    ∃ σ1, Holds cfg lim ⟨w1, st.log⟩ σ1 ∧ Clean σ1 ∧ RemEnt σ1 r ∧ Says σ1 r (wordsOf o) (wordsOf p) := by
  have c := h.calm hf hc
  obtain ⟨σ1, h1, ⟨hx, hgood⟩, h3⟩ := wp_run (C := calmCtx cfg lim) rfl (f := Go.noFault) (.inr rfl) h.is
    (Wr.half (C := calmCtx cfg lim) rfl rfl rfl c.inv c.B c.clean c.flt c.L c.D
      (fun σ' h => Rd.ret (a := o) h.inv rfl) ho hp)
  have hfl : σ1.flt = false := (h3 rfl).trans h.flt
  have hr' : (half fuel (pure o) p).run cfg Go.noFault st.world = (.ok r, w1) := hr
  have hr'' : (half fuel (pure o) p).run (calmCtx cfg lim).cfg Go.noFault st.world = (.ok r, w1) := hr
  rw [hr''] at h1 hgood
  have hh : Half (calmCtx cfg lim) σ σ1 o p r := hgood
  refine ⟨?_, ?_, ?_, σ1, ⟨h1, hx.inv, hfl, h.keeps.mono hx.mono⟩, hx.clean hc hfl, hh.ent, hh.says⟩
  · obtain ⟨e, he⟩ := hk r σ1 hx.inv hx.mono
    refine ⟨e, ?_⟩
    have := he.exec w1.mem
    have hw : σ1.store = w1.store := h1.store
    rw [hw] at this
    rw [exec_bind, hr]
    exact this
  · cases hl : st.world.store.live r.cls with
    | false => rfl
    | true => exact absurd hh.fresh ((h.inv.live _).1 (by rw [h.is.store]; exact hl))
  · have hw : σ1.store = w1.store := h1.store
    rw [← hw]
    exact hh.Tf

theorem Holds.fetched {fuel : Nat} (hf : Fits lim fuel) {st : State} (h : Holds cfg lim st σ) {o p : GoStr} {r : RemE}
    (hr : RemEnt σ r) (hs : Says σ r (wordsOf o) (wordsOf p)) : Fetched cfg fuel st.world r o p where
  get := by
    obtain ⟨x, m, h1, h2⟩ := Rd.exec (C := calmCtx cfg lim) rfl h.is h.flt (Rd.remByClass (C := calmCtx cfg lim) h.inv hr)
    subst h2
    exact ⟨_, h1⟩
  text := by
    obtain ⟨x, m, h1, h2⟩ := Rd.exec (C := calmCtx cfg lim) rfl h.is h.flt
      (Rd.remarkText (C := calmCtx cfg lim) h.inv hr hs hf.L hf.D)
    rw [textOf_wordsOf, textOf_wordsOf] at h2
    subst h2
    exact ⟨_, h1⟩

/-- the end of a remark is far from anything -/
theorem RemEnt.far {r : RemE} (h : RemEnt σ r) (i : Nat) : Far σ i r.fact := .inr (.inl (by rw [h.tf]; rfl))

/-- the state after a call whose program fails -/
theorem after_failed {fuel : Nat} {es : List Event} {c : Call} {p : Go RemE}
    (hp : c.prog fuel (after cfg fuel es).log = (p >>= fun r => pure (some r))) {e : Err} {w : World}
    (h : p.exec cfg (after cfg fuel es).world = (.err e, w)) :
    after cfg fuel (es ++ [.call c Go.noFault]) = ⟨w, (after cfg fuel es).log⟩ := by
  rw [after_append]
  show State.call cfg fuel (after cfg fuel es) c Go.noFault = _
  unfold State.call
  rw [hp]
  have : (p >>= fun r => pure (some r) : Go (Option RemE)).run cfg Go.noFault (after cfg fuel es).world = (.err e, w) := by
    show (p >>= fun r => pure (some r) : Go (Option RemE)).exec cfg (after cfg fuel es).world = _
    rw [exec_bind, h]
  rw [this]

/-- a call that fails after the texts were stored leaves the remark -/
theorem Spec.Calm.orphan {fuel : Nat} {es es' : List Event} {c : Call} {o p : GoStr}
    (h : Calm cfg fuel (es ++ [.call c Go.noFault] ++ es')) (ho : o.length < fuel) (hp : p.length < fuel) {e : Entry}
    (he : e ∈ (after cfg fuel es).log) {k : RemE → Go RemE}
    (hc : c.prog fuel (after cfg fuel es).log = ((half fuel (pure o) p >>= k) >>= fun r => pure (some r)))
    (hk : ∀ σ, RemEnt σ e.handle → Inv cfg (stdLim fuel) σ → ∀ r, Errs cfg σ.store (k r))
    {r : RemE} {w : World} (hr : (Graph.createStory fuel o p).exec cfg (after cfg fuel es).world = (.ok r, w)) :
    (∃ er, ((half fuel (pure o) p >>= k).exec cfg (after cfg fuel es).world).1 = .err er) ∧
    (after cfg fuel (es ++ [.call c Go.noFault])).log = (after cfg fuel es).log ∧
    (after cfg fuel es).world.store.live r.cls = false ∧
    (after cfg fuel (es ++ [.call c Go.noFault])).world.store.targets r.fact = [] ∧
    Fetched cfg fuel (after cfg fuel (es ++ [.call c Go.noFault] ++ es')).world r o p := by
  have fits := h.budget.fits
  obtain ⟨σ, hs, hcl⟩ := h.left.left.sound.holds (ne_nil_of_mem he)
  obtain ⟨w1, hw⟩ := createStory_half hr
  obtain ⟨⟨er, h1⟩, h2, h3, σ1, h4, h5, h6, h7⟩ := hs.orphan fits hcl (TextOK.std ho) (TextOK.std hp) hw (k := k)
    fun r σ' hi m => hk σ' ((hs.keeps.ok e he).ent.mono m) hi r
  have ha := after_failed hc h1
  rw [← ha] at h4
  obtain ⟨σ2, h8, _, m⟩ := h.from h4 h5
  refine ⟨⟨er, by rw [h1]⟩, by rw [ha], h2, by rw [ha]; exact h3, ?_⟩
  exact h8.fetched fits (h6.mono m) (h7.mono m h6)

/-! ### every creating call makes a remark -/

/-- every creating call begins with a new node of the class of remarks -/
theorem Spec.Call.Makes.prog {fuel : Nat} {log : List Entry} {c : Call} (h : c.Makes log) :
    ∃ k : Nat → Go (Option RemE), c.prog fuel log =
      (Class.provideEntity >>= fun _ => Class.createNode Class.remarkId >>= k) := by
  have get : ∀ i, i < log.length → ∃ e, log[i]? = some e := fun i hi => ⟨log[i], List.getElem?_eq_getElem hi⟩
  cases c with
  | createStory o p => exact ⟨_, by simp only [Call.prog, Graph.createStory, bind_assoc]; rfl⟩
  | addRemark i p =>
    obtain ⟨e, he⟩ := get i h
    exact ⟨_, by simp only [Call.prog, he, Remark.addRemarkToFact, bind_assoc]; rfl⟩
  | addFact i o p =>
    obtain ⟨e, he⟩ := get i h
    exact ⟨_, by simp only [Call.prog, he, Remark.addFactToStory, bind_assoc]; rfl⟩
  | addChild i o p =>
    obtain ⟨e, he⟩ := get i h
    exact ⟨_, by simp only [Call.prog, he, Remark.createChildStory, bind_assoc]; rfl⟩
  | query i q => exact h.elim
  | getRemark x => exact h.elim

theorem Holds.provide_createNode {st : State} (h : Holds cfg lim st σ) {α : Type} (k : Nat → Go α) {j : Nat}
    (hj : 1 ≤ j ∧ j ≤ 8) :
    (st.world.store.next, j) ∈
      ((Class.provideEntity >>= fun _ => Class.createNode j >>= k).exec cfg st.world).2.store.edges := by
  have hi := h.inv
  have lroot : ∀ j, 1 ≤ j → j ≤ 8 → st.world.store.live j = true := fun j h1 h2 => by
    rw [← h.is.store]
    exact (hi.live j).2 (by rw [(hi.root j).2 ⟨h1, h2⟩]; simp)
  have e1 : Class.provideEntity.exec cfg st.world = (.ok (), st.world) := by
    show Class.provideEntity.run cfg Go.noFault st.world = _
    simp [Class.provideEntity, Go.has, Go.call, bind, Go.bind, Go.run, Go.noFault, Store.step, lroot 1 (by omega) (by omega),
      Pure.pure]
  have hn : (st.world.store.next, j) ∉ st.world.store.edges := by
    intro he
    rw [← h.is.store] at he
    have ht := hi.edge _ _ he
    have : σ.tag σ.store.next = .none := Classical.byContradiction fun hne => Nat.lt_irrefl _ (hi.bound _ hne)
    rw [h.is.store] at this ht
    unfold EdgeOK at ht
    rw [this] at ht
    exact ht
  have e2 : ∃ w1, (Class.createNode j).exec cfg st.world = (.ok st.world.store.next, w1) ∧
      (st.world.store.next, j) ∈ w1.store.edges := by
    have l1 : st.world.store.created.live st.world.store.next = true := by simp [Store.created, Store.live]
    have l2 : st.world.store.created.live j = true := by
      have := lroot j hj.1 hj.2
      simp only [Store.live, Store.created, List.contains_cons] at this ⊢
      rw [this, Bool.or_true]
    have hc : st.world.store.created.edges.contains (st.world.store.next, j) = false := by
      cases hc : st.world.store.created.edges.contains (st.world.store.next, j) with
      | false => rfl
      | true => exact absurd (List.contains_iff_mem.1 hc) hn
    refine ⟨⟨st.world.store.created.connected cfg st.world.store.next j, st.world.mem⟩, ?_, List.mem_cons_self ..⟩
    show (Class.createNode j).run cfg Go.noFault st.world = _
    simp only [Class.createNode, Go.create, Go.connect, Go.call, bind, Go.bind, Go.run, Go.noFault, Store.step, l1, l2, hc,
      Bool.and_self, if_true, Pure.pure]
    rfl
  obtain ⟨w1, e2, e3⟩ := e2
  rw [exec_bind, e1]
  simp only
  rw [exec_bind, e2]
  exact exec_adds cfg _ _ _ e3

theorem call_world (cfg : Cfg) (fuel : Nat) (st : State) (c : Call) :
    (st.call cfg fuel c Go.noFault).world = ((c.prog fuel st.log).exec cfg st.world).2 := by
  unfold State.call
  show _ = ((c.prog fuel st.log).run cfg Go.noFault st.world).2
  generalize (c.prog fuel st.log).run cfg Go.noFault st.world = out
  obtain ⟨o, w⟩ := out
  cases o with
  | ok o => cases o <;> rfl
  | _ => rfl

/-- whatever becomes of a creating call, there is a new remark in the end -/
theorem Spec.Calm.makes {fuel : Nat} {es es' : List Event} {c : Call} (h : Calm cfg fuel (es ++ [.call c Go.noFault] ++ es'))
    (hl : (after cfg fuel es).log ≠ []) (hc : c.Makes (after cfg fuel es).log) :
    (after cfg fuel es).world.store.live (after cfg fuel es).world.store.next = false ∧
    ∃ r w', (Graph.getRemark (after cfg fuel es).world.store.next).exec cfg
        (after cfg fuel (es ++ [.call c Go.noFault] ++ es')).world = (.ok r, w') ∧
      r.cls = (after cfg fuel es).world.store.next ∧
      r.cls ∈ (after cfg fuel (es ++ [.call c Go.noFault] ++ es')).world.store.sources Class.remarkId := by
  obtain ⟨σ, hs, hcl⟩ := h.left.left.sound.holds hl
  obtain ⟨k, hk⟩ := hc.prog (fuel := fuel)
  have hlate : ∀ {st : State} {σ : St}, Holds cfg (stdLim fuel) st σ → Clean σ → ∀ {n}, n ∈ σ.S Class.remarkId →
      ∃ r w', (Graph.getRemark n).exec cfg st.world = (.ok r, w') ∧ r.cls = n := by
    intro st σ h hc n hn
    obtain ⟨ht, hw, _⟩ := hc.strand h.inv (k := Class.remarkId) (by decide) hn
    rcases hw.nodes with ⟨a, b, c, t1, t2, t3, hk, hch, h1, h2, h3⟩ | ⟨hk, _⟩ | ⟨hk, _⟩
    · cases hk
      obtain ⟨x, m, h1, h2⟩ := Rd.exec (C := calmCtx cfg (stdLim fuel)) rfl h.is h.flt
        (Rd.remByClass (C := calmCtx cfg (stdLim fuel)) h.inv (r := ⟨n, a, b, c⟩) ⟨hch, ht, h1, h2, h3, hw.T⟩)
      subst h2
      exact ⟨_, _, h1, rfl⟩
    · cases hk
    · cases hk
  have hedge := hs.provide_createNode k (j := Class.remarkId) (by decide)
  rw [← hk, ← call_world] at hedge
  have ha : after cfg fuel (es ++ [.call c Go.noFault]) = State.call cfg fuel (after cfg fuel es) c Go.noFault := by
    rw [after_append]; rfl
  rw [← ha] at hedge
  have hl1 : (after cfg fuel (es ++ [.call c Go.noFault])).log ≠ [] := by
    obtain ⟨e, he⟩ := List.exists_mem_of_ne_nil _ hl
    exact ne_nil_of_mem (mem_later (es' := [.call c Go.noFault]) he)
  obtain ⟨σ1, h1, c1⟩ := h.left.sound.holds hl1
  obtain ⟨σ2, h2, c2, m⟩ := h.from h1 c1
  rw [← h1.is.store] at hedge
  have hm : (after cfg fuel es).world.store.next ∈ σ2.S Class.remarkId := mem_S.2 (m.edges _ _ hedge)
  obtain ⟨r, w', h3, h4⟩ := hlate h2 c2 hm
  refine ⟨?_, r, w', h3, h4, ?_⟩
  · rw [← hs.is.store]
    cases hlv : σ.store.live σ.store.next with
    | false => rfl
    | true => exact absurd (hs.inv.bound _ ((hs.inv.live _).1 hlv)) (Nat.lt_irrefl _)
  · rw [h4, ← h2.is.store]; exact hm

end Semnet
