import Verif.Proof.Queries
import Verif.Proof.Strings
/-
  From the invariant to answers of the API.
-/
namespace Semnet
open Spec

theorem Rd.map {α β : Type} {C : Ctx} {good : α → Prop} {p : Go α} {f : α → β} {σ : St} {good' : β → Prop}
    (h : Rd C good p σ) (hg : ∀ a, good a → good' (f a)) : Rd C good' (do let a ← p; pure (f a)) σ :=
  Rd.bind h fun a _ h1 _ ha => Rd.ret h1.inv (hg a ha)

theorem opener_some {log : List Entry} {e : Entry} {e' : Entry} (h : e.opener.bind (log[·]?) = some e') :
    ∃ i, e.opener = some i ∧ log[i]? = some e' := by
  cases ho : e.opener with
  | none => rw [ho] at h; cases h
  | some i => rw [ho] at h; exact ⟨i, rfl, h⟩

/-- every expected answer is given -/
theorem Rd.ask {C : Ctx} (hFz : C.F = false ∨ C.cfg.zero = false) {σ : St} (hi : Inv C.cfg C.lim σ)
    (hfl : C.F = false → σ.flt = false) {log e} (k : Keeps C.lim σ log) (he : e ∈ log) {fuel : Nat}
    (hf : Fits C.lim fuel) {q a} (ha : e.answer log q = some a) : Rd C (· = a) (q.ask fuel e.handle) σ := by
  have ok := k.ok e he
  cases q with
  | getObjectAndProperty =>
    cases ha
    refine Rd.map (Rd.remarkText hi ok.ent ok.says hf.L hf.D) ?_
    intro x hx; subst hx
    rw [textOf_wordsOf, textOf_wordsOf, ok.obj, ok.prop]
  | hasNextRemark =>
    cases ha
    exact Rd.map (Rd.hasNextRemark hi ok.ent) fun x hx => by rw [hx]
  | getFirstFact =>
    obtain ⟨e', h1, h2⟩ := Option.map_eq_some_iff.1 ha
    subst h2
    obtain ⟨i, ho, hl⟩ := opener_some h1
    obtain ⟨op, hb, hop⟩ := ok.fact'
    obtain ⟨e2, hl2, he2⟩ := hop i ho
    rw [hl] at hl2; cases hl2
    subst he2
    exact Rd.map (Rd.getFirstFact hFz hi hfl ok.ent hb) fun x hx => by rw [hx]
  | getStory =>
    obtain ⟨e', h1, h2⟩ := Option.map_eq_some_iff.1 ha
    subst h2
    obtain ⟨i, ho, hl⟩ := opener_some h1
    obtain ⟨op, hb, hop⟩ := ok.fact'
    obtain ⟨e2, hl2, he2⟩ := hop i ho
    rw [hl] at hl2; cases hl2
    subst he2
    have ok' := k.get hl
    refine Rd.map (Rd.getStory hFz hi hfl ok.ent hb ok'.ent ok'.says hf.L hf.D (by have := hf.two; omega)) ?_
    intro x hx; subst hx
    rw [textOf_wordsOf, textOf_wordsOf, ok'.obj, ok'.prop]
    rfl
  | _ => cases ha

theorem Rd.get {C : Ctx} {σ : St} (hi : Inv C.cfg C.lim σ) {log e} (k : Keeps C.lim σ log) (he : e ∈ log) :
    Rd C (· = e.handle) (Graph.getRemark (Remark.getIdentifier e.handle)) σ :=
  Rd.remByClass hi (k.ok e he).ent

theorem Holds.readable {cfg lim fuel st σ} (h : Holds cfg lim st σ) (hf : Fits lim fuel) {e} (he : e ∈ st.log) :
    Readable cfg fuel st.log st.world e where
  ask q a ha := by
    obtain ⟨x, m, h1, h2⟩ := Rd.exec (C := calmCtx cfg lim) rfl h.is h.flt
      (Rd.ask (C := calmCtx cfg lim) (.inl rfl) h.inv (fun _ => h.flt) h.keeps he hf ha)
    subst h2
    exact ⟨_, h1⟩
  get := by
    obtain ⟨x, m, h1, h2⟩ := Rd.exec (C := calmCtx cfg lim) rfl h.is h.flt
      (Rd.get (C := calmCtx cfg lim) h.inv h.keeps he)
    subst h2
    exact ⟨_, h1⟩

/-! ### histories -/

theorem call_log (cfg : Cfg) (fuel : Nat) (st : State) (c : Call) (f : Nat → Fate) :
    ∃ l, (st.call cfg fuel c f).log = st.log ++ l := by
  unfold State.call
  generalize (Go.run cfg (Call.prog fuel st.log c) f st.world) = out
  obtain ⟨o, w⟩ := out
  cases o with
  | ok o =>
    cases o with
    | none => exact ⟨[], by simp⟩
    | some r => exact ⟨_, rfl⟩
  | _ => exact ⟨[], by simp⟩

theorem event_log (cfg : Cfg) (fuel : Nat) (st : State) (e : Event) :
    ∃ l, (st.event cfg fuel e).log = st.log ++ l := by
  cases e with
  | call c f => exact call_log cfg fuel st c f
  | crash c f n => exact ⟨[], by simp [State.event]⟩
  | reopen => exact ⟨[], by simp [State.event]⟩

/-- the log only grows -/
theorem events_log (cfg : Cfg) (fuel : Nat) : ∀ (es : List Event) (st : State),
    ∃ l, (st.events cfg fuel es).log = st.log ++ l := by
  intro es
  induction es with
  | nil => exact fun st => ⟨[], by simp [State.events]⟩
  | cons e es ih =>
    intro st
    rw [events_cons]
    obtain ⟨l1, h1⟩ := event_log cfg fuel st e
    obtain ⟨l2, h2⟩ := ih (st.event cfg fuel e)
    exact ⟨l1 ++ l2, by rw [h2, h1, List.append_assoc]⟩

theorem Spec.Budget.fits {fuel : Nat} {es} (h : Budget fuel es) : Fits (stdLim fuel) fuel :=
  ⟨h.1, Nat.le_refl _, by have := h.1; omega⟩

theorem Spec.Budget.texts {fuel : Nat} {es} (h : Budget fuel es) : ∀ e ∈ es, ∀ t ∈ e.texts, TextOK (stdLim fuel) t :=
  fun e he t ht => TextOK.std (h.2 e he t ht)

theorem Spec.Calm.sound {cfg fuel es} (h : Calm cfg fuel es) : Sound cfg (stdLim fuel) (after cfg fuel es) :=
  calm_events (.inl h.dup) h.budget.fits es (.init cfg _) h.calm h.budget.texts

theorem after_append (cfg : Cfg) (fuel : Nat) (es es' : List Event) :
    after cfg fuel (es ++ es') = (after cfg fuel es).events cfg fuel es' := events_append _ _ _ _ _

theorem Spec.Calm.left {cfg fuel es es'} (h : Calm cfg fuel (es ++ es')) : Calm cfg fuel es :=
  ⟨h.dup, ⟨h.budget.1, fun e he => h.budget.2 e (by simp [he])⟩, fun e he => h.calm e (by simp [he])⟩

theorem Spec.Calm.append {cfg fuel es es'} (h : Calm cfg fuel es) (hb : Budget fuel es') (hc : ∀ e ∈ es', e.Calm) :
    Calm cfg fuel (es ++ es') :=
  ⟨h.dup, ⟨hb.1, fun e he => (List.mem_append.1 he).elim (h.budget.2 e) (hb.2 e)⟩,
    fun e he => (List.mem_append.1 he).elim (h.calm e) (hc e)⟩

theorem ne_nil_of_mem {α : Type} {l : List α} {a : α} (h : a ∈ l) : l ≠ [] := by
  intro e; rw [e] at h; cases h

theorem Spec.Calm.holds {cfg fuel es} (h : Calm cfg fuel es) {e} (he : e ∈ (after cfg fuel es).log) :
    ∃ σ, Holds cfg (stdLim fuel) (after cfg fuel es) σ ∧ Clean σ := h.sound.holds (ne_nil_of_mem he)

theorem Spec.Calm.readable {cfg fuel es} (h : Calm cfg fuel es) {e} (he : e ∈ (after cfg fuel es).log) :
    Readable cfg fuel (after cfg fuel es).log (after cfg fuel es).world e := by
  obtain ⟨σ, hs, _⟩ := h.holds he
  exact hs.readable h.budget.fits he

theorem mem_later {cfg fuel es es'} {e} (he : e ∈ (after cfg fuel es).log) : e ∈ (after cfg fuel (es ++ es')).log := by
  rw [after_append]
  obtain ⟨l, hl⟩ := events_log cfg fuel es' (after cfg fuel es)
  rw [hl]; simp [he]

/-- a creating call that succeeds, as an event -/
theorem call_ok {cfg fuel} {st : State} {c : Call} {r w}
    (h : (c.prog fuel st.log).exec cfg st.world = (.ok (some r), w)) {e} (he : c.entry st.log r = some e) :
    st.events cfg fuel [.call c Go.noFault] = ⟨w, st.log ++ [e]⟩ := by
  show st.call cfg fuel c Go.noFault = _
  unfold State.call
  unfold Go.exec at h
  rw [h]
  simp [he]

theorem exec_some {cfg : Cfg} {p : Go RemE} {w w' : World} {r} (h : p.exec cfg w = (.ok r, w')) :
    (do let r ← p; pure (some r) : Go (Option RemE)).exec cfg w = (.ok (some r), w') := by
  rw [exec_bind, h]; rfl

theorem budget_one {fuel : Nat} {es} (h : Budget fuel es) {c : Call} {f} (ht : ∀ t ∈ c.texts, t.length < fuel) :
    Budget fuel [.call c f] :=
  ⟨h.1, fun e he t h' => by rw [List.mem_singleton.1 he] at h'; exact ht t h'⟩

/-- the remark returned by a creating call is logged, and the log is kept -/
theorem Spec.Calm.create {cfg fuel es} (h : Calm cfg fuel es) {c : Call} {r w e}
    (ht : ∀ t ∈ c.texts, t.length < fuel)
    (hr : (c.prog fuel (after cfg fuel es).log).exec cfg (after cfg fuel es).world = (.ok (some r), w))
    (he : c.entry (after cfg fuel es).log r = some e) :
    Calm cfg fuel (es ++ [.call c Go.noFault]) ∧
    after cfg fuel (es ++ [.call c Go.noFault]) = ⟨w, (after cfg fuel es).log ++ [e]⟩ := by
  refine ⟨h.append (budget_one h.budget ht) ?_, by rw [after_append]; exact call_ok hr he⟩
  intro e he
  rw [List.mem_singleton.1 he]; rfl

/-- strip the wrapper of `Query.ask` -/
theorem exec_wrap {α β : Type} {cfg : Cfg} {p : Go α} {g : α → β} {w w' : World} {b : β}
    (h : (do let a ← p; pure (g a) : Go β).exec cfg w = (.ok b, w')) : ∃ a, p.exec cfg w = (.ok a, w') ∧ g a = b := by
  rw [exec_bind] at h
  generalize p.exec cfg w = out at h
  obtain ⟨o, w1⟩ := out
  cases o with
  | ok a =>
    simp only [Pure.pure, Go.exec, Go.run, Prod.mk.injEq, Out.ok.injEq] at h
    exact ⟨a, by rw [h.2], h.1⟩
  | _ => simp at h

theorem Spec.Calm.texts {cfg fuel es es'} {c : Call} {f} (h : Calm cfg fuel (es ++ [.call c f] ++ es')) :
    ∀ t ∈ c.texts, t.length < fuel := h.budget.2 (.call c f) (by simp)

/-- text answers as a plain statement -/
theorem Spec.Readable.text {cfg fuel log w e} (h : Readable cfg fuel log w e) :
    ∃ w', (Remark.getObjectAndProperty fuel e.handle).exec cfg w = (.ok (e.object, e.property), w') := by
  obtain ⟨w', h1⟩ := h.ask .getObjectAndProperty _ rfl
  obtain ⟨a, h2, h3⟩ := exec_wrap h1
  simp only [Answer.pair.injEq] at h3
  exact ⟨w', by rw [h2, ← h3.1, ← h3.2]⟩

theorem Spec.Readable.story {cfg fuel log w e e'} (h : Readable cfg fuel log w e)
    (he : e.opener.bind (log[·]?) = some e') :
    ∃ w', (Output.getStory fuel e.handle).exec cfg w =
      (.ok (e'.object ++ bytes " " ++ e'.property ++ bytes " "), w') := by
  obtain ⟨w', h1⟩ := h.ask .getStory _ (by simp only [Entry.answer]; rw [he]; rfl)
  obtain ⟨a, h2, h3⟩ := exec_wrap h1
  simp only [Answer.text.injEq] at h3
  exact ⟨w', by rw [h2, h3]⟩

theorem Spec.Readable.first {cfg fuel log w e e'} (h : Readable cfg fuel log w e)
    (he : e.opener.bind (log[·]?) = some e') :
    ∃ w', (Remark.getFirstFact e.handle).exec cfg w = (.ok e'.handle, w') := by
  obtain ⟨w', h1⟩ := h.ask .getFirstFact _ (by simp only [Entry.answer]; rw [he]; rfl)
  obtain ⟨a, h2, h3⟩ := exec_wrap h1
  simp only [Answer.remark.injEq] at h3
  exact ⟨w', by rw [h2, h3]⟩

theorem Spec.Readable.alone {cfg fuel log w e} (h : Readable cfg fuel log w e) :
    ∃ w', (Remark.hasNextRemark e.handle).exec cfg w = (.ok false, w') := by
  obtain ⟨w', h1⟩ := h.ask .hasNextRemark _ rfl
  obtain ⟨a, h2, h3⟩ := exec_wrap h1
  simp only [Answer.flag.injEq] at h3
  exact ⟨w', by rw [h2, h3]⟩

/-- an entry stays as it is -/
theorem Spec.Calm.later {cfg fuel es es'} (h : Calm cfg fuel (es ++ es')) {e} (he : e ∈ (after cfg fuel es).log) :
    Readable cfg fuel (after cfg fuel (es ++ es')).log (after cfg fuel (es ++ es')).world e :=
  h.readable (mem_later he)

theorem log_get_later {cfg fuel es} (es' : List Event) {i : Nat} {e} (he : (after cfg fuel es).log[i]? = some e) :
    (after cfg fuel (es ++ es')).log[i]? = some e := by
  rw [after_append]
  obtain ⟨l, hl⟩ := events_log cfg fuel es' (after cfg fuel es)
  rw [hl]; exact getElem?_append_some he

/-! ### failures and crashes -/

/-- a calm continuation, with its ghost state -/
theorem calm_from {cfg : Cfg} {lim : Lim} {fuel : Nat} (hf : Fits lim fuel) :
    ∀ (es : List Event) {st : State} {σ : St}, Holds cfg lim st σ → Clean σ → (∀ e ∈ es, e.Calm) →
    (∀ e ∈ es, ∀ t ∈ e.texts, TextOK lim t) →
    ∃ σ', Holds cfg lim (st.events cfg fuel es) σ' ∧ Clean σ' ∧ Mono σ σ' := by
  intro es
  induction es with
  | nil => exact fun h hc _ _ => ⟨_, h, hc, .refl _⟩
  | cons e es ih =>
    intro st σ h hc he ht
    rw [events_cons]
    obtain ⟨σ1, p⟩ := eventPost (C := calmCtx cfg lim) (h.calm hf hc) h.is e (.inr (he e (by simp))) (ht e (by simp))
    obtain ⟨σ2, h2, c2, m2⟩ := ih p.holds (p.clean (he e (by simp)) hc) (fun a ha => he a (by simp [ha]))
      (fun a ha => ht a (by simp [ha]))
    exact ⟨σ2, h2, c2, p.mono.trans m2⟩

theorem Spec.Calm.from {cfg fuel es es'} (h : Calm cfg fuel (es ++ es')) {σ}
    (hs : Holds cfg (stdLim fuel) (after cfg fuel es) σ) (hc : Clean σ) :
    ∃ σ', Holds cfg (stdLim fuel) (after cfg fuel (es ++ es')) σ' ∧ Clean σ' ∧ Mono σ σ' := by
  rw [after_append]
  exact calm_from h.budget.fits es' hs hc (fun e he => h.calm e (by simp [he]))
    (fun e he => h.budget.texts e (by simp [he]))

/-- one arbitrary event after a calm history -/
theorem Spec.Calm.stormOne {cfg fuel es} (h : Calm cfg fuel es) (hl : (after cfg fuel es).log ≠ []) (e : Event)
    (ht : ∀ t ∈ e.texts, t.length < fuel) :
    ∃ σ, Holds cfg (stdLim fuel) (after cfg fuel (es ++ [e])) σ := by
  obtain ⟨σ, hs, hc⟩ := h.sound.holds hl
  obtain ⟨σ', hp⟩ := eventPost (C := stormCtx cfg (stdLim fuel)) (hs.storm h.budget.fits (fun _ => hc) hl) hs.is e
    (.inl rfl) (fun t h' => TextOK.std (ht t h'))
  exact ⟨σ', by rw [after_append]; exact hp.holds⟩

theorem Spec.Stormy.holds {cfg fuel es es'} (hz : cfg.zero = false) (h : Stormy cfg fuel es es') :
    ∃ σ, Holds cfg (stdLim fuel) (after cfg fuel (es ++ es')) σ := by
  obtain ⟨σ, hs, hc⟩ := h.start.sound.holds h.log
  obtain ⟨σ', h1, _⟩ := storm_events hz h.start.budget.fits es' hs h.log h.budget.texts
  exact ⟨σ', by rw [after_append]; exact h1⟩

/-- under storage failures a query on a logged remark answers as expected, fails or panics -/
theorem Holds.faulty {cfg lim fuel st σ} (h : Holds cfg lim st σ) (hz : cfg.zero = false) (hf : Fits lim fuel)
    {e} (he : e ∈ st.log) {q a} (ha : e.answer st.log q = some a) (f : Nat → Fate) :
    ((q.ask fuel e.handle).run cfg f st.world).1 ≠ .spin ∧
    ∀ x, ((q.ask fuel e.handle).run cfg f st.world).1 = .ok x → x = a := by
  obtain ⟨σ', _, h2, _⟩ := wp_run (C := stormCtx cfg lim) (f := f) rfl (.inl rfl) h.is
    (Rd.ask (C := stormCtx cfg lim) (.inr hz) h.inv (fun h => by cases h) h.keeps he hf ha)
  change RPost (stormCtx cfg lim) σ _ (Go.run cfg (Query.ask fuel e.handle q) f st.world).1 σ' at h2
  generalize (Go.run cfg (Query.ask fuel e.handle q) f st.world).1 = out at h2
  cases out with
  | ok x => exact ⟨by simp, fun y hy => by cases hy; exact h2.2.2.1⟩
  | err e => exact ⟨by simp, fun y hy => by cases hy⟩
  | panic => exact ⟨by simp, fun y hy => by cases hy⟩
  | spin => exact h2.2.2.elim

/-! ### queries do not write -/

theorem stays_getRemark (cfg : Cfg) (i : Nat) (s : Store) : Stays cfg s (Graph.getRemark i) := by
  unfold Graph.getRemark Remark.readEntityByClass
  refine Stays.bind (p := Go.getReference _) (fun _ => ?_) (.read rfl)
  refine Stays.bind (p := Go.getReference _) (fun _ => ?_) (.read rfl)
  refine Stays.bind (p := Go.getReference _) (fun _ => ?_) (.read rfl)
  trivial

theorem holds_initialised {cfg lim st σ} (h : Holds cfg lim st σ) (hl : st.log ≠ []) :
    st.world.store.live 1 = true ∧ st.world.store.sources 1 ≠ [] := by
  obtain ⟨e, he⟩ := List.exists_mem_of_ne_nil _ hl
  have hb := (h.keeps.ok e he).bits
  have hi := h.inv
  refine ⟨?_, ?_⟩
  · rw [← h.is.store]; exact (hi.live 1).2 (by rw [(hi.root 1).2 (by omega)]; simp)
  · intro hS
    have := hi.bits
    cases hb' : σ.bits with
    | none => exact hb hb'
    | some bs =>
      rw [hb'] at this
      have hp := this.S1
      unfold St.S at hp
      rw [show Class.bitId = 1 from rfl, h.is.store, hS] at hp
      have := hp.length_eq
      simp at this

end Semnet
