import Verif.Proof.Fuel
import Verif.Proof.Loose
import Verif.Proof.Create
/-
  No API call on a logged remark runs out of its loop budget.
-/
namespace Semnet
open Spec

theorem run_map_spin {α β : Type} {cfg : Cfg} {g : α → β} : ∀ {p : Go α} {f : Nat → Fate} {w : World},
    (p.run cfg f w).1 ≠ .spin → ((do let a ← p; pure (g a) : Go β).run cfg f w).1 ≠ .spin := by
  intro p
  induction p with
  | ok a => intro f w _ h; cases h
  | err e => intro f w _ h; cases h
  | panic => intro f w _ h; cases h
  | spin => intro f w h; exact absurd rfl h
  | op o k ih =>
    intro f w hs
    change (Go.run cfg (.op o fun r => (k r >>= fun a => pure (g a))) f w).1 ≠ _
    unfold Go.run at hs ⊢
    cases h0 : f 0 with
    | ok => simp only [h0] at hs ⊢; exact ih _ hs
    | fail => simp only [h0] at hs ⊢; exact ih _ hs
    | failLate => simp only [h0] at hs ⊢; exact ih _ hs
  | getMem k ih => intro f w hs; exact ih _ hs
  | setMem m k ih => intro f w hs; exact ih hs

theorem exec_ok_spin {α : Type} {cfg : Cfg} {p : Go α} {w w' : World} {o : Out α} (h : p.exec cfg w = (o, w'))
    (ho : o ≠ .spin) : (p.run cfg Go.noFault w).1 ≠ .spin := by
  unfold Go.exec at h
  rw [h]; exact ho

/-- queries without unbounded loops -/
theorem ns_ask (fuel : Nat) (r : RemE) (q : Query) (h1 : q ≠ .getObjectAndProperty) (h2 : q ≠ .getStory) :
    Go.NoSpin (q.ask fuel r) := by
  cases q with
  | getObjectAndProperty => exact absurd rfl h1
  | hasNextRemark => exact .bind (ns_hasNextRemark r) fun _ => .pure _
  | getNextRemark => exact .bind (ns_getNextRemark r) fun _ => .pure _
  | hasNextFact => exact .bind (ns_hasNextFact r) fun _ => .pure _
  | getNextFact => exact .bind (ns_getNextFact r) fun _ => .pure _
  | getFirstFact => exact .bind (ns_getFirstFact r) fun _ => .pure _
  | hasNextStory => exact .bind (ns_hasNextStory r) fun _ => .pure _
  | getNextStory => exact .bind (ns_getNextStory r) fun _ => .pure _
  | getStory => exact absurd rfl h2

theorem Entry.OK.openerGet {lim} {σ : St} {log} {e : Entry} (h : Entry.OK lim σ log e) {i : Nat}
    (ho : e.opener = some i) : ∃ e', log[i]? = some e' := by
  have := h.fact
  rw [ho] at this
  obtain ⟨e', h1, _⟩ := this
  exact ⟨e', h1⟩

/-- the expected text of the story of an entry with an opener -/
theorem Entry.OK.storyAnswer {lim} {σ : St} {log} {e : Entry} (h : Entry.OK lim σ log e) (ho : e.opener ≠ none) :
    ∃ a, e.answer log .getStory = some a := by
  cases hi : e.opener with
  | none => exact absurd hi ho
  | some i =>
    obtain ⟨e', he'⟩ := h.openerGet hi
    exact ⟨.text (e'.object ++ bytes " " ++ e'.property ++ bytes " "),
      by simp only [Entry.answer, hi, Option.bind_some, he', Option.map_some]⟩

theorem Holds.querySpin {cfg lim fuel st σ} (h : Holds cfg lim st σ) (hc : Clean σ) (hf : Fits lim fuel) {e} (he : e ∈ st.log)
    (q : Query) : ((q.ask fuel e.handle).run cfg Go.noFault st.world).1 ≠ .spin := by
  have rd := h.readable hf he
  have ok := h.keeps.ok e he
  by_cases h1 : q = .getObjectAndProperty
  · subst h1
    obtain ⟨w', hx⟩ := rd.ask .getObjectAndProperty _ rfl
    exact exec_ok_spin hx (by simp)
  by_cases h2 : q = .getStory
  · subst h2
    by_cases ho : e.opener = none
    · have hb : Belongs σ e.handle none := by
        have := ok.fact
        rw [ho] at this
        exact this
      obtain ⟨x, hx⟩ := ev_storyLoose h.inv (belongs_zero h.inv hb) hc ok.ent hb (fuel := fuel)
        (by have := hf.two; omega)
      have hx' := hx.exec st.world.mem
      rw [h.is.store] at hx'
      exact run_map_spin (exec_ok_spin hx' (by simp))
    · obtain ⟨a, ha⟩ := ok.storyAnswer ho
      obtain ⟨w', hx⟩ := rd.ask _ _ ha
      exact exec_ok_spin hx (by simp)
  · exact (ns_ask fuel e.handle q h1 h2).run

theorem Holds.queryFaulty {cfg lim fuel st σ} (h : Holds cfg lim st σ) (hz : cfg.zero = false) (hf : Fits lim fuel)
    {e} (he : e ∈ st.log) (q : Query) (f : Nat → Fate) : ((q.ask fuel e.handle).run cfg f st.world).1 ≠ .spin := by
  have ok := h.keeps.ok e he
  by_cases h1 : q = .getObjectAndProperty
  · subst h1
    exact (h.faulty hz hf he (q := .getObjectAndProperty) rfl f).1
  by_cases h2 : q = .getStory
  · subst h2
    have ho : e.opener ≠ none := by
      intro ho
      have hb := ok.fact
      rw [ho] at hb
      have := belongs_zero h.inv hb
      rw [hz] at this; cases this
    obtain ⟨a, ha⟩ := ok.storyAnswer ho
    exact (h.faulty hz hf he ha f).1
  · exact (ns_ask fuel e.handle q h1 h2).run

/-- a call that is not about a logged remark -/
theorem prog_none {fuel : Nat} {log : List Entry} {c : Call} (hc : c.pair log = none) :
    (c.prog fuel log = pure none) ∨ (∃ i, c = .getRemark i) ∨
    ∃ i q e, c = .query i q ∧ log[i]? = some e := by
  cases c with
  | createStory o p => cases hc
  | addRemark i p =>
    have : log[i]? = none := by
      cases h : log[i]? with
      | none => rfl
      | some e => rw [Call.pair, h] at hc; cases hc
    simp [Call.prog, this]
  | addFact i o p =>
    have : log[i]? = none := by
      cases h : log[i]? with
      | none => rfl
      | some e => rw [Call.pair, h] at hc; cases hc
    simp [Call.prog, this]
  | addChild i o p =>
    have : log[i]? = none := by
      cases h : log[i]? with
      | none => rfl
      | some e => rw [Call.pair, h] at hc; cases hc
    simp [Call.prog, this]
  | query i q =>
    cases h : log[i]? with
    | none => simp [Call.prog, h]
    | some e => exact .inr (.inr ⟨i, q, e, rfl, h⟩)
  | getRemark i => exact .inr (.inl ⟨i, rfl⟩)

theorem Spec.Calm.finishes {cfg : Cfg} {fuel : Nat} {es : List Event} (h : Calm cfg fuel es) {c : Call}
    (ht : ∀ t ∈ c.texts, t.length < fuel) :
    ((c.prog fuel (after cfg fuel es).log).run cfg Go.noFault (after cfg fuel es).world).1 ≠ .spin := by
  cases hc : c.pair (after cfg fuel es).log with
  | some op =>
    obtain ⟨o, p⟩ := op
    exact (h.outcome ht hc).spin
  | none =>
    rcases prog_none (fuel := fuel) hc with hp | ⟨i, rfl⟩ | ⟨i, q, e, rfl, he⟩
    · rw [hp]; intro h; cases h
    · exact run_map_spin (ns_getRemark i).run
    · obtain ⟨σ, hs, hc⟩ := h.holds (List.mem_of_getElem? he)
      simp only [Call.prog, he]
      exact run_map_spin (hs.querySpin hc h.budget.fits (List.mem_of_getElem? he) q)

theorem Spec.Stormy.finishes {cfg : Cfg} (hz : cfg.zero = false) {fuel : Nat} {es es' : List Event}
    (h : Stormy cfg fuel es es') {c : Call} (ht : ∀ t ∈ c.texts, t.length < fuel) (f : Nat → Fate) :
    ((c.prog fuel (after cfg fuel (es ++ es')).log).run cfg f (after cfg fuel (es ++ es')).world).1 ≠ .spin := by
  obtain ⟨σ, hs⟩ := h.holds hz
  have hl : (after cfg fuel (es ++ es')).log ≠ [] := by
    obtain ⟨l, hl⟩ := events_log cfg fuel es' (after cfg fuel es)
    rw [after_append, hl]
    intro h'
    exact h.log (List.append_eq_nil_iff.1 h').1
  cases hc : c.pair (after cfg fuel (es ++ es')).log with
  | some op =>
    obtain ⟨o, p⟩ := op
    have k := hs.storm h.budget.fits (fun h => by rw [hz] at h; cases h) hl
    obtain ⟨σ', _, ⟨_, h2⟩, _⟩ := wp_run (C := stormCtx cfg (stdLim fuel)) (f := f) k.R (.inl rfl) hs.is
      (createWp k (fun t h' => TextOK.std (ht t h')) hc)
    intro hsp
    have : (Go.run (stormCtx cfg (stdLim fuel)).cfg (Call.prog fuel (after cfg fuel (es ++ es')).log c) f (after cfg fuel (es ++ es')).world).1 = .spin := hsp
    rw [this] at h2
    exact h2
  | none =>
    rcases prog_none (fuel := fuel) hc with hp | ⟨i, rfl⟩ | ⟨i, q, e, rfl, he⟩
    · rw [hp]; intro h; cases h
    · exact run_map_spin (ns_getRemark i).run
    · simp only [Call.prog, he]
      exact run_map_spin (hs.queryFaulty hz h.budget.fits (List.mem_of_getElem? he) q f)

/-- one call with a larger budget -/
theorem call_fuel {cfg : Cfg} {fuel fuel' : Nat} (hf : fuel ≤ fuel') {st : State} {c : Call} {f : Nat → Fate}
    (h : ((c.prog fuel st.log).run cfg f st.world).1 ≠ .spin) :
    st.call cfg fuel' c f = st.call cfg fuel c f := by
  unfold State.call
  rw [(le_call hf st.log c).run h]

theorem event_fuel {cfg : Cfg} {fuel fuel' : Nat} (hf : fuel ≤ fuel') {st : State} {e : Event} (he : e.Calm)
    (h : ∀ c, e = .call c Go.noFault → ((c.prog fuel st.log).run cfg Go.noFault st.world).1 ≠ .spin) :
    st.events cfg fuel' [e] = st.events cfg fuel [e] := by
  cases e with
  | call c f =>
    have hf0 : f = Go.noFault := he
    subst hf0
    have := call_fuel hf (h c rfl)
    simp only [State.events, List.foldl_cons, List.foldl_nil, State.event]
    exact this
  | crash c f n => exact he.elim
  | reopen => simp only [State.events, List.foldl_cons, List.foldl_nil, State.event]

end Semnet
