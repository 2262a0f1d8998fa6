import Verif.Proof.Alphabet
import Verif.Proof.Apart
import Verif.Proof.Loose
import Verif.Spec.Machine
/-
  The abstract machine and the code.
-/
namespace Semnet
open Spec

/-! ### queries, exactly -/

theorem belongs_none {cfg : Cfg} {lim : Lim} {st : State} {σ : St} (hs : Holds cfg lim st σ) {e : Entry}
    (he : e ∈ st.log) (ho : e.opener = none) : Belongs σ e.handle none := by
  have h := (hs.keeps.ok e he).fact
  rw [ho] at h
  exact h

theorem Ev.world {α : Type} {cfg : Cfg} {lim : Lim} {st : State} {σ : St} (hs : Holds cfg lim st σ) {p : Go α} {o : Out α}
    (h : Ev cfg σ.store p o) : p.exec cfg st.world = (o, st.world) := by
  have h1 := h.exec st.world.mem
  rw [hs.is.store] at h1
  exact h1

theorem Ev.wrap {α β : Type} {cfg : Cfg} {s : Store} {p : Go α} {a : α} {f : α → β} (h : Ev cfg s p (.ok a)) :
    Ev cfg s (do let x ← p; pure (f x)) (.ok (f a)) := .bind h (.ret _)

theorem Ev.wrapErr {α β : Type} {cfg : Cfg} {s : Store} {p : Go α} {e : Err} {f : α → β} (h : Ev cfg s p (.err e)) :
    Ev cfg s (do let x ← p; pure (f x)) (.err e) := .left h

theorem exec_wrap_err {α β : Type} {cfg : Cfg} {p : Go α} {w w' : World} {f : α → β} {e}
    (h : p.exec cfg w = (.err e, w')) : (do let x ← p; pure (f x) : Go β).exec cfg w = (.err e, w') := by
  rw [exec_bind, h]

/-- the replies, for any way of running programs -/
theorem reply_by {cfg : Cfg} {lim : Lim} {fuel : Nat} (hf : Fits lim fuel) {st : State} {σ : St}
    (hs : Holds cfg lim st σ) (hc : Clean σ) {m : Machine} (hm : m.items = st.log.map Entry.item)
    (hl : cfg.zero = true → m.links = (σ.T 0).length) {e : Entry} (he : e ∈ st.log) {run : Go Answer → Out Answer}
    (known : ∀ {q a}, e.answer st.log q = some a → run (q.ask fuel e.handle) = .ok a)
    (fails : ∀ {α : Type} {p : Go α} {f : α → Answer}, Fails (calmCtx cfg lim) p σ →
      ∃ x, run (do let a ← p; pure (f a)) = .err x)
    (ev : ∀ {p : Go Answer} {o : Out Answer}, Ev cfg σ.store p o → run p = o) (q : Query) :
    (m.reply cfg.zero e.item q).Is st.log (run (q.ask fuel e.handle)) := by
  have ok := hs.keeps.ok e he
  have one : cfg.zero = true → (m.links = 1 ↔ ∃ t, σ.T 0 = [t]) := fun hz => by
    rw [hl hz, List.length_eq_one_iff]
  have flag : cfg.zero = true → (!(σ.T 0).isEmpty) = (m.links != 0) := fun hz => by
    rw [hl hz]
    cases σ.T 0 <;> rfl
  cases q with
  | getObjectAndProperty => exact known rfl
  | hasNextRemark => exact known rfl
  | getNextRemark => exact fails (Fails.getNextRemark hs.inv ok.ent)
  | hasNextFact =>
    cases hz : cfg.zero with
    | false => exact fails (Fails.hasNextFact hs.inv ok.ent hz)
    | true =>
      show _ = _
      rw [← flag hz]
      exact ev (.wrap (ev_hasNextFact hs.inv hz ok.ent))
  | getNextFact =>
    cases hz : cfg.zero with
    | false => exact fails (Fails.getNextFact hs.inv ok.ent hz)
    | true => exact fails (Fails.getNextFact0 (C := calmCtx cfg lim) rfl hs.inv ok.ent hz hc)
  | hasNextStory =>
    cases hz : cfg.zero with
    | false => exact fails (Fails.hasNextStory hs.inv ok.ent hz)
    | true =>
      show _ = _
      rw [← flag hz]
      exact ev (.wrap (ev_hasNextStory hs.inv hz hc ok.ent))
  | getNextStory =>
    cases hz : cfg.zero with
    | false => exact fails (Fails.getNextStory hs.inv ok.ent hz)
    | true =>
      rcases ev_nextStory hs.inv hz hc ok.ent with ⟨h1, h2⟩ | ⟨h2, x, h1⟩
      · have h3 := (one hz).2 h2
        have h4 : m.reply true e.item .getNextStory = .classes := by simp [Machine.reply, h3]
        rw [h4]
        exact ev (.wrap h1)
      · have h3 : m.links ≠ 1 := fun h => h2 ((one hz).1 h)
        have h4 : m.reply true e.item .getNextStory = .error := by simp [Machine.reply, h3]
        rw [h4]
        exact ⟨x, ev (.wrapErr h1)⟩
  | getFirstFact =>
    cases ho : e.opener with
    | some k =>
      obtain ⟨op, _, hop⟩ := ok.fact'
      obtain ⟨e', hl', _⟩ := hop k ho
      have h4 : m.reply cfg.zero e.item .getFirstFact = .item k := by simp [Machine.reply, Entry.item, ho]
      rw [h4]
      exact ⟨e', hl', known (by simp [Entry.answer, ho, hl'])⟩
    | none =>
      have hb := belongs_none hs he ho
      have hz := belongs_zero hs.inv hb
      rcases ev_firstLoose hs.inv hz hc ok.ent hb with ⟨h1, h2⟩ | ⟨h2, x, h1⟩
      · have h3 := (one hz).2 h2
        have h4 : m.reply cfg.zero e.item .getFirstFact = .classes := by simp [Machine.reply, Entry.item, ho, h3]
        rw [h4]
        exact ev (.wrap h1)
      · have h3 : m.links ≠ 1 := fun h => h2 ((one hz).1 h)
        have h4 : m.reply cfg.zero e.item .getFirstFact = .error := by simp [Machine.reply, Entry.item, ho, h3]
        rw [h4]
        exact ⟨x, ev (.wrapErr h1)⟩
  | getStory =>
    cases ho : e.opener with
    | some k =>
      obtain ⟨op, _, hop⟩ := ok.fact'
      obtain ⟨e', hl', _⟩ := hop k ho
      have h4 : m.reply cfg.zero e.item .getStory = .text (e'.object ++ bytes " " ++ e'.property ++ bytes " ") := by
        simp [Machine.reply, Entry.item, ho, hm, hl']
      rw [h4]
      exact known (by simp [Entry.answer, ho, hl'])
    | none =>
      have hb := belongs_none hs he ho
      have hz := belongs_zero hs.inv hb
      obtain ⟨x, h1⟩ := ev_storyLoose hs.inv hz hc ok.ent hb (fuel := fuel) (by have := hf.two; omega)
      have h4 : m.reply cfg.zero e.item .getStory = .error := by simp [Machine.reply, Entry.item, ho]
      rw [h4]
      exact ⟨x, ev (.wrapErr h1)⟩

theorem reply_exact {cfg : Cfg} {lim : Lim} {fuel : Nat} (hf : Fits lim fuel) {st : State} {σ : St}
    (hs : Holds cfg lim st σ) (hc : Clean σ) {m : Machine} (hm : m.items = st.log.map Entry.item)
    (hl : cfg.zero = true → m.links = (σ.T 0).length) {e : Entry} (he : e ∈ st.log) (q : Query) :
    (m.reply cfg.zero e.item q).Is st.log ((q.ask fuel e.handle).exec cfg st.world).1 := by
  refine reply_by (run := fun p => (p.exec cfg st.world).1) hf hs hc hm hl he ?_ ?_ ?_ q
  · intro q a ha
    obtain ⟨w', h⟩ := (hs.readable hf he).ask _ _ ha
    exact congrArg Prod.fst h
  · intro α p f hp
    obtain ⟨x, m, h1⟩ := Fails.exec (C := calmCtx cfg lim) rfl hs.is hs.flt hp
    have h2 : p.exec cfg st.world = _ := h1
    exact ⟨x, congrArg Prod.fst (exec_wrap_err h2)⟩
  · intro p o h
    exact congrArg Prod.fst (Ev.world hs h)

/-! ### links -/

/-- a call that is no creating call on a logged remark writes nothing -/
theorem quiet_call {cfg : Cfg} {lim : Lim} {st : State} (h : Sound cfg lim st) {c : Call} (hc : c.pair st.log = none)
    (fuel : Nat) (f : Nat → Fate) : (st.call cfg fuel c f).world.store = st.world.store := by
  have key : ((c.prog fuel st.log).run cfg f st.world).2.store = st.world.store := by
    cases c with
    | createStory o p => cases hc
    | addFact i o p =>
      have : st.log[i]? = none := Option.map_eq_none_iff.1 hc
      simp only [Call.prog, this]; rfl
    | addChild i o p =>
      have : st.log[i]? = none := Option.map_eq_none_iff.1 hc
      simp only [Call.prog, this]; rfl
    | addRemark i p =>
      have : st.log[i]? = none := Option.map_eq_none_iff.1 hc
      simp only [Call.prog, this]; rfl
    | query i q =>
      cases hl : st.log[i]? with
      | none => simp only [Call.prog, hl]; rfl
      | some e =>
        have hne := ne_nil_of_mem (List.mem_of_getElem? hl)
        obtain ⟨σ, hs, _⟩ := h.holds hne
        obtain ⟨h1, h2⟩ := holds_initialised hs hne
        simp only [Call.prog, hl]
        refine Stays.run rfl (Stays.bind (fun _ => ?_) ((Quiet.query fuel e.handle q).stays h1 h2))
        trivial
    | getRemark i =>
      simp only [Call.prog]
      refine Stays.run rfl (Stays.bind (fun _ => ?_) (stays_getRemark cfg i st.world.store))
      trivial
  unfold State.call
  generalize (c.prog fuel st.log).run cfg f st.world = out at key
  obtain ⟨x, w⟩ := out
  cases x with
  | ok x => cases x <;> exact key
  | _ => exact key

/-- the log grows exactly if the call returns a remark -/
theorem call_log_iff {cfg : Cfg} {fuel : Nat} {st : State} {c : Call} (hp : c.pair st.log ≠ none) :
    (st.call cfg fuel c Go.noFault).log.length = st.log.length ↔
      ∀ r, ((c.prog fuel st.log).exec cfg st.world).1 ≠ .ok (some r) := by
  unfold State.call Go.exec
  generalize (c.prog fuel st.log).run cfg Go.noFault st.world = out
  obtain ⟨x, w⟩ := out
  cases x with
  | ok x =>
    cases x with
    | none => exact ⟨fun _ r h => (by cases h), fun _ => rfl⟩
    | some r =>
      refine ⟨fun h => ?_, fun h => absurd rfl (h r)⟩
      rw [List.length_append] at h
      cases c with
      | addRemark i p =>
        cases hl : st.log[i]? with
        | none => exact absurd (by simp [Call.pair, hl]) hp
        | some e => simp [Call.entry, hl] at h
      | query => exact absurd rfl hp
      | getRemark => exact absurd rfl hp
      | _ => simp [Call.entry] at h
  | _ => exact ⟨fun _ r h => (by cases h), fun _ => rfl⟩

theorem call_world {cfg : Cfg} {fuel : Nat} {st : State} {c : Call} :
    (st.call cfg fuel c Go.noFault).world = ((c.prog fuel st.log).exec cfg st.world).2 := by
  unfold State.call Go.exec
  generalize (c.prog fuel st.log).run cfg Go.noFault st.world = out
  obtain ⟨x, w⟩ := out
  cases x with
  | ok x => cases x <;> rfl
  | _ => rfl

theorem Links.length {cfg : Cfg} {c : Call} {σ σ' : St} (hz : cfg.zero = true) (h : Links cfg c σ σ') :
    (σ'.T 0).length = c.link (σ.T 0).length := by
  cases c with
  | addFact i o p => obtain ⟨_, x, h⟩ := h; rw [h]; rfl
  | addChild i o p =>
    obtain ⟨_, ⟨h1, h2⟩ | ⟨t, x, h1, h2⟩⟩ := h
    · rw [h1, h2]; rfl
    · rw [h1, h2]; rfl
  | createStory o p => rw [h hz]; rfl
  | addRemark i p => rw [h hz]; rfl
  | query i q => rw [h hz]; rfl
  | getRemark i => rw [h hz]; rfl

theorem Links.allowed {cfg : Cfg} {c : Call} {σ σ' : St} (h : Links cfg c σ σ') : ¬ extraErr cfg σ c := by
  cases c with
  | addFact i o p => exact fun h' => absurd (h'.symm.trans h.1) (by simp)
  | addChild i o p =>
    rintro (h' | h')
    · exact absurd (h'.symm.trans h.1) (by simp)
    · obtain ⟨_, ⟨h1, h2⟩ | ⟨t, x, h1, h2⟩⟩ := h <;> rw [h1] at h' <;> simp at h'
  | _ => exact id

theorem call_T0 {cfg : Cfg} {lim : Lim} {fuel : Nat} (hd : Policy cfg lim) (hf : Fits lim fuel) (hz : cfg.zero = true)
    {st : State} (h : Sound cfg lim st) {c : Call} (ht : ∀ t ∈ c.texts, TextOK lim t) :
    ((st.call cfg fuel c Go.noFault).world.store.targets 0).length =
      if (st.call cfg fuel c Go.noFault).log.length = st.log.length then (st.world.store.targets 0).length
      else c.link (st.world.store.targets 0).length := by
  cases hp : c.pair st.log with
  | none =>
    rw [quiet_call h hp, if_pos]
    rcases call_gain (cfg := cfg) (fuel := fuel) (st := st) (c := c) (f := Go.noFault) with hl | ⟨_, _, _, _, _, _, _, _, h4, _⟩
    · rw [hl]
    · rw [hp] at h4; cases h4
  | some q =>
    obtain ⟨o, p⟩ := q
    obtain ⟨σ, σ', hi, hcl, hk, h0, he⟩ := h.creates hd hf ht hp
    have hw := he.is.store
    have hT : (st.call cfg fuel c Go.noFault).world.store.targets 0 = σ'.T 0 := by
      rw [call_world, ← hw]; rfl
    have hiff := call_log_iff (cfg := cfg) (fuel := fuel) (st := st) (c := c) (by rw [hp]; simp)
    have hout := he.out
    rw [hT, ← h0]
    generalize ((c.prog fuel st.log).exec cfg st.world).1 = out at hiff hout
    cases out with
    | ok x =>
      obtain ⟨r, rfl, _, _, _, _, hlk, _⟩ := hout
      rw [if_neg (fun h => hiff.1 h r rfl)]
      exact hlk.length hz
    | err e => rw [if_pos (hiff.2 fun r h => by cases h), hout.1.1 hz]
    | panic => rw [if_pos (hiff.2 fun r h => by cases h), hout.1.1 hz]
    | spin => exact hout.elim

theorem tally_fst (cfg : Cfg) (fuel : Nat) (es : List Event) (s : State × Nat) :
    (es.foldl (State.tally cfg fuel) s).1 = s.1.events cfg fuel es := by
  induction es generalizing s with
  | nil => rfl
  | cons e es ih => rw [List.foldl_cons, ih, events_cons]; rfl

theorem links_append (cfg : Cfg) (fuel : Nat) (es : List Event) (e : Event) :
    links cfg fuel (es ++ [e]) = (State.tally cfg fuel (after cfg fuel es, links cfg fuel es) e).2 := by
  unfold links
  rw [List.foldl_append]
  have h := tally_fst cfg fuel es (State.init cfg, 0)
  generalize es.foldl (State.tally cfg fuel) (State.init cfg, 0) = s at h ⊢
  obtain ⟨a, n⟩ := s
  simp only at h
  subst h
  rfl

/-- after a fault-free history node 0 has `links` targets -/
theorem links_T0 {cfg : Cfg} {fuel : Nat} (hz : cfg.zero = true) {es : List Event} (h : Calm cfg fuel es) :
    ((after cfg fuel es).world.store.targets 0).length = links cfg fuel es := by
  generalize hn : es.length = n
  induction n generalizing es with
  | zero => cases List.length_eq_zero_iff.1 hn; rfl
  | succ n ih =>
    obtain ⟨es', e, rfl⟩ : ∃ es' e, es = es' ++ [e] := ⟨es.dropLast, es.getLast (by intro h; subst h; cases hn), (List.dropLast_concat_getLast _).symm⟩
    have h' := h.left
    have ih := ih h' (by simpa using hn)
    rw [links_append, after_append]
    have hc := h.calm e (by simp)
    have ht := h.budget.texts e (by simp)
    rw [← ih]
    cases e with
    | call c f =>
      have hf0 : f = Go.noFault := hc
      subst hf0
      exact call_T0 (.inl h.dup) h.budget.fits hz h'.sound ht
    | crash c f n => exact hc.elim
    | reopen => rfl

/-! ### verdicts over free alphabets -/

theorem Spec.Alphabet.Free.head_gap {A : Alphabet} (hA : A.Free) {cfg : Cfg} {one : Prop} {fuel : Nat} {σ : St}
    (hi : Inv cfg (alphaLim A one fuel) σ) {t : GoStr} (h : A.Over t) (hb : BadHead σ t) : LeadingGap t := by
  unfold BadHead at hb
  cases hs : splitSpace t with
  | nil => exact absurd hs (splitSpace_ne_nil t)
  | cons w ws =>
    rw [hs, List.headD_cons] at hb
    obtain ⟨cs, h1, _, h3⟩ := h.words w (by rw [hs]; simp)
    unfold BadWord at hb
    cases cs with
    | nil =>
      have : w = [] := runesOf_eq_nil.1 h1
      subst this
      exact (nil_split t).1 (by rw [hs]; rfl)
    | cons c cs =>
      rw [h1] at hb
      exact (hA.alive hi (h3 c (by simp)) hb).elim

theorem Spec.Alphabet.Free.tail_gap {A : Alphabet} (hA : A.Free) {cfg : Cfg} {one : Prop} {fuel : Nat} {σ : St}
    (hi : Inv cfg (alphaLim A one fuel) σ) {t : GoStr} (h : A.Over t) (hb : BadTail σ t) : Gap t := by
  refine Decidable.byContradiction fun hg => hA.goodTail hi h hg hb

theorem gap_of_leading {t : GoStr} (h : LeadingGap t) : Gap t := h.elim .inl fun h => .inr (.inl h)

theorem solid_iff {t : GoStr} : Solid t ↔ ¬ Gap t :=
  ⟨fun h g => h g.mem, fun h g => h (nil_mem_split g)⟩

theorem Spec.Alphabet.Over.eq {A : Alphabet} {t : GoStr} (h : A.Over t) : Spec.asText t = t := by
  obtain ⟨s, rfl, _⟩ := h
  exact asText_bytes s

theorem verdict_exact {A : Alphabet} (hA : A.Free) {cfg : Cfg} {fuel : Nat} (hd : cfg.dup = .ignore)
    (hf : Fits (alphaLim A False fuel) fuel) {st : State} (hs : Sound cfg (alphaLim A False fuel) st)
    (logs : ∀ e ∈ st.log, A.Over e.object ∧ A.Over e.property) {m : Machine}
    (hl : cfg.zero = true → m.links = (st.world.store.targets 0).length) {c : Call}
    (ht : ∀ t ∈ c.texts, A.Over t ∧ t.length < fuel) {o p : GoStr} (hp : c.pair st.log = some (o, p)) :
    (verdict o p (m.refuses cfg.zero c)).Is ((c.prog fuel st.log).exec cfg st.world).1 := by
  obtain ⟨σ, σ', hi, hcl, hk, h0, he⟩ := hs.creates (.inl hd) hf
    (fun t h' => TextOK.alpha (ht t h').1 (ht t h').2 fun h => h.elim) hp
  have hi' := he.ext.inv
  obtain ⟨oo, op⟩ := pair_over' logs (fun t h => (ht t h).1) hp
  have hout := he.out
  have refuse : extraErr cfg σ c ↔ m.refuses cfg.zero c = true := by
    cases c with
    | addFact i o p => cases hz : cfg.zero <;> simp [extraErr, Machine.refuses, hz]
    | addChild i o p =>
      cases hz : cfg.zero with
      | false => simp [extraErr, Machine.refuses, hz]
      | true => simp [extraErr, Machine.refuses, hz, h0, hl hz]
    | _ => simp [extraErr, Machine.refuses]
  unfold verdict
  generalize ((c.prog fuel st.log).exec cfg st.world).1 = out at hout
  cases out with
  | ok x =>
    obtain ⟨r, rfl, ⟨_, hst⟩, _, _, _, hlk, _⟩ := hout
    have hg := hst.says.noGap
    have hx := hlk.allowed
    rw [if_neg (fun h => hg.1 (gap_of_leading h)), if_neg hg.1, if_neg (fun h => hg.2 (gap_of_leading h)), if_neg hg.2,
      if_neg (fun h => hx (refuse.2 h))]
    exact ⟨r, rfl⟩
  | err e =>
    rcases hout.2 with hb | ⟨ho, hb | ⟨hp', hb | hb⟩⟩
    · rw [if_pos (hA.head_gap hi' oo hb)]; exact ⟨e, rfl⟩
    · have ho := solid_iff.1 ho
      rw [if_neg (fun h => ho (gap_of_leading h)), if_neg ho, if_pos (hA.head_gap hi' op hb)]; exact ⟨e, rfl⟩
    · exact (hb.1 hcl).elim
    · have ho := solid_iff.1 ho
      have hp' := solid_iff.1 hp'
      rw [if_neg (fun h => ho (gap_of_leading h)), if_neg ho, if_neg (fun h => hp' (gap_of_leading h)), if_neg hp',
        if_pos (refuse.1 hb)]
      exact ⟨e, rfl⟩
  | panic =>
    obtain ⟨_, h1, h2⟩ := hout
    rw [if_neg (fun h => h1 (badHead_blank h))]
    rcases h2 with hb | ⟨ho, h2, hb⟩
    · rw [if_pos (hA.tail_gap hi' oo hb)]; rfl
    · have ho := solid_iff.1 ho
      rw [if_neg ho, if_neg (fun h => h2 (badHead_blank h)), if_pos (hA.tail_gap hi' op hb)]; rfl
  | spin => exact hout.elim

theorem machine_pair {m : Machine} {log : List Entry} (hm : m.items = log.map Entry.item) (c : Call) :
    m.pair c = c.pair log := by
  cases c <;> simp only [Machine.pair, Call.pair, hm, List.getElem?_map, Option.map_map] <;> rfl

theorem machine_item {A : Alphabet} {m : Machine} {log : List Entry} (hm : m.items = log.map Entry.item) {c : Call}
    (ht : ∀ t ∈ c.texts, A.Over t) {r : RemE} {e : Entry} (he : c.entry log r = some e) : m.item c = some e.item := by
  have tx : ∀ t ∈ c.texts, asText t = t := fun t h => (ht t h).eq
  cases c with
  | createStory o p =>
    cases he
    simp [Machine.item, Entry.item, hm, tx o (by simp [Call.texts]), tx p (by simp [Call.texts])]
  | addFact i o p =>
    cases he
    simp [Machine.item, Entry.item, tx o (by simp [Call.texts]), tx p (by simp [Call.texts])]
  | addChild i o p =>
    cases he
    simp [Machine.item, Entry.item, hm, tx o (by simp [Call.texts]), tx p (by simp [Call.texts])]
  | addRemark i p =>
    simp only [Call.entry] at he
    cases hi : log[i]? with
    | none => rw [hi] at he; cases he
    | some e' =>
      rw [hi] at he
      cases he
      simp [Machine.item, Entry.item, hm, hi, tx p (by simp [Call.texts])]
  | query => cases he
  | getRemark => cases he

/-- one call of machine and code -/
theorem machine_step {A : Alphabet} (hA : A.Free) {cfg : Cfg} {fuel : Nat} (hd : cfg.dup = .ignore)
    (hf : Fits (alphaLim A False fuel) fuel) {st : State} (hs : Sound cfg (alphaLim A False fuel) st)
    (logs : ∀ e ∈ st.log, A.Over e.object ∧ A.Over e.property) {m : Machine} (hm : m.items = st.log.map Entry.item)
    (hl : cfg.zero = true → m.links = (st.world.store.targets 0).length) {c : Call}
    (ht : ∀ t ∈ c.texts, A.Over t ∧ t.length < fuel) :
    (m.call cfg.zero c).items = (st.call cfg fuel c Go.noFault).log.map Entry.item ∧
    (cfg.zero = true → (m.call cfg.zero c).links = ((st.call cfg fuel c Go.noFault).world.store.targets 0).length) := by
  have hT := fun hz => call_T0 (.inl hd) hf hz hs (c := c)
    (fun t h' => TextOK.alpha (ht t h').1 (ht t h').2 fun h => h.elim)
  have hpr := machine_pair hm c
  rcases call_gain (cfg := cfg) (fuel := fuel) (st := st) (c := c) (f := Go.noFault) with h1 | ⟨r, e, o, p, w, h1, h2, h3, h4, h5⟩
  · have hj : m.judge cfg.zero c ≠ some .created := by
      intro hj
      obtain ⟨⟨o, p⟩, hq, hv⟩ := Option.map_eq_some_iff.1 hj
      rw [hpr] at hq
      have := verdict_exact hA hd hf hs logs hl ht hq
      simp only at hv
      rw [hv] at this
      obtain ⟨r, hr⟩ := this
      exact (call_log_iff (by rw [hq]; simp)).1 (by rw [h1]) r hr
    simp only [Machine.call, if_neg hj]
    refine ⟨by rw [h1, hm], fun hz => ?_⟩
    rw [hT hz, if_pos (by rw [h1]), hl hz]
  · have hj : m.judge cfg.zero c = some .created := by
      unfold Machine.judge
      rw [hpr, h4]
      have := verdict_exact hA hd hf hs logs hl ht h4
      have h1' : (c.prog fuel st.log).exec cfg st.world = (.ok (some r), w) := h1
      rw [h1'] at this
      show some (verdict o p _) = _
      generalize verdict o p (m.refuses cfg.zero c) = v at this
      cases v with
      | created => rfl
      | error => obtain ⟨_, h⟩ := this; cases h
      | panic => cases this
    simp only [Machine.call, if_pos hj]
    refine ⟨?_, fun hz => ?_⟩
    · rw [h5, hm, machine_item hm (fun t h => (ht t h).1) h2]
      simp
    · rw [hT hz, if_neg (by rw [h5]; simp), hl hz]

theorem machine_append (zero : Bool) (es : List Event) (e : Event) :
    machine zero (es ++ [e]) = (machine zero es).event zero e := by
  unfold machine
  rw [List.foldl_append]
  rfl

/-- machine and code run in step -/
theorem machine_runs {A : Alphabet} (hA : A.Free) {cfg : Cfg} {fuel : Nat} {es : List Event} (h : Calm cfg fuel es)
    (hes : ∀ e ∈ es, ∀ t ∈ e.texts, A.Over t) :
    (machine cfg.zero es).items = (after cfg fuel es).log.map Entry.item ∧
    (cfg.zero = true → (machine cfg.zero es).links = ((after cfg fuel es).world.store.targets 0).length) := by
  generalize hn : es.length = n
  induction n generalizing es with
  | zero => cases List.length_eq_zero_iff.1 hn; exact ⟨rfl, fun _ => rfl⟩
  | succ n ih =>
    obtain ⟨es', e, rfl⟩ : ∃ es' e, es = es' ++ [e] := ⟨es.dropLast, es.getLast (by intro h; subst h; cases hn), (List.dropLast_concat_getLast _).symm⟩
    have h' := h.left
    have hes' : ∀ e ∈ es', ∀ t ∈ e.texts, A.Over t := fun e he => hes e (by simp [he])
    obtain ⟨hm, hl⟩ := ih h' hes' (by simpa using hn)
    rw [machine_append, after_append]
    have hc := h.calm e (by simp)
    cases e with
    | call c f =>
      have hf0 : f = Go.noFault := hc
      subst hf0
      exact machine_step hA h.dup (alpha_fits A h.budget) (alpha_sound h' hes') (alpha_log cfg fuel hes') hm hl
        fun t ht => ⟨hes (.call c Go.noFault) (by simp) t ht, h.budget.2 (.call c Go.noFault) (by simp) t ht⟩
    | crash c f n => exact hc.elim
    | reopen => exact ⟨hm, hl⟩

/-! ### facts and links -/

theorem count_fst (cfg : Cfg) (fuel : Nat) (es : List Event) (s : State × Nat) :
    (es.foldl (State.countFact cfg fuel) s).1 = s.1.events cfg fuel es := by
  induction es generalizing s with
  | nil => rfl
  | cons e es ih => rw [List.foldl_cons, ih, events_cons]; rfl

theorem facts_append (cfg : Cfg) (fuel : Nat) (es : List Event) (e : Event) :
    factsAdded cfg fuel (es ++ [e]) = (State.countFact cfg fuel (after cfg fuel es, factsAdded cfg fuel es) e).2 := by
  unfold factsAdded
  rw [List.foldl_append]
  have h := count_fst cfg fuel es (State.init cfg, 0)
  generalize es.foldl (State.countFact cfg fuel) (State.init cfg, 0) = s at h ⊢
  obtain ⟨a, n⟩ := s
  simp only at h
  subst h
  rfl

theorem link_le (c : Call) (n : Nat) : n ≤ c.link n := by
  cases c with
  | addFact i o p => exact Nat.le_succ n
  | addChild i o p => unfold Call.link; simp only; split <;> omega
  | _ => exact Nat.le_refl n

theorem links_later (cfg : Cfg) (fuel : Nat) (es es' : List Event) : links cfg fuel es ≤ links cfg fuel (es ++ es') := by
  generalize hn : es'.length = n
  induction n generalizing es' with
  | zero => cases List.length_eq_zero_iff.1 hn; rw [List.append_nil]; exact Nat.le_refl _
  | succ n ih =>
    obtain ⟨es1, e, rfl⟩ : ∃ es1 e, es' = es1 ++ [e] := ⟨es'.dropLast, es'.getLast (by intro h; subst h; cases hn), (List.dropLast_concat_getLast _).symm⟩
    refine Nat.le_trans (ih es1 (by simpa using hn)) ?_
    rw [← List.append_assoc, links_append]
    cases e with
    | call c f =>
      simp only [State.tally]
      split
      · exact Nat.le_refl _
      · exact link_le c _
    | _ => exact Nat.le_refl _

theorem facts_le_links (cfg : Cfg) (fuel : Nat) (es : List Event) : factsAdded cfg fuel es ≤ links cfg fuel es := by
  generalize hn : es.length = n
  induction n generalizing es with
  | zero => cases List.length_eq_zero_iff.1 hn; exact Nat.le_refl _
  | succ n ih =>
    obtain ⟨es1, e, rfl⟩ : ∃ es1 e, es = es1 ++ [e] := ⟨es.dropLast, es.getLast (by intro h; subst h; cases hn), (List.dropLast_concat_getLast _).symm⟩
    have ih := ih es1 (by simpa using hn)
    rw [facts_append, links_append]
    cases e with
    | call c f =>
      cases c with
      | addFact i o p =>
        simp only [State.tally, State.countFact]
        split
        · exact ih
        · exact Nat.succ_le_succ ih
      | _ =>
        simp only [State.tally, State.countFact]
        split
        · exact ih
        · exact Nat.le_trans ih (link_le _ _)
    | _ => exact ih

/-- `CreateChildStory` is refused if node 0 has two targets -/
theorem Sound.child_refused {cfg : Cfg} {lim : Lim} {fuel : Nat} (hd : Policy cfg lim) (hf : Fits lim fuel)
    {st : State} (h : Sound cfg lim st) (h0 : cfg.zero = true → 2 ≤ (st.world.store.targets 0).length) {i : Nat}
    {o p : GoStr} (ht : TextOK lim o ∧ TextOK lim p) (r : RemE) :
    ((Call.prog fuel st.log (.addChild i o p)).exec cfg st.world).1 ≠ .ok (some r) := by
  cases hi : st.log[i]? with
  | none =>
    simp only [Call.prog, hi]
    intro h; cases h
  | some e =>
    have hp : (Call.addChild i o p).pair st.log = some (o, p) := by simp [Call.pair, hi]
    obtain ⟨σ, σ', _, _, _, hT, he⟩ := h.creates hd hf (c := .addChild i o p) (by
      intro t h
      simp [Call.texts] at h
      rcases h with rfl | rfl
      · exact ht.1
      · exact ht.2) hp
    intro hr
    have hout := he.out
    rw [hr] at hout
    obtain ⟨_, _, _, _, _, _, ⟨hz, hg⟩, _⟩ := hout
    have := h0 hz
    rw [← hT] at this
    rcases hg with ⟨h1, _⟩ | ⟨t, x, h1, _⟩ <;> rw [h1] at this <;> simp at this

end Semnet
