import Verif.Proof.Fuel
import Verif.Proof.RaceRemark
import Verif.Proof.Concurrent
import Verif.Spec.Race
/-
  Several processes writing at the same time: the queries.
-/
namespace Semnet.Race
open Class Spec

theorem Does.map {α β : Type} {C : RC} {good : α → Rt → Prop} {p : Go α} {f : α → β} {σ : Rt} {good' : β → Rt → Prop}
    (h : Does C good p σ) (hg : ∀ a σ', good a σ' → good' (f a) σ') : Does C good' (do let a ← p; pure (f a)) σ :=
  Does.bind h fun a σ' h1 ha => Does.ret h1.inv (hg a σ' ha)

/-- A program that only asks: whatever happens, the other processes are left alone. -/
theorem quiet_rwp {α : Type} {p : Go α} (h : Quiet p) {C : RC} : ∀ {σ : Rt}, C.I σ →
    rwp C (fun _ σ' => Later C σ σ') p σ := by
  induction h with
  | pure a => intro σ hi _; exact Later.refl hi
  | err e => intro σ hi _; exact Later.refl hi
  | panic => intro σ hi _; exact Later.refl hi
  | spin => intro σ hi _; exact Later.refl hi
  | call o h =>
    intro σ hi _ c hc σ1 he
    have e1 : σ1.after c o σ1.tag σ1.own = σ1 := by
      simp only [Rt.after, isRead_step h]
    refine ⟨⟨σ1.tag, σ1.own, ?_, ?_⟩, fun _ => he.toLater, fun _ => ⟨σ1.tag, σ1.own, ?_, ?_⟩⟩
    · rw [e1]; exact .refl he.inv
    · rw [e1]
      cases (σ1.store.step c o).1 <;> exact he.toLater
    · rw [e1]; exact .refl he.inv
    · rw [e1]; exact he.toLater
  | init => intro σ hi; exact rwp_mono (fun o σ' h => h.1) (Does.bitInit hi)
  | classes => intro σ hi; exact rwp_mono (fun o σ' h => h.1) (Does.provideEntity hi)
  | bind _ _ ih1 ih2 =>
    intro σ hi
    refine rwp_bind (rwp_mono ?_ (ih1 hi))
    intro o σ1 h1
    cases o with
    | ok a => exact rwp_mono (fun o σ2 h2 => h1.trans h2) (ih2 a h1.inv)
    | err e => exact h1
    | panic => exact h1
    | spin => exact h1
  | attempt _ ih =>
    intro σ hi
    refine rwp_attempt (rwp_mono ?_ (ih hi))
    intro o σ1 h
    cases o <;> exact h

/-- a program without loops does not use up the budget -/
theorem rwpk_noSpin {α : Type} {p : Go α} (h : p.NoSpin) {C : RC} {Q : Out α → Rt → Prop} : ∀ {κ : Know} {σ : Rt},
    rwpk C Q p κ σ → rwpk C (fun o σ' => Q o σ' ∧ o ≠ .spin) p κ σ := by
  induction h with
  | ok a => exact fun h => ⟨h, by simp⟩
  | err e => exact fun h => ⟨h, by simp⟩
  | panic => exact fun h => ⟨h, by simp⟩
  | op o _ ih =>
    intro κ σ h c hc σ1 he
    obtain ⟨⟨t, b, hs, h1⟩, h2, h3⟩ := h c hc σ1 he
    refine ⟨⟨t, b, hs, ih _ h1⟩, fun hF => ih _ (h2 hF), fun hF => ?_⟩
    obtain ⟨t, b, hs, h4⟩ := h3 hF
    exact ⟨t, b, hs, ih _ h4⟩
  | getMem _ ih => intro κ σ h m hm; exact ih _ (h m hm)
  | setMem m _ ih => intro κ σ ⟨κ', h1, h2⟩; exact ⟨κ', h1, ih h2⟩

theorem rwp_noSpin {α : Type} {p : Go α} (h : p.NoSpin) {C : RC} {Q : Out α → Rt → Prop} {σ : Rt}
    (hq : rwp C Q p σ) : rwp C (fun o σ' => Q o σ' ∧ o ≠ .spin) p σ := fun κ => rwpk_noSpin h (hq κ)

theorem Does.quiet {α : Type} {p : Go α} (h : Quiet p) (hn : p.NoSpin) {C : RC} (hC : C.tot = false) {σ : Rt} (hi : C.I σ) :
    Does C (fun _ _ => True) p σ := by
  refine rwp_mono ?_ (rwp_noSpin hn (quiet_rwp h hi))
  intro o σ' ⟨h', hs⟩
  cases o with
  | spin => exact absurd rfl hs
  | _ => exact ⟨h', by first | trivial | exact hC⟩

theorem Does.hasNextRemark {C : RC} {σ : Rt} (hi : C.I σ) {r} (h : RemEnt σ r) :
    Does C (fun a _ => a = false) (Remark.hasNextRemark r) σ := by
  unfold Remark.hasNextRemark
  refine Does.bind (Does.targets0 hi h.tp rfl) ?_
  intro a σ1 h1 ha; subst ha
  exact Does.ret h1.inv rfl

theorem Does.toFirstFact {C : RC} (hz : C.cfg.zero = false ∨ C.tot = true) {σ : Rt} (hi : C.I σ) {f : FactE} {s : StoryE} (hf : FactEnt σ false f)
    (hs : StoryEnt σ s) (h1 : σ.T f.story = [s.fact]) (h2 : σ.T s.fact = [f.story]) :
    Does C (fun a _ => a = ⟨f, false⟩) (Fact.toFirstFact ⟨f, true⟩) σ := by
  have a1 : Does C (fun a _ => a = s.fact) (Fact.getTargetStory f) σ := by
    unfold Fact.getTargetStory
    refine Does.bind (Does.targets1 hi hf.ts rfl h1) ?_
    intro a σ1 e1 ha; subst ha
    exact Does.ret e1.inv rfl
  unfold Fact.toFirstFact
  refine Does.bind (good := fun a _ => a = s.fact ∨ (a = 0 ∧ C.tot = false)) ?_ ?_
  · unfold Fact.targetStoryOrZero
    refine From.bind a1.attempt ?_
    intro r σ1 e1 hr
    cases r with
    | ok a => simp only at hr; subst hr; exact From.ret e1 (.inl rfl)
    | error e => exact From.ret e1 (.inr ⟨rfl, hr⟩)
  intro a σ1 e1 ha
  rcases ha with rfl | ⟨rfl, hC⟩
  · refine Does.bind (Does.storyByFact e1.inv (e1.mono.story hs)) ?_
    intro a σ2 e2 ha; subst ha
    have m2 := e1.mono.trans e2.mono
    refine Does.bind (good := fun a _ => a = f.story) ?_ ?_
    · unfold Story.getTargetFact
      refine Does.bind (Does.targets1 e2.inv (m2.story hs).tf rfl (m2.Teq hs.tf rfl h2 (by simp))) ?_
      intro a σ3 e3 ha; subst ha
      exact Does.ret e3.inv rfl
    intro a σ3 e3 ha; subst ha
    refine Does.bind (good := fun a _ => a = f) ?_ ?_
    · unfold Fact.viaStorage
      simp only [if_true]
      exact Does.factByStory e3.inv ((m2.trans e3.mono).fact hf)
    intro a σ4 e4 ha; subst ha
    exact Does.ret e4.inv rfl
  · have hz := hz.resolve_right (by rw [hC]; simp)
    refine Does.bind (good := fun _ _ => False) ?_ (fun _ _ _ h => h.elim)
    unfold Story.fetchByFact
    exact Does.bind (Does.getRef0 hC hz e1.inv (good := fun _ _ => False)) (fun _ _ _ h => h.elim)

theorem Does.getFirstFact {C : RC} (hz : C.cfg.zero = false ∨ C.tot = true) {σ : Rt} (hi : C.I σ) {r r1 : RemE} {f s} (hr : RemEnt σ r) (hb : In σ r r1 f s) :
    Does C (fun a _ => a = r1) (Remark.getFirstFact r) σ := by
  unfold Remark.getFirstFact
  refine Does.bind (good := fun a _ => a = f.remark) ?_ ?_
  · unfold Remark.getTargetFact
    refine Does.bind (Does.targets1 hi hr.tf rfl hb.Tr) ?_
    intro a σ1 h1 ha; subst ha
    exact Does.ret h1.inv rfl
  intro a σ1 e1 ha; subst ha
  refine Does.bind (Does.factByRemark e1.inv (e1.mono.fact hb.fact)) ?_
  intro a σ2 e2 ha; subst ha
  have m2 := e1.mono.trans e2.mono
  have b2 := hb.mono m2 hr
  refine Does.bind (Does.toFirstFact hz e2.inv b2.fact b2.story b2.Ts b2.Tb) ?_
  intro a σ3 e3 ha; subst ha
  have b3 := b2.mono e3.mono (m2.rem hr)
  refine Does.bind (good := fun a _ => a = r1.fact) ?_ ?_
  · unfold Fact.getFirstRemark
    refine Does.bind (Does.targets1 e3.inv b3.fact.tr rfl b3.Tf) ?_
    intro a σ4 h1 ha; subst ha
    exact Does.ret h1.inv rfl
  intro a σ4 e4 ha; subst ha
  exact Does.remByFact e4.inv (e4.mono.rem b3.opener)

theorem Does.getStory {C : RC} (hz : C.cfg.zero = false ∨ C.tot = true) {σ : Rt} (hi : C.I σ) {r r1 : RemE} {f s o p} (hr : RemEnt σ r) (hb : In σ r r1 f s)
    (hs : Says C.bs σ r1 o p) {fuel : Nat} (hf : C.lim.L ≤ fuel) (hD : C.lim.D ≤ fuel) (h1 : 1 ≤ fuel) :
    Does C (fun a _ => a = textOf o ++ [spaceByte] ++ textOf p ++ [spaceByte]) (Output.getStory fuel r) σ := by
  have hr1 := hb.opener
  unfold Output.getStory
  refine Does.bind (Does.getFirstFact hz hi hr hb) ?_
  intro a σ1 e1 ha; subst ha
  obtain ⟨n, rfl⟩ : ∃ n, fuel = n + 1 := ⟨fuel - 1, by omega⟩
  unfold Output.loop
  refine Does.bind (Does.remarkText e1.inv (e1.mono.rem hr1) (hs.mono e1.mono hr1) hf hD) ?_
  intro a σ2 e2 ha; subst ha
  refine Does.bind (Does.hasNextRemark e2.inv ((e1.mono.trans e2.mono).rem hr1)) ?_
  intro a σ3 e3 ha; subst ha
  refine Does.ret e3.inv ?_
  simp

/-! ### the log -/

/-- what is known of a logged remark -/
structure LogOK (lim : Lim) (bs : BitE × BitE) (σ : Rt) (log : List Entry) (e : Entry) : Prop where
  ent : RemEnt σ e.handle
  says : Says bs σ e.handle (wordsOf e.object) (wordsOf e.property)
  obj : asText e.object = e.object
  prop : asText e.property = e.property
  text : TextOK lim e.object
  ptext : TextOK lim e.property
  fact : match e.opener with
    | some i => ∃ e', log[i]? = some e' ∧ At σ e.handle (some e'.handle)
    | none => At σ e.handle none ∧ σ.tag 0 = .zero

/-- all logged remarks are as they should be -/
structure Logs (lim : Lim) (bs : BitE × BitE) (σ : Rt) (log : List Entry) : Prop where
  ok : ∀ e ∈ log, LogOK lim bs σ log e
  nodup : (log.map (·.handle.cls)).Nodup

theorem LogOK.mono {lim bs} {σ σ' : Rt} {log e} (m : RMono σ σ') (h : LogOK lim bs σ log e) : LogOK lim bs σ' log e where
  ent := m.rem h.ent
  says := h.says.mono m h.ent
  obj := h.obj
  prop := h.prop
  text := h.text
  ptext := h.ptext
  fact := by
    have := h.fact
    cases ho : e.opener with
    | some i => rw [ho] at this; obtain ⟨e', h2, h3⟩ := this; exact ⟨e', h2, h3.mono m h.ent⟩
    | none => rw [ho] at this; exact ⟨this.1.mono m h.ent, m.tagEq this.2 (by simp)⟩

theorem Logs.mono {lim bs} {σ σ' : Rt} {log} (m : RMono σ σ') (h : Logs lim bs σ log) : Logs lim bs σ' log :=
  ⟨fun e he => (h.ok e he).mono m, h.nodup⟩

theorem LogOK.append {lim bs} {σ : Rt} {log e} (l : List Entry) (h : LogOK lim bs σ log e) : LogOK lim bs σ (log ++ l) e where
  ent := h.ent
  says := h.says
  obj := h.obj
  prop := h.prop
  text := h.text
  ptext := h.ptext
  fact := by
    have := h.fact
    cases ho : e.opener with
    | some i => rw [ho] at this; obtain ⟨e', h2, h3⟩ := this; exact ⟨e', getElem?_append_some h2, h3⟩
    | none => rw [ho] at this; exact this

theorem Logs.unique {lim bs} {σ : Rt} {log} (k : Logs lim bs σ log) {e e'} (h : e ∈ log) (h' : e' ∈ log)
    (hc : e.handle.cls = e'.handle.cls) : e = e' := by
  have := k.nodup
  clear k
  induction log with
  | nil => cases h
  | cons a l ih =>
    rw [List.map_cons, List.nodup_cons] at this
    rcases List.mem_cons.1 h with h1 | h1 <;> rcases List.mem_cons.1 h' with h2 | h2
    · rw [h1, h2]
    · subst h1; exact absurd (hc ▸ List.mem_map_of_mem (f := fun e => e.handle.cls) h2) this.1
    · subst h2; exact absurd (hc ▸ List.mem_map_of_mem (f := fun e => e.handle.cls) h1) this.1
    · exact ih h1 h2 this.2

theorem Logs.get {lim bs} {σ : Rt} {log} (k : Logs lim bs σ log) {i : Nat} {e} (h : log[i]? = some e) :
    LogOK lim bs σ log e := k.ok e (List.mem_of_getElem? h)

/-- every expected answer is given -/
theorem Does.ask {C : RC} (hz : C.cfg.zero = false ∨ C.tot = true) {σ : Rt} (hi : C.I σ) {log e} (k : Logs C.lim C.bs σ log) (he : e ∈ log) {fuel : Nat}
    (hf : Fits C.lim fuel) {q a} (ha : e.answer log q = some a) : Does C (fun x _ => x = a) (q.ask fuel e.handle) σ := by
  have ok := k.ok e he
  have key : ∀ {e'}, e.opener.bind (log[·]?) = some e' → e' ∈ log ∧ ∃ f s, In σ e.handle e'.handle f s := by
    intro e' h1
    obtain ⟨i, ho, hl⟩ := opener_some h1
    have hf := ok.fact
    rw [ho] at hf
    obtain ⟨e2, hl', f, s, hin⟩ := hf
    rw [hl] at hl'; cases hl'
    exact ⟨List.mem_of_getElem? hl, f, s, hin⟩
  cases q with
  | getObjectAndProperty =>
    cases ha
    refine Does.map (Does.remarkText hi ok.ent ok.says hf.L hf.D) ?_
    intro x _ hx; subst hx
    rw [textOf_wordsOf, textOf_wordsOf, ok.obj, ok.prop]
  | hasNextRemark =>
    cases ha
    exact Does.map (Does.hasNextRemark hi ok.ent) fun x _ hx => by rw [hx]
  | getFirstFact =>
    obtain ⟨e', h1, h2⟩ := Option.map_eq_some_iff.1 ha
    subst h2
    obtain ⟨_, f, s, hin⟩ := key h1
    exact Does.map (Does.getFirstFact hz hi ok.ent hin) fun x _ hx => by rw [hx]
  | getStory =>
    obtain ⟨e', h1, h2⟩ := Option.map_eq_some_iff.1 ha
    subst h2
    obtain ⟨he', f, s, hin⟩ := key h1
    have ok' := k.ok e' he'
    refine Does.map (Does.getStory hz hi ok.ent hin ok'.says hf.L hf.D (by have := hf.two; omega)) ?_
    intro x _ hx; subst hx
    rw [textOf_wordsOf, textOf_wordsOf, ok'.obj, ok'.prop]
    rfl
  | _ => cases ha

theorem Does.get {C : RC} {σ : Rt} (hi : C.I σ) {log e} (k : Logs C.lim C.bs σ log) (he : e ∈ log) :
    Does C (fun x _ => x = e.handle) (Graph.getRemark (Remark.getIdentifier e.handle)) σ :=
  Does.remByClass hi (k.ok e he).ent

theorem Does.asks {C : RC} (hz : C.cfg.zero = false ∨ C.tot = true) {log e} (he : e ∈ log) {fuel : Nat} (hf : Fits C.lim fuel) :
    ∀ {qs : List Query} {as : List Answer} {σ : Rt}, C.I σ → Logs C.lim C.bs σ log →
    e.answers log qs = some as → Does C (fun x _ => x = as) (asks fuel e.handle qs) σ := by
  intro qs
  induction qs with
  | nil => intro as σ hi _ h; cases h; exact Does.ret hi rfl
  | cons q qs ih =>
    intro as σ hi k h
    simp only [Entry.answers] at h
    split at h
    · rename_i a as' ha has
      cases h
      refine Does.bind (Does.ask hz hi k he hf ha) ?_
      intro b σ1 h1 hb
      subst hb
      exact Does.map (ih h1.inv (k.mono h1.mono) has) (fun x _ hx => by rw [hx])
    · cases h

theorem quiet_getRemark (i : Nat) : Quiet (Graph.getRemark i) := by
  unfold Graph.getRemark Remark.readEntityByClass; quiet

theorem quiet_asks (fuel : Nat) (r : RemE) : ∀ qs, Quiet (asks fuel r qs) := by
  intro qs
  induction qs with
  | nil => exact .pure _
  | cons q qs ih => exact .bind (.query fuel r q) fun a => .bind ih fun _ => .pure _

theorem quiet_interview (fuel : Nat) (i : Nat) (qs : List Query) : Quiet (interview fuel i qs) :=
  .bind (quiet_getRemark i) fun r => quiet_asks fuel r qs

/-- the reader has ended as promised -/
def _root_.Semnet.Spec.Asker.Good (rd : Asker) (o : Out (List Answer)) : Prop :=
  ∀ e ∈ rd.log, Remark.getIdentifier e.handle = rd.identifier → ∀ as, e.answers rd.log rd.asked = some as → o = .ok as

/-- a new reader -/
theorem rwp_interview {C : RC} (hC : C.tot = true) {fuel : Nat} (hf : Fits C.lim fuel) {σ : Rt} (hi : C.I σ) {log}
    (k : Logs C.lim C.bs σ log) (i : Nat) (qs : List Query) (pr : Go (List Answer)) :
    rwp C (fun o _ => Asker.Good ⟨pr, i, qs, log⟩ o) (interview fuel i qs) σ := by
  by_cases hex : ∃ e ∈ log, Remark.getIdentifier e.handle = i ∧ ∃ as, e.answers log qs = some as
  · obtain ⟨e, he, hid, as, has⟩ := hex
    subst hid
    have h : Does C (fun x _ => x = as) (interview fuel (Remark.getIdentifier e.handle) qs) σ := by
      refine Does.bind (Does.get hi k he) ?_
      intro a σ1 h1 ha
      subst ha
      exact Does.asks (.inr hC) he hf h1.inv (k.mono h1.mono) has
    refine rwp_mono ?_ h
    intro o σ1 ⟨h1, h3⟩ e' he' hid' as' has'
    have := k.unique he' he hid'
    subst this
    rw [has] at has'
    cases has'
    cases o with
    | ok b => simp only at h3; rw [h3]
    | spin => exact h3.elim
    | _ => simp only at h3; rw [hC] at h3; cases h3
  · refine rwp_mono ?_ (quiet_rwp (quiet_interview fuel i qs) hi)
    intro o _ _ e he hid as has
    exact absurd ⟨e, he, hid, as, has⟩ hex

/-- what is promised of a process is what it will yield when left alone -/
theorem rwp_alone {α : Type} {C : RC} {P : Out α → Prop} (hh : C.hazy = false) :
    ∀ {p : Go α} {κ : Know} {σ : Rt} {m : Layer}, C.I σ → MemAt C.bs κ m → rwpk C (fun o _ => P o) p κ σ →
      P (p.exec C.cfg ⟨σ.store, m⟩).1 := by
  intro p
  induction p with
  | ok a => exact fun _ _ h => h
  | err e => exact fun _ _ h => h
  | panic => exact fun _ _ h => h
  | spin => exact fun _ _ h => h
  | op o k ih =>
    intro κ σ m hi hm h
    obtain ⟨⟨t, b, hs, h1⟩, _, _⟩ := h _ C.like _ (Env.refl hi)
    exact ih _ hs.inv hm h1
  | getMem k ih => intro κ σ m hi hm h; exact ih _ hi hm.learn (h m (.inr ⟨hh, hm⟩))
  | setMem u k ih => intro κ σ m hi hm ⟨κ', h1, h2⟩; exact ih hi (hm.assign h1).1 h2

theorem Does.exec {α : Type} {C : RC} (hC : C.tot = true) {p : Go α} {σ : Rt} (hi : C.I σ) {m : Layer}
    (hm : MemOK C.bs m) {a : α} (h : Does C (fun x _ => x = a) p σ) :
    ∃ w', p.exec C.cfg ⟨σ.store, m⟩ = (.ok a, w') := by
  have := rwp_alone (P := fun o => o = .ok a) (RC.tot_crisp hC) hi hm.at (rwp_mono (fun o σ' ⟨h1, h2⟩ => by
    cases o with
    | ok b => simp only at h2; rw [h2]
    | spin => exact h2.elim
    | _ => simp only at h2; rw [hC] at h2; cases h2) h .bot)
  exact ⟨_, Prod.ext this rfl⟩

theorem Logs.readable {cfg lim bs fz} {σ : Rt} (hi : RI cfg lim bs fz σ) {log} (k : Logs lim bs σ log) {fuel} (hf : Fits lim fuel)
    {m : Layer} (hm : MemOK bs m) {e} (he : e ∈ log) : Readable cfg fuel log ⟨σ.store, m⟩ e where
  ask _ _ ha := Does.exec (C := ⟨cfg, lim, bs, 0, true, fz, fun _ => False, false⟩) rfl hi hm 
    (Does.ask (C := ⟨cfg, lim, bs, 0, true, fz, fun _ => False, false⟩) (.inr rfl) hi k he hf ha)
  get := Does.exec (C := ⟨cfg, lim, bs, 0, true, fz, fun _ => False, false⟩) rfl hi hm (Does.get (C := ⟨cfg, lim, bs, 0, true, fz, fun _ => False, false⟩) hi k he)

end Semnet.Race
