import Verif.Proof.Scribe
import Verif.Spec.Moody
/-
  The program logic covers storages that behave differently at every call.
-/
namespace Semnet
open Spec

theorem crashes_const {α : Type} (cfg : Cfg) : ∀ (p : Go α) (n : Nat) (f : Nat → Fate) (w : World),
    p.crashes n (fun _ => cfg) f w = p.crashAfter cfg n f w := by
  intro p
  induction p with
  | ok a => intro n _ _; cases n <;> rfl
  | err e => intro n _ _; cases n <;> rfl
  | panic => intro n _ _; cases n <;> rfl
  | spin => intro n _ _; cases n <;> rfl
  | op o k ih =>
    intro n f w
    cases n with
    | zero => rfl
    | succ n =>
      unfold Go.crashes Go.crashAfter
      cases f 0 <;> exact ih _ _ _ _
  | getMem k ih => intro n f w; cases n <;> exact ih _ _ f w
  | setMem m k ih => intro n f w; cases n <;> exact ih _ f _

/-! ### from the program logic to moody executions -/

theorem wp_runs {α : Type} {C : Ctx} (hR : C.R = false) {Q : Out α → St → Prop} :
    ∀ {p : Go α} {σ : St} {w : World} {g : Nat → Cfg} {f : Nat → Fate}, Suits C.cfg g → (C.F = true ∨ f = Go.noFault) →
      σ.Is w → wp C Q p σ →
      ∃ σ', σ'.Is (p.runs g f w).2 ∧ Q (p.runs g f w).1 σ' ∧ (f = Go.noFault → σ'.flt = σ.flt) := by
  intro p
  induction p with
  | ok a => intro σ w g f _ _ hw h; exact ⟨σ, hw, h, fun _ => rfl⟩
  | err e => intro σ w g f _ _ hw h; exact ⟨σ, hw, h, fun _ => rfl⟩
  | panic => intro σ w g f _ _ hw h; exact ⟨σ, hw, h, fun _ => rfl⟩
  | spin => intro σ w g f _ _ hw h; exact ⟨σ, hw, h, fun _ => rfl⟩
  | op o k ih =>
    intro σ w g f hg hf hw h
    obtain ⟨⟨t, b, _, h1⟩, h2, h3⟩ := h σ (by simp [Env, hR]) (g 0) (hg 0)
    have hg' : Suits C.cfg fun n => g (n + 1) := fun n => hg (n + 1)
    have hF : f 0 ≠ .ok → C.F = true := by
      intro h0
      rcases hf with hf | hf
      · exact hf
      · exact absurd (by rw [hf]; rfl) h0
    have hn : C.F = true ∨ (fun n => f (n + 1)) = Go.noFault := hf.imp id fun h => by rw [h]; rfl
    have hne : f 0 ≠ .ok → f ≠ Go.noFault := fun h0 h' => h0 (by rw [h']; rfl)
    unfold Go.runs
    cases h0 : f 0 with
    | ok =>
      simp only
      rw [hw.store] at h1
      obtain ⟨σ', a1, a2, a3⟩ := ih _ (σ := σ.after (g 0) o t b) (w := ⟨(w.store.step (g 0) o).2, w.mem⟩) hg' hn
        ⟨by simp [St.after, hw.store], hw.mem⟩ h1
      exact ⟨σ', a1, a2, fun h => a3 (by rw [h]; rfl)⟩
    | fail =>
      simp only
      obtain ⟨_, h4⟩ := h2 (hF (by rw [h0]; simp))
      obtain ⟨σ', a1, a2, _⟩ := ih _ (σ := σ.fail) (w := w) hg' hn ⟨hw.store, hw.mem⟩ h4
      exact ⟨σ', a1, a2, fun h => absurd h (hne (by rw [h0]; simp))⟩
    | failLate =>
      simp only
      obtain ⟨t, b, _, h4⟩ := h3 (hF (by rw [h0]; simp))
      obtain ⟨σ', a1, a2, _⟩ := ih _ (σ := (σ.after (g 0) o t b).fail) (w := ⟨(w.store.step (g 0) o).2, w.mem⟩) hg' hn
        ⟨by simp [St.after, St.fail, hw.store], hw.mem⟩ h4
      exact ⟨σ', a1, a2, fun h => absurd h (hne (by rw [h0]; simp))⟩
  | getMem k ih =>
    intro σ w g f hg hf hw h
    unfold Go.runs
    have h' : wp C Q (k w.mem) σ := by rw [← hw.mem]; exact h
    exact ih _ hg hf hw h'
  | setMem m k ih =>
    intro σ w g f hg hf hw h
    unfold Go.runs
    exact ih hg hf (σ := { σ with mem := σ.mem.set m }) (w := ⟨w.store, w.mem.set m⟩) ⟨hw.store, by rw [hw.mem]⟩ h.2

theorem wp_crashes {α : Type} {C : Ctx} (hR : C.R = false) (hF : C.F = true) {Q : Out α → St → Prop} :
    ∀ {p : Go α} {σ : St} {w : World} {g : Nat → Cfg} {f : Nat → Fate} (n : Nat), Suits C.cfg g → Inv C.cfg C.lim σ →
      σ.Is w → wp C Q p σ → ∃ σ', σ'.store = p.crashes n g f w ∧ Ext C σ σ' := by
  intro p
  induction p with
  | ok a => intro σ w g f n _ hi hw h; cases n <;> exact ⟨σ, hw.store, .refl hi⟩
  | err e => intro σ w g f n _ hi hw h; cases n <;> exact ⟨σ, hw.store, .refl hi⟩
  | panic => intro σ w g f n _ hi hw h; cases n <;> exact ⟨σ, hw.store, .refl hi⟩
  | spin => intro σ w g f n _ hi hw h; cases n <;> exact ⟨σ, hw.store, .refl hi⟩
  | op o k ih =>
    intro σ w g f n hg hi hw h
    have hg' : Suits C.cfg fun n => g (n + 1) := fun n => hg (n + 1)
    cases n with
    | zero => exact ⟨σ, hw.store, .refl hi⟩
    | succ n =>
      obtain ⟨⟨t, b, s1, h1⟩, h2, h3⟩ := h σ (by simp [Env, hR]) (g 0) (hg 0)
      unfold Go.crashes
      cases h0 : f 0 with
      | ok =>
        simp only
        have e1 := s1.ext (by simp [hF])
        rw [hw.store] at h1
        obtain ⟨σ', a1, a2⟩ := ih _ (σ := σ.after (g 0) o t b) (w := ⟨(w.store.step (g 0) o).2, w.mem⟩)
          (f := fun n => f (n + 1)) n hg' e1.inv ⟨by simp [St.after, hw.store], hw.mem⟩ h1
        exact ⟨σ', a1, e1.trans a2⟩
      | fail =>
        simp only
        obtain ⟨s4, h4⟩ := h2 hF
        have e1 := s4.ext (by simp [hF])
        obtain ⟨σ', a1, a2⟩ := ih _ (σ := σ.fail) (w := w) (f := fun n => f (n + 1)) n hg' e1.inv ⟨hw.store, hw.mem⟩ h4
        exact ⟨σ', a1, e1.trans a2⟩
      | failLate =>
        simp only
        obtain ⟨t, b, s4, h4⟩ := h3 hF
        have e1 := s4.ext (by simp [hF])
        obtain ⟨σ', a1, a2⟩ := ih _ (σ := (σ.after (g 0) o t b).fail) (w := ⟨(w.store.step (g 0) o).2, w.mem⟩)
          (f := fun n => f (n + 1)) n hg' e1.inv ⟨by simp [St.after, St.fail, hw.store], hw.mem⟩ h4
        exact ⟨σ', a1, e1.trans a2⟩
  | getMem k ih =>
    intro σ w g f n hg hi hw h
    have h' : wp C Q (k w.mem) σ := by rw [← hw.mem]; exact h
    obtain ⟨σ', a1, a2⟩ := ih _ (f := f) n hg hi hw h'
    exact ⟨σ', by rw [a1]; cases n <;> rfl, a2⟩
  | setMem m k ih =>
    intro σ w g f n hg hi hw h
    have e1 := h.1.ext (by simp [hF])
    obtain ⟨σ', a1, a2⟩ := ih (σ := { σ with mem := σ.mem.set m }) (w := ⟨w.store, w.mem.set m⟩) (f := f) n hg e1.inv ⟨hw.store, by rw [hw.mem]⟩ h.2
    exact ⟨σ', by rw [a1]; cases n <;> rfl, e1.trans a2⟩

theorem Rd.runs {α : Type} {C : Ctx} (hR : C.R = false) {good : α → Prop} {p : Go α} {σ : St}
    {w : World} {g : Nat → Cfg} (hg : Suits C.cfg g) (hw : σ.Is w) (hfl : σ.flt = false) (h : Rd C good p σ) :
    ∃ a m, p.runs g Go.noFault w = (.ok a, ⟨w.store, m⟩) ∧ good a := by
  obtain ⟨σ', h1, ⟨h2, h3, h4⟩, h5⟩ := wp_runs hR hg (.inr rfl) hw h
  have hfl' : σ'.flt = false := (h5 rfl).trans hfl
  have hst : ((p.runs g Go.noFault w).2).store = w.store := by
    rw [← h1.store, (h3 hR).store, hw.store]
  generalize p.runs g Go.noFault w = out at *
  obtain ⟨o, ⟨st, m⟩⟩ := out
  simp only at hst
  subst hst
  cases o with
  | ok a => exact ⟨a, m, rfl, h4.1⟩
  | err e => simp only at h4; rw [hfl'] at h4; cases h4
  | panic => simp only at h4; rw [hfl'] at h4; cases h4
  | spin => exact h4.elim

theorem Holds.readableMoods {cfg lim fuel st σ} (h : Holds cfg lim st σ) (hf : Fits lim fuel) {e} (he : e ∈ st.log) :
    ReadableMoods cfg fuel st.log st.world e where
  ask g hg q a ha := by
    obtain ⟨x, m, h1, h2⟩ := Rd.runs (C := calmCtx cfg lim) rfl hg h.is h.flt
      (Rd.ask (C := calmCtx cfg lim) (.inl rfl) h.inv (fun _ => h.flt) h.keeps he hf ha)
    subst h2
    exact ⟨_, h1⟩
  get g hg := by
    obtain ⟨x, m, h1, h2⟩ := Rd.runs (C := calmCtx cfg lim) rfl hg h.is h.flt
      (Rd.get (C := calmCtx cfg lim) h.inv h.keeps he)
    subst h2
    exact ⟨_, h1⟩

theorem Fails.runs {α : Type} {C : Ctx} (hR : C.R = false) {p : Go α} {σ : St}
    {w : World} {g : Nat → Cfg} (hg : Suits C.cfg g) (hw : σ.Is w) (hfl : σ.flt = false) (h : Fails C p σ) :
    ∃ e m, p.runs g Go.noFault w = (.err e, ⟨w.store, m⟩) := by
  obtain ⟨σ', h1, ⟨h2, h3, h4⟩, h5⟩ := wp_runs hR hg (.inr rfl) hw h
  have hfl' : σ'.flt = false := (h5 rfl).trans hfl
  have hst : ((p.runs g Go.noFault w).2).store = w.store := by
    rw [← h1.store, (h3 hR).store, hw.store]
  generalize p.runs g Go.noFault w = out at *
  obtain ⟨o, ⟨st, m⟩⟩ := out
  simp only at hst
  subst hst
  cases o with
  | ok a => exact h4.elim
  | err e => exact ⟨e, m, rfl⟩
  | panic => simp only at h4; rw [hfl'] at h4; cases h4
  | spin => exact h4.elim

/-- the replies, whatever the mood -/
theorem reply_exactM {cfg : Cfg} {lim : Lim} {fuel : Nat} (hf : Fits lim fuel) {st : State} {σ : St}
    (hs : Holds cfg lim st σ) (hc : Clean σ) {m : Machine} (hm : m.items = st.log.map Entry.item)
    (hl : cfg.zero = true → m.links = (σ.T 0).length) {e : Entry} (he : e ∈ st.log) {g : Nat → Cfg} (hg : Suits cfg g)
    (q : Query) : (m.reply cfg.zero e.item q).Is st.log ((q.ask fuel e.handle).runs g Go.noFault st.world).1 := by
  refine reply_by (run := fun p => (p.runs g Go.noFault st.world).1) hf hs hc hm hl he ?_ ?_ ?_ q
  · intro q a ha
    obtain ⟨w', h⟩ := (hs.readableMoods hf he).ask g hg _ _ ha
    exact congrArg Prod.fst h
  · intro α p f hp
    obtain ⟨x, m, h1⟩ := Fails.runs (C := calmCtx cfg lim) rfl hg hs.is hs.flt hp
    exact ⟨x, congrArg Prod.fst (runs_bind_err _ p g h1)⟩
  · intro p o h
    have h1 := h g st.world.mem
    rw [hs.is.store] at h1
    exact congrArg Prod.fst h1

/-! ### events -/

theorem feltLexed {C : Ctx} {fuel : Nat} {σ : St} {st : State} (k : CallOK C fuel σ st.log)
    (hw : σ.Is st.world) {g : Nat → Cfg} (hg : Suits C.cfg g) (c : Call) (f : Nat → Fate)
    (hf : C.F = true ∨ f = Go.noFault) (ht : ∀ t ∈ c.texts, TextOK C.lim t) :
    ∃ σ', EventPost C.cfg C.lim σ st (st.felt fuel (g, .call c f)) (f = Go.noFault) σ' ∧
      (f = Go.noFault → Lexed st.log c σ σ') := by
  obtain ⟨σ1, h1, ⟨h2, hlx, h3⟩, h4⟩ := wp_runs k.R hg hf hw (callWp k c ht)
  refine ⟨{ σ1 with mem := σ1.mem, flt := false }, ?_⟩
  have hs : Same σ1 { σ1 with mem := σ1.mem, flt := false } := .unfail σ1 _
  have hi : Inv C.cfg C.lim { σ1 with mem := σ1.mem, flt := false } := h2.inv.same hs h2.inv.mem
  have hm := h2.mono.trans hs.mono
  refine ⟨?_, fun hf => hlx.trans (by rw [h4 hf]; exact k.flt) h2.inv hi hs⟩
  show EventPost _ _ _ _ (st.ended c ((c.prog fuel st.log).runs g f st.world)) _ _
  unfold State.ended
  generalize ((Call.prog fuel st.log c).runs g f st.world) = out at h1 h3
  obtain ⟨out, w⟩ := out
  have hcl : f = Go.noFault → Clean σ → Clean { σ1 with mem := σ1.mem, flt := false } := fun hf hc =>
    (h2.clean hc (by rw [h4 hf]; exact k.flt)).same hs
  have plain : ∃ l, st.log = st.log ++ l := ⟨[], by simp⟩
  cases out with
  | ok o =>
    cases o with
    | none => exact ⟨⟨⟨h1.store, h1.mem⟩, hi, rfl, k.keeps.mono hm⟩, hm, hcl, plain⟩
    | some r =>
      obtain ⟨e, e1, e2, e3, e4⟩ := h3
      simp only [e1, Option.toList]
      refine ⟨⟨⟨h1.store, h1.mem⟩, hi, rfl, ?_⟩, hm, hcl, _, rfl⟩
      refine k.keeps.add hm ?_ (by rw [e2]; exact e4.1)
      simpa using e3.mono hs.mono (log' := [])
  | err e => exact ⟨⟨⟨h1.store, h1.mem⟩, hi, rfl, k.keeps.mono hm⟩, hm, hcl, plain⟩
  | panic => exact ⟨⟨⟨h1.store, h1.mem⟩, hi, rfl, k.keeps.mono hm⟩, hm, hcl, plain⟩
  | spin => exact ⟨⟨⟨h1.store, h1.mem⟩, hi, rfl, k.keeps.mono hm⟩, hm, hcl, plain⟩

theorem feltPost {C : Ctx} {fuel : Nat} {σ : St} {st : State} (k : CallOK C fuel σ st.log) (hw : σ.Is st.world)
    {g : Nat → Cfg} (hg : Suits C.cfg g)
    (e : Event) (hf : C.F = true ∨ e.Calm) (ht : ∀ t ∈ e.texts, TextOK C.lim t) :
    ∃ σ', EventPost C.cfg C.lim σ st (st.felt fuel (g, e)) e.Calm σ' := by
  cases e with
  | call c f => obtain ⟨σ', h, _⟩ := feltLexed k hw hg c f hf ht; exact ⟨σ', h⟩
  | crash c f n =>
    have hF : C.F = true := hf.resolve_right id
    obtain ⟨σ1, h1, h2⟩ := wp_crashes k.R hF n hg k.inv hw (f := f) (callWp k c ht)
    have hs : Same σ1 { σ1 with mem := Layer.fresh, flt := false } := .unfail σ1 _
    have hm := h2.mono.trans hs.mono
    exact ⟨{ σ1 with mem := Layer.fresh, flt := false },
      ⟨⟨h1, rfl⟩, h2.inv.same hs fresh_mem, rfl, k.keeps.mono hm⟩, hm, fun h => h.elim, [], by simp [State.felt]⟩
  | reopen =>
    have hs : Same σ { σ with mem := Layer.fresh, flt := false } := .unfail σ _
    exact ⟨{ σ with mem := Layer.fresh, flt := false },
      ⟨⟨hw.store, rfl⟩, k.inv.same hs fresh_mem, rfl, k.keeps.mono hs.mono⟩, hs.mono, fun _ hc => hc.same hs,
      [], by simp [State.felt]⟩

/-! ### the empty storage -/

theorem provide_runs {α : Type} (cfg : Cfg) (m : Layer) (g : Nat → Cfg) (k : Unit → Go α) :
    (Class.provideEntity >>= k).runs g Go.noFault ⟨Store.empty cfg, m⟩ =
      (Class.provideEntity >>= k).runs (fun n => g (n + 15)) Go.noFault ⟨rootStore cfg, m⟩ := by
  unfold rootStore Store.empty
  cases cfg.zero <;>
  simp [Class.provideEntity, Class.createRoot, Go.has, Go.create, Go.setReference, Go.call, Bind.bind, Pure.pure,
    Go.bind, Go.runs, Go.noFault, Store.step, Store.live, Store.created, Store.referred, Class.bitId,
    Class.characterId, Class.wordId, Class.phraseId, Class.detailId, Class.remarkId, Class.factId, Class.storyId]

theorem createStory_runs (cfg : Cfg) (fuel : Nat) (o p : GoStr) (g : Nat → Cfg) :
    (Call.prog fuel [] (.createStory o p)).runs g Go.noFault (State.init cfg).world =
      (Call.prog fuel [] (.createStory o p)).runs (fun n => g (n + 15)) Go.noFault (State.roots cfg).world := by
  simp only [Call.prog, Graph.createStory, bind_assoc]
  exact provide_runs cfg _ g _

theorem felt_blank (cfg : Cfg) (fuel : Nat) (o p : GoStr) (g : Nat → Cfg) :
    (State.init cfg).felt fuel (g, .call (.createStory o p) Go.noFault) =
    (State.roots cfg).felt fuel (fun n => g (n + 15), .call (.createStory o p) Go.noFault) := by
  have := createStory_runs cfg fuel o p g
  unfold State.felt
  rw [show (State.init cfg).log = [] from rfl, show (State.roots cfg).log = [] from rfl]
  simp only
  rw [this]
  rfl

theorem getRemark_runs (i : Nat) : ∀ (g : Nat → Cfg) (w : World),
    ((Graph.getRemark i).runs g Go.noFault w).2 = w := by
  intro g w
  unfold Graph.getRemark Remark.readEntityByClass
  simp only [Go.getReference, Go.call, Bind.bind, Go.bind, Go.runs, Go.noFault, Store.step]
  cases h1 : w.store.live i with
  | false => rfl
  | true =>
    simp only [if_true, Go.bind, Go.runs, Store.step]
    cases h2 : w.store.live (w.store.fwd i) with
    | false => rfl
    | true =>
      simp only [if_true, Go.bind, Go.runs, Store.step]
      cases h3 : w.store.live (w.store.fwd (w.store.fwd i)) <;> rfl

theorem runs_wrap_none {α : Type} : ∀ (p : Go α) (g : Nat → Cfg) (f : Nat → Fate) (w : World),
    ((p >>= fun _ => pure none : Go (Option RemE)).runs g f w).2 = (p.runs g f w).2 ∧
    ∀ r, ((p >>= fun _ => pure none : Go (Option RemE)).runs g f w).1 ≠ .ok (some r) := by
  intro p
  show ∀ g f w, ((p.bind fun _ => .ok none : Go (Option RemE)).runs g f w).2 = (p.runs g f w).2 ∧
    ∀ r, ((p.bind fun _ => .ok none : Go (Option RemE)).runs g f w).1 ≠ .ok (some r)
  induction p with
  | ok a => exact fun _ _ _ => ⟨rfl, fun _ h => by cases h⟩
  | err e => exact fun _ _ _ => ⟨rfl, fun _ h => by cases h⟩
  | panic => exact fun _ _ _ => ⟨rfl, fun _ h => by cases h⟩
  | spin => exact fun _ _ _ => ⟨rfl, fun _ h => by cases h⟩
  | op o k ih =>
    intro g f w
    simp only [Go.bind, Go.runs]
    cases f 0 <;> exact ih _ _ _ _
  | getMem k ih => exact fun g f w => ih _ g f w
  | setMem m k ih => exact fun g f w => ih g f ⟨w.store, w.mem.set m⟩

theorem ended_same {st : State} {c : Call} {out : Out (Option RemE) × World} (h : out.2 = st.world)
    (h' : ∀ r, out.1 ≠ .ok (some r)) : st.ended c out = st := by
  obtain ⟨o, w⟩ := out
  simp only at h h'
  subst h
  cases o with
  | ok x =>
    cases x with
    | none => rfl
    | some r => exact absurd rfl (h' r)
  | _ => rfl

theorem getRemark_felt (fuel : Nat) (i : Nat) (st : State) (g : Nat → Cfg) :
    st.felt fuel (g, .call (.getRemark i) Go.noFault) = st := by
  obtain ⟨h1, h2⟩ := runs_wrap_none (Graph.getRemark i) g Go.noFault st.world
  exact ended_same (h1.trans (getRemark_runs i g _)) h2

/-! ### moody histories -/

theorem felt_calm {cfg : Cfg} {lim : Lim} {fuel : Nat} (hd : Policy cfg lim) (hf : Fits lim fuel) {st : State}
    (h : Sound cfg lim st) {g : Nat → Cfg} (hg : Suits cfg g) (e : Event) (he : e.Calm)
    (ht : ∀ t ∈ e.texts, TextOK lim t) : Sound cfg lim (st.felt fuel (g, e)) := by
  rcases h with h | ⟨σ, h, hc⟩
  · unfold Blank at h
    subst h
    cases e with
    | reopen => exact .inl rfl
    | crash => exact he.elim
    | call c f =>
      have hfe : f = Go.noFault := he
      subst hfe
      cases c with
      | createStory o p =>
        rw [felt_blank]
        have k := (roots_holds (lim := lim) hd).calm hf (rootSt_clean cfg)
        obtain ⟨σ, q, _⟩ := feltLexed (C := calmCtx cfg lim) k ⟨rfl, rfl⟩ (g := fun n => g (n + 15))
          (fun n => hg (n + 15)) (.createStory o p) Go.noFault (.inr rfl) ht
        exact .inr ⟨σ, q.holds, q.clean rfl (rootSt_clean cfg)⟩
      | addRemark => exact .inl rfl
      | addFact => exact .inl rfl
      | addChild => exact .inl rfl
      | query => exact .inl rfl
      | getRemark i => exact .inl (getRemark_felt fuel i _ g)
  · obtain ⟨σ', p⟩ := feltPost (C := calmCtx cfg lim) (h.calm hf hc) h.is hg e (.inr he) ht
    exact .inr ⟨σ', p.holds, p.clean he hc⟩

theorem felt_calms {cfg : Cfg} {lim : Lim} {fuel : Nat} (hd : Policy cfg lim) (hf : Fits lim fuel) :
    ∀ (es : List ((Nat → Cfg) × Event)) {st : State}, Sound cfg lim st → (∀ e ∈ es, Suits cfg e.1) →
    (∀ e ∈ es, e.2.Calm) → (∀ e ∈ es, ∀ t ∈ e.2.texts, TextOK lim t) →
    Sound cfg lim (es.foldl (State.felt fuel) st) := by
  intro es
  induction es with
  | nil => exact fun h _ _ _ => h
  | cons e es ih =>
    intro st h hg hc ht
    obtain ⟨g, e⟩ := e
    exact ih (felt_calm hd hf h (hg _ List.mem_cons_self) e (hc _ List.mem_cons_self) (ht _ List.mem_cons_self))
      (fun a ha => hg a (by simp [ha])) (fun a ha => hc a (by simp [ha])) (fun a ha => ht a (by simp [ha]))

theorem felt_storms {cfg : Cfg} {lim : Lim} {fuel : Nat} (hz : cfg.zero = false) (hf : Fits lim fuel) :
    ∀ (es : List ((Nat → Cfg) × Event)) {st : State} {σ : St}, Holds cfg lim st σ → st.log ≠ [] →
    (∀ e ∈ es, Suits cfg e.1) → (∀ e ∈ es, ∀ t ∈ e.2.texts, TextOK lim t) →
    ∃ σ', Holds cfg lim (es.foldl (State.felt fuel) st) σ' ∧
      ∃ l, (es.foldl (State.felt fuel) st).log = st.log ++ l := by
  intro es
  induction es with
  | nil => exact fun h _ _ _ => ⟨_, h, [], by simp⟩
  | cons e es ih =>
    intro st σ h hl hg ht
    obtain ⟨g, e⟩ := e
    obtain ⟨σ1, p⟩ := feltPost (C := stormCtx cfg lim) (h.storm hf (fun h => by rw [hz] at h; cases h) hl) h.is
      (hg _ List.mem_cons_self) e (.inl rfl) (ht _ List.mem_cons_self)
    obtain ⟨l1, hl1⟩ := p.log
    have e1 : (st.felt fuel (g, e)).log = st.log ++ l1 := hl1
    obtain ⟨σ2, h2, l2, hl2⟩ := ih p.holds (by rw [e1]; simp [hl])
      (fun a ha => hg a (by simp [ha])) (fun a ha => ht a (by simp [ha]))
    refine ⟨σ2, h2, l1 ++ l2, ?_⟩
    show (es.foldl (State.felt fuel) (st.felt fuel (g, e))).log = _
    rw [hl2, e1, List.append_assoc]

theorem ended_log (st : State) (c : Call) (out : Out (Option RemE) × World) :
    ∃ l, (st.ended c out).log = st.log ++ l := by
  obtain ⟨o, w⟩ := out
  cases o with
  | ok o =>
    cases o with
    | none => exact ⟨[], by simp [State.ended]⟩
    | some r => exact ⟨_, rfl⟩
  | _ => exact ⟨[], by simp [State.ended]⟩

theorem felts_log (fuel : Nat) : ∀ (es : List ((Nat → Cfg) × Event)) (st : State),
    ∃ l, (es.foldl (State.felt fuel) st).log = st.log ++ l := by
  intro es
  induction es with
  | nil => exact fun st => ⟨[], by simp⟩
  | cons e es ih =>
    intro st
    obtain ⟨g, e⟩ := e
    have h1 : ∃ l, (st.felt fuel (g, e)).log = st.log ++ l := by
      cases e with
      | call c f => exact ended_log st c _
      | crash c f n => exact ⟨[], by simp [State.felt]⟩
      | reopen => exact ⟨[], by simp [State.felt]⟩
    obtain ⟨l1, h1⟩ := h1
    obtain ⟨l2, h2⟩ := ih (st.felt fuel (g, e))
    exact ⟨l1 ++ l2, by rw [List.foldl_cons, h2, h1, List.append_assoc]⟩

theorem moodily_append (cfg : Cfg) (fuel : Nat) (es es' : List ((Nat → Cfg) × Event)) :
    moodily cfg fuel (es ++ es') = es'.foldl (State.felt fuel) (moodily cfg fuel es) := by
  unfold moodily; rw [List.foldl_append]

theorem moods_texts {fuel : Nat} {es : List ((Nat → Cfg) × Event)} (h : Budget fuel (es.map Prod.snd)) :
    ∀ e ∈ es, ∀ t ∈ e.2.texts, TextOK (stdLim fuel) t :=
  fun e he => h.texts e.2 (List.mem_map_of_mem he)

theorem Spec.CalmMoods.sound {cfg fuel es} (h : CalmMoods cfg fuel es) :
    Sound cfg (stdLim fuel) (moodily cfg fuel es) :=
  felt_calms (.inl h.calm.dup) h.calm.budget.fits es (.init cfg _) h.suits
    (fun e he => h.calm.calm e.2 (List.mem_map_of_mem he)) (moods_texts h.calm.budget)

theorem Spec.CalmMoods.holds {cfg fuel es} (h : CalmMoods cfg fuel es) {e} (he : e ∈ (moodily cfg fuel es).log) :
    ∃ σ, Holds cfg (stdLim fuel) (moodily cfg fuel es) σ ∧ Clean σ := h.sound.holds (ne_nil_of_mem he)

theorem Spec.StormyMoods.holds {cfg fuel es es'} (hz : cfg.zero = false) (h : StormyMoods cfg fuel es es') :
    ∃ σ, Holds cfg (stdLim fuel) (moodily cfg fuel (es ++ es')) σ := by
  obtain ⟨σ, hs, hc⟩ := h.start.sound.holds h.log
  obtain ⟨σ', h1, _⟩ := felt_storms hz h.start.calm.budget.fits es' hs h.log h.suits (moods_texts h.budget)
  exact ⟨σ', by rw [moodily_append]; exact h1⟩

/-! ### the lexicon in moody histories -/

theorem WrL.endsM {α : Type} {cfg : Cfg} {lim : Lim} {good : α → St → Prop} {bad} {p : Go α} {σ : St} {w : World}
    {g : Nat → Cfg} (hg : Suits cfg g)
    (hw : σ.Is w) (hfl : σ.flt = false) (h : WrL (calmCtx cfg lim) good bad p σ) :
    ∃ σ', Ends cfg lim σ good bad (p.runs g Go.noFault w) σ' := by
  obtain ⟨σ', h1, ⟨h2, h3⟩, h4⟩ := wp_runs (C := calmCtx cfg lim) rfl hg (.inr rfl) hw h
  have hf : σ'.flt = false := (h4 rfl).trans hfl
  refine ⟨σ', h1, h2, hf, ?_⟩
  change match (p.runs g Go.noFault w).1 with | .ok a => _ | .err _ => _ | .panic => _ | .spin => _ at h3
  generalize (p.runs g Go.noFault w).1 = out at h3
  cases out with
  | ok a => exact h3
  | err e => exact h3.resolve_left (by rw [hf]; simp)
  | panic => exact h3.resolve_left (by rw [hf]; simp)
  | spin => exact h3

/-- a state, seen by a creating call in some mood -/
theorem Lex.readyM {cfg : Cfg} {lim : Lim} {fuel : Nat} (hd : Policy cfg lim) {st : State} {L : Lexicon}
    (h : Lex cfg lim st L) {g : Nat → Cfg} (hg : Suits cfg g) {k : Call} (hk : k.pair st.log ≠ none) :
    ∃ σ st' g', Suits cfg g' ∧ Holds cfg lim st' σ ∧ Clean σ ∧ LexRel σ L ∧ st'.log = st.log ∧
      σ.T 0 = st.world.store.targets 0 ∧
      (k.prog fuel st.log).runs g Go.noFault st.world = (k.prog fuel st'.log).runs g' Go.noFault st'.world ∧
      st.felt fuel (g, .call k Go.noFault) = st'.felt fuel (g', .call k Go.noFault) := by
  rcases h with ⟨h, rfl⟩ | ⟨σ, h, hc, hl⟩
  · unfold Blank at h
    subst h
    refine ⟨_, State.roots cfg, fun n => g (n + 15), fun n => hg (n + 15), roots_holds hd, rootSt_clean cfg,
      rootSt_lex cfg, rfl, rfl, ?_⟩
    cases k with
    | createStory o p => exact ⟨createStory_runs cfg fuel o p g, felt_blank cfg fuel o p g⟩
    | _ => exact absurd rfl hk
  · exact ⟨σ, st, g, hg, h, hc, hl, rfl, h.T0, rfl, rfl⟩

/-- what a creating call does, in some mood: its verdict, its lexicon and the links of node 0 -/
theorem Lex.createM {cfg : Cfg} {lim : Lim} {fuel : Nat} (hd : Policy cfg lim) (hf : Fits lim fuel) {st : State}
    {L : Lexicon} (h : Lex cfg lim st L) {g : Nat → Cfg} (hg : Suits cfg g) {m : Machine}
    (hl : cfg.zero = true → m.links = (st.world.store.targets 0).length)
    {k : Call} (ht : ∀ t ∈ k.texts, TextOK lim t) {o p : GoStr} (hp : k.pair st.log = some (o, p)) {os ps : List (List Char)}
    (ho : splitSpace o = os.map strOf) (hps : splitSpace p = ps.map strOf) :
    ((L.pair os ps).2.unless (m.refuses cfg.zero k)).Is ((k.prog fuel st.log).runs g Go.noFault st.world).1 ∧
    Lex cfg lim (st.felt fuel (g, .call k Go.noFault)) (L.pair os ps).1 ∧
    (cfg.zero = true → ((((k.prog fuel st.log).runs g Go.noFault st.world).2.store.targets 0).length =
      if (L.pair os ps).2.unless (m.refuses cfg.zero k) = .created then k.link m.links else m.links)) := by
  obtain ⟨σ, st', g', hg', hs, hc, hL, hlog, h0, hx, hfelt⟩ := h.readyM (fuel := fuel) hd hg (k := k) (by rw [hp]; simp)
  rw [hx, hfelt]
  rw [← hlog] at hp
  obtain ⟨σ', he⟩ := WrL.endsM hg' hs.is hs.flt (createWp (hs.calm hf hc) ht hp)
  have hout := he.out
  have refuse : extraErr cfg σ k ↔ m.refuses cfg.zero k = true := by
    cases k with
    | addFact i o p => cases hz : cfg.zero <;> simp [extraErr, Machine.refuses, hz]
    | addChild i o p =>
      cases hz : cfg.zero with
      | false => simp [extraErr, Machine.refuses, hz]
      | true => simp [extraErr, Machine.refuses, hz, h0, hl hz]
    | _ => simp [extraErr, Machine.refuses]
  have hT : ((k.prog fuel st'.log).runs g' Go.noFault st'.world).2.store.targets 0 = σ'.T 0 := by
    rw [← he.is.store]; rfl
  rw [hT]
  refine ⟨?_, ?_, ?_⟩
  · generalize ((k.prog fuel st'.log).runs g' Go.noFault st'.world).1 = out at hout
    cases out with
    | ok x =>
      obtain ⟨r, rfl, _, _, _, _, hlk, hps'⟩ := hout
      rw [(hps' he.flt L os ps ho hps hL).1]
      simp only [Spec.Verdict.unless]
      rw [if_neg (fun h => hlk.allowed (refuse.2 h))]
      exact ⟨r, rfl⟩
    | err e =>
      rcases hout.1.2 with h1 | ⟨_, h2, h1⟩
      · rw [(h1 he.flt L os ps ho hps hL).1]
        exact ⟨e, rfl⟩
      · rw [(h1 he.flt L os ps ho hps hL).1]
        rcases h2 with h2 | h2
        · exact absurd hc h2.1
        · simp only [Spec.Verdict.unless]
          rw [if_pos (refuse.1 h2)]
          exact ⟨e, rfl⟩
    | panic =>
      rcases hout.1.2 with h1 | ⟨h3, h2, h1⟩
      · rw [(h1 he.flt L os ps ho hps hL).1]; rfl
      · cases h3
    | spin => exact hout.elim
  · obtain ⟨σ2, ev, hx⟩ := feltLexed (C := calmCtx cfg lim) (hs.calm hf hc) hs.is hg' k Go.noFault (.inr rfl) ht
    have hx := hx rfl
    unfold Lexed at hx
    rw [hp] at hx
    obtain ⟨v, hv⟩ := hx
    exact .inr ⟨σ2, ev.holds, ev.clean rfl hc, (hv ev.holds.flt L os ps ho hps hL).2⟩
  · intro hz
    rw [hl hz, ← h0]
    generalize ((k.prog fuel st'.log).runs g' Go.noFault st'.world).1 = out at hout
    cases out with
    | ok x =>
      obtain ⟨r, rfl, _, _, _, _, hlk, hps'⟩ := hout
      rw [(hps' he.flt L os ps ho hps hL).1]
      have e1 : Verdict.created.unless (m.refuses cfg.zero k) = .created := by
        simp only [Spec.Verdict.unless]
        rw [if_neg (fun h => hlk.allowed (refuse.2 h))]
      rw [if_pos e1]
      exact hlk.length hz
    | err e =>
      rw [hout.1.1 hz, if_neg]
      rcases hout.1.2 with h1 | ⟨_, h2, h1⟩
      · rw [(h1 he.flt L os ps ho hps hL).1]; exact fun h => by cases h
      · rw [(h1 he.flt L os ps ho hps hL).1]
        rcases h2 with h2 | h2
        · exact absurd hc h2.1
        · simp only [Spec.Verdict.unless]
          rw [if_pos (refuse.1 h2)]
          exact fun h => by cases h
    | panic =>
      rw [hout.1.1 hz, if_neg]
      rcases hout.1.2 with h1 | ⟨h3, h2, h1⟩
      · rw [(h1 he.flt L os ps ho hps hL).1]; exact fun h => by cases h
      · cases h3
    | spin => exact hout.elim

/-- calls that are to make no remark change nothing that matters -/
theorem Lex.quietM {cfg : Cfg} {lim : Lim} {fuel : Nat} (hf : Fits lim fuel) {st : State}
    {L : Lexicon} (h : Lex cfg lim st L) {g : Nat → Cfg} (hg : Suits cfg g) {k : Call}
    (ht : ∀ t ∈ k.texts, TextOK lim t) (hp : k.pair st.log = none) :
    Lex cfg lim (st.felt fuel (g, .call k Go.noFault)) L ∧
    (st.felt fuel (g, .call k Go.noFault)).log = st.log ∧
    (st.felt fuel (g, .call k Go.noFault)).world.store = st.world.store := by
  rcases h with ⟨h, rfl⟩ | ⟨σ, hs, hc, hL⟩
  · have : st.felt fuel (g, .call k Go.noFault) = st := by
      unfold Blank at h
      subst h
      cases k with
      | createStory => cases hp
      | addRemark => rfl
      | addFact => rfl
      | addChild => rfl
      | query => rfl
      | getRemark i => exact getRemark_felt fuel i _ g
    rw [this]
    exact ⟨.inl ⟨h, rfl⟩, rfl, rfl⟩
  · obtain ⟨σ', ev, hx⟩ := feltLexed (C := calmCtx cfg lim) (hs.calm hf hc) hs.is hg k Go.noFault (.inr rfl) ht
    have hx := hx rfl
    unfold Lexed at hx
    rw [hp] at hx
    refine ⟨.inr ⟨σ', ev.holds, ev.clean rfl hc, hL.same hs.inv ev.holds.inv hx⟩, ?_, ?_⟩
    · have none_out : ∀ out : Out (Option RemE) × World, (∀ r, out.1 ≠ .ok (some r)) → (st.ended k out).log = st.log := by
        intro out h
        obtain ⟨o, w⟩ := out
        cases o with
        | ok x => cases x with
          | none => rfl
          | some r => exact absurd rfl (h r)
        | _ => rfl
      have absent : (k.prog fuel st.log = pure none) → (st.felt fuel (g, .call k Go.noFault)).log = st.log := by
        intro h
        show (st.ended k ((k.prog fuel st.log).runs g Go.noFault st.world)).log = _
        rw [h]; rfl
      cases k with
      | createStory => cases hp
      | addRemark i p =>
        have : st.log[i]? = none := Option.map_eq_none_iff.1 hp
        exact absent (by simp only [Call.prog, this])
      | addFact i o p =>
        have : st.log[i]? = none := Option.map_eq_none_iff.1 hp
        exact absent (by simp only [Call.prog, this])
      | addChild i o p =>
        have : st.log[i]? = none := Option.map_eq_none_iff.1 hp
        exact absent (by simp only [Call.prog, this])
      | query i q =>
        cases hl : st.log[i]? with
        | none => exact absent (by simp only [Call.prog, hl])
        | some e =>
          refine none_out _ ?_
          simp only [Call.prog, hl]
          exact (runs_wrap_none _ g Go.noFault st.world).2
      | getRemark i => exact none_out _ (runs_wrap_none _ g Go.noFault st.world).2
    · have a : σ'.store = (st.felt fuel (g, .call k Go.noFault)).world.store := ev.holds.is.store
      rw [← a, hx.store, hs.is.store]

theorem Lex.reopenM {cfg : Cfg} {lim : Lim} {fuel : Nat} {st : State} {L : Lexicon} (h : Lex cfg lim st L)
    (g : Nat → Cfg) : Lex cfg lim (st.felt fuel (g, .reopen)) L := h.reopen (fuel := fuel)

theorem ended_some {st : State} {k : Call} {g : Nat → Cfg} {fuel : Nat} {r : RemE}
    (h : ((k.prog fuel st.log).runs g Go.noFault st.world).1 = .ok (some r)) :
    (st.felt fuel (g, .call k Go.noFault)).log = st.log ++ (k.entry st.log r).toList := by
  show (st.ended k ((k.prog fuel st.log).runs g Go.noFault st.world)).log = _
  generalize (k.prog fuel st.log).runs g Go.noFault st.world = out at h
  obtain ⟨o, w⟩ := out
  simp only at h
  subst h
  rfl

theorem ended_none {st : State} {k : Call} {g : Nat → Cfg} {fuel : Nat}
    (h : ∀ r, ((k.prog fuel st.log).runs g Go.noFault st.world).1 ≠ .ok (some r)) :
    (st.felt fuel (g, .call k Go.noFault)).log = st.log := by
  show (st.ended k ((k.prog fuel st.log).runs g Go.noFault st.world)).log = _
  generalize (k.prog fuel st.log).runs g Go.noFault st.world = out at h
  obtain ⟨o, w⟩ := out
  cases o with
  | ok x => cases x with
    | none => rfl
    | some r => exact absurd rfl (h r)
  | _ => rfl

theorem ended_world {st : State} {k : Call} {g : Nat → Cfg} {fuel : Nat} :
    (st.felt fuel (g, .call k Go.noFault)).world = ((k.prog fuel st.log).runs g Go.noFault st.world).2 := by
  show (st.ended k ((k.prog fuel st.log).runs g Go.noFault st.world)).world = _
  generalize (k.prog fuel st.log).runs g Go.noFault st.world = out
  obtain ⟨o, w⟩ := out
  cases o with
  | ok x => cases x <;> rfl
  | _ => rfl

theorem entry_some {log : List Entry} {k : Call} {r : RemE} (h : k.pair log ≠ none) : ∃ e, k.entry log r = some e := by
  cases k with
  | createStory => exact ⟨_, rfl⟩
  | addRemark i p =>
    cases hl : log[i]? with
    | none => exact absurd (by simp [Call.pair, hl]) h
    | some e => exact ⟨_, by simp only [Call.entry, hl]; rfl⟩
  | addFact => exact ⟨_, rfl⟩
  | addChild => exact ⟨_, rfl⟩
  | query => exact absurd rfl h
  | getRemark => exact absurd rfl h

/-- one step of scribe and code, in some mood -/
theorem Agree.callM {cfg : Cfg} {lim : Lim} {fuel : Nat} (hd : Policy cfg lim) (hf : Fits lim fuel) {st : State}
    {s : Scribe} (h : Agree cfg lim st s) {g : Nat → Cfg} (hg : Suits cfg g) {c : Cmd} {k : Call}
    (hk : c.call = some k) (ht : ∀ t ∈ k.texts, TextOK lim t) :
    Agree cfg lim (st.felt fuel (g, .call k Go.noFault)) (s.step cfg.zero c) ∧
    (∀ v, (s.judge cfg.zero c).map Prod.snd = some v → v.Is ((k.prog fuel st.log).runs g Go.noFault st.world).1) := by
  have hp := scribe_pair h.notes hk
  cases hn : s.note c with
  | none =>
    rw [hn] at hp
    have hj : s.judge cfg.zero c = none := by unfold Scribe.judge; rw [hn]; rfl
    have hs : s.step cfg.zero c = s := by unfold Scribe.step; rw [hj]
    obtain ⟨q1, q2, q3⟩ := h.lex.quietM hf hg ht hp
    rw [hs, hj]
    exact ⟨⟨by rw [q2]; exact h.notes, fun hz => by rw [q3]; exact h.links hz, q1⟩, fun v hv => by cases hv⟩
  | some n =>
    rw [hn] at hp
    have hj := judge_eq (zero := cfg.zero) hn
    obtain ⟨hv, hlex, hT⟩ := h.lex.createM hd hf hg (m := s.machine) h.links ht hp (split_utf8 _) (split_utf8 _)
    rw [← scribe_refuses hk] at hv hT
    generalize (s.lex.pair (words n.object) (words n.property)).2.unless (s.refuses cfg.zero c) = v at hj hv hT
    refine ⟨?_, fun v' hv' => by rw [hj] at hv'; cases hv'; exact hv⟩
    by_cases hc : v = .created
    · subst hc
      obtain ⟨r, hr⟩ := hv
      obtain ⟨e, he⟩ := entry_some (r := r) (k := k) (log := st.log) (by rw [hp]; simp)
      have hs : s.step cfg.zero c = ⟨s.notes ++ [n], c.link s.links, (s.lex.pair (words n.object) (words n.property)).1⟩ := by
        unfold Scribe.step
        rw [hj, hn]
        rfl
      rw [hs]
      refine ⟨?_, fun hz => ?_, hlex⟩
      · rw [ended_some hr, he]
        simp [h.notes, scribe_note h.notes hk hn he]
      · rw [ended_world, hT hz, if_pos rfl, scribe_link hk]; rfl
    · have hno : ∀ r, ((k.prog fuel st.log).runs g Go.noFault st.world).1 ≠ .ok (some r) :=
        fun r hr => hc ((Verdict.ok_iff hv).2 ⟨r, hr⟩)
      have hs : s.step cfg.zero c = { s with lex := (s.lex.pair (words n.object) (words n.property)).1 } := by
        unfold Scribe.step
        rw [hj]
        cases v with
        | created => exact absurd rfl hc
        | error => rfl
        | panic => rfl
      rw [hs]
      refine ⟨by rw [ended_none hno]; exact h.notes, fun hz => ?_, hlex⟩
      rw [ended_world, hT hz, if_neg hc]; rfl

theorem Agree.eventM {cfg : Cfg} {lim : Lim} {fuel : Nat} (hd : Policy cfg lim) (hf : Fits lim fuel) {st : State}
    {s : Scribe} (h : Agree cfg lim st s) {g : Nat → Cfg} (hg : Suits cfg g) (c : Cmd)
    (ht : ∀ t ∈ c.event.texts, TextOK lim t) :
    Agree cfg lim (st.felt fuel (g, c.event)) (s.step cfg.zero c) := by
  unfold Cmd.event at ht ⊢
  cases hk : c.call with
  | some k =>
    rw [hk] at ht
    exact (h.callM hd hf hg hk ht).1
  | none =>
    have : c = .reopen := by cases c <;> first | rfl | cases hk
    subst this
    exact ⟨h.notes, h.links, h.lex.reopenM g⟩

/-- scribe and code run in step, whatever the moods -/
theorem scribe_moody {cfg : Cfg} {fuel : Nat} {es : List ((Nat → Cfg) × Cmd)}
    (h : CalmMoods cfg fuel (es.map fun e => (e.1, e.2.event))) :
    Agree cfg (stdLim fuel) (moodily cfg fuel (es.map fun e => (e.1, e.2.event))) (scribe cfg.zero (es.map Prod.snd)) := by
  have key : ∀ (es : List ((Nat → Cfg) × Cmd)) (st : State) (s : Scribe),
      (∀ e ∈ es, Suits cfg e.1 ∧ ∀ t ∈ e.2.event.texts, t.length < fuel) → Agree cfg (stdLim fuel) st s →
      Agree cfg (stdLim fuel) ((es.map fun e => (e.1, e.2.event)).foldl (State.felt fuel) st)
        ((es.map Prod.snd).foldl (Scribe.step cfg.zero) s) := by
    intro es
    induction es with
    | nil => exact fun _ _ _ h => h
    | cons e es ih =>
      intro st s ht hs
      obtain ⟨g, c⟩ := e
      obtain ⟨h1, h2⟩ := ht _ List.mem_cons_self
      exact ih _ _ (fun c hc => ht c (by simp [hc]))
        (hs.eventM (.inl h.calm.dup) h.calm.budget.fits h1 c fun t h' => TextOK.std (h2 t h'))
  refine key es _ _ (fun e he => ⟨h.suits _ (List.mem_map_of_mem he), ?_⟩) ⟨rfl, fun _ => rfl, .inl ⟨rfl, rfl⟩⟩
  refine h.calm.budget.2 e.2.event ?_
  rw [List.map_map]
  exact List.mem_map.2 ⟨e, he, rfl⟩

end Semnet
