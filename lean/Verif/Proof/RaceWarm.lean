import Verif.Proof.RaceLive
import Verif.Spec.MoodyWarm
/-
  Several processes writing at the same time, none of which needs new text: looking up a text that is stored.
-/
set_option linter.unusedSimpArgs false
namespace Semnet.Race
open Class Spec

/-! ### looking -/

/-- `n` calls in one mood, then another -/
def splice (g : Nat → Cfg) (n : Nat) (g' : Nat → Cfg) : Nat → Cfg := fun i => if i < n then g i else g' (i - n)

theorem splice_zero (g g' : Nat → Cfg) : splice g 0 g' = g' := by funext i; simp [splice]
theorem splice_succ (g g' : Nat → Cfg) (n : Nat) :
    (fun i => splice g (n + 1) g' (i + 1)) = splice (fun i => g (i + 1)) n g' := by
  funext i
  simp only [splice, Nat.add_lt_add_iff_right, Nat.add_sub_add_right]

section
variable {α β : Type} {s : Store}

theorem looks_const {cfg : Cfg} : ∀ (p : Go α) (m : Layer), Go.looks (fun _ => cfg) p s m = Go.look cfg p s m := by
  intro p
  induction p with
  | ok a => intro m; rfl
  | err e => intro m; rfl
  | panic => intro m; rfl
  | spin => intro m; rfl
  | op o k ih =>
    intro m
    cases o <;> first | exact ih _ m | rfl
  | getMem k ih => intro m; exact ih m m
  | setMem m' k ih => intro m; exact ih _

theorem looks_bind_none {f : α → Go β} : ∀ {p : Go α} {g : Nat → Cfg} {m : Layer}, Go.looks g p s m = none →
    Go.looks g (p >>= f) s m = none := by
  intro p
  show ∀ {g : Nat → Cfg} {m : Layer}, _ → Go.looks g (p.bind f) s m = none
  induction p with
  | ok a => intro g m h; cases h
  | err e => intro g m h; cases h
  | panic => intro g m h; cases h
  | spin => intro g m h; cases h
  | op o k ih =>
    intro g m h
    cases o <;> first | exact ih _ h | rfl
  | getMem k ih => intro g m h; exact ih m h
  | setMem m' k ih => intro g m h; exact ih h

theorem looks_bind_ok {f : α → Go β} : ∀ {p : Go α} {g : Nat → Cfg} {m : Layer} {a m1}, Go.looks g p s m = some (.ok a, m1) →
    ∃ n, ∀ g', Go.looks (splice g n g') (p >>= f) s m = Go.looks g' (f a) s m1 := by
  intro p
  show ∀ {g : Nat → Cfg} {m : Layer} {a m1}, _ → ∃ n, ∀ g', Go.looks (splice g n g') (p.bind f) s m = _
  induction p with
  | ok a => intro g m a m1 h; cases h; exact ⟨0, fun g' => by rw [splice_zero]; rfl⟩
  | err e => intro g m a m1 h; cases h
  | panic => intro g m a m1 h; cases h
  | spin => intro g m a m1 h; cases h
  | op o k ih =>
    intro g m a m1 h
    have key : ∀ r, Go.looks (fun n => g (n + 1)) (k r) s m = some (.ok a, m1) →
        ∃ n, ∀ g', Go.looks (fun i => splice g (n + 1) g' (i + 1)) ((k r).bind f) s m = Go.looks g' (f a) s m1 := by
      intro r hr
      obtain ⟨n, hn⟩ := ih _ hr
      exact ⟨n, fun g' => by rw [splice_succ]; exact hn g'⟩
    have hz : ∀ n g', splice g (n + 1) g' 0 = g 0 := fun n g' => by simp [splice]
    cases o <;> first | (cases h; done) | skip
    all_goals
      obtain ⟨n, hn⟩ := key _ h
      refine ⟨n + 1, fun g' => ?_⟩
      simp only [Go.bind, Go.looks, hz]
      exact hn g'
  | getMem k ih => intro g m a m1 h; exact ih m h
  | setMem m' k ih => intro g m a m1 h; exact ih h

theorem looks_bind_err {f : α → Go β} : ∀ {p : Go α} {g : Nat → Cfg} {m : Layer} {e m1}, Go.looks g p s m = some (.err e, m1) →
    Go.looks g (p >>= f) s m = some (.err e, m1) := by
  intro p
  show ∀ {g : Nat → Cfg} {m : Layer} {e m1}, _ → Go.looks g (p.bind f) s m = _
  induction p with
  | ok a => intro g m e m1 h; cases h
  | err e => intro g m e m1 h; cases h; rfl
  | panic => intro g m e m1 h; cases h
  | spin => intro g m e m1 h; cases h
  | op o k ih =>
    intro g m e m1 h
    cases o <;> first | exact ih _ h | cases h
  | getMem k ih => intro g m e m1 h; exact ih m h
  | setMem m' k ih => intro g m e m1 h; exact ih h

theorem looks_bind_panic {f : α → Go β} : ∀ {p : Go α} {g : Nat → Cfg} {m : Layer} {m1}, Go.looks g p s m = some (.panic, m1) →
    Go.looks g (p >>= f) s m = some (.panic, m1) := by
  intro p
  show ∀ {g : Nat → Cfg} {m : Layer} {m1}, _ → Go.looks g (p.bind f) s m = _
  induction p with
  | ok a => intro g m m1 h; cases h
  | err e => intro g m m1 h; cases h
  | panic => intro g m m1 h; cases h; rfl
  | spin => intro g m m1 h; cases h
  | op o k ih =>
    intro g m m1 h
    cases o <;> first | exact ih _ h | cases h
  | getMem k ih => intro g m m1 h; exact ih m h
  | setMem m' k ih => intro g m m1 h; exact ih h

theorem looks_bind_spin {f : α → Go β} : ∀ {p : Go α} {g : Nat → Cfg} {m : Layer} {m1}, Go.looks g p s m = some (.spin, m1) →
    Go.looks g (p >>= f) s m = some (.spin, m1) := by
  intro p
  show ∀ {g : Nat → Cfg} {m : Layer} {m1}, _ → Go.looks g (p.bind f) s m = _
  induction p with
  | ok a => intro g m m1 h; cases h
  | err e => intro g m m1 h; cases h
  | panic => intro g m m1 h; cases h
  | spin => intro g m m1 h; cases h; rfl
  | op o k ih =>
    intro g m m1 h
    cases o <;> first | exact ih _ h | cases h
  | getMem k ih => intro g m m1 h; exact ih m h
  | setMem m' k ih => intro g m m1 h; exact ih h

theorem looks_attempt : ∀ (p : Go α) (g : Nat → Cfg) (m : Layer), Go.looks g p.attempt s m =
    match Go.looks g p s m with
    | some (.ok a, m') => some (.ok (.ok a), m')
    | some (.err e, m') => some (.ok (.error e), m')
    | some (.panic, m') => some (.panic, m')
    | some (.spin, m') => some (.spin, m')
    | none => none := by
  intro p
  induction p with
  | ok a => intro g m; rfl
  | err e => intro g m; rfl
  | panic => intro g m; rfl
  | spin => intro g m; rfl
  | op o k ih =>
    intro g m
    cases o <;> first | exact ih _ _ m | rfl
  | getMem k ih => intro g m; exact ih m g m
  | setMem m' k ih => intro g m; exact ih g _

theorem looks_runs : ∀ (p : Go α) (g : Nat → Cfg) (m : Layer) {o m'}, Go.looks g p s m = some (o, m') →
    p.runs g Go.noFault ⟨s, m⟩ = (o, ⟨s, m'⟩) := by
  intro p
  induction p with
  | ok a => intro g m o m' h; cases h; rfl
  | err e => intro g m o m' h; cases h; rfl
  | panic => intro g m o m' h; cases h; rfl
  | spin => intro g m o m' h; cases h; rfl
  | op o k ih =>
    intro g m o' m' h
    cases o <;> first | exact ih _ _ m h | cases h
  | getMem k ih => intro g m o m' h; exact ih m g m h
  | setMem m1 k ih => intro g m o m' h; exact ih g _ h

end

/-- every call is answered by a storage that may answer -/
def RC.Mood (C : RC) (g : Nat → Cfg) : Prop := ∀ n, C.Like (g n)

theorem RC.mood (C : RC) {c : Cfg} (h : C.Like c) : C.Mood fun _ => c := fun _ => h

theorem RC.Mood.splice {C : RC} {g g' : Nat → Cfg} (h : C.Mood g) (h' : C.Mood g') (n : Nat) : C.Mood (splice g n g') := by
  intro i
  unfold Race.splice
  split
  · exact h _
  · exact h' _

/-- what is promised of a process, at the end of its run when it is left alone -/
theorem rwp_run {α : Type} {C : RC} {Q : Out α → Rt → Prop} (hh : C.hazy = false) :
    ∀ {p : Go α} {g : Nat → Cfg} {κ : Know} {σ : Rt} {m : Layer}, C.Mood g → C.I σ → MemAt C.bs κ m → rwpk C Q p κ σ →
      MemOK C.bs (p.runs g Go.noFault ⟨σ.store, m⟩).2.mem ∧
      ∃ σ', C.I σ' ∧ Q (p.runs g Go.noFault ⟨σ.store, m⟩).1 σ' ∧ σ'.store = (p.runs g Go.noFault ⟨σ.store, m⟩).2.store := by
  intro p
  induction p with
  | ok a => exact fun _ hi hm h => ⟨hm.ok, _, hi, h, rfl⟩
  | err e => exact fun _ hi hm h => ⟨hm.ok, _, hi, h, rfl⟩
  | panic => exact fun _ hi hm h => ⟨hm.ok, _, hi, h, rfl⟩
  | spin => exact fun _ hi hm h => ⟨hm.ok, _, hi, h, rfl⟩
  | op o k ih =>
    intro g κ σ m hg hi hm h
    obtain ⟨⟨t, b, hs, h1⟩, _, _⟩ := h _ (hg 0) _ (Env.refl hi)
    exact ih _ (fun n => hg (n + 1)) hs.inv hm h1
  | getMem k ih => intro g κ σ m hg hi hm h; exact ih _ hg hi hm.learn (h m (.inr ⟨hh, hm⟩))
  | setMem u k ih => intro g κ σ m hg hi hm ⟨κ', h1, h2⟩; exact ih hg hi (hm.assign h1).1 h2

/-! ### the same result as in the beginning -/

/-- Whatever the process finds in the race, as long as no text is added, it would find by looking at the storage of `σ0`,
  in some mood; unless it would come to a write there. -/
def Same {α : Type} (C : RC) (σ0 : Rt) (good : α → Prop) (p : Go α) : Prop :=
  ∀ m, MemOK C.bs m → (∀ g, C.Mood g → Go.looks g p σ0.store m ≠ none) → ∀ σ, C.I σ →
    rwp C (fun o σ' => Later C σ σ' ∧ ∃ g m', C.Mood g ∧ Go.looks g p σ0.store m = some (o, m') ∧ MemOK C.bs m' ∧
      ∀ a, o = .ok a → good a) p σ

theorem Same.ret {α : Type} {C : RC} {σ0 : Rt} {good : α → Prop} {a : α} (h : good a) : Same C σ0 good (pure a) :=
  fun m hm _ σ hi _ => ⟨.refl hi, _, m, C.mood C.like, rfl, hm, fun a h' => (by cases h'; exact h)⟩

theorem Same.err {α : Type} {C : RC} {σ0 : Rt} {good : α → Prop} {e : Err} : Same C σ0 good (Go.err e) :=
  fun m hm _ σ hi _ => ⟨.refl hi, _, m, C.mood C.like, rfl, hm, fun a h' => (by cases h')⟩

theorem Same.panic {α : Type} {C : RC} {σ0 : Rt} {good : α → Prop} : Same C σ0 good Go.panic :=
  fun m hm _ σ hi _ => ⟨.refl hi, _, m, C.mood C.like, rfl, hm, fun a h' => (by cases h')⟩

theorem Same.cons {α : Type} {C : RC} {σ0 : Rt} {good good' : α → Prop} {p : Go α} (h : Same C σ0 good p)
    (hg : ∀ a, good a → good' a) : Same C σ0 good' p := by
  intro m hm hn σ hi
  refine rwp_mono ?_ (h m hm hn σ hi)
  intro o σ' ⟨l, g, m', h1, h2, h3, h4⟩
  exact ⟨l, g, m', h1, h2, h3, fun a ha => hg a (h4 a ha)⟩

theorem Same.bind {α β : Type} {C : RC} {σ0 : Rt} {good : α → Prop} {good' : β → Prop} {p : Go α} {f : α → Go β}
    (h : Same C σ0 good p) (hf : ∀ a, good a → Same C σ0 good' (f a)) : Same C σ0 good' (p >>= f) := by
  intro m hm hn σ hi
  refine rwp_bind (rwp_mono ?_ (h m hm (fun g hg e => hn g hg (looks_bind_none e)) σ hi))
  intro o σ1 ⟨l, g, m1, hg, hl, hm1, hgood⟩
  cases o with
  | ok a =>
    obtain ⟨n, hs⟩ := looks_bind_ok (f := f) hl
    refine rwp_mono ?_ (hf a (hgood a rfl) m1 hm1 (fun g' hg' e => hn _ (hg.splice hg' n) (by rw [hs]; exact e)) σ1 l.inv)
    intro o2 σ2 ⟨l2, g2, m2, hg2, hl2, hm2, hgood2⟩
    exact ⟨l.trans l2, _, m2, hg.splice hg2 n, by rw [hs]; exact hl2, hm2, hgood2⟩
  | err e => exact ⟨l, g, m1, hg, looks_bind_err hl, hm1, fun a ha => (by cases ha)⟩
  | panic => exact ⟨l, g, m1, hg, looks_bind_panic hl, hm1, fun a ha => (by cases ha)⟩
  | spin => exact ⟨l, g, m1, hg, looks_bind_spin hl, hm1, fun a ha => (by cases ha)⟩

theorem Same.attempt {α : Type} {C : RC} {σ0 : Rt} {good : α → Prop} {p : Go α} (h : Same C σ0 good p) :
    Same C σ0 (fun (r : Except Err α) => ∀ a, r = .ok a → good a) p.attempt := by
  intro m hm hn σ hi
  refine rwp_attempt (rwp_mono ?_ (h m hm (fun g hg e => hn g hg (by rw [looks_attempt, e])) σ hi))
  intro o σ1 ⟨l, g, m1, hg, hl, hm1, hgood⟩
  cases o with
  | ok a => exact ⟨l, g, m1, hg, by rw [looks_attempt, hl], hm1, fun r hr => (by cases hr; intro a ha; cases ha; exact hgood _ rfl)⟩
  | err e => exact ⟨l, g, m1, hg, by rw [looks_attempt, hl], hm1, fun r hr => (by cases hr; intro a ha; cases ha)⟩
  | panic => exact ⟨l, g, m1, hg, by rw [looks_attempt, hl], hm1, fun r hr => (by cases hr)⟩
  | spin => exact ⟨l, g, m1, hg, by rw [looks_attempt, hl], hm1, fun r hr => (by cases hr)⟩

/-- a program that comes to a write -/
theorem Same.write {α : Type} {C : RC} {σ0 : Rt} {good : α → Prop} {p : Go α}
    (h : ∀ g m, Go.looks g p σ0.store m = none) : Same C σ0 good p :=
  fun m _ hn _ _ => absurd (h _ m) (hn _ (C.mood C.like))

theorem Same.createNode {α : Type} {C : RC} {σ0 : Rt} {good : α → Prop} {k : Nat} {f : Nat → Go α} :
    Same C σ0 good (Class.createNode k >>= f) := Same.write fun _ _ => rfl

/-- the circumstances; every answer of a storage that may answer could be given in the beginning, by one that may answer -/
structure Warm (C : RC) (σ0 : Rt) : Prop where
  tot : C.tot = true
  fz : C.fz = some σ0
  inv : C.I σ0
  ord : ∀ c, C.Like c → ∀ s, ∃ c', C.Like c' ∧ ∀ o l, c'.ord σ0.store o l = c.ord s o l

theorem Warm.frozen {C : RC} {σ0 σ : Rt} (h : Warm C σ0) (hi : C.I σ) : Frozen σ0 σ := hi.frz σ0 h.fz

/-- a program that has one possible result -/
theorem Same.sure {α : Type} {C : RC} {σ0 : Rt} (w : Warm C σ0) {p : Go α} {v : α}
    (h : ∀ σ, C.I σ → RMono σ0 σ → Does C (fun a _ => a = v) p σ) : Same C σ0 (fun a => a = v) p := by
  intro m hm hn σ hi
  have hd : ∀ σ, C.I σ → RMono σ0 σ → rwp C (fun o' σ' => Later C σ σ' ∧ o' = .ok v) p σ := by
    intro σ hi m
    refine rwp_mono ?_ (h σ hi m)
    intro o' σ' ⟨l, h'⟩
    refine ⟨l, ?_⟩
    cases o' with
    | ok a => rw [show a = v from h']
    | spin => exact h'.elim
    | _ => exact absurd h' (by rw [w.tot]; simp)
  cases hl : Go.looks (fun _ => C.cfg) p σ0.store m with
  | none => exact absurd hl (hn _ (C.mood C.like))
  | some r =>
    obtain ⟨o, m'⟩ := r
    obtain ⟨h1, σ', _, h2, _⟩ := rwp_run (RC.tot_crisp w.tot) (C.mood C.like) w.inv hm.at (hd σ0 w.inv (.refl σ0) .bot)
    rw [looks_runs p _ m hl] at h1 h2
    have e : o = .ok v := h2.2
    subst e
    refine rwp_mono ?_ (hd σ hi (w.frozen hi).mono)
    intro o' σ1 ⟨l, e⟩
    subst e
    exact ⟨l, _, m', C.mood C.like, hl, h1, fun a ha => (by cases ha; rfl)⟩

theorem Same.read {C : RC} {σ0 : Rt} (w : Warm C σ0) {o : Op} (hro : o.isRead = true) {good : o.Res → Prop}
    (h : ∀ σ, C.I σ → ∀ c, C.Like c → ∃ c', C.Like c' ∧ (σ0.store.step c' o).1 = (σ.store.step c o).1)
    (hg : ∀ c a, (σ0.store.step c o).1 = .ok a → good a) : Same C σ0 good (Go.call o) := by
  have hl0 : ∀ g m, Go.looks g (Go.call o) σ0.store m =
      some (match (σ0.store.step (g 0) o).1 with | .ok a => .ok a | .error e => .err e, m) := by
    intro g m
    cases o <;> simp [Op.isRead] at hro <;> simp only [Go.call, Go.looks] <;> split <;> rename_i he <;> rw [he] <;> rfl
  intro m hm _ σ hi κ c hc σ1 he
  have e1 : σ1.after c o σ1.tag σ1.own = σ1 := by simp only [Rt.after, isRead_step hro]
  obtain ⟨c', hc', e'⟩ := h σ1 he.inv c hc
  refine ⟨⟨σ1.tag, σ1.own, ?_, ?_⟩, fun hF => ?_, fun hF => ?_⟩
  · rw [e1]; exact .refl he.inv
  · rw [e1]
    have hl1 := hl0 (fun _ => c') m
    rw [e'] at hl1
    cases hr : (σ1.store.step c o).1 with
    | ok a =>
      rw [hr] at hl1 e'
      exact ⟨he.toLater, _, m, C.mood hc', hl1, hm, fun b hb => (by cases hb; exact hg _ _ e')⟩
    | error e =>
      rw [hr] at hl1
      exact ⟨he.toLater, _, m, C.mood hc', hl1, hm, fun b hb => (by cases hb)⟩
  · rw [w.tot] at hF; cases hF
  · rw [w.tot] at hF; cases hF

theorem Warm.live {C : RC} {σ0 σ : Rt} (w : Warm C σ0) (hi : C.I σ) {x : Nat} (hx : σ0.tag x ≠ .none) :
    σ.store.live x = true := (hi.live x).2 (by rw [(w.frozen hi).mono.tag x hx]; exact hx)

theorem ftag_ne {t : Tag} (h : ftag t = true) : t ≠ .none := by
  intro e; rw [e] at h; cases h

theorem Same.targets {C : RC} {σ0 : Rt} (w : Warm C σ0) {x : Nat} {t : Tag} (ht : σ0.tag x = t) (hx : ftag t = true) :
    Same C σ0 (fun l => ∀ y ∈ l, (x, y) ∈ σ0.store.edges) (Go.readTargets x) := by
  subst ht
  refine Same.read w (o := .readTargets x) rfl ?_ ?_
  · intro σ hi c hc
    obtain ⟨c', hc', e'⟩ := w.ord c hc σ.store
    have e : σ.store.targets x = σ0.store.targets x := (w.frozen hi).T x hx
    refine ⟨c', hc', ?_⟩
    simp only [Store.step, w.live hi (ftag_ne hx), w.live w.inv (ftag_ne hx), if_true, e, e']
  · intro c a ha y hy
    simp only [Store.step, w.live w.inv (ftag_ne hx), if_true] at ha
    cases ha
    exact mem_T.1 ((c.ord_perm _ _ _).mem_iff.1 hy)

theorem Same.sources {C : RC} {σ0 : Rt} (w : Warm C σ0) {x : Nat} {t : Tag} (ht : σ0.tag x = t) (hx : ftag t = true) :
    Same C σ0 (fun l => ∀ y ∈ l, (y, x) ∈ σ0.store.edges) (Go.readSources x) := by
  subst ht
  refine Same.read w (o := .readSources x) rfl ?_ ?_
  · intro σ hi c hc
    obtain ⟨c', hc', e'⟩ := w.ord c hc σ.store
    have e : σ.store.sources x = σ0.store.sources x := (w.frozen hi).S x hx
    refine ⟨c', hc', ?_⟩
    simp only [Store.step, w.live hi (ftag_ne hx), w.live w.inv (ftag_ne hx), if_true, e, e']
  · intro c a ha y hy
    simp only [Store.step, w.live w.inv (ftag_ne hx), if_true] at ha
    cases ha
    exact mem_S.1 ((c.ord_perm _ _ _).mem_iff.1 hy)

theorem Same.getRef {C : RC} {σ0 : Rt} (w : Warm C σ0) {x : Nat} (hx : σ0.tag x ≠ .none) :
    Same C σ0 (fun _ => True) (Go.getReference x) := by
  refine Same.read w (o := .getReference x) rfl ?_ (fun _ _ _ => trivial)
  intro σ hi c hc
  have f := w.frozen hi
  have e1 : σ.store.back x = σ0.store.back x := f.back x hx
  have e2 : σ.store.fwd x = σ0.store.fwd x := f.fwd x hx
  refine ⟨c, hc, ?_⟩
  simp only [Store.step, w.live hi hx, w.live w.inv hx, if_true, e1, e2]

theorem Same.deref {α : Type} {C : RC} {σ0 : Rt} {o : Option α} {good : α → Prop} (h : ∀ a, o = some a → good a) :
    Same C σ0 good (Character.deref o) := by
  cases o with
  | none => exact Same.panic
  | some a => exact Same.ret (h a rfl)

theorem Same.provideEntity {C : RC} {σ0 : Rt} (w : Warm C σ0) : Same C σ0 (fun _ => True) Class.provideEntity :=
  (Same.sure w (v := ()) fun _ hi _ => (Does.provideEntity hi).cons fun _ _ _ _ => rfl).cons fun _ _ => trivial

/-! ### characters -/

section
variable {C : RC} {σ0 : Rt} (w : Warm C σ0)
include w

theorem Same.bitProvide (v : Bool) : Same C σ0 (fun b => b = bitEnt C.bs v) (Bit.provide v) :=
  Same.sure w fun _ hi _ => (Does.bitProvide hi v).cons fun _ _ _ h => RC.One.right (RC.tot_crisp w.tot) h

theorem Same.bitFetch (x : Nat) : Same C σ0 (fun _ => True) (Bit.fetch x) := by
  unfold Bit.fetch
  refine Same.bind (Same.sure w (v := C.bs) fun _ hi _ => (Does.bitInit hi).cons fun _ _ _ h =>
    Prod.ext (RC.One.right (RC.tot_crisp w.tot) h.1) (RC.One.right (RC.tot_crisp w.tot) h.2)) ?_
  intro a _
  dsimp only
  repeat' split
  all_goals first | exact Same.ret trivial | exact Same.err

theorem Same.charReadAll : ∀ (ids : List Nat), (∀ i ∈ ids, ∃ p e, Ch C.bs σ0 p e ∧ e.character = i) →
    Same C σ0 (fun cs => ∀ c ∈ cs, ∃ p, Ch C.bs σ0 p c) (Character.readAll ids) := by
  intro ids
  induction ids with
  | nil => exact fun _ => Same.ret (by simp)
  | cons i is ih =>
    intro h
    unfold Character.readAll
    obtain ⟨p, e, he, hc⟩ := h i (by simp)
    subst hc
    refine Same.bind (Same.sure w fun _ hi m => Does.charByCharacter hi (he.mono m)) ?_
    intro a ha; subst ha
    refine Same.bind (ih fun i hi => h i (by simp [hi])) ?_
    intro cs hcs
    refine Same.ret ?_
    intro c hc
    rcases List.mem_cons.1 hc with rfl | hc
    · exact ⟨p, he⟩
    · exact hcs c hc

theorem Same.charSearch (b : Bool) : ∀ (cs : List CharE), (∀ c ∈ cs, ∃ p, Ch C.bs σ0 p c) →
    Same C σ0 (fun o => ∀ c, o = some c → ∃ p, Ch C.bs σ0 p c) (Character.search b cs) := by
  intro cs
  induction cs with
  | nil => exact fun _ => Same.ret (by simp)
  | cons c cs ih =>
    intro h
    unfold Character.search
    obtain ⟨p, hc⟩ := h c (by simp)
    obtain ⟨q, v, _, hb⟩ := hc.base
    refine Same.bind (Same.sure w fun _ hi m => Does.getTargetBit hi (hb.mono m)) ?_
    intro t _
    refine Same.bind (Same.bitFetch w t) ?_
    intro e _
    split
    · exact Same.ret (by intro c' hc'; cases hc'; exact ⟨p, hc⟩)
    · exact ih fun c hc => h c (by simp [hc])

theorem Same.charHead (v : Bool) :
    Same C σ0 (fun e => ∃ p, Ch C.bs σ0 p e) (Character.provideHeadEntity (bitEnt C.bs v)) := by
  unfold Character.provideHeadEntity
  have tv := w.inv.bits.tag v
  rw [← bitEnt_character] at tv
  refine Same.bind (good := fun _ => True) ?_ ?_
  · unfold Bit.hasTargetCharacter
    rw [w.inv.bits.used v]
    refine Same.bind (Same.targets w tv rfl) ?_
    intro l _
    split
    · exact Same.ret trivial
    · exact Same.ret trivial
    · exact Same.err
  intro b _
  cases b with
  | true =>
    simp only [if_true]
    refine Same.bind (good := fun y => ∃ e, Ch C.bs σ0 [v] e ∧ e.bit = y) ?_ ?_
    · unfold Bit.getTargetCharacter
      rw [w.inv.bits.used v]
      refine Same.bind (Same.targets w tv rfl) ?_
      intro l hl
      split
      · exact Same.ret (w.inv.bitChild (by rw [← bitEnt_character]; exact hl _ (by simp)))
      · exact Same.err
    · intro y ⟨e, he, hy⟩
      subst hy
      exact (Same.sure w fun _ hi m => Does.charByBit hi (he.mono m)).cons fun _ ha => ha ▸ ⟨_, he⟩
  | false => exact Same.createNode

theorem Same.charNext {e : CharElem} (he : ∀ c, e.character = some c → ∃ p, Ch C.bs σ0 p c) (v : Bool) :
    Same C σ0 (fun el => ∀ c, el.character = some c → ∃ p, Ch C.bs σ0 p c) (Character.provideNextElement e v) := by
  unfold Character.provideNextElement
  refine Same.bind (Same.deref he) ?_
  intro a ⟨p, ha⟩
  refine Same.bind (Same.targets w ha.tagC rfl) ?_
  intro ids hids
  refine Same.bind (Same.charReadAll w ids ?_) ?_
  · intro i hi
    obtain ⟨v, e', h1, h2⟩ := w.inv.charChild ha (hids i hi)
    exact ⟨_, e', h1, h2⟩
  intro cs hcs
  refine Same.bind (Same.charSearch w v cs hcs) ?_
  intro o ho
  cases o with
  | some c => exact Same.ret (by intro c' hc'; cases hc'; exact ho _ rfl)
  | none =>
    refine Same.bind (Same.provideEntity w) ?_
    intro _ _
    refine Same.bind (Same.bitProvide w v) ?_
    intro b _
    refine Same.bind (good := fun _ => False) ?_ (fun _ h => h.elim)
    unfold Character.createTailEntity
    exact Same.createNode

theorem Same.charWalk : ∀ (bs : List Bool) {el : Option CharElem},
    (∀ e c, el = some e → e.character = some c → ∃ p, Ch C.bs σ0 p c) →
    Same C σ0 (fun (el' : Option CharElem) => ∀ e c, el' = some e → e.character = some c → ∃ p, Ch C.bs σ0 p c)
      (Character.walk el bs) := by
  intro bs
  induction bs with
  | nil => intro el h; unfold Character.walk; exact Same.ret h
  | cons b bs ih =>
    intro el h
    unfold Character.walk
    refine Same.bind (Same.deref (good := fun e => ∀ c, e.character = some c → ∃ p, Ch C.bs σ0 p c)
      (fun a ha c => h a c ha)) ?_
    intro e he
    refine Same.bind (Same.charNext w he b).attempt ?_
    intro r hr
    refine ih ?_
    intro e c h1 h2
    cases r with
    | ok a2 => cases h1; exact hr _ rfl c h2
    | error _ => cases h1

theorem Same.charProvide (r : Rune) :
    Same C σ0 (fun a => ∀ c, a.character = some c → ∃ p, Ch C.bs σ0 p c) (Character.provide r) := by
  unfold Character.provide
  split
  · exact Same.err
  · split
    · exact Same.panic
    · refine Same.bind (good := fun el => ∀ c, el.character = some c → ∃ p, Ch C.bs σ0 p c) ?_ ?_
      · unfold Character.provideFirstElement
        refine Same.bind (Same.bitProvide w _) ?_
        intro b hb; subst hb
        refine Same.bind (Same.provideEntity w) ?_
        intro _ _
        refine Same.bind (Same.charHead w _).attempt ?_
        intro r hr
        refine Same.ret ?_
        intro c hc
        cases r with
        | ok a => cases hc; exact hr _ rfl
        | error _ => cases hc
      intro el hel
      refine Same.bind (Same.charWalk w _ (el := some el) (by intro e c h1 h2; cases h1; exact hel c h2)) ?_
      intro el2 hel2
      refine Same.bind (Same.deref (good := fun e => ∀ c, e.character = some c → ∃ p, Ch C.bs σ0 p c)
        (fun a ha c => hel2 a c ha)) ?_
      intro e he
      exact Same.ret he

/-! ### words -/

theorem Same.wordReadAll : ∀ (ids : List Nat), (∀ i ∈ ids, ∃ p e, Wd C.bs σ0 p e ∧ e.word = i) →
    Same C σ0 (fun cs => ∀ c ∈ cs, ∃ p, Wd C.bs σ0 p c) (Word.readAll ids) := by
  intro ids
  induction ids with
  | nil => exact fun _ => Same.ret (by simp)
  | cons i is ih =>
    intro h
    unfold Word.readAll
    obtain ⟨p, e, he, hc⟩ := h i (by simp)
    subst hc
    refine Same.bind (Same.sure w fun _ hi m => Does.wordByWord hi (he.mono m)) ?_
    intro a ha; subst ha
    refine Same.bind (ih fun i hi => h i (by simp [hi])) ?_
    intro cs hcs
    refine Same.ret ?_
    intro c hc
    rcases List.mem_cons.1 hc with rfl | hc
    · exact ⟨p, he⟩
    · exact hcs c hc

theorem Same.wordSearch {fuel : Nat} (hf : C.lim.L ≤ fuel) (r : Int) : ∀ (cs : List WordE), (∀ c ∈ cs, ∃ p, Wd C.bs σ0 p c) →
    Same C σ0 (fun o => ∀ c, o = some c → ∃ p, Wd C.bs σ0 p c) (Word.search fuel r cs) := by
  intro cs
  induction cs with
  | nil => exact fun _ => Same.ret (by simp)
  | cons c cs ih =>
    intro h
    unfold Word.search
    obtain ⟨p, hc⟩ := h c (by simp)
    obtain ⟨q, pth, ch, _, hb⟩ := hc.base
    refine Same.bind (Same.sure w fun _ hi m => Does.extractCharacterValue hi (hb.mono m) hf) ?_
    intro t _
    split
    · exact Same.ret (by intro c' hc'; cases hc'; exact ⟨p, hc⟩)
    · exact ih fun c hc => h c (by simp [hc])

theorem Same.wordHead {a : CharAgg} (ha : ∀ c, a.character = some c → ∃ p, Ch C.bs σ0 p c) :
    Same C σ0 (fun e => ∃ p, Wd C.bs σ0 p e) (Word.provideHeadEntity a) := by
  unfold Word.provideHeadEntity
  refine Same.bind (Same.deref ha) ?_
  intro c ⟨p, hc⟩
  refine Same.bind (good := fun _ => True) ?_ ?_
  · unfold Character.hasTargetWord
    refine Same.bind (Same.targets w hc.tagC rfl) ?_
    intro l _
    split
    · exact Same.ret trivial
    · exact Same.ret trivial
    · exact Same.err
  intro b _
  cases b with
  | true =>
    simp only [if_true]
    refine Same.bind (good := fun y => ∃ e, Wd C.bs σ0 [Character.toRune p] e ∧ e.character = y) ?_ ?_
    · unfold Character.getTargetWord
      refine Same.bind (Same.targets w hc.tagW rfl) ?_
      intro l hl
      split
      · exact Same.ret (w.inv.charWord hc (hl _ (by simp)))
      · exact Same.err
    · intro y ⟨e, he, hy⟩
      subst hy
      exact (Same.sure w fun _ hi m => Does.wordByCharacter hi (he.mono m)).cons fun _ ha => ha ▸ ⟨_, he⟩
  | false => exact Same.createNode

theorem Same.wordNext {fuel : Nat} (hf : C.lim.L ≤ fuel) {p e} (he : Wd C.bs σ0 p e) (r : Int) :
    Same C σ0 (fun e => ∃ p, Wd C.bs σ0 p e) (Word.provideNextElement fuel e r) := by
  unfold Word.provideNextElement
  refine Same.bind (Same.targets w he.tagW rfl) ?_
  intro ids hids
  refine Same.bind (Same.wordReadAll w ids ?_) ?_
  · intro i hi
    obtain ⟨v, e', h1, h2⟩ := w.inv.wordChild he (hids i hi)
    exact ⟨_, e', h1, h2⟩
  intro cs hcs
  refine Same.bind (Same.wordSearch w hf r cs hcs) ?_
  intro o ho
  cases o with
  | some c => exact Same.ret (ho _ rfl)
  | none =>
    refine Same.bind (Same.provideEntity w) ?_
    intro _ _
    refine Same.bind (Same.charProvide w r) ?_
    intro b _
    refine Same.bind (good := fun _ => False) ?_ (fun _ h => h.elim)
    unfold Word.createTailEntity
    exact Same.createNode

theorem Same.wordWalk {fuel : Nat} (hf : C.lim.L ≤ fuel) : ∀ (qs : List Int) {el : Option WordE},
    (∀ e, el = some e → ∃ p, Wd C.bs σ0 p e) →
    Same C σ0 (fun (el' : Option WordE) => ∀ e, el' = some e → ∃ p, Wd C.bs σ0 p e) (Word.walk fuel el qs) := by
  intro qs
  induction qs with
  | nil => intro el h; unfold Word.walk; exact Same.ret h
  | cons b bs ih =>
    intro el h
    unfold Word.walk
    refine Same.bind (Same.deref h) ?_
    intro e ⟨p, he⟩
    refine Same.bind (Same.wordNext w hf he b).attempt ?_
    intro r hr
    refine ih ?_
    intro e h1
    cases r with
    | ok a => cases h1; exact hr _ rfl
    | error _ => cases h1

theorem Same.wordProvide {fuel : Nat} (hf : C.lim.L ≤ fuel) (s : GoStr) :
    Same C σ0 (fun e => ∃ p, Wd C.bs σ0 p e) (Word.provide fuel s) := by
  unfold Word.provide
  split
  · exact Same.err
  · refine Same.bind (good := fun e => ∃ p, Wd C.bs σ0 p e) ?_ ?_
    · unfold Word.provideFirstElement
      refine Same.bind (Same.charProvide w _) ?_
      intro a ha
      refine Same.bind (Same.provideEntity w) ?_
      intro _ _
      exact Same.wordHead w ha
    intro e he
    refine Same.bind (Same.wordWalk w hf _ (el := some e) (by intro e' h1; cases h1; exact he)) ?_
    intro el2 hel2
    exact Same.deref hel2

/-! ### phrases -/

theorem Same.phraseReadAll : ∀ (ids : List Nat), (∀ i ∈ ids, ∃ p e, Ph C.bs σ0 p e ∧ e.phrase = i) →
    Same C σ0 (fun cs => ∀ c ∈ cs, ∃ p, Ph C.bs σ0 p c) (Phrase.readAll ids) := by
  intro ids
  induction ids with
  | nil => exact fun _ => Same.ret (by simp)
  | cons i is ih =>
    intro h
    unfold Phrase.readAll
    obtain ⟨p, e, he, hc⟩ := h i (by simp)
    subst hc
    refine Same.bind (Same.sure w fun _ hi m => Does.phraseByPhrase hi (he.mono m)) ?_
    intro a ha; subst ha
    refine Same.bind (ih fun i hi => h i (by simp [hi])) ?_
    intro cs hcs
    refine Same.ret ?_
    intro c hc
    rcases List.mem_cons.1 hc with rfl | hc
    · exact ⟨p, he⟩
    · exact hcs c hc

theorem Same.phraseSearch {fuel : Nat} (hf : C.lim.L ≤ fuel) (hD : C.lim.D ≤ fuel) (r : GoStr) :
    ∀ (cs : List PhraseE), (∀ c ∈ cs, ∃ p, Ph C.bs σ0 p c) →
    Same C σ0 (fun o => ∀ c, o = some c → ∃ p, Ph C.bs σ0 p c) (Phrase.search fuel r cs) := by
  intro cs
  induction cs with
  | nil => exact fun _ => Same.ret (by simp)
  | cons c cs ih =>
    intro h
    unfold Phrase.search
    obtain ⟨p, hc⟩ := h c (by simp)
    obtain ⟨q, rs, wd, _, hb⟩ := hc.base
    refine Same.bind (Same.sure w fun _ hi m => Does.extractWordValue hi (hb.mono m) hf hD) ?_
    intro t _
    split
    · exact Same.ret (by intro c' hc'; cases hc'; exact ⟨p, hc⟩)
    · exact ih fun c hc => h c (by simp [hc])

theorem Same.phraseHead {a : WordE} (ha : ∃ p, Wd C.bs σ0 p a) :
    Same C σ0 (fun e => ∃ p, Ph C.bs σ0 p e) (Phrase.provideHeadEntity a) := by
  unfold Phrase.provideHeadEntity
  obtain ⟨p, hc⟩ := ha
  refine Same.bind (good := fun _ => True) ?_ ?_
  · unfold Word.hasTargetPhrase
    refine Same.bind (Same.targets w hc.tagP rfl) ?_
    intro l _
    split
    · exact Same.ret trivial
    · exact Same.ret trivial
    · exact Same.err
  intro b _
  cases b with
  | true =>
    simp only [if_true]
    refine Same.bind (good := fun y => ∃ e, Ph C.bs σ0 [p] e ∧ e.word = y) ?_ ?_
    · unfold Word.getTargetPhrase
      refine Same.bind (Same.targets w hc.tagP rfl) ?_
      intro l hl
      split
      · exact Same.ret (w.inv.wordPhrase hc (hl _ (by simp)))
      · exact Same.err
    · intro y ⟨e, he, hy⟩
      subst hy
      exact (Same.sure w fun _ hi m => Does.phraseByWord hi (he.mono m)).cons fun _ ha => ha ▸ ⟨_, he⟩
  | false => exact Same.createNode

theorem Same.phraseNext {fuel : Nat} (hf : C.lim.L ≤ fuel) (hD : C.lim.D ≤ fuel) {p e} (he : Ph C.bs σ0 p e) (r : GoStr) :
    Same C σ0 (fun e => ∃ p, Ph C.bs σ0 p e) (Phrase.provideNextElement fuel e r) := by
  unfold Phrase.provideNextElement
  refine Same.bind (Same.targets w he.tagP rfl) ?_
  intro ids hids
  refine Same.bind (Same.phraseReadAll w ids ?_) ?_
  · intro i hi
    obtain ⟨v, e', h1, h2⟩ := w.inv.phraseChild he (hids i hi)
    exact ⟨_, e', h1, h2⟩
  intro cs hcs
  refine Same.bind (Same.phraseSearch w hf hD r cs hcs) ?_
  intro o ho
  cases o with
  | some c => exact Same.ret (ho _ rfl)
  | none =>
    refine Same.bind (Same.provideEntity w) ?_
    intro _ _
    refine Same.bind (Same.wordProvide w hf r) ?_
    intro b _
    unfold Phrase.createTailEntity
    exact Same.createNode

theorem Same.phraseWalk {fuel : Nat} (hf : C.lim.L ≤ fuel) (hD : C.lim.D ≤ fuel) : ∀ (qs : List GoStr) {el : Option PhraseE},
    (∀ e, el = some e → ∃ p, Ph C.bs σ0 p e) →
    Same C σ0 (fun (el' : Option PhraseE) => ∀ e, el' = some e → ∃ p, Ph C.bs σ0 p e) (Phrase.walk fuel el qs) := by
  intro qs
  induction qs with
  | nil => intro el h; unfold Phrase.walk; exact Same.ret h
  | cons b bs ih =>
    intro el h
    unfold Phrase.walk
    refine Same.bind (Same.deref h) ?_
    intro e ⟨p, he⟩
    refine Same.bind (Same.phraseNext w hf hD he b).attempt ?_
    intro r hr
    refine ih ?_
    intro e h1
    cases r with
    | ok a => cases h1; exact hr _ rfl
    | error _ => cases h1

theorem Same.phraseProvide {fuel : Nat} (hf : C.lim.L ≤ fuel) (hD : C.lim.D ≤ fuel) (s : GoStr) :
    Same C σ0 (fun e => ∃ p, Ph C.bs σ0 p e) (Phrase.provide fuel s) := by
  unfold Phrase.provide
  split
  · exact Same.err
  · refine Same.bind (good := fun e => ∃ p, Ph C.bs σ0 p e) ?_ ?_
    · unfold Phrase.provideFirstElement
      refine Same.bind (Same.wordProvide w hf _) ?_
      intro a ha
      refine Same.bind (Same.provideEntity w) ?_
      intro _ _
      exact Same.phraseHead w ha
    intro e he
    refine Same.bind (Same.phraseWalk w hf hD _ (el := some e) (by intro e' h1; cases h1; exact he)) ?_
    intro el2 hel2
    exact Same.deref hel2

/-! ### details -/

theorem Same.detailProvide {fuel : Nat} (hf : C.lim.L ≤ fuel) (hD : C.lim.D ≤ fuel) (o p : GoStr) :
    Same C σ0 (fun _ => True) (Detail.provide fuel o p) := by
  unfold Detail.provide
  refine Same.bind (Same.phraseProvide w hf hD o) ?_
  intro po ⟨wo, hpo⟩
  refine Same.bind (Same.phraseProvide w hf hD p) ?_
  intro pp ⟨wp, hpp⟩
  refine Same.bind (Same.provideEntity w) ?_
  intro _ _
  unfold Detail.provideEntity
  refine Same.bind (Same.targets w hpo.tagD rfl) ?_
  intro l1 h1
  refine Same.bind (Same.sources w hpp.tagD rfl).attempt ?_
  intro r hr
  split
  · unfold Detail.createEntity
    exact Same.createNode
  · rename_i d hd
    have hm := mem_common (l1 := l1) (l2 := r.toOption.getD []) (d := d) (by rw [hd]; simp)
    have td := (w.inv.detailTag hpo.tagD (h1 d hm.1)).1
    unfold Detail.readEntityByPhrase
    refine Same.bind (Same.getRef w (by rw [td]; simp)) ?_
    intro _ _
    exact Same.ret trivial
  · exact Same.err

end

/-- looking leaves the ghost state as it is -/
theorem RMono.still {cfg lim bs bs' fz fz'} {σ0 σ : Rt} (h0 : RI cfg lim bs fz σ0) (h : RI cfg lim bs' fz' σ) (m : RMono σ0 σ)
    (hs : σ.store = σ0.store) : RMono σ σ0 := by
  have hl : ∀ x, σ.tag x ≠ .none → σ0.tag x ≠ .none := by
    intro x hx
    have := (h.live x).2 hx
    rw [hs] at this
    exact (h0.live x).1 this
  have hT : ∀ x, σ0.T x = σ.T x := fun x => by simp only [St.T, hs]
  have hS : ∀ x, σ0.S x = σ.S x := fun x => by simp only [St.S, hs]
  have hF : ∀ x, σ0.fwd x = σ.fwd x := fun x => by simp only [St.fwd, hs]
  have hB : ∀ x, σ0.back x = σ.back x := fun x => by simp only [St.back, hs]
  exact ⟨fun x hx => (m.tag x (hl x hx)).symm, fun x hx => (m.own x (hl x hx)).symm, fun x _ => hF x, fun x _ => hB x,
    fun x _ _ => hT x, fun x _ _ => hS x, fun x y h => by rw [← hs]; exact h⟩

/-- the pair is found, whatever storages answer -/
def Found (C : RC) (fuel : Nat) (w : World) (o p : GoStr) : Prop :=
  ∀ g, C.Mood g → ∃ d m, Go.looks g (Detail.provide fuel o p) w.store w.mem = some (.ok d, m) ∧ d.remark ≠ 0

/-- the detail of a familiar pair is found -/
theorem Prov.warm {C : RC} (hso : C.lim.solo = false) {σ0 : Rt} (w : Warm C σ0) {fuel : Nat} (hf : C.lim.L ≤ fuel) (hD : C.lim.D ≤ fuel) {o p : GoStr}
    (ho : TextOK C.lim o) (hp : TextOK C.lim p) {m : Layer} (hm : MemOK C.bs m) (h : Found C fuel ⟨σ0.store, m⟩ o p)
    (σ : Rt) : Prov C σ fuel o p := by
  have hn : ∀ g, C.Mood g → Go.looks g (Detail.provide fuel o p) σ0.store m ≠ none := by
    intro g hg e
    obtain ⟨d, m', hl, _⟩ := h g hg
    rw [e] at hl
    cases hl
  intro σ1 l1
  refine rwp_mono ?_ (Same.detailProvide w hf hD o p m hm hn σ1 l1.inv)
  intro o' σ2 ⟨l2, g, m', hg, hl, _, _⟩
  obtain ⟨d, m2, hl', hd⟩ := h g hg
  rw [hl] at hl'
  cases hl'
  -- what is found has been stored as the calls do
  have hi0 : RI C.cfg C.lim C.bs none σ0 := { w.inv with frz := fun _ h => by cases h }
  have hq := Does.detailProvide (C := ⟨C.cfg, C.lim, C.bs, C.me, false, none, fun _ => False, false⟩) rfl rfl hso hi0 hf hD ho hp
  obtain ⟨_, σ', hi', hq', hs⟩ := rwp_run (C := ⟨C.cfg, C.lim, C.bs, C.me, false, none, fun _ => False, false⟩) (RC.crisp rfl) (g := g)
    (fun n => ⟨(hg n).1, fun h => absurd rfl h⟩) hi0 hm.at (hq .bot)
  have hx := looks_runs _ _ m hl
  rw [hx] at hq' hs
  obtain ⟨l, po, pp, h4, h5, h6⟩ := hq'
  have back := RMono.still hi0 hi' l.mono hs
  have h6 := back.detail (h6.resolve_left hd)
  have m2 := (w.frozen l2.inv).mono
  exact ⟨l2, po, pp, (h4.mono back).mono m2, (h5.mono back).mono m2, .inr (m2.detail h6)⟩

/-! ### the system -/

/-- nobody needs new text -/
noncomputable def Mode.warm (cfg : Cfg) (al : Cfg → Prop) (σ0 : Rt) : Mode :=
  ⟨some σ0, fun _ log c => @decide (c.Due cfg log) (Classical.propDecidable _), al⟩

/-- the storages that may answer in a warm race -/
def Answers (cfg : Cfg) (al : Cfg → Prop) (c : Cfg) : Prop := c.dup = cfg.dup ∧ (al c ∨ c = cfg)

/-- every answer of a storage that may answer could be given in the beginning, by one that may answer -/
def Steadies (cfg : Cfg) (al : Cfg → Prop) (s0 : Store) : Prop :=
  ∀ c, Answers cfg al c → ∀ s, ∃ c', Answers cfg al c' ∧ ∀ o l, c'.ord s0 o l = c.ord s o l

theorem Steady.only {cfg : Cfg} (h : Steady cfg) (s0 : Store) : Steadies cfg (fun _ => False) s0 := by
  intro c hc s
  obtain rfl := hc.2.resolve_left id
  exact ⟨c, hc, fun o l => h _ _ _ _⟩

theorem Steadies.all (cfg : Cfg) (s0 : Store) : Steadies cfg (fun _ => True) s0 :=
  fun c hc s => ⟨{ c with ord := fun _ => c.ord s, ord_perm := fun _ => c.ord_perm s }, ⟨hc.1, .inl trivial⟩, fun _ _ => rfl⟩

/-- the pair is found, whatever storages answer -/
def FoundBy (cfg : Cfg) (al : Cfg → Prop) (fuel : Nat) (w : World) (o p : GoStr) : Prop :=
  ∀ g : Nat → Cfg, (∀ n, Answers cfg al (g n)) →
    ∃ d m, Go.looks g (Detail.provide fuel o p) w.store w.mem = some (.ok d, m) ∧ d.remark ≠ 0

theorem Familiar.only {cfg fuel w o p} (h : Familiar cfg fuel w o p) : FoundBy cfg (fun _ => False) fuel w o p := by
  intro g hg
  obtain rfl : g = fun _ => cfg := funext fun n => (hg n).2.resolve_left id
  obtain ⟨d, m, hl, hd⟩ := h
  exact ⟨d, m, by rw [looks_const]; exact hl, hd⟩

theorem FamiliarMoods.all {cfg fuel w o p} (h : FamiliarMoods cfg fuel w o p) : FoundBy cfg (fun _ => True) fuel w o p :=
  fun g hg => h g fun n => (hg n).1

theorem WarmBy.imp {cfg : Cfg} {f f' : GoStr → GoStr → Prop} (h : ∀ o p, f o p → f' o p) {log} {t : Move}
    (ht : t.WarmBy cfg f log) : t.WarmBy cfg f' log := by
  match t with
  | .begin _ (.createStory o p) => exact h _ _ ht
  | .begin _ (.addRemark h' p) => exact fun e he => h _ _ (ht e he)
  | .begin _ (.addFact _ o p) => exact ⟨ht.1, h _ _ ht.2⟩
  | .begin _ (.addChild _ _ _) => exact ht
  | .begin _ (.query h' q) => exact ht
  | .begin _ (.getRemark _) => exact ht
  | .step _ _ => exact ht
  | .die _ => exact ht
  | .spawn _ _ _ => exact ht
  | .read _ => exact ht

/-- a call that does not need new text -/
theorem begins_warm {C : RC} (hso : C.lim.solo = false) {σ0 : Rt} (hfz : C.fz = some σ0) (hord : Steadies C.cfg C.al σ0.store) (hi0 : C.I σ0) {σ : Rt} (hi : C.I σ)
    {fuel : Nat} (hf : Fits C.lim fuel) {log} (k : Logs C.lim C.bs σ log) {c : Call} (ht : ∀ t ∈ c.texts, TextOK C.lim t) {m : Layer}
    (hm : MemOK C.bs m) (hc : c.WarmBy C.cfg (FoundBy C.cfg C.al fuel ⟨σ0.store, m⟩) log) (htot : C.tot = true ↔ c.Due C.cfg log) :
    rwp C (Ends C σ log c) (c.yields fuel log) σ := by
  have hn : C.fz ≠ none := by rw [hfz]; simp
  have like : ∀ c, C.Like c ↔ Answers C.cfg C.al c := fun c => ⟨fun h => ⟨h.1, h.2 hn⟩, fun h => ⟨h.1, fun _ => h.2⟩⟩
  have hord' : ∀ c, C.Like c → ∀ s, ∃ c', C.Like c' ∧ ∀ o l, c'.ord σ0.store o l = c.ord s o l := by
    intro c hc s
    obtain ⟨c', h1, h2⟩ := hord c ((like c).1 hc) s
    exact ⟨c', (like c').2 h1, h2⟩
  have found : ∀ {o p}, FoundBy C.cfg C.al fuel ⟨σ0.store, m⟩ o p → Found C fuel ⟨σ0.store, m⟩ o p :=
    fun h g hg => h g fun n => (like _).1 (hg n)
  have off : ¬ c.Due C.cfg log → C.tot = false := by
    intro h
    cases ht : C.tot with
    | true => exact absurd (htot.1 ht) h
    | false => rfl
  apply Does.ends
  cases c with
  | createStory o p =>
    have w : Warm C σ0 := ⟨htot.2 trivial, hfz, hi0, hord'⟩
    have ho := ht o (by simp [Call.texts])
    have hp := ht p (by simp [Call.texts])
    exact Does.map (Does.createStory hi (.warm hso w hf.L hf.D ho hp hm (found hc) σ)) fun r σ' h => ⟨ho, hp, h⟩
  | addRemark h p =>
    have hp := ht p (by simp [Call.texts])
    simp only [Call.yields]
    cases he : log[h]? with
    | none => exact Does.ret hi fun h1 => absurd (List.getElem?_eq_none_iff.1 he) (Nat.not_le.2 h1)
    | some e =>
      have w : Warm C σ0 := ⟨htot.2 (List.getElem?_eq_some_iff.1 he).1, hfz, hi0, hord'⟩
      have ok := k.get he
      have e1' : textOf (wordsOf e.object) = e.object := by rw [textOf_wordsOf, ok.obj]
      exact Does.addRemark hi hf k he hp
        (.warm hso w hf.L hf.D (by rw [e1']; exact ok.text) hp hm (by rw [e1']; exact found (hc e he)) σ)
  | addFact h o p =>
    have ho := ht o (by simp [Call.texts])
    have hp := ht p (by simp [Call.texts])
    simp only [Call.yields]
    cases he : log[h]? with
    | none => exact Does.ret hi fun h1 => absurd (List.getElem?_eq_none_iff.1 he) (Nat.not_le.2 h1.2)
    | some e =>
      have w : Warm C σ0 := ⟨htot.2 ⟨hc.1, (List.getElem?_eq_some_iff.1 he).1⟩, hfz, hi0, hord'⟩
      refine Does.bind (Does.addLooseFact hc.1 hi (k.get he).ent (.warm hso w hf.L hf.D ho hp hm (found hc.2) σ)) ?_
      intro r σ' h' hn
      exact Does.ret h'.inv ⟨ho, hp, hn, h'.inv.tag0 hc.1⟩
  | addChild h o p => exact hc.elim
  | query h q =>
    refine Does.query hi hf k (fun e he ha => off ?_) (fun e a he ha => .inr (htot.2 ⟨e, a, he, ha⟩)) hc
    intro ⟨e', a, he', ha'⟩
    rw [he] at he'
    cases he'
    rw [ha] at ha'
    cases ha'
  | getRemark i => exact Does.getRemark hi k off

theorem MoveOK.warm {cfg lim bs al fuel log} (hso : lim.solo = false) {σ0 : Rt} (hord : Steadies cfg al σ0.store) (hi0 : RI cfg lim bs (some σ0) σ0)
    (hf : Fits lim fuel) {m : Layer} (hm : MemOK bs m) {t : Move} (ht : ∀ s ∈ t.texts, TextOK lim s)
    (hw : t.WarmBy cfg (FoundBy cfg al fuel ⟨σ0.store, m⟩) log) : MoveOK cfg lim bs (.warm cfg al σ0) fuel log t where
  start i c e σ hi k := by
    subst e
    exact begins_warm (C := actor cfg lim bs (.warm cfg al σ0) i log c) hso rfl hord hi0 hi hf k ht hm hw
      (by simp [Mode.warm])
  fate i f e := by
    subst e
    exact .inl hw

theorem CrowdInv.freeze {home cfg lim bs M} {y : Crowd} {σ : Rt} (h : CrowdInv home cfg lim bs M y σ) (hc : ∀ i, y.cur i = none)
    (hr : ∀ j, y.readers j = none) (al : Cfg → Prop) : CrowdInv home cfg lim bs (.warm cfg al σ) y σ :=
  ⟨h.store, h.inv.freeze, h.mem, h.logs, fun i b hb => by rw [hc] at hb; (cases hb), h.heard,
    fun j rd hj => by rw [hr] at hj; (cases hj)⟩

/-- warm moves -/
theorem CrowdInv.stayWarm {cfg lim bs al fuel home} (hso : lim.solo = false) (hf : Fits lim fuel) {σ0 : Rt} (hord : Steadies cfg al σ0.store)
    (hi0 : RI cfg lim bs (some σ0) σ0) {m : Layer} (hm : MemOK bs m) : ∀ (ts : List (Cfg × Move)) {y : Crowd} {σ : Rt},
    CrowdInv home cfg lim bs (.warm cfg al σ0) y σ → (∀ t ∈ ts, Answers cfg al t.1) → (∀ t ∈ ts, ∀ s ∈ t.2.texts, TextOK lim s) →
    (∀ ts1 t ts2, ts = ts1 ++ t :: ts2 → t.2.WarmBy cfg (FoundBy cfg al fuel ⟨σ0.store, m⟩) (y.feel fuel home ts1).log) →
    ∃ σ', CrowdInv home cfg lim bs (.warm cfg al σ0) (y.feel fuel home ts) σ' := by
  intro ts
  induction ts with
  | nil => exact fun h _ _ _ => ⟨_, h⟩
  | cons t ts ih =>
    intro y σ h hd ht hw
    have ha := hd t (by simp)
    obtain ⟨σ1, h1⟩ := h.move (home := home) hf (c := t.1) ⟨ha.1, fun _ => ha.2⟩ t.2
      (.warm hso hord hi0 hf hm (ht t (by simp)) (hw [] t ts rfl))
    refine ih h1 (fun t' h' => hd t' (by simp [h'])) (fun t' h' => ht t' (by simp [h'])) ?_
    intro ts1 t' ts2 e
    exact hw (t :: ts1) t' ts2 (by rw [e]; rfl)

/-- warm moves, from a state in which nobody is in the middle of a call -/
theorem CrowdInv.warmFeel {home : Nat → Nat} {cfg : Cfg} {al : Cfg → Prop} {fuel : Nat} (hf : Fits (stdLim fuel) fuel) {st : State} {bs M} {σ0 : Rt}
    (hord : Steadies cfg al st.world.store)
    (h0 : CrowdInv home cfg (stdLim fuel) bs M (Crowd.start st) σ0) {ts : List (Cfg × Move)}
    (hd : ∀ t ∈ ts, Answers cfg al t.1)
    (ht : ∀ t ∈ ts, ∀ s ∈ t.2.texts, s.length < fuel)
    (hw : ∀ ts1 t ts2, ts = ts1 ++ t :: ts2 →
      t.2.WarmBy cfg (FoundBy cfg al fuel st.world) ((Crowd.start st).feel fuel home ts1).log) :
    ∃ bs σ0 σ, CrowdInv home cfg (stdLim fuel) bs (.warm cfg al σ0) ((Crowd.start st).feel fuel home ts) σ := by
  have h1 : CrowdInv home cfg (stdLim fuel) bs (.warm cfg al σ0) (Crowd.start st) σ0 :=
    h0.freeze (fun _ => rfl) (fun _ => rfl) al
  have hs : σ0.store = st.world.store := h1.store
  obtain ⟨σ, h2⟩ := CrowdInv.stayWarm (home := home) rfl hf (m := st.world.mem) (by rw [hs]; exact hord) h1.inv (h1.mem 0) ts h1 hd
    (fun t htt s hs => .std (ht t htt s hs)) (by rw [hs]; exact hw)
  exact ⟨bs, σ0, σ, h2⟩

theorem CrowdInv.warms {home : Nat → Nat} {cfg : Cfg} (hord : Steady cfg) {fuel : Nat} (hf : Fits (stdLim fuel) fuel) {st : State} {bs M} {σ0 : Rt}
    (h0 : CrowdInv home cfg (stdLim fuel) bs M (Crowd.start st) σ0) {ts : List Move}
    (ht : ∀ t ∈ ts, ∀ s ∈ t.texts, s.length < fuel) (hw : WarmMoves cfg fuel home st ts) :
    ∃ bs σ0 σ, CrowdInv home cfg (stdLim fuel) bs (.warm cfg (fun _ => False) σ0) ((Crowd.start st).moves cfg fuel home ts) σ := by
  rw [moves_feel]
  refine CrowdInv.warmFeel hf (Steady.only hord _) h0 ?_ ?_ ?_
  · intro t htt
    obtain ⟨t', _, rfl⟩ := List.mem_map.1 htt
    exact ⟨rfl, .inr rfl⟩
  · intro t htt
    obtain ⟨t', ht', rfl⟩ := List.mem_map.1 htt
    exact ht t' ht'
  · intro ts1 t ts2 e
    obtain ⟨l1, l2, rfl, rfl, e2⟩ := List.map_eq_append_iff.1 e
    obtain ⟨t', l3, rfl, rfl, rfl⟩ := List.map_eq_cons_iff.1 e2
    rw [← moves_feel]
    exact WarmBy.imp (fun o p h => Familiar.only h) (hw l1 t' l3 rfl)

theorem crowd_warm {cfg : Cfg} (hord : Steady cfg) (hz : cfg.zero = false) {fuel : Nat} {es es' : List Event} (h : Stormy cfg fuel es es')
    (home : Nat → Nat) {ts : List Move} (ht : ∀ t ∈ ts, ∀ s ∈ t.texts, s.length < fuel)
    (hw : WarmMoves cfg fuel home (after cfg fuel (es ++ es')) ts) :
    ∃ bs σ0 σ, CrowdInv home cfg (stdLim fuel) bs (.warm cfg (fun _ => False) σ0)
      ((Crowd.start (after cfg fuel (es ++ es'))).moves cfg fuel home ts) σ := by
  obtain ⟨bs, σ0, h0⟩ := crowd_inv hz h home (ts := []) (by simp)
  exact CrowdInv.warms hord h.budget.fits (M := .free) h0 ht hw

/-- the same, with or without node 0, after a history without storage failures -/
theorem crowd_calm {cfg : Cfg} (hord : Steady cfg) {fuel : Nat} {es : List Event} (h : Calm cfg fuel es) (hl : (after cfg fuel es).log ≠ [])
    (home : Nat → Nat) {ts : List Move} (ht : ∀ t ∈ ts, ∀ s ∈ t.texts, s.length < fuel)
    (hw : WarmMoves cfg fuel home (after cfg fuel es) ts) :
    ∃ bs σ0 σ, CrowdInv home cfg (stdLim fuel) bs (.warm cfg (fun _ => False) σ0) ((Crowd.start (after cfg fuel es)).moves cfg fuel home ts) σ := by
  obtain ⟨σ, hs, _⟩ := h.sound.holds hl
  obtain ⟨bs, h0⟩ := CrowdInv.start h.dup hs hl (fun h => by cases h) .free rfl
  exact CrowdInv.warms hord h.budget.fits h0 ht hw

/-- a call that has a result -/
theorem CrowdInv.succeeds {home cfg lim bs al} {σ0 : Rt} {y : Crowd} {σ : Rt} (h : CrowdInv home cfg lim bs (.warm cfg al σ0) y σ) {i b}
    (hc : y.cur i = some b) (hd : b.call.Due cfg b.log) {o} (ho : Go.end b.prog = some o) :
    (∃ r e, o = .ok (.created r) ∧ b.call.entry y.log r = some e) ∨
      (∃ a, o = .ok (.answered a) ∧ Heard.Right ⟨b.call, b.log, a⟩) := by
  obtain ⟨hp, σ1, hb, _⟩ := h.actors i b hc
  obtain ⟨σs, hq, he⟩ := hb.out ho
  have ht : (actor cfg lim bs (.warm cfg al σ0) i b.log b.call).tot = true := by simp [actor, Mode.warm, hd]
  have no : (actor cfg lim bs (.warm cfg al σ0) i b.log b.call).tot ≠ false := by rw [ht]; simp
  cases o with
  | ok v =>
    cases v with
    | created r =>
      obtain ⟨e, h1, _⟩ := Made.entry hq hp h.logs he.mono
      exact .inl ⟨r, e, rfl, h1⟩
    | answered a => exact .inr ⟨a, rfl, hq⟩
    | nothing => exact absurd hd hq
  | spin => exact hq.elim
  | err e => exact absurd hq no
  | panic => exact absurd hq no

theorem range_split {s : Nat → Move} {k : Nat} {ts1 t ts2} (h : (List.range k).map s = ts1 ++ t :: ts2) :
    t = s ts1.length ∧ ts1 = (List.range ts1.length).map s := by
  have hl : k = ts1.length + (ts2.length + 1) := by simpa using congrArg List.length h
  have h1 : ((List.range k).map s)[ts1.length]? = some t := by rw [h]; simp
  have h2 : ((List.range k).map s).take ts1.length = ts1 := by rw [h]; simp
  refine ⟨?_, ?_⟩
  · rw [List.getElem?_map, List.getElem?_range (by omega)] at h1
    exact (Option.some.inj h1).symm
  · rw [← List.map_take, List.take_range, Nat.min_eq_left (by omega)] at h2
    exact h2.symm

/-- in an endless run, calls that have a result and must succeed when they end do return with it -/
theorem due_returns {cfg : Cfg} {fuel : Nat} {home : Nat → Nat} {y : Crowd} {s : Nat → Move} {i n : Nat} {b : Begun}
    (key : ∀ k {b' o}, (y.run cfg fuel home s k).cur i = some b' → b'.call.Due cfg b'.log → Go.end b'.prog = some o →
      (∃ r e, o = .ok (.created r) ∧ b'.call.entry (y.run cfg fuel home s k).log r = some e) ∨
        (∃ a, o = .ok (.answered a) ∧ Heard.Right ⟨b'.call, b'.log, a⟩))
    (hb : (y.run cfg fuel home s n).cur i = some b) (hd : b.call.Due cfg b.log)
    (hinf : ∀ m, ∃ k, m ≤ k ∧ ∃ f, s k = .step i f) (hl : ∀ k, n ≤ k → s k ≠ .die (home i)) :
    ∃ k, n ≤ k ∧ (y.run cfg fuel home s (k + 1)).cur i = none ∧
      ((∃ r e, b.call.entry (y.run cfg fuel home s k).log r = some e ∧
        (y.run cfg fuel home s (k + 1)).log = (y.run cfg fuel home s k).log ++ [e]) ∨
      (∃ a, Heard.Right ⟨b.call, b.log, a⟩ ∧
        (y.run cfg fuel home s (k + 1)).heard = (y.run cfg fuel home s k).heard ++ [⟨b.call, b.log, a⟩])) := by
  obtain ⟨k, b', o, h1, h2, h3, h4, h5, h6⟩ := returns hinf b.prog b n rfl hb hl
  have key := key k h2 (by rw [h3, h4]; exact hd) h5
  refine ⟨k, h1, ?_⟩
  rw [h6]
  rw [h3, h4] at key
  rcases key with ⟨r, e, rfl, he⟩ | ⟨a, rfl, ha⟩
  · refine ⟨by simp [Crowd.return, upd], .inl ⟨r, e, he, ?_⟩⟩
    simp only [Crowd.return, h3]
    rw [he]
    rfl
  · refine ⟨by simp [Crowd.return, upd], .inr ⟨a, ha, ?_⟩⟩
    simp only [Crowd.return, h3, h4]

/-- the first moves of a warm run are warm -/
theorem warm_prefix {cfg : Cfg} {fuel : Nat} {home : Nat → Nat} {st : State} {s : Nat → Move}
    (hw : WarmRun cfg fuel home st s) (k : Nat) : WarmMoves cfg fuel home st ((List.range k).map s) := by
  intro ts1 t ts2 e
  obtain ⟨e1, e2⟩ := range_split e
  rw [e1]
  have := hw ts1.length
  rwa [run_moves, ← e2] at this

theorem texts_prefix {s : Nat → Move} {fuel : Nat} (ht : ∀ k, ∀ t ∈ (s k).texts, t.length < fuel) (k : Nat) :
    ∀ t ∈ (List.range k).map s, ∀ x ∈ t.texts, x.length < fuel := by
  intro t htt
  obtain ⟨j, _, rfl⟩ := List.mem_map.1 htt
  exact ht j

end Semnet.Race
