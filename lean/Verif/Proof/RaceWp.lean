import Verif.Proof.RaceInv
/-
  Several processes writing at the same time: program logic.  Between any two storage calls of a process the others may do
  whatever keeps the invariant and leaves the nodes created by this process alone.  The bit layer may be shared with others:
  whenever it is read, either it is not initialized or it has the right bits.
-/
set_option linter.unusedSimpArgs false
namespace Semnet.Race
open Class

/-- `me`: the process; `tot`: nothing fails and the program has to succeed; `fz`: the state since which no process has
  added text; `al`: the storages that may answer while no text is added; `weak`: assignments to the bit layer may be seen in
  any order, or not at all. -/
structure RC where
  cfg : Cfg
  lim : Lim
  bs : BitE × BitE
  me : Nat
  tot : Bool
  fz : Option Rt
  al : Cfg → Prop
  weak : Bool

/-- A storage call may be answered by any storage of this kind; while no text is added, by `C.cfg` and those allowed only. -/
def RC.Like (C : RC) (c : Cfg) : Prop := c.dup = C.cfg.dup ∧ (C.fz ≠ none → C.al c ∨ c = C.cfg)

theorem RC.like (C : RC) : C.Like C.cfg := ⟨rfl, fun _ => .inr rfl⟩

abbrev RC.I (C : RC) (σ : Rt) : Prop := RI C.cfg C.lim C.bs C.fz σ

/-- the creator's rights to node `x` have been respected -/
structure Kept (s : Bool) (σ σ' : Rt) (x : Nat) : Prop where
  fwd : σ'.fwd x = σ.fwd x
  back : σ'.back x = σ.back x
  T : tkeep s (σ.tag x) = true → σ'.T x = σ.T x
  S : (σ.tag x).scrit = true → σ'.S x = σ.S x

/-- A later state; the nodes this process had created before are as they were. -/
structure Later (C : RC) (σ σ' : Rt) : Prop where
  inv : C.I σ'
  mono : RMono σ σ'
  keep : ∀ x, σ.tag x ≠ .none → σ.own x = C.me → Kept C.lim.solo σ σ' x

/-- what the other processes may do -/
structure Env (C : RC) (σ σ' : Rt) : Prop extends Later C σ σ'

/-- what this process may do -/
structure Guar (C : RC) (σ σ' : Rt) : Prop where
  inv : C.I σ'
  mono : RMono σ σ'
  keep : ∀ x, σ.tag x ≠ .none → σ.own x ≠ C.me → Kept C.lim.solo σ σ' x

theorem Kept.refl {s : Bool} (σ : Rt) (x : Nat) : Kept s σ σ x := ⟨rfl, rfl, fun _ => rfl, fun _ => rfl⟩

theorem Kept.trans {s : Bool} {a b c : Rt} (m : RMono a b) {x : Nat} (hx : a.tag x ≠ .none) (h : Kept s a b x)
    (h' : Kept s b c x) : Kept s a c x where
  fwd := h'.fwd.trans h.fwd
  back := h'.back.trans h.back
  T ht := (h'.T (by rw [m.tag x hx]; exact ht)).trans (h.T ht)
  S ht := (h'.S (by rw [m.tag x hx]; exact ht)).trans (h.S ht)

theorem Later.refl {C : RC} {σ : Rt} (hi : C.I σ) : Later C σ σ := ⟨hi, .refl σ, fun x _ _ => .refl σ x⟩
theorem Later.trans {C : RC} {a b c : Rt} (h : Later C a b) (h' : Later C b c) : Later C a c :=
  ⟨h'.inv, h.mono.trans h'.mono, fun x hx ho => (h.keep x hx ho).trans h.mono hx
    (h'.keep x (by rw [h.mono.tag x hx]; exact hx) (by rw [h.mono.own x hx]; exact ho))⟩
theorem Env.refl {C : RC} {σ : Rt} (hi : C.I σ) : Env C σ σ := ⟨.refl hi⟩
theorem Env.trans {C : RC} {a b c : Rt} (h : Env C a b) (h' : Env C b c) : Env C a c :=
  ⟨h.toLater.trans h'.toLater⟩
theorem Guar.refl {C : RC} {σ : Rt} (hi : C.I σ) : Guar C σ σ := ⟨hi, .refl σ, fun x _ _ => .refl σ x⟩

/-- the state after a storage call -/
def Rt.after (cfg : Cfg) (σ : Rt) (o : Op) (tag : Nat → Tag) (own : Nat → Nat) : Rt :=
  { σ with store := (σ.store.step cfg o).2, tag := tag, own := own }

/-- assignments may be missed; that is dealt with only where failing is allowed and there is no node 0 -/
def RC.hazy (C : RC) : Bool := C.weak && !C.tot && !C.cfg.zero

/-- an entity that has not been assigned -/
def blank : BitE := ⟨false, 0, 0, false⟩

/-- each entity is right or has not been assigned -/
def Hazy (bs : BitE × BitE) (m : Layer) : Prop :=
  (m.zeroEntity = bs.1 ∨ m.zeroEntity = blank) ∧ (m.oneEntity = bs.2 ∨ m.oneEntity = blank)

/-- what may be seen of the bit layer -/
def RC.Sees (C : RC) (κ : Know) (m : Layer) : Prop := (C.hazy = true ∧ Hazy C.bs m) ∨ (C.hazy = false ∧ MemAt C.bs κ m)

theorem RC.tot_crisp {C : RC} (h : C.tot = true) : C.hazy = false := by simp [RC.hazy, h]

theorem RC.crisp {C : RC} (h : C.weak = false) : C.hazy = false := by simp [RC.hazy, h]

/-- `κ`: what the process knows of its bit layer -/
def rwpk {α : Type} (C : RC) (Q : Out α → Rt → Prop) : Go α → Know → Rt → Prop
  | .ok a, _, σ => Q (.ok a) σ
  | .err e, _, σ => Q (.err e) σ
  | .panic, _, σ => Q .panic σ
  | .spin, _, σ => Q .spin σ
  | .op o k, κ, σ => ∀ c, C.Like c → ∀ σ1, Env C σ σ1 →
      (∃ tag own, Guar C σ1 (σ1.after c o tag own) ∧
        rwpk C Q (k (σ1.store.step c o).1) κ (σ1.after c o tag own)) ∧
      (C.tot = false → rwpk C Q (k (.error .fault)) κ σ1) ∧
      (C.tot = false → ∃ tag own, Guar C σ1 (σ1.after c o tag own) ∧
        rwpk C Q (k (.error .fault)) κ (σ1.after c o tag own))
  | .getMem k, κ, σ => ∀ m, C.Sees κ m → rwpk C Q (k m) (κ.learn m) σ
  | .setMem u k, κ, σ => ∃ κ', κ.assign C.bs u = some κ' ∧ rwpk C Q k κ' σ

/-- whatever it knows -/
def rwp {α : Type} (C : RC) (Q : Out α → Rt → Prop) (p : Go α) (σ : Rt) : Prop := ∀ κ, rwpk C Q p κ σ

theorem rwpk_mono {α : Type} {C : RC} {Q Q' : Out α → Rt → Prop} (hQ : ∀ o σ, Q o σ → Q' o σ) :
    ∀ {p : Go α} {κ : Know} {σ : Rt}, rwpk C Q p κ σ → rwpk C Q' p κ σ := by
  intro p
  induction p with
  | ok a => exact fun h => hQ _ _ h
  | err e => exact fun h => hQ _ _ h
  | panic => exact fun h => hQ _ _ h
  | spin => exact fun h => hQ _ _ h
  | op o k ih =>
    intro κ σ h c hc σ1 he
    obtain ⟨⟨t, b, hs, h1⟩, h2, h3⟩ := h c hc σ1 he
    refine ⟨⟨t, b, hs, ih _ h1⟩, fun hF => ih _ (h2 hF), fun hF => ?_⟩
    obtain ⟨t, b, hs, h4⟩ := h3 hF
    exact ⟨t, b, hs, ih _ h4⟩
  | getMem k ih => intro κ σ h m hm; exact ih _ (h m hm)
  | setMem u k ih => intro κ σ ⟨κ', h1, h2⟩; exact ⟨κ', h1, ih h2⟩

theorem rwp_mono {α : Type} {C : RC} {Q Q' : Out α → Rt → Prop} (hQ : ∀ o σ, Q o σ → Q' o σ)
    {p : Go α} {σ : Rt} (h : rwp C Q p σ) : rwp C Q' p σ := fun κ => rwpk_mono hQ (h κ)

/-- continuation of a sequence -/
def RSeq {α β : Type} (C : RC) (f : α → Go β) (Q : Out β → Rt → Prop) : Out α → Rt → Prop
  | .ok a, σ => rwp C Q (f a) σ
  | .err e, σ => Q (.err e) σ
  | .panic, σ => Q .panic σ
  | .spin, σ => Q .spin σ

theorem rwpk_bind {α β : Type} {C : RC} {f : α → Go β} {Q : Out β → Rt → Prop} :
    ∀ {p : Go α} {κ : Know} {σ : Rt}, rwpk C (RSeq C f Q) p κ σ → rwpk C Q (p >>= f) κ σ := by
  intro p
  show ∀ {κ : Know} {σ : Rt}, rwpk C (RSeq C f Q) p κ σ → rwpk C Q (p.bind f) κ σ
  induction p with
  | ok a => exact fun {κ _} h => h κ
  | err e => exact fun h => h
  | panic => exact fun h => h
  | spin => exact fun h => h
  | op o k ih =>
    intro κ σ h c hc σ1 he
    obtain ⟨⟨t, b, hs, h1⟩, h2, h3⟩ := h c hc σ1 he
    refine ⟨⟨t, b, hs, ih _ h1⟩, fun hF => ih _ (h2 hF), fun hF => ?_⟩
    obtain ⟨t, b, hs, h4⟩ := h3 hF
    exact ⟨t, b, hs, ih _ h4⟩
  | getMem k ih => intro κ σ h m hm; exact ih _ (h m hm)
  | setMem u k ih => intro κ σ ⟨κ', h1, h2⟩; exact ⟨κ', h1, ih h2⟩

theorem rwp_bind {α β : Type} {C : RC} {f : α → Go β} {Q : Out β → Rt → Prop} {p : Go α} {σ : Rt}
    (h : rwp C (RSeq C f Q) p σ) : rwp C Q (p >>= f) σ := fun κ => rwpk_bind (h κ)

def RAtt {α : Type} (Q : Out (Except Err α) → Rt → Prop) : Out α → Rt → Prop
  | .ok a, σ => Q (.ok (.ok a)) σ
  | .err e, σ => Q (.ok (.error e)) σ
  | .panic, σ => Q .panic σ
  | .spin, σ => Q .spin σ

theorem rwpk_attempt {α : Type} {C : RC} {Q : Out (Except Err α) → Rt → Prop} :
    ∀ {p : Go α} {κ : Know} {σ : Rt}, rwpk C (RAtt Q) p κ σ → rwpk C Q p.attempt κ σ := by
  intro p
  induction p with
  | ok a => exact fun h => h
  | err e => exact fun h => h
  | panic => exact fun h => h
  | spin => exact fun h => h
  | op o k ih =>
    intro κ σ h c hc σ1 he
    obtain ⟨⟨t, b, hs, h1⟩, h2, h3⟩ := h c hc σ1 he
    refine ⟨⟨t, b, hs, ih _ h1⟩, fun hF => ih _ (h2 hF), fun hF => ?_⟩
    obtain ⟨t, b, hs, h4⟩ := h3 hF
    exact ⟨t, b, hs, ih _ h4⟩
  | getMem k ih => intro κ σ h m hm; exact ih _ (h m hm)
  | setMem u k ih => intro κ σ ⟨κ', h1, h2⟩; exact ⟨κ', h1, ih h2⟩

theorem rwp_attempt {α : Type} {C : RC} {Q : Out (Except Err α) → Rt → Prop} {p : Go α} {σ : Rt}
    (h : rwp C (RAtt Q) p σ) : rwp C Q p.attempt σ := fun κ => rwpk_attempt (h κ)

/-! ### triples -/

/-- On success `good`; failure only if failure is allowed; the loop budget is never used up.  `σ0` is the state when the enclosing program began. -/
def Post {α : Type} (C : RC) (σ0 : Rt) (good : α → Rt → Prop) (out : Out α) (σ' : Rt) : Prop :=
  Later C σ0 σ' ∧
    match out with
    | .ok a => good a σ'
    | .spin => False
    | _ => C.tot = false

def From {α : Type} (C : RC) (σ0 : Rt) (good : α → Rt → Prop) (p : Go α) (σ : Rt) : Prop := rwp C (Post C σ0 good) p σ

/-- the program begins here -/
abbrev Does {α : Type} (C : RC) (good : α → Rt → Prop) (p : Go α) (σ : Rt) : Prop := From C σ good p σ

theorem From.ret {α : Type} {C : RC} {σ0 : Rt} {good : α → Rt → Prop} {a : α} {σ : Rt} (hl : Later C σ0 σ)
    (h : good a σ) : From C σ0 good (pure a) σ := fun _ => ⟨hl, h⟩

theorem Does.ret {α : Type} {C : RC} {good : α → Rt → Prop} {a : α} {σ : Rt} (hi : C.I σ)
    (h : good a σ) : Does C good (pure a) σ := From.ret (.refl hi) h

theorem From.err {α : Type} {C : RC} {σ0 : Rt} {good : α → Rt → Prop} {e : Err} {σ : Rt} (hl : Later C σ0 σ)
    (h : C.tot = false) : From C σ0 good (Go.err e) σ := fun _ => ⟨hl, h⟩
theorem From.panic {α : Type} {C : RC} {σ0 : Rt} {good : α → Rt → Prop} {σ : Rt} (hl : Later C σ0 σ)
    (h : C.tot = false) : From C σ0 good Go.panic σ := fun _ => ⟨hl, h⟩

theorem From.cons {α : Type} {C : RC} {σ0 : Rt} {good good' : α → Rt → Prop} {p : Go α} {σ : Rt} (h : From C σ0 good p σ)
    (hg : ∀ a σ', Later C σ0 σ' → good a σ' → good' a σ') : From C σ0 good' p σ := by
  refine rwp_mono ?_ h
  intro o σ' ⟨h1, h3⟩
  exact ⟨h1, by cases o <;> simp_all⟩

theorem From.bind {α β : Type} {C : RC} {σ0 : Rt} {good : α → Rt → Prop} {good' : β → Rt → Prop} {p : Go α} {f : α → Go β}
    {σ : Rt} (h : From C σ0 good p σ)
    (hf : ∀ a σ', Later C σ0 σ' → good a σ' → From C σ0 good' (f a) σ') : From C σ0 good' (p >>= f) σ := by
  refine rwp_bind (rwp_mono ?_ h)
  intro o σ' ⟨h1, h3⟩
  cases o with
  | ok a => exact hf a σ' h1 h3
  | err e => exact ⟨h1, h3⟩
  | panic => exact ⟨h1, h3⟩
  | spin => exact ⟨h1, h3⟩

/-- a part of a program, by itself -/
theorem Does.from {α : Type} {C : RC} {σ0 : Rt} {good : α → Rt → Prop} {p : Go α} {σ : Rt} (hl : Later C σ0 σ)
    (h : Does C good p σ) : From C σ0 (fun a σ' => Later C σ σ' ∧ good a σ') p σ := by
  refine rwp_mono ?_ h
  intro o σ' ⟨h1, h3⟩
  exact ⟨hl.trans h1, by cases o <;> simp_all⟩

theorem Does.bind {α β : Type} {C : RC} {good : α → Rt → Prop} {good' : β → Rt → Prop} {p : Go α} {f : α → Go β}
    {σ : Rt} (h : Does C good p σ)
    (hf : ∀ a σ', Later C σ σ' → good a σ' → Does C good' (f a) σ') : Does C good' (p >>= f) σ :=
  From.bind h fun a σ' h1 h2 => ((hf a σ' h1 h2).from h1).cons fun _ _ _ h => h.2

theorem From.attempt {α : Type} {C : RC} {σ0 : Rt} {good : α → Rt → Prop} {p : Go α} {σ : Rt} (h : From C σ0 good p σ) :
    From C σ0 (fun (r : Except Err α) σ' => match r with | .ok a => good a σ' | .error _ => C.tot = false) p.attempt σ := by
  refine rwp_attempt (rwp_mono ?_ h)
  intro o σ' ⟨h1, h3⟩
  cases o <;> exact ⟨h1, h3⟩

/-- attempt followed by an immediate dereference of the result -/
theorem Does.attemptDeref {α β : Type} {C : RC} {good : α → Rt → Prop} {good' : β → Rt → Prop} {p : Go α}
    {f : α → Go β} {σ : Rt} (h : Does C good p σ)
    (hf : ∀ a σ', Later C σ σ' → good a σ' → Does C good' (f a) σ') :
    Does C good' (do let r ← p.attempt; let a ← Character.deref r.toOption; f a) σ := by
  refine From.bind h.attempt ?_
  intro r σ' h1 h2
  cases r with
  | ok a => exact ((hf a σ' h1 h2).from h1).cons fun _ _ _ h => h.2
  | error e => exact fun _ => ⟨h1, h2⟩

/-! ### reading -/

theorem From.read {C : RC} {σ0 : Rt} {o : Op} {good : o.Res → Rt → Prop} {σ : Rt} (hl : Later C σ0 σ)
    (hro : ∀ (c : Cfg) (s : Store), (s.step c o).2 = s)
    (h : ∀ c, C.Like c → ∀ σ1, Env C σ σ1 →
      match (σ1.store.step c o).1 with | .ok a => good a σ1 | .error _ => C.tot = false) :
    From C σ0 good (Go.call o) σ := by
  intro _ c hc σ1 he
  have e1 : σ1.after c o σ1.tag σ1.own = σ1 := by
    simp only [Rt.after, hro]
  have hl1 := hl.trans he.toLater
  refine ⟨⟨σ1.tag, σ1.own, ?_, ?_⟩, fun hF => ⟨hl1, hF⟩, fun hF => ⟨σ1.tag, σ1.own, ?_, ?_⟩⟩
  · rw [e1]; exact .refl he.inv
  · rw [e1]
    have := h c hc σ1 he
    revert this
    cases (σ1.store.step c o).1 with
    | ok a => exact fun hg => ⟨hl1, hg⟩
    | error e => exact fun hg => ⟨hl1, hg⟩
  · rw [e1]; exact .refl he.inv
  · rw [e1]; exact ⟨hl1, hF⟩

theorem RI.liveT {cfg lim bs fz} {σ : Rt} (hi : RI cfg lim bs fz σ) {x t} (h : σ.tag x = t) (ht : t ≠ .none) :
    σ.store.live x = true := (hi.live x).2 (by rw [h]; exact ht)

/-- targets of `x`, listing order unknown -/
theorem Does.targets {C : RC} {σ : Rt} (hi : C.I σ) {x : Nat} (hx : σ.tag x ≠ .none)
    {good : List Nat → Rt → Prop}
    (h : ∀ σ1 l, Later C σ σ1 → l.Perm (σ1.T x) → good l σ1) :
    Does C good (Go.readTargets x) σ := by
  refine From.read (.refl hi) (fun _ _ => rfl) ?_
  intro c hc σ1 h1
  have hl : σ1.store.live x = true := (h1.inv.live x).2 (by rw [h1.mono.tag x hx]; exact hx)
  simp only [Store.step, hl, if_true]
  exact h σ1 _ h1.toLater (c.ord_perm _ _ _)

theorem Does.sources {C : RC} {σ : Rt} (hi : C.I σ) {x : Nat} (hx : σ.tag x ≠ .none)
    {good : List Nat → Rt → Prop}
    (h : ∀ σ1 l, Later C σ σ1 → l.Perm (σ1.S x) → good l σ1) :
    Does C good (Go.readSources x) σ := by
  refine From.read (.refl hi) (fun _ _ => rfl) ?_
  intro c hc σ1 h1
  have hl : σ1.store.live x = true := (h1.inv.live x).2 (by rw [h1.mono.tag x hx]; exact hx)
  simp only [Store.step, hl, if_true]
  exact h σ1 _ h1.toLater (c.ord_perm _ _ _)

theorem Does.targets1 {C : RC} {σ : Rt} (hi : C.I σ) {x y : Nat} {t : Tag} (hx : σ.tag x = t)
    (ht : tfix t = true) (hT : σ.T x = [y]) : Does C (fun a _ => a = [y]) (Go.readTargets x) σ := by
  refine Does.targets hi (by rw [hx]; exact tag_ne_of_tfix ht) ?_
  intro σ1 l h1 hl
  rw [h1.mono.Teq hx ht hT (by simp)] at hl
  exact perm_one hl

theorem Does.sources1 {C : RC} {σ : Rt} (hi : C.I σ) {x y : Nat} {t : Tag} (hx : σ.tag x = t)
    (ht : t.scrit = true) (hS : σ.S x = [y]) : Does C (fun a _ => a = [y]) (Go.readSources x) σ := by
  refine Does.sources hi (by rw [hx]; exact tag_ne_of_scrit ht) ?_
  intro σ1 l h1 hl
  rw [h1.mono.Seq hx ht hS (by simp)] at hl
  exact perm_one hl

theorem Does.sources0 {C : RC} {σ : Rt} (hi : C.I σ) {x : Nat} {t : Tag} (hx : σ.tag x = t)
    (ht : t.noS = true) : Does C (fun a _ => a = []) (Go.readSources x) σ := by
  refine Does.sources hi (by rw [hx]; exact tag_ne_of_noS ht) ?_
  intro σ1 l h1 hl
  rw [h1.inv.noS x (by rw [h1.mono.tag x (by rw [hx]; exact tag_ne_of_noS ht), hx]; exact ht)] at hl
  exact perm_nil' hl

theorem Does.targets0 {C : RC} {σ : Rt} (hi : C.I σ) {x : Nat} {t : Tag} (hx : σ.tag x = t)
    (ht : t.noT = true) : Does C (fun a _ => a = []) (Go.readTargets x) σ := by
  refine Does.targets hi (by rw [hx]; exact tag_ne_of_noT ht) ?_
  intro σ1 l h1 hl
  rw [h1.inv.noT x (by rw [h1.mono.tag x (by rw [hx]; exact tag_ne_of_noT ht), hx]; exact ht)] at hl
  exact perm_nil' hl

theorem Does.getRef {C : RC} {σ : Rt} (hi : C.I σ) {x : Nat} (hx : σ.tag x ≠ .none)
    {good : Nat × Nat → Rt → Prop}
    (h : ∀ σ1, Later C σ σ1 → good (σ1.back x, σ1.fwd x) σ1) :
    Does C good (Go.getReference x) σ := by
  refine From.read (.refl hi) (fun _ _ => rfl) ?_
  intro c hc σ1 h1
  have hl : σ1.store.live x = true := (h1.inv.live x).2 (by rw [h1.mono.tag x hx]; exact hx)
  simp only [Store.step, hl, if_true]
  exact h σ1 h1.toLater

/-- the reference of node 0 cannot be read -/
theorem Does.getRef0 {C : RC} (hC : C.tot = false) (hz : C.cfg.zero = false) {σ : Rt} (hi : C.I σ)
    {good : Nat × Nat → Rt → Prop} : Does C good (Go.getReference 0) σ := by
  refine From.read (.refl hi) (fun _ _ => rfl) ?_
  intro c hc σ1 h1
  have hl : σ1.store.live 0 = false := by
    cases h : σ1.store.live 0 with
    | false => rfl
    | true => exact absurd (h1.inv.node0 hz) ((h1.inv.live 0).1 h)
  simp only [Store.step, hl]
  exact hC

theorem refTagx {cfg lim bs fz} {σ : Rt} (hi : RI cfg lim bs fz σ) {x y} (h : Ref σ x y) : σ.tag x ≠ .none := by
  intro h0
  exact h.hy (h.f ▸ (hi.ref0 x h0).1)
theorem refTagy {cfg lim bs fz} {σ : Rt} (hi : RI cfg lim bs fz σ) {x y} (h : Ref σ x y) : σ.tag y ≠ .none := by
  intro h0
  exact h.hx (h.b ▸ (hi.ref0 y h0).2)

/-- inner node of a chain -/
theorem Does.getRefMid {C : RC} {σ : Rt} (hi : C.I σ) {w x y : Nat} (h1 : Ref σ w x)
    (h2 : Ref σ x y) : Does C (fun a _ => a = (w, y)) (Go.getReference x) σ :=
  Does.getRef hi (refTagx hi h2) fun _ he => by
    have e1 := (he.mono.ref h1).b
    have e2 := (he.mono.ref h2).f
    simp only [e1, e2]

/-- first node of a chain -/
theorem Does.getRefF {C : RC} {σ : Rt} (hi : C.I σ) {x y : Nat}
    (h2 : Ref σ x y) : Does C (fun a _ => a.2 = y) (Go.getReference x) σ :=
  Does.getRef hi (refTagx hi h2) fun _ he => (he.mono.ref h2).f

/-- last node of a chain -/
theorem Does.getRefB {C : RC} {σ : Rt} (hi : C.I σ) {x y : Nat}
    (h2 : Ref σ x y) : Does C (fun a _ => a.1 = x) (Go.getReference y) σ :=
  Does.getRef hi (refTagy hi h2) fun _ he => (he.mono.ref h2).b

theorem Does.provideEntity {C : RC} {σ : Rt} (hi : C.I σ) :
    Does C (fun _ _ => True) Class.provideEntity σ := by
  unfold Class.provideEntity
  refine Does.bind (good := fun a _ => a = true) ?_ ?_
  · refine From.read (.refl hi) (fun _ _ => rfl) ?_
    intro c hc σ1 h1
    exact h1.inv.liveT (h1.inv.Sroot (by omega) (by omega)) (by simp)
  · intro a σ' h1 ha
    subst ha
    exact Does.ret h1.inv trivial

end Semnet.Race
