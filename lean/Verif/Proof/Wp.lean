import Verif.Proof.Stable
/-
  Program logic for `Go`.
-/
set_option linter.unusedSimpArgs false
namespace Semnet

/-! ### monad laws -/

theorem Go.bind_ok {α : Type} (p : Go α) : p.bind Go.ok = p := by
  induction p with
  | op o k ih => simp only [Go.bind]; congr 1; funext r; exact ih r
  | getMem k ih => simp only [Go.bind]; congr 1; funext r; exact ih r
  | setMem m k ih => simp only [Go.bind]; rw [ih]
  | _ => rfl

theorem Go.bind_assoc' {α β γ : Type} (p : Go α) (f : α → Go β) (g : β → Go γ) :
    (p.bind f).bind g = p.bind (fun a => (f a).bind g) := by
  induction p with
  | op o k ih => simp only [Go.bind]; congr 1; funext r; exact ih r
  | getMem k ih => simp only [Go.bind]; congr 1; funext r; exact ih r
  | setMem m k ih => simp only [Go.bind]; rw [ih]
  | _ => rfl

instance : LawfulMonad Go := LawfulMonad.mk'
  (id_map := fun p => Go.bind_ok p)
  (pure_bind := fun _ _ => rfl)
  (bind_assoc := fun p f g => Go.bind_assoc' p f g)
  (bind_pure_comp := fun _ _ => rfl)

/-- Verification context: storage, limits, may storage calls fail (`F`), may another process write between
    our storage calls (`R`; then we may only read), does the program touch what is above the details (`up`). -/
structure Ctx where
  cfg : Cfg
  lim : Lim
  F : Bool
  R : Bool
  up : Bool
  lo : Bool

/-- `σ'` is a possible later state. -/
structure Ext (C : Ctx) (σ σ' : St) : Prop where
  inv : Inv C.cfg C.lim σ'
  mono : Mono σ σ'
  flt : σ.flt = true → σ'.flt = true

/-- same storage and ghost state -/
structure Same (σ σ' : St) : Prop where
  store : σ'.store = σ.store
  tag : σ'.tag = σ.tag
  bits : σ'.bits = σ.bits

def St.after (cfg : Cfg) (σ : St) (o : Op) (tag : Nat → Tag) (bits : Option (BitE × BitE)) : St :=
  { σ with store := (σ.store.step cfg o).2, tag := tag, bits := bits }

def St.fail (σ : St) : St := { σ with flt := true }

/-- what each single step must guarantee -/
structure Step (C : Ctx) (σ σ' : St) : Prop where
  ext : (C.F || C.R) = true → Ext C σ σ'
  ro : C.R = true → Same σ σ'

/-- A storage that does with an existing edge what `cfg` does; the listing order and the identifiers consumed by an
    edge may be others. -/
def Cfg.Like (cfg c : Cfg) : Prop := c.dup = cfg.dup

theorem Cfg.Like.refl (cfg : Cfg) : cfg.Like cfg := rfl

/-- what other processes may do between two steps -/
def Env (C : Ctx) (σ σ1 : St) : Prop :=
  if C.R then Ext C σ σ1 ∧ σ1.mem = σ.mem ∧ σ1.flt = σ.flt else σ1 = σ

def wp {α : Type} (C : Ctx) (Q : Out α → St → Prop) : Go α → St → Prop
  | .ok a, σ => Q (.ok a) σ
  | .err e, σ => Q (.err e) σ
  | .panic, σ => Q .panic σ
  | .spin, σ => Q .spin σ
  | .op o k, σ => ∀ σ1, Env C σ σ1 → ∀ c, C.cfg.Like c →
      (∃ tag bits, Step C σ1 (σ1.after c o tag bits) ∧
        wp C Q (k (σ1.store.step c o).1) (σ1.after c o tag bits)) ∧
      (C.F = true → Step C σ1 σ1.fail ∧ wp C Q (k (.error .fault)) σ1.fail) ∧
      (C.F = true → ∃ tag bits, Step C σ1 (σ1.after c o tag bits).fail ∧
        wp C Q (k (.error .fault)) (σ1.after c o tag bits).fail)
  | .getMem k, σ => wp C Q (k σ.mem) σ
  | .setMem m k, σ => Step C σ { σ with mem := σ.mem.set m } ∧ wp C Q k { σ with mem := σ.mem.set m }

theorem wp_mono {α : Type} {C : Ctx} {Q Q' : Out α → St → Prop} (hQ : ∀ o σ, Q o σ → Q' o σ) :
    ∀ {p : Go α} {σ : St}, wp C Q p σ → wp C Q' p σ := by
  intro p
  induction p with
  | ok a => exact fun h => hQ _ _ h
  | err e => exact fun h => hQ _ _ h
  | panic => exact fun h => hQ _ _ h
  | spin => exact fun h => hQ _ _ h
  | op o k ih =>
    intro σ h σ1 he c hl
    obtain ⟨⟨t, b, hs, h1⟩, h2, h3⟩ := h σ1 he c hl
    refine ⟨⟨t, b, hs, ih _ h1⟩, fun hF => ⟨(h2 hF).1, ih _ (h2 hF).2⟩, fun hF => ?_⟩
    obtain ⟨t, b, hs, h4⟩ := h3 hF
    exact ⟨t, b, hs, ih _ h4⟩
  | getMem k ih => intro σ h; exact ih _ h
  | setMem m k ih => intro σ h; exact ⟨h.1, ih h.2⟩

/-- continuation of a sequence -/
def Seq {α β : Type} (C : Ctx) (f : α → Go β) (Q : Out β → St → Prop) : Out α → St → Prop
  | .ok a, σ => wp C Q (f a) σ
  | .err e, σ => Q (.err e) σ
  | .panic, σ => Q .panic σ
  | .spin, σ => Q .spin σ

theorem wp_bind {α β : Type} {C : Ctx} {f : α → Go β} {Q : Out β → St → Prop} :
    ∀ {p : Go α} {σ : St}, wp C (Seq C f Q) p σ → wp C Q (p >>= f) σ := by
  intro p
  show ∀ {σ : St}, wp C (Seq C f Q) p σ → wp C Q (p.bind f) σ
  induction p with
  | ok a => exact fun h => h
  | err e => exact fun h => h
  | panic => exact fun h => h
  | spin => exact fun h => h
  | op o k ih =>
    intro σ h σ1 he c hl
    obtain ⟨⟨t, b, hs, h1⟩, h2, h3⟩ := h σ1 he c hl
    refine ⟨⟨t, b, hs, ih _ h1⟩, fun hF => ⟨(h2 hF).1, ih _ (h2 hF).2⟩, fun hF => ?_⟩
    obtain ⟨t, b, hs, h4⟩ := h3 hF
    exact ⟨t, b, hs, ih _ h4⟩
  | getMem k ih => intro σ h; exact ih _ h
  | setMem m k ih => intro σ h; exact ⟨h.1, ih h.2⟩

def Att {α : Type} (Q : Out (Except Err α) → St → Prop) : Out α → St → Prop
  | .ok a, σ => Q (.ok (.ok a)) σ
  | .err e, σ => Q (.ok (.error e)) σ
  | .panic, σ => Q .panic σ
  | .spin, σ => Q .spin σ

theorem wp_attempt {α : Type} {C : Ctx} {Q : Out (Except Err α) → St → Prop} :
    ∀ {p : Go α} {σ : St}, wp C (Att Q) p σ → wp C Q p.attempt σ := by
  intro p
  induction p with
  | ok a => exact fun h => h
  | err e => exact fun h => h
  | panic => exact fun h => h
  | spin => exact fun h => h
  | op o k ih =>
    intro σ h σ1 he c hl
    obtain ⟨⟨t, b, hs, h1⟩, h2, h3⟩ := h σ1 he c hl
    refine ⟨⟨t, b, hs, ih _ h1⟩, fun hF => ⟨(h2 hF).1, ih _ (h2 hF).2⟩, fun hF => ?_⟩
    obtain ⟨t, b, hs, h4⟩ := h3 hF
    exact ⟨t, b, hs, ih _ h4⟩
  | getMem k ih => intro σ h; exact ih _ h
  | setMem m k ih => intro σ h; exact ⟨h.1, ih h.2⟩

/-! ### basic facts -/

theorem Same.refl (σ : St) : Same σ σ := ⟨rfl, rfl, rfl⟩
theorem Same.symm {σ σ' : St} (h : Same σ σ') : Same σ' σ := ⟨h.1.symm, h.2.symm, h.3.symm⟩
theorem Same.trans {a b c : St} (h : Same a b) (h' : Same b c) : Same a c :=
  ⟨h'.1.trans h.1, h'.2.trans h.2, h'.3.trans h.3⟩
theorem Same.T {σ σ' : St} (h : Same σ σ') : σ'.T = σ.T := by funext x; simp [St.T, h.store]
theorem Same.S {σ σ' : St} (h : Same σ σ') : σ'.S = σ.S := by funext x; simp [St.S, h.store]
theorem Same.fwd {σ σ' : St} (h : Same σ σ') : σ'.fwd = σ.fwd := by funext x; simp [St.fwd, h.store]
theorem Same.back {σ σ' : St} (h : Same σ σ') : σ'.back = σ.back := by funext x; simp [St.back, h.store]

theorem Same.charEnt {σ σ' : St} (h : Same σ σ') {p e} (he : CharEnt σ p e) : CharEnt σ' p e := by
  apply CharEnt.mono _ he
  constructor <;> intros <;> simp_all [h.T, h.S, h.fwd, h.back, h.tag, h.bits, h.store]

theorem Same.mono {σ σ' : St} (h : Same σ σ') : Mono σ σ' := by
  constructor <;> intros <;> simp_all [h.T, h.S, h.fwd, h.back, h.tag, h.bits, h.store]

theorem BitsOK.same {σ σ' : St} (h : Same σ σ') {bs} (hb : BitsOK σ bs) : BitsOK σ' bs := by
  refine ⟨hb.v0, hb.v1, hb.s0, hb.s1, hb.lt, ?_, ?_, ?_, hb.c0, hb.c1, ?_, ?_, ?_, ?_, ?_⟩ <;>
    simp only [h.S, h.fwd, h.tag]
  · exact hb.S1
  · exact hb.f0
  · exact hb.f1
  · exact hb.t0
  · exact hb.t1
  · exact hb.tc0
  · exact hb.tc1
  · exact hb.only

theorem Inv.same {cfg lim} {σ σ' : St} (h : Same σ σ') (hi : Inv cfg lim σ)
    (hm : σ'.mem.isInitialized = true → σ.bits = some (σ'.mem.zeroEntity, σ'.mem.oneEntity)) :
    Inv cfg lim σ' where
  dup := hi.dup
  next := by rw [h.store]; exact hi.next
  live := by rw [h.store, h.tag]; exact hi.live
  bound := by rw [h.store, h.tag]; exact hi.bound
  zero := by rw [h.tag]; exact hi.zero
  node0 := by rw [h.tag]; exact hi.node0
  root := by rw [h.tag]; exact hi.root
  nodup := by rw [h.store]; exact hi.nodup
  edge := by rw [h.store]; exact fun x y hxy => (hi.edge x y hxy).mono h.mono
  ref0 := by rw [h.fwd, h.back, h.tag]; exact hi.ref0
  noF := by rw [h.fwd, h.tag]; exact hi.noF
  noB := by rw [h.back, h.tag]; exact hi.noB
  refB := by rw [h.fwd, h.back]; exact hi.refB
  refDt := by rw [h.fwd, h.tag]; exact hi.refDt
  tcrit := by rw [h.T, h.tag]; exact hi.tcrit
  noT := by rw [h.T, h.tag]; exact hi.noT
  scrit := by rw [h.S, h.tag]; exact hi.scrit
  noS := by rw [h.S, h.tag]; exact hi.noS
  tagOK := by rw [h.tag]; exact hi.tagOK
  sib := by rw [h.store, h.tag]; exact hi.sib
  bits := by
    have := hi.bits
    rw [h.bits]
    cases hb : σ.bits with
    | none => rw [hb] at this; simpa [h.S, h.tag] using this
    | some bs => rw [hb] at this; exact BitsOK.same h this
  roots := by rw [h.fwd]; exact hi.roots
  ends := by rw [h.fwd, h.back]; exact hi.ends
  mem := by rw [h.bits]; exact hm

theorem CleanB.same {σ σ' : St} (h : Same σ σ') (hc : CleanB σ) : CleanB σ' := by
  constructor <;> simp only [h.T, h.S, h.fwd, h.tag]
  · exact hc.full
  · exact hc.uniq
  · exact hc.zero

theorem Wholes.same {σ σ' : St} (h : Same σ σ') (hc : Wholes σ) : Wholes σ' :=
  hc.mono h.mono (fun x k hx => .inl (by rw [← h.tag]; exact hx))
    fun y hy => .inl (by rw [← h.tag]; exact hy)

theorem Clean.same {σ σ' : St} (h : Same σ σ') (hc : Clean σ) : Clean σ' :=
  ⟨hc.toCleanB.same h, hc.whole.same h⟩

theorem Ext.refl {C : Ctx} {σ : St} (h : Inv C.cfg C.lim σ) : Ext C σ σ := ⟨h, .refl σ, id⟩
theorem Ext.trans {C : Ctx} {a b c : St} (h : Ext C a b) (h' : Ext C b c) : Ext C a c :=
  ⟨h'.inv, h.mono.trans h'.mono, h'.flt ∘ h.flt⟩

theorem Same.fail (σ : St) : Same σ σ.fail := ⟨rfl, rfl, rfl⟩

theorem Ext.fail {C : Ctx} {σ : St} (h : Inv C.cfg C.lim σ) : Ext C σ σ.fail :=
  ⟨h.same (Same.fail σ) h.mem, (Same.fail σ).mono, fun _ => rfl⟩

theorem Step.of_same {C : Ctx} {σ σ' : St} (h : Inv C.cfg C.lim σ) (hs : Same σ σ') (hm : σ'.mem = σ.mem)
    (hf : σ.flt = true → σ'.flt = true) : Step C σ σ' :=
  ⟨fun _ => ⟨h.same hs (by rw [hm]; exact h.mem), hs.mono, hf⟩, fun _ => hs⟩

theorem Env.ext {C : Ctx} {σ σ1 : St} (hi : Inv C.cfg C.lim σ) (h : Env C σ σ1) : Ext C σ σ1 := by
  unfold Env at h
  split at h
  · exact h.1
  · subst h; exact Ext.refl hi

theorem Env.mem {C : Ctx} {σ σ1 : St} (h : Env C σ σ1) : σ1.mem = σ.mem := by
  unfold Env at h
  split at h
  · exact h.2.1
  · rw [h]

theorem Env.fltEq {C : Ctx} {σ σ1 : St} (h : Env C σ σ1) : σ1.flt = σ.flt := by
  unfold Env at h
  split at h
  · exact h.2.2
  · rw [h]

theorem Env.eq {C : Ctx} {σ σ1 : St} (h : Env C σ σ1) (hR : C.R = false) : σ1 = σ := by
  unfold Env at h
  simpa [hR] using h

/-- nobody else writes: same storage -/
def RO (C : Ctx) (σ σ' : St) : Prop := C.R = false → Same σ σ'

theorem RO.refl (C : Ctx) (σ : St) : RO C σ σ := fun _ => .refl σ
theorem RO.trans {C : Ctx} {a b c : St} (h : RO C a b) (h' : RO C b c) : RO C a c :=
  fun hR => (h hR).trans (h' hR)
theorem Env.ro {C : Ctx} {σ σ1 : St} (h : Env C σ σ1) : RO C σ σ1 := by
  intro hR; rw [h.eq hR]; exact .refl _

/-! ### reading programs -/

/-- Post-condition of a reading program: on success `good` and no storage call failed, and it fails only if the
    storage failed. -/
def RPost {α : Type} (C : Ctx) (σ : St) (good : α → Prop) (out : Out α) (σ' : St) : Prop :=
  Ext C σ σ' ∧ RO C σ σ' ∧
    match out with
    | .ok a => good a ∧ σ'.flt = σ.flt
    | .err _ => σ'.flt = true
    | .panic => σ'.flt = true
    | .spin => False

/-- `p` only reads and yields a `good` value. -/
def Rd {α : Type} (C : Ctx) (good : α → Prop) (p : Go α) (σ : St) : Prop := wp C (RPost C σ good) p σ

theorem Rd.ret {α : Type} {C : Ctx} {good : α → Prop} {a : α} {σ : St} (hi : Inv C.cfg C.lim σ)
    (h : good a) : Rd C good (pure a) σ := ⟨.refl hi, .refl C σ, h, rfl⟩

theorem Rd.cons {α : Type} {C : Ctx} {good good' : α → Prop} {p : Go α} {σ : St} (h : Rd C good p σ)
    (hg : ∀ a, good a → good' a) : Rd C good' p σ := by
  refine wp_mono ?_ h
  intro o σ' ⟨h1, h2, h3⟩
  exact ⟨h1, h2, by cases o <;> simp_all⟩

theorem Rd.bind {α β : Type} {C : Ctx} {good : α → Prop} {good' : β → Prop} {p : Go α} {f : α → Go β}
    {σ : St} (h : Rd C good p σ)
    (hf : ∀ a σ', Ext C σ σ' → RO C σ σ' → good a → Rd C good' (f a) σ') : Rd C good' (p >>= f) σ := by
  refine wp_bind (wp_mono ?_ h)
  intro o σ' ⟨h1, h2, h3⟩
  cases o with
  | ok a =>
    refine wp_mono ?_ (hf a σ' h1 h2 h3.1)
    intro o' σ'' ⟨h4, h5, h6⟩
    refine ⟨h1.trans h4, h2.trans h5, ?_⟩
    cases o' with
    | ok b => exact ⟨h6.1, h6.2.trans h3.2⟩
    | _ => exact h6
  | err e => exact ⟨h1, h2, h3⟩
  | panic => exact ⟨h1, h2, h3⟩
  | spin => exact h3.elim

/-- attempt followed by an immediate dereference of the result -/
theorem Rd.attempt {α : Type} {C : Ctx} {good : α → Prop} {p : Go α} {σ : St} (h : Rd C good p σ) :
    wp C (fun (o : Out (Except Err α)) σ' => Ext C σ σ' ∧ RO C σ σ' ∧ match o with
      | .ok (.ok a) => good a ∧ σ'.flt = σ.flt
      | .ok (.error _) => σ'.flt = true
      | .err _ => False
      | .panic => σ'.flt = true
      | .spin => False) p.attempt σ := by
  refine wp_attempt (wp_mono ?_ h)
  intro o σ' ⟨h1, h2, h3⟩
  cases o <;> exact ⟨h1, h2, h3⟩

theorem Rd.attemptDeref {α β : Type} {C : Ctx} {good : α → Prop} {good' : β → Prop} {p : Go α}
    {f : α → Go β} {σ : St} (h : Rd C good p σ)
    (hf : ∀ a σ', Ext C σ σ' → RO C σ σ' → good a → Rd C good' (f a) σ') :
    Rd C good' (do let r ← p.attempt; let a ← Character.deref r.toOption; f a) σ := by
  refine wp_bind (wp_mono ?_ h.attempt)
  intro o σ' ⟨h1, h2, h3⟩
  cases o with
  | ok r =>
    cases r with
    | ok a =>
      refine wp_mono ?_ (hf a σ' h1 h2 h3.1)
      intro o' σ'' ⟨h4, h5, h6⟩
      refine ⟨h1.trans h4, h2.trans h5, ?_⟩
      cases o' with
      | ok b => exact ⟨h6.1, h6.2.trans h3.2⟩
      | _ => exact h6
    | error e => exact ⟨h1, h2, h3⟩
  | err e => exact h3.elim
  | panic => exact ⟨h1, h2, h3⟩
  | spin => exact h3.elim

theorem wp_read {α : Type} {C : Ctx} {Q : Out α → St → Prop} {o : Op} {k : Except Err o.Res → Go α} {σ : St}
    (hi : Inv C.cfg C.lim σ)
    (hro : ∀ c (s : Store), (s.step c o).2 = s)
    (h : ∀ σ1, Ext C σ σ1 → RO C σ σ1 → σ1.mem = σ.mem → σ1.flt = σ.flt → ∀ c,
        wp C Q (k (σ1.store.step c o).1) σ1)
    (hf : ∀ σ1, Ext C σ σ1 → RO C σ σ1 → σ1.mem = σ.mem → σ1.flt = true → wp C Q (k (.error .fault)) σ1) :
    wp C Q (.op o k) σ := by
  intro σ1 he c hl
  have hext := he.ext hi
  have e1 : σ1.after c o σ1.tag σ1.bits = σ1 := by
    simp only [St.after, hro]
  refine ⟨⟨σ1.tag, σ1.bits, ?_, ?_⟩, fun hF => ⟨?_, ?_⟩, fun hF => ⟨σ1.tag, σ1.bits, ?_, ?_⟩⟩
  · rw [e1]; exact .of_same hext.inv (.refl _) rfl id
  · rw [e1]; exact h σ1 hext he.ro he.mem he.fltEq c
  · exact .of_same hext.inv (.fail _) rfl fun _ => rfl
  · exact hf _ (hext.trans (.fail hext.inv)) (he.ro.trans fun _ => .fail _) he.mem rfl
  · rw [e1]; exact .of_same hext.inv (.fail _) rfl fun _ => rfl
  · rw [e1]; exact hf _ (hext.trans (.fail hext.inv)) (he.ro.trans fun _ => .fail _) he.mem rfl

theorem Rd.call {C : Ctx} {o : Op} {good : o.Res → Prop} {σ : St} (hi : Inv C.cfg C.lim σ)
    (hro : ∀ c (s : Store), (s.step c o).2 = s)
    (h : ∀ σ1, Ext C σ σ1 → RO C σ σ1 → ∀ c, ∃ a, (σ1.store.step c o).1 = .ok a ∧ good a) :
    Rd C good (Go.call o) σ := by
  refine wp_read hi hro ?_ ?_
  · intro σ1 h1 h2 _ hfl c
    obtain ⟨a, ha, hg⟩ := h σ1 h1 h2 c
    rw [ha]
    exact ⟨h1, h2, hg, hfl⟩
  · intro σ1 h1 h2 _ h3
    exact ⟨h1, h2, h3⟩

end Semnet
