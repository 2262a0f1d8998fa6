import Verif.Proof.Step
import Verif.Proof.Read
/-
  Writing programs: post-conditions and the creation of a class member with its chain of nodes.
-/
set_option linter.unusedSimpArgs false
namespace Semnet
open Class

/-! ### posts -/

/-- connections from what is searched for stored texts are unchanged -/
def Froz (σ σ' : St) : Prop := ∀ x, (σ'.tag x).src = true → σ'.T x = σ.T x

/-- a later state -/
structure ExtB (C : Ctx) (σ σ' : St) : Prop extends Ext C σ σ' where
  cleanB : CleanB σ → σ'.flt = false → CleanB σ'
  keep : C.up = false → σ'.flt = false → Keep σ σ'
  froz : C.lo = false → σ'.flt = false → Froz σ σ'

/-- a later state that is quiescent if no failure happened -/
structure ExtC (C : Ctx) (σ σ' : St) : Prop extends ExtB C σ σ' where
  whole : Wholes σ → σ'.flt = false → Wholes σ'

theorem ExtC.clean {C : Ctx} {σ σ' : St} (h : ExtC C σ σ') (hc : Clean σ) (hf : σ'.flt = false) : Clean σ' :=
  ⟨h.cleanB hc.toCleanB hf, h.whole hc.whole hf⟩

theorem Froz.refl (σ : St) : Froz σ σ := fun _ _ => rfl
theorem Froz.trans {cfg lim} {a b c : St} (hb : Inv cfg lim b) (m : Mono a b) (m' : Mono b c) (h : Froz a b)
    (h' : Froz b c) : Froz a c := by
  intro x hx
  rw [h' x hx]
  by_cases e : b.tag x = .none
  · have hT := hb.Tnone e
    rw [hT]
    cases hT' : a.T x with
    | nil => rfl
    | cons y l =>
      have := mem_T.2 (m.edges x y (mem_T.1 (by rw [hT']; simp)))
      rw [hT] at this; cases this
  · rw [m'.tag x e] at hx
    exact h x hx
theorem Froz.same {σ σ' : St} (hs : Same σ σ') : Froz σ σ' := fun _ _ => by rw [hs.T]

theorem Keep.refl (σ : St) : Keep σ σ := ⟨fun _ _ => rfl, fun _ _ => rfl⟩
theorem Keep.trans {a b c : St} (m : Mono a b) (h : Keep a b) (h' : Keep b c) : Keep a c := by
  have ht : ∀ x, (a.tag x).high = true → (b.tag x).high = true := by
    intro x hx
    rw [m.tag x (by intro e; rw [e] at hx; cases hx)]; exact hx
  exact ⟨fun x hx => (h'.T x (ht x hx)).trans (h.T x hx), fun x hx => (h'.S x (ht x hx)).trans (h.S x hx)⟩
theorem Keep.same {σ σ' : St} (hs : Same σ σ') : Keep σ σ' := ⟨fun _ _ => by rw [hs.T], fun _ _ => by rw [hs.S]⟩

theorem ExtC.refl {C : Ctx} {σ : St} (h : Inv C.cfg C.lim σ) : ExtC C σ σ :=
  ⟨⟨.refl h, fun h _ => h, fun _ _ => .refl σ, fun _ _ => .refl σ⟩, fun h _ => h⟩

theorem flt_false {C : Ctx} {σ σ' : St} (h : Ext C σ σ') (h' : σ'.flt = false) : σ.flt = false := by
  cases hf : σ.flt with
  | false => rfl
  | true => rw [h.flt hf] at h'; cases h'

theorem ExtB.trans {C : Ctx} {a b c : St} (h : ExtB C a b) (h' : ExtB C b c) : ExtB C a c :=
  ⟨h.toExt.trans h'.toExt, fun hc hf => h'.cleanB (h.cleanB hc (flt_false h'.toExt hf)) hf,
    fun hu hf => (h.keep hu (flt_false h'.toExt hf)).trans h.mono (h'.keep hu hf),
    fun hu hf => (h.froz hu (flt_false h'.toExt hf)).trans h.inv h.mono h'.mono (h'.froz hu hf)⟩

theorem ExtC.trans {C : Ctx} {a b c : St} (h : ExtC C a b) (h' : ExtC C b c) : ExtC C a c :=
  ⟨h.toExtB.trans h'.toExtB, fun hc hf => h'.whole (h.whole hc (flt_false h'.toExt hf)) hf⟩

theorem ExtC.faulty {C : Ctx} {σ σ' : St} (h : Ext C σ σ') (hf : σ'.flt = true) : ExtC C σ σ' :=
  ⟨⟨h, fun _ h' => by (rw [hf] at h'; cases h'), fun _ h' => by (rw [hf] at h'; cases h'),
    fun _ h' => by (rw [hf] at h'; cases h')⟩, fun _ h' => by (rw [hf] at h'; cases h')⟩

theorem ExtC.same {C : Ctx} {σ σ' : St} (h : Ext C σ σ') (hs : Same σ σ') : ExtC C σ σ' :=
  ⟨⟨h, fun hc _ => hc.same hs, fun _ _ => .same hs, fun _ _ => .same hs⟩, fun hc _ => hc.same hs⟩

/-- Post-condition of a writing program. `bad b σ'`: without storage failures it may fail this way
    (`b = true`: panic, `b = false`: error), ending in `σ'`. -/
def WPost {α : Type} (C : Ctx) (σ : St) (good : α → St → Prop) (bad : Bool → St → Prop) (out : Out α)
    (σ' : St) : Prop :=
  ExtC C σ σ' ∧
    match out with
    | .ok a => good a σ'
    | .err _ => σ'.flt = true ∨ bad false σ'
    | .panic => σ'.flt = true ∨ bad true σ'
    | .spin => False

/-- a writing program that may succeed after a storage failure -/
def WrL {α : Type} (C : Ctx) (good : α → St → Prop) (bad : Bool → St → Prop) (p : Go α) (σ : St) : Prop :=
  wp C (WPost C σ good bad) p σ

/-- a writing program that does not succeed after a storage failure -/
def Wr {α : Type} (C : Ctx) (good : α → St → Prop) (bad : Bool → St → Prop) (p : Go α) (σ : St) : Prop :=
  WrL C (fun a σ' => good a σ' ∧ σ'.flt = σ.flt) bad p σ

def never : Bool → St → Prop := fun _ _ => False

theorem WrL.ret {α : Type} {C : Ctx} {good : α → St → Prop} {bad} {a : α} {σ : St} (hi : Inv C.cfg C.lim σ)
    (h : good a σ) : WrL C good bad (pure a) σ := ⟨.refl hi, h⟩

theorem Wr.ret {α : Type} {C : Ctx} {good : α → St → Prop} {bad} {a : α} {σ : St} (hi : Inv C.cfg C.lim σ)
    (h : good a σ) : Wr C good bad (pure a) σ := ⟨.refl hi, h, rfl⟩

theorem WrL.cons {α : Type} {C : Ctx} {good good' : α → St → Prop} {bad bad'} {p : Go α} {σ : St}
    (h : WrL C good bad p σ) (hg : ∀ a σ', ExtC C σ σ' → good a σ' → good' a σ')
    (hb : ∀ b σ', ExtC C σ σ' → bad b σ' → bad' b σ') : WrL C good' bad' p σ := by
  refine wp_mono ?_ h
  intro o σ' ⟨h1, h3⟩
  refine ⟨h1, ?_⟩
  cases o with
  | ok a => exact hg a σ' h1 h3
  | err e => exact h3.imp id (hb false σ' h1)
  | panic => exact h3.imp id (hb true σ' h1)
  | spin => exact h3

theorem Wr.cons {α : Type} {C : Ctx} {good good' : α → St → Prop} {bad bad'} {p : Go α} {σ : St}
    (h : Wr C good bad p σ) (hg : ∀ a σ', ExtC C σ σ' → good a σ' → good' a σ')
    (hb : ∀ b σ', ExtC C σ σ' → bad b σ' → bad' b σ') : Wr C good' bad' p σ :=
  WrL.cons h (fun a σ' h1 h2 => ⟨hg a σ' h1 h2.1, h2.2⟩) hb

/-- a strict program in a loose setting -/
theorem Wr.loose {α : Type} {C : Ctx} {good : α → St → Prop} {bad} {p : Go α} {σ : St}
    (h : Wr C good bad p σ) : WrL C good bad p σ :=
  WrL.cons h (fun _ _ _ h => h.1) (fun _ _ _ h => h)

theorem WrL.bind {α β : Type} {C : Ctx} {good : α → St → Prop} {good' : β → St → Prop} {bad}
    {p : Go α} {f : α → Go β} {σ : St} (h : WrL C good bad p σ)
    (hf : ∀ a σ', ExtC C σ σ' → good a σ' → WrL C good' bad (f a) σ') : WrL C good' bad (p >>= f) σ := by
  refine wp_bind (wp_mono ?_ h)
  intro o σ' ⟨h1, h3⟩
  cases o with
  | ok a =>
    refine wp_mono ?_ (hf a σ' h1 h3)
    intro o' σ'' ⟨h4, h6⟩
    exact ⟨h1.trans h4, h6⟩
  | err e => exact ⟨h1, h3⟩
  | panic => exact ⟨h1, h3⟩
  | spin => exact h3.elim

theorem Wr.bind {α β : Type} {C : Ctx} {good : α → St → Prop} {good' : β → St → Prop} {bad}
    {p : Go α} {f : α → Go β} {σ : St} (h : Wr C good bad p σ)
    (hf : ∀ a σ', ExtC C σ σ' → good a σ' → Wr C good' bad (f a) σ') : Wr C good' bad (p >>= f) σ :=
  WrL.bind h fun a σ' h1 h2 =>
    WrL.cons (hf a σ' h1 h2.1) (fun _ _ _ h => ⟨h.1, h.2.trans h2.2⟩) (fun _ _ _ h => h)

/-- a loose program first: then either nothing has failed, or success is no longer possible -/
theorem Wr.lbind {α β : Type} {C : Ctx} {good : α → St → Prop} {good' : β → St → Prop} {bad}
    {p : Go α} {f : α → Go β} {σ : St} (h : WrL C good bad p σ)
    (hf : ∀ a σ', ExtC C σ σ' → good a σ' →
      (Wr C good' bad (f a) σ' ∧ σ'.flt = σ.flt) ∨ Wr C (fun _ _ => False) bad (f a) σ') :
    Wr C good' bad (p >>= f) σ :=
  WrL.bind h fun a σ' h1 h2 => by
    rcases hf a σ' h1 h2 with ⟨h3, h4⟩ | h3
    · exact WrL.cons h3 (fun _ _ _ h => ⟨h.1, h.2.trans h4⟩) (fun _ _ _ h => h)
    · exact WrL.cons h3 (fun _ _ _ h => h.1.elim) (fun _ _ _ h => h)

theorem Rd.wr {α : Type} {C : Ctx} (hR : C.R = false) {good : α → Prop} {bad} {p : Go α} {σ : St}
    (h : Rd C good p σ) : Wr C (fun a σ' => Same σ σ' ∧ good a) bad p σ := by
  refine wp_mono ?_ h
  intro o σ' ⟨h1, h2, h3⟩
  refine ⟨.same h1 (h2 hR), ?_⟩
  cases o with
  | ok a => exact ⟨⟨h2 hR, h3.1⟩, h3.2⟩
  | err e => exact .inl h3
  | panic => exact .inl h3
  | spin => exact h3

/-- sequence a read before a write -/
theorem Wr.rbind {α β : Type} {C : Ctx} (hR : C.R = false) {good : α → Prop} {good' : β → St → Prop} {bad}
    {p : Go α} {f : α → Go β} {σ : St} (h : Rd C good p σ)
    (hf : ∀ a σ', ExtC C σ σ' → Same σ σ' → good a → Wr C good' bad (f a) σ') :
    Wr C good' bad (p >>= f) σ :=
  Wr.bind (h.wr hR) fun a σ' h1 h2 => hf a σ' h1 h2.1 h2.2

theorem Wr.fault {α : Type} {C : Ctx} {σ σ' : St} {good : α → St → Prop} {bad} {e : Err} (h : Ext C σ σ')
    (hf : σ'.flt = true) : WPost C σ good bad (.err e) σ' := ⟨.faulty h hf, .inl hf⟩

/-- the same context, for programs below the details -/
def Ctx.lower (C : Ctx) : Ctx := { C with up := false }
/-- the same context, for programs above the phrases -/
def Ctx.upper (C : Ctx) : Ctx := { C with lo := false }

theorem wp_zone {α : Type} {C : Ctx} {u l : Bool} {Q : Out α → St → Prop} :
    ∀ {p : Go α} {σ : St}, wp { C with up := u, lo := l } Q p σ → wp C Q p σ := by
  intro p
  induction p with
  | ok a => exact fun h => h
  | err e => exact fun h => h
  | panic => exact fun h => h
  | spin => exact fun h => h
  | op o k ih =>
    intro σ h σ1 he c hc
    obtain ⟨⟨t, b, h1, h2⟩, h3, h4⟩ := h σ1 (by
      unfold Env at he ⊢
      cases hR : C.R with
      | false => rw [hR] at he; simpa [hR] using he
      | true =>
        rw [hR] at he
        have he' : Ext C σ σ1 ∧ σ1.mem = σ.mem ∧ σ1.flt = σ.flt := he
        exact ⟨⟨he'.1.inv, he'.1.mono, he'.1.flt⟩, he'.2⟩) c hc
    have st : ∀ {a b : St}, Step { C with up := u, lo := l } a b → Step C a b := fun s =>
      ⟨fun hF => ⟨(s.ext hF).inv, (s.ext hF).mono, (s.ext hF).flt⟩, s.ro⟩
    refine ⟨⟨t, b, st h1, ih _ h2⟩, fun hF => ?_, fun hF => ?_⟩
    · exact ⟨st (h3 hF).1, ih _ (h3 hF).2⟩
    · obtain ⟨t, b, h1, h2⟩ := h4 hF
      exact ⟨t, b, st h1, ih _ h2⟩
  | getMem k ih => exact fun h => ih _ h
  | setMem m k ih =>
    intro σ h
    exact ⟨⟨fun hF => ⟨(h.1.ext hF).inv, (h.1.ext hF).mono, (h.1.ext hF).flt⟩, h.1.ro⟩, ih h.2⟩

/-- a program below the details keeps what is above them -/
theorem WrL.lower {α : Type} {C : Ctx} (hu : C.up = true) {good : α → St → Prop} {bad} {p : Go α} {σ : St}
    (h : WrL C.lower good bad p σ) :
    WrL C (fun a σ' => good a σ' ∧ (σ'.flt = false → Keep σ σ')) (fun b σ' => bad b σ' ∧ Keep σ σ') p σ := by
  refine wp_mono ?_ (wp_zone (u := false) (l := C.lo) h)
  intro o σ' ⟨h1, h2⟩
  have e : ExtC C σ σ' := ⟨⟨⟨h1.inv, h1.mono, h1.flt⟩, h1.cleanB, fun h => by (rw [hu] at h; cases h), h1.froz⟩, h1.whole⟩
  refine ⟨e, ?_⟩
  cases o with
  | ok a => exact ⟨h2, h1.keep rfl⟩
  | err e =>
    cases hf : σ'.flt with
    | true => exact .inl rfl
    | false => exact .inr ⟨h2.resolve_left (by rw [hf]; simp), h1.keep rfl hf⟩
  | panic =>
    cases hf : σ'.flt with
    | true => exact .inl rfl
    | false => exact .inr ⟨h2.resolve_left (by rw [hf]; simp), h1.keep rfl hf⟩
  | spin => exact h2

/-- a program above the phrases keeps the stored texts -/
theorem WrL.upper {α : Type} {C : Ctx} (hl : C.lo = true) {good : α → St → Prop} {bad} {p : Go α} {σ : St}
    (h : WrL C.upper good bad p σ) :
    WrL C (fun a σ' => good a σ' ∧ (σ'.flt = false → Froz σ σ')) (fun b σ' => bad b σ' ∧ Froz σ σ') p σ := by
  refine wp_mono ?_ (wp_zone (u := C.up) (l := false) h)
  intro o σ' ⟨h1, h2⟩
  have e : ExtC C σ σ' := ⟨⟨⟨h1.inv, h1.mono, h1.flt⟩, h1.cleanB, h1.keep, fun h => by (rw [hl] at h; cases h)⟩, h1.whole⟩
  refine ⟨e, ?_⟩
  cases o with
  | ok a => exact ⟨h2, h1.froz rfl⟩
  | err e =>
    cases hf : σ'.flt with
    | true => exact .inl rfl
    | false => exact .inr ⟨h2.resolve_left (by rw [hf]; simp), h1.froz rfl hf⟩
  | panic =>
    cases hf : σ'.flt with
    | true => exact .inl rfl
    | false => exact .inr ⟨h2.resolve_left (by rw [hf]; simp), h1.froz rfl hf⟩
  | spin => exact h2

/-- the strict version -/
theorem Wr.upper {α : Type} {C : Ctx} (hl : C.lo = true) {good : α → St → Prop} {bad} {p : Go α} {σ : St}
    (h : Wr C.upper good bad p σ) :
    Wr C (fun a σ' => good a σ' ∧ (σ'.flt = false → Froz σ σ')) (fun b σ' => bad b σ' ∧ Froz σ σ') p σ :=
  WrL.cons (WrL.upper hl h) (fun _ _ _ h => ⟨⟨h.1.1, h.2⟩, h.1.2⟩) (fun _ _ _ h => h)

/-! ### Clean under single steps -/

theorem CleanB.add {cfg lim} {σ : St} (hi : Inv cfg lim σ) {t : Tag} (hc : CleanB σ) :
    CleanB (σ.mk' t) where
  full x h1 h2 h3 := by
    rw [tag_mk] at h1
    by_cases hx : x = σ.store.next
    · exact absurd (hi.Tnone (hi.tagNext (by omega))) h3
    · rw [if_neg hx] at h1; exact hc.full x h1 h2 h3
  uniq x y h1 h2 h3 h4 h5 h6 := by
    rw [tag_mk] at h1 h2
    simp only [S_mk, T_mk] at *
    by_cases hx : x = σ.store.next
    · exact absurd (hi.Tnone (hi.tagNext (by omega))) h4
    · by_cases hy : y = σ.store.next
      · rw [h6] at h4; exact absurd (hi.Tnone (hi.tagNext (by omega))) h4
      · rw [if_neg hx] at h1; rw [if_neg hy] at h2; exact hc.uniq x y h1 h2 h3 h4 h5 h6
  zero t' h := by
    have := hc.zero t' h
    refine ⟨?_, this.2⟩
    rw [tag_mk, if_neg]
    · exact this.1
    · intro e
      have := hi.tagNext (x := t') (by omega)
      simp_all

theorem CleanB.ref {σ : St} {x y : Nat} (h : RefOK σ x y) (hc : CleanB σ) : CleanB (σ.ref x y) where
  full z h1 h2 h3 := by
    rw [(Mono.ref h).fwd z (hc.full z h1 h2 h3)]; exact hc.full z h1 h2 h3
  uniq := hc.uniq
  zero := hc.zero

theorem CleanB.conn {cfg : Cfg} {σ : St} {x y : Nat} (hx : σ.tag x ≠ .dtP) (hy : σ.tag y ≠ .dtP)
    (h0 : x ≠ 0) (hf : σ.tag x ≠ .ftP) (hc : CleanB σ) : CleanB (σ.conn cfg x y) where
  full z h1 h2 h3 := by
    have h1' : σ.tag z = .dtP := h1
    rw [S_conn, if_neg (by intro e; subst e; exact hy h1')] at h2
    rw [T_conn, if_neg (by intro e; subst e; exact hx h1')] at h3
    exact hc.full z h1' h2 h3
  uniq z w h1 h2 h3 h4 h5 h6 := by
    have h1' : σ.tag z = .dtP := h1
    have h2' : σ.tag w = .dtP := h2
    rw [S_conn, if_neg (by intro e; subst e; exact hy h1')] at h3 h5
    rw [T_conn, if_neg (by intro e; subst e; exact hx h1')] at h4 h6
    rw [S_conn, if_neg (by intro e; subst e; exact hy h2')] at h5
    rw [T_conn, if_neg (by intro e; subst e; exact hx h2')] at h6
    exact hc.uniq z w h1' h2' h3 h4 h5 h6
  zero t h := by
    rw [T_conn, if_neg (Ne.symm h0)] at h
    have := hc.zero t h
    refine ⟨this.1, ?_⟩
    rw [T_conn, if_neg]
    · exact this.2
    · intro e; subst e; exact hf this.1

theorem ExtB.add {C : Ctx} {σ : St} (hi : Inv C.cfg C.lim σ) {t : Tag} (ht : CreateOK C.lim t) :
    ExtB C σ (σ.mk' t) := ⟨.add hi ht, fun hc _ => hc.add hi, fun _ _ => ⟨fun _ _ => rfl, fun _ _ => rfl⟩, fun _ _ _ _ => rfl⟩
theorem ExtC.ref {C : Ctx} {σ : St} (hi : Inv C.cfg C.lim σ) {x y : Nat} (h : RefOK σ x y) :
    ExtC C σ (σ.ref x y) := ⟨⟨.ref hi h, fun hc _ => hc.ref h, fun _ _ => ⟨fun _ _ => rfl, fun _ _ => rfl⟩, fun _ _ _ _ => rfl⟩,
      fun hc _ => hc.mono (Mono.ref h) (fun _ _ hx => .inl hx) fun _ hx => .inl hx⟩

theorem Keep.conn {cfg : Cfg} {σ : St} {x y : Nat} (he : EdgeOK (σ.conn cfg x y) x y)
    (hl : (σ.tag x).low = true) : Keep σ (σ.conn cfg x y) := by
  have hy : (σ.tag y).high = false := by
    unfold EdgeOK at he
    rw [tag_conn] at he
    cases hx : σ.tag x <;> rw [hx] at he hl <;> simp at hl <;> cases hy : σ.tag y <;> rw [hy] at he <;>
      first | rfl | exact he.elim
  constructor
  · intro z hz
    rw [T_conn, if_neg]
    intro e; subst e; cases h : σ.tag z <;> rw [h] at hz hl <;> simp at hz hl
  · intro z hz
    rw [S_conn, if_neg]
    intro e; subst e; rw [hy] at hz; cases hz

theorem Froz.conn {cfg : Cfg} {σ : St} {x y : Nat} (hl : (σ.tag x).src = false) : Froz σ (σ.conn cfg x y) := by
  intro z hz
  rw [T_conn, if_neg]
  intro e; subst e
  have hz' : (σ.tag z).src = true := hz
  rw [hl] at hz'; cases hz'

theorem ExtC.conn {C : Ctx} {c c' : Cfg} {σ : St} (hi : Inv C.cfg C.lim σ) {x y : Nat} (h : ConnOK σ x y)
    (he : EdgeOK (σ.conn c' x y) x y) (hx : σ.tag x ≠ .dtP) (hy : σ.tag y ≠ .dtP)
    (h0 : x ≠ 0) (hf : σ.tag x ≠ .ftP ∧ (C.up = false → (σ.tag x).low = true) ∧ (C.lo = false → (σ.tag x).src = false)) :
    ExtC C σ (σ.conn c x y) :=
  ⟨⟨.conn hi h he, fun hc _ => hc.conn hx hy h0 hf.1, fun hu _ => .conn (he.any c) (hf.2.1 hu), fun hu _ => .conn (hf.2.2 hu)⟩,
    fun hc _ => hc.mono (Ext.conn (C := C) (c := c) hi h he).mono (fun _ _ hx => .inl hx) fun _ hx => .inl hx⟩

/-- one `Connect` as a writing program -/
theorem Wr.connect {C : Ctx} (hR : C.R = false) {σ : St} (hi : Inv C.cfg C.lim σ) {x y : Nat}
    (h : ConnOK σ x y) (he : EdgeOK (σ.conn C.cfg x y) x y) (hx : σ.tag x ≠ .dtP)
    (hy : σ.tag y ≠ .dtP) (h0 : x ≠ 0) (hf : σ.tag x ≠ .ftP ∧ (C.up = false → (σ.tag x).low = true) ∧ (C.lo = false → (σ.tag x).src = false)) {bad} :
    Wr C (fun _ σ' => ∃ c, σ' = σ.conn c x y) bad (Go.connect x y) σ :=
  wp_connect hR hi h he (fun c => ⟨.conn hi h he hx hy h0 hf, ⟨c, rfl⟩, rfl⟩) fun _ h1 h2 => Wr.fault h1 h2

/-! ### class member with a chain of three nodes -/

/-- create three nodes and chain them behind `cls` (the common body of all `CreateEntity`) -/
def mk4 (cls : Nat) : Go (Nat × Nat × Nat) := do
  let a ← Go.create
  let b ← Go.create
  let c ← Go.create
  Go.setReference cls a
  Go.setReference a b
  Go.setReference b c
  pure (a, b, c)

def newEnt (k : Nat) : Go (Nat × Nat × Nat × Nat) := do
  let cls ← createNode k
  let r ← mk4 cls
  pure (cls, r)

/-- the new nodes `n a b c`, nothing else touched -/
structure NewEnt (σ σ' : St) (k : Nat) (t1 t2 t3 : Tag) (n a b c : Nat) : Prop where
  chain : Chain σ' n a b c
  tn : σ'.tag n = .cls k
  ta : σ'.tag a = t1
  tb : σ'.tag b = t2
  tc : σ'.tag c = t3
  Tn : σ'.T n = [k]
  Ta : σ'.T a = []
  Tb : σ'.T b = []
  Tc : σ'.T c = []
  Sa : σ'.S a = []
  Sb : σ'.S b = []
  Sc : σ'.S c = []
  fn : σ.tag n = .none
  fa : σ.tag a = .none
  fb : σ.tag b = .none
  fc : σ.tag c = .none
  frT : ∀ x, σ.tag x ≠ .none → σ'.T x = σ.T x
  froz : Froz σ σ'
  frS : ∀ x, σ.tag x ≠ .none → x ≠ k → σ'.S x = σ.S x
  bits : σ'.bits = σ.bits
  mem : σ'.mem = σ.mem
  flt : σ'.flt = σ.flt

theorem Inv.nextNe0 {cfg lim} {σ : St} (hi : Inv cfg lim σ) : σ.store.next ≠ 0 := by
  have := hi.next; omega

theorem wp_createNode {C : Ctx} (hR : C.R = false) {σ : St} (hi : Inv C.cfg C.lim σ) {k : Nat}
    (hk : 2 ≤ k ∧ k ≤ 8) {Q : Out Nat → St → Prop}
    (hq : ∀ c, ExtB C σ ((σ.mk' (.cls k)).conn c σ.store.next k) →
      Q (.ok σ.store.next) ((σ.mk' (.cls k)).conn c σ.store.next k))
    (hf : ∀ σ', Ext C σ σ' → σ'.flt = true → Q (.err .fault) σ') :
    wp C Q (createNode k) σ := by
  unfold createNode
  have ht : CreateOK C.lim (.cls k) := ⟨by simp, by simp, by simp, by simp, trivial⟩
  have e1 := ExtB.add hi ht
  refine wp_bind (wp_create hR hi ht ?_ hf)
  have hT : σ.T σ.store.next = [] := hi.Tnone (hi.tagNext (Nat.le_refl _))
  have hroot : σ.tag k = .root := (hi.root k).2 (by omega)
  have hne : k ≠ σ.store.next := by have := hi.next; omega
  have hkt : (σ.mk' (.cls k)).tag k = .root := by rw [tag_mk, if_neg hne]; exact hroot
  have hc : ConnOK (σ.mk' (.cls k)) σ.store.next k := by
    constructor
    · intro h
      have : k ∈ σ.T σ.store.next := mem_T.2 h
      rw [hT] at this; cases this
    · intro _; exact hT
    · simp [Tag.noT]
    · rw [hkt]; simp [Tag.scrit]
    · rw [hkt]; simp [Tag.noS]
    · rw [hkt]; simp
    · simp
    · simp [bitId]; omega
  have hE : EdgeOK ((σ.mk' (.cls k)).conn C.cfg σ.store.next k) σ.store.next k := by
    simp only [EdgeOK, tag_conn, hkt, tag_mk_self]
  have e2 := fun c => ExtC.conn (c := c) e1.inv hc hE (by simp) (by rw [hkt]; simp) hi.nextNe0 (by simp)
  refine wp_bind (wp_connect hR e1.inv hc hE ?_ ?_)
  · exact fun c => hq c (e1.trans (e2 c).toExtB)
  · intro σ' h1 h2; exact hf σ' (e1.toExt.trans h1) h2

theorem wp_mk4 {C : Ctx} (hR : C.R = false) {σ : St} (hi : Inv C.cfg C.lim σ) {cls : Nat} {t1 t2 t3 : Tag}
    (h1 : CreateOK C.lim t1) (h2 : CreateOK C.lim t2) (h3 : CreateOK C.lim t3)
    (f1 : t1.noF = false) (f2 : t2.noF = false)
    (b1 : t1.noB = false) (b2 : t2.noB = false) (b3 : t3.noB = false)
    (d1 : t1 ≠ .dtP) (d2 : t2 ≠ .dtP)
    (hn : σ.tag cls ≠ .none) (hnF : (σ.tag cls).noF = false) (hnd : σ.tag cls ≠ .dtP)
    (hn0 : cls ≠ 0) (hn8 : cls ≠ 8) (hfw : σ.fwd cls = 0)
    {Q : Out (Nat × Nat × Nat) → St → Prop}
    (hq : let n := σ.store.next
      let σ' := (((((σ.mk' t1).mk' t2).mk' t3).ref cls n).ref n (n + 1)).ref (n + 1) (n + 2)
      ExtB C σ σ' → Q (.ok (n, n + 1, n + 2)) σ')
    (hf : ∀ σ', Ext C σ σ' → σ'.flt = true → Q (.err .fault) σ') :
    wp C Q (mk4 cls) σ := by
  unfold mk4
  have hlt : cls < σ.store.next := hi.bound _ hn
  have hz := hi.nextNe0
  have r0 := hi.ref0 _ (hi.tagNext (Nat.le_refl _))
  have r1 := hi.ref0 (σ.store.next + 1) (hi.tagNext (by omega))
  have r2 := hi.ref0 (σ.store.next + 2) (hi.tagNext (by omega))
  have e1 := ExtB.add (C := C) hi h1
  have e2 := ExtB.add (C := C) e1.inv h2
  have e3 := ExtB.add (C := C) e2.inv h3
  have tC : (((σ.mk' t1).mk' t2).mk' t3).tag cls = σ.tag cls := by
    rw [tag_mk, if_neg (by simp only [next_mk]; omega), tag_mk, if_neg (by simp only [next_mk]; omega),
      tag_mk, if_neg (by omega)]
  have tA : (((σ.mk' t1).mk' t2).mk' t3).tag σ.store.next = t1 := by
    rw [tag_mk, if_neg (by simp only [next_mk]; omega), tag_mk, if_neg (by simp only [next_mk]; omega),
      tag_mk, if_pos rfl]
  have tB : (((σ.mk' t1).mk' t2).mk' t3).tag (σ.store.next + 1) = t2 := by
    rw [tag_mk, if_neg (by simp only [next_mk]; omega), tag_mk, if_pos (by simp only [next_mk])]
  have tD : (((σ.mk' t1).mk' t2).mk' t3).tag (σ.store.next + 2) = t3 := by
    rw [tag_mk, if_pos (by simp only [next_mk])]
  have o1 : RefOK (((σ.mk' t1).mk' t2).mk' t3) cls σ.store.next := by
    constructor
    · exact hn0
    · exact hz
    · rw [tC]; exact hn
    · rw [tA]; exact h1.h1
    · simpa using hfw
    · simpa using r0.2
    · rw [tC]; exact hnF
    · rw [tA]; exact b1
    · rw [tC]; intro h; exact absurd h hnd
    · exact hn8
    · have := hi.next; omega
  have e4 := (ExtC.ref (C := C) e3.inv o1).toExtB
  have o2 : RefOK ((((σ.mk' t1).mk' t2).mk' t3).ref cls σ.store.next) σ.store.next (σ.store.next + 1) := by
    constructor
    · exact hz
    · omega
    · rw [tag_ref, tA]; exact h1.h1
    · rw [tag_ref, tB]; exact h2.h1
    · rw [fwd_ref, if_neg (by omega)]; exact r0.1
    · rw [back_ref, if_neg (by omega)]; exact r1.2
    · rw [tag_ref, tA]; exact f1
    · rw [tag_ref, tB]; exact b2
    · rw [tag_ref, tA]; intro h; exact absurd h d1
    · have := hi.next; omega
    · have := hi.next; omega
  have e5 := (ExtC.ref (C := C) e4.inv o2).toExtB
  have o3 : RefOK (((((σ.mk' t1).mk' t2).mk' t3).ref cls σ.store.next).ref σ.store.next (σ.store.next + 1))
      (σ.store.next + 1) (σ.store.next + 2) := by
    constructor
    · omega
    · omega
    · rw [tag_ref, tag_ref, tB]; exact h2.h1
    · rw [tag_ref, tag_ref, tD]; exact h3.h1
    · rw [fwd_ref, if_neg (by omega), fwd_ref, if_neg (by omega)]; exact r1.1
    · rw [back_ref, if_neg (by omega), back_ref, if_neg (by omega)]; exact r2.2
    · rw [tag_ref, tag_ref, tB]; exact f2
    · rw [tag_ref, tag_ref, tD]; exact b3
    · rw [tag_ref, tag_ref, tB]; intro h; exact absurd h d2
    · have := hi.next; omega
    · have := hi.next; omega
  have e6 := (ExtC.ref (C := C) e5.inv o3).toExtB
  have E2 := e1.trans e2
  have E3 := E2.trans e3
  have E4 := E3.trans e4
  have E5 := E4.trans e5
  refine wp_bind (wp_create hR hi h1 ?_ hf)
  refine wp_bind (wp_create hR e1.inv h2 ?_ fun σ' g1 g2 => hf σ' (e1.toExt.trans g1) g2)
  refine wp_bind (wp_create hR e2.inv h3 ?_ fun σ' g1 g2 => hf σ' (E2.toExt.trans g1) g2)
  refine wp_bind (wp_setRef hR e3.inv o1 ?_ fun σ' g1 g2 => hf σ' (E3.toExt.trans g1) g2)
  refine wp_bind (wp_setRef hR e4.inv o2 ?_ fun σ' g1 g2 => hf σ' (E4.toExt.trans g1) g2)
  refine wp_bind (wp_setRef hR e5.inv o3 ?_ fun σ' g1 g2 => hf σ' (E5.toExt.trans g1) g2)
  exact hq (E5.trans e6)

/-- kinds of entities -/
structure EntTags (lim : Lim) (t1 t2 t3 : Tag) : Prop where
  h1 : CreateOK lim t1
  h2 : CreateOK lim t2
  h3 : CreateOK lim t3
  f1 : t1.noF = false
  f2 : t2.noF = false
  b1 : t1.noB = false
  b2 : t2.noB = false
  b3 : t3.noB = false
  d1 : t1 ≠ .dtP
  d2 : t2 ≠ .dtP

theorem Wr.newEnt {C : Ctx} (hR : C.R = false) {σ : St} (hi : Inv C.cfg C.lim σ) {k : Nat}
    (hk : 2 ≤ k ∧ k ≤ 8) {t1 t2 t3 : Tag} (ht : EntTags C.lim t1 t2 t3) (hkd : Kind k t1 t2 t3) {bad} :
    Wr C (fun r σ' => NewEnt σ σ' k t1 t2 t3 r.1 r.2.1 r.2.2.1 r.2.2.2) bad (Semnet.newEnt k) σ := by
  unfold Semnet.newEnt
  refine wp_bind (wp_createNode hR hi hk ?_ (fun σ' h1 h2 => ⟨.faulty h1 h2, .inl h2⟩))
  intro c e1
  have hlt : k < σ.store.next := by have := hi.next; omega
  have hz := hi.nextNe0
  have r0 := hi.ref0 _ (hi.tagNext (Nat.le_refl _))
  refine wp_bind (wp_mk4 hR e1.inv ht.h1 ht.h2 ht.h3 ht.f1 ht.f2 ht.b1 ht.b2 ht.b3 ht.d1 ht.d2
    (by simp) (by simp [Tag.noF]) (by simp) hz (by have := hi.next; omega) (by simpa using r0.1) ?_
    (fun σ' h1 h2 => ⟨.faulty (e1.toExt.trans h1) h2, .inl h2⟩))
  intro m σ' e2
  have hm : m = σ.store.next + 1 + c.arrow := rfl
  have hno : ∀ x, σ.store.next ≤ x → σ.tag x = .none := fun x h => hi.tagNext h
  have T0 : ∀ x, σ.store.next ≤ x → σ.T x = [] := fun x h => hi.Tnone (hno x h)
  have S0 : ∀ x, σ.store.next ≤ x → σ.S x = [] := fun x h => hi.Snone (hno x h)
  have e3 := e1.trans e2
  have htag : ∀ x, σ'.tag x = if x = m + 2 then t3 else if x = m + 1 then t2 else if x = m then t1 else
      if x = σ.store.next then .cls k else σ.tag x := fun x => rfl
  have hT : ∀ x, σ'.T x = if x = σ.store.next then k :: σ.T x else σ.T x := fun x => T_conn c (σ.mk' (.cls k)) σ.store.next k x
  have hS : ∀ x, σ'.S x = if x = k then σ.store.next :: σ.S x else σ.S x := fun x => S_conn c (σ.mk' (.cls k)) σ.store.next k x
  have hfw : ∀ x, σ'.fwd x = if x = m + 1 then m + 2 else if x = m then m + 1 else
      if x = σ.store.next then m else σ.fwd x := by
    intro x
    show (((((((((σ.mk' (.cls k)).conn c σ.store.next k).mk' t1).mk' t2).mk' t3).ref _ m).ref m _).ref _ _).fwd x) = _
    simp only [fwd_ref, fwd_mk, fwd_conn]
  have hbk : ∀ x, σ'.back x = if x = m + 2 then m + 1 else if x = m + 1 then m else
      if x = m then σ.store.next else σ.back x := by
    intro x
    show (((((((((σ.mk' (.cls k)).conn c σ.store.next k).mk' t1).mk' t2).mk' t3).ref _ m).ref m _).ref _ _).back x) = _
    simp only [back_ref, back_mk, back_conn]
  have hb : σ'.bits = σ.bits := rfl
  have hmm : σ'.mem = σ.mem := rfl
  have hfl : σ'.flt = σ.flt := rfl
  clear e2
  clear_value σ' m
  have hnew : NewEnt σ σ' k t1 t2 t3 σ.store.next m (m + 1) (m + 2) := ?_
  · refine ⟨⟨e3, fun hw _ => hw.mono e3.mono (fun x k' hx => ?_) fun y hy => ?_⟩, hnew, hfl⟩
    · rw [htag] at hx
      split at hx
      · have := ht.b3; subst hx; cases this
      split at hx
      · have := ht.b2; subst hx; cases this
      split at hx
      · have := ht.b1; subst hx; cases this
      split at hx
      · rename_i e
        subst e
        injection hx with hx
        subst hx
        exact .inr (⟨hnew.Tn, .inl ⟨_, _, _, _, _, _, hkd, hnew.chain, hnew.ta, hnew.tb, hnew.tc⟩⟩)
      · exact .inl hx
    · have o0 : Owns σ' σ.store.next σ.store.next := .head
      have o1 := o0.step hnew.chain.ab
      have o2 := o1.step hnew.chain.bc
      have o3 := o2.step hnew.chain.cd
      rw [htag] at hy
      split at hy
      · rename_i e; rw [e]; exact .inr ⟨_, _, hnew.tn, o3⟩
      split at hy
      · rename_i e; rw [e]; exact .inr ⟨_, _, hnew.tn, o2⟩
      split at hy
      · rename_i e; rw [e]; exact .inr ⟨_, _, hnew.tn, o1⟩
      split at hy
      · rename_i e; rw [e]; exact .inr ⟨_, _, hnew.tn, o0⟩
      · exact .inl hy
  constructor
  · refine ⟨⟨?_, ?_, hz, ?_⟩, ⟨?_, ?_, ?_, ?_⟩, ⟨?_, ?_, ?_, ?_⟩⟩ <;>
      first
        | (show _ ≠ _; omega)
        | (rw [hfw]; repeat' split
           all_goals first | rfl | omega)
        | (rw [hbk]; repeat' split
           all_goals first | rfl | omega)
  · rw [htag]; repeat' split
    all_goals first | rfl | omega
  · rw [htag]; repeat' split
    all_goals first | rfl | omega
  · rw [htag]; repeat' split
    all_goals first | rfl | omega
  · rw [htag]; repeat' split
    all_goals first | rfl | omega
  · rw [hT, if_pos rfl, T0 _ (Nat.le_refl _)]
  · rw [hT, if_neg (by show m ≠ _; omega), T0 _ (by show _ ≤ m; omega)]
  · rw [hT, if_neg (by show m + 1 ≠ _; omega), T0 _ (by show _ ≤ m + 1; omega)]
  · rw [hT, if_neg (by show m + 2 ≠ _; omega), T0 _ (by show _ ≤ m + 2; omega)]
  · rw [hS, if_neg (by show m ≠ _; omega), S0 _ (by show _ ≤ m; omega)]
  · rw [hS, if_neg (by show m + 1 ≠ _; omega), S0 _ (by show _ ≤ m + 1; omega)]
  · rw [hS, if_neg (by show m + 2 ≠ _; omega), S0 _ (by show _ ≤ m + 2; omega)]
  · exact hno _ (Nat.le_refl _)
  · exact hno _ (by show _ ≤ m; omega)
  · exact hno _ (by show _ ≤ m + 1; omega)
  · exact hno _ (by show _ ≤ m + 2; omega)
  · intro x hx
    rw [hT, if_neg]
    intro e; subst e; exact hx (hno _ (Nat.le_refl _))
  · intro x hx
    rw [hT, if_neg]
    intro e; subst e
    rw [htag, if_neg (by omega), if_neg (by omega), if_neg (by omega), if_pos rfl] at hx; cases hx
  · intro x _ hx
    rw [hS, if_neg hx]
  · exact hb
  · exact hmm
  · exact hfl

end Semnet
