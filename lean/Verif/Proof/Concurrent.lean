import Verif.Spec.Concurrent
import Verif.Proof.Api
/-
  Readers beside a writer.
-/
namespace Semnet
open Spec

def readCtx (cfg : Cfg) (lim : Lim) : Ctx := ⟨cfg, lim, false, true, true, true⟩

/-- the reader's view of the shared state -/
def St.seen (σ : St) (m : Layer) : St := { σ with mem := m, flt := false }

theorem Same.seen (σ : St) (m : Layer) : Same σ (σ.seen m) := ⟨rfl, rfl, rfl⟩

/-! ### readers -/

/-- what a reader may rely on stays so -/
theorem wp_env {α : Type} {C : Ctx} (hR : C.R = true) {P : Out α → Prop} :
    ∀ {p : Go α} {σ σ1 : St}, Env C σ σ1 → wp C (fun o _ => P o) p σ → wp C (fun o _ => P o) p σ1 := by
  intro p
  induction p with
  | ok a => exact fun _ h => h
  | err e => exact fun _ h => h
  | panic => exact fun _ h => h
  | spin => exact fun _ h => h
  | op o k ih =>
    intro σ σ1 he h σ2 he2
    refine h σ2 ?_
    unfold Env at *
    rw [if_pos hR] at *
    exact ⟨he.1.trans he2.1, he2.2.1.trans he.2.1, he2.2.2.trans he.2.2⟩
  | getMem k ih =>
    intro σ σ1 he h
    show wp C _ (k σ1.mem) σ1
    rw [he.mem]
    exact ih _ he h
  | setMem m k ih =>
    intro σ σ1 he h
    have hext := h.1.ext (by simp [hR])
    unfold Env at he
    rw [if_pos hR] at he
    have hs : Same σ1 { σ1 with mem := σ1.mem.set m } := ⟨rfl, rfl, rfl⟩
    have hi : Inv C.cfg C.lim { σ1 with mem := σ1.mem.set m } := he.1.inv.same hs fun hm => by
      simp only [he.2.1] at hm ⊢
      exact he.1.mono.bits _ (hext.inv.mem hm)
    refine ⟨⟨fun _ => ⟨hi, hs.mono, id⟩, fun _ => hs⟩, ih (σ := { σ with mem := σ.mem.set m }) ?_ h.2⟩
    unfold Env
    rw [if_pos hR]
    refine ⟨⟨hi, ?_, he.1.flt⟩, by rw [he.2.1], he.2.2⟩
    have h0 : Same { σ with mem := σ.mem.set m } σ := ⟨rfl, rfl, rfl⟩
    exact h0.mono.trans (he.1.mono.trans hs.mono)

theorem wp_settle {α : Type} {C : Ctx} (hR : (C.F || C.R) = true) {Q : Out α → St → Prop} :
    ∀ {p : Go α} {σ : St}, Inv C.cfg C.lim σ → wp C Q p σ →
      Inv C.cfg C.lim { σ with mem := (p.settle σ.mem).mem } ∧
      wp C Q (p.settle σ.mem).prog { σ with mem := (p.settle σ.mem).mem } := by
  intro p
  induction p with
  | ok a => exact fun hi h => ⟨hi, h⟩
  | err e => exact fun hi h => ⟨hi, h⟩
  | panic => exact fun hi h => ⟨hi, h⟩
  | spin => exact fun hi h => ⟨hi, h⟩
  | op o k ih => exact fun hi h => ⟨hi, h⟩
  | getMem k ih => exact fun hi h => ih _ hi h
  | setMem m k ih =>
    intro σ hi h
    exact ih (σ := { σ with mem := σ.mem.set m }) (h.1.ext hR).inv h.2

/-- only ends and storage calls remain after settling -/
theorem settled {α : Type} : ∀ (p : Go α) (m : Layer),
    (∀ k, (p.settle m).prog ≠ .getMem k) ∧ (∀ m' k, (p.settle m).prog ≠ .setMem m' k) := by
  intro p
  induction p with
  | getMem k ih => exact fun m => ih m m
  | setMem u k ih => exact fun m => ih (m.set u)
  | _ => intro m; simp [Go.settle]

/-- A reader's turn: the storage is as before, and it is still fine. -/
theorem wp_readTurn {α : Type} {cfg : Cfg} {lim : Lim} {P : Out α → Prop} {p : Proc α} {σ : St}
    (hi : Inv cfg lim (σ.seen p.mem)) (h : wp (readCtx cfg lim) (fun o _ => P o) p.prog (σ.seen p.mem)) :
    (p.turn cfg .ok σ.store).2 = σ.store ∧
    Inv cfg lim (σ.seen (p.turn cfg .ok σ.store).1.mem) ∧
    wp (readCtx cfg lim) (fun o _ => P o) (p.turn cfg .ok σ.store).1.prog (σ.seen (p.turn cfg .ok σ.store).1.mem) := by
  obtain ⟨hi', h'⟩ := wp_settle (C := readCtx cfg lim) rfl hi h
  simp only [St.seen] at hi' h'
  unfold Proc.turn
  generalize Go.settle p.prog p.mem = q at hi' h'
  obtain ⟨q, m⟩ := q
  cases q with
  | op o k =>
    have henv : Env (readCtx cfg lim) (σ.seen m) (σ.seen m) := by
      unfold Env
      exact ⟨.refl hi', rfl, rfl⟩
    obtain ⟨⟨t, b, hs, h1⟩, _, _⟩ := h' _ henv cfg (.refl _)
    have hro := hs.ro rfl
    have e1 : (σ.store.step cfg o).2 = σ.store := hro.store
    have e2 : t = σ.tag := hro.tag
    have e3 : b = σ.bits := hro.bits
    subst e2 e3
    have e4 : (σ.seen m).after cfg o σ.tag σ.bits = σ.seen m := by simp only [St.after, St.seen, e1]
    refine ⟨e1, hi', ?_⟩
    have h2 : wp (readCtx cfg lim) (fun o _ => P o) (k (σ.store.step cfg o).1)
        ((σ.seen m).after cfg o σ.tag σ.bits) := h1
    rw [e4] at h2
    exact h2
  | _ => exact ⟨rfl, hi', h'⟩

/-- what is promised of a reader is what it will yield when left alone -/
theorem wp_alone {α : Type} {cfg : Cfg} {lim : Lim} {P : Out α → Prop} :
    ∀ {p : Go α} {σ : St}, Inv cfg lim σ → wp (readCtx cfg lim) (fun o _ => P o) p σ →
      P (p.exec cfg ⟨σ.store, σ.mem⟩).1 := by
  intro p
  induction p with
  | ok a => exact fun _ h => h
  | err e => exact fun _ h => h
  | panic => exact fun _ h => h
  | spin => exact fun _ h => h
  | op o k ih =>
    intro σ hi h
    have henv : Env (readCtx cfg lim) σ σ := by
      unfold Env
      exact ⟨.refl hi, rfl, rfl⟩
    obtain ⟨⟨t, b, hs, h1⟩, _, _⟩ := h _ henv cfg (.refl _)
    exact ih _ (hs.ext rfl).inv h1
  | getMem k ih => intro σ hi h; exact ih _ hi h
  | setMem m k ih => intro σ hi h; exact ih (σ := { σ with mem := σ.mem.set m }) (h.1.ext rfl).inv h.2

theorem Rd.bindK {α β : Type} {C : Ctx} {good : α → Prop} {good' : β → Prop} {p : Go α}
    {f : α → Go β} {σ : St} (hfl : σ.flt = false) (h : Rd C good p σ)
    (hf : ∀ a σ', Ext C σ σ' → σ'.flt = false → good a → Rd C good' (f a) σ') : Rd C good' (p >>= f) σ := by
  refine wp_bind (wp_mono ?_ h)
  intro o σ' ⟨h1, h2, h3⟩
  cases o with
  | ok a =>
    refine wp_mono ?_ (hf a σ' h1 (h3.2.trans hfl) h3.1)
    intro o' σ'' ⟨h4, h5, h6⟩
    refine ⟨h1.trans h4, h2.trans h5, ?_⟩
    cases o' with
    | ok b => exact ⟨h6.1, h6.2.trans h3.2⟩
    | _ => exact h6
  | err e => exact ⟨h1, h2, h3⟩
  | panic => exact ⟨h1, h2, h3⟩
  | spin => exact h3.elim

/-- questions with expected answers -/
theorem Rd.asks {C : Ctx} (hF : C.F = false) {log e} (he : e ∈ log) {fuel : Nat} (hf : Fits C.lim fuel) :
    ∀ {qs : List Query} {as : List Answer} {σ : St}, Inv C.cfg C.lim σ → σ.flt = false → Keeps C.lim σ log →
    e.answers log qs = some as → Rd C (· = as) (asks fuel e.handle qs) σ := by
  intro qs
  induction qs with
  | nil => intro as σ hi _ _ h; cases h; exact Rd.ret hi rfl
  | cons q qs ih =>
    intro as σ hi hfl k h
    simp only [Entry.answers] at h
    split at h
    · rename_i a as' ha has
      cases h
      refine Rd.bindK hfl (Rd.ask (.inl hF) hi (fun _ => hfl) k he hf ha) ?_
      intro b σ1 h1 h5 hb
      subst hb
      exact Rd.map (ih h1.inv h5 (k.mono h1.mono) has) (fun x hx => by rw [hx])
    · cases h

theorem wp_asks {C : Ctx} {fuel : Nat} {r : RemE} : ∀ (qs : List Query) {σ : St}, Inv C.cfg C.lim σ → σ.bits ≠ none →
    wp C (fun _ σ' => Ext C σ σ' ∧ RO C σ σ') (asks fuel r qs) σ := by
  intro qs
  have hq : Quiet (asks fuel r qs) := by
    induction qs with
    | nil => exact .pure _
    | cons q qs ih => exact .bind (.query fuel r q) fun a => .bind ih fun _ => .pure _
  intro σ hi hb
  exact hq.wp hi hb

/-- what is promised to a reader -/
def Spec.Reader.Good (rd : Reader) (o : Out (List Answer)) : Prop :=
  ∀ e ∈ rd.log, Remark.getIdentifier e.handle = rd.identifier → ∀ as, e.answers rd.log rd.asked = some as → o = .ok as

theorem Keeps.unique {lim σ log} (k : Keeps lim σ log) {e e'} (h : e ∈ log) (h' : e' ∈ log)
    (hc : e.handle.cls = e'.handle.cls) : e = e' := by
  have := k.nodup
  clear k
  induction log with
  | nil => cases h
  | cons a l ih =>
    rw [List.map_cons, List.nodup_cons] at this
    rcases List.mem_cons.1 h with h1 | h1 <;> rcases List.mem_cons.1 h' with h2 | h2
    · rw [h1, h2]
    · subst h1; exact absurd (hc ▸ List.mem_map_of_mem (f := fun e => e.handle.cls) h2) this.1
    · subst h2; exact absurd (hc ▸ List.mem_map_of_mem (f := fun e => e.handle.cls) h1) this.1
    · exact ih h1 h2 this.2

/-- a new reader -/
theorem wp_interview {cfg : Cfg} {lim : Lim} {fuel : Nat} (hf : Fits lim fuel) {σ : St} (hi : Inv cfg lim σ) {log}
    (k : Keeps lim σ log) (hb : σ.bits ≠ none) (i : Nat) (qs : List Query) (m : Layer) :
    wp (readCtx cfg lim) (fun o _ => Reader.Good ⟨⟨interview fuel i qs, m⟩, i, qs, log⟩ o)
      (interview fuel i qs) (σ.seen Layer.fresh) := by
  have hi' : Inv cfg lim (σ.seen Layer.fresh) := hi.same (.seen σ _) fresh_mem
  have k' : Keeps lim (σ.seen Layer.fresh) log := k.mono (Same.seen σ _).mono
  by_cases hex : ∃ e ∈ log, Remark.getIdentifier e.handle = i ∧ ∃ as, e.answers log qs = some as
  · obtain ⟨e, he, hid, as, has⟩ := hex
    subst hid
    have h : Rd (readCtx cfg lim) (· = as) (interview fuel (Remark.getIdentifier e.handle) qs) (σ.seen Layer.fresh) := by
      refine Rd.bindK (C := readCtx cfg lim) rfl (Rd.get (C := readCtx cfg lim) hi' k' he) ?_
      intro a σ1 h1 h2 ha
      subst ha
      exact Rd.asks (C := readCtx cfg lim) rfl he hf h1.inv h2 (k'.mono h1.mono) has
    refine wp_mono ?_ (wp_calm (C := readCtx cfg lim) rfl h)
    intro o σ1 ⟨⟨h1, h2, h3⟩, h4⟩ e' he' hid' as' has'
    have := k.unique he' he hid'
    subst this
    rw [has] at has'
    cases has'
    have h5 : σ1.flt = false := h4
    cases o with
    | ok b => rw [h3.1]
    | err e => rw [h5] at h3; cases h3
    | panic => rw [h5] at h3; cases h3
    | spin => exact h3.elim
  · refine wp_mono (Q := fun _ _ => True) ?_ ?_
    · intro o _ _ e he hid as has
      exact absurd ⟨e, he, hid, as, has⟩ hex
    · refine wp_bind (wp_mono ?_ (wp_getRemark (C := readCtx cfg lim) hi' i))
      intro o σ1 ⟨h1, _⟩
      cases o with
      | ok r =>
        refine wp_mono (fun _ _ _ => trivial) (wp_asks (C := readCtx cfg lim) qs h1.inv ?_)
        intro hn
        cases hb' : σ.bits with
        | none => exact hb hb'
        | some bs =>
          have : σ1.bits = some bs := h1.mono.bits _ hb'
          rw [this] at hn; cases hn
      | _ => trivial

/-! ### the writer -/

/-- What is promised of the writer in the middle of a call.  `F`: its storage calls may fail. -/
def Tame {α : Type} (C : Ctx) (F : Bool) (Q : Out α → St → Prop) : Go α → St → Prop
  | .ok a, σ => Q (.ok a) σ
  | .err e, σ => Q (.err e) σ
  | .panic, σ => Q .panic σ
  | .spin, σ => Q .spin σ
  | .op o k, σ =>
      (∃ tag bits, Ext C σ (σ.after C.cfg o tag bits) ∧
        Tame C F Q (k (σ.store.step C.cfg o).1) (σ.after C.cfg o tag bits)) ∧
      (F = true → Ext C σ σ.fail ∧ Tame C F Q (k (.error .fault)) σ.fail) ∧
      (F = true → ∃ tag bits, Ext C σ (σ.after C.cfg o tag bits).fail ∧
        Tame C F Q (k (.error .fault)) (σ.after C.cfg o tag bits).fail)
  | .getMem k, σ => Tame C F Q (k σ.mem) σ
  | .setMem m k, σ => Ext C σ { σ with mem := σ.mem.set m } ∧ Tame C F Q k { σ with mem := σ.mem.set m }

theorem Tame.mono {α : Type} {C : Ctx} {F : Bool} {Q Q' : Out α → St → Prop} (hQ : ∀ o σ, Q o σ → Q' o σ) :
    ∀ {p : Go α} {σ : St}, Tame C F Q p σ → Tame C F Q' p σ := by
  intro p
  induction p with
  | ok a => exact fun h => hQ _ _ h
  | err e => exact fun h => hQ _ _ h
  | panic => exact fun h => hQ _ _ h
  | spin => exact fun h => hQ _ _ h
  | op o k ih =>
    intro σ ⟨⟨t, b, hs, h1⟩, h2, h3⟩
    refine ⟨⟨t, b, hs, ih _ h1⟩, fun hF => ⟨(h2 hF).1, ih _ (h2 hF).2⟩, fun hF => ?_⟩
    obtain ⟨t, b, hs, h4⟩ := h3 hF
    exact ⟨t, b, hs, ih _ h4⟩
  | getMem k ih => intro σ h; exact ih _ h
  | setMem m k ih => intro σ h; exact ⟨h.1, ih h.2⟩

theorem wp_tame {α : Type} {C : Ctx} (hF : C.F = true) (hR : C.R = false) {F : Bool} {Q : Out α → St → Prop} :
    ∀ {p : Go α} {σ : St}, wp C Q p σ → Tame C F (fun o σ' => Q o σ' ∧ (F = false → σ'.flt = σ.flt)) p σ := by
  have hFR : (C.F || C.R) = true := by simp [hF]
  intro p
  induction p with
  | ok a => exact fun h => ⟨h, fun _ => rfl⟩
  | err e => exact fun h => ⟨h, fun _ => rfl⟩
  | panic => exact fun h => ⟨h, fun _ => rfl⟩
  | spin => exact fun h => ⟨h, fun _ => rfl⟩
  | op o k ih =>
    intro σ h
    obtain ⟨⟨t, b, hs, h1⟩, h2, h3⟩ := h σ (by unfold Env; simp [hR]) C.cfg (.refl _)
    refine ⟨⟨t, b, hs.ext hFR, ih _ h1⟩, fun hf => ⟨(h2 hF).1.ext hFR, ?_⟩, fun hf => ?_⟩
    · refine Tame.mono ?_ (ih _ (h2 hF).2)
      intro o σ' h; exact ⟨h.1, fun h' => by rw [hf] at h'; cases h'⟩
    · obtain ⟨t, b, hs, h4⟩ := h3 hF
      refine ⟨t, b, hs.ext hFR, Tame.mono ?_ (ih _ h4)⟩
      intro o σ' h; exact ⟨h.1, fun h' => by rw [hf] at h'; cases h'⟩
  | getMem k ih => intro σ h; exact ih _ h
  | setMem m k ih => intro σ h; exact ⟨h.1.ext hFR, ih h.2⟩

theorem Tame.settle {α : Type} {C : Ctx} {F : Bool} {Q : Out α → St → Prop} :
    ∀ {p : Go α} {σ : St}, Inv C.cfg C.lim σ → Tame C F Q p σ →
      Inv C.cfg C.lim { σ with mem := (p.settle σ.mem).mem } ∧
      Tame C F Q (p.settle σ.mem).prog { σ with mem := (p.settle σ.mem).mem } := by
  intro p
  induction p with
  | ok a => exact fun hi h => ⟨hi, h⟩
  | err e => exact fun hi h => ⟨hi, h⟩
  | panic => exact fun hi h => ⟨hi, h⟩
  | spin => exact fun hi h => ⟨hi, h⟩
  | op o k ih => exact fun hi h => ⟨hi, h⟩
  | getMem k ih => exact fun hi h => ih _ hi h
  | setMem m k ih => intro σ hi h; exact ih (σ := { σ with mem := σ.mem.set m }) h.1.inv h.2

/-- between two storage calls -/
theorem Tame.out {α : Type} {C : Ctx} {F : Bool} {Q : Out α → St → Prop} {p : Go α} {σ : St} (hi : Inv C.cfg C.lim σ)
    (h : Tame C F Q p σ) {o : Out α} (ho : Proc.out ⟨p, σ.mem⟩ = some o) :
    Inv C.cfg C.lim { σ with mem := (p.settle σ.mem).mem } ∧ Q o { σ with mem := (p.settle σ.mem).mem } := by
  obtain ⟨h1, h2⟩ := h.settle hi
  refine ⟨h1, ?_⟩
  unfold Proc.out at ho
  generalize p.settle σ.mem = q at h1 h2 ho
  obtain ⟨q, m⟩ := q
  cases q <;> simp at ho <;> subst ho <;> exact h2

/-- a storage call of the writer -/
theorem Tame.turn {α : Type} {C : Ctx} {F : Bool} {Q : Out α → St → Prop} {p : Go α} {σ : St} (hi : Inv C.cfg C.lim σ)
    (h : Tame C F Q p σ) {f : Fate} (hf : F = true ∨ f = .ok) (ho : Proc.out ⟨p, σ.mem⟩ = none) :
    ∃ σ', Ext C σ σ' ∧ σ'.store = (Proc.turn C.cfg f ⟨p, σ.mem⟩ σ.store).2 ∧
      σ'.mem = (Proc.turn C.cfg f ⟨p, σ.mem⟩ σ.store).1.mem ∧
      Tame C F Q (Proc.turn C.cfg f ⟨p, σ.mem⟩ σ.store).1.prog σ' := by
  obtain ⟨h1, h2⟩ := h.settle hi
  have hset := settled p σ.mem
  unfold Proc.out at ho
  unfold Proc.turn
  simp only at ho ⊢
  have hs0 : Same σ { σ with mem := (p.settle σ.mem).mem } := ⟨rfl, rfl, rfl⟩
  have he0 : Ext C σ { σ with mem := (p.settle σ.mem).mem } := ⟨h1, hs0.mono, id⟩
  generalize p.settle σ.mem = q at h1 h2 ho hset he0
  obtain ⟨q, m⟩ := q
  cases q with
  | ok a => simp at ho
  | err e => simp at ho
  | panic => simp at ho
  | spin => simp at ho
  | getMem k => exact absurd rfl (hset.1 k)
  | setMem m' k => exact absurd rfl (hset.2 m' k)
  | op o k =>
    obtain ⟨⟨t, b, hs, h3⟩, h4, h5⟩ := h2
    cases f with
    | ok => exact ⟨_, he0.trans hs, rfl, rfl, h3⟩
    | fail =>
      have hF := hf.resolve_right (by simp)
      exact ⟨_, he0.trans (h4 hF).1, rfl, rfl, (h4 hF).2⟩
    | failLate =>
      have hF := hf.resolve_right (by simp)
      obtain ⟨t, b, hs, h6⟩ := h5 hF
      exact ⟨_, he0.trans hs, rfl, rfl, h6⟩

/-! ### the system -/

/-- the log after the call -/
def newLog (log : List Entry) (c : Call) : Out (Option RemE) → List Entry
  | .ok (some r) => log ++ (c.entry log r).toList
  | _ => log

/-- what the writer leaves behind when a call ends -/
def Left (cfg : Cfg) (lim : Lim) (log : List Entry) (c : Call) (o : Out (Option RemE)) (σ : St) : Prop :=
  Keeps lim σ (newLog log c o) ∧ (cfg.zero = true → Clean σ)

structure SysInv (cfg : Cfg) (lim : Lim) (F : Bool) (y : System) (σ : St) : Prop where
  store : σ.store = y.store
  mem : σ.mem = y.mem
  inv : Inv cfg lim σ
  keeps : Keeps lim σ y.log
  ne : y.log ≠ []
  todo : ∀ c ∈ y.todo, ∀ t ∈ c.texts, TextOK lim t
  cur : match y.cur with
    | none => σ.flt = false ∧ (cfg.zero = true → Clean σ)
    | some (c, p) => Tame (stormCtx cfg lim) F (Left cfg lim y.log c) p σ
  readers : ∀ rd ∈ y.readers, Inv cfg lim (σ.seen rd.proc.mem) ∧
    wp (readCtx cfg lim) (fun o _ => rd.Good o) rd.proc.prog (σ.seen rd.proc.mem)

theorem bits_ne {lim σ log} (k : Keeps lim σ log) (h : log ≠ []) : σ.bits ≠ none := by
  obtain ⟨e, he⟩ := List.exists_mem_of_ne_nil _ h
  exact (k.ok e he).bits

/-- readers do not mind what the writer does -/
theorem readers_ext {cfg lim} {C : Ctx} (hc : C.cfg = cfg) (hl : C.lim = lim) {σ σ' : St} (h : Ext C σ σ') {rd : Reader}
    (hr : Inv cfg lim (σ.seen rd.proc.mem) ∧
      wp (readCtx cfg lim) (fun o _ => rd.Good o) rd.proc.prog (σ.seen rd.proc.mem)) :
    Inv cfg lim (σ'.seen rd.proc.mem) ∧
      wp (readCtx cfg lim) (fun o _ => rd.Good o) rd.proc.prog (σ'.seen rd.proc.mem) := by
  subst hc hl
  have hi : Inv C.cfg C.lim (σ'.seen rd.proc.mem) :=
    h.inv.same (.seen _ _) fun hm => h.mono.bits _ (hr.1.mem hm)
  refine ⟨hi, wp_env (C := readCtx C.cfg C.lim) rfl ?_ hr.2⟩
  unfold Env
  exact ⟨⟨hi, (Same.seen σ rd.proc.mem).symm.mono.trans (h.mono.trans (Same.seen _ _).mono), id⟩, rfl, rfl⟩

theorem newLog_ne {log : List Entry} (h : log ≠ []) (c : Call) (o : Out (Option RemE)) : newLog log c o ≠ [] := by
  unfold newLog
  split <;> simp [h]

theorem SysInv.ends {cfg lim F} {y : System} {σ : St} (h : SysInv cfg lim F y σ) {c : Call} {p : Go (Option RemE)}
    (hcur : y.cur = some (c, p)) {o} (ho : Proc.out ⟨p, y.mem⟩ = some o) :
    SysInv cfg lim F { y with mem := (p.settle y.mem).mem, cur := none, log := newLog y.log c o }
      { σ with mem := (p.settle y.mem).mem, flt := false } := by
  have ht := h.cur
  rw [hcur] at ht
  rw [← h.mem] at ho ⊢
  obtain ⟨h1, h2, h3⟩ := Tame.out (C := stormCtx cfg lim) h.inv ht ho
  have hs : Same { σ with mem := (p.settle σ.mem).mem } { σ with mem := (p.settle σ.mem).mem, flt := false } :=
    ⟨rfl, rfl, rfl⟩
  exact ⟨h.store, rfl, h1.same hs h1.mem, h2.mono hs.mono, newLog_ne h.ne c o, h.todo,
    ⟨rfl, fun hz => (h3 hz).same hs⟩, h.readers⟩

theorem SysInv.turn {cfg : Cfg} {lim : Lim} {fuel : Nat} (hf : Fits lim fuel) {F : Bool} {y : System} {σ : St}
    (h : SysInv cfg lim F y σ) (t : Turn) (ht : t.Calm ∨ (F = true ∧ cfg.zero = false))
    (hFz : F = true → cfg.zero = false) :
    ∃ σ', SysInv cfg lim F (y.turn cfg fuel t) σ' := by
  cases t with
  | write f =>
    have hf' : F = true ∨ f = .ok := ht.elim .inr fun h => .inl h.1
    simp only [System.turn, System.write]
    cases hcur : y.cur with
    | none =>
      have hc := h.cur
      rw [hcur] at hc
      cases htodo : y.todo with
      | nil => exact ⟨σ, by simpa using h⟩
      | cons c cs =>
        have hok : CallOK (stormCtx cfg lim) fuel σ y.log :=
          ⟨rfl, rfl, rfl, h.inv, hc.1, fun _ => bits_ne h.keeps h.ne, hc.2, hf.L, hf.D, hf.two, h.keeps⟩
        have hw := wp_tame (F := F) rfl rfl (callWp hok c (h.todo c (by simp [htodo])))
        refine ⟨σ, h.store, h.mem, h.inv, h.keeps, h.ne,
          fun c hc => h.todo c (by rw [htodo]; exact List.mem_cons_of_mem _ hc), ?_, h.readers⟩
        refine Tame.mono ?_ hw
        intro o σ' ⟨⟨h1, _, h2⟩, h3⟩
        refine ⟨?_, fun hz => h1.clean (hc.2 hz) ?_⟩
        · cases o with
          | ok r =>
            cases r with
            | none => exact h.keeps.mono h1.mono
            | some r =>
              obtain ⟨e, e1, e2, e3, e4⟩ := h2
              simp only [newLog, e1, Option.toList]
              exact h.keeps.add h1.mono e3 (by rw [e2]; exact e4.1)
          | _ => exact h.keeps.mono h1.mono
        · rw [h3 ?_]
          · exact hc.1
          · cases F with
            | false => rfl
            | true => rw [hFz rfl] at hz; cases hz
    | some cp =>
      obtain ⟨c, p⟩ := cp
      simp only
      cases ho : Proc.out ⟨p, y.mem⟩ with
      | none =>
        have htm := h.cur
        rw [hcur] at htm
        rw [← h.mem] at ho
        obtain ⟨σ', h1, h2, h3, h4⟩ := Tame.turn (C := stormCtx cfg lim) h.inv htm hf' ho
        rw [h.mem, h.store] at h2 h3 h4
        exact ⟨σ', h2, h3, h1.inv, h.keeps.mono h1.mono, h.ne, h.todo, h4,
          fun rd hrd => readers_ext (C := stormCtx cfg lim) rfl rfl h1 (h.readers rd hrd)⟩
      | some o =>
        have := h.ends hcur ho
        refine ⟨{ σ with mem := (p.settle y.mem).mem, flt := false }, ?_⟩
        cases o with
        | ok r => cases r <;> exact this
        | _ => exact this
  | die =>
    obtain ⟨hF, hz⟩ := ht.resolve_left id
    have hs : Same σ { σ with mem := Layer.fresh, flt := false } := .unfail σ _
    exact ⟨{ σ with mem := Layer.fresh, flt := false }, h.store, rfl, h.inv.same hs fresh_mem, h.keeps.mono hs.mono,
      h.ne, h.todo, ⟨rfl, fun h => by rw [hz] at h; cases h⟩, h.readers⟩
  | spawn i qs =>
    refine ⟨σ, h.store, h.mem, h.inv, h.keeps, h.ne, h.todo, h.cur, ?_⟩
    intro rd hrd
    rcases List.mem_append.1 hrd with hrd | hrd
    · exact h.readers rd hrd
    · rw [List.mem_singleton.1 hrd]
      exact ⟨h.inv.same (.seen σ _) fresh_mem, wp_interview hf h.inv h.keeps (bits_ne h.keeps h.ne) i qs _⟩
  | read j =>
    simp only [System.turn, System.read]
    cases hj : y.readers[j]? with
    | none => exact ⟨σ, h⟩
    | some rd =>
      have hrd := h.readers rd (List.mem_of_getElem? hj)
      obtain ⟨h1, h2, h3⟩ := wp_readTurn hrd.1 hrd.2
      rw [h.store] at h1 h2 h3
      refine ⟨σ, ?_, h.mem, h.inv, h.keeps, h.ne, h.todo, h.cur, ?_⟩
      · rw [h.store]; exact h1.symm
      · intro rd' hrd'
        rcases List.mem_or_eq_of_mem_set hrd' with h' | h'
        · exact h.readers rd' h'
        · subst h'; exact ⟨h2, h3⟩

theorem SysInv.turns {cfg : Cfg} {lim : Lim} {fuel : Nat} (hf : Fits lim fuel) {F : Bool}
    (hFz : F = true → cfg.zero = false) : ∀ (ts : List Turn) {y : System} {σ : St}, SysInv cfg lim F y σ →
    (∀ t ∈ ts, t.Calm ∨ (F = true ∧ cfg.zero = false)) → ∃ σ', SysInv cfg lim F (y.turns cfg fuel ts) σ' := by
  intro ts
  induction ts with
  | nil => intro y σ h _; exact ⟨σ, h⟩
  | cons t ts ih =>
    intro y σ h ht
    obtain ⟨σ1, h1⟩ := h.turn hf t (ht t (by simp)) hFz
    exact ih h1 fun t' h' => ht t' (by simp [h'])

theorem SysInv.start {cfg lim F} {st : State} {σ : St} (h : Holds cfg lim st σ) (hc : Clean σ) (hl : st.log ≠ [])
    {cs : List Call} (ht : ∀ c ∈ cs, ∀ t ∈ c.texts, TextOK lim t) : SysInv cfg lim F (System.start st cs) σ :=
  ⟨h.is.store, h.is.mem, h.inv, h.keeps, hl, ht, ⟨h.flt, fun _ => hc⟩, fun rd hrd => by cases hrd⟩

theorem SysInv.result {cfg lim F} {y : System} {σ : St} (h : SysInv cfg lim F y σ) {rd : Reader} (hrd : rd ∈ y.readers) :
    rd.Good (rd.result cfg y.store) := by
  obtain ⟨h1, h2⟩ := h.readers rd hrd
  have := wp_alone (P := rd.Good) h1 h2
  simp only [St.seen, h.store] at this
  exact this

theorem exec_settle {α : Type} (cfg : Cfg) (s : Store) : ∀ (p : Go α) (m : Layer),
    p.exec cfg ⟨s, m⟩ = (p.settle m).prog.exec cfg ⟨s, (p.settle m).mem⟩ := by
  intro p
  induction p with
  | getMem k ih => exact fun m => ih m m
  | setMem u k ih => exact fun m => ih (m.set u)
  | _ => exact fun m => rfl

theorem out_result {cfg : Cfg} {s : Store} {rd : Reader} {o} (h : rd.proc.out = some o) : rd.result cfg s = o := by
  unfold Reader.result
  rw [show (rd.proc.prog.exec cfg ⟨s, rd.proc.mem⟩) = _ from exec_settle cfg s rd.proc.prog rd.proc.mem]
  unfold Proc.out at h
  generalize rd.proc.prog.settle rd.proc.mem = q at h
  obtain ⟨q, m⟩ := q
  cases q <;> simp at h <;> subst h <;> rfl

/-! ### readers do not disturb the writer -/

/-- everything but the readers -/
def Spec.System.part (y : System) : Store × Layer × Option (Call × Go (Option RemE)) × List Call × List Entry :=
  (y.store, y.mem, y.cur, y.todo, y.log)

theorem write_part {cfg fuel f} {y y' : System} (h : y.part = y'.part) :
    (y.write cfg fuel f).part = (y'.write cfg fuel f).part := by
  obtain ⟨s, m, c, t, l, r⟩ := y
  obtain ⟨s', m', c', t', l', r'⟩ := y'
  simp only [System.part, Prod.mk.injEq] at h
  obtain ⟨rfl, rfl, rfl, rfl, rfl⟩ := h
  simp only [System.write]
  cases c with
  | none => cases t <;> rfl
  | some cp =>
    simp only
    split <;> rfl

theorem SysInv.same_part {cfg : Cfg} {lim : Lim} {fuel : Nat} (hf : Fits lim fuel) {F : Bool}
    (hFz : F = true → cfg.zero = false) : ∀ (ts : List Turn) {y y' : System} {σ : St}, SysInv cfg lim F y σ →
    y.part = y'.part → (∀ t ∈ ts, t.Calm ∨ (F = true ∧ cfg.zero = false)) →
    (y.turns cfg fuel ts).part = (y'.turns cfg fuel (ts.filter Turn.writes)).part := by
  intro ts
  induction ts with
  | nil => intro y y' σ h he _; exact he
  | cons t ts ih =>
    intro y y' σ h he ht
    obtain ⟨σ1, h1⟩ := h.turn hf t (ht t (by simp)) hFz
    have ht' : ∀ t ∈ ts, t.Calm ∨ (F = true ∧ cfg.zero = false) := fun t' h' => ht t' (by simp [h'])
    cases t with
    | write f => exact ih h1 (y' := y'.write cfg fuel f) (write_part he) ht'
    | die =>
      refine ih h1 (y' := { y' with mem := Layer.fresh, cur := none }) ?_ ht'
      simp only [System.part, System.turn, Prod.mk.injEq] at he ⊢
      exact ⟨he.1, trivial, trivial, he.2.2.2⟩
    | spawn i qs => exact ih h1 (y' := y') he ht'
    | read j =>
      refine ih h1 (y' := y') ?_ ht'
      rw [← he]
      simp only [System.turn, System.read]
      cases hj : y.readers[j]? with
      | none => rfl
      | some rd =>
        have hrd := h.readers rd (List.mem_of_getElem? hj)
        have h2 := (wp_readTurn hrd.1 hrd.2).1
        rw [h.store] at h2
        simp only [System.part, h2]

/-! ### the writer by itself -/

/-- the state when the writer is done with everything it has to do -/
def Spec.System.final (cfg : Cfg) (fuel : Nat) (y : System) : State :=
  let st := match y.cur with
    | none => y.state
    | some (c, p) => match p.exec cfg ⟨y.store, y.mem⟩ with
      | (.ok (some r), w) => ⟨w, y.log ++ (c.entry y.log r).toList⟩
      | (_, w) => ⟨w, y.log⟩
  st.events cfg fuel (y.todo.map fun c => .call c Go.noFault)

theorem final_write {cfg fuel} (y : System) : (y.write cfg fuel .ok).final cfg fuel = y.final cfg fuel := by
  obtain ⟨s, m, c, t, l, r⟩ := y
  simp only [System.write]
  cases c with
  | none =>
    cases t with
    | nil => rfl
    | cons c cs =>
      simp only [System.final, List.map_cons, State.events, List.foldl_cons, State.event, State.call, System.state]
      rfl
  | some cp =>
    obtain ⟨c, p⟩ := cp
    have hset := settled p m
    simp only [Proc.out, Proc.turn, System.final, System.state]
    rw [exec_settle cfg s p m]
    generalize p.settle m = q at hset
    obtain ⟨q, m'⟩ := q
    cases q with
    | ok r => cases r <;> rfl
    | err e => rfl
    | panic => rfl
    | spin => rfl
    | getMem k => exact absurd rfl (hset.1 k)
    | setMem m' k => exact absurd rfl (hset.2 m' k)
    | op o k => rfl

theorem final_done {cfg fuel} {y : System} (h : y.done = true) : y.final cfg fuel = y.state := by
  obtain ⟨s, m, c, t, l, r⟩ := y
  simp only [System.done, Bool.and_eq_true, Option.isNone_iff_eq_none, List.isEmpty_iff] at h
  obtain ⟨rfl, rfl⟩ := h
  rfl

theorem final_part {cfg fuel} {y y' : System} (h : y.part = y'.part) : y.final cfg fuel = y'.final cfg fuel := by
  obtain ⟨s, m, c, t, l, r⟩ := y
  obtain ⟨s', m', c', t', l', r'⟩ := y'
  simp only [System.part, Prod.mk.injEq] at h
  obtain ⟨rfl, rfl, rfl, rfl, rfl⟩ := h
  rfl

theorem SysInv.final {cfg : Cfg} {lim : Lim} {fuel : Nat} (hf : Fits lim fuel) : ∀ (ts : List Turn) {y : System} {σ : St},
    SysInv cfg lim false y σ → (∀ t ∈ ts, t.Calm) → (y.turns cfg fuel ts).final cfg fuel = y.final cfg fuel := by
  intro ts
  induction ts with
  | nil => intro y σ h _; rfl
  | cons t ts ih =>
    intro y σ h ht
    obtain ⟨σ1, h1⟩ := h.turn hf t (.inl (ht t (by simp))) (by simp)
    refine (ih h1 fun t' h' => ht t' (by simp [h'])).trans ?_
    have hc := ht t (by simp)
    cases t with
    | write f => cases (hc : f = .ok); exact final_write y
    | die => exact hc.elim
    | spawn i qs => exact final_part rfl
    | read j =>
      refine final_part ?_
      have := SysInv.same_part hf (by simp) [.read j] h rfl (fun t ht => by simp at ht; subst ht; exact .inl trivial)
      exact this

/-- `n` undisturbed turns of the writer -/
def Spec.System.steps (cfg : Cfg) (fuel : Nat) (y : System) (n : Nat) : System :=
  y.turns cfg fuel (List.replicate n (.write .ok))

theorem steps_succ {cfg fuel} (y : System) (n : Nat) :
    y.steps cfg fuel (n + 1) = (y.write cfg fuel .ok).steps cfg fuel n := rfl

theorem steps_add {cfg fuel} : ∀ (n : Nat) (y : System) (m : Nat),
    (y.steps cfg fuel n).steps cfg fuel m = y.steps cfg fuel (n + m) := by
  intro n
  induction n with
  | zero => intro y m; rw [Nat.zero_add]; rfl
  | succ n ih => intro y m; rw [steps_succ, ih, Nat.succ_add, steps_succ]

theorem write_ends {cfg fuel} : ∀ (p : Go (Option RemE)) (y : System) (c : Call), y.cur = some (c, p) →
    ∃ n, (y.steps cfg fuel (n + 1)).cur = none ∧ (y.steps cfg fuel (n + 1)).todo = y.todo := by
  intro p
  induction p with
  | ok a =>
    intro y c h
    refine ⟨0, ?_⟩
    rw [steps_succ]
    obtain ⟨s, m, cu, t, l, r⟩ := y
    cases h
    cases a <;> exact ⟨rfl, rfl⟩
  | err e => intro y c h; refine ⟨0, ?_⟩; rw [steps_succ]; obtain ⟨s, m, cu, t, l, r⟩ := y; cases h; exact ⟨rfl, rfl⟩
  | panic => intro y c h; refine ⟨0, ?_⟩; rw [steps_succ]; obtain ⟨s, m, cu, t, l, r⟩ := y; cases h; exact ⟨rfl, rfl⟩
  | spin => intro y c h; refine ⟨0, ?_⟩; rw [steps_succ]; obtain ⟨s, m, cu, t, l, r⟩ := y; cases h; exact ⟨rfl, rfl⟩
  | op o k ih =>
    intro y c h
    obtain ⟨s, m, cu, t, l, r⟩ := y
    cases h
    obtain ⟨n, h1, h2⟩ := ih (s.step cfg o).1 ⟨(s.step cfg o).2, m, some (c, k (s.step cfg o).1), t, l, r⟩ c rfl
    exact ⟨n + 1, h1, h2⟩
  | getMem k ih =>
    intro y c h
    obtain ⟨s, m, cu, t, l, r⟩ := y
    cases h
    obtain ⟨n, h1, h2⟩ := ih m ⟨s, m, some (c, k m), t, l, r⟩ c rfl
    exact ⟨n, h1, h2⟩
  | setMem m' k ih =>
    intro y c h
    obtain ⟨s, m, cu, t, l, r⟩ := y
    cases h
    obtain ⟨n, h1, h2⟩ := ih ⟨s, m.set m', some (c, k), t, l, r⟩ c rfl
    exact ⟨n, h1, h2⟩

theorem write_done {cfg fuel} (y : System) : ∃ n, (y.steps cfg fuel n).done = true := by
  have idle : ∀ (t : List Call) (y : System), y.todo = t → y.cur = none → ∃ n, (y.steps cfg fuel n).done = true := by
    intro t
    induction t with
    | nil => intro y h1 h2; exact ⟨0, by simp [System.steps, System.turns, System.done, h1, h2]⟩
    | cons c cs ih =>
      intro y h1 h2
      have e : (y.write cfg fuel .ok).cur = some (c, c.prog fuel y.log) ∧ (y.write cfg fuel .ok).todo = cs := by
        obtain ⟨s, m, cu, t, l, r⟩ := y
        cases h1; cases h2; exact ⟨rfl, rfl⟩
      obtain ⟨n, h3, h4⟩ := write_ends (cfg := cfg) (fuel := fuel) _ _ _ e.1
      obtain ⟨m, h5⟩ := ih _ (h4.trans e.2) h3
      rw [steps_add, ← steps_succ] at h5
      exact ⟨_, h5⟩
  cases hc : y.cur with
  | none => exact idle _ y rfl hc
  | some cp =>
    obtain ⟨c, p⟩ := cp
    obtain ⟨n, h3, h4⟩ := write_ends (cfg := cfg) (fuel := fuel) _ y _ hc
    obtain ⟨m, h5⟩ := idle _ _ rfl h3
    rw [steps_add] at h5
    exact ⟨_, h5⟩

end Semnet
