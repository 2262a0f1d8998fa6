import Verif.Proof.RaceWarm
import Verif.Proof.Moody
import Verif.Proof.Growth
import Verif.Proof.Chars
import Verif.Proof.Scribe
/-
  What looking up a text yields does not depend on the order in which the storage lists edges.
-/
set_option linter.unusedSimpArgs false
namespace Semnet
open Class Spec

/-! ### programs that only ask do not come to a write -/

def Looking {α : Type} (s : Store) (p : Go α) : Prop := ∀ g m, ∃ r, Go.looks g p s m = some r

theorem looks_then {α β : Type} {s : Store} {f : α → Go β} {p : Go α} {g : Nat → Cfg} {m : Layer} {a m1}
    (h : Go.looks g p s m = some (.ok a, m1)) :
    ∃ n, Go.looks g (p >>= f) s m = Go.looks (fun i => g (i + n)) (f a) s m1 := by
  obtain ⟨n, hn⟩ := Race.looks_bind_ok (f := f) h
  refine ⟨n, ?_⟩
  have := hn fun i => g (i + n)
  have e : Race.splice g n (fun i => g (i + n)) = g := by
    funext i
    unfold Race.splice
    split
    · rfl
    · show g (i - n + n) = g i
      rw [Nat.sub_add_cancel (by omega)]
  rwa [e] at this

theorem Looking.bind {α β : Type} {s : Store} {p : Go α} {f : α → Go β} (h : Looking s p) (hf : ∀ a, Looking s (f a)) :
    Looking s (p >>= f) := by
  intro g m
  obtain ⟨⟨o, m'⟩, hr⟩ := h g m
  cases o with
  | ok a =>
    obtain ⟨n, hn⟩ := looks_then (f := f) hr
    rw [hn]
    exact hf a _ _
  | err e => exact ⟨_, Race.looks_bind_err hr⟩
  | panic => exact ⟨_, Race.looks_bind_panic hr⟩
  | spin => exact ⟨_, Race.looks_bind_spin hr⟩

theorem Looking.attempt {α : Type} {s : Store} {p : Go α} (h : Looking s p) : Looking s p.attempt := by
  intro g m
  obtain ⟨⟨o, m'⟩, hr⟩ := h g m
  rw [Race.looks_attempt, hr]
  cases o <;> exact ⟨_, rfl⟩

theorem Looking.call {s : Store} {o : Op} (h : o.isRead = true) : Looking s (Go.call o) := by
  intro g m
  cases o with
  | create => cases h
  | setReference _ _ => cases h
  | connect _ _ => cases h
  | has x => unfold Go.call; simp only [Go.looks]; cases (s.step (g 0) (.has x)).1 <;> exact ⟨_, rfl⟩
  | readSources x => unfold Go.call; simp only [Go.looks]; cases (s.step (g 0) (.readSources x)).1 <;> exact ⟨_, rfl⟩
  | readTargets x => unfold Go.call; simp only [Go.looks]; cases (s.step (g 0) (.readTargets x)).1 <;> exact ⟨_, rfl⟩
  | getReference x => unfold Go.call; simp only [Go.looks]; cases (s.step (g 0) (.getReference x)).1 <;> exact ⟨_, rfl⟩

theorem Looking.classes {s : Store} (h : s.live 1 = true) : Looking s Class.provideEntity := by
  intro g m
  unfold Class.provideEntity
  obtain ⟨n, hn⟩ := looks_then (g := g) (m := m) (s := s) (p := Go.has 1) (a := true) (m1 := m)
    (by simp [Go.has, Go.call, Go.looks, Store.step, h])
  rw [hn]
  exact ⟨_, rfl⟩

theorem Looking.fill {s : Store} (h : s.live 1 = true) (h2 : s.sources 1 ≠ []) : Looking s Bit.fill := by
  intro g m
  unfold Bit.fill
  refine Looking.bind (Looking.classes h) ?_ g m
  intro _ g m
  show ∃ r, Go.looks (fun n => g (n + 1)) _ s m = some r
  simp only [Store.step, Class.bitId, h, if_true]
  have hne : (g 0).ord s (.readSources 1) (s.sources 1) ≠ [] := by
    intro h0
    have := ((g 0).ord_perm s (.readSources 1) (s.sources 1)).length_eq
    rw [h0] at this
    exact h2 (List.length_eq_zero_iff.1 this.symm)
  match hl : (g 0).ord s (.readSources 1) (s.sources 1) with
  | [] => exact absurd hl hne
  | [_] => exact ⟨_, rfl⟩
  | [c0, c1] =>
    refine Looking.bind (p := Go.getReference _) (Looking.call rfl) ?_ _ m
    intro _
    refine Looking.bind (p := Go.assign _) (fun _ _ => ⟨_, rfl⟩) ?_
    intro _
    refine Looking.bind (p := Go.getReference _) (Looking.call rfl) ?_
    intro _ _ _
    exact ⟨_, rfl⟩
  | _ :: _ :: _ :: _ => exact ⟨_, rfl⟩

theorem Looking.init {s : Store} (h : s.live 1 = true) (h2 : s.sources 1 ≠ []) : Looking s Bit.init := by
  unfold Bit.init
  refine Looking.bind ?_ fun _ _ _ => ⟨_, rfl⟩
  intro g m
  show ∃ r, Go.looks g (ite (m.isInitialized = true) (pure ()) Bit.fill) s m = some r
  split
  · exact ⟨_, rfl⟩
  · exact Looking.fill h h2 g m

theorem Quiet.looking {s : Store} (h1 : s.live 1 = true) (h2 : s.sources 1 ≠ []) {α : Type} {p : Go α} (h : Quiet p) :
    Looking s p := by
  induction h with
  | pure a => exact fun _ _ => ⟨_, rfl⟩
  | err e => exact fun _ _ => ⟨_, rfl⟩
  | panic => exact fun _ _ => ⟨_, rfl⟩
  | spin => exact fun _ _ => ⟨_, rfl⟩
  | call o h => exact Looking.call h
  | init => exact Looking.init h1 h2
  | classes => exact Looking.classes h1
  | bind _ _ ih1 ih2 => exact ih1.bind ih2
  | attempt _ ih => exact ih.attempt

/-! ### what is known beforehand -/

/-- In every mood the program ends in the same way without writing (`some`), or comes to a write (`none`). -/
def Known {α : Type} (cfg : Cfg) (lim : Lim) (σ : St) (r : Option (Out α)) (p : Go α) : Prop :=
  ∀ g, Suits cfg g → ∀ m, Inv cfg lim (σ.seen m) →
    match r with
    | none => Go.looks g p σ.store m = none
    | some o => ∃ m', Inv cfg lim (σ.seen m') ∧ Go.looks g p σ.store m = some (o, m')

/-- The end of the program does not depend on the mood. -/
def Det {α : Type} (cfg : Cfg) (lim : Lim) (σ : St) (good : α → Prop) (p : Go α) : Prop :=
  ∃ r, Known cfg lim σ r p ∧ ∀ a, r = some (.ok a) → good a

/-- the storage is initialised -/
structure Ground (cfg : Cfg) (lim : Lim) (σ : St) (bs : BitE × BitE) : Prop where
  inv : Inv cfg lim σ
  bits : σ.bits = some bs

section
variable {cfg : Cfg} {lim : Lim} {σ : St} {bs : BitE × BitE} {α β : Type}

theorem Ground.live (G : Ground cfg lim σ bs) : σ.store.live 1 = true :=
  (G.inv.live 1).2 (by rw [(G.inv.root 1).2 (by omega)]; simp)

theorem Ground.some (G : Ground cfg lim σ bs) : σ.store.sources 1 ≠ [] := by
  intro hS
  have hp := (getD_bits G.inv G.bits).S1
  unfold St.S at hp
  rw [show Class.bitId = 1 from rfl, hS] at hp
  have := hp.length_eq
  simp at this

theorem _root_.Semnet.Spec.Suits.shift {g : Nat → Cfg} (h : Suits cfg g) (n : Nat) : Suits cfg fun i => g (i + n) := fun i => h (i + n)

theorem Known.ret (a : α) : Known cfg lim σ (some (.ok a)) (Pure.pure a) := fun _ _ m hm => ⟨m, hm, rfl⟩
theorem Known.err (e : Err) : Known (α := α) cfg lim σ (some (.err e)) (Go.err e) := fun _ _ m hm => ⟨m, hm, rfl⟩
theorem Known.panic : Known (α := α) cfg lim σ (some .panic) Go.panic := fun _ _ m hm => ⟨m, hm, rfl⟩

/-- what follows is known -/
theorem Known.then {r : Option (Out β)} {p : Go α} {f : α → Go β} {a : α} (h : Known cfg lim σ (some (.ok a)) p)
    (hf : Known cfg lim σ r (f a)) : Known cfg lim σ r (p >>= f) := by
  intro g hg m hm
  obtain ⟨m1, hm1, hl⟩ := h g hg m hm
  obtain ⟨n, hn⟩ := looks_then (f := f) hl
  rw [hn]
  exact hf _ (hg.shift n) m1 hm1

theorem Known.write {p : Go α} {f : α → Go β} (h : Known cfg lim σ none p) : Known cfg lim σ none (p >>= f) :=
  fun g hg m hm => Race.looks_bind_none (h g hg m hm)

theorem Det.cons {good good' : α → Prop} {p : Go α} (h : Det cfg lim σ good p) (hg : ∀ a, good a → good' a) :
    Det cfg lim σ good' p := by
  obtain ⟨r, h1, h2⟩ := h
  exact ⟨r, h1, fun a ha => hg a (h2 a ha)⟩

theorem Det.ret {good : α → Prop} {a : α} (h : good a) : Det cfg lim σ good (Pure.pure a) :=
  ⟨_, Known.ret a, fun _ e => by cases e; exact h⟩
theorem Det.err {good : α → Prop} {e : Err} : Det cfg lim σ good (Go.err e) := ⟨_, Known.err e, fun _ e => by cases e⟩
theorem Det.panic {good : α → Prop} : Det cfg lim σ good Go.panic := ⟨_, Known.panic, fun _ e => by cases e⟩
theorem Det.write {good : α → Prop} {p : Go α} (h : Known cfg lim σ none p) : Det cfg lim σ good p :=
  ⟨_, h, fun _ e => by cases e⟩

theorem Det.bind {good : α → Prop} {good' : β → Prop} {p : Go α} {f : α → Go β} (h : Det cfg lim σ good p)
    (hf : ∀ a, good a → Det cfg lim σ good' (f a)) : Det cfg lim σ good' (p >>= f) := by
  obtain ⟨r, h1, h2⟩ := h
  cases r with
  | none => exact Det.write h1.write
  | some o =>
    cases o with
    | ok a =>
      obtain ⟨r', h3, h4⟩ := hf a (h2 a rfl)
      exact ⟨r', h1.then h3, h4⟩
    | err e =>
      refine ⟨some (.err e), fun g hg m hm => ?_, fun _ e => by cases e⟩
      obtain ⟨m1, hm1, hl⟩ := h1 g hg m hm
      exact ⟨m1, hm1, Race.looks_bind_err hl⟩
    | panic =>
      refine ⟨some .panic, fun g hg m hm => ?_, fun _ e => by cases e⟩
      obtain ⟨m1, hm1, hl⟩ := h1 g hg m hm
      exact ⟨m1, hm1, Race.looks_bind_panic hl⟩
    | spin =>
      refine ⟨some .spin, fun g hg m hm => ?_, fun _ e => by cases e⟩
      obtain ⟨m1, hm1, hl⟩ := h1 g hg m hm
      exact ⟨m1, hm1, Race.looks_bind_spin hl⟩

theorem Det.attempt {good : α → Prop} {p : Go α} (h : Det cfg lim σ good p) :
    Det cfg lim σ (fun r => ∀ a, r = .ok a → good a) p.attempt := by
  obtain ⟨r, h1, h2⟩ := h
  cases r with
  | none =>
    refine Det.write fun g hg m hm => ?_
    rw [Race.looks_attempt, h1 g hg m hm]
  | some o =>
    cases o with
    | ok a =>
      refine ⟨some (.ok (.ok a)), fun g hg m hm => ?_, fun r e => by cases e; intro b hb; cases hb; exact h2 _ rfl⟩
      obtain ⟨m1, hm1, hl⟩ := h1 g hg m hm
      exact ⟨m1, hm1, by rw [Race.looks_attempt, hl]⟩
    | err e =>
      refine ⟨some (.ok (.error e)), fun g hg m hm => ?_, fun r e => by cases e; intro b hb; cases hb⟩
      obtain ⟨m1, hm1, hl⟩ := h1 g hg m hm
      exact ⟨m1, hm1, by rw [Race.looks_attempt, hl]⟩
    | panic =>
      refine ⟨some .panic, fun g hg m hm => ?_, fun _ e => by cases e⟩
      obtain ⟨m1, hm1, hl⟩ := h1 g hg m hm
      exact ⟨m1, hm1, by rw [Race.looks_attempt, hl]⟩
    | spin =>
      refine ⟨some .spin, fun g hg m hm => ?_, fun _ e => by cases e⟩
      obtain ⟨m1, hm1, hl⟩ := h1 g hg m hm
      exact ⟨m1, hm1, by rw [Race.looks_attempt, hl]⟩

/-- a question is asked in some mood -/
theorem Ground.ask (G : Ground cfg lim σ bs) {good : α → Prop} {p : Go α} (hq : Quiet p)
    (hr : ∀ m, Inv cfg lim (σ.seen m) → Rd (calmCtx cfg lim) good p (σ.seen m)) {g : Nat → Cfg} (hg : Suits cfg g) {m : Layer}
    (hm : Inv cfg lim (σ.seen m)) :
    ∃ a m', good a ∧ Inv cfg lim (σ.seen m') ∧ Go.looks g p σ.store m = Option.some (.ok a, m') := by
  obtain ⟨⟨o, m'⟩, hl⟩ := hq.looking G.live G.some g m
  obtain ⟨σ', h1, ⟨h2, h3, h4⟩, h5⟩ := wp_runs (C := calmCtx cfg lim) rfl hg (.inr rfl)
    (σ := σ.seen m) (w := ⟨σ.store, m⟩) ⟨rfl, rfl⟩ (hr m hm)
  rw [Race.looks_runs p g m hl] at h1 h4
  have hfl : σ'.flt = false := h5 rfl
  have hi : Inv cfg lim (σ.seen m') := by
    refine Inv.same (((h3 rfl).symm.trans (Same.seen σ m).symm).trans (Same.seen σ m')) h2.inv ?_
    intro hm'
    have := h2.inv.mem
    rw [h1.mem] at this
    exact this hm'
  cases o with
  | ok a => exact ⟨a, m', h4.1, hi, hl⟩
  | err e => simp only at h4; rw [hfl] at h4; cases h4
  | panic => simp only at h4; rw [hfl] at h4; cases h4
  | spin => exact h4.elim

theorem Known.rbind (G : Ground cfg lim σ bs) {good : α → Prop} {p : Go α} (hq : Quiet p)
    (hr : ∀ m, Inv cfg lim (σ.seen m) → Rd (calmCtx cfg lim) good p (σ.seen m)) {r : Option (Out β)} {f : α → Go β}
    (hf : ∀ a, good a → Known cfg lim σ r (f a)) : Known cfg lim σ r (p >>= f) := by
  intro g hg m hm
  obtain ⟨a, m1, ha, hm1, hl⟩ := G.ask hq hr hg hm
  obtain ⟨n, hn⟩ := looks_then (f := f) hl
  rw [hn]
  exact hf a ha _ (hg.shift n) m1 hm1

/-- an answer that does not depend on the mood -/
theorem Det.sure (G : Ground cfg lim σ bs) {x : α} {p : Go α} (hq : Quiet p)
    (hr : ∀ m, Inv cfg lim (σ.seen m) → Rd (calmCtx cfg lim) (· = x) p (σ.seen m)) : Det cfg lim σ (· = x) p := by
  refine ⟨some (.ok x), fun g hg m hm => ?_, fun a e => by cases e; rfl⟩
  obtain ⟨a, m1, ha, hm1, hl⟩ := G.ask hq hr hg hm
  subst ha
  exact ⟨m1, hm1, hl⟩

theorem Known.targets (G : Ground cfg lim σ bs) {x : Nat} (hx : σ.tag x ≠ .none) {r : Option (Out β)} {f : List Nat → Go β}
    (h : ∀ l, l.Perm (σ.T x) → Known cfg lim σ r (f l)) : Known cfg lim σ r (Go.readTargets x >>= f) := by
  refine Known.rbind G (good := fun l => l.Perm (σ.T x)) (Quiet.targets x) (fun m hm => Rd.targets (σ := σ.seen m) hm hx ?_) h
  intro σ1 l _ ro hl
  rw [(ro rfl).T] at hl
  exact hl

theorem Known.sources (G : Ground cfg lim σ bs) {x : Nat} (hx : σ.tag x ≠ .none) {r : Option (Out β)}
    {f : Except Err (List Nat) → Go β}
    (h : ∀ l, l.Perm (σ.S x) → Known cfg lim σ r (f (.ok l))) : Known cfg lim σ r ((Go.readSources x).attempt >>= f) := by
  refine Known.rbind G (good := fun r => ∃ l, r = .ok l ∧ l.Perm (σ.S x)) (.attempt (Quiet.sources x))
    (fun m hm => Rd.attemptC rfl rfl (Rd.sources (σ := σ.seen m) hm hx ?_)) ?_
  · intro σ1 l _ ro hl
    rw [(ro rfl).S] at hl
    exact hl
  · rintro _ ⟨l, rfl, hl⟩
    exact h l hl

theorem Known.createNode (x : Nat) {f : Nat → Go β} : Known cfg lim σ none (Class.createNode x >>= f) := fun _ _ _ _ => rfl

theorem Det.classes (G : Ground cfg lim σ bs) : Det cfg lim σ (fun _ => True) Class.provideEntity :=
  (Det.sure G (x := ()) .classes fun _ hm => (Rd.provideEntity hm).cons fun _ _ => rfl).cons fun _ _ => trivial

theorem Quiet.bitProvide (v : Bool) : Quiet (Bit.provide v) := by unfold Bit.provide; quiet

theorem Det.bitProvide (G : Ground cfg lim σ bs) (v : Bool) : Det cfg lim σ (· = bitEnt bs v) (Bit.provide v) :=
  Det.sure G (Quiet.bitProvide v) fun m hm => Rd.bitProvide (σ := σ.seen m) hm G.bits v

theorem Det.deref {good : α → Prop} {o : Option α} (h : ∀ a, o = some a → good a) : Det cfg lim σ good (Character.deref o) := by
  cases o with
  | none => exact Det.panic
  | some a => exact Det.ret (h a rfl)

theorem CharEnt.sees {p e} (h : CharEnt σ p e) (m : Layer) : CharEnt (σ.seen m) p e := h.mono (Same.seen σ m).mono
theorem CharEnt.unsees {m : Layer} {p e} (h : CharEnt (σ.seen m) p e) : CharEnt σ p e := h.mono (Same.seen σ m).symm.mono
theorem WordEnt.sees {p e} (h : WordEnt σ p e) (m : Layer) : WordEnt (σ.seen m) p e := h.mono (Same.seen σ m).mono
theorem WordEnt.unsees {m : Layer} {p e} (h : WordEnt (σ.seen m) p e) : WordEnt σ p e := h.mono (Same.seen σ m).symm.mono
theorem PhraseEnt.sees {p e} (h : PhraseEnt σ p e) (m : Layer) : PhraseEnt (σ.seen m) p e := h.mono (Same.seen σ m).mono
theorem PhraseEnt.unsees {m : Layer} {p e} (h : PhraseEnt (σ.seen m) p e) : PhraseEnt σ p e :=
  h.mono (Same.seen σ m).symm.mono

/-- reading the single target, if any, or being refused -/
theorem Det.one (G : Ground cfg lim σ bs) {x : Nat} (hx : σ.tag x ≠ .none) {P : Nat → Prop} {good : β → Prop}
    {f : List Nat → Go β} (hP : ∀ y ∈ σ.T x, P y) (h0 : Det cfg lim σ good (f [])) (h1 : ∀ y, P y → Det cfg lim σ good (f [y]))
    (h2 : ∃ r, (∀ a, r = some (.ok a) → good a) ∧ ∀ l, 2 ≤ l.length → Known cfg lim σ r (f l)) :
    Det cfg lim σ good (Go.readTargets x >>= f) := by
  match hT : σ.T x with
  | [] =>
    obtain ⟨r, h3, h4⟩ := h0
    refine ⟨r, Known.targets G hx fun l hl => ?_, h4⟩
    rw [hT] at hl; rw [perm_nil' hl]; exact h3
  | [y] =>
    obtain ⟨r, h3, h4⟩ := h1 y (hP y (by rw [hT]; simp))
    refine ⟨r, Known.targets G hx fun l hl => ?_, h4⟩
    rw [hT] at hl; rw [perm_one hl]; exact h3
  | _ :: _ :: _ =>
    obtain ⟨r, h3, h4⟩ := h2
    refine ⟨r, Known.targets G hx fun l hl => h4 l ?_, h3⟩
    rw [hl.length_eq, hT]; simp

end

/-! ### characters -/

section
variable {cfg : Cfg} {lim : Lim} {σ : St} {bs : BitE × BitE} (G : Ground cfg lim σ bs)
include G

/-- is there one target? -/
theorem Det.isOne {x : Nat} (hx : σ.tag x ≠ .none) {e : Err} :
    Det cfg lim σ (fun _ => True) (do
      let targets ← Go.readTargets x
      match targets with
      | [] => Pure.pure false
      | [_] => Pure.pure true
      | _ => Go.err e) := by
  refine Det.one G hx (P := fun _ => True) (fun _ _ => trivial) (Det.ret trivial) (fun _ _ => Det.ret trivial) ⟨Option.some (.err e), ?_, ?_⟩
  · intro a h; cases h
  · intro l hl
    match l, hl with
    | _ :: _ :: _, _ => exact Known.err e

/-- the one target -/
theorem Det.theOne {x : Nat} (hx : σ.tag x ≠ .none) {P : Nat → Prop} (hP : ∀ y ∈ σ.T x, P y) {e : Err} :
    Det cfg lim σ P (do
      let targets ← Go.readTargets x
      match targets with
      | [t] => Pure.pure t
      | _ => Go.err e) := by
  refine Det.one G hx (P := P) hP Det.err (fun _ h => Det.ret h) ⟨Option.some (.err e), ?_, ?_⟩
  · intro a h; cases h
  · intro l hl
    match l, hl with
    | _ :: _ :: _, _ => exact Known.err e

theorem Det.charHead (v : Bool) : Det cfg lim σ (fun e => ∃ p, CharEnt σ p e) (Character.provideHeadEntity (bitEnt bs v)) := by
  unfold Character.provideHeadEntity
  have tv : σ.tag (bitEnt bs v).character ≠ .none := by
    rw [bitEnt_character, (getD_bits G.inv G.bits).tag v]; simp
  have ok := getD_bits G.inv G.bits
  refine Det.bind (good := fun _ => True) (by unfold Bit.hasTargetCharacter; rw [ok.used v]; exact Det.isOne G tv) ?_
  intro b _
  cases b with
  | true =>
    simp only [if_true]
    refine Det.bind (good := fun y => ∃ e, CharEnt σ [v] e ∧ e.bit = y) ?_ ?_
    · unfold Bit.getTargetCharacter
      rw [ok.used v]
      refine Det.theOne G tv ?_
      intro y hy; rw [bitEnt_character] at hy; exact G.inv.bitHead G.bits hy
    · rintro _ ⟨e, he, rfl⟩
      exact (Det.sure G (by unfold Character.readEntityByBit; quiet) fun m hm => Rd.charByBit hm (he.sees m)).cons
        fun _ ha => ha ▸ ⟨_, he⟩
  | false => exact Det.write (Known.createNode _)

/-- looking for the child with a given text -/
theorem Known.charLook {p a} (ha : CharEnt σ p a) (v : Bool) {β : Type} {r : Option (Out β)} {f : Option CharE → Go β}
    (h : ∀ o : Option CharE, (match o with
      | some c => CharEnt σ (p ++ [v]) c ∧ c.character ∈ σ.T a.character
      | none => ∀ c, CharEnt σ (p ++ [v]) c → c.character ∉ σ.T a.character) → Known cfg lim σ r (f o)) :
    Known cfg lim σ r (do
      let ids ← Go.readTargets a.character
      let cs ← Character.readAll ids
      let o ← Character.search v cs
      f o) := by
  refine Known.targets G (by rw [ha.tagC]; simp) ?_
  intro ids hids
  refine Known.rbind G (good := fun cs => cs.map (·.character) = ids ∧ ∀ c ∈ cs, ∃ v, CharEnt σ (p ++ [v]) c)
    (Quiet.charReadAll ids) (fun m hm => (Rd.charReadAll ids hm (p := p) ?_).cons ?_) ?_
  · intro i hi
    obtain ⟨v, e', h1, h2⟩ := G.inv.charChild ha (hids.mem_iff.1 hi)
    exact ⟨v, e', h1.sees m, h2⟩
  · rintro cs ⟨h1, h2⟩
    exact ⟨h1, fun c hc => let ⟨v, hv⟩ := h2 c hc; ⟨v, hv.unsees⟩⟩
  rintro cs ⟨h1, h2⟩
  refine Known.rbind G (good := fun o => match o with
      | some c => c ∈ cs ∧ CharEnt σ (p ++ [v]) c
      | none => ∀ c ∈ cs, ¬ CharEnt σ (p ++ [v]) c)
    (Quiet.charSearch v cs) (fun m hm => (Rd.charSearch v cs hm (p := p) ?_).cons ?_) ?_
  · exact fun c hc => let ⟨v, hv⟩ := h2 c hc; ⟨v, hv.sees m⟩
  · intro o ho
    cases o with
    | some c => exact ⟨ho.1, ho.2.unsees⟩
    | none => exact fun c hc hv => ho c hc (hv.sees m)
  intro o ho
  refine h o ?_
  cases o with
  | some c => exact ⟨ho.2, hids.mem_iff.1 (h1 ▸ List.mem_map_of_mem ho.1)⟩
  | none =>
    intro c hc hm
    have := hids.mem_iff.2 hm
    rw [← h1] at this
    obtain ⟨c', hc', e⟩ := List.mem_map.1 this
    obtain ⟨v', hv'⟩ := h2 c' hc'
    have := hv'.ext hc e
    subst this
    exact ho c' hc' hc

theorem Det.charNext {e : CharElem} (he : ∀ c, e.character = some c → ∃ p, CharEnt σ p c) (v : Bool) :
    Det cfg lim σ (fun el => ∀ c, el.character = some c → ∃ p, CharEnt σ p c) (Character.provideNextElement e v) := by
  unfold Character.provideNextElement
  refine Det.bind (Det.deref he) ?_
  rintro a ⟨p, ha⟩
  by_cases hc : ∃ c, CharEnt σ (p ++ [v]) c ∧ c.character ∈ σ.T a.character
  · obtain ⟨c, h1, h2⟩ := hc
    refine ⟨some (.ok ⟨some c⟩), Known.charLook G ha v ?_, fun a e => by cases e; intro c' hc'; cases hc'; exact ⟨_, h1⟩⟩
    intro o ho
    cases o with
    | some c' =>
      have := CharEnt.unique G.inv h1 ho.1
      subst this
      exact Known.ret _
    | none => exact absurd h2 (ho c h1)
  · refine Det.write (Known.charLook G ha v ?_)
    intro o ho
    cases o with
    | some c' => exact absurd ⟨c', ho⟩ hc
    | none =>
      refine Known.rbind G .classes (fun m hm => Rd.provideEntity hm) ?_
      intro _ _
      refine Known.rbind G (Quiet.bitProvide v) (fun m hm => Rd.bitProvide (σ := σ.seen m) hm G.bits v) ?_
      intro b _
      exact Known.write (Known.createNode _)

theorem Det.charWalk : ∀ (l : List Bool) {el : Option CharElem},
    (∀ e c, el = some e → e.character = some c → ∃ p, CharEnt σ p c) →
    Det cfg lim σ (fun (el' : Option CharElem) => ∀ e c, el' = some e → e.character = some c → ∃ p, CharEnt σ p c)
      (Character.walk el l) := by
  intro l
  induction l with
  | nil => intro el h; unfold Character.walk; exact Det.ret h
  | cons b l ih =>
    intro el h
    unfold Character.walk
    refine Det.bind (Det.deref (good := fun e => ∀ c, e.character = some c → ∃ p, CharEnt σ p c) (fun a ha c => h a c ha)) ?_
    intro e he
    refine Det.bind (Det.charNext G he b).attempt ?_
    intro r hr
    refine ih ?_
    intro e c h1 h2
    cases r with
    | ok a2 => cases h1; exact hr _ rfl c h2
    | error _ => cases h1

theorem Det.charProvide (r : Rune) :
    Det cfg lim σ (fun a => ∀ c, a.character = some c → ∃ p, CharEnt σ p c) (Character.provide r) := by
  unfold Character.provide
  split
  · exact Det.err
  · split
    · exact Det.panic
    · refine Det.bind (good := fun el => ∀ c, el.character = some c → ∃ p, CharEnt σ p c) ?_ ?_
      · unfold Character.provideFirstElement
        refine Det.bind (Det.bitProvide G _) ?_
        intro b hb; subst hb
        refine Det.bind (Det.classes G) ?_
        intro _ _
        refine Det.bind (Det.charHead G _).attempt ?_
        intro r hr
        refine Det.ret ?_
        intro c hc
        cases r with
        | ok a => cases hc; exact hr _ rfl
        | error _ => cases hc
      intro el hel
      refine Det.bind (Det.charWalk G _ (el := some el) (by intro e c h1 h2; cases h1; exact hel c h2)) ?_
      intro el2 hel2
      refine Det.bind (Det.deref (good := fun e => ∀ c, e.character = some c → ∃ p, CharEnt σ p c)
        (fun a ha c => hel2 a c ha)) ?_
      intro e he
      exact Det.ret he

/-! ### words -/

theorem Det.wordHead {a : CharAgg} (ha : ∀ c, a.character = some c → ∃ p, CharEnt σ p c) :
    Det cfg lim σ (fun e => ∃ p, WordEnt σ p e) (Word.provideHeadEntity a) := by
  unfold Word.provideHeadEntity
  refine Det.bind (Det.deref ha) ?_
  rintro c ⟨p, hc⟩
  refine Det.bind (good := fun _ => True) (Det.isOne G (by rw [hc.tagC]; simp)) ?_
  intro b _
  cases b with
  | true =>
    simp only [if_true]
    refine Det.bind (good := fun y => ∃ e, WordEnt σ [Character.toRune p] e ∧ e.character = y)
      (Det.theOne G (by rw [hc.tagW]; simp) fun y hy => G.inv.charWord hc hy) ?_
    rintro _ ⟨e, he, rfl⟩
    exact (Det.sure G (by unfold Word.readEntityByCharacter; quiet) fun m hm => Rd.wordByCharacter hm (he.sees m)).cons
      fun _ ha => ha ▸ ⟨_, he⟩
  | false => exact Det.write (Known.createNode _)

/-- looking for the child with a given text -/
theorem Known.wordLook {fuel : Nat} (hf : lim.L ≤ fuel) {p a} (ha : WordEnt σ p a) (x : Int) {β : Type} {r : Option (Out β)} {f : Option WordE → Go β}
    (h : ∀ o : Option WordE, (match o with
      | some c => WordEnt σ (p ++ [x]) c ∧ c.word ∈ σ.T a.word
      | none => ∀ c, WordEnt σ (p ++ [x]) c → c.word ∉ σ.T a.word) → Known cfg lim σ r (f o)) :
    Known cfg lim σ r (do
      let ids ← Go.readTargets a.word
      let cs ← Word.readAll ids
      let o ← Word.search fuel x cs
      f o) := by
  refine Known.targets G (by rw [ha.tagW]; simp) ?_
  intro ids hids
  refine Known.rbind G (good := fun cs => cs.map (·.word) = ids ∧ ∀ c ∈ cs, ∃ v, WordEnt σ (p ++ [v]) c)
    (Quiet.wordReadAll ids) (fun m hm => (Rd.wordReadAll ids hm (p := p) ?_).cons ?_) ?_
  · intro i hi
    obtain ⟨v, e', h1, h2⟩ := G.inv.wordChild ha (hids.mem_iff.1 hi)
    exact ⟨v, e', h1.sees m, h2⟩
  · rintro cs ⟨h1, h2⟩
    exact ⟨h1, fun c hc => let ⟨v, hv⟩ := h2 c hc; ⟨v, hv.unsees⟩⟩
  rintro cs ⟨h1, h2⟩
  refine Known.rbind G (good := fun o => match o with
      | some c => c ∈ cs ∧ WordEnt σ (p ++ [x]) c
      | none => ∀ c ∈ cs, ¬ WordEnt σ (p ++ [x]) c)
    (Quiet.wordSearch fuel x cs) (fun m hm => (Rd.wordSearch (C := calmCtx cfg lim) hf x cs hm (p := p) ?_).cons ?_) ?_
  · exact fun c hc => let ⟨v, hv⟩ := h2 c hc; ⟨v, hv.sees m⟩
  · intro o ho
    cases o with
    | some c => exact ⟨ho.1, ho.2.unsees⟩
    | none => exact fun c hc hv => ho c hc (hv.sees m)
  intro o ho
  refine h o ?_
  cases o with
  | some c => exact ⟨ho.2, hids.mem_iff.1 (h1 ▸ List.mem_map_of_mem ho.1)⟩
  | none =>
    intro c hc hm
    have := hids.mem_iff.2 hm
    rw [← h1] at this
    obtain ⟨c', hc', e⟩ := List.mem_map.1 this
    obtain ⟨v', hv'⟩ := h2 c' hc'
    have := hv'.ext hc e
    subst this
    exact ho c' hc' hc

theorem Det.wordNext (hW : WSib σ) {fuel : Nat} (hf : lim.L ≤ fuel) {p e} (he : WordEnt σ p e) (r : Int) :
    Det cfg lim σ (fun e => ∃ p, WordEnt σ p e) (Word.provideNextElement fuel e r) := by
  unfold Word.provideNextElement
  by_cases hc : ∃ c, WordEnt σ (p ++ [r]) c ∧ c.word ∈ σ.T e.word
  · obtain ⟨c, h1, h2⟩ := hc
    refine ⟨some (.ok c), Known.wordLook G hf he r ?_, fun a e => by cases e; exact ⟨_, h1⟩⟩
    intro o ho
    cases o with
    | some c' =>
      have := h1.ext ho.1 (hW _ _ _ _ h2 ho.2 h1.tagW ho.1.tagW)
      subst this
      exact Known.ret _
    | none => exact absurd h2 (ho c h1)
  · obtain ⟨r', h1, h2⟩ : Det cfg lim σ (fun e => ∃ p, WordEnt σ p e) (do
        Class.provideEntity
        let character ← Character.provide r
        let newWord ← Word.createTailEntity character e
        Go.connect e.word newWord.word
        Pure.pure newWord) := by
      refine Det.bind (Det.classes G) ?_
      intro _ _
      refine Det.bind (Det.charProvide G r) ?_
      intro b _
      exact Det.write (Known.write (Known.createNode _))
    refine ⟨r', Known.wordLook G hf he r ?_, h2⟩
    intro o ho
    cases o with
    | some c' => exact absurd ⟨c', ho⟩ hc
    | none => exact h1

theorem Det.wordWalk (hW : WSib σ) {fuel : Nat} (hf : lim.L ≤ fuel) : ∀ (qs : List Int) {el : Option WordE},
    (∀ e, el = some e → ∃ p, WordEnt σ p e) →
    Det cfg lim σ (fun (el' : Option WordE) => ∀ e, el' = some e → ∃ p, WordEnt σ p e) (Word.walk fuel el qs) := by
  intro qs
  induction qs with
  | nil => intro el h; unfold Word.walk; exact Det.ret h
  | cons b bs ih =>
    intro el h
    unfold Word.walk
    refine Det.bind (Det.deref h) ?_
    rintro e ⟨p, he⟩
    refine Det.bind (Det.wordNext G hW hf he b).attempt ?_
    intro r hr
    refine ih ?_
    intro e h1
    cases r with
    | ok a => cases h1; exact hr _ rfl
    | error _ => cases h1

theorem Det.wordProvide (hW : WSib σ) {fuel : Nat} (hf : lim.L ≤ fuel) (s : GoStr) :
    Det cfg lim σ (fun e => ∃ p, WordEnt σ p e) (Word.provide fuel s) := by
  unfold Word.provide
  split
  · exact Det.err
  · refine Det.bind (good := fun e => ∃ p, WordEnt σ p e) ?_ ?_
    · unfold Word.provideFirstElement
      refine Det.bind (Det.charProvide G _) ?_
      intro a ha
      refine Det.bind (Det.classes G) ?_
      intro _ _
      exact Det.wordHead G ha
    intro e he
    refine Det.bind (Det.wordWalk G hW hf _ (el := some e) (by intro e' h1; cases h1; exact he)) ?_
    intro el2 hel2
    exact Det.deref hel2

/-! ### phrases -/

theorem Det.phraseHead {a : WordE} (ha : ∃ p, WordEnt σ p a) :
    Det cfg lim σ (fun e => ∃ p, PhraseEnt σ p e) (Phrase.provideHeadEntity a) := by
  unfold Phrase.provideHeadEntity
  obtain ⟨p, hc⟩ := ha
  have tp : σ.tag a.phrase ≠ .none := by rw [hc.tagP]; simp
  refine Det.bind (good := fun _ => True) (Det.isOne G tp) ?_
  intro b _
  cases b with
  | true =>
    simp only [if_true]
    refine Det.bind (good := fun y => ∃ e, PhraseEnt σ [p] e ∧ e.word = y)
      (Det.theOne G tp fun y hy => G.inv.wordPhrase hc hy) ?_
    rintro _ ⟨e, he, rfl⟩
    exact (Det.sure G (by unfold Phrase.readEntityByWord; quiet) fun m hm => Rd.phraseByWord hm (he.sees m)).cons
      fun _ ha => ha ▸ ⟨_, he⟩
  | false => exact Det.write (Known.createNode _)

/-- looking for the child with a given text -/
theorem Known.phraseLook {fuel : Nat} (hf : lim.L ≤ fuel) (hD : lim.D ≤ fuel) {p a} (ha : PhraseEnt σ p a) {w : GoStr} (hw : stringOf (runesOf w) = w) {β : Type} {r : Option (Out β)} {f : Option PhraseE → Go β}
    (h : ∀ o : Option PhraseE, (match o with
      | some c => PhraseEnt σ (p ++ [runesOf w]) c ∧ c.phrase ∈ σ.T a.phrase
      | none => ∀ c, PhraseEnt σ (p ++ [runesOf w]) c → c.phrase ∉ σ.T a.phrase) → Known cfg lim σ r (f o)) :
    Known cfg lim σ r (do
      let ids ← Go.readTargets a.phrase
      let cs ← Phrase.readAll ids
      let o ← Phrase.search fuel w cs
      f o) := by
  refine Known.targets G (by rw [ha.tagP]; simp) ?_
  intro ids hids
  refine Known.rbind G (good := fun cs => cs.map (·.phrase) = ids ∧ ∀ c ∈ cs, ∃ v, PhraseEnt σ (p ++ [v]) c)
    (Quiet.phraseReadAll ids) (fun m hm => (Rd.phraseReadAll ids hm (p := p) ?_).cons ?_) ?_
  · intro i hi
    obtain ⟨v, e', h1, h2⟩ := G.inv.phraseChild ha (hids.mem_iff.1 hi)
    exact ⟨v, e', h1.sees m, h2⟩
  · rintro cs ⟨h1, h2⟩
    exact ⟨h1, fun c hc => let ⟨v, hv⟩ := h2 c hc; ⟨v, hv.unsees⟩⟩
  rintro cs ⟨h1, h2⟩
  refine Known.rbind G (good := fun o => match o with
      | some c => c ∈ cs ∧ PhraseEnt σ (p ++ [runesOf w]) c
      | none => ∀ c ∈ cs, ¬ PhraseEnt σ (p ++ [runesOf w]) c)
    (Quiet.phraseSearch fuel w cs) (fun m hm => (Rd.phraseSearch (C := calmCtx cfg lim) hf hD w cs hm (p := p) ?_).cons ?_) ?_
  · exact fun c hc => let ⟨v, hv⟩ := h2 c hc; ⟨v, hv.sees m⟩
  · intro o ho
    cases o with
    | some c => exact ⟨ho.1, ho.2.unsees⟩
    | none => exact fun c hc hv => ho hw c hc (hv.sees m)
  intro o ho
  refine h o ?_
  cases o with
  | some c => exact ⟨ho.2, hids.mem_iff.1 (h1 ▸ List.mem_map_of_mem ho.1)⟩
  | none =>
    intro c hc hm
    have := hids.mem_iff.2 hm
    rw [← h1] at this
    obtain ⟨c', hc', e⟩ := List.mem_map.1 this
    obtain ⟨v', hv'⟩ := h2 c' hc'
    have := hv'.ext hc e
    subst this
    exact ho c' hc' hc

theorem Det.phraseNext (hW : WSib σ) (hP : PSib σ) {fuel : Nat} (hf : lim.L ≤ fuel) (hD : lim.D ≤ fuel) {p e}
    (he : PhraseEnt σ p e) {w : GoStr} (hw : stringOf (runesOf w) = w) :
    Det cfg lim σ (fun e => ∃ p, PhraseEnt σ p e) (Phrase.provideNextElement fuel e w) := by
  unfold Phrase.provideNextElement
  by_cases hc : ∃ c, PhraseEnt σ (p ++ [runesOf w]) c ∧ c.phrase ∈ σ.T e.phrase
  · obtain ⟨c, h1, h2⟩ := hc
    refine ⟨some (.ok c), Known.phraseLook G hf hD he hw ?_, fun a e => by cases e; exact ⟨_, h1⟩⟩
    intro o ho
    cases o with
    | some c' =>
      have := h1.ext ho.1 (hP _ _ _ _ h2 ho.2 h1.tagP ho.1.tagP)
      subst this
      exact Known.ret _
    | none => exact absurd h2 (ho c h1)
  · obtain ⟨r', h1, h2⟩ : Det cfg lim σ (fun e => ∃ p, PhraseEnt σ p e) (do
        Class.provideEntity
        let word ← Word.provide fuel w
        Phrase.createTailEntity word e) := by
      refine Det.bind (Det.classes G) ?_
      intro _ _
      refine Det.bind (Det.wordProvide G hW hf w) ?_
      intro b _
      exact Det.write (Known.createNode _)
    refine ⟨r', Known.phraseLook G hf hD he hw ?_, h2⟩
    intro o ho
    cases o with
    | some c' => exact absurd ⟨c', ho⟩ hc
    | none => exact h1

theorem Det.phraseWalk (hW : WSib σ) (hP : PSib σ) {fuel : Nat} (hf : lim.L ≤ fuel) (hD : lim.D ≤ fuel) :
    ∀ (qs : List GoStr), (∀ w ∈ qs, stringOf (runesOf w) = w) → ∀ {el : Option PhraseE},
    (∀ e, el = some e → ∃ p, PhraseEnt σ p e) →
    Det cfg lim σ (fun (el' : Option PhraseE) => ∀ e, el' = some e → ∃ p, PhraseEnt σ p e) (Phrase.walk fuel el qs) := by
  intro qs
  induction qs with
  | nil => intro _ el h; unfold Phrase.walk; exact Det.ret h
  | cons b bs ih =>
    intro hq el h
    unfold Phrase.walk
    refine Det.bind (Det.deref h) ?_
    rintro e ⟨p, he⟩
    refine Det.bind (Det.phraseNext G hW hP hf hD he (hq b (by simp))).attempt ?_
    intro r hr
    refine ih (fun w hw => hq w (by simp [hw])) ?_
    intro e h1
    cases r with
    | ok a => cases h1; exact hr _ rfl
    | error _ => cases h1

theorem Det.phraseProvide (hW : WSib σ) (hP : PSib σ) {fuel : Nat} (hf : lim.L ≤ fuel) (hD : lim.D ≤ fuel) {s : GoStr}
    (hs : ∀ w ∈ splitSpace s, stringOf (runesOf w) = w) :
    Det cfg lim σ (fun e => ∃ p, PhraseEnt σ p e) (Phrase.provide fuel s) := by
  unfold Phrase.provide
  split
  · exact Det.err
  · rename_i w ws hsp
    rw [hsp] at hs
    refine Det.bind (good := fun e => ∃ p, PhraseEnt σ p e) ?_ ?_
    · unfold Phrase.provideFirstElement
      refine Det.bind (Det.wordProvide G hW hf _) ?_
      intro a ha
      refine Det.bind (Det.classes G) ?_
      intro _ _
      exact Det.phraseHead G ha
    intro e he
    refine Det.bind (Det.phraseWalk G hW hP hf hD _ (fun w hw => hs w (by simp [hw])) (el := some e)
      (by intro e' h1; cases h1; exact he)) ?_
    intro el2 hel2
    exact Det.deref hel2

/-! ### details -/

theorem Det.detailEntity {po pp : PhraseE} {wo wp} (ho : PhraseEnt σ wo po) (hp : PhraseEnt σ wp pp) :
    Det cfg lim σ (fun _ => True) (Detail.provideEntity po pp) := by
  unfold Detail.provideEntity
  have look : ∀ {β : Type} {r : Option (Out β)} {f : List Nat → Go β},
      (∀ l, l.Perm ((σ.T po.detail).filter fun d => decide (d ∈ σ.S pp.detail)) → Known cfg lim σ r (f l)) →
      Known cfg lim σ r (do
        let l1 ← Go.readTargets po.detail
        let l2 ← (Go.readSources pp.detail).attempt
        f (Detail.common l1 (l2.toOption.getD []))) := by
    intro β r f h
    refine Known.targets G (by rw [ho.tagD]; simp) ?_
    intro l1 h1
    refine Known.sources G (by rw [hp.tagD]; simp) ?_
    intro l2 h2
    refine h _ ?_
    show (Detail.common l1 l2).Perm _
    rw [common_eq (h2.nodup_iff.2 (G.inv.Snodup _))]
    have : (fun o => decide (o ∈ l2)) = fun d => decide (d ∈ σ.S pp.detail) := by
      funext o
      exact decide_eq_decide.2 h2.mem_iff
    rw [this]
    exact h1.filter _
  match hc : (σ.T po.detail).filter fun d => decide (d ∈ σ.S pp.detail) with
  | [] =>
    refine Det.write (look (f := fun l => match l with
      | [] => Detail.createEntity po pp
      | [d] => Detail.readEntityByPhrase d
      | _ => Go.err .tooManyCommonDetails) ?_)
    intro l hl
    rw [hc] at hl
    rw [perm_nil' hl]
    exact Known.createNode _
  | [d] =>
    have hd : d ∈ σ.T po.detail := (List.mem_filter.1 (hc ▸ List.mem_singleton.2 rfl : d ∈ _)).1
    have td := (G.inv.detailTag ho.tagD (mem_T.1 hd)).1
    obtain ⟨r, h1, h2⟩ : Det cfg lim σ (fun _ => True) (Detail.readEntityByPhrase d) := by
      unfold Detail.readEntityByPhrase
      refine Det.bind (Det.sure G (x := (σ.back d, σ.fwd d)) (Quiet.ref d) fun m hm =>
        Rd.getRef (σ := σ.seen m) hm (by show σ.tag d ≠ _; rw [td]; simp) ?_) fun _ _ => Det.ret trivial
      intro σ1 _ ro
      rw [(ro rfl).back, (ro rfl).fwd]
      rfl
    refine ⟨r, look (f := fun l => match l with
      | [] => Detail.createEntity po pp
      | [d] => Detail.readEntityByPhrase d
      | _ => Go.err .tooManyCommonDetails) ?_, h2⟩
    intro l hl
    rw [hc] at hl
    rw [perm_one hl]
    exact h1
  | _ :: _ :: _ =>
    refine ⟨some (.err .tooManyCommonDetails), look (f := fun l => match l with
      | [] => Detail.createEntity po pp
      | [d] => Detail.readEntityByPhrase d
      | _ => Go.err .tooManyCommonDetails) ?_, fun _ e => by cases e⟩
    intro l hl
    rw [hc] at hl
    have := hl.length_eq
    match l, this with
    | _ :: _ :: _, _ => exact Known.err _

theorem Det.detailProvide (hW : WSib σ) (hP : PSib σ) {fuel : Nat} (hf : lim.L ≤ fuel) (hD : lim.D ≤ fuel) {o p : GoStr}
    (ho : ∀ w ∈ splitSpace o, stringOf (runesOf w) = w) (hp : ∀ w ∈ splitSpace p, stringOf (runesOf w) = w) :
    Det cfg lim σ (fun _ => True) (Detail.provide fuel o p) := by
  unfold Detail.provide
  refine Det.bind (Det.phraseProvide G hW hP hf hD ho) ?_
  rintro po ⟨wo, hpo⟩
  refine Det.bind (Det.phraseProvide G hW hP hf hD hp) ?_
  rintro pp ⟨wp, hpp⟩
  refine Det.bind (Det.classes G) ?_
  intro _ _
  exact Det.detailEntity G hpo hpp

end

theorem utf8_valid (t : List Char) : ∀ w ∈ splitSpace (utf8 t), stringOf (runesOf w) = w := by
  intro w hw
  rw [split_utf8] at hw
  obtain ⟨u, _, rfl⟩ := List.mem_map.1 hw
  exact stringOf_runesOf_chars rfl

/-- after a history of commands, looking up a pair ends in the same way in every mood -/
theorem lookup_moodless {cfg : Cfg} {fuel : Nat} {es : List ((Nat → Cfg) × Cmd)}
    (h : CalmMoods cfg fuel (es.map fun e => (e.1, e.2.event)))
    (hl : (moodily cfg fuel (es.map fun e => (e.1, e.2.event))).log ≠ []) (o p : List Char) :
    ∃ r, ∀ g, Suits cfg g → (Go.looks g (Detail.provide fuel (utf8 o) (utf8 p))
      (moodily cfg fuel (es.map fun e => (e.1, e.2.event))).world.store
      (moodily cfg fuel (es.map fun e => (e.1, e.2.event))).world.mem).map Prod.fst = r := by
  have hf := h.calm.budget.fits
  rcases (scribe_moody h).lex with ⟨hb, _⟩ | ⟨σ, hs, _, hx⟩
  · exact absurd (by rw [hb]; rfl) hl
  · obtain ⟨e, he⟩ := List.exists_mem_of_ne_nil _ hl
    have hb := (hs.keeps.ok e he).bits
    cases hb' : σ.bits with
    | none => exact absurd hb' hb
    | some bs =>
      obtain ⟨r, h1, _⟩ := Det.detailProvide ⟨hs.inv, hb'⟩ hx.wsib hx.psib hf.L hf.D (utf8_valid o) (utf8_valid p)
      refine ⟨r, fun g hg => ?_⟩
      have := h1 g hg σ.mem (hs.inv.same (Same.seen σ σ.mem) hs.inv.mem)
      rw [← hs.is.store, ← hs.is.mem]
      cases r with
      | none => rw [this]; rfl
      | some o =>
        obtain ⟨m', _, e⟩ := this
        rw [e]; rfl

end Semnet
