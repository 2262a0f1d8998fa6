import Verif.Proof.Api
import Verif.Spec.Growth
/- Bounds on the growth of the storage (for C43). -/
namespace Semnet
open Spec

/-- what holds at every end of a program, whatever the memory and (if `F`) whatever storage calls fail -/
def ends {α : Type} (F : Bool) (cfg : Cfg) (Q : Store → Prop) : Go α → Store → Prop
  | .op o k, s => ends F cfg Q (k (s.step cfg o).1) (s.step cfg o).2 ∧
      (F = true → ends F cfg Q (k (.error .fault)) s ∧ ends F cfg Q (k (.error .fault)) (s.step cfg o).2)
  | .getMem k, s => ∀ m, ends F cfg Q (k m) s
  | .setMem _ k, s => ends F cfg Q k s
  | _, s => Q s

variable {F : Bool} {cfg : Cfg}

theorem ends_bind {α β : Type} {Q R : Store → Prop} {f : α → Go β} (hQ : ∀ s, R s → Q s)
    (hf : ∀ a s, R s → ends F cfg Q (f a) s) :
    ∀ {p : Go α} {s : Store}, ends F cfg R p s → ends F cfg Q (p >>= f) s := by
  intro p
  show ∀ {s}, ends F cfg R p s → ends F cfg Q (p.bind f) s
  induction p with
  | ok a => exact fun h => hf a _ h
  | err e => exact fun h => hQ _ h
  | panic => exact fun h => hQ _ h
  | spin => exact fun h => hQ _ h
  | op o k ih => exact fun h => ⟨ih _ h.1, fun hF => ⟨ih _ (h.2 hF).1, ih _ (h.2 hF).2⟩⟩
  | getMem k ih => exact fun h m => ih m (h m)
  | setMem m k ih => exact fun h => ih h

theorem ends_attempt {α : Type} {Q : Store → Prop} :
    ∀ {p : Go α} {s : Store}, ends F cfg Q p s → ends F cfg Q p.attempt s := by
  intro p
  induction p with
  | ok a => exact fun h => h
  | err e => exact fun h => h
  | panic => exact fun h => h
  | spin => exact fun h => h
  | op o k ih => exact fun h => ⟨ih _ h.1, fun hF => ⟨ih _ (h.2 hF).1, ih _ (h.2 hF).2⟩⟩
  | getMem k ih => exact fun h m => ih m (h m)
  | setMem m k ih => exact fun h => ih h

theorem ends_run {α : Type} {Q : Store → Prop} :
    ∀ {p : Go α} {f : Nat → Fate} {w : World}, (F = true ∨ f = Go.noFault) → ends F cfg Q p w.store →
      Q (p.run cfg f w).2.store := by
  intro p
  induction p with
  | ok a => exact fun _ h => h
  | err e => exact fun _ h => h
  | panic => exact fun _ h => h
  | spin => exact fun _ h => h
  | op o k ih =>
    intro f w hf h
    have hn : F = true ∨ (fun n => f (n + 1)) = Go.noFault := hf.imp id fun h => by rw [h]; rfl
    have hF : f 0 ≠ .ok → F = true := by
      intro h0
      rcases hf with hf | hf
      · exact hf
      · exact absurd (by rw [hf]; rfl) h0
    unfold Go.run
    cases h0 : f 0 with
    | ok => exact ih _ (w := ⟨_, w.mem⟩) hn h.1
    | fail => exact ih _ (w := w) hn (h.2 (hF (by rw [h0]; simp))).1
    | failLate => exact ih _ (w := ⟨_, w.mem⟩) hn (h.2 (hF (by rw [h0]; simp))).2
  | getMem k ih => intro f w hf h; unfold Go.run; exact ih _ hf (h _)
  | setMem m k ih => intro f w hf h; unfold Go.run; exact ih (w := ⟨w.store, w.mem.set m⟩) hf h

/-! ### one storage call -/

theorem records_step (cfg : Cfg) (s : Store) (o : Op) :
    records s ≤ records (s.step cfg o).2 ∧ records (s.step cfg o).2 ≤ records s + 1 := by
  cases o with
  | create => simp only [Store.step, records, Store.created, List.length_cons]; omega
  | setReference x y =>
    simp only [Store.step]
    split <;> simp only [records, Store.referred, List.length_cons] <;> omega
  | connect x y =>
    unfold Store.step
    dsimp only
    repeat' split
    all_goals simp only [records, Store.connected, List.length_cons]; omega
  | _ => simp only [Store.step]; omega

theorem live_step (cfg : Cfg) {s : Store} (o : Op) {x : Nat} (h : s.live x = true) :
    (s.step cfg o).2.live x = true := by
  cases o with
  | create => simp only [Store.step, Store.created, Store.live, List.contains_cons, Bool.or_eq_true] at *; exact .inr h
  | setReference x y =>
    simp only [Store.step]
    split <;> exact h
  | connect x y =>
    unfold Store.step
    dsimp only
    repeat' split
    all_goals exact h
  | _ => exact h

theorem sources_connected (cfg : Cfg) (s : Store) (x y z : Nat) (h : s.sources z ≠ []) :
    (s.connected cfg x y).sources z ≠ [] := by
  unfold Store.sources Store.connected at *
  simp only [List.filter_cons]
  split
  · simp
  · exact h

theorem sources_step (cfg : Cfg) {s : Store} (o : Op) {x : Nat} (h : s.sources x ≠ []) :
    (s.step cfg o).2.sources x ≠ [] := by
  cases o with
  | setReference x y =>
    simp only [Store.step]
    split <;> exact h
  | connect x y =>
    unfold Store.step
    dsimp only
    repeat' split
    all_goals first | exact h | exact sources_connected _ _ _ _ _ h
  | _ => exact h

/-- the records that making the bits will need -/
def owed (s : Store) : Nat := if s.sources 1 = [] then 8 else 0

/-- the class nodes are there; if calls may fail, the bits too -/
def Inited (F : Bool) (s : Store) : Prop := s.live 1 = true ∧ (F = true → s.sources 1 ≠ [])

theorem Inited.step {s : Store} (h : Inited F s) (o : Op) : Inited F (s.step cfg o).2 :=
  ⟨live_step cfg o h.1, fun hF => sources_step cfg o (h.2 hF)⟩

theorem owed_step (cfg : Cfg) (s : Store) (o : Op) : owed (s.step cfg o).2 ≤ owed s := by
  unfold owed
  by_cases h : s.sources 1 = []
  · rw [if_pos h]; split <;> omega
  · rw [if_neg h, if_neg (sources_step cfg o h)]; omega

/-- `p` adds at most `n` records -/
def Adds {α : Type} (F : Bool) (cfg : Cfg) (n : Nat) (p : Go α) : Prop :=
  ∀ s b, Inited F s → records s + owed s ≤ b → ends F cfg (fun s' => Inited F s' ∧ records s' + owed s' ≤ b + n) p s

theorem Adds.le {α : Type} {n m : Nat} {p : Go α} (h : Adds F cfg n p) (hn : n ≤ m) : Adds F cfg m p := by
  intro s b hs hb
  have := ends_bind (F := F) (cfg := cfg) (f := fun a : α => (pure a : Go α)) (p := p) (s := s)
    (R := fun s' => Inited F s' ∧ records s' + owed s' ≤ b + n)
    (Q := fun s' => Inited F s' ∧ records s' + owed s' ≤ b + m) (fun s h => ⟨h.1, by omega⟩)
    (fun a s h => ⟨h.1, by omega⟩) (h s b hs hb)
  rwa [bind_pure] at this

theorem Adds.pure {α : Type} (a : α) : Adds F cfg 0 (Pure.pure a : Go α) := fun _ _ hs hb => ⟨hs, hb⟩
theorem Adds.err {α : Type} (e : Err) : Adds F cfg 0 (Go.err e : Go α) := fun _ _ hs hb => ⟨hs, hb⟩
theorem Adds.panic {α : Type} : Adds F cfg 0 (Go.panic : Go α) := fun _ _ hs hb => ⟨hs, hb⟩
theorem Adds.spin {α : Type} : Adds F cfg 0 (Go.spin : Go α) := fun _ _ hs hb => ⟨hs, hb⟩

theorem Adds.bind {α β : Type} {n m : Nat} {p : Go α} {f : α → Go β} (hp : Adds F cfg n p)
    (hf : ∀ a, Adds F cfg m (f a)) : Adds F cfg (n + m) (p >>= f) := by
  intro s b hs hb
  refine ends_bind (fun s' h => ⟨h.1, by omega⟩) (fun a s' h => ?_) (hp s b hs hb)
  have := hf a s' (b + n) h.1 h.2
  rwa [Nat.add_assoc] at this

theorem Adds.attempt {α : Type} {n : Nat} {p : Go α} (hp : Adds F cfg n p) : Adds F cfg n p.attempt :=
  fun s b hs hb => ends_attempt (hp s b hs hb)

theorem Adds.ite {α : Type} {n : Nat} {c : Prop} [Decidable c] {p q : Go α} (hp : Adds F cfg n p)
    (hq : Adds F cfg n q) : Adds F cfg n (if c then p else q) := by
  split
  · exact hp
  · exact hq

theorem ends_call {Q : Store → Prop} {o : Op} {s : Store} (h1 : Q (s.step cfg o).2) (h2 : F = true → Q s) :
    ends F cfg Q (Go.call o) s := by
  refine ⟨?_, fun hF => ⟨h2 hF, h1⟩⟩
  cases (s.step cfg o).1 <;> exact h1

theorem Adds.call (o : Op) : Adds F cfg 1 (Go.call o) := by
  intro s b hs hb
  have := (records_step cfg s o).2
  have := owed_step cfg s o
  exact ends_call ⟨hs.step o, by omega⟩ fun _ => ⟨hs, by omega⟩

theorem Adds.read {o : Op} (h : o.isRead = true) : Adds F cfg 0 (Go.call o) := by
  intro s b hs hb
  exact ends_call (by rw [isRead_step h]; exact ⟨hs, hb⟩) fun _ => ⟨hs, hb⟩

theorem Adds.classes : Adds F cfg 0 Class.provideEntity := by
  intro s b hs hb
  refine ⟨?_, fun _ => ⟨⟨hs, hb⟩, ⟨hs, hb⟩⟩⟩
  simp only [Store.step, hs.1]
  exact ⟨hs, hb⟩

theorem Adds.create : Adds F cfg 1 Go.create := .call _
theorem Adds.connect (x y) : Adds F cfg 1 (Go.connect x y) := .call _
theorem Adds.refer (x y) : Adds F cfg 1 (Go.setReference x y) := .call _

theorem Adds.createNode (x : Nat) : Adds F cfg 2 (Class.createNode x) := by
  unfold Class.createNode
  exact .le (.bind .create fun _ => .bind (.connect _ _) fun _ => .pure _) (by decide)

/-- the first bit node pays for what follows -/
theorem first_bit {s : Store} (h : s.live 1 = true) (h0 : s.sources 1 = []) :
    ends false cfg (fun s' => s'.live 1 = true ∧ s'.sources 1 ≠ [] ∧ records s' = records s + 2)
      (Class.createNode 1) s := by
  have hl : s.created.live 1 = true := live_step cfg .create h
  have hn : s.created.live s.next = true := by simp [Store.created, Store.live]
  have he : s.created.edges.contains (s.next, 1) = false := by
    rw [Bool.eq_false_iff]
    intro hc
    have hc : (s.next, 1) ∈ s.edges := by simpa [Store.created] using hc
    have : s.next ∈ s.sources 1 := by
      unfold Store.sources
      exact List.mem_map.2 ⟨_, List.mem_filter.2 ⟨hc, by simp⟩, rfl⟩
    rw [h0] at this; cases this
  have hs : s.created.step cfg (.connect s.next 1) = (.ok (), s.created.connected cfg s.next 1) := by
    simp only [Store.step, hl, hn, he]
    rfl
  refine ⟨?_, fun h => by cases h⟩
  show ends false cfg _ (Go.op (.connect s.next 1) _) s.created
  refine ⟨?_, fun h => by cases h⟩
  rw [hs]
  refine ⟨hl, ?_, ?_⟩
  · simp [Store.connected, Store.sources]
  · simp [Store.connected, Store.created, records]; omega

theorem Adds.setMem (m : Assign) : Adds F cfg 0 (Go.assign m) := fun _ _ hs hb => ⟨hs, hb⟩

theorem Adds.init : Adds F cfg 0 Bit.init := by
  refine .bind (n := 0) (m := 0) (p := Bit.ensure) ?_ fun _ s b hs hb _ _ => ⟨hs, hb⟩
  intro s b hs hb m
  show ends F cfg _ (_root_.ite (m.isInitialized = true) (Pure.pure ()) Bit.fill) s
  by_cases hm : m.isInitialized = true
  · rw [if_pos hm]; exact ⟨hs, hb⟩
  rw [if_neg hm]
  refine ends_bind (F := F) (fun s' h => h) ?_ (Adds.classes s b hs hb)
  intro _ s hs'
  obtain ⟨hs, hb⟩ := hs'
  refine ⟨?_, fun _ => ⟨⟨hs, hb⟩, ⟨hs, hb⟩⟩⟩
  simp only [Store.step, Class.bitId, hs.1, if_true]
  match hl : cfg.ord s (.readSources 1) (s.sources 1) with
  | [] =>
    have h0 : s.sources 1 = [] := by
      have := (cfg.ord_perm s (.readSources 1) (s.sources 1)).length_eq
      rw [hl] at this
      exact List.length_eq_zero_iff.1 this.symm
    have hF : F = false := by
      cases F with
      | false => rfl
      | true => exact absurd h0 (hs.2 rfl)
    subst hF
    have ho : owed s = 8 := by unfold owed; rw [if_pos h0]
    have hz : ∀ s' : Store, s'.sources 1 ≠ [] → owed s' = 0 := fun s' h => by unfold owed; rw [if_neg h]
    refine ends_bind (p := Class.createNode 1) ?_ ?_ (first_bit hs.1 h0)
    · intro s' h
      have := hz s' h.2.1
      exact ⟨⟨h.1, fun h => by cases h⟩, by omega⟩
    intro c0 s1 h1
    have e1 := hz s1 h1.2.1
    have : Adds false cfg 6 (do
        let c1 ← Class.createNode 1
        let zeroClass := if c0 < c1 then c0 else c1
        let oneClass := if c0 < c1 then c1 else c0
        let zeroCharacter ← Go.create
        Go.setReference zeroClass zeroCharacter
        Go.assign (.zeroEntity ⟨false, zeroClass, zeroCharacter, true⟩)
        let oneCharacter ← Go.create
        Go.setReference oneClass oneCharacter
        Go.assign (.oneEntity ⟨true, oneClass, oneCharacter, true⟩)
        Go.assign .isInitialized) :=
      .le (.bind (.createNode _) fun _ => .bind .create fun _ => .bind (.refer _ _) fun _ => .bind (.setMem _) fun _ =>
        .bind .create fun _ => .bind (.refer _ _) fun _ => .bind (.setMem _) fun _ => .setMem _) (by decide)
    have := this s1 (b - 6) ⟨h1.1, fun h => by cases h⟩ (by omega)
    rwa [show b - 6 + 6 = b + 0 by omega] at this
  | [_] => exact ⟨hs, hb⟩
  | [c0, c1] =>
    have : Adds F cfg 0 (do
        let zeroClass := if c0 < c1 then c0 else c1
        let oneClass := if c0 < c1 then c1 else c0
        let zr ← Go.getReference zeroClass
        Go.assign (.zeroEntity ⟨false, zeroClass, zr.2, true⟩)
        let or ← Go.getReference oneClass
        Go.assign (.oneEntity ⟨true, oneClass, or.2, true⟩)
        Go.assign .isInitialized) :=
      .bind (n := 0) (m := 0) (.read rfl) fun _ => .bind (n := 0) (m := 0) (.setMem _) fun _ =>
        .bind (n := 0) (m := 0) (.read rfl) fun _ => .bind (n := 0) (m := 0) (.setMem _) fun _ => .setMem _
    exact this s b hs hb
  | _ :: _ :: _ :: _ => exact ⟨hs, hb⟩

theorem Quiet.adds {α : Type} {p : Go α} (h : Quiet p) : Adds F cfg 0 p := by
  induction h with
  | pure a => exact .pure a
  | err e => exact .err e
  | panic => exact .panic
  | spin => exact .spin
  | call o h => exact .read h
  | init => exact .init
  | classes => exact .classes
  | bind _ _ ih1 ih2 => exact .bind (n := 0) (m := 0) ih1 ih2
  | attempt _ ih => exact .attempt ih

/-! ### entities -/

theorem Adds.charEntity (x : Nat) : Adds F cfg 6 (Character.createEntity x) :=
  .le (.bind .create fun _ => .bind .create fun _ => .bind .create fun _ => .bind (.refer _ _) fun _ =>
    .bind (.refer _ _) fun _ => .bind (.refer _ _) fun _ => .pure _) (by decide)
theorem Adds.wordEntity (x : Nat) : Adds F cfg 6 (Word.createEntity x) :=
  .le (.bind .create fun _ => .bind .create fun _ => .bind .create fun _ => .bind (.refer _ _) fun _ =>
    .bind (.refer _ _) fun _ => .bind (.refer _ _) fun _ => .pure _) (by decide)
theorem Adds.phraseEntity (x : Nat) : Adds F cfg 6 (Phrase.createEntity x) :=
  .le (.bind .create fun _ => .bind .create fun _ => .bind .create fun _ => .bind (.refer _ _) fun _ =>
    .bind (.refer _ _) fun _ => .bind (.refer _ _) fun _ => .pure _) (by decide)
theorem Adds.remarkEntity (x : Nat) : Adds F cfg 6 (Remark.createEntity x) :=
  .le (.bind .create fun _ => .bind .create fun _ => .bind .create fun _ => .bind (.refer _ _) fun _ =>
    .bind (.refer _ _) fun _ => .bind (.refer _ _) fun _ => .pure _) (by decide)
theorem Adds.factEntity (x : Nat) : Adds F cfg 6 (Fact.createEntity x) :=
  .le (.bind .create fun _ => .bind .create fun _ => .bind .create fun _ => .bind (.refer _ _) fun _ =>
    .bind (.refer _ _) fun _ => .bind (.refer _ _) fun _ => .pure _) (by decide)
theorem Adds.storyEntity (x : Nat) : Adds F cfg 6 (Story.createEntity x) :=
  .le (.bind .create fun _ => .bind .create fun _ => .bind .create fun _ => .bind (.refer _ _) fun _ =>
    .bind (.refer _ _) fun _ => .bind (.refer _ _) fun _ => .pure _) (by decide)
theorem Adds.detailEntity (a b : PhraseE) : Adds F cfg 8 (Detail.createEntity a b) :=
  .le (.bind (.createNode _) fun _ => .bind .create fun _ => .bind (.connect _ _) fun _ => .bind (.connect _ _) fun _ =>
    .bind .create fun _ => .bind (.refer _ _) fun _ => .bind (.refer _ _) fun _ => .pure _) (by decide)

theorem Adds.deref {α : Type} (x : Option α) : Adds F cfg 0 (Character.deref x) := (Quiet.deref x).adds

/-! ### characters -/

theorem Adds.bitProvide (b : Bool) : Adds F cfg 0 (Bit.provide b) :=
  (Quiet.bind .init fun _ => .pure _).adds
theorem Adds.charHead (b : BitE) : Adds F cfg 10 (Character.provideHeadEntity b) := by
  refine .le (.bind (n := 0) (m := 10) (Quiet.adds ?_) fun h => ?_) (by decide)
  · unfold Bit.hasTargetCharacter Bit.use; quiet
  · refine .ite (.le (Quiet.adds ?_) (by decide : 0 ≤ 10)) ?_
    · unfold Bit.getTargetCharacter Bit.use Character.readEntityByBit; quiet
    · refine .le (.bind (.createNode _) fun _ => .bind (.charEntity _) fun _ => .bind (.connect _ _) fun _ =>
        .bind (n := 1) ?_ fun _ => .pure _) (by decide)
      unfold Bit.pointToCharacter
      refine .le (.bind (n := 0) (m := 1) (Quiet.adds (by unfold Bit.use; quiet)) fun _ =>
        .le (.bind (n := 0) (m := 1) (.read rfl) fun l => ?_) (by decide)) (by decide)
      split
      · exact .connect _ _
      · exact .le (.err _) (by decide)
theorem Adds.charFirst (b : Bool) : Adds F cfg 10 (Character.provideFirstElement b) :=
  .le (.bind (.bitProvide _) fun _ => .bind .classes fun _ => .bind (.attempt (.charHead _)) fun _ => .pure _) (by decide)
theorem Quiet.charReadAll : ∀ l, Quiet (Character.readAll l) := by
  intro l
  induction l with
  | nil => exact .pure _
  | cons i l ih => unfold Character.readAll Character.readEntityByCharacter; quiet
theorem Quiet.charSearch (b : Bool) : ∀ l, Quiet (Character.search b l) := by
  intro l
  induction l with
  | nil => exact .pure _
  | cons i l ih =>
    unfold Character.search Character.getTargetBit
    have := Quiet.bitFetch
    quiet
    exact this _
theorem Adds.charNext (e : CharElem) (b : Bool) : Adds F cfg 10 (Character.provideNextElement e b) := by
  refine .le (.bind (.deref _) fun _ => .bind (n := 0) (.read rfl) fun _ => .bind (Quiet.charReadAll _).adds fun _ =>
    .bind (n := 0) (m := 10) (Quiet.charSearch _ _).adds fun c => ?_) (by decide)
  cases c with
  | some c => exact .le (.pure _) (by decide)
  | none =>
    refine .le (.bind .classes fun _ => .bind (.bitProvide _) fun _ => .bind (n := 10) ?_ fun _ => .pure _) (by decide)
    exact .le (.bind (.createNode _) fun _ => .bind (.charEntity _) fun _ => .bind (.connect _ _) fun _ =>
      .bind (.connect _ _) fun _ => .pure _) (by decide)
theorem Adds.charWalk : ∀ (l : List Bool) (e : Option CharElem), Adds F cfg (10 * l.length) (Character.walk e l) := by
  intro l
  induction l with
  | nil => intro e; exact .pure _
  | cons b l ih =>
    intro e
    refine .le (.bind (.deref _) fun _ => .bind (.attempt (.charNext _ _)) fun _ => ih _) ?_
    rw [List.length_cons]; omega
theorem Adds.charProvide {r : Rune} (h : 0 ≤ r) : Adds F cfg (10 * (bitsOf r).length) (Character.provide r) := by
  unfold Character.provide
  rw [collect_ok h]
  show Adds F cfg _ (match bitsOf r with | [] => _ | b :: bs => _)
  cases bitsOf r with
  | nil => exact .le .panic (by decide)
  | cons b bs =>
    refine .le (.bind (.charFirst _) fun _ => .bind (.charWalk _ _) fun _ => .bind (.deref _) fun _ => .pure _) ?_
    rw [List.length_cons]; omega

/-! ### words -/

theorem Adds.wordHead (a : CharAgg) : Adds F cfg 10 (Word.provideHeadEntity a) := by
  refine .le (.bind (.deref _) fun c => .bind (n := 0) (m := 10) (Quiet.adds ?_) fun h => ?_) (by decide)
  · unfold Character.hasTargetWord; quiet
  · refine .ite (.le (Quiet.adds ?_) (by decide : 0 ≤ 10)) ?_
    · unfold Character.getTargetWord Word.readEntityByCharacter; quiet
    · exact .le (.bind (.createNode _) fun _ => .bind (.wordEntity _) fun _ => .bind (.connect _ _) fun _ =>
        .bind (.connect _ _) fun _ => .pure _) (by decide)
theorem Quiet.wordReadAll : ∀ l, Quiet (Word.readAll l) := by
  intro l
  induction l with
  | nil => exact .pure _
  | cons i l ih => unfold Word.readAll Word.readEntityByWord; quiet
theorem Quiet.wordSearch (fuel : Nat) (r : Rune) : ∀ l, Quiet (Word.search fuel r l) := by
  intro l
  induction l with
  | nil => exact .pure _
  | cons i l ih =>
    unfold Word.search
    have := Quiet.wordChar
    quiet
    exact this _ _

/-- a bound for one rune of a word -/
def runeCost (r : Rune) : Nat := 10 * (bitsOf r).length + 11

theorem Adds.wordFirst {r : Rune} (h : 0 ≤ r) : Adds F cfg (runeCost r) (Word.provideFirstElement r) :=
  .le (.bind (.charProvide h) fun _ => .bind .classes fun _ => .wordHead _) (by unfold runeCost; omega)
theorem Adds.wordNext (fuel : Nat) (e : WordE) {r : Rune} (h : 0 ≤ r) :
    Adds F cfg (runeCost r) (Word.provideNextElement fuel e r) := by
  refine .le (.bind (n := 0) (.read rfl) fun _ => .bind (Quiet.wordReadAll _).adds fun _ =>
    .bind (m := runeCost r) (Quiet.wordSearch _ _ _).adds fun c => ?_) (by omega)
  cases c with
  | some c => exact .le (.pure _) (Nat.zero_le _)
  | none =>
    refine .le (.bind .classes fun _ => .bind (.charProvide h) fun _ => .bind (n := 10) ?_ fun _ =>
      .bind (.connect _ _) fun _ => .pure _) (by unfold runeCost; omega)
    exact .le (.bind (.createNode _) fun _ => .bind (.wordEntity _) fun _ => .bind (.deref _) fun _ =>
      .bind (.connect _ _) fun _ => .bind (.connect _ _) fun _ => .pure _) (by decide)

/-- a bound for a word -/
def wordCost (w : GoStr) : Nat := ((runesOf w).map runeCost).sum

theorem Adds.wordWalk (fuel : Nat) : ∀ (l : List Rune) (e : Option WordE), (∀ r ∈ l, 0 ≤ r) →
    Adds F cfg (l.map runeCost).sum (Word.walk fuel e l) := by
  intro l
  induction l with
  | nil => intro e _; exact .pure _
  | cons b l ih =>
    intro e h
    refine .le (.bind (.deref _) fun _ => .bind (.attempt (.wordNext _ _ (h b (by simp)))) fun _ =>
      ih _ fun r hr => h r (by simp [hr])) ?_
    rw [List.map_cons, List.sum_cons]; omega
theorem Adds.wordProvide (fuel : Nat) (w : GoStr) : Adds F cfg (wordCost w) (Word.provide fuel w) := by
  have h0 : ∀ r ∈ runesOf w, 0 ≤ r := fun r hr => (validRune_iff.1 (runesOf_valid w r hr)).1
  unfold Word.provide wordCost
  cases hr : runesOf w with
  | nil => exact .err _
  | cons r rs =>
    rw [hr] at h0
    refine .le (.bind (.wordFirst (h0 r (by simp))) fun _ => .bind (.wordWalk _ _ _ fun r hr => h0 r (by simp [hr]))
      fun _ => .deref _) ?_
    rw [List.map_cons, List.sum_cons]; omega

/-! ### phrases -/

theorem Adds.phraseHead (a : WordE) : Adds F cfg 10 (Phrase.provideHeadEntity a) := by
  refine .le (.bind (n := 0) (m := 10) (Quiet.adds ?_) fun h => ?_) (by decide)
  · unfold Word.hasTargetPhrase; quiet
  · refine .ite (.le (Quiet.adds ?_) (by decide : 0 ≤ 10)) ?_
    · unfold Word.getTargetPhrase Phrase.readEntityByWord; quiet
    · exact .le (.bind (.createNode _) fun _ => .bind (.phraseEntity _) fun _ => .bind (.connect _ _) fun _ =>
        .bind (.connect _ _) fun _ => .pure _) (by decide)
theorem Quiet.phraseReadAll : ∀ l, Quiet (Phrase.readAll l) := by
  intro l
  induction l with
  | nil => exact .pure _
  | cons i l ih => unfold Phrase.readAll Phrase.readEntityByPhrase; quiet
theorem Quiet.phraseSearch (fuel : Nat) (w : GoStr) : ∀ l, Quiet (Phrase.search fuel w l) := by
  intro l
  induction l with
  | nil => exact .pure _
  | cons i l ih =>
    unfold Phrase.search
    have := Quiet.phraseWord
    quiet
    exact this _ _
theorem Adds.phraseNext (fuel : Nat) (e : PhraseE) (w : GoStr) :
    Adds F cfg (wordCost w + 10) (Phrase.provideNextElement fuel e w) := by
  refine .le (.bind (n := 0) (.read rfl) fun _ => .bind (Quiet.phraseReadAll _).adds fun _ =>
    .bind (m := wordCost w + 10) (Quiet.phraseSearch _ _ _).adds fun c => ?_) (by omega)
  cases c with
  | some c => exact .le (.pure _) (Nat.zero_le _)
  | none =>
    refine .le (.bind .classes fun _ => .bind (m := 10) (.wordProvide _ _) fun _ => ?_) (by omega)
    exact .le (.bind (.createNode _) fun _ => .bind (.phraseEntity _) fun _ => .bind (.connect _ _) fun _ =>
      .bind (.connect _ _) fun _ => .pure _) (by decide)

/-- a bound for a phrase -/
def textCost (ws : List GoStr) : Nat := (ws.map fun w => wordCost w + 10).sum

theorem Adds.phraseWalk (fuel : Nat) : ∀ (l : List GoStr) (e : Option PhraseE),
    Adds F cfg (textCost l) (Phrase.walk fuel e l) := by
  intro l
  induction l with
  | nil => intro e; exact .pure _
  | cons b l ih =>
    intro e
    refine .le (.bind (.deref _) fun _ => .bind (.attempt (.phraseNext _ _ _)) fun _ => ih _) ?_
    unfold textCost
    rw [List.map_cons, List.sum_cons]; omega
theorem Adds.phraseProvide (fuel : Nat) (t : GoStr) : Adds F cfg (textCost (splitSpace t)) (Phrase.provide fuel t) := by
  unfold Phrase.provide
  cases splitSpace t with
  | nil => exact .err _
  | cons w ws =>
    refine .le (.bind (.bind (.wordProvide _ _) fun _ => .bind .classes fun _ => .phraseHead _) fun _ =>
      .bind (.phraseWalk _ _ _) fun _ => .deref _) ?_
    unfold textCost
    rw [List.map_cons, List.sum_cons]; omega

/-! ### remarks -/

theorem Adds.detailProvide (fuel : Nat) (o p : GoStr) :
    Adds F cfg (textCost (splitSpace o) + textCost (splitSpace p) + 8) (Detail.provide fuel o p) := by
  refine .le (.bind (.phraseProvide _ _) fun a => .bind (.phraseProvide _ _) fun b => .bind .classes fun _ =>
    (?_ : Adds F cfg 8 (Detail.provideEntity a b))) (by omega)
  refine .le (.bind (n := 0) (m := 8) (.read rfl) fun _ => .bind (n := 0) (m := 8) (.attempt (.read rfl)) fun _ => ?_) (by decide)
  split
  · exact .detailEntity _ _
  · exact .le (Quiet.adds (by unfold Detail.readEntityByPhrase; quiet)) (by decide)
  · exact .le (.err _) (by decide)

theorem Adds.storyCreate : Adds F cfg 8 Story.createStory :=
  .le (.bind .classes fun _ => .bind (.createNode _) fun _ => .storyEntity _) (by decide)
theorem Adds.firstFact : Adds F cfg 18 Fact.createFirstStoryFact :=
  .le (.bind .classes fun _ => .bind (.createNode _) fun _ => .bind (.factEntity _) fun _ => .bind .storyCreate fun _ =>
    .bind (.connect _ _) fun _ => .bind (.connect _ _) fun _ => .pure _) (by decide)
theorem Adds.nextFact (x : Nat) : Adds F cfg 10 (Fact.createNextFact x) := by
  refine .le (.bind (n := 0) (Quiet.adds ?_) fun _ => .bind (n := 0) (Quiet.adds ?_) fun _ => .bind .classes fun _ =>
    .bind (.createNode _) fun _ => .bind (.factEntity _) fun _ =>
    .bind (.connect _ _) fun _ => .bind (.connect _ _) fun _ => .pure _) (by decide)
  · unfold Fact.readEntityByRemark; quiet
  · unfold Story.fetchByFact; quiet
theorem Quiet.lastSibling : ∀ (n : Nat) (s : StoryE), Quiet (Fact.lastSibling n s) := by
  intro n
  induction n with
  | zero => intro s; exact .spin
  | succ n ih =>
    intro s
    unfold Fact.lastSibling Story.hasTargetPosition Story.getTargetPosition Story.fetchByPosition
    quiet
theorem Adds.childFact (fuel x : Nat) : Adds F cfg 21 (Fact.createChildStoryFact fuel x) := by
  refine .le (.bind (n := 0) (Quiet.adds ?_) fun _ => .bind (n := 0) (Quiet.adds ?_) fun _ => .bind (n := 0) (Quiet.adds ?_) fun _ =>
    .bind (m := 13) .storyCreate fun c => .bind (m := 12) (.connect _ _) fun _ => ?_) (by decide)
  · unfold Fact.readEntityByRemark; quiet
  · unfold Story.fetchByFact; quiet
  · unfold Story.hasTargetTree; quiet
  · have tail : Adds F cfg 10 (do
        Class.provideEntity
        let classIdentifier ← Class.createNode Class.factId
        let firstFact ← Fact.createEntity classIdentifier
        Go.connect firstFact.story c.fact
        Go.connect c.fact firstFact.story
        Pure.pure (⟨firstFact, true⟩ : FactAgg)) :=
      .le (.bind .classes fun _ => .bind (.createNode _) fun _ => .bind (.factEntity _) fun _ =>
        .bind (.connect _ _) fun _ => .bind (.connect _ _) fun _ => .pure _) (by decide)
    refine .ite ?_ (.le tail (by decide))
    refine .le (.bind (n := 0) (Quiet.adds ?_) fun _ => .bind (Quiet.lastSibling _ _).adds fun _ =>
      .bind (.connect _ _) fun _ => .bind (.connect _ _) fun _ => tail) (by decide)
    unfold Story.fetchByTree; quiet

/-! ### the texts in bytes -/

theorem decodeRune_size (b : UInt8) (t : List UInt8) :
    (decodeRune (b :: t)).1.natAbs < 2 ^ 16 ∨ (decodeRune (b :: t)).1.natAbs < 2 ^ 21 ∧ (decodeRune (b :: t)).2 = 4 := by
  have hb : b.toNat < 256 := b.toNat_lt
  simp only [decodeRune]
  repeat' split
  all_goals first
    | (left; decide)
    | (left; rename_i h; simp only [inRange, Bool.and_eq_true, decide_eq_true_eq] at h; omega)
    | (left; omega)
    | (right; rename_i h; simp only [inRange, Bool.and_eq_true, decide_eq_true_eq] at h; refine ⟨?_, rfl⟩; omega)

theorem runeCost_width (b : UInt8) (t : List UInt8) :
    runeCost (decodeRune (b :: t)).1 ≤ 171 * (decodeRune (b :: t)).2 := by
  have hp := decodeRune_pos b t
  unfold runeCost
  rcases decodeRune_size b t with h | ⟨h, hw⟩
  · have := bitsOf_length h (by decide)
    omega
  · have := bitsOf_length h (by decide)
    omega

theorem encode_width (b : UInt8) (t : List UInt8) :
    (encodeRune (decodeRune (b :: t)).1).length ≤ 3 * (decodeRune (b :: t)).2 := by
  have hp := decodeRune_pos b t
  have hv := decodeRune_valid b t
  unfold encodeRune
  rw [if_pos hv]
  have h0 := (validRune_iff.1 hv).1
  rcases decodeRune_size b t with h | ⟨h, hw⟩
  · have : (decodeRune (b :: t)).1.toNat < 0x10000 := by omega
    unfold encodeNat
    repeat' split
    all_goals simp only [List.length_cons, List.length_nil]; omega
  · unfold encodeNat
    repeat' split
    all_goals simp only [List.length_cons, List.length_nil]; omega

/-- a sum over the runes of a string, in bytes -/
theorem runes_sum (g : Rune → Nat) (k : Nat) (hg : ∀ b t, g (decodeRune (b :: t)).1 ≤ k * (decodeRune (b :: t)).2) :
    ∀ (n : Nat) (s : GoStr), s.length ≤ n → ((runesOf s).map g).sum ≤ k * s.length := by
  intro n
  induction n with
  | zero =>
    intro s h
    have : s = [] := List.length_eq_zero_iff.1 (by omega)
    subst this; exact Nat.zero_le _
  | succ n ih =>
    intro s h
    cases s with
    | nil => exact Nat.zero_le _
    | cons b t =>
      rw [runesOf_cons, List.map_cons, List.sum_cons]
      have h1 := decodeRune_pos b t
      have h2 := decodeRune_width b t
      have h3 := ih ((b :: t).drop (decodeRune (b :: t)).2) (by simp only [List.length_drop, List.length_cons] at *; omega)
      have h4 := hg b t
      rw [List.length_drop] at h3
      have : k * (decodeRune (b :: t)).2 + k * ((b :: t).length - (decodeRune (b :: t)).2) = k * (b :: t).length := by
        rw [← Nat.mul_add]; congr 1; rw [List.length_cons]; omega
      omega

theorem wordCost_le (w : GoStr) : wordCost w ≤ 171 * w.length :=
  runes_sum _ _ runeCost_width _ w (Nat.le_refl _)

theorem textCost_join : ∀ ws : List GoStr, textCost ws ≤ 171 * (joinSpace ws).length + 10 := by
  intro ws
  induction ws with
  | nil => exact Nat.zero_le _
  | cons w ws ih =>
    have hw := wordCost_le w
    have : textCost (w :: ws) = wordCost w + 10 + textCost ws := by
      unfold textCost; rw [List.map_cons, List.sum_cons]
    rw [this]
    cases ws with
    | nil =>
      have : textCost [] = 0 := rfl
      simp only [joinSpace]
      omega
    | cons v ws =>
      rw [joinSpace_cons w (by simp), List.length_append, List.length_cons]
      omega

theorem textCost_le (t : GoStr) : textCost (splitSpace t) ≤ 171 * t.length + 10 := by
  have := textCost_join (splitSpace t)
  rwa [join_split] at this

theorem asText_length (t : GoStr) : (asText t).length ≤ 3 * t.length := by
  have := runes_sum (fun r => (encodeRune r).length) 3 encode_width _ t (Nat.le_refl _)
  unfold asText stringOf
  rw [List.length_flatMap]
  exact this

/-! ### calls -/

theorem Adds.pair (fuel : Nat) (o p : GoStr) :
    Adds F cfg (28 + 171 * (o.length + p.length)) (Detail.provide fuel o p) :=
  .le (.detailProvide fuel o p) (by have := textCost_le o; have := textCost_le p; omega)

/-- a call whose object is known beforehand -/
theorem Adds.prog (fuel : Nat) (log : List Entry) (c : Call) (hc : ∀ h p, c ≠ .addRemark h p) :
    Adds F cfg (c.allowance log) (c.prog fuel log) := by
  cases c with
  | addRemark h p => exact absurd rfl (hc h p)
  | createStory o p =>
    refine .le (.bind (.bind .classes fun _ => .bind (.createNode _) fun _ => .bind (.remarkEntity _) fun _ =>
      .bind (.pair _ _ _) fun _ => .bind (.connect _ _) fun _ => .bind .firstFact fun _ => .bind (.connect _ _) fun _ =>
      .bind (.connect _ _) fun _ => .pure _) fun _ => .pure _) ?_
    simp only [Call.allowance, Call.pair, Call.base]; omega
  | addFact h o p =>
    simp only [Call.prog]
    cases hl : log[h]? with
    | none => exact .le (.pure _) (Nat.zero_le _)
    | some e =>
      refine .le (.bind (.bind .classes fun _ => .bind (.createNode _) fun _ => .bind (.remarkEntity _) fun _ =>
        .bind (.pair _ _ _) fun _ => .bind (.connect _ _) fun _ => .bind (.nextFact _) fun _ => .bind (.connect _ _) fun _ =>
        .pure _) fun _ => .pure _) ?_
      simp only [Call.allowance, Call.pair, Call.base, hl, Option.map_some]; omega
  | addChild h o p =>
    simp only [Call.prog]
    cases hl : log[h]? with
    | none => exact .le (.pure _) (Nat.zero_le _)
    | some e =>
      refine .le (.bind (.bind .classes fun _ => .bind (.createNode _) fun _ => .bind (.remarkEntity _) fun _ =>
        .bind (.pair _ _ _) fun _ => .bind (.connect _ _) fun _ => .bind (.childFact _ _) fun _ => .bind (.connect _ _) fun _ =>
        .bind (.connect _ _) fun _ => .pure _) fun _ => .pure _) ?_
      simp only [Call.allowance, Call.pair, Call.base, hl, Option.map_some]; omega
  | query h q =>
    simp only [Call.prog]
    cases hl : log[h]? with
    | none => exact .le (.pure _) (Nat.zero_le _)
    | some e => exact .le (Quiet.bind (.query _ _ _) fun _ => .pure _).adds (Nat.zero_le _)
  | getRemark i => exact .le (Quiet.bind (.getRemark i) fun _ => .pure _).adds (Nat.zero_le _)

/-! ### the call whose object is read from the storage -/

/-- up to the reading of the object -/
def objectRead (fuel : Nat) (a : RemE) : Go (RemE × GoStr) := do
  Class.provideEntity
  let classIdentifier ← Class.createNode Class.remarkId
  let remark ← Remark.createEntity classIdentifier
  let q ← Remark.getObjectAndProperty fuel a
  Pure.pure (remark, q.1)

/-- from there -/
def objectRest (fuel : Nat) (a : RemE) (p : GoStr) (x : RemE × GoStr) : Go (Option RemE) := do
  let detail ← Detail.provide fuel x.2 p
  Go.connect detail.remark x.1.detail
  let factIdentifier ← Remark.getTargetFact a
  let fact ← Fact.fetchByRemark factIdentifier
  Go.connect x.1.fact fact.fact.remark
  Pure.pure (some x.1)

theorem addRemark_split (fuel : Nat) (a : RemE) (p : GoStr) :
    (do let r ← Remark.addRemarkToFact fuel a p; Pure.pure (some r)) =
      (objectRead fuel a >>= objectRest fuel a p) := by
  simp only [Remark.addRemarkToFact, objectRead, objectRest, Remark.getObjectAndProperty, bind_assoc, pure_bind]

theorem Adds.objectRead (fuel : Nat) (a : RemE) : Adds F cfg 8 (objectRead fuel a) :=
  .le (.bind .classes fun _ => .bind (.createNode _) fun _ => .bind (.remarkEntity _) fun _ =>
    .bind (Quiet.remarkText _ _).adds fun _ => .pure _) (by decide)
theorem Adds.objectRest (fuel : Nat) (a : RemE) (p : GoStr) (x : RemE × GoStr) :
    Adds F cfg (30 + 171 * (x.2.length + p.length)) (objectRest fuel a p x) :=
  .le (.bind (.pair _ _ _) fun _ => .bind (.connect _ _) fun _ => .bind (Quiet.targetFact _).adds fun _ =>
    .bind (Quiet.fetchByRemark _).adds fun _ => .bind (.connect _ _) fun _ => .pure _) (by omega)

/-- what the program logic knows of the result of `p` may be used for what follows it -/
theorem ends_both {α β : Type} {C : Ctx} (hR : C.R = false) {Q R : Store → Prop} {G : α → Prop} {k : α → Go β}
    (hQ : ∀ s, R s → Q s) (hk : ∀ a s, G a → R s → ends C.F C.cfg Q (k a) s) :
    ∀ {p : Go α} {σ : St} {w : World} {f : Nat → Fate}, (C.F = true ∨ f = Go.noFault) → σ.Is w →
      wp C (fun out _ => ∀ a, out = .ok a → G a) p σ → ends C.F C.cfg R p w.store →
      Q ((p >>= k).run C.cfg f w).2.store := by
  intro p
  show ∀ {σ w f}, _ → _ → _ → _ → Q ((p.bind k).run C.cfg f w).2.store
  induction p with
  | ok a => intro σ w f hf _ h1 h2; exact ends_run hf (hk a _ (h1 a rfl) h2)
  | err e => intro σ w f _ _ _ h2; exact hQ _ h2
  | panic => intro σ w f _ _ _ h2; exact hQ _ h2
  | spin => intro σ w f _ _ _ h2; exact hQ _ h2
  | op o k' ih =>
    intro σ w f hf hw h he
    obtain ⟨⟨t, b, _, h1⟩, h2, h3⟩ := h σ (by simp [Env, hR]) C.cfg (.refl _)
    have hF : f 0 ≠ .ok → C.F = true := by
      intro h0
      rcases hf with hf | hf
      · exact hf
      · exact absurd (by rw [hf]; rfl) h0
    have hn : C.F = true ∨ (fun n => f (n + 1)) = Go.noFault := hf.imp id fun h => by rw [h]; rfl
    unfold Go.bind Go.run
    cases h0 : f 0 with
    | ok =>
      rw [hw.store] at h1
      exact ih _ (σ := σ.after C.cfg o t b) (w := ⟨(w.store.step C.cfg o).2, w.mem⟩) hn
        ⟨by simp [St.after, hw.store], hw.mem⟩ h1 he.1
    | fail =>
      have hF := hF (by rw [h0]; simp)
      obtain ⟨_, h4⟩ := h2 hF
      exact ih _ (σ := σ.fail) (w := w) hn ⟨hw.store, hw.mem⟩ h4 (he.2 hF).1
    | failLate =>
      have hF := hF (by rw [h0]; simp)
      obtain ⟨t, b, _, h4⟩ := h3 hF
      exact ih _ (σ := (σ.after C.cfg o t b).fail) (w := ⟨(w.store.step C.cfg o).2, w.mem⟩) hn
        ⟨by simp [St.after, St.fail, hw.store], hw.mem⟩ h4 (he.2 hF).2
  | getMem k' ih =>
    intro σ w f hf hw h he
    unfold Go.bind Go.run
    have h' : wp C (fun out _ => ∀ a, out = .ok a → G a) (k' w.mem) σ := by rw [← hw.mem]; exact h
    exact ih _ hf hw h' (he _)
  | setMem m k' ih =>
    intro σ w f hf hw h he
    unfold Go.bind Go.run
    exact ih hf (σ := { σ with mem := σ.mem.set m }) (w := ⟨w.store, w.mem.set m⟩) ⟨hw.store, by rw [hw.mem]⟩ h.2 he

theorem objectRead_wp {C : Ctx} (hR : C.R = false) {σ : St} (hi : Inv C.cfg C.lim σ) {fuel : Nat} (hf : C.lim.L ≤ fuel)
    (hD : C.lim.D ≤ fuel) {a : RemE} {o q : List (List Rune)} (ha : RemEnt σ a) (hs : Says σ a o q) :
    wp C (fun out _ => ∀ x, out = .ok x → x.2 = textOf o) (objectRead fuel a) σ := by
  have key : WrL C (fun x _ => x.2 = textOf o) never (objectRead fuel a) σ := by
    unfold objectRead
    refine WrL.bind ((Rd.provideEntity hi).wr hR).loose ?_
    intro _ σ1 h1 _
    rw [remark_newEnt]
    refine WrL.bind (Wr.newEnt hR h1.inv (by decide) remarkTags .remark).loose ?_
    intro q σ2 h2 _
    have e2 := h1.trans h2
    refine WrL.bind ((Rd.remarkText h2.inv (ha.mono e2.mono) (hs.mono e2.mono ha) hf hD).wr hR).loose ?_
    intro x σ3 h3 ⟨_, hx⟩
    subst hx
    exact WrL.ret h3.inv rfl
  refine wp_mono ?_ key
  intro out σ' h x hx
  subst hx
  exact h.2

/-! ### runs and crashes -/

theorem records_run {α : Type} (cfg : Cfg) : ∀ (p : Go α) (f : Nat → Fate) (w : World),
    records w.store ≤ records (p.run cfg f w).2.store
  | .ok _, _, _ => Nat.le_refl _
  | .err _, _, _ => Nat.le_refl _
  | .panic, _, _ => Nat.le_refl _
  | .spin, _, _ => Nat.le_refl _
  | .op o k, f, w => by
    have h := (records_step cfg w.store o).1
    unfold Go.run
    dsimp only
    split
    · exact Nat.le_trans h (records_run cfg _ _ ⟨_, w.mem⟩)
    · exact records_run cfg _ _ w
    · exact Nat.le_trans h (records_run cfg _ _ ⟨_, w.mem⟩)
  | .getMem k, f, w => records_run cfg (k w.mem) f w
  | .setMem m k, f, w => records_run cfg k f ⟨w.store, w.mem.set m⟩

/-- a crashed call has added no more than the finished call would have -/
theorem records_crash {α : Type} (cfg : Cfg) : ∀ (p : Go α) (n : Nat) (f : Nat → Fate) (w : World),
    records (p.crashAfter cfg n f w) ≤ records (p.run cfg f w).2.store
  | .ok _, _, _, _ => by simp only [Go.crashAfter]; exact Nat.le_refl _
  | .err _, _, _, _ => by simp only [Go.crashAfter]; exact Nat.le_refl _
  | .panic, _, _, _ => by simp only [Go.crashAfter]; exact Nat.le_refl _
  | .spin, _, _, _ => by simp only [Go.crashAfter]; exact Nat.le_refl _
  | .op o k, 0, f, w => by
    have : (Go.op o k).crashAfter cfg 0 f w = w.store := by unfold Go.crashAfter; rfl
    rw [this]; exact records_run cfg _ f w
  | .op o k, n + 1, f, w => by
    unfold Go.crashAfter Go.run
    dsimp only
    split
    · exact records_crash cfg _ _ _ _
    · exact records_crash cfg _ _ _ _
    · exact records_crash cfg _ _ _ _
  | .getMem k, n, f, w => by
    simp only [Go.crashAfter]; exact records_crash cfg (k w.mem) n f w
  | .setMem m k, n, f, w => by
    simp only [Go.crashAfter]; exact records_crash cfg k n f ⟨w.store, w.mem.set m⟩

theorem Adds.run {α : Type} {n : Nat} {p : Go α} (h : Adds F cfg n p) {f : Nat → Fate} (hf : F = true ∨ f = Go.noFault)
    {w : World} (hw : Inited F w.store) :
    Inited F (p.run cfg f w).2.store ∧
      records (p.run cfg f w).2.store + owed (p.run cfg f w).2.store ≤ records w.store + owed w.store + n :=
  ends_run hf (h w.store _ hw (Nat.le_refl _))

theorem Spec.Ready.inited {s : Store} (h : Ready s) : Inited F s := ⟨h.1, fun _ => h.2⟩
theorem Spec.Ready.owed {s : Store} (h : Ready s) : owed s = 0 := by unfold Semnet.owed; rw [if_neg h.2]

/-- one call, in terms of the program logic -/
theorem grow_call {C : Ctx} {fuel : Nat} {σ : St} {st : State} (k : CallOK C fuel σ st.log) (hw : σ.Is st.world)
    (c : Call) (f : Nat → Fate) (hf : C.F = true ∨ f = Go.noFault) (hI : Inited C.F st.world.store) :
    Inited C.F ((c.prog fuel st.log).run C.cfg f st.world).2.store ∧
    records ((c.prog fuel st.log).run C.cfg f st.world).2.store + owed ((c.prog fuel st.log).run C.cfg f st.world).2.store ≤
      records st.world.store + owed st.world.store + c.allowance st.log := by
  by_cases hc : ∃ h p, c = .addRemark h p
  · obtain ⟨h, p, rfl⟩ := hc
    cases he : st.log[h]? with
    | none =>
      simp only [Call.prog, he]
      exact ⟨hI, Nat.le_add_right _ _⟩
    | some e =>
      have ok := k.keeps.get he
      have e1 : textOf (wordsOf e.object) = e.object := by rw [textOf_wordsOf, ok.obj]
      have ha : Call.allowance st.log (.addRemark h p) = 38 + 171 * (e.object.length + p.length) := by
        simp only [Call.allowance, Call.pair, Call.base, he, Option.map_some]
      simp only [Call.prog, he]
      rw [addRemark_split, ha]
      refine ends_both (C := C) k.R
        (Q := fun s' => Inited C.F s' ∧ records s' + owed s' ≤
          records st.world.store + owed st.world.store + (38 + 171 * (e.object.length + p.length)))
        (R := fun s' => Inited C.F s' ∧ records s' + owed s' ≤ records st.world.store + owed st.world.store + 8)
        (G := fun x => x.2 = textOf (wordsOf e.object)) (fun s h => ⟨h.1, by omega⟩) ?_ hf hw
        (objectRead_wp k.R k.inv k.L k.D ok.ent ok.says) (Adds.objectRead fuel e.handle st.world.store _ hI (Nat.le_refl _))
      intro x s hx hs
      have := Adds.objectRest (F := C.F) (cfg := C.cfg) fuel e.handle p x s _ hs.1 hs.2
      rw [hx, e1] at this
      rwa [show ∀ b n : Nat, b + 8 + (30 + n) = b + (38 + n) from fun b n => by omega] at this
  · exact (Adds.prog fuel st.log c fun h p he => hc ⟨h, p, he⟩).run hf hI

theorem call_store (cfg : Cfg) (fuel : Nat) (st : State) (c : Call) (f : Nat → Fate) :
    (st.call cfg fuel c f).world = ((c.prog fuel st.log).run cfg f st.world).2 := by
  unfold State.call
  generalize (c.prog fuel st.log).run cfg f st.world = out
  obtain ⟨x, w⟩ := out
  cases x with
  | ok x => cases x <;> rfl
  | _ => rfl

/-- one event on an initialised storage -/
theorem grow_event {C : Ctx} {fuel : Nat} {σ : St} {st : State} (k : CallOK C fuel σ st.log) (hw : σ.Is st.world)
    (e : Event) (hf : C.F = true ∨ e.Calm) (hI : Inited C.F st.world.store) :
    records (st.event C.cfg fuel e).world.store + (if C.F then 0 else owed (st.event C.cfg fuel e).world.store) ≤
      records st.world.store + owed st.world.store + e.allowance st.log := by
  cases e with
  | reopen =>
    show records st.world.store + (if C.F then 0 else owed st.world.store) ≤ _
    split <;> omega
  | call c f =>
    show records (st.call C.cfg fuel c f).world.store + (if C.F then 0 else owed (st.call C.cfg fuel c f).world.store) ≤ _
    have := (grow_call k hw c f hf hI).2
    rw [call_store]
    show _ ≤ _ + Call.allowance st.log c
    split <;> omega
  | crash c f n =>
    rcases hf with hf | hf
    · have h1 := (grow_call k hw c f (.inl hf) hI).2
      have h2 := records_crash C.cfg (c.prog fuel st.log) n f st.world
      rw [hf]
      show records ((c.prog fuel st.log).crashAfter C.cfg n f st.world) + 0 ≤ _ + Call.allowance st.log c
      omega
    · exact hf.elim

/-! ### histories -/

theorem Holds.inited {cfg lim st σ} (h : Holds cfg lim st σ) : Inited false st.world.store := by
  refine ⟨?_, fun h => by cases h⟩
  rw [← h.is.store]
  exact (h.inv.live 1).2 (by rw [(h.inv.root 1).2 (by omega)]; simp)

theorem Holds.ready {cfg lim st σ} (h : Holds cfg lim st σ) (hl : st.log ≠ []) : Ready st.world.store :=
  holds_initialised h hl

theorem records_roots (cfg : Cfg) : records (rootStore cfg) ≤ 16 ∧ owed (rootStore cfg) = 8 := by
  unfold rootStore records owed Store.sources
  cases cfg.zero <;> simp

theorem records_empty (cfg : Cfg) : records (Store.empty cfg) ≤ 1 := by
  unfold Store.empty records
  cases cfg.zero <;> simp

theorem calm_grow {cfg : Cfg} {lim : Lim} {fuel : Nat} (hd : Policy cfg lim) (hf : Fits lim fuel) :
    ∀ (es : List Event) {st : State} {b : Nat}, Sound cfg lim st → (∀ e ∈ es, e.Calm) →
    (∀ e ∈ es, ∀ t ∈ e.texts, TextOK lim t) →
    (Blank cfg st ∧ 24 ≤ b ∨ (∃ σ, Holds cfg lim st σ) ∧ records st.world.store + owed st.world.store ≤ b) →
    records (st.events cfg fuel es).world.store ≤ b + allowed cfg fuel st es := by
  intro es
  induction es with
  | nil =>
    intro st b _ _ _ h
    show records st.world.store ≤ b + 0
    rcases h with ⟨h, hb⟩ | ⟨_, hb⟩
    · rw [show st.world.store = Store.empty cfg by rw [h]; rfl]
      have := records_empty cfg
      omega
    · omega
  | cons e es ih =>
    intro st b h hc ht hb
    have hce := hc e (by simp)
    have hte := ht e (by simp)
    rw [events_cons]
    have hs := calm_step hd hf h e hce hte
    have step : (Blank cfg (st.event cfg fuel e) ∧ 24 ≤ b + e.allowance st.log) ∨
        (∃ σ, Holds cfg lim (st.event cfg fuel e) σ) ∧
          records (st.event cfg fuel e).world.store + owed (st.event cfg fuel e).world.store ≤ b + e.allowance st.log := by
      have holds : ∀ st : State, (∃ σ, Holds cfg lim st σ ∧ Clean σ) → records st.world.store + owed st.world.store ≤ b →
          (∃ σ, Holds cfg lim (st.event cfg fuel e) σ) ∧
          records (st.event cfg fuel e).world.store + owed (st.event cfg fuel e).world.store ≤ b + e.allowance st.log := by
        intro st ⟨σ, hh, hcl⟩ hb
        obtain ⟨σ', p⟩ := eventPost (C := calmCtx cfg lim) (hh.calm hf hcl) hh.is e (.inr hce) hte
        refine ⟨⟨σ', p.holds⟩, ?_⟩
        have := grow_event (C := calmCtx cfg lim) (hh.calm hf hcl) hh.is e (.inr hce) hh.inited
        simp only [calmCtx, Bool.false_eq_true, if_false] at this
        omega
      rcases hb with ⟨hbl, hb⟩ | ⟨⟨σ, hh⟩, hb⟩
      · have hbl' := hbl
        unfold Blank at hbl'
        subst hbl'
        have blank : (State.init cfg).event cfg fuel e = State.init cfg →
            Blank cfg ((State.init cfg).event cfg fuel e) ∧ 24 ≤ b + e.allowance (State.init cfg).log :=
          fun h => ⟨h, by omega⟩
        cases e with
        | reopen => exact .inl (blank rfl)
        | crash => exact hce.elim
        | call c f =>
          have hfe : f = Go.noFault := hce
          subst hfe
          cases c with
          | createStory o p =>
            refine .inr ?_
            have hr := records_roots cfg
            have := holds (State.roots cfg) ⟨_, roots_holds hd, rootSt_clean cfg⟩ (by
              show records (rootStore cfg) + owed (rootStore cfg) ≤ b
              omega)
            have e1 : (State.init cfg).event cfg fuel (.call (.createStory o p) Go.noFault) =
                (State.roots cfg).event cfg fuel (.call (.createStory o p) Go.noFault) := create_blank cfg fuel o p
            rw [e1]
            exact this
          | addRemark => exact .inl (blank rfl)
          | addFact => exact .inl (blank rfl)
          | addChild => exact .inl (blank rfl)
          | query => exact .inl (blank rfl)
          | getRemark i => exact .inl (blank (getRemark_blank cfg fuel i))
      · rcases h with h | h
        · -- a blank storage has no class nodes
          exfalso
          have := hh.inited.1
          rw [h] at this
          unfold State.init World.open Store.empty Store.live at this
          cases hz : cfg.zero <;> simp [hz] at this
        · exact .inr (holds st h hb)
    have := ih (b := b + e.allowance st.log) hs (fun a ha => hc a (by simp [ha])) (fun a ha => ht a (by simp [ha])) step
    show _ ≤ b + (e.allowance st.log + allowed cfg fuel (st.event cfg fuel e) es)
    omega

theorem storm_grow {cfg : Cfg} {lim : Lim} {fuel : Nat} (hz : cfg.zero = false) (hf : Fits lim fuel) :
    ∀ (es : List Event) {st : State} {σ : St}, Holds cfg lim st σ → st.log ≠ [] →
    (∀ e ∈ es, ∀ t ∈ e.texts, TextOK lim t) →
    records (st.events cfg fuel es).world.store ≤ records st.world.store + allowed cfg fuel st es := by
  intro es
  induction es with
  | nil => intro st σ _ _ _; exact Nat.le_refl _
  | cons e es ih =>
    intro st σ hh hl ht
    have k := hh.storm hf (fun h => absurd (hz.symm.trans h) (by simp)) hl
    obtain ⟨σ', p⟩ := eventPost (C := stormCtx cfg lim) k hh.is e (.inl rfl) (ht e (by simp))
    have g := grow_event (C := stormCtx cfg lim) k hh.is e (.inl rfl) (hh.ready hl).inited
    have hl' : (st.event cfg fuel e).log ≠ [] := by
      obtain ⟨l, h⟩ := event_log cfg fuel st e
      rw [h]
      intro h0
      exact hl (List.append_eq_nil_iff.1 h0).1
    have hh2 : Holds cfg lim (st.event cfg fuel e) σ' := p.holds
    have := ih hh2 hl' (fun a ha => ht a (by simp [ha]))
    rw [events_cons]
    simp only [stormCtx, if_true] at g
    have := (hh.ready hl).owed
    show _ ≤ _ + (e.allowance st.log + allowed cfg fuel (st.event cfg fuel e) es)
    omega

/-! ### short texts -/

/-- the objects of the log are short -/
def ShortLog (B : Nat) (log : List Entry) : Prop := ∀ e ∈ log, e.object.length ≤ 3 * B

theorem short_event {cfg : Cfg} {fuel B : Nat} {st : State} (h : ShortLog B st.log) (e : Event)
    (ht : ∀ t ∈ e.texts, t.length ≤ B) : ShortLog B (st.event cfg fuel e).log := by
  cases e with
  | reopen => exact h
  | crash => exact h
  | call c f =>
    show ShortLog B (st.call cfg fuel c f).log
    have new : ∀ r e, c.entry st.log r = some e → e.object.length ≤ 3 * B := by
      intro r e he
      have text : ∀ o, o ∈ c.texts → (asText o).length ≤ 3 * B := fun o ho => by
        have := asText_length o
        have : o.length ≤ B := ht o ho
        omega
      cases c with
      | createStory o p => cases he; exact text o (by simp [Call.texts])
      | addFact i o p => cases he; exact text o (by simp [Call.texts])
      | addChild i o p => cases he; exact text o (by simp [Call.texts])
      | addRemark i p =>
        simp only [Call.entry] at he
        cases hl : st.log[i]? with
        | none => rw [hl] at he; cases he
        | some e' => rw [hl] at he; cases he; exact h e' (List.mem_of_getElem? hl)
      | query => cases he
      | getRemark => cases he
    unfold State.call
    generalize (c.prog fuel st.log).run cfg f st.world = out
    obtain ⟨x, w⟩ := out
    cases x with
    | ok x =>
      cases x with
      | none => exact h
      | some r =>
        intro e he
        rcases List.mem_append.1 he with he | he
        · exact h e he
        · exact new r e (Option.mem_toList.1 he)
    | _ => exact h

theorem short_allowance {B : Nat} {log : List Entry} (h : ShortLog B log) (e : Event)
    (ht : ∀ t ∈ e.texts, t.length ≤ B) : e.allowance log ≤ 60 + 684 * B := by
  have call : ∀ c : Call, (∀ t ∈ c.texts, t.length ≤ B) → c.allowance log ≤ 60 + 684 * B := by
    intro c ht
    have two : ∀ o p : GoStr, o.length ≤ 3 * B → p.length ≤ B → 171 * (o.length + p.length) ≤ 684 * B :=
      fun o p h1 h2 => by omega
    cases c with
    | createStory o p =>
      have := ht o (by simp [Call.texts]); have := two o p (by omega) (ht p (by simp [Call.texts]))
      simp only [Call.allowance, Call.pair, Call.base]; omega
    | addRemark i p =>
      cases hl : log[i]? with
      | none => simp [Call.allowance, Call.pair, hl]
      | some e =>
        have := two e.object p (h e (List.mem_of_getElem? hl)) (ht p (by simp [Call.texts]))
        simp only [Call.allowance, Call.pair, Call.base, hl, Option.map_some]; omega
    | addFact i o p =>
      have := ht o (by simp [Call.texts]); have := two o p (by omega) (ht p (by simp [Call.texts]))
      cases hl : log[i]? <;> simp only [Call.allowance, Call.pair, Call.base, hl, Option.map_some, Option.map_none] <;> omega
    | addChild i o p =>
      have := ht o (by simp [Call.texts]); have := two o p (by omega) (ht p (by simp [Call.texts]))
      cases hl : log[i]? <;> simp only [Call.allowance, Call.pair, Call.base, hl, Option.map_some, Option.map_none] <;> omega
    | query => exact Nat.zero_le _
    | getRemark => exact Nat.zero_le _
  cases e with
  | reopen => exact Nat.zero_le _
  | crash c f n => exact call c ht
  | call c f => exact call c ht

theorem short_allowed (cfg : Cfg) (fuel : Nat) {B : Nat} : ∀ (es : List Event) {st : State}, ShortLog B st.log →
    (∀ e ∈ es, ∀ t ∈ e.texts, t.length ≤ B) → allowed cfg fuel st es ≤ es.length * (60 + 684 * B) := by
  intro es
  induction es with
  | nil => intro st _ _; exact Nat.zero_le _
  | cons e es ih =>
    intro st h ht
    have h1 := short_allowance h e (ht e (by simp))
    have h2 := ih (short_event (cfg := cfg) (fuel := fuel) h e (ht e (by simp))) fun a ha => ht a (by simp [ha])
    show e.allowance st.log + allowed cfg fuel (st.event cfg fuel e) es ≤ _
    rw [List.length_cons, Nat.succ_mul]
    omega

theorem short_events (cfg : Cfg) (fuel : Nat) {B : Nat} : ∀ (es : List Event) {st : State}, ShortLog B st.log →
    (∀ e ∈ es, ∀ t ∈ e.texts, t.length ≤ B) → ShortLog B (st.events cfg fuel es).log := by
  intro es
  induction es with
  | nil => intro st h _; exact h
  | cons e es ih => intro st h ht; exact ih (short_event h e (ht e (by simp))) fun a ha => ht a (by simp [ha])

/-! ### at least four nodes -/

theorem nodes_step (cfg : Cfg) (s : Store) (o : Op) : s.nodes.length ≤ (s.step cfg o).2.nodes.length := by
  cases o with
  | create => simp only [Store.step, Store.created, List.length_cons]; omega
  | setReference x y => simp only [Store.step]; split <;> exact Nat.le_refl _
  | connect x y =>
    unfold Store.step
    dsimp only
    repeat' split
    all_goals exact Nat.le_refl _
  | _ => exact Nat.le_refl _

theorem nodes_mono {α : Type} {b : Nat} : ∀ (p : Go α) (s : Store), b ≤ s.nodes.length →
    ends false cfg (fun s' => b ≤ s'.nodes.length) p s
  | .ok _, _, h => h
  | .err _, _, h => h
  | .panic, _, h => h
  | .spin, _, h => h
  | .op o k, s, h => ⟨nodes_mono _ _ (Nat.le_trans h (nodes_step cfg s o)), fun h => by cases h⟩
  | .getMem k, s, h => fun m => nodes_mono (k m) s h
  | .setMem _ k, s, h => nodes_mono k s h

theorem ends_createThree {α : Type} {s : Store} {k : Nat → Nat → Nat → Go α} :
    ends false cfg (fun s' => s.nodes.length + 3 ≤ s'.nodes.length)
      (do let a ← Go.create; let b ← Go.create; let c ← Go.create; k a b c) s := by
  refine ⟨⟨⟨?_, fun h => by cases h⟩, fun h => by cases h⟩, fun h => by cases h⟩
  exact nodes_mono _ _ (by simp [Store.step, Store.created])

theorem ends_ok {α : Type} {Q : Store → Prop} {o : Op} {a : o.Res} {s s' : Store} {k : o.Res → Go α}
    (h : s.step cfg o = (.ok a, s')) (hk : ends false cfg Q (k a) s') : ends false cfg Q (Go.call o >>= k) s := by
  show ends false cfg Q (Go.op o _) s
  refine ⟨?_, fun h => by cases h⟩
  rw [h]
  exact hk

/-- a remark entity is made first -/
theorem remark_first {α : Type} (hd : cfg.dup ≠ .reject) {s : Store} (h1 : s.live 1 = true) (h6 : s.live 6 = true)
    (k : RemE → Go α) :
    ends false cfg (fun s' => s.nodes.length + 4 ≤ s'.nodes.length)
      (do Class.provideEntity; let c ← Class.createNode Class.remarkId; let r ← Remark.createEntity c; k r) s := by
  have hl : s.created.live 6 = true := live_step cfg .create h6
  have hn : s.created.live s.next = true := by simp [Store.created, Store.live]
  have hr : ∃ s2, s.created.step cfg (.connect s.next 6) = (.ok (), s2) ∧ s2.nodes = s.created.nodes := by
    simp only [Store.step, hl, hn]
    cases hdd : cfg.dup with
    | reject => exact absurd hdd hd
    | ignore => cases s.created.edges.contains (s.next, 6) <;> exact ⟨_, rfl, rfl⟩
    | parallel => cases s.created.edges.contains (s.next, 6) <;> exact ⟨_, rfl, rfl⟩
  obtain ⟨s2, e, e2⟩ := hr
  have hp : s.step cfg (.has Class.bitId) = (.ok true, s) := by simp only [Store.step, Class.bitId, h1]
  have h4 : s.nodes.length + 4 = s2.nodes.length + 3 := by rw [e2]; simp [Store.created]
  simp only [Class.provideEntity, Class.createNode, Remark.createEntity, bind_assoc]
  refine ends_ok (o := .has Class.bitId) hp ?_
  simp only [if_true, pure_bind]
  refine ends_ok (o := .create) (a := s.next) (s' := s.created) rfl ?_
  refine ends_ok (o := .connect s.next 6) e ?_
  rw [h4]
  exact ends_createThree

end Semnet
