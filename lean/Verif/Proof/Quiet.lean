import Verif.Spec.History
import Verif.Proof.Sound
/-
  Programs that only ask.  `Quiet p`: `p` is built from reading storage calls, the two initialisers (which only
  read once the storage is initialised) and control flow.
-/
namespace Semnet

/-- storage calls that ask -/
def Op.isRead : Op → Bool
  | .has _ => true
  | .readSources _ => true
  | .readTargets _ => true
  | .getReference _ => true
  | .create => false
  | .setReference _ _ => false
  | .connect _ _ => false

theorem isRead_step {o : Op} (h : o.isRead = true) (cfg : Cfg) (s : Store) : (s.step cfg o).2 = s := by
  cases o <;> first | rfl | simp [Op.isRead] at h

inductive Quiet : {α : Type} → Go α → Prop
  | pure {α : Type} (a : α) : Quiet (Pure.pure a : Go α)
  | err {α : Type} (e : Err) : Quiet (Go.err e : Go α)
  | panic {α : Type} : Quiet (Go.panic : Go α)
  | spin {α : Type} : Quiet (Go.spin : Go α)
  | call (o : Op) (h : o.isRead = true) : Quiet (Go.call o)
  | init : Quiet Bit.init
  | classes : Quiet Class.provideEntity
  | bind {α β : Type} {p : Go α} {f : α → Go β} (hp : Quiet p) (hf : ∀ a, Quiet (f a)) : Quiet (p >>= f)
  | attempt {α : Type} {p : Go α} (hp : Quiet p) : Quiet p.attempt

/-! ### on any initialised storage -/

/-- the storage stays `s` throughout, whatever fails -/
def Stays {α : Type} (cfg : Cfg) (s : Store) : Go α → Prop
  | .op o k => (s.step cfg o).2 = s ∧ Stays cfg s (k (s.step cfg o).1) ∧ Stays cfg s (k (.error .fault))
  | .getMem k => ∀ m, Stays cfg s (k m)
  | .setMem _ k => Stays cfg s k
  | _ => True

theorem Stays.bind {α β : Type} {cfg : Cfg} {s : Store} {f : α → Go β} (hf : ∀ a, Stays cfg s (f a)) :
    ∀ {p : Go α}, Stays cfg s p → Stays cfg s (p >>= f) := by
  intro p
  show Stays cfg s p → Stays cfg s (p.bind f)
  induction p with
  | ok a => exact fun _ => hf a
  | err e => exact id
  | panic => exact id
  | spin => exact id
  | op o k ih => exact fun h => ⟨h.1, ih _ h.2.1, ih _ h.2.2⟩
  | getMem k ih => exact fun h m => ih m (h m)
  | setMem m k ih => exact fun h => ih h

theorem Stays.attempt {α : Type} {cfg : Cfg} {s : Store} :
    ∀ {p : Go α}, Stays cfg s p → Stays cfg s p.attempt := by
  intro p
  induction p with
  | ok a => exact id
  | err e => exact id
  | panic => exact id
  | spin => exact id
  | op o k ih => exact fun h => ⟨h.1, ih _ h.2.1, ih _ h.2.2⟩
  | getMem k ih => exact fun h m => ih m (h m)
  | setMem m k ih => exact fun h => ih h

theorem Stays.run {α : Type} {cfg : Cfg} {s : Store} :
    ∀ {p : Go α} {f : Nat → Fate} {w : World}, w.store = s → Stays cfg s p → (p.run cfg f w).2.store = s := by
  intro p
  induction p with
  | ok a => exact fun h _ => h
  | err e => exact fun h _ => h
  | panic => exact fun h _ => h
  | spin => exact fun h _ => h
  | op o k ih =>
    intro f w hw h
    unfold Go.run
    rw [hw]
    cases f 0 with
    | ok => exact ih _ h.1 h.2.1
    | fail => exact ih _ hw h.2.2
    | failLate => exact ih _ h.1 h.2.2
  | getMem k ih => intro f w hw h; unfold Go.run; exact ih _ hw (h _)
  | setMem m k ih => intro f w hw h; unfold Go.run; exact ih (w := ⟨w.store, w.mem.set m⟩) hw h

theorem Stays.crash {α : Type} {cfg : Cfg} {s : Store} :
    ∀ {p : Go α} {n : Nat} {f : Nat → Fate} {w : World}, w.store = s → Stays cfg s p →
      p.crashAfter cfg n f w = s := by
  intro p
  induction p with
  | ok a => intro n f w h _; cases n <;> exact h
  | err e => intro n f w h _; cases n <;> exact h
  | panic => intro n f w h _; cases n <;> exact h
  | spin => intro n f w h _; cases n <;> exact h
  | op o k ih =>
    intro n f w hw h
    cases n with
    | zero => unfold Go.crashAfter; exact hw
    | succ n =>
      unfold Go.crashAfter
      rw [hw]
      cases f 0 with
      | ok => exact ih _ h.1 h.2.1
      | fail => exact ih _ hw h.2.2
      | failLate => exact ih _ h.1 h.2.2
  | getMem k ih => intro n f w hw h; cases n <;> exact ih _ hw (h _)
  | setMem m k ih => intro n f w hw h; cases n <;> exact ih (w := ⟨w.store, w.mem.set m⟩) hw h

theorem Stays.read {cfg : Cfg} {s : Store} {o : Op} (h : o.isRead = true) : Stays cfg s (Go.call o) := by
  refine ⟨isRead_step h cfg s, ?_, trivial⟩
  cases (s.step cfg o).1 <;> trivial

theorem Stays.classes {cfg : Cfg} {s : Store} (h : s.live 1 = true) : Stays cfg s Class.provideEntity := by
  refine ⟨rfl, ?_, trivial⟩
  simp only [Store.step, h]
  trivial

theorem Stays.init {cfg : Cfg} {s : Store} (h : s.live 1 = true) (h2 : s.sources 1 ≠ []) :
    Stays cfg s Bit.init := by
  refine Stays.bind (p := Bit.ensure) ?_ ?_
  · intro _ _ _; trivial
  intro m
  show Stays cfg s (if m.isInitialized = true then pure () else Bit.fill)
  by_cases hm : m.isInitialized = true
  · rw [if_pos hm]; trivial
  · rw [if_neg hm]
    refine Stays.bind ?_ (.classes h)
    intro _
    refine ⟨rfl, ?_, trivial⟩
    simp only [Store.step, Class.bitId, h, if_true]
    have hne : cfg.ord s (.readSources 1) (s.sources 1) ≠ [] := by
      intro h0
      have := (cfg.ord_perm s (.readSources 1) (s.sources 1)).length_eq
      rw [h0] at this
      exact h2 (List.length_eq_zero_iff.1 this.symm)
    match hl : cfg.ord s (.readSources 1) (s.sources 1) with
    | [] => exact absurd hl hne
    | [_] => trivial
    | [c0, c1] =>
      refine Stays.bind (p := Go.getReference _) ?_ (Stays.read rfl)
      intro _
      show Stays cfg s (_ >>= _)
      refine Stays.bind (p := Go.getReference _) ?_ (Stays.read rfl)
      intro _
      trivial
    | _ :: _ :: _ :: _ => trivial

theorem Quiet.stays {cfg : Cfg} {s : Store} (h1 : s.live 1 = true) (h2 : s.sources 1 ≠ []) {α : Type} {p : Go α}
    (h : Quiet p) : Stays cfg s p := by
  induction h with
  | pure a => trivial
  | err e => trivial
  | panic => trivial
  | spin => trivial
  | call o h => exact .read h
  | init => exact .init h1 h2
  | classes => exact .classes h1
  | bind _ _ ih1 ih2 => exact .bind ih2 ih1
  | attempt _ ih => exact .attempt ih

/-! ### in the program logic -/

theorem Quiet.wp {C : Ctx} {α : Type} {p : Go α} (h : Quiet p) : ∀ {σ : St}, Inv C.cfg C.lim σ → σ.bits ≠ none →
    wp C (fun _ σ' => Ext C σ σ' ∧ RO C σ σ') p σ := by
  induction h with
  | pure a => intro σ hi _; exact ⟨.refl hi, .refl _ _⟩
  | err e => intro σ hi _; exact ⟨.refl hi, .refl _ _⟩
  | panic => intro σ hi _; exact ⟨.refl hi, .refl _ _⟩
  | spin => intro σ hi _; exact ⟨.refl hi, .refl _ _⟩
  | call o h =>
    intro σ hi _
    refine wp_read hi (fun c s => isRead_step h c s) ?_ ?_
    · intro σ1 h1 h2 _ _ c
      cases (σ1.store.step c o).1 <;> exact ⟨h1, h2⟩
    · intro σ1 h1 h2 _ _; exact ⟨h1, h2⟩
  | init =>
    intro σ hi hb
    cases hb' : σ.bits with
    | none => exact absurd hb' hb
    | some bs => exact wp_mono (fun o σ' h => ⟨h.1, h.2.1⟩) (Rd.bitInit hi hb')
  | classes => intro σ hi _; exact wp_mono (fun o σ' h => ⟨h.1, h.2.1⟩) (Rd.provideEntity hi)
  | bind _ _ ih1 ih2 =>
    intro σ hi hb
    refine wp_bind (wp_mono ?_ (ih1 hi hb))
    intro o σ1 ⟨h1, h2⟩
    cases o with
    | ok a =>
      refine wp_mono ?_ (ih2 a h1.inv ?_)
      · intro o σ2 ⟨h3, h4⟩; exact ⟨h1.trans h3, h2.trans h4⟩
      · intro hn
        cases hb' : σ.bits with
        | none => exact hb hb'
        | some bs => rw [h1.mono.bits _ hb'] at hn; cases hn
    | err e => exact ⟨h1, h2⟩
    | panic => exact ⟨h1, h2⟩
    | spin => exact ⟨h1, h2⟩
  | attempt _ ih =>
    intro σ hi hb
    refine wp_attempt (wp_mono ?_ (ih hi hb))
    intro o σ1 h
    cases o <;> exact h

/-! ### the queries are quiet -/

theorem Quiet.has (x : Nat) : Quiet (Go.has x) := .call _ rfl
theorem Quiet.targets (x : Nat) : Quiet (Go.readTargets x) := .call _ rfl
theorem Quiet.sources (x : Nat) : Quiet (Go.readSources x) := .call _ rfl
theorem Quiet.ref (x : Nat) : Quiet (Go.getReference x) := .call _ rfl
theorem Quiet.deref {α : Type} (x : Option α) : Quiet (Character.deref x) := by
  cases x
  · exact .panic
  · exact .pure _
theorem Quiet.ite {α : Type} {c : Prop} [Decidable c] {p q : Go α} (hp : Quiet p) (hq : Quiet q) :
    Quiet (if c then p else q) := by
  split
  · exact hp
  · exact hq

/-- one step of a `Quiet` proof by the shape of the program -/
macro "quiet1" : tactic => `(tactic| first
  | exact Quiet.pure _ | exact Quiet.err _ | exact Quiet.panic | exact Quiet.spin
  | exact Quiet.targets _ | exact Quiet.sources _ | exact Quiet.ref _ | exact Quiet.has _ | exact Quiet.deref _
  | exact Quiet.init | exact Quiet.classes | assumption
  | with_reducible apply Quiet.bind | with_reducible apply Quiet.attempt | with_reducible apply Quiet.ite
  | intro _ | split)
macro "quiet" : tactic => `(tactic| repeat' quiet1)

theorem Quiet.bitFetch (x : Nat) : Quiet (Bit.fetch x) := by unfold Bit.fetch; quiet
theorem Quiet.charReadWord (x : Nat) : Quiet (Character.fetch x) := by
  unfold Character.fetch Character.readEntityByWord; quiet
theorem Quiet.charBit (e : CharElem) : Quiet (Character.extractBitValue e) := by
  unfold Character.extractBitValue Character.getTargetBit
  have := Quiet.bitFetch
  quiet
  exact this _
theorem Quiet.charLoop : ∀ (n : Nat) (e : CharElem) (l : List Bool), Quiet (Character.extractLoop n e l) := by
  intro n
  induction n with
  | zero => intro e l; exact .spin
  | succ n ih =>
    intro e l
    unfold Character.extractLoop Character.hasPreviousElement Character.hasSourceCharacter
      Character.getPreviousElement Character.getSourceCharacter Character.readEntityByCharacter
    have h := Quiet.charBit
    quiet
    · exact h _
    · exact ih _ _
theorem Quiet.charExtract (n : Nat) (a : CharAgg) : Quiet (Character.extract n a) := by
  unfold Character.extract
  refine .bind (.charBit _) fun _ => .bind (.charLoop _ _ _) fun _ => .pure _
theorem Quiet.wordChar (n : Nat) (e : WordE) : Quiet (Word.extractCharacterValue n e) := by
  unfold Word.extractCharacterValue Word.getTargetCharacter
  have h1 := Quiet.charReadWord
  have h2 := Quiet.charExtract
  quiet
  · exact h1 _
  · exact h2 _ _
theorem Quiet.wordLoop (fuel : Nat) : ∀ (n : Nat) (e : WordE) (l : List Rune), Quiet (Word.extractLoop fuel n e l) := by
  intro n
  induction n with
  | zero => intro e l; exact .spin
  | succ n ih =>
    intro e l
    unfold Word.extractLoop Word.hasSourceWord Word.getPreviousElement Word.getSourceWord Word.readEntityByWord
    have h := Quiet.wordChar fuel
    quiet
    · exact h _
    · exact ih _ _
theorem Quiet.wordExtract (n : Nat) (e : WordE) : Quiet (Word.extract n e) := by
  unfold Word.extract
  refine .bind (.wordChar _ _) fun _ => .bind (.wordLoop _ _ _ _) fun _ => .pure _
theorem Quiet.phraseWord (n : Nat) (e : PhraseE) : Quiet (Phrase.extractWordValue n e) := by
  unfold Phrase.extractWordValue Phrase.getTargetWord Word.fetch Word.readEntityByPhrase
  have h2 := Quiet.wordExtract
  quiet
  · exact h2 _ _
theorem Quiet.phraseLoop (fuel : Nat) : ∀ (n : Nat) (e : PhraseE) (l : List GoStr), Quiet (Phrase.extractLoop fuel n e l) := by
  intro n
  induction n with
  | zero => intro e l; exact .spin
  | succ n ih =>
    intro e l
    unfold Phrase.extractLoop Phrase.hasSourcePhrase Phrase.getPreviousElement Phrase.getSourcePhrase Phrase.readEntityByPhrase
    have h := Quiet.phraseWord fuel
    quiet
    · exact h _
    · exact ih _ _
theorem Quiet.phraseExtract (n : Nat) (e : PhraseE) : Quiet (Phrase.extract n e) := by
  unfold Phrase.extract
  refine .bind (.phraseWord _ _) fun _ => .bind (.phraseLoop _ _ _ _) fun _ => .pure _
theorem Quiet.remarkText (n : Nat) (a : RemE) : Quiet (Remark.getObjectAndProperty n a) := by
  unfold Remark.getObjectAndProperty Remark.getSourceDetail Detail.fetch Detail.readEntityByRemark
    Detail.getObjectAndProperty Detail.getObjectAndPropertyPhrases Phrase.fetch Phrase.readEntityByDetail
  have h := Quiet.phraseExtract
  quiet
  · exact h _ _
  · exact h _ _
theorem Quiet.remByFact (x : Nat) : Quiet (Remark.readEntityByFact x) := by
  unfold Remark.readEntityByFact; quiet
theorem Quiet.getRemark (x : Nat) : Quiet (Graph.getRemark x) := by
  unfold Graph.getRemark Remark.readEntityByClass; quiet
theorem Quiet.hasNextRemark (a : RemE) : Quiet (Remark.hasNextRemark a) := by
  unfold Remark.hasNextRemark; quiet
theorem Quiet.getNextRemark (a : RemE) : Quiet (Remark.getNextRemark a) := by
  unfold Remark.getNextRemark Remark.getNextRemarkId Remark.readEntityByPosition Class.isNode; quiet
theorem Quiet.fetchByRemark (x : Nat) : Quiet (Fact.fetchByRemark x) := by
  unfold Fact.fetchByRemark Fact.readEntityByRemark; quiet
theorem Quiet.hasNextFact (a : RemE) : Quiet (Remark.hasNextFact a) := by
  unfold Remark.hasNextFact Fact.hasNextFact; have h := Quiet.fetchByRemark; quiet; exact h _
theorem Quiet.firstRemark (a : FactAgg) : Quiet (Fact.getFirstRemark a) := by
  unfold Fact.getFirstRemark; quiet
theorem Quiet.toNextFact (a : FactAgg) : Quiet (Fact.toNextFact a) := by
  unfold Fact.toNextFact Fact.getTargetFact Fact.viaStorage Fact.readEntityByPosition; quiet
theorem Quiet.storyOrZero (a : FactAgg) : Quiet (Fact.targetStoryOrZero a) := by
  unfold Fact.targetStoryOrZero Fact.getTargetStory; quiet
theorem Quiet.toNextStory (a : FactAgg) : Quiet (Fact.toNextStory a) := by
  unfold Fact.toNextStory Story.fetchByFact Story.getTargetPosition Story.fetchByPosition Story.getTargetFact
    Fact.viaStorage Fact.readEntityByStory
  have h := Quiet.storyOrZero; quiet; exact h _
theorem Quiet.toFirstFact (a : FactAgg) : Quiet (Fact.toFirstFact a) := by
  unfold Fact.toFirstFact Story.fetchByFact Story.getTargetFact Fact.viaStorage Fact.readEntityByStory
  have h := Quiet.storyOrZero; quiet; exact h _
theorem Quiet.factHasNextStory (a : FactAgg) : Quiet (Fact.hasNextStory a) := by
  unfold Fact.hasNextStory Story.fetchByFact Story.hasTargetPosition
  have h := Quiet.storyOrZero; quiet; exact h _
theorem Quiet.getNextFact (a : RemE) : Quiet (Remark.getNextFact a) :=
  .bind (.fetchByRemark _) fun _ => .bind (.toNextFact _) fun _ => .bind (.firstRemark _) fun _ => .remByFact _
theorem Quiet.targetFact (a : RemE) : Quiet (Remark.getTargetFact a) := by
  unfold Remark.getTargetFact; quiet
theorem Quiet.getFirstFact (a : RemE) : Quiet (Remark.getFirstFact a) :=
  .bind (.targetFact _) fun _ => .bind (.fetchByRemark _) fun _ => .bind (.toFirstFact _) fun _ =>
    .bind (.firstRemark _) fun _ => .remByFact _
theorem Quiet.hasNextStory (a : RemE) : Quiet (Remark.hasNextStory a) :=
  .bind (.fetchByRemark _) fun _ => .factHasNextStory _
theorem Quiet.getNextStory (a : RemE) : Quiet (Remark.getNextStory a) :=
  .bind (.fetchByRemark _) fun _ => .bind (.toNextStory _) fun _ => .bind (.firstRemark _) fun _ => .remByFact _
theorem Quiet.outLoop (fuel : Nat) : ∀ (n : Nat) (r : RemE) (b : GoStr), Quiet (Output.loop fuel n r b) := by
  intro n
  induction n with
  | zero => intro r b; exact .spin
  | succ n ih =>
    intro r b
    unfold Output.loop
    refine .bind (.remarkText _ _) fun _ => .bind (.hasNextRemark _) fun _ => ?_
    exact .ite (.bind (.getNextRemark _) fun _ => ih _ _) (.pure _)
theorem Quiet.getStory (fuel : Nat) (r : RemE) : Quiet (Output.getStory fuel r) :=
  .bind (.getFirstFact _) fun _ => .outLoop _ _ _ _

theorem Quiet.query (fuel : Nat) (r : RemE) (q : Spec.Query) : Quiet (q.ask fuel r) := by
  cases q
  · exact .bind (.remarkText _ _) fun _ => .pure _
  · exact .bind (.hasNextRemark _) fun _ => .pure _
  · exact .bind (.getNextRemark _) fun _ => .pure _
  · exact .bind (.hasNextFact _) fun _ => .pure _
  · exact .bind (.getNextFact _) fun _ => .pure _
  · exact .bind (.getFirstFact _) fun _ => .pure _
  · exact .bind (.hasNextStory _) fun _ => .pure _
  · exact .bind (.getNextStory _) fun _ => .pure _
  · exact .bind (.getStory _ _) fun _ => .pure _

end Semnet
