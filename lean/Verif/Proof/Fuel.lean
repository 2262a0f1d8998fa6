import Verif.Spec.History
/-
  The loop budget: more of it never changes a run that did not use it up.
-/
namespace Semnet
open Spec

/-- `q` is `p` except where `p` ran out of its loop budget. -/
inductive Go.Le {α : Type} : Go α → Go α → Prop
  | spin (q : Go α) : Le .spin q
  | ok (a : α) : Le (.ok a) (.ok a)
  | err (e : Err) : Le (.err e) (.err e)
  | panic : Le .panic .panic
  | op (o : Op) {k k' : Except Err o.Res → Go α} (h : ∀ r, Le (k r) (k' r)) : Le (.op o k) (.op o k')
  | getMem {k k' : Layer → Go α} (h : ∀ m, Le (k m) (k' m)) : Le (.getMem k) (.getMem k')
  | setMem (m : Assign) {k k' : Go α} (h : Le k k') : Le (.setMem m k) (.setMem m k')

namespace Go.Le
variable {α β : Type}

theorem refl (p : Go α) : Le p p := by
  induction p with
  | ok a => exact .ok a
  | err e => exact .err e
  | panic => exact .panic
  | spin => exact .spin _
  | op o k ih => exact .op o ih
  | getMem k ih => exact .getMem ih
  | setMem m k ih => exact .setMem m ih

theorem bind {p q : Go α} {f g : α → Go β} (h : Le p q) (hf : ∀ a, Le (f a) (g a)) : Le (p >>= f) (q >>= g) := by
  induction h with
  | spin q => exact .spin _
  | ok a => exact hf a
  | err e => exact .err e
  | panic => exact .panic
  | op o _ ih => exact .op o ih
  | getMem _ ih => exact .getMem ih
  | setMem m _ ih => exact .setMem m ih

theorem next {p : Go α} {f g : α → Go β} (hf : ∀ a, Le (f a) (g a)) : Le (p >>= f) (p >>= g) := bind (refl p) hf

theorem last {p q : Go α} {f : α → Go β} (h : Le p q) : Le (p >>= f) (q >>= f) := bind h fun _ => refl _

theorem attempt {p q : Go α} (h : Le p q) : Le p.attempt q.attempt := by
  induction h with
  | spin q => exact .spin _
  | ok a => exact .ok _
  | err e => exact .ok _
  | panic => exact .panic
  | op o _ ih => exact .op o ih
  | getMem _ ih => exact .getMem ih
  | setMem m _ ih => exact .setMem m ih

/-- the run is the same -/
theorem run {p q : Go α} (h : Le p q) {cfg : Cfg} : ∀ {f : Nat → Fate} {w : World},
    (p.run cfg f w).1 ≠ .spin → q.run cfg f w = p.run cfg f w := by
  induction h with
  | spin q => exact fun h => absurd rfl h
  | ok a => exact fun _ => rfl
  | err e => exact fun _ => rfl
  | panic => exact fun _ => rfl
  | op o _ ih =>
    intro f w hs
    unfold Go.run at hs ⊢
    cases h0 : f 0 with
    | ok => simp only [h0] at hs ⊢; exact ih _ hs
    | fail => simp only [h0] at hs ⊢; exact ih _ hs
    | failLate => simp only [h0] at hs ⊢; exact ih _ hs
  | getMem _ ih => intro f w hs; exact ih _ hs
  | setMem m _ ih => intro f w hs; exact ih hs

end Go.Le

open Go (Le)

theorem ite_le {α : Type} {c : Prop} [Decidable c] {p q p' q' : Go α} (h1 : Le p q) (h2 : Le p' q') :
    Le (if c then p else p') (if c then q else q') := by
  by_cases h : c
  · simp only [if_pos h]; exact h1
  · simp only [if_neg h]; exact h2

section
variable {m n : Nat} (h : m ≤ n)
include h

theorem le_charLoop (e : CharElem) (path) : Le (Character.extractLoop m e path) (Character.extractLoop n e path) := by
  induction m generalizing n e path with
  | zero => exact .spin _
  | succ m ih =>
    obtain ⟨n, rfl⟩ : ∃ k, n = k + 1 := ⟨n - 1, by omega⟩
    unfold Character.extractLoop
    exact .next fun b => ite_le (.next fun _ => .next fun _ => .next fun _ => ih (by omega) _ _) (.refl _)

theorem le_charExtract (a) : Le (Character.extract m a) (Character.extract n a) :=
  .next fun _ => .last (le_charLoop h _ _)

theorem le_charValue (e) : Le (Word.extractCharacterValue m e) (Word.extractCharacterValue n e) :=
  .next fun _ => .next fun _ => le_charExtract h _

theorem le_wordSearch (v) : ∀ l, Le (Word.search m v l) (Word.search n v l)
  | [] => .refl _
  | _ :: cs => .bind (le_charValue h _) fun _ => ite_le (.refl _) (le_wordSearch v cs)

theorem le_wordNext (e v) : Le (Word.provideNextElement m e v) (Word.provideNextElement n e v) :=
  .next fun _ => .next fun _ => .last (le_wordSearch h _ _)

theorem le_wordWalk : ∀ l e, Le (Word.walk m e l) (Word.walk n e l)
  | [], _ => .refl _
  | _ :: rs, _ => .next fun _ => .bind (.attempt (le_wordNext h _ _)) fun _ => le_wordWalk rs _

theorem le_wordProvide (s) : Le (Word.provide m s) (Word.provide n s) := by
  unfold Word.provide
  cases runesOf s with
  | nil => exact .refl _
  | cons r rs => exact .next fun _ => .last (le_wordWalk h _ _)

theorem le_wordLoop {m' n' : Nat} (h' : m' ≤ n') (e path) :
    Le (Word.extractLoop m m' e path) (Word.extractLoop n n' e path) := by
  induction m' generalizing n' e path with
  | zero => exact .spin _
  | succ m' ih =>
    obtain ⟨n', rfl⟩ : ∃ k, n' = k + 1 := ⟨n' - 1, by omega⟩
    unfold Word.extractLoop
    exact .next fun b => ite_le (.next fun _ => .next fun _ => .bind (le_charValue h _) fun _ => ih (by omega) _ _)
      (.refl _)

theorem le_wordExtract (e) : Le (Word.extract m e) (Word.extract n e) :=
  .bind (le_charValue h _) fun _ => .last (le_wordLoop h h _ _)

theorem le_wordValue (e) : Le (Phrase.extractWordValue m e) (Phrase.extractWordValue n e) :=
  .next fun _ => .next fun _ => le_wordExtract h _

theorem le_phraseSearch (v) : ∀ l, Le (Phrase.search m v l) (Phrase.search n v l)
  | [] => .refl _
  | _ :: cs => .bind (le_wordValue h _) fun _ => ite_le (.refl _) (le_phraseSearch v cs)

theorem le_phraseNext (e v) : Le (Phrase.provideNextElement m e v) (Phrase.provideNextElement n e v) := by
  refine .next fun _ => .next fun _ => .bind (le_phraseSearch h _ _) fun r => ?_
  cases r with
  | some p => exact .refl _
  | none => exact .next fun _ => .last (le_wordProvide h _)

theorem le_phraseWalk : ∀ l e, Le (Phrase.walk m e l) (Phrase.walk n e l)
  | [], _ => .refl _
  | _ :: rs, _ => .next fun _ => .bind (.attempt (le_phraseNext h _ _)) fun _ => le_phraseWalk rs _

theorem le_phraseProvide (s) : Le (Phrase.provide m s) (Phrase.provide n s) := by
  unfold Phrase.provide
  cases splitSpace s with
  | nil => exact .refl _
  | cons r rs => exact .bind (.last (le_wordProvide h _)) fun _ => .last (le_phraseWalk h _ _)

theorem le_phraseLoop {m' n' : Nat} (h' : m' ≤ n') (e path) :
    Le (Phrase.extractLoop m m' e path) (Phrase.extractLoop n n' e path) := by
  induction m' generalizing n' e path with
  | zero => exact .spin _
  | succ m' ih =>
    obtain ⟨n', rfl⟩ : ∃ k, n' = k + 1 := ⟨n' - 1, by omega⟩
    unfold Phrase.extractLoop
    exact .next fun b => ite_le (.next fun _ => .next fun _ => .bind (le_wordValue h _) fun _ => ih (by omega) _ _)
      (.refl _)

theorem le_phraseExtract (e) : Le (Phrase.extract m e) (Phrase.extract n e) :=
  .bind (le_wordValue h _) fun _ => .last (le_phraseLoop h h _ _)

theorem le_detailProvide (o p) : Le (Detail.provide m o p) (Detail.provide n o p) :=
  .bind (le_phraseProvide h _) fun _ => .last (le_phraseProvide h _)

theorem le_detailText (e) : Le (Detail.getObjectAndProperty m e) (Detail.getObjectAndProperty n e) :=
  .next fun _ => .next fun _ => .bind (le_phraseExtract h _) fun _ => .next fun _ => .last (le_phraseExtract h _)

theorem le_text (r) : Le (Remark.getObjectAndProperty m r) (Remark.getObjectAndProperty n r) :=
  .next fun _ => .next fun _ => le_detailText h _

theorem le_sibling (s) : Le (Fact.lastSibling m s) (Fact.lastSibling n s) := by
  induction m generalizing n s with
  | zero => exact .spin _
  | succ m ih =>
    obtain ⟨n, rfl⟩ : ∃ k, n = k + 1 := ⟨n - 1, by omega⟩
    unfold Fact.lastSibling
    exact .next fun b => ite_le (.next fun _ => .next fun _ => ih (by omega) _) (.refl _)

theorem le_childFact (r) : Le (Fact.createChildStoryFact m r) (Fact.createChildStoryFact n r) := by
  unfold Fact.createChildStoryFact
  refine .next fun _ => .next fun _ => .next fun b => .next fun _ => .next fun _ => ?_
  cases b with
  | true => exact .next fun _ => .bind (le_sibling h _) fun _ => .refl _
  | false => exact .refl _

theorem le_addRemark (r p) : Le (Remark.addRemarkToFact m r p) (Remark.addRemarkToFact n r p) :=
  .next fun _ => .next fun _ => .next fun _ => .next fun _ => .next fun _ => .bind (le_detailText h _) fun _ =>
    .last (le_detailProvide h _ _)

theorem le_addFact (r o p) : Le (Remark.addFactToStory m r o p) (Remark.addFactToStory n r o p) :=
  .next fun _ => .next fun _ => .next fun _ => .last (le_detailProvide h _ _)

theorem le_addChild (r o p) : Le (Remark.createChildStory m r o p) (Remark.createChildStory n r o p) :=
  .next fun _ => .next fun _ => .next fun _ => .bind (le_detailProvide h _ _) fun _ => .next fun _ =>
    .last (le_childFact h _)

theorem le_createStory (o p) : Le (Graph.createStory m o p) (Graph.createStory n o p) :=
  .next fun _ => .next fun _ => .next fun _ => .last (le_detailProvide h _ _)

theorem le_output {m' n' : Nat} (h' : m' ≤ n') (r b) : Le (Output.loop m m' r b) (Output.loop n n' r b) := by
  induction m' generalizing n' r b with
  | zero => exact .spin _
  | succ m' ih =>
    obtain ⟨n', rfl⟩ : ∃ k, n' = k + 1 := ⟨n' - 1, by omega⟩
    unfold Output.loop
    exact .bind (le_text h _) fun _ => .next fun _ => ite_le (.next fun _ => ih (by omega) _ _) (.refl _)

theorem le_getStory (r) : Le (Output.getStory m r) (Output.getStory n r) := .next fun _ => le_output h h _ _

theorem le_ask (r) (q : Query) : Le (q.ask m r) (q.ask n r) := by
  cases q with
  | getObjectAndProperty => exact .last (le_text h _)
  | getStory => exact .last (le_getStory h _)
  | _ => exact .refl _

/-- the whole API -/
theorem le_call (log) (c : Call) : Le (c.prog m log) (c.prog n log) := by
  cases c with
  | createStory o p => exact .last (le_createStory h _ _)
  | addRemark i p =>
    simp only [Call.prog]
    cases log[i]? with
    | none => exact .refl _
    | some e => exact .last (le_addRemark h _ _)
  | addFact i o p =>
    simp only [Call.prog]
    cases log[i]? with
    | none => exact .refl _
    | some e => exact .last (le_addFact h _ _ _)
  | addChild i o p =>
    simp only [Call.prog]
    cases log[i]? with
    | none => exact .refl _
    | some e => exact .last (le_addChild h _ _ _)
  | query i q =>
    simp only [Call.prog]
    cases log[i]? with
    | none => exact .refl _
    | some e => exact .last (le_ask h _ _)
  | getRemark i => exact .refl _

end

/-! ### programs without unbounded loops -/

/-- no leaf is `spin` -/
inductive Go.NoSpin {α : Type} : Go α → Prop
  | ok (a : α) : NoSpin (.ok a)
  | err (e : Err) : NoSpin (.err e)
  | panic : NoSpin .panic
  | op (o : Op) {k : Except Err o.Res → Go α} (h : ∀ r, NoSpin (k r)) : NoSpin (.op o k)
  | getMem {k : Layer → Go α} (h : ∀ m, NoSpin (k m)) : NoSpin (.getMem k)
  | setMem (m : Assign) {k : Go α} (h : NoSpin k) : NoSpin (.setMem m k)

namespace Go.NoSpin
variable {α β : Type}

theorem call (o : Op) : NoSpin (Go.call o) := .op o fun r => match r with
  | .ok a => .ok a
  | .error e => .err e

theorem bind {p : Go α} {f : α → Go β} (h : NoSpin p) (hf : ∀ a, NoSpin (f a)) : NoSpin (p >>= f) := by
  induction h with
  | ok a => exact hf a
  | err e => exact .err e
  | panic => exact .panic
  | op o _ ih => exact .op o ih
  | getMem _ ih => exact .getMem ih
  | setMem m _ ih => exact .setMem m ih

theorem attempt {p : Go α} (h : NoSpin p) : NoSpin p.attempt := by
  induction h with
  | ok a => exact .ok _
  | err e => exact .ok _
  | panic => exact .panic
  | op o _ ih => exact .op o ih
  | getMem _ ih => exact .getMem ih
  | setMem m _ ih => exact .setMem m ih

theorem run {p : Go α} (h : NoSpin p) {cfg : Cfg} : ∀ {f : Nat → Fate} {w : World}, (p.run cfg f w).1 ≠ .spin := by
  induction h with
  | ok a => exact fun h => by cases h
  | err e => exact fun h => by cases h
  | panic => exact fun h => by cases h
  | op o _ ih =>
    intro f w
    unfold Go.run
    cases h0 : f 0 with
    | ok => simp only; exact ih _
    | fail => simp only; exact ih _
    | failLate => simp only; exact ih _
  | getMem _ ih => intro f w; exact ih _
  | setMem m _ ih => intro f w; exact ih

end Go.NoSpin
open Go (NoSpin)

theorem Go.NoSpin.pure {α : Type} (a : α) : NoSpin (Pure.pure a : Go α) := .ok a

theorem Go.NoSpin.ite {α : Type} {c : Prop} [Decidable c] {p q : Go α} (h1 : NoSpin p) (h2 : NoSpin q) :
    NoSpin (if c then p else q) := by
  by_cases h : c
  · simp only [if_pos h]; exact h1
  · simp only [if_neg h]; exact h2

/-- `if len(l) != 1 { return err }` -/
theorem Go.NoSpin.one {α : Type} {l : List Nat} {f : Nat → Go α} {e : Err} (h : ∀ t, NoSpin (f t)) :
    NoSpin (match l with | [t] => f t | _ => Go.err e) := by
  match l with
  | [] => exact .err _
  | [t] => exact h t
  | _ :: _ :: _ => exact .err _

theorem ns_root (n : Nat) : NoSpin (Class.createRoot n) := .bind (.call _) fun _ => .ite (.pure _) (.err _)

theorem ns_provideEntity : NoSpin Class.provideEntity := by
  unfold Class.provideEntity
  refine .bind (.call _) fun _ => .ite (.pure _) ?_
  refine .bind (ns_root _) fun _ => .bind (ns_root _) fun _ => .bind (.call _) fun _ => .bind (ns_root _) fun _ =>
    .bind (.call _) fun _ => .bind (ns_root _) fun _ => .bind (.call _) fun _ => .bind (ns_root _) fun _ =>
    .bind (.call _) fun _ => .bind (ns_root _) fun _ => .bind (.call _) fun _ => .bind (ns_root _) fun _ =>
    .bind (.call _) fun _ => .bind (ns_root _) fun _ => .call _

theorem ns_isNode (r i : Nat) : NoSpin (Class.isNode r i) := .bind (.call _) fun _ => .one fun _ => .pure _

theorem ns_deref {α : Type} (o : Option α) : NoSpin (Character.deref o) := by
  cases o with
  | none => exact .panic
  | some a => exact .ok a

theorem ns_getRemark (i : Nat) : NoSpin (Graph.getRemark i) :=
  .bind (.call _) fun _ => .bind (.call _) fun _ => .bind (.call _) fun _ => .pure _

theorem ns_byFact (i : Nat) : NoSpin (Remark.readEntityByFact i) :=
  .bind (.call _) fun _ => .bind (.call _) fun _ => .bind (.call _) fun _ => .pure _

theorem ns_factByRemark (i : Nat) : NoSpin (Fact.fetchByRemark i) :=
  .bind (.bind (.call _) fun _ => .bind (.call _) fun _ => .pure _) fun _ => .pure _

theorem ns_factByStory (i : Nat) : NoSpin (Fact.readEntityByStory i) :=
  .bind (.call _) fun _ => .bind (.call _) fun _ => .bind (.call _) fun _ => .pure _

theorem ns_story0 (i : Nat) : NoSpin (Story.fetchByFact i) :=
  .bind (.call _) fun _ => .bind (.call _) fun _ => .pure _

theorem ns_via {α : Type} (a : FactAgg) {p : Go α} (h : NoSpin p) : NoSpin (Fact.viaStorage a p) := by
  unfold Fact.viaStorage
  exact .ite h .panic

theorem ns_storyOrZero (a : FactAgg) : NoSpin (Fact.targetStoryOrZero a) :=
  .bind (.attempt (.bind (.call _) fun _ => .one fun _ => .pure _)) fun _ => .pure _

theorem ns_firstRemark (a : FactAgg) : NoSpin (Fact.getFirstRemark a) := .bind (.call _) fun _ => .one fun _ => .pure _

theorem ns_hasNextRemark (r : RemE) : NoSpin (Remark.hasNextRemark r) := .bind (.call _) fun _ => .pure _

theorem ns_getNextRemark (r : RemE) : NoSpin (Remark.getNextRemark r) :=
  .bind (.bind (.call _) fun _ => .one fun _ => .pure _) fun _ =>
  .bind (.attempt (.bind (.call _) fun _ => .bind (.call _) fun _ => .pure _)) fun _ =>
  .bind ns_provideEntity fun _ => .bind (ns_isNode _ _) fun _ => .ite (ns_deref _) (.err _)

theorem ns_hasNextFact (r : RemE) : NoSpin (Remark.hasNextFact r) :=
  .bind (ns_factByRemark _) fun _ => .bind (.call _) fun _ => .pure _

theorem ns_getNextFact (r : RemE) : NoSpin (Remark.getNextFact r) :=
  .bind (ns_factByRemark _) fun _ =>
  .bind (.bind (.bind (.call _) fun _ => .one fun _ => .pure _) fun _ =>
    .bind (ns_via _ (.bind (.call _) fun _ => .bind (.call _) fun _ => .pure _)) fun _ => .pure _) fun _ =>
  .bind (ns_firstRemark _) fun _ => ns_byFact _

theorem ns_getFirstFact (r : RemE) : NoSpin (Remark.getFirstFact r) :=
  .bind (.bind (.call _) fun _ => .one fun _ => .pure _) fun _ =>
  .bind (ns_factByRemark _) fun _ =>
  .bind (.bind (ns_storyOrZero _) fun _ => .bind (ns_story0 _) fun _ =>
    .bind (.bind (.call _) fun _ => .one fun _ => .pure _) fun _ =>
    .bind (ns_via _ (ns_factByStory _)) fun _ => .pure _) fun _ =>
  .bind (ns_firstRemark _) fun _ => ns_byFact _

theorem ns_hasNextStory (r : RemE) : NoSpin (Remark.hasNextStory r) :=
  .bind (ns_factByRemark _) fun _ =>
  .bind (ns_storyOrZero _) fun _ => .bind (ns_story0 _) fun _ => .bind (.call _) fun _ => .pure _

theorem ns_getNextStory (r : RemE) : NoSpin (Remark.getNextStory r) :=
  .bind (ns_factByRemark _) fun _ =>
  .bind (.bind (ns_storyOrZero _) fun _ => .bind (ns_story0 _) fun _ =>
    .bind (.bind (.call _) fun _ => .one fun _ => .pure _) fun _ =>
    .bind (.bind (.call _) fun _ => .bind (.call _) fun _ => .pure _) fun _ =>
    .bind (.bind (.call _) fun _ => .one fun _ => .pure _) fun _ =>
    .bind (ns_via _ (ns_factByStory _)) fun _ => .pure _) fun _ =>
  .bind (ns_firstRemark _) fun _ => ns_byFact _

end Semnet
