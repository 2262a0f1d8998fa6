import Verif.Proof.Calls
import Verif.Proof.Queries
/-
  Which errors a program can return: "phrases have too many common details" comes from one place only, and is not
  reached from a clean state.
-/
namespace Semnet
open Spec

/-- storage errors -/
def Err.Storage (e : Err) : Prop := e = .fault ∨ e = .noNode ∨ e = .dupEdge

/-- no leaf is the error `e0` -/
inductive Go.Not (e0 : Err) {α : Type} : Go α → Prop
  | ok (a : α) : Not e0 (.ok a)
  | err (e : Err) (h : e ≠ e0) : Not e0 (.err e)
  | panic : Not e0 .panic
  | spin : Not e0 .spin
  | op (o : Op) {k : Except Err o.Res → Go α} (h : ∀ r, (∀ e, r = .error e → e.Storage) → Not e0 (k r)) :
      Not e0 (.op o k)
  | getMem {k : Layer → Go α} (h : ∀ m, Not e0 (k m)) : Not e0 (.getMem k)
  | setMem (m : Assign) {k : Go α} (h : Not e0 k) : Not e0 (.setMem m k)

/-- the error of C35 -/
abbrev Go.Fine {α : Type} (p : Go α) : Prop := Go.Not .tooManyCommonDetails p

theorem step_storage {cfg : Cfg} {s : Store} {o : Op} {e : Err} (h : (s.step cfg o).1 = .error e) : e.Storage := by
  unfold Err.Storage
  revert h
  cases o <;> simp only [Store.step] <;> (repeat' split) <;> intro h <;> cases h <;> simp

namespace Go.Not
variable {α β : Type} {e0 : Err}

theorem pure (a : α) : Not e0 (Pure.pure a : Go α) := .ok a

theorem bind {p : Go α} {f : α → Go β} (h : Not e0 p) (hf : ∀ a, Not e0 (f a)) : Not e0 (p >>= f) := by
  induction h with
  | ok a => exact hf a
  | err e h => exact .err e h
  | panic => exact .panic
  | spin => exact .spin
  | op o _ ih => exact .op o ih
  | getMem _ ih => exact .getMem ih
  | setMem m _ ih => exact .setMem m ih

theorem attempt {p : Go α} (h : Not e0 p) : Not e0 p.attempt := by
  induction h with
  | ok a => exact .ok _
  | err e _ => exact .ok _
  | panic => exact .panic
  | spin => exact .spin
  | op o _ ih => exact .op o ih
  | getMem _ ih => exact .getMem ih
  | setMem m _ ih => exact .setMem m ih

/-- a known post-condition and the absence of the error together -/
theorem wp {C : Ctx} {p : Go α} (h : Not e0 p) {Q : Out α → St → Prop} :
    ∀ {σ : St}, Semnet.wp C Q p σ → (e0.Storage → False) → Semnet.wp C (fun o σ' => Q o σ' ∧ o ≠ .err e0) p σ := by
  induction h with
  | ok a => exact fun h _ => ⟨h, by simp⟩
  | err e h => exact fun h' _ => ⟨h', by simpa using h⟩
  | panic => exact fun h _ => ⟨h, by simp⟩
  | spin => exact fun h _ => ⟨h, by simp⟩
  | op o _ ih =>
    intro σ h hs σ1 he c hc
    have ft : ∀ e, (Except.error Err.fault : Except Err o.Res) = .error e → e.Storage := by
      intro e h; cases h; exact .inl rfl
    obtain ⟨⟨t, b, hst, h1⟩, h2, h3⟩ := h σ1 he c hc
    refine ⟨⟨t, b, hst, ih _ (fun e h => step_storage h) h1 hs⟩, fun hF => ⟨(h2 hF).1, ih _ ft (h2 hF).2 hs⟩, fun hF => ?_⟩
    obtain ⟨t, b, hst, h4⟩ := h3 hF
    exact ⟨t, b, hst, ih _ ft h4 hs⟩
  | getMem _ ih => intro σ h hs; exact ih _ h hs
  | setMem m _ ih => intro σ h hs; exact ⟨h.1, ih h.2 hs⟩

/-- without failures and interference -/
theorem free {C : Ctx} (hF : C.F = false) (hR : C.R = false) (p : Go α) :
    ∀ σ, Semnet.wp C (fun _ _ => True) p σ := by
  have st : ∀ {σ σ' : St}, Step C σ σ' := ⟨fun h => by (rw [hF, hR] at h; cases h), fun h => by (rw [hR] at h; cases h)⟩
  induction p with
  | op o k ih =>
    intro σ σ1 _ _ _
    exact ⟨⟨σ1.tag, σ1.bits, st, ih _ _⟩, fun h => by (rw [hF] at h; cases h), fun h => by (rw [hF] at h; cases h)⟩
  | getMem k ih => intro σ; exact ih _ _
  | setMem m k ih => intro σ; exact ⟨st, ih _⟩
  | _ => exact fun _ => trivial

end Go.Not
open Go (Fine)

/-! ### the programs -/

syntax "fine1" : tactic
/-- structural steps; extended by `fine1` for each function already dealt with -/
macro "fine" : tactic => `(tactic| repeat' (first
  | with_reducible exact Go.Not.pure _
  | with_reducible exact Go.Not.ok _
  | with_reducible exact Go.Not.panic
  | with_reducible exact Go.Not.spin
  | with_reducible exact Go.Not.err _ (by decide)
  | assumption
  | fine1
  | with_reducible refine Go.Not.bind ?_ fun _ => ?_
  | with_reducible refine Go.Not.attempt ?_
  | split
  | dsimp only))

theorem fine_call (o : Op) : Fine (Go.call o) := .op o fun r hr => match r, hr with
  | .ok a, _ => .ok a
  | .error e, hr => .err e (by rcases hr e rfl with h | h | h <;> rw [h] <;> decide)
theorem fine_has (x) : Fine (Go.has x) := fine_call _
theorem fine_create : Fine Go.create := fine_call _
theorem fine_readSources (x) : Fine (Go.readSources x) := fine_call _
theorem fine_readTargets (x) : Fine (Go.readTargets x) := fine_call _
theorem fine_setReference (x y) : Fine (Go.setReference x y) := fine_call _
theorem fine_getReference (x) : Fine (Go.getReference x) := fine_call _
theorem fine_connect (x y) : Fine (Go.connect x y) := fine_call _
theorem fine_readMem : Fine Go.readMem := .getMem fun m => .ok m
theorem fine_assign (m) : Fine (Go.assign m) := .setMem m (.ok ())
theorem fine_deref {α : Type} (o : Option α) : Fine (Character.deref o) := by
  cases o with
  | none => exact .panic
  | some a => exact .ok a
macro_rules | `(tactic| fine1) => `(tactic| with_reducible first
  | exact fine_has _ | exact fine_create | exact fine_readSources _ | exact fine_readTargets _
  | exact fine_setReference _ _ | exact fine_getReference _ | exact fine_connect _ _ | exact fine_readMem
  | exact fine_assign _ | exact fine_deref _)

theorem fine_root (n) : Fine (Class.createRoot n) := by unfold Class.createRoot; fine
macro_rules | `(tactic| fine1) => `(tactic| with_reducible exact fine_root _)
theorem fine_provideEntity : Fine Class.provideEntity := by unfold Class.provideEntity; fine
macro_rules | `(tactic| fine1) => `(tactic| with_reducible exact fine_provideEntity)
theorem fine_createNode (n) : Fine (Class.createNode n) := by unfold Class.createNode; fine
macro_rules | `(tactic| fine1) => `(tactic| with_reducible exact fine_createNode _)
theorem fine_isNode (n i) : Fine (Class.isNode n i) := by unfold Class.isNode; fine
macro_rules | `(tactic| fine1) => `(tactic| with_reducible exact fine_isNode _ _)
theorem fine_fill : Fine Bit.fill := by unfold Bit.fill Class.getAllBits; fine
macro_rules | `(tactic| fine1) => `(tactic| with_reducible exact fine_fill)
theorem fine_ensure : Fine Bit.ensure := by unfold Bit.ensure; fine
macro_rules | `(tactic| fine1) => `(tactic| with_reducible exact fine_ensure)
theorem fine_init : Fine Bit.init := by unfold Bit.init; fine
macro_rules | `(tactic| fine1) => `(tactic| with_reducible exact fine_init)

theorem fine_bitFetch (i) : Fine (Bit.fetch i) := by unfold Bit.fetch; fine
macro_rules | `(tactic| fine1) => `(tactic| with_reducible exact fine_bitFetch _)
theorem fine_charHead (b) : Fine (Character.provideHeadEntity b) := by
  unfold Character.provideHeadEntity Bit.hasTargetCharacter Bit.getTargetCharacter Character.readEntityByBit
    Character.createEntity Bit.pointToCharacter Bit.use
  fine
macro_rules | `(tactic| fine1) => `(tactic| with_reducible exact fine_charHead _)
theorem fine_charFirst (b) : Fine (Character.provideFirstElement b) := by
  unfold Character.provideFirstElement Bit.provide; fine
theorem fine_charByCharacter (i) : Fine (Character.readEntityByCharacter i) := by
  unfold Character.readEntityByCharacter; fine
macro_rules | `(tactic| fine1) => `(tactic| with_reducible first | exact fine_charFirst _ | exact fine_charByCharacter _)
theorem fine_charReadAll : ∀ l, Fine (Character.readAll l)
  | [] => .pure _
  | _ :: l => .bind (fine_charByCharacter _) fun _ => .bind (fine_charReadAll l) fun _ => .pure _
theorem fine_charBit (e) : Fine (Character.getTargetBit e) := by unfold Character.getTargetBit; fine
macro_rules | `(tactic| fine1) => `(tactic| with_reducible first | exact fine_charReadAll _ | exact fine_charBit _)
theorem fine_charSearch (b) : ∀ l, Fine (Character.search b l)
  | [] => .pure _
  | _ :: l => by have := fine_charSearch b l; unfold Character.search; fine
macro_rules | `(tactic| fine1) => `(tactic| with_reducible exact fine_charSearch _ _)
theorem fine_charNext (e b) : Fine (Character.provideNextElement e b) := by
  unfold Character.provideNextElement Bit.provide Character.createTailEntity Character.createEntity; fine
macro_rules | `(tactic| fine1) => `(tactic| with_reducible exact fine_charNext _ _)
theorem fine_charWalk : ∀ l e, Fine (Character.walk e l)
  | [], _ => .pure _
  | _ :: l, _ => .bind (fine_deref _) fun _ => .bind (.attempt (fine_charNext _ _)) fun _ => fine_charWalk l _
macro_rules | `(tactic| fine1) => `(tactic| with_reducible exact fine_charWalk _ _)
theorem collect_err {l : List Char} {e} (h : Character.collectBits l = .error e) : e = .invalidBitName := by
  induction l with
  | nil => cases h
  | cons c cs ih =>
    unfold Character.collectBits at h
    split at h
    · cases h; rfl
    · split at h
      · cases h
      · rename_i h'; cases h; exact ih h'
theorem fine_charProvide (r) : Fine (Character.provide r) := by
  unfold Character.provide
  cases hc : Character.collect r with
  | error e =>
    refine .err e ?_
    unfold Character.collect at hc
    simp only at hc
    split at hc
    · cases hc; decide
    · rw [collect_err hc]; decide
  | ok l => simp only; fine
macro_rules | `(tactic| fine1) => `(tactic| with_reducible exact fine_charProvide _)
theorem fine_charBitValue (e) : Fine (Character.extractBitValue e) := by unfold Character.extractBitValue; fine
theorem fine_charPrev (e) : Fine (Character.getPreviousElement e) := by
  unfold Character.getPreviousElement Character.getSourceCharacter; fine
theorem fine_charHasPrev (e) : Fine (Character.hasPreviousElement e) := by
  unfold Character.hasPreviousElement Character.hasSourceCharacter; fine
macro_rules | `(tactic| fine1) => `(tactic| with_reducible first
  | exact fine_charBitValue _ | exact fine_charPrev _ | exact fine_charHasPrev _)
theorem fine_charLoop : ∀ n e l, Fine (Character.extractLoop n e l)
  | 0, _, _ => .spin
  | n + 1, _, _ => by have := fine_charLoop n; unfold Character.extractLoop; fine; exact this _ _
macro_rules | `(tactic| fine1) => `(tactic| with_reducible exact fine_charLoop _ _ _)
theorem fine_charExtract (n a) : Fine (Character.extract n a) := by unfold Character.extract; fine
macro_rules | `(tactic| fine1) => `(tactic| with_reducible exact fine_charExtract _ _)

theorem fine_wordByWord (i) : Fine (Word.readEntityByWord i) := by unfold Word.readEntityByWord; fine
macro_rules | `(tactic| fine1) => `(tactic| with_reducible exact fine_wordByWord _)
theorem fine_wordReadAll : ∀ l, Fine (Word.readAll l)
  | [] => .pure _
  | _ :: l => .bind (fine_wordByWord _) fun _ => .bind (fine_wordReadAll l) fun _ => .pure _
theorem fine_wordValue (n e) : Fine (Word.extractCharacterValue n e) := by
  unfold Word.extractCharacterValue Word.getTargetCharacter Character.fetch Character.readEntityByWord; fine
macro_rules | `(tactic| fine1) => `(tactic| with_reducible first | exact fine_wordReadAll _ | exact fine_wordValue _ _)
theorem fine_wordSearch (n v) : ∀ l, Fine (Word.search n v l)
  | [] => .pure _
  | _ :: l => by have := fine_wordSearch n v l; unfold Word.search; fine
macro_rules | `(tactic| fine1) => `(tactic| with_reducible exact fine_wordSearch _ _ _)
theorem fine_wordNext (n e v) : Fine (Word.provideNextElement n e v) := by
  unfold Word.provideNextElement Word.createTailEntity Word.createEntity; fine
theorem fine_wordFirst (v) : Fine (Word.provideFirstElement v) := by
  unfold Word.provideFirstElement Word.provideHeadEntity Character.hasTargetWord Character.getTargetWord
    Word.readEntityByCharacter Word.createEntity
  fine
macro_rules | `(tactic| fine1) => `(tactic| with_reducible first | exact fine_wordNext _ _ _ | exact fine_wordFirst _)
theorem fine_wordWalk (n) : ∀ l e, Fine (Word.walk n e l)
  | [], _ => .pure _
  | _ :: l, _ => .bind (fine_deref _) fun _ => .bind (.attempt (fine_wordNext _ _ _)) fun _ => fine_wordWalk n l _
macro_rules | `(tactic| fine1) => `(tactic| with_reducible exact fine_wordWalk _ _ _)
theorem fine_wordProvide (n s) : Fine (Word.provide n s) := by unfold Word.provide; fine
theorem fine_wordHasPrev (e) : Fine (Word.hasSourceWord e) := by unfold Word.hasSourceWord; fine
theorem fine_wordPrev (e) : Fine (Word.getPreviousElement e) := by
  unfold Word.getPreviousElement Word.getSourceWord; fine
macro_rules | `(tactic| fine1) => `(tactic| with_reducible first
  | exact fine_wordProvide _ _ | exact fine_wordHasPrev _ | exact fine_wordPrev _)
theorem fine_wordLoop (f) : ∀ n e l, Fine (Word.extractLoop f n e l)
  | 0, _, _ => .spin
  | n + 1, _, _ => by have := fine_wordLoop f n; unfold Word.extractLoop; fine; exact this _ _
macro_rules | `(tactic| fine1) => `(tactic| with_reducible exact fine_wordLoop _ _ _ _)
theorem fine_wordExtract (n a) : Fine (Word.extract n a) := by unfold Word.extract; fine
macro_rules | `(tactic| fine1) => `(tactic| with_reducible exact fine_wordExtract _ _)

theorem fine_phraseByPhrase (i) : Fine (Phrase.readEntityByPhrase i) := by unfold Phrase.readEntityByPhrase; fine
macro_rules | `(tactic| fine1) => `(tactic| with_reducible exact fine_phraseByPhrase _)
theorem fine_phraseReadAll : ∀ l, Fine (Phrase.readAll l)
  | [] => .pure _
  | _ :: l => .bind (fine_phraseByPhrase _) fun _ => .bind (fine_phraseReadAll l) fun _ => .pure _
theorem fine_phraseValue (n e) : Fine (Phrase.extractWordValue n e) := by
  unfold Phrase.extractWordValue Phrase.getTargetWord Word.fetch Word.readEntityByPhrase; fine
macro_rules | `(tactic| fine1) => `(tactic| with_reducible first | exact fine_phraseReadAll _ | exact fine_phraseValue _ _)
theorem fine_phraseSearch (n v) : ∀ l, Fine (Phrase.search n v l)
  | [] => .pure _
  | _ :: l => by have := fine_phraseSearch n v l; unfold Phrase.search; fine
macro_rules | `(tactic| fine1) => `(tactic| with_reducible exact fine_phraseSearch _ _ _)
theorem fine_phraseNext (n e v) : Fine (Phrase.provideNextElement n e v) := by
  unfold Phrase.provideNextElement Phrase.createTailEntity Phrase.createEntity; fine
theorem fine_phraseFirst (n v) : Fine (Phrase.provideFirstElement n v) := by
  unfold Phrase.provideFirstElement Phrase.provideHeadEntity Word.hasTargetPhrase Word.getTargetPhrase
    Phrase.readEntityByWord Phrase.createEntity
  fine
macro_rules | `(tactic| fine1) => `(tactic| with_reducible first | exact fine_phraseNext _ _ _ | exact fine_phraseFirst _ _)
theorem fine_phraseWalk (n) : ∀ l e, Fine (Phrase.walk n e l)
  | [], _ => .pure _
  | _ :: l, _ => .bind (fine_deref _) fun _ => .bind (.attempt (fine_phraseNext _ _ _)) fun _ => fine_phraseWalk n l _
macro_rules | `(tactic| fine1) => `(tactic| with_reducible exact fine_phraseWalk _ _ _)
theorem fine_phraseProvide (n s) : Fine (Phrase.provide n s) := by unfold Phrase.provide; fine
theorem fine_phraseHasPrev (e) : Fine (Phrase.hasSourcePhrase e) := by unfold Phrase.hasSourcePhrase; fine
theorem fine_phrasePrev (e) : Fine (Phrase.getPreviousElement e) := by
  unfold Phrase.getPreviousElement Phrase.getSourcePhrase; fine
macro_rules | `(tactic| fine1) => `(tactic| with_reducible first
  | exact fine_phraseProvide _ _ | exact fine_phraseHasPrev _ | exact fine_phrasePrev _)
theorem fine_phraseLoop (f) : ∀ n e l, Fine (Phrase.extractLoop f n e l)
  | 0, _, _ => .spin
  | n + 1, _, _ => by have := fine_phraseLoop f n; unfold Phrase.extractLoop; fine; exact this _ _
macro_rules | `(tactic| fine1) => `(tactic| with_reducible exact fine_phraseLoop _ _ _ _)
theorem fine_phraseExtract (n a) : Fine (Phrase.extract n a) := by unfold Phrase.extract; fine
macro_rules | `(tactic| fine1) => `(tactic| with_reducible exact fine_phraseExtract _ _)

theorem fine_detailText (n e) : Fine (Detail.getObjectAndProperty n e) := by
  unfold Detail.getObjectAndProperty Detail.getObjectAndPropertyPhrases Phrase.fetch Phrase.readEntityByDetail; fine
macro_rules | `(tactic| fine1) => `(tactic| with_reducible exact fine_detailText _ _)
theorem fine_text (n r) : Fine (Remark.getObjectAndProperty n r) := by
  unfold Remark.getObjectAndProperty Remark.getSourceDetail Detail.fetch Detail.readEntityByRemark; fine
macro_rules | `(tactic| fine1) => `(tactic| with_reducible exact fine_text _ _)

theorem fine_factByRemark (i) : Fine (Fact.fetchByRemark i) := by
  unfold Fact.fetchByRemark Fact.readEntityByRemark; fine
theorem fine_byFact (i) : Fine (Remark.readEntityByFact i) := by unfold Remark.readEntityByFact; fine
theorem fine_factByStory (i) : Fine (Fact.readEntityByStory i) := by unfold Fact.readEntityByStory; fine
theorem fine_storyByFact (i) : Fine (Story.fetchByFact i) := by unfold Story.fetchByFact; fine
theorem fine_storyByPosition (i) : Fine (Story.fetchByPosition i) := by unfold Story.fetchByPosition; fine
theorem fine_storyByTree (i) : Fine (Story.fetchByTree i) := by unfold Story.fetchByTree; fine
theorem fine_storyOrZero (a) : Fine (Fact.targetStoryOrZero a) := by
  unfold Fact.targetStoryOrZero Fact.getTargetStory; fine
theorem fine_firstRemark (a) : Fine (Fact.getFirstRemark a) := by unfold Fact.getFirstRemark; fine
theorem fine_targetFact (a) : Fine (Remark.getTargetFact a) := by unfold Remark.getTargetFact; fine
theorem fine_hasNextRemark (a) : Fine (Remark.hasNextRemark a) := by unfold Remark.hasNextRemark; fine
theorem fine_getNextRemark (a) : Fine (Remark.getNextRemark a) := by
  unfold Remark.getNextRemark Remark.getNextRemarkId Remark.readEntityByPosition; fine
macro_rules | `(tactic| fine1) => `(tactic| with_reducible first
  | exact fine_factByRemark _ | exact fine_byFact _ | exact fine_factByStory _ | exact fine_storyByFact _
  | exact fine_storyByPosition _ | exact fine_storyByTree _ | exact fine_storyOrZero _ | exact fine_firstRemark _
  | exact fine_targetFact _ | exact fine_hasNextRemark _ | exact fine_getNextRemark _)
theorem fine_hasNextFact (a) : Fine (Remark.hasNextFact a) := by unfold Remark.hasNextFact Fact.hasNextFact; fine
theorem fine_getNextFact (a) : Fine (Remark.getNextFact a) := by
  unfold Remark.getNextFact Fact.toNextFact Fact.getTargetFact Fact.viaStorage Fact.readEntityByPosition; fine
theorem fine_getFirstFact (a) : Fine (Remark.getFirstFact a) := by
  unfold Remark.getFirstFact Fact.toFirstFact Story.getTargetFact Fact.viaStorage; fine
theorem fine_hasNextStory (a) : Fine (Remark.hasNextStory a) := by
  unfold Remark.hasNextStory Fact.hasNextStory Story.hasTargetPosition; fine
theorem fine_getNextStory (a) : Fine (Remark.getNextStory a) := by
  unfold Remark.getNextStory Fact.toNextStory Story.getTargetPosition Story.getTargetFact Fact.viaStorage; fine
theorem fine_getRemark (i) : Fine (Graph.getRemark i) := by
  unfold Graph.getRemark Remark.readEntityByClass; fine
macro_rules | `(tactic| fine1) => `(tactic| with_reducible first
  | exact fine_hasNextFact _ | exact fine_getNextFact _ | exact fine_getFirstFact _ | exact fine_hasNextStory _
  | exact fine_getNextStory _ | exact fine_getRemark _)
theorem fine_output (f) : ∀ n r b, Fine (Output.loop f n r b)
  | 0, _, _ => .spin
  | n + 1, _, _ => by have := fine_output f n; unfold Output.loop; fine; exact this _ _
macro_rules | `(tactic| fine1) => `(tactic| with_reducible exact fine_output _ _ _ _)
theorem fine_ask (n r) (q : Query) : Fine (q.ask n r) := by
  cases q <;> simp only [Query.ask, Output.getStory] <;> fine

theorem fine_firstStoryFact : Fine Fact.createFirstStoryFact := by
  unfold Fact.createFirstStoryFact Fact.createEntity Story.createStory Story.createEntity; fine
theorem fine_nextFact (i) : Fine (Fact.createNextFact i) := by
  unfold Fact.createNextFact Fact.createEntity Fact.readEntityByRemark; fine
theorem fine_sibling : ∀ n s, Fine (Fact.lastSibling n s)
  | 0, _ => .spin
  | n + 1, _ => by have := fine_sibling n; unfold Fact.lastSibling Story.hasTargetPosition Story.getTargetPosition; fine; exact this _
macro_rules | `(tactic| fine1) => `(tactic| with_reducible exact fine_sibling _ _)
theorem fine_childFact (n i) : Fine (Fact.createChildStoryFact n i) := by
  unfold Fact.createChildStoryFact Fact.readEntityByRemark Story.hasTargetTree Story.createStory Story.createEntity
    Fact.createEntity
  fine
macro_rules | `(tactic| fine1) => `(tactic| with_reducible first
  | exact fine_firstStoryFact | exact fine_nextFact _ | exact fine_childFact _ _)

/-! ### the creating calls -/

/-- the run does not end with the error of C35 -/
def NotE {α : Type} (o : Out α) (_ : St) : Prop := o ≠ .err .tooManyCommonDetails

theorem not_storage : Err.Storage .tooManyCommonDetails → False := by
  rintro (h | h | h) <;> cases h

theorem fine_calm {α : Type} {C : Ctx} (hF : C.F = false) (hR : C.R = false) {p : Go α} (h : Fine p) (σ : St) :
    wp C NotE p σ := wp_mono (fun _ _ h => h.2) (h.wp (Go.Not.free hF hR p σ) not_storage)

theorem fine_bind {α β : Type} {C : Ctx} (hF : C.F = false) {good : α → St → Prop} {bad}
    {p : Go α} {f : α → Go β} {σ : St} (h : WrL C good bad p σ) (hn : Fine p)
    (hf : ∀ a σ', ExtC C σ σ' → σ'.flt = σ.flt → good a σ' → wp C NotE (f a) σ') : wp C NotE (p >>= f) σ := by
  refine wp_bind (wp_mono ?_ (wp_calm hF (hn.wp h not_storage)))
  intro o σ' ⟨⟨⟨h1, h2⟩, h3⟩, h4⟩
  cases o with
  | ok a => exact hf a σ' h1 h4 h2
  | err e => exact fun h => h3 (by cases h; rfl)
  | panic => exact fun h => by cases h
  | spin => exact h2.elim

section
variable {C : Ctx} (hF : C.F = false) (hR : C.R = false) {σ : St} (hi : Inv C.cfg C.lim σ) (hc : Clean σ) (hfl : σ.flt = false)
include hF hR hi hc hfl

/-- the only place with this error -/
theorem fine_detailEntity {o p : PhraseE} {wo wp'} (ho : PhraseEnt σ wo o) (hp : PhraseEnt σ wp' p) :
    wp C NotE (Detail.provideEntity o p) σ := by
  refine wp_mono ?_ (wp_calm hF (Wr.detailProvideEntity hR hi (fun _ => hc) ho hp))
  intro o σ' ⟨⟨_, h2⟩, h3⟩
  cases o with
  | err e =>
    rcases h2 with h2 | h2
    · rw [h3, hfl] at h2; cases h2
    · exact absurd hc h2.2.1
  | ok a => exact fun h => by cases h
  | panic => exact fun h => by cases h
  | spin => exact h2.elim

theorem fine_detailProvide (hU : C.up = true) (hL : C.lo = true) {fuel : Nat} (hf : C.lim.L ≤ fuel) (hD : C.lim.D ≤ fuel) {o p : GoStr}
    (hso : TextOK C.lim o) (hsp : TextOK C.lim p) : wp C NotE (Detail.provide fuel o p) σ := by
  have noF : ∀ {P : Prop}, C.F = true → P := fun h => by rw [hF] at h; cases h
  unfold Detail.provide
  refine fine_bind hF (WrL.lower hU (Wr.phraseProvide (C := C.lower) hR hL hi (fun h => noF h) hf hD hso))
    (fine_phraseProvide _ _) ?_
  intro po σ1 h1 f1 ⟨⟨⟨hpo, _⟩, _⟩, _⟩
  refine fine_bind hF (WrL.lower hU (Wr.phraseProvide (C := C.lower) hR hL h1.inv (fun h => noF h) hf hD hsp))
    (fine_phraseProvide _ _) ?_
  intro pp σ2 h2 f2 ⟨⟨⟨hpp, _⟩, _⟩, _⟩
  refine fine_bind hF (bad := never) ((Rd.provideEntity h2.inv).wr hR).loose fine_provideEntity ?_
  intro _ σ3 h3 f3 _
  have hfl3 : σ3.flt = false := by rw [f3, f2, f1, hfl]
  exact fine_detailEntity hF hR h3.inv (((h1.trans h2).trans h3).clean hc hfl3) hfl3
    (hpo.mono (h2.mono.trans h3.mono)) (hpp.mono h3.mono)

theorem fine_half (hU : C.up = true) (hL : C.lo = true) {fuel : Nat} (hf : C.lim.L ≤ fuel) (hD : C.lim.D ≤ fuel) {o p : GoStr} {src : Go GoStr}
    (hsrc : ∀ σ', Ext C σ σ' → Rd C (· = o) src σ') (hsf : Fine src)
    (hso : TextOK C.lim o) (hsp : TextOK C.lim p) {f : RemE → Go RemE} (hff : ∀ r, Fine (f r)) :
    wp C NotE (half fuel src p >>= f) σ := by
  unfold half
  simp only [bind_assoc]
  refine fine_bind hF (bad := never) ((Rd.provideEntity hi).wr hR).loose fine_provideEntity ?_
  intro _ σ1 h1 f1 _
  rw [remark_newEnt]
  refine fine_bind hF (bad := never) (Wr.newEnt hR h1.inv (by decide) remarkTags .remark).loose ?_ ?_
  · unfold newEnt mk4; fine
  intro q σ2 h2 f2 _
  have e2 := h1.trans h2
  refine fine_bind hF (bad := never) ((hsrc σ2 e2.toExt).wr hR).loose hsf ?_
  intro obj σ3 h3 f3 ⟨_, ho⟩
  subst ho
  have hfl3 : σ3.flt = false := by rw [f3, f2, f1, hfl]
  refine wp_bind (wp_mono ?_ (fine_detailProvide hF hR h3.inv ((e2.trans h3).clean hc hfl3) hfl3 hU hL hf hD hso hsp))
  intro o σ' h
  cases o with
  | ok a => exact fine_calm hF hR (.bind (fine_connect _ _) fun _ => hff _) _
  | err e => exact fun h' => h (by cases h'; rfl)
  | panic => exact fun h => by cases h
  | spin => exact fun h => by cases h

end

/-- the run of a creating call -/
theorem exec_notE {cfg : Cfg} {lim : Lim} {α : Type} {p : Go α} {σ : St} {w : World}
    (hw : σ.Is w) (h : wp (calmCtx cfg lim) NotE p σ) : (p.exec cfg w).1 ≠ .err .tooManyCommonDetails := by
  obtain ⟨σ', _, h2, _⟩ := wp_run (C := calmCtx cfg lim) rfl (.inr rfl) hw h
  exact h2

theorem fine_run {α : Type} {cfg : Cfg} {p : Go α} (h : Fine p) (f : Nat → Fate) (w : World) :
    (p.run cfg f w).1 ≠ .err .tooManyCommonDetails := by
  induction h generalizing f w with
  | ok a => exact fun h => by cases h
  | err e h => exact fun h' => h (by injection h')
  | panic => exact fun h => by cases h
  | spin => exact fun h => by cases h
  | op o _ ih =>
    have ft : ∀ e, (Except.error Err.fault : Except Err o.Res) = .error e → e.Storage := by
      intro e h; cases h; exact .inl rfl
    unfold Go.run
    cases h0 : f 0 with
    | ok => simp only; exact ih _ (fun e h => step_storage h) _ _
    | fail => simp only; exact ih _ ft _ _
    | failLate => simp only; exact ih _ ft _ _
  | getMem _ ih => exact ih _ _ _
  | setMem m _ ih => exact ih _ _

theorem exec_some_notE {cfg : Cfg} {p : Go RemE} {w : World} (h : (p.exec cfg w).1 ≠ .err .tooManyCommonDetails) :
    ((do let r ← p; pure (some r) : Go (Option RemE)).exec cfg w).1 ≠ .err .tooManyCommonDetails := by
  rw [exec_bind]
  generalize p.exec cfg w = res at h
  obtain ⟨o, w'⟩ := res
  cases o with
  | ok a => exact fun h => by cases h
  | err e => exact fun h' => h (by cases h'; rfl)
  | panic => exact fun h => by cases h
  | spin => exact fun h => by cases h

theorem Sound.notE {cfg : Cfg} {lim : Lim} {fuel : Nat} (hd : Policy cfg lim) (hf : Fits lim fuel)
    {st : State} (h : Sound cfg lim st) {c : Call} (ht : ∀ t ∈ c.texts, TextOK lim t) :
    ((c.prog fuel st.log).exec cfg st.world).1 ≠ .err .tooManyCommonDetails := by
  have ret : ∀ {σ}, ∀ o : GoStr, ∀ σ', Ext (calmCtx cfg lim) σ σ' → Rd (calmCtx cfg lim) (· = o) (pure o) σ' :=
    fun o σ' h => Rd.ret h.inv rfl
  cases c with
  | createStory o p =>
    obtain ⟨σ, st', hs, hc, hl, _, he⟩ := h.forCreate hd
    refine exec_some_notE ?_
    rw [he, createStory_eq]
    refine exec_notE hs.is (fine_half rfl rfl hs.inv hc hs.flt rfl rfl hf.L hf.D (ret o) (.pure _) (ht o (by simp [Call.texts]))
      (ht p (by simp [Call.texts])) fun r => ?_)
    fine
  | addFact i o p =>
    simp only [Call.prog]
    cases hl : st.log[i]? with
    | none => exact fun h => by cases h
    | some e =>
      obtain ⟨σ, hs, hc⟩ := h.holds (ne_nil_of_mem (List.mem_of_getElem? hl))
      refine exec_some_notE ?_
      rw [addFactToStory_eq]
      refine exec_notE hs.is (fine_half rfl rfl hs.inv hc hs.flt rfl rfl hf.L hf.D (ret o) (.pure _) (ht o (by simp [Call.texts]))
        (ht p (by simp [Call.texts])) fun r => ?_)
      fine
  | addChild i o p =>
    simp only [Call.prog]
    cases hl : st.log[i]? with
    | none => exact fun h => by cases h
    | some e =>
      obtain ⟨σ, hs, hc⟩ := h.holds (ne_nil_of_mem (List.mem_of_getElem? hl))
      refine exec_some_notE ?_
      rw [createChildStory_eq]
      refine exec_notE hs.is (fine_half rfl rfl hs.inv hc hs.flt rfl rfl hf.L hf.D (ret o) (.pure _) (ht o (by simp [Call.texts]))
        (ht p (by simp [Call.texts])) fun r => ?_)
      fine
  | addRemark i p =>
    simp only [Call.prog]
    cases hl : st.log[i]? with
    | none => exact fun h => by cases h
    | some e =>
      have he := List.mem_of_getElem? hl
      obtain ⟨σ, hs, hc⟩ := h.holds (ne_nil_of_mem he)
      have ok := hs.keeps.ok e he
      have htx : textOf (wordsOf e.object) = e.object := by rw [textOf_wordsOf, ok.obj]
      refine exec_some_notE ?_
      rw [addRemarkToFact_eq]
      refine exec_notE hs.is (fine_half rfl rfl hs.inv hc hs.flt rfl rfl hf.L hf.D (o := e.object) (fun σ' h => ?_) ?_ ok.text
        (ht p (by simp [Call.texts])) fun r => ?_)
      · refine Rd.bind (Rd.remarkText h.inv (ok.ent.mono h.mono) (ok.says.mono h.mono ok.ent) hf.L hf.D) ?_
        intro x σ1 h1 _ hx; subst hx
        exact Rd.ret h1.inv htx
      · fine
      · fine
  | query i q =>
    simp only [Call.prog]
    cases hl : st.log[i]? with
    | none => exact fun h => by cases h
    | some e => exact fine_run (.bind (fine_ask _ _ _) fun _ => .pure _) _ _
  | getRemark i => exact fine_run (.bind (fine_getRemark _) fun _ => .pure _) _ _

end Semnet
