import Verif.Proof.Reopen
import Verif.Proof.Concurrent
/-
  Every API function uses the process's memory through the bit layer's initialisation only; so two processes on the same
  initialised storage behave alike.
-/
namespace Semnet
open Spec

/-- the memory is used by `Bit.init` only -/
inductive Uses : {α : Type} → Go α → Prop
  | pure {α : Type} (a : α) : Uses (Pure.pure a : Go α)
  | err {α : Type} (e : Err) : Uses (Go.err e : Go α)
  | panic {α : Type} : Uses (Go.panic : Go α)
  | spin {α : Type} : Uses (Go.spin : Go α)
  | call (o : Op) : Uses (Go.call o)
  | init : Uses Bit.init
  | bind {α β : Type} {p : Go α} {f : α → Go β} (h : Uses p) (hf : ∀ a, Uses (f a)) : Uses (p >>= f)
  | attempt {α : Type} {p : Go α} (h : Uses p) : Uses p.attempt

/-! ### the programs -/

syntax "uses1" : tactic
/-- structural steps; extended by `uses1` for each function already dealt with -/
macro "uses" : tactic => `(tactic| repeat' (first
  | with_reducible exact Uses.pure _
  | with_reducible exact Uses.panic
  | with_reducible exact Uses.spin
  | with_reducible exact Uses.err _
  | assumption
  | uses1
  | with_reducible refine Uses.bind ?_ fun _ => ?_
  | with_reducible refine Uses.attempt ?_
  | split
  | dsimp only))

theorem uses_has (x) : Uses (Go.has x) := .call _
theorem uses_create : Uses Go.create := .call _
theorem uses_readSources (x) : Uses (Go.readSources x) := .call _
theorem uses_readTargets (x) : Uses (Go.readTargets x) := .call _
theorem uses_setReference (x y) : Uses (Go.setReference x y) := .call _
theorem uses_getReference (x) : Uses (Go.getReference x) := .call _
theorem uses_connect (x y) : Uses (Go.connect x y) := .call _
theorem uses_deref {α : Type} (o : Option α) : Uses (Character.deref o) := by
  cases o with
  | none => exact .panic
  | some a => exact .pure a
macro_rules | `(tactic| uses1) => `(tactic| with_reducible first
  | exact uses_has _ | exact uses_create | exact uses_readSources _ | exact uses_readTargets _
  | exact uses_setReference _ _ | exact uses_getReference _ | exact uses_connect _ _ | exact uses_deref _)

theorem uses_root (n) : Uses (Class.createRoot n) := by unfold Class.createRoot; uses
macro_rules | `(tactic| uses1) => `(tactic| with_reducible exact uses_root _)
theorem uses_provideEntity : Uses Class.provideEntity := by unfold Class.provideEntity; uses
macro_rules | `(tactic| uses1) => `(tactic| with_reducible exact uses_provideEntity)
theorem uses_createNode (n) : Uses (Class.createNode n) := by unfold Class.createNode; uses
macro_rules | `(tactic| uses1) => `(tactic| with_reducible exact uses_createNode _)
theorem uses_isNode (n i) : Uses (Class.isNode n i) := by unfold Class.isNode; uses
macro_rules | `(tactic| uses1) => `(tactic| with_reducible exact uses_isNode _ _)
theorem uses_init : Uses Bit.init := .init
macro_rules | `(tactic| uses1) => `(tactic| with_reducible exact uses_init)

theorem uses_bitFetch (i) : Uses (Bit.fetch i) := by unfold Bit.fetch; uses
macro_rules | `(tactic| uses1) => `(tactic| with_reducible exact uses_bitFetch _)
theorem uses_charHead (b) : Uses (Character.provideHeadEntity b) := by
  unfold Character.provideHeadEntity Bit.hasTargetCharacter Bit.getTargetCharacter Character.readEntityByBit
    Character.createEntity Bit.pointToCharacter Bit.use
  uses
macro_rules | `(tactic| uses1) => `(tactic| with_reducible exact uses_charHead _)
theorem uses_charFirst (b) : Uses (Character.provideFirstElement b) := by
  unfold Character.provideFirstElement Bit.provide; uses
theorem uses_charByCharacter (i) : Uses (Character.readEntityByCharacter i) := by
  unfold Character.readEntityByCharacter; uses
macro_rules | `(tactic| uses1) => `(tactic| with_reducible first | exact uses_charFirst _ | exact uses_charByCharacter _)
theorem uses_charReadAll : ∀ l, Uses (Character.readAll l)
  | [] => .pure _
  | _ :: l => .bind (uses_charByCharacter _) fun _ => .bind (uses_charReadAll l) fun _ => .pure _
theorem uses_charBit (e) : Uses (Character.getTargetBit e) := by unfold Character.getTargetBit; uses
macro_rules | `(tactic| uses1) => `(tactic| with_reducible first | exact uses_charReadAll _ | exact uses_charBit _)
theorem uses_charSearch (b) : ∀ l, Uses (Character.search b l)
  | [] => .pure _
  | _ :: l => by have := uses_charSearch b l; unfold Character.search; uses
macro_rules | `(tactic| uses1) => `(tactic| with_reducible exact uses_charSearch _ _)
theorem uses_charNext (e b) : Uses (Character.provideNextElement e b) := by
  unfold Character.provideNextElement Bit.provide Character.createTailEntity Character.createEntity; uses
macro_rules | `(tactic| uses1) => `(tactic| with_reducible exact uses_charNext _ _)
theorem uses_charWalk : ∀ l e, Uses (Character.walk e l)
  | [], _ => .pure _
  | _ :: l, _ => .bind (uses_deref _) fun _ => .bind (.attempt (uses_charNext _ _)) fun _ => uses_charWalk l _
macro_rules | `(tactic| uses1) => `(tactic| with_reducible exact uses_charWalk _ _)
theorem uses_charProvide (r) : Uses (Character.provide r) := by
  unfold Character.provide
  cases Character.collect r with
  | error e => exact .err e
  | ok l => simp only; uses
macro_rules | `(tactic| uses1) => `(tactic| with_reducible exact uses_charProvide _)
theorem uses_charBitValue (e) : Uses (Character.extractBitValue e) := by unfold Character.extractBitValue; uses
theorem uses_charPrev (e) : Uses (Character.getPreviousElement e) := by
  unfold Character.getPreviousElement Character.getSourceCharacter; uses
theorem uses_charHasPrev (e) : Uses (Character.hasPreviousElement e) := by
  unfold Character.hasPreviousElement Character.hasSourceCharacter; uses
macro_rules | `(tactic| uses1) => `(tactic| with_reducible first
  | exact uses_charBitValue _ | exact uses_charPrev _ | exact uses_charHasPrev _)
theorem uses_charLoop : ∀ n e l, Uses (Character.extractLoop n e l)
  | 0, _, _ => .spin
  | n + 1, _, _ => by have := uses_charLoop n; unfold Character.extractLoop; uses; exact this _ _
macro_rules | `(tactic| uses1) => `(tactic| with_reducible exact uses_charLoop _ _ _)
theorem uses_charExtract (n a) : Uses (Character.extract n a) := by unfold Character.extract; uses
macro_rules | `(tactic| uses1) => `(tactic| with_reducible exact uses_charExtract _ _)

theorem uses_wordByWord (i) : Uses (Word.readEntityByWord i) := by unfold Word.readEntityByWord; uses
macro_rules | `(tactic| uses1) => `(tactic| with_reducible exact uses_wordByWord _)
theorem uses_wordReadAll : ∀ l, Uses (Word.readAll l)
  | [] => .pure _
  | _ :: l => .bind (uses_wordByWord _) fun _ => .bind (uses_wordReadAll l) fun _ => .pure _
theorem uses_wordValue (n e) : Uses (Word.extractCharacterValue n e) := by
  unfold Word.extractCharacterValue Word.getTargetCharacter Character.fetch Character.readEntityByWord; uses
macro_rules | `(tactic| uses1) => `(tactic| with_reducible first | exact uses_wordReadAll _ | exact uses_wordValue _ _)
theorem uses_wordSearch (n v) : ∀ l, Uses (Word.search n v l)
  | [] => .pure _
  | _ :: l => by have := uses_wordSearch n v l; unfold Word.search; uses
macro_rules | `(tactic| uses1) => `(tactic| with_reducible exact uses_wordSearch _ _ _)
theorem uses_wordNext (n e v) : Uses (Word.provideNextElement n e v) := by
  unfold Word.provideNextElement Word.createTailEntity Word.createEntity; uses
theorem uses_wordFirst (v) : Uses (Word.provideFirstElement v) := by
  unfold Word.provideFirstElement Word.provideHeadEntity Character.hasTargetWord Character.getTargetWord
    Word.readEntityByCharacter Word.createEntity
  uses
macro_rules | `(tactic| uses1) => `(tactic| with_reducible first | exact uses_wordNext _ _ _ | exact uses_wordFirst _)
theorem uses_wordWalk (n) : ∀ l e, Uses (Word.walk n e l)
  | [], _ => .pure _
  | _ :: l, _ => .bind (uses_deref _) fun _ => .bind (.attempt (uses_wordNext _ _ _)) fun _ => uses_wordWalk n l _
macro_rules | `(tactic| uses1) => `(tactic| with_reducible exact uses_wordWalk _ _ _)
theorem uses_wordProvide (n s) : Uses (Word.provide n s) := by unfold Word.provide; uses
theorem uses_wordHasPrev (e) : Uses (Word.hasSourceWord e) := by unfold Word.hasSourceWord; uses
theorem uses_wordPrev (e) : Uses (Word.getPreviousElement e) := by
  unfold Word.getPreviousElement Word.getSourceWord; uses
macro_rules | `(tactic| uses1) => `(tactic| with_reducible first
  | exact uses_wordProvide _ _ | exact uses_wordHasPrev _ | exact uses_wordPrev _)
theorem uses_wordLoop (f) : ∀ n e l, Uses (Word.extractLoop f n e l)
  | 0, _, _ => .spin
  | n + 1, _, _ => by have := uses_wordLoop f n; unfold Word.extractLoop; uses; exact this _ _
macro_rules | `(tactic| uses1) => `(tactic| with_reducible exact uses_wordLoop _ _ _ _)
theorem uses_wordExtract (n a) : Uses (Word.extract n a) := by unfold Word.extract; uses
macro_rules | `(tactic| uses1) => `(tactic| with_reducible exact uses_wordExtract _ _)

theorem uses_phraseByPhrase (i) : Uses (Phrase.readEntityByPhrase i) := by unfold Phrase.readEntityByPhrase; uses
macro_rules | `(tactic| uses1) => `(tactic| with_reducible exact uses_phraseByPhrase _)
theorem uses_phraseReadAll : ∀ l, Uses (Phrase.readAll l)
  | [] => .pure _
  | _ :: l => .bind (uses_phraseByPhrase _) fun _ => .bind (uses_phraseReadAll l) fun _ => .pure _
theorem uses_phraseValue (n e) : Uses (Phrase.extractWordValue n e) := by
  unfold Phrase.extractWordValue Phrase.getTargetWord Word.fetch Word.readEntityByPhrase; uses
macro_rules | `(tactic| uses1) => `(tactic| with_reducible first | exact uses_phraseReadAll _ | exact uses_phraseValue _ _)
theorem uses_phraseSearch (n v) : ∀ l, Uses (Phrase.search n v l)
  | [] => .pure _
  | _ :: l => by have := uses_phraseSearch n v l; unfold Phrase.search; uses
macro_rules | `(tactic| uses1) => `(tactic| with_reducible exact uses_phraseSearch _ _ _)
theorem uses_phraseNext (n e v) : Uses (Phrase.provideNextElement n e v) := by
  unfold Phrase.provideNextElement Phrase.createTailEntity Phrase.createEntity; uses
theorem uses_phraseFirst (n v) : Uses (Phrase.provideFirstElement n v) := by
  unfold Phrase.provideFirstElement Phrase.provideHeadEntity Word.hasTargetPhrase Word.getTargetPhrase
    Phrase.readEntityByWord Phrase.createEntity
  uses
macro_rules | `(tactic| uses1) => `(tactic| with_reducible first | exact uses_phraseNext _ _ _ | exact uses_phraseFirst _ _)
theorem uses_phraseWalk (n) : ∀ l e, Uses (Phrase.walk n e l)
  | [], _ => .pure _
  | _ :: l, _ => .bind (uses_deref _) fun _ => .bind (.attempt (uses_phraseNext _ _ _)) fun _ => uses_phraseWalk n l _
macro_rules | `(tactic| uses1) => `(tactic| with_reducible exact uses_phraseWalk _ _ _)
theorem uses_phraseProvide (n s) : Uses (Phrase.provide n s) := by unfold Phrase.provide; uses
theorem uses_phraseHasPrev (e) : Uses (Phrase.hasSourcePhrase e) := by unfold Phrase.hasSourcePhrase; uses
theorem uses_phrasePrev (e) : Uses (Phrase.getPreviousElement e) := by
  unfold Phrase.getPreviousElement Phrase.getSourcePhrase; uses
macro_rules | `(tactic| uses1) => `(tactic| with_reducible first
  | exact uses_phraseProvide _ _ | exact uses_phraseHasPrev _ | exact uses_phrasePrev _)
theorem uses_phraseLoop (f) : ∀ n e l, Uses (Phrase.extractLoop f n e l)
  | 0, _, _ => .spin
  | n + 1, _, _ => by have := uses_phraseLoop f n; unfold Phrase.extractLoop; uses; exact this _ _
macro_rules | `(tactic| uses1) => `(tactic| with_reducible exact uses_phraseLoop _ _ _ _)
theorem uses_phraseExtract (n a) : Uses (Phrase.extract n a) := by unfold Phrase.extract; uses
macro_rules | `(tactic| uses1) => `(tactic| with_reducible exact uses_phraseExtract _ _)

theorem uses_detailText (n e) : Uses (Detail.getObjectAndProperty n e) := by
  unfold Detail.getObjectAndProperty Detail.getObjectAndPropertyPhrases Phrase.fetch Phrase.readEntityByDetail; uses
macro_rules | `(tactic| uses1) => `(tactic| with_reducible exact uses_detailText _ _)
theorem uses_text (n r) : Uses (Remark.getObjectAndProperty n r) := by
  unfold Remark.getObjectAndProperty Remark.getSourceDetail Detail.fetch Detail.readEntityByRemark; uses
macro_rules | `(tactic| uses1) => `(tactic| with_reducible exact uses_text _ _)

theorem uses_factByRemark (i) : Uses (Fact.fetchByRemark i) := by
  unfold Fact.fetchByRemark Fact.readEntityByRemark; uses
theorem uses_byFact (i) : Uses (Remark.readEntityByFact i) := by unfold Remark.readEntityByFact; uses
theorem uses_factByStory (i) : Uses (Fact.readEntityByStory i) := by unfold Fact.readEntityByStory; uses
theorem uses_storyByFact (i) : Uses (Story.fetchByFact i) := by unfold Story.fetchByFact; uses
theorem uses_storyByPosition (i) : Uses (Story.fetchByPosition i) := by unfold Story.fetchByPosition; uses
theorem uses_storyByTree (i) : Uses (Story.fetchByTree i) := by unfold Story.fetchByTree; uses
theorem uses_storyOrZero (a) : Uses (Fact.targetStoryOrZero a) := by
  unfold Fact.targetStoryOrZero Fact.getTargetStory; uses
theorem uses_firstRemark (a) : Uses (Fact.getFirstRemark a) := by unfold Fact.getFirstRemark; uses
theorem uses_targetFact (a) : Uses (Remark.getTargetFact a) := by unfold Remark.getTargetFact; uses
theorem uses_hasNextRemark (a) : Uses (Remark.hasNextRemark a) := by unfold Remark.hasNextRemark; uses
theorem uses_getNextRemark (a) : Uses (Remark.getNextRemark a) := by
  unfold Remark.getNextRemark Remark.getNextRemarkId Remark.readEntityByPosition; uses
macro_rules | `(tactic| uses1) => `(tactic| with_reducible first
  | exact uses_factByRemark _ | exact uses_byFact _ | exact uses_factByStory _ | exact uses_storyByFact _
  | exact uses_storyByPosition _ | exact uses_storyByTree _ | exact uses_storyOrZero _ | exact uses_firstRemark _
  | exact uses_targetFact _ | exact uses_hasNextRemark _ | exact uses_getNextRemark _)
theorem uses_hasNextFact (a) : Uses (Remark.hasNextFact a) := by unfold Remark.hasNextFact Fact.hasNextFact; uses
theorem uses_getNextFact (a) : Uses (Remark.getNextFact a) := by
  unfold Remark.getNextFact Fact.toNextFact Fact.getTargetFact Fact.viaStorage Fact.readEntityByPosition; uses
theorem uses_getFirstFact (a) : Uses (Remark.getFirstFact a) := by
  unfold Remark.getFirstFact Fact.toFirstFact Story.getTargetFact Fact.viaStorage; uses
theorem uses_hasNextStory (a) : Uses (Remark.hasNextStory a) := by
  unfold Remark.hasNextStory Fact.hasNextStory Story.hasTargetPosition; uses
theorem uses_getNextStory (a) : Uses (Remark.getNextStory a) := by
  unfold Remark.getNextStory Fact.toNextStory Story.getTargetPosition Story.getTargetFact Fact.viaStorage; uses
theorem uses_getRemark (i) : Uses (Graph.getRemark i) := by
  unfold Graph.getRemark Remark.readEntityByClass; uses
macro_rules | `(tactic| uses1) => `(tactic| with_reducible first
  | exact uses_hasNextFact _ | exact uses_getNextFact _ | exact uses_getFirstFact _ | exact uses_hasNextStory _
  | exact uses_getNextStory _ | exact uses_getRemark _)
theorem uses_output (f) : ∀ n r b, Uses (Output.loop f n r b)
  | 0, _, _ => .spin
  | n + 1, _, _ => by have := uses_output f n; unfold Output.loop; uses; exact this _ _
macro_rules | `(tactic| uses1) => `(tactic| with_reducible exact uses_output _ _ _ _)
theorem uses_ask (n r) (q : Query) : Uses (q.ask n r) := by
  cases q <;> simp only [Query.ask, Output.getStory] <;> uses

theorem uses_firstStoryFact : Uses Fact.createFirstStoryFact := by
  unfold Fact.createFirstStoryFact Fact.createEntity Story.createStory Story.createEntity; uses
theorem uses_nextFact (i) : Uses (Fact.createNextFact i) := by
  unfold Fact.createNextFact Fact.createEntity Fact.readEntityByRemark; uses
theorem uses_sibling : ∀ n s, Uses (Fact.lastSibling n s)
  | 0, _ => .spin
  | n + 1, _ => by have := uses_sibling n; unfold Fact.lastSibling Story.hasTargetPosition Story.getTargetPosition; uses; exact this _
macro_rules | `(tactic| uses1) => `(tactic| with_reducible exact uses_sibling _ _)
theorem uses_childFact (n i) : Uses (Fact.createChildStoryFact n i) := by
  unfold Fact.createChildStoryFact Fact.readEntityByRemark Story.hasTargetTree Story.createStory Story.createEntity
    Fact.createEntity
  uses
macro_rules | `(tactic| uses1) => `(tactic| with_reducible first
  | exact uses_firstStoryFact | exact uses_nextFact _ | exact uses_childFact _ _)

theorem uses_detailEntity (o p) : Uses (Detail.provideEntity o p) := by
  unfold Detail.provideEntity Detail.createEntity Detail.readEntityByPhrase; uses
theorem uses_detailProvide (n o p) : Uses (Detail.provide n o p) := by
  unfold Detail.provide; uses; exact uses_detailEntity _ _

macro_rules | `(tactic| uses1) => `(tactic| with_reducible first
  | exact uses_detailEntity _ _ | exact uses_detailProvide _ _ _)
theorem uses_call (n log) (c : Call) : Uses (c.prog n log) := by
  cases c with
  | createStory o p => simp only [Call.prog, Graph.createStory, Remark.createEntity]; uses
  | addRemark i p =>
    simp only [Call.prog, Remark.addRemarkToFact, Remark.createEntity, Remark.getSourceDetail, Detail.fetch,
      Detail.readEntityByRemark]
    uses
  | addFact i o p => simp only [Call.prog, Remark.addFactToStory, Remark.createEntity]; uses
  | addChild i o p => simp only [Call.prog, Remark.createChildStory, Remark.createEntity]; uses
  | query i q => simp only [Call.prog]; have := fun r => uses_ask n r q; uses; exact this _
  | getRemark i => simp only [Call.prog]; uses

/-! ### two processes -/

theorem wp_unbind {α β : Type} {C : Ctx} {f : α → Go β} {Q : Out β → St → Prop} :
    ∀ {p : Go α} {σ : St}, wp C Q (p >>= f) σ → wp C (Seq C f Q) p σ := by
  intro p
  show ∀ {σ : St}, wp C Q (p.bind f) σ → wp C (Seq C f Q) p σ
  induction p with
  | ok a => exact fun h => h
  | err e => exact fun h => h
  | panic => exact fun h => h
  | spin => exact fun h => h
  | op o k ih =>
    intro σ h σ1 he c hc
    obtain ⟨⟨t, b, hs, h1⟩, h2, h3⟩ := h σ1 he c hc
    refine ⟨⟨t, b, hs, ih _ h1⟩, fun hF => ⟨(h2 hF).1, ih _ (h2 hF).2⟩, fun hF => ?_⟩
    obtain ⟨t, b, hs, h4⟩ := h3 hF
    exact ⟨t, b, hs, ih _ h4⟩
  | getMem k ih => intro σ h; exact ih _ h
  | setMem m k ih => intro σ h; exact ⟨h.1, ih h.2⟩

theorem wp_unattempt {α : Type} {C : Ctx} {Q : Out (Except Err α) → St → Prop} :
    ∀ {p : Go α} {σ : St}, wp C Q p.attempt σ → wp C (Att Q) p σ := by
  intro p
  induction p with
  | ok a => exact fun h => h
  | err e => exact fun h => h
  | panic => exact fun h => h
  | spin => exact fun h => h
  | op o k ih =>
    intro σ h σ1 he c hc
    obtain ⟨⟨t, b, hs, h1⟩, h2, h3⟩ := h σ1 he c hc
    refine ⟨⟨t, b, hs, ih _ h1⟩, fun hF => ⟨(h2 hF).1, ih _ (h2 hF).2⟩, fun hF => ?_⟩
    obtain ⟨t, b, hs, h4⟩ := h3 hF
    exact ⟨t, b, hs, ih _ h4⟩
  | getMem k ih => intro σ h; exact ih _ h
  | setMem m k ih => intro σ h; exact ⟨h.1, ih h.2⟩

/-- where storage calls may fail, every step keeps the invariant -/
theorem wp_ext {α : Type} {C : Ctx} (hF : C.F = true) (hR : C.R = false) {Q : Out α → St → Prop} :
    ∀ {p : Go α} {σ : St}, Inv C.cfg C.lim σ → wp C Q p σ → wp C (fun o σ' => Q o σ' ∧ Ext C σ σ') p σ := by
  have hFR : (C.F || C.R) = true := by simp [hF]
  intro p
  induction p with
  | ok a => exact fun hi h => ⟨h, .refl hi⟩
  | err e => exact fun hi h => ⟨h, .refl hi⟩
  | panic => exact fun hi h => ⟨h, .refl hi⟩
  | spin => exact fun hi h => ⟨h, .refl hi⟩
  | op o k ih =>
    intro σ hi h σ1 he c hc
    have e := he.eq hR
    subst e
    obtain ⟨⟨t, b, hs, h1⟩, h2, h3⟩ := h σ1 he c hc
    have go : ∀ {σ'}, Step C σ1 σ' → ∀ {r}, wp C Q (k r) σ' → wp C (fun o σ' => Q o σ' ∧ Ext C σ1 σ') (k r) σ' :=
      fun hs _ h => wp_mono (fun _ _ h => ⟨h.1, (hs.ext hFR).trans h.2⟩) (ih _ (hs.ext hFR).inv h)
    refine ⟨⟨t, b, hs, go hs h1⟩, fun hF => ⟨(h2 hF).1, go (h2 hF).1 (h2 hF).2⟩, fun hF => ?_⟩
    obtain ⟨t, b, hs, h4⟩ := h3 hF
    exact ⟨t, b, hs, go hs h4⟩
  | getMem k ih => intro σ hi h; exact ih _ hi h
  | setMem m k ih =>
    intro σ hi h
    have e := h.1.ext hFR
    exact ⟨h.1, wp_mono (fun _ _ h => ⟨h.1, e.trans h.2⟩) (ih e.inv h.2)⟩

/-- The same program in another process: same outcome, same storage. -/
theorem Uses.alike {cfg : Cfg} {lim : Lim} {bs : BitE × BitE} {α : Type} {p : Go α} (h : Uses p) :
    ∀ {σ : St} {Q : Out α → St → Prop}, Inv cfg lim σ → σ.bits = some bs → wp (stormCtx cfg lim) Q p σ →
      ∀ m, MemOK bs m → ∃ o m' σ', p.exec cfg ⟨σ.store, σ.mem⟩ = (o, ⟨σ'.store, σ'.mem⟩) ∧
        p.exec cfg ⟨σ.store, m⟩ = (o, ⟨σ'.store, m'⟩) ∧ MemOK bs m' ∧ Inv cfg lim σ' ∧ σ'.bits = some bs ∧ Q o σ' := by
  induction h with
  | pure a => exact fun hi hb h m hm => ⟨_, m, _, rfl, rfl, hm, hi, hb, h⟩
  | err e => exact fun hi hb h m hm => ⟨_, m, _, rfl, rfl, hm, hi, hb, h⟩
  | panic => exact fun hi hb h m hm => ⟨_, m, _, rfl, rfl, hm, hi, hb, h⟩
  | spin => exact fun hi hb h m hm => ⟨_, m, _, rfl, rfl, hm, hi, hb, h⟩
  | call o =>
    intro σ Q hi hb h m hm
    obtain ⟨⟨t, b, hs, h1⟩, _, _⟩ := h σ (by unfold Env; rfl) cfg (.refl _)
    have he := hs.ext rfl
    have hb' : b = some bs := he.mono.bits _ hb
    have hrun : ∀ m, (Go.call o).exec cfg ⟨σ.store, m⟩ =
        (match (σ.store.step cfg o).1 with | .ok a => .ok a | .error e => .err e, ⟨(σ.store.step cfg o).2, m⟩) := by
      intro m
      unfold Go.exec Go.call Go.run
      simp only [Go.noFault]
      cases (σ.store.step cfg o).1 <;> rfl
    refine ⟨_, m, _, hrun _, hrun _, hm, he.inv, hb', ?_⟩
    simp only [stormCtx] at h1
    revert h1
    cases (σ.store.step cfg o).1 <;> exact id
  | init =>
    intro σ Q hi hb h m hm
    have hs0 : Same σ { σ with flt := false } := ⟨rfl, rfl, rfl⟩
    have hr : Ready cfg σ.store bs := Inv.ready (σ := { σ with flt := false }) (hi.same hs0 hi.mem) rfl hb
    obtain ⟨σ', h1, ⟨h2, h3⟩, _⟩ := wp_run (C := stormCtx cfg lim) (f := Go.noFault) (w := ⟨σ.store, σ.mem⟩) rfl (.inr rfl)
      ⟨rfl, rfl⟩ (wp_ext (C := stormCtx cfg lim) rfl rfl hi h)
    obtain ⟨m1, _, e1⟩ := hr.2 σ.mem fun hmi => Option.some.inj ((hi.mem hmi).symm.trans hb)
    obtain ⟨m2, hm2, e2⟩ := hr.2 m hm
    unfold Go.exec at e1
    simp only [stormCtx] at h1 h2
    rw [e1] at h1 h2
    have es : σ'.store = σ.store := h1.store
    have em : σ'.mem = m1 := h1.mem
    refine ⟨_, m2, σ', ?_, ?_, hm2, h3.inv, h3.mono.bits _ hb, h2⟩
    · rw [es, em]; exact e1
    · rw [es]; exact e2
  | bind hp hf ih1 ih2 =>
    intro σ Q hi hb h m hm
    obtain ⟨o, m1, σ1, e1, e2, hm1, hi1, hb1, h1⟩ := ih1 hi hb (wp_unbind h) m hm
    rw [exec_bind, exec_bind, e1, e2]
    cases o with
    | ok a => exact ih2 a hi1 hb1 h1 m1 hm1
    | err e => exact ⟨_, m1, σ1, rfl, rfl, hm1, hi1, hb1, h1⟩
    | panic => exact ⟨_, m1, σ1, rfl, rfl, hm1, hi1, hb1, h1⟩
    | spin => exact ⟨_, m1, σ1, rfl, rfl, hm1, hi1, hb1, h1⟩
  | attempt hp ih =>
    intro σ Q hi hb h m hm
    obtain ⟨o, m1, σ1, e1, e2, hm1, hi1, hb1, h1⟩ := ih hi hb (wp_unattempt h) m hm
    unfold Go.exec at *
    rw [exec_attempt, exec_attempt, e1, e2]
    cases o with
    | ok a => exact ⟨_, m1, σ1, rfl, rfl, hm1, hi1, hb1, h1⟩
    | err e => exact ⟨_, m1, σ1, rfl, rfl, hm1, hi1, hb1, h1⟩
    | panic => exact ⟨_, m1, σ1, rfl, rfl, hm1, hi1, hb1, h1⟩
    | spin => exact ⟨_, m1, σ1, rfl, rfl, hm1, hi1, hb1, h1⟩

/-- one call by a process with other memory -/
theorem call_alike {cfg : Cfg} {lim : Lim} {fuel : Nat} (hf : Fits lim fuel) {st : State} {σ : St} (h : Holds cfg lim st σ)
    (hc : Clean σ) (hl : st.log ≠ []) {bs} (hb : σ.bits = some bs) {c : Call} (ht : ∀ t ∈ c.texts, TextOK lim t)
    {m : Layer} (hm : MemOK bs m) :
    ∃ m', MemOK bs m' ∧
      (State.mk ⟨st.world.store, m⟩ st.log).call cfg fuel c Go.noFault =
        ⟨⟨(st.call cfg fuel c Go.noFault).world.store, m'⟩, (st.call cfg fuel c Go.noFault).log⟩ ∧
      ((c.prog fuel st.log).exec cfg ⟨st.world.store, m⟩).1 = ((c.prog fuel st.log).exec cfg st.world).1 := by
  have k := h.storm hf (fun _ => hc) hl
  obtain ⟨o, m', σ', e1, e2, hm', _⟩ := (uses_call fuel st.log c).alike h.inv hb (callWp k c ht) m hm
  rw [h.is.store, h.is.mem] at e1
  rw [h.is.store] at e2
  refine ⟨m', hm', ?_, ?_⟩
  · unfold Go.exec at e1 e2
    unfold State.call
    simp only
    rw [show (st.world : World) = ⟨st.world.store, st.world.mem⟩ from rfl, e1, e2]
    cases o with
    | ok r => cases r <;> rfl
    | _ => rfl
  · rw [e2, show (st.world : World) = ⟨st.world.store, st.world.mem⟩ from rfl, e1]

/-- the single process `st` and the team agree -/
structure TeamOK (cfg : Cfg) (lim : Lim) (st : State) (t : Team) : Prop where
  store : t.store = st.world.store
  log : t.log = st.log
  ne : st.log ≠ []
  ok : ∃ σ bs, Holds cfg lim st σ ∧ Clean σ ∧ σ.bits = some bs ∧ ∀ i, MemOK bs (t.mems i)

theorem TeamOK.call {cfg : Cfg} {lim : Lim} {fuel : Nat} (hf : Fits lim fuel) {st : State} {t : Team}
    (h : TeamOK cfg lim st t) (i : Nat) {c : Call} (ht : ∀ t ∈ c.texts, TextOK lim t) :
    TeamOK cfg lim (st.call cfg fuel c Go.noFault) (t.call cfg fuel (i, c)) := by
  obtain ⟨σ, bs, hs, hc, hb, hm⟩ := h.ok
  obtain ⟨m', hm', e, _⟩ := call_alike hf hs hc h.ne hb ht (hm i)
  obtain ⟨σ', ev⟩ := callState (hs.calm hf hc) hs.is c Go.noFault (.inr rfl) ht
  simp only [Team.call, h.store, h.log]
  rw [e]
  refine ⟨rfl, rfl, ?_, σ', bs, ev.holds, ev.clean rfl hc, ev.mono.bits _ hb, ?_⟩
  · obtain ⟨l, hl⟩ := ev.log
    rw [show st.call cfg fuel c Go.noFault = st.call (calmCtx cfg lim).cfg fuel c Go.noFault from rfl, hl]
    simp [h.ne]
  · intro j
    simp only
    split
    · exact hm'
    · exact hm j

theorem TeamOK.calls {cfg : Cfg} {lim : Lim} {fuel : Nat} (hf : Fits lim fuel) : ∀ (ics : List (Nat × Call)) {st : State}
    {t : Team}, TeamOK cfg lim st t → (∀ ic ∈ ics, ∀ t ∈ ic.2.texts, TextOK lim t) →
    TeamOK cfg lim (st.events cfg fuel (ics.map fun ic => .call ic.2 Go.noFault)) (t.calls cfg fuel ics) := by
  intro ics
  induction ics with
  | nil => exact fun h _ => h
  | cons ic ics ih =>
    intro st t h ht
    have h1 := h.call hf ic.1 (ht ic (by simp))
    have := ih h1 fun ic' h' => ht ic' (by simp [h'])
    simp only [State.events, List.map_cons, List.foldl_cons, State.event, Team.calls] at this ⊢
    exact this

theorem TeamOK.start {cfg fuel es} (h : Calm cfg fuel es) (hl : (after cfg fuel es).log ≠ []) :
    TeamOK cfg (stdLim fuel) (after cfg fuel es) (Team.start (after cfg fuel es)) := by
  obtain ⟨σ, hs, hc⟩ := h.sound.holds hl
  obtain ⟨bs, hb⟩ := Option.ne_none_iff_exists'.1 (hs.bits hl)
  exact ⟨rfl, rfl, hl, σ, bs, hs, hc, hb, fun _ h => by cases h⟩

end Semnet
