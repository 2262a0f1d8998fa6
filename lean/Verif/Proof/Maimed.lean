import Verif.Proof.Vain
/-
  On a storage with a wrong number of bits every program that needs them fails, and nothing repairs it.
-/
namespace Semnet
open Spec

/-- `Vain` on maimed storages, the bit layers not being initialized -/
abbrev VainM {α : Type} (cfg : Cfg) (l : List Nat) (good : α → Prop) (p : Go α) : Prop :=
  Vain cfg (Maimed l) (fun m => m.isInitialized = false) good p

namespace VainM
open Vain (seq stop bind mono call read)
variable {cfg : Cfg} {l : List Nat}

theorem create : VainM cfg l (fun _ => True) Go.create := by
  refine call fun s hs => ⟨?_, hs.sources, hs.none, hs.two⟩
  have := hs.live
  simp only [Store.step, Store.created, Store.live, List.contains_cons, Bool.or_eq_true] at this ⊢
  exact .inr this

theorem setReference (x y : Nat) : VainM cfg l (fun _ => True) (Go.setReference x y) := by
  refine call fun s hs => ?_
  simp only [Store.step]
  split
  · exact ⟨hs.live, hs.sources, hs.none, hs.two⟩
  · exact hs

theorem connect (x : Nat) {y : Nat} (hy : y ≠ 1) : VainM cfg l (fun _ => True) (Go.connect x y) := by
  refine call fun s hs => ?_
  have h : Maimed l (s.connected cfg x y) := by
    refine ⟨hs.live, ?_, hs.none, hs.two⟩
    rw [← hs.sources]
    simp only [Store.connected, Store.sources]
    rw [List.filter_cons_of_neg (by simpa using hy)]
  simp only [Store.step]
  split
  · split
    · split
      · exact hs
      · exact h
      · exact hs
    · exact h
  · exact hs

theorem classes : VainM cfg l (fun _ => True) Class.provideEntity := by
  refine ⟨fun s hs => ⟨hs, ?_⟩, trivial⟩
  simp only [Store.step, hs.live]
  trivial

theorem node {y : Nat} (hy : y ≠ 1) : VainM cfg l (fun _ => True) (Class.createNode y) :=
  seq create fun x => seq (connect x hy) fun _ => trivial

theorem init : VainM cfg l (fun _ => False) Bit.init := by
  refine stop fun m hm => ?_
  show VainM cfg l (fun _ => False) (if m.isInitialized = true then pure () else Bit.fill)
  rw [if_neg (by rw [hm]; intro h; cases h)]
  refine seq classes fun _ => ⟨fun s hs => ⟨hs, ?_⟩, trivial⟩
  simp only [Store.step, Class.bitId, hs.live, if_true]
  have hl := (cfg.ord_perm s (.readSources 1) (s.sources 1)).length_eq
  rw [hs.sources] at hl
  match he : cfg.ord s (.readSources 1) (s.sources 1) with
  | [] => rw [hs.sources] at he; rw [he] at hl; exact absurd hl.symm hs.none
  | [_] => trivial
  | [_, _] => rw [hs.sources] at he; rw [he] at hl; exact absurd hl.symm hs.two
  | _ :: _ :: _ :: _ => trivial

theorem quiet {α : Type} {p : Go α} (h : Quiet p) : VainM cfg l (fun _ => True) p :=
  Vain.quiet (mono (fun _ _ => trivial) init) classes h

/-! ### the programs -/

theorem character (r : Rune) : VainM cfg l (fun _ => False) (Character.provide r) := by
  unfold Character.provide
  split
  · trivial
  · split
    · trivial
    · exact stop (stop (stop init))

theorem word (fuel : Nat) (s : GoStr) : VainM cfg l (fun _ => False) (Word.provide fuel s) := by
  unfold Word.provide
  split
  · trivial
  · exact stop (stop (character _))

theorem phrase (fuel : Nat) (s : GoStr) : VainM cfg l (fun _ => False) (Phrase.provide fuel s) := by
  unfold Phrase.provide
  split
  · trivial
  · exact stop (stop (word _ _))

theorem detail (fuel : Nat) (o p : GoStr) : VainM cfg l (fun _ => False) (Detail.provide fuel o p) := stop (phrase _ _)

theorem target (e : CharE) : VainM cfg l (fun _ => True) (Character.getTargetBit e) := quiet (by unfold Character.getTargetBit; quiet)

theorem rune (fuel : Nat) (a : CharAgg) : VainM cfg l (fun _ => False) (Character.extract fuel a) :=
  stop (seq (quiet (.deref _)) fun _ => seq (target _) fun _ => stop (stop init))

theorem wordText (fuel : Nat) (e : WordE) : VainM cfg l (fun _ => False) (Word.extract fuel e) :=
  stop (seq (quiet (by unfold Word.getTargetCharacter; quiet)) fun _ => seq (quiet (.charReadWord _)) fun _ => rune _ _)

theorem phraseText (fuel : Nat) (e : PhraseE) : VainM cfg l (fun _ => False) (Phrase.extract fuel e) :=
  stop (seq (quiet (by unfold Phrase.getTargetWord; quiet)) fun _ =>
    seq (quiet (by unfold Word.fetch Word.readEntityByPhrase; quiet)) fun _ => wordText _ _)

theorem detailTexts (fuel : Nat) (e : DetailE) : VainM cfg l (fun _ => False) (Detail.getObjectAndProperty fuel e) :=
  seq (quiet (by unfold Detail.getObjectAndPropertyPhrases; quiet)) fun _ =>
    seq (quiet (by unfold Phrase.fetch Phrase.readEntityByDetail; quiet)) fun _ => stop (phraseText _ _)

theorem texts (fuel : Nat) (r : RemE) : VainM cfg l (fun _ => False) (Remark.getObjectAndProperty fuel r) :=
  seq (quiet (by unfold Remark.getSourceDetail; quiet)) fun _ =>
    seq (quiet (by unfold Detail.fetch Detail.readEntityByRemark; quiet)) fun _ => detailTexts _ _

theorem story (fuel : Nat) (r : RemE) : VainM cfg l (fun _ => False) (Output.getStory fuel r) := by
  refine seq (quiet (.getFirstFact _)) fun r => ?_
  cases fuel with
  | zero => trivial
  | succ n => exact stop (texts _ _)

theorem entity (c : Nat) : VainM cfg l (fun _ => True) (Remark.createEntity c) :=
  seq create fun _ => seq create fun _ => seq create fun _ => seq (setReference _ _) fun _ => seq (setReference _ _) fun _ =>
    seq (setReference _ _) fun _ => trivial

theorem createStory (fuel : Nat) (o p : GoStr) : VainM cfg l (fun _ => False) (Graph.createStory fuel o p) :=
  seq classes fun _ => seq (node (by decide)) fun _ => seq (entity _) fun _ => stop (detail _ _ _)

theorem addRemark (fuel : Nat) (r : RemE) (p : GoStr) : VainM cfg l (fun _ => False) (Remark.addRemarkToFact fuel r p) :=
  seq classes fun _ => seq (node (by decide)) fun _ => seq (entity _) fun _ =>
    seq (quiet (by unfold Remark.getSourceDetail; quiet)) fun _ =>
    seq (quiet (by unfold Detail.fetch Detail.readEntityByRemark; quiet)) fun _ => stop (detailTexts _ _)

theorem addFact (fuel : Nat) (r : RemE) (o p : GoStr) : VainM cfg l (fun _ => False) (Remark.addFactToStory fuel r o p) :=
  seq classes fun _ => seq (node (by decide)) fun _ => seq (entity _) fun _ => stop (detail _ _ _)

theorem addChild (fuel : Nat) (r : RemE) (o p : GoStr) : VainM cfg l (fun _ => False) (Remark.createChildStory fuel r o p) :=
  seq classes fun _ => seq (node (by decide)) fun _ => seq (entity _) fun _ => stop (detail _ _ _)

theorem ask (fuel : Nat) (r : RemE) (q : Query) : VainM cfg l (fun _ => ¬ q.Textual) (q.ask fuel r) := by
  have other : ¬ q.Textual → VainM cfg l (fun _ => ¬ q.Textual) (q.ask fuel r) :=
    fun h => mono (fun _ _ => h) (quiet (.query fuel r q))
  cases q with
  | getObjectAndProperty => exact stop (texts _ _)
  | getStory => exact stop (story _ _)
  | _ => exact other (by rintro (h | h) <;> cases h)

theorem asks (fuel : Nat) (r : RemE) : ∀ qs : List Query, VainM cfg l (fun _ => ∀ q ∈ qs, ¬ q.Textual) (Spec.asks fuel r qs)
  | [] => fun q h => by cases h
  | q :: qs => bind (fun _ hq => bind (fun _ hqs => by
      intro q' h'
      rcases List.mem_cons.1 h' with rfl | h'
      · exact hq
      · exact hqs q' h') (asks fuel r qs)) (ask fuel r q)

theorem interview (fuel i : Nat) (qs : List Query) : VainM cfg l (fun _ => ∀ q ∈ qs, ¬ q.Textual) (Spec.interview fuel i qs) :=
  seq (quiet (.getRemark i)) fun r => asks fuel r qs

end VainM

/-- what a call may yield -/
def Barren (c : Call) (y : Yield) : Prop := y = .nothing ∨ (¬ c.Textual ∧ ∃ a, y = .answered a)

open Vain (seq stop bind mono) in
open VainM in
theorem VainM.yields {cfg : Cfg} {l : List Nat} (fuel : Nat) (log : List Entry) (c : Call) : VainM cfg l (Barren c) (c.yields fuel log) := by
  cases c with
  | createStory o p => exact stop (createStory fuel o p)
  | addRemark h p =>
    simp only [Call.yields]
    split
    · exact .inl rfl
    · exact stop (addRemark fuel _ p)
  | addFact h o p =>
    simp only [Call.yields]
    split
    · exact .inl rfl
    · exact stop (addFact fuel _ o p)
  | addChild h o p =>
    simp only [Call.yields]
    split
    · exact .inl rfl
    · exact stop (addChild fuel _ o p)
  | query h q =>
    simp only [Call.yields]
    split
    · exact .inl rfl
    · refine bind (fun a ha => ?_) (ask fuel _ q)
      exact (Or.inr ⟨ha, a, rfl⟩ : Barren (.query h q) (.answered a))
  | getRemark i => exact seq (quiet (.getRemark i)) fun r => .inr ⟨id, _, rfl⟩

open Vain (seq stop bind mono) in
open VainM in
theorem VainM.prog {cfg : Cfg} {l : List Nat} (fuel : Nat) (log : List Entry) (c : Call) :
    VainM cfg l (fun r => r = none) (c.prog fuel log) := by
  cases c with
  | createStory o p => exact stop (createStory fuel o p)
  | addRemark h p =>
    simp only [Call.prog]
    split
    · exact (rfl : none = none)
    · exact stop (addRemark fuel _ p)
  | addFact h o p =>
    simp only [Call.prog]
    split
    · exact (rfl : none = none)
    · exact stop (addFact fuel _ o p)
  | addChild h o p =>
    simp only [Call.prog]
    split
    · exact (rfl : none = none)
    · exact stop (addChild fuel _ o p)
  | query h q =>
    simp only [Call.prog]
    split
    · exact (rfl : none = none)
    · exact seq (mono (fun _ _ => trivial) (ask fuel _ q)) fun a => rfl
  | getRemark i => exact seq (quiet (.getRemark i)) fun r => rfl

theorem maimed_blight (cfg : Cfg) (fuel : Nat) (l : List Nat) (log : List Entry) :
    Blight cfg fuel (Maimed l) (fun m => m.isInitialized = false) Barren (fun qs => ∀ q ∈ qs, ¬ q.Textual) log :=
  ⟨rfl, fun c => VainM.yields fuel log c, fun c => VainM.prog fuel log c,
    (by rintro c r (h | ⟨_, a, h⟩) <;> cases h), fun i qs => VainM.interview fuel i qs⟩

end Semnet
