import Verif.Proof.Maimed
/-
  On a storage whose two bits refer to no characters, and without node 0, every program that needs them fails.
-/
namespace Semnet
open Spec

/-- the bits of the layer have no characters -/
def Hollow (m : Layer) : Prop := m.zeroEntity.character = 0 ∧ m.oneEntity.character = 0

abbrev VainC {α : Type} (cfg : Cfg) (a b : Nat) (good : α → Prop) (p : Go α) : Prop :=
  Vain cfg (Charless a b) Hollow good p

namespace VainC
open Vain (seq stop bind mono call read)
variable {cfg : Cfg} {a b : Nat}

/-- the new node is neither of the bits -/
theorem create : VainC cfg a b (fun x => x ≠ a ∧ x ≠ b) Go.create := by
  refine ⟨fun s hs => ⟨⟨?_, ?_, hs.sources, hs.first, hs.second, ?_, hs.targets⟩, ?_⟩, trivial⟩
  · have := hs.live
    simp only [Store.step, Store.created, Store.live, List.contains_cons, Bool.or_eq_true] at this ⊢
    exact .inr this
  · have := hs.zero
    have h0 := hs.old.1
    simp only [Store.step, Store.created, Store.live, List.contains_cons, Bool.or_eq_false_iff] at this ⊢
    refine ⟨?_, this⟩
    simp only [beq_eq_false_iff_ne]
    omega
  · have := hs.old
    simp only [Store.step, Store.created]
    omega
  · have := hs.old
    show s.next ≠ a ∧ s.next ≠ b
    omega

theorem setReference {x : Nat} (y : Nat) (hx : x ≠ a ∧ x ≠ b) : VainC cfg a b (fun _ => True) (Go.setReference x y) := by
  refine call fun s hs => ?_
  simp only [Store.step]
  split
  · refine ⟨hs.live, hs.zero, hs.sources, ?_, ?_, hs.old, hs.targets⟩
    · rw [← hs.first]
      simp only [Store.fwd, Store.referred]
      rw [List.find?_cons_of_neg (by simpa using hx.1)]
    · rw [← hs.second]
      simp only [Store.fwd, Store.referred]
      rw [List.find?_cons_of_neg (by simpa using hx.2)]
  · exact hs

theorem connect (x : Nat) {y : Nat} (hy : y ≠ 1) (h0 : y ≠ 0) : VainC cfg a b (fun _ => True) (Go.connect x y) := by
  refine call fun s hs => ?_
  have h : Charless a b (s.connected cfg x y) := by
    refine ⟨hs.live, hs.zero, ?_, hs.first, hs.second, ?_, ?_⟩
    · have := hs.sources
      simp only [Store.connected, Store.sources] at this ⊢
      rw [List.filter_cons_of_neg (by simpa using hy)]
      exact this
    · have := hs.old
      simp only [Store.connected]
      omega
    · intro e he
      rcases List.mem_cons.1 he with rfl | he
      · exact h0
      · exact hs.targets e he
  simp only [Store.step]
  split
  · split
    · split
      · exact hs
      · exact h
      · exact hs
    · exact h
  · exact hs

theorem classes : VainC cfg a b (fun _ => True) Class.provideEntity := by
  refine ⟨fun s hs => ⟨hs, ?_⟩, trivial⟩
  simp only [Store.step, hs.live]
  trivial

theorem node {y : Nat} (hy : y ≠ 1) (h0 : y ≠ 0) : VainC cfg a b (fun x => x ≠ a ∧ x ≠ b) (Class.createNode y) := by
  refine bind (fun x hx => ?_) create
  exact seq (connect x hy h0) fun _ => hx

/-- the reference of a bit -/
theorem reference {c : Nat} (hc : c = a ∨ c = b) : VainC cfg a b (fun p => p.2 = 0) (Go.getReference c) := by
  refine ⟨fun s hs => ⟨hs, ?_⟩, trivial⟩
  cases hl : s.live c with
  | false => simp only [Store.step, hl]; trivial
  | true =>
    simp only [Store.step, hl, if_true]
    rcases hc with rfl | rfl
    · exact hs.first
    · exact hs.second

theorem fill : VainC cfg a b (fun _ => True) Bit.fill := by
  refine seq classes fun _ => ⟨fun s hs => ⟨hs, ?_⟩, trivial⟩
  simp only [Store.step, Class.bitId, hs.live, if_true]
  have hp := (cfg.ord_perm s (.readSources 1) (s.sources 1)).trans hs.sources
  match he : cfg.ord s (.readSources 1) (s.sources 1) with
  | [] => rw [he] at hp; cases hp.length_eq
  | [_] => trivial
  | [c0, c1] =>
    rw [he] at hp
    have h0 : c0 = a ∨ c0 = b := by simpa using hp.mem_iff.1 (List.mem_cons_self ..)
    have h1 : c1 = a ∨ c1 = b := by simpa using hp.mem_iff.1 (List.mem_cons_of_mem _ (List.mem_cons_self ..))
    have hz : (if c0 < c1 then c0 else c1) = a ∨ (if c0 < c1 then c0 else c1) = b := by split <;> assumption
    have ho : (if c0 < c1 then c1 else c0) = a ∨ (if c0 < c1 then c1 else c0) = b := by split <;> assumption
    refine bind (p := Go.getReference _) (fun p hp => ?_) (reference hz)
    refine ⟨fun m hm => ⟨hp, hm.2⟩, ?_⟩
    refine bind (p := Go.getReference _) (fun p hp => ?_) (reference ho)
    refine ⟨fun m hm => ⟨hm.1, hp⟩, ?_⟩
    exact ⟨fun m hm => hm, trivial⟩
  | _ :: _ :: _ :: _ => trivial

/-- the bits -/
theorem init : VainC cfg a b (fun p => p.1.character = 0 ∧ p.2.character = 0) Bit.init := by
  refine seq (fun m hm => ?_) fun _ => fun m hm m' hm' => ⟨hm.1, hm'.2⟩
  show VainC cfg a b (fun _ => True) (if m.isInitialized = true then pure () else Bit.fill)
  split
  · trivial
  · exact fill

theorem quiet {α : Type} {p : Go α} (h : Quiet p) : VainC cfg a b (fun _ => True) p :=
  Vain.quiet (mono (fun _ _ => trivial) init) classes h

/-! ### the programs -/

theorem head {e : BitE} (he : e.character = 0) : VainC cfg a b (fun _ => False) (Character.provideHeadEntity e) := by
  refine stop ?_
  unfold Bit.hasTargetCharacter Bit.use
  split
  · refine seq trivial fun _ => stop ⟨fun s hs => ⟨hs, ?_⟩, trivial⟩
    simp only [Store.step, he, hs.zero]
    trivial
  · exact trivial

theorem firstElement (v : Bool) : VainC cfg a b (fun e => e.character = none) (Character.provideFirstElement v) := by
  refine bind (g := fun e => e.character = 0) (fun e he => ?_) ?_
  · refine seq classes fun _ => bind (fun r hr => ?_) (Vain.dropped (head he))
    obtain ⟨e, rfl⟩ := hr
    exact (rfl : (none : Option CharE) = none)
  · refine bind (fun p hp => ?_) init
    show VainC cfg a b _ (pure (if v then p.2 else p.1))
    cases v
    · exact hp.1
    · exact hp.2

/-- a nil element -/
theorem walk : ∀ (bs : List Bool) {e : CharElem}, e.character = none →
    VainC cfg a b (fun r => ∃ e, r = some e ∧ e.character = none) (Character.walk (some e) bs)
  | [], e, he => ⟨e, rfl, he⟩
  | v :: bs, ⟨c⟩, he => by
    simp only at he
    subst he
    trivial

theorem character (r : Rune) : VainC cfg a b (fun c => c.character = none) (Character.provide r) := by
  unfold Character.provide
  split
  · trivial
  · split
    · trivial
    · refine bind (fun e he => bind (fun r hr => ?_) (walk _ he)) (firstElement _)
      obtain ⟨e, rfl, he⟩ := hr
      exact he

theorem word (fuel : Nat) (s : GoStr) : VainC cfg a b (fun _ => False) (Word.provide fuel s) := by
  unfold Word.provide
  split
  · trivial
  · refine stop (bind (fun c hc => seq classes fun _ => ?_) (character _))
    obtain ⟨c⟩ := c
    simp only at hc
    subst hc
    trivial

theorem phrase (fuel : Nat) (s : GoStr) : VainC cfg a b (fun _ => False) (Phrase.provide fuel s) := by
  unfold Phrase.provide
  split
  · trivial
  · exact stop (stop (word _ _))

theorem detail (fuel : Nat) (o p : GoStr) : VainC cfg a b (fun _ => False) (Detail.provide fuel o p) := stop (phrase _ _)

theorem targets (x : Nat) : VainC cfg a b (fun ts => ∀ t ∈ ts, t ≠ 0) (Go.readTargets x) := by
  refine ⟨fun s hs => ⟨hs, ?_⟩, trivial⟩
  cases hl : s.live x with
  | false => simp only [Store.step, hl]; trivial
  | true =>
    simp only [Store.step, hl, if_true]
    intro t ht
    have := (cfg.ord_perm s (.readTargets x) (s.targets x)).mem_iff.1 ht
    simp only [Store.targets, List.mem_map, List.mem_filter] at this
    obtain ⟨e, ⟨he, _⟩, rfl⟩ := this
    exact hs.targets e he

theorem target (e : CharE) : VainC cfg a b (fun t => t ≠ 0) (Character.getTargetBit e) := by
  refine bind (fun ts hts => ?_) (targets _)
  match ts, hts with
  | [], _ => trivial
  | [t], h => exact h t (List.mem_cons_self ..)
  | _ :: _ :: _, _ => trivial

theorem fetch {t : Nat} (ht : t ≠ 0) : VainC cfg a b (fun _ => False) (Bit.fetch t) := by
  refine bind (fun p hp => ?_) init
  show VainC cfg a b _ (if t = p.1.character then _ else if t = p.2.character then _ else _)
  rw [hp.1, hp.2, if_neg ht, if_neg ht]
  trivial

theorem rune (fuel : Nat) (c : CharAgg) : VainC cfg a b (fun _ => False) (Character.extract fuel c) :=
  stop (seq (quiet (.deref _)) fun _ => bind (fun _ ht => stop (fetch ht)) (target _))

theorem wordText (fuel : Nat) (e : WordE) : VainC cfg a b (fun _ => False) (Word.extract fuel e) :=
  stop (seq (quiet (by unfold Word.getTargetCharacter; quiet)) fun _ => seq (quiet (.charReadWord _)) fun _ => rune _ _)

theorem phraseText (fuel : Nat) (e : PhraseE) : VainC cfg a b (fun _ => False) (Phrase.extract fuel e) :=
  stop (seq (quiet (by unfold Phrase.getTargetWord; quiet)) fun _ =>
    seq (quiet (by unfold Word.fetch Word.readEntityByPhrase; quiet)) fun _ => wordText _ _)

theorem detailTexts (fuel : Nat) (e : DetailE) : VainC cfg a b (fun _ => False) (Detail.getObjectAndProperty fuel e) :=
  seq (quiet (by unfold Detail.getObjectAndPropertyPhrases; quiet)) fun _ =>
    seq (quiet (by unfold Phrase.fetch Phrase.readEntityByDetail; quiet)) fun _ => stop (phraseText _ _)

theorem texts (fuel : Nat) (r : RemE) : VainC cfg a b (fun _ => False) (Remark.getObjectAndProperty fuel r) :=
  seq (quiet (by unfold Remark.getSourceDetail; quiet)) fun _ =>
    seq (quiet (by unfold Detail.fetch Detail.readEntityByRemark; quiet)) fun _ => detailTexts _ _

theorem story (fuel : Nat) (r : RemE) : VainC cfg a b (fun _ => False) (Output.getStory fuel r) := by
  refine seq (quiet (.getFirstFact _)) fun r => ?_
  cases fuel with
  | zero => trivial
  | succ n => exact stop (texts _ _)

theorem entity {c : Nat} (hc : c ≠ a ∧ c ≠ b) : VainC cfg a b (fun _ => True) (Remark.createEntity c) := by
  refine bind (fun _ hx => ?_) create
  refine bind (fun _ hy => ?_) create
  refine bind (fun _ _ => ?_) create
  exact seq (setReference _ hc) fun _ => seq (setReference _ hx) fun _ => seq (setReference _ hy) fun _ => trivial

/-- what all writing calls begin with -/
theorem opening {α : Type} {g : α → Prop} {f : RemE → Go α} (h : ∀ r, VainC cfg a b g (f r)) :
    VainC cfg a b g (Class.provideEntity >>= fun _ => Class.createNode Class.remarkId >>= fun c => Remark.createEntity c >>= f) :=
  seq classes fun _ => bind (fun _ hc => seq (entity hc) h) (node (by decide) (by decide))

theorem createStory (fuel : Nat) (o p : GoStr) : VainC cfg a b (fun _ => False) (Graph.createStory fuel o p) :=
  opening fun _ => stop (detail _ _ _)

theorem addRemark (fuel : Nat) (r : RemE) (p : GoStr) : VainC cfg a b (fun _ => False) (Remark.addRemarkToFact fuel r p) :=
  opening fun _ => seq (quiet (by unfold Remark.getSourceDetail; quiet)) fun _ =>
    seq (quiet (by unfold Detail.fetch Detail.readEntityByRemark; quiet)) fun _ => stop (detailTexts _ _)

theorem addFact (fuel : Nat) (r : RemE) (o p : GoStr) : VainC cfg a b (fun _ => False) (Remark.addFactToStory fuel r o p) :=
  opening fun _ => stop (detail _ _ _)

theorem addChild (fuel : Nat) (r : RemE) (o p : GoStr) : VainC cfg a b (fun _ => False) (Remark.createChildStory fuel r o p) :=
  opening fun _ => stop (detail _ _ _)

theorem ask (fuel : Nat) (r : RemE) (q : Query) : VainC cfg a b (fun _ => ¬ q.Textual) (q.ask fuel r) := by
  have other : ¬ q.Textual → VainC cfg a b (fun _ => ¬ q.Textual) (q.ask fuel r) :=
    fun h => mono (fun _ _ => h) (quiet (.query fuel r q))
  cases q with
  | getObjectAndProperty => exact stop (texts _ _)
  | getStory => exact stop (story _ _)
  | _ => exact other (by rintro (h | h) <;> cases h)

theorem asks (fuel : Nat) (r : RemE) : ∀ qs : List Query, VainC cfg a b (fun _ => ∀ q ∈ qs, ¬ q.Textual) (Spec.asks fuel r qs)
  | [] => fun q h => by cases h
  | q :: qs => bind (fun _ hq => bind (fun _ hqs => by
      intro q' h'
      rcases List.mem_cons.1 h' with rfl | h'
      · exact hq
      · exact hqs q' h') (asks fuel r qs)) (ask fuel r q)

theorem interview (fuel i : Nat) (qs : List Query) : VainC cfg a b (fun _ => ∀ q ∈ qs, ¬ q.Textual) (Spec.interview fuel i qs) :=
  seq (quiet (.getRemark i)) fun r => asks fuel r qs

end VainC

open Vain (seq stop bind mono) in
open VainC in
theorem VainC.yields {cfg : Cfg} {a b : Nat} (fuel : Nat) (log : List Entry) (c : Call) : VainC cfg a b (Barren c) (c.yields fuel log) := by
  cases c with
  | createStory o p => exact stop (createStory fuel o p)
  | addRemark h p =>
    simp only [Call.yields]
    split
    · exact .inl rfl
    · exact stop (addRemark fuel _ p)
  | addFact h o p =>
    simp only [Call.yields]
    split
    · exact .inl rfl
    · exact stop (addFact fuel _ o p)
  | addChild h o p =>
    simp only [Call.yields]
    split
    · exact .inl rfl
    · exact stop (addChild fuel _ o p)
  | query h q =>
    simp only [Call.yields]
    split
    · exact .inl rfl
    · refine bind (fun v hv => ?_) (ask fuel _ q)
      exact (Or.inr ⟨hv, v, rfl⟩ : Barren (.query h q) (.answered v))
  | getRemark i => exact seq (quiet (.getRemark i)) fun r => .inr ⟨id, _, rfl⟩

open Vain (seq stop bind mono) in
open VainC in
theorem VainC.prog {cfg : Cfg} {a b : Nat} (fuel : Nat) (log : List Entry) (c : Call) :
    VainC cfg a b (fun r => r = none) (c.prog fuel log) := by
  cases c with
  | createStory o p => exact stop (createStory fuel o p)
  | addRemark h p =>
    simp only [Call.prog]
    split
    · exact (rfl : none = none)
    · exact stop (addRemark fuel _ p)
  | addFact h o p =>
    simp only [Call.prog]
    split
    · exact (rfl : none = none)
    · exact stop (addFact fuel _ o p)
  | addChild h o p =>
    simp only [Call.prog]
    split
    · exact (rfl : none = none)
    · exact stop (addChild fuel _ o p)
  | query h q =>
    simp only [Call.prog]
    split
    · exact (rfl : none = none)
    · exact seq (mono (fun _ _ => trivial) (ask fuel _ q)) fun a => rfl
  | getRemark i => exact seq (quiet (.getRemark i)) fun r => rfl

theorem charless_blight (cfg : Cfg) (fuel : Nat) (a b : Nat) (log : List Entry) :
    Blight cfg fuel (Charless a b) Hollow Barren (fun qs => ∀ q ∈ qs, ¬ q.Textual) log :=
  ⟨⟨rfl, rfl⟩, fun c => VainC.yields fuel log c, fun c => VainC.prog fuel log c,
    (by rintro c r (h | ⟨_, a, h⟩) <;> cases h), fun i qs => VainC.interview fuel i qs⟩

end Semnet
