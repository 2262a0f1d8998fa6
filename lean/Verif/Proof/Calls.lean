import Verif.Proof.Api
/-
  How the creating calls end in calm states.
-/
namespace Semnet
open Spec

/-- how a fault-free call ended, with its final state -/
structure Ends {α : Type} (cfg : Cfg) (lim : Lim) (σ : St) (good : α → St → Prop) (bad : Bool → St → Prop)
    (res : Out α × World) (σ' : St) : Prop where
  is : σ'.Is res.2
  ext : ExtC (calmCtx cfg lim) σ σ'
  flt : σ'.flt = false
  out : match res.1 with
    | .ok a => good a σ'
    | .err _ => bad false σ'
    | .panic => bad true σ'
    | .spin => False

theorem WrL.ends {α : Type} {cfg : Cfg} {lim : Lim} {good : α → St → Prop} {bad} {p : Go α} {σ : St} {w : World}
    (hw : σ.Is w) (hfl : σ.flt = false) (h : WrL (calmCtx cfg lim) good bad p σ) :
    ∃ σ', Ends cfg lim σ good bad (p.exec cfg w) σ' := by
  obtain ⟨σ', h1, ⟨h2, h3⟩, h4⟩ := wp_run (C := calmCtx cfg lim) rfl (.inr rfl) hw h
  have hf : σ'.flt = false := (h4 rfl).trans hfl
  refine ⟨σ', h1, h2, hf, ?_⟩
  unfold Go.exec
  change match (Go.run cfg p Go.noFault w).1 with | .ok a => _ | .err _ => _ | .panic => _ | .spin => _ at h3
  generalize (Go.run cfg p Go.noFault w).1 = out at h3
  cases out with
  | ok a => exact h3
  | err e => exact h3.resolve_left (by rw [hf]; simp)
  | panic => exact h3.resolve_left (by rw [hf]; simp)
  | spin => exact h3

theorem Holds.T0 {cfg lim st σ} (h : Holds cfg lim st σ) : σ.T 0 = st.world.store.targets 0 := by
  unfold St.T; rw [h.is.store]

/-- a calm state, seen by CreateStory -/
theorem Sound.forCreate {cfg : Cfg} {lim : Lim} (hd : Policy cfg lim) {st : State} (h : Sound cfg lim st) :
    ∃ σ st', Holds cfg lim st' σ ∧ Clean σ ∧ st'.log = st.log ∧ σ.T 0 = st.world.store.targets 0 ∧
      ∀ fuel o p, (Graph.createStory fuel o p).exec cfg st.world = (Graph.createStory fuel o p).exec cfg st'.world := by
  rcases h with h | ⟨σ, h, hc⟩
  · refine ⟨_, State.roots cfg, roots_holds hd, rootSt_clean cfg, by rw [h]; rfl, by rw [h]; rfl, fun fuel o p => ?_⟩
    rw [h]
    exact createStory_empty cfg fuel o p _
  · exact ⟨σ, st, h, hc, rfl, h.T0, fun _ _ _ => rfl⟩

theorem Sound.createStory {cfg : Cfg} {lim : Lim} {fuel : Nat} (hd : Policy cfg lim) (hf : Fits lim fuel) {st : State}
    (h : Sound cfg lim st) {o p : GoStr} (ho : TextOK lim o) (hp : TextOK lim p) :
    ∃ σ σ', Inv cfg lim σ ∧ Clean σ ∧ Keeps lim σ st.log ∧ σ.T 0 = st.world.store.targets 0 ∧ Ends cfg lim σ
      (fun r σ' => Stored σ σ' r (wordsOf o) (wordsOf p) (some r) ∧ ¬ BadHead σ o ∧ ¬ BadHead σ p ∧ NewText lim σ σ' r o p ∧
        (cfg.zero = true → σ'.T 0 = σ.T 0) ∧ PairSt σ σ' o p .created)
      (apiErr cfg lim σ o p False) ((Graph.createStory fuel o p).exec cfg st.world) σ' := by
  obtain ⟨σ, st', hs, hc, hl, h0, he⟩ := h.forCreate hd
  obtain ⟨σ', h1⟩ := WrL.ends hs.is hs.flt
    (Wr.createStoryG (C := calmCtx cfg lim) rfl rfl rfl hs.inv (fun h => by cases h) (fun _ => hc) hs.flt hf.L hf.D ho hp)
  exact ⟨σ, σ', hs.inv, hc, hl ▸ hs.keeps, h0, by rw [he]; exact h1⟩

theorem Sound.addFact {cfg : Cfg} {lim : Lim} {fuel : Nat} (hf : Fits lim fuel) {st : State}
    (h : Sound cfg lim st) {e : Entry} (he : e ∈ st.log) {o p : GoStr} (ho : TextOK lim o) (hp : TextOK lim p) :
    ∃ σ σ', Inv cfg lim σ ∧ Clean σ ∧ Keeps lim σ st.log ∧ σ.T 0 = st.world.store.targets 0 ∧ Ends cfg lim σ
      (fun r σ' => Stored σ σ' r (wordsOf o) (wordsOf p) none ∧ cfg.zero = true ∧ ¬ BadHead σ o ∧ ¬ BadHead σ p ∧ NewText lim σ σ' r o p ∧
        (∃ x, σ'.T 0 = x :: σ.T 0) ∧ PairSt σ σ' o p .created)
      (apiErr cfg lim σ o p (cfg.zero = false)) ((Remark.addFactToStory fuel e.handle o p).exec cfg st.world) σ' := by
  obtain ⟨σ, hs, hc⟩ := h.holds (ne_nil_of_mem he)
  obtain ⟨σ', h1⟩ := WrL.ends hs.is hs.flt
    (Wr.addFactToStory (C := calmCtx cfg lim) rfl rfl rfl hs.inv (fun h => by cases h) (fun _ => hc) hs.flt hf.L hf.D ho hp
      (hs.keeps.ok e he).ent)
  exact ⟨σ, σ', hs.inv, hc, hs.keeps, hs.T0, h1⟩

theorem Sound.addChild {cfg : Cfg} {lim : Lim} {fuel : Nat} (hf : Fits lim fuel) {st : State}
    (h : Sound cfg lim st) {e : Entry} (he : e ∈ st.log) {o p : GoStr} (ho : TextOK lim o) (hp : TextOK lim p) :
    ∃ σ σ', Inv cfg lim σ ∧ Clean σ ∧ Keeps lim σ st.log ∧ σ.T 0 = st.world.store.targets 0 ∧ Ends cfg lim σ
      (fun r σ' => Stored σ σ' r (wordsOf o) (wordsOf p) (some r) ∧ cfg.zero = true ∧ ¬ BadHead σ o ∧ ¬ BadHead σ p ∧ NewText lim σ σ' r o p ∧
        Grown σ σ' ∧ PairSt σ σ' o p .created)
      (apiErr cfg lim σ o p (cfg.zero = false ∨ 2 ≤ (σ.T 0).length))
      ((Remark.createChildStory fuel e.handle o p).exec cfg st.world) σ' := by
  obtain ⟨σ, hs, hc⟩ := h.holds (ne_nil_of_mem he)
  obtain ⟨σ', h1⟩ := WrL.ends hs.is hs.flt
    (Wr.createChildStory (C := calmCtx cfg lim) rfl rfl rfl hs.inv (fun h => by cases h) (fun _ => hc) hs.flt hf.L hf.D
      hf.two ho hp (hs.keeps.ok e he).ent)
  exact ⟨σ, σ', hs.inv, hc, hs.keeps, hs.T0, h1⟩

theorem Sound.addRemark {cfg : Cfg} {lim : Lim} {fuel : Nat} (hf : Fits lim fuel) {st : State}
    (h : Sound cfg lim st) {e : Entry} (he : e ∈ st.log) {p : GoStr} (hp : TextOK lim p) :
    ∃ σ σ' op, Inv cfg lim σ ∧ Clean σ ∧ Keeps lim σ st.log ∧ σ.T 0 = st.world.store.targets 0 ∧ Belongs σ e.handle op ∧ Ends cfg lim σ
      (fun r σ' => Stored σ σ' r (wordsOf e.object) (wordsOf p) op ∧ ¬ BadHead σ e.object ∧ ¬ BadHead σ p ∧ NewText lim σ σ' r e.object p ∧
        (cfg.zero = true → σ'.T 0 = σ.T 0) ∧ PairSt σ σ' e.object p .created)
      (apiErr cfg lim σ e.object p False) ((Remark.addRemarkToFact fuel e.handle p).exec cfg st.world) σ' := by
  obtain ⟨σ, hs, hc⟩ := h.holds (ne_nil_of_mem he)
  have ok := hs.keeps.ok e he
  obtain ⟨op, hop, _⟩ := ok.fact'
  have ht : textOf (wordsOf e.object) = e.object := by rw [textOf_wordsOf, ok.obj]
  obtain ⟨σ', h1⟩ := WrL.ends hs.is hs.flt
    (Wr.addRemarkToFact (C := calmCtx cfg lim) rfl rfl rfl hs.inv (fun h => by cases h) (fun _ => hc) hs.flt hf.L hf.D hp
      ok.ent ok.says hop (by rw [ht]; exact ok.text) (by rw [ht]))
  rw [ht] at h1
  exact ⟨σ, σ', op, hs.inv, hc, hs.keeps, hs.T0, hop, h1⟩

/-! ### bad words -/

theorem splitSpace_head {s : GoStr} (h : LeadingGap s) : (splitSpace s).headD [] = [] := by
  cases s with
  | nil => rfl
  | cons b t =>
    rcases h with h | ⟨a, h⟩
    · cases h
    cases h
    unfold splitSpace
    cases hs : splitSpace t with
    | nil => exact absurd hs (splitSpace_ne_nil t)
    | cons w ws => simp [spaceByte]

theorem badHead_blank {σ : St} {s : GoStr} (h : LeadingGap s) : BadHead σ s := by
  unfold BadHead
  rw [splitSpace_head h]
  unfold BadWord
  trivial

theorem splitSpace_one {s : GoStr} (h : (32 : UInt8) ∉ s) : splitSpace s = [s] := by
  induction s with
  | nil => rfl
  | cons b t ih =>
    unfold splitSpace
    rw [ih (fun h' => h (by simp [h']))]
    have : b ≠ spaceByte := fun e => h (by rw [e]; simp [spaceByte])
    simp [this]

theorem badTail_one {σ : St} {s : GoStr} (h : (32 : UInt8) ∉ s) : ¬ BadTail σ s := by
  unfold BadTail AnyBad
  rw [splitSpace_one h]
  simp

/-! ### no empty word is ever stored -/

theorem splitSpace_append (a b : GoStr) : splitSpace (a ++ 32 :: b) = splitSpace a ++ splitSpace b := by
  induction a with
  | nil =>
    show splitSpace (32 :: b) = [] :: splitSpace b
    rw [splitSpace]
    cases hs : splitSpace b with
    | nil => exact absurd hs (splitSpace_ne_nil b)
    | cons w ws => simp [spaceByte]
  | cons x a ih =>
    rw [List.cons_append, splitSpace, ih]
    conv => rhs; rw [splitSpace]
    cases hs : splitSpace a with
    | nil => exact absurd hs (splitSpace_ne_nil a)
    | cons w ws =>
      simp only [List.cons_append]
      split <;> rfl

theorem Spec.Gap.mem {s : GoStr} (h : Gap s) : [] ∈ splitSpace s := by
  rcases h with h | h | ⟨a, h⟩ | ⟨a, b, h⟩
  · rw [h]; simp [splitSpace]
  · obtain ⟨a, h⟩ := h
    rw [h, show (32 :: a : GoStr) = [] ++ 32 :: a from rfl, splitSpace_append]; simp [splitSpace]
  · rw [h, splitSpace_append]; simp [splitSpace]
  · rw [h, splitSpace_append, show (32 :: b : GoStr) = [] ++ 32 :: b from rfl, splitSpace_append]; simp [splitSpace]

theorem Says.noGap {σ r o p} (h : Says σ r (wordsOf o) (wordsOf p)) : ¬ Gap o ∧ ¬ Gap p := by
  obtain ⟨_, _, _, _, _, h1, h2⟩ := h
  have key : ∀ {s : GoStr} {e}, PhraseEnt σ (wordsOf s) e → ¬ Gap s := fun {s e} h g => by
    obtain ⟨w, hw⟩ := h.words [] (List.mem_map.2 ⟨[], g.mem, rfl⟩)
    exact hw.ne_nil rfl
  exact ⟨key h1, key h2⟩

/-! ### the four creating calls together -/

theorem Ends.cons {α : Type} {cfg : Cfg} {lim : Lim} {σ : St} {good good' : α → St → Prop} {bad bad' : Bool → St → Prop}
    {res : Out α × World} {σ' : St} (h : Ends cfg lim σ good bad res σ') (hg : ∀ a σ', good a σ' → good' a σ')
    (hb : ∀ b σ', bad b σ' → bad' b σ') : Ends cfg lim σ good' bad' res σ' := by
  refine ⟨h.is, h.ext, h.flt, ?_⟩
  have := h.out
  generalize res.1 = o at this ⊢
  cases o with
  | ok a => exact hg _ _ this
  | err e => exact hb _ _ this
  | panic => exact hb _ _ this
  | spin => exact this

theorem Ends.some {cfg : Cfg} {lim : Lim} {σ : St} {good : RemE → St → Prop} {bad : Bool → St → Prop}
    {p : Go RemE} {w : World} {σ' : St} (h : Ends cfg lim σ good bad (p.exec cfg w) σ') :
    Ends cfg lim σ (fun x σ' => ∃ r, x = some r ∧ good r σ') bad
      ((do let r ← p; pure (some r) : Go (Option RemE)).exec cfg w) σ' := by
  rw [exec_bind]
  obtain ⟨h1, h2, h3, h4⟩ := h
  generalize p.exec cfg w = res at h1 h4
  obtain ⟨o, w'⟩ := res
  cases o with
  | ok a => exact ⟨h1, h2, h3, ⟨a, rfl, h4⟩⟩
  | err e => exact ⟨h1, h2, h3, h4⟩
  | panic => exact ⟨h1, h2, h3, h4⟩
  | spin => exact h4.elim

/-- a reason to refuse a call that does not lie in its text -/
def extraErr (cfg : Cfg) (σ : St) : Call → Prop
  | .addFact _ _ _ => cfg.zero = false
  | .addChild _ _ _ => cfg.zero = false ∨ 2 ≤ (σ.T 0).length
  | _ => False

/-- what a successful creating call does to the targets of node 0 -/
def Links (cfg : Cfg) : Call → St → St → Prop
  | .addFact _ _ _ => fun σ σ' => cfg.zero = true ∧ ∃ x, σ'.T 0 = x :: σ.T 0
  | .addChild _ _ _ => fun σ σ' => cfg.zero = true ∧ Grown σ σ'
  | _ => fun σ σ' => cfg.zero = true → σ'.T 0 = σ.T 0

/-- how a creating call ends -/
theorem Sound.creates {cfg : Cfg} {lim : Lim} {fuel : Nat} (hd : Policy cfg lim) (hf : Fits lim fuel)
    {st : State} (h : Sound cfg lim st) {c : Call} (ht : ∀ t ∈ c.texts, TextOK lim t) {o p : GoStr}
    (hc : c.pair st.log = some (o, p)) :
    ∃ σ σ', Inv cfg lim σ ∧ Clean σ ∧ Keeps lim σ st.log ∧ σ.T 0 = st.world.store.targets 0 ∧ Ends cfg lim σ
      (fun x σ' => ∃ r, x = some r ∧ (∃ op, Stored σ σ' r (wordsOf o) (wordsOf p) op) ∧ ¬ BadHead σ o ∧ ¬ BadHead σ p ∧ NewText lim σ σ' r o p ∧
        Links cfg c σ σ' ∧ PairSt σ σ' o p .created)
      (apiErr cfg lim σ o p (extraErr cfg σ c)) ((c.prog fuel st.log).exec cfg st.world) σ' := by
  cases c with
  | createStory o' p' =>
    cases hc
    obtain ⟨σ, σ', h1, h2, h3, h0, h4⟩ := h.createStory hd hf (ht o (by simp [Call.texts])) (ht p (by simp [Call.texts]))
    exact ⟨σ, σ', h1, h2, h3, h0, (h4.cons (fun r σ' h => ⟨⟨_, h.1⟩, h.2⟩) (fun _ _ h => h)).some⟩
  | addFact i o' p' =>
    obtain ⟨e, he, hq⟩ := Option.map_eq_some_iff.1 hc
    cases hq
    obtain ⟨σ, σ', h1, h2, h3, h0, h4⟩ := h.addFact hf (List.mem_of_getElem? he) (ht o (by simp [Call.texts]))
      (ht p (by simp [Call.texts]))
    refine ⟨σ, σ', h1, h2, h3, h0, ?_⟩
    simp only [Call.prog, he]
    exact (h4.cons (fun r σ' h => ⟨⟨_, h.1⟩, h.2.2.1, h.2.2.2.1, h.2.2.2.2.1, ⟨h.2.1, h.2.2.2.2.2.1⟩, h.2.2.2.2.2.2⟩) (fun _ _ h => h)).some
  | addChild i o' p' =>
    obtain ⟨e, he, hq⟩ := Option.map_eq_some_iff.1 hc
    cases hq
    obtain ⟨σ, σ', h1, h2, h3, h0, h4⟩ := h.addChild hf (List.mem_of_getElem? he) (ht o (by simp [Call.texts]))
      (ht p (by simp [Call.texts]))
    refine ⟨σ, σ', h1, h2, h3, h0, ?_⟩
    simp only [Call.prog, he]
    exact (h4.cons (fun r σ' h => ⟨⟨_, h.1⟩, h.2.2.1, h.2.2.2.1, h.2.2.2.2.1, ⟨h.2.1, h.2.2.2.2.2.1⟩, h.2.2.2.2.2.2⟩) (fun _ _ h => h)).some
  | addRemark i p' =>
    obtain ⟨e, he, hq⟩ := Option.map_eq_some_iff.1 hc
    cases hq
    obtain ⟨σ, σ', op, h1, h2, h3, h0, _, h4⟩ := h.addRemark hf (List.mem_of_getElem? he) (ht p (by simp [Call.texts]))
    refine ⟨σ, σ', h1, h2, h3, h0, ?_⟩
    simp only [Call.prog, he]
    exact (h4.cons (fun r σ' h => ⟨⟨_, h.1⟩, h.2⟩) (fun _ _ h => h)).some
  | query => cases hc
  | getRemark => cases hc

/-- what the text of a creating call says about its end -/
structure Outcome (o p : GoStr) (out : Out (Option RemE)) : Prop where
  spin : out ≠ .spin
  ok : ∀ x, out = .ok x → ¬ Gap o ∧ ¬ Gap p
  panic : out = .panic → ¬ LeadingGap o ∧ (32 ∈ o ∨ (¬ LeadingGap p ∧ 32 ∈ p))

theorem Spec.Calm.outcome {cfg : Cfg} {fuel : Nat} {es : List Event} (h : Calm cfg fuel es) {c : Call}
    (ht : ∀ t ∈ c.texts, t.length < fuel) {o p : GoStr} (hc : c.pair (after cfg fuel es).log = some (o, p)) :
    Outcome o p ((c.prog fuel (after cfg fuel es).log).exec cfg (after cfg fuel es).world).1 := by
  obtain ⟨σ, σ', hi, _, _, _, he⟩ := h.sound.creates (.inl h.dup) h.budget.fits (fun t h' => TextOK.std (ht t h')) hc
  have := he.out
  generalize ((c.prog fuel (after cfg fuel es).log).exec cfg (after cfg fuel es).world).1 = out at this
  have tail : ∀ {s : GoStr}, BadTail σ' s → 32 ∈ s := fun {s} hb => by
    by_cases hs : (32 : UInt8) ∈ s
    · exact hs
    · exact absurd hb (badTail_one hs)
  cases out with
  | ok a =>
    obtain ⟨r, _, ⟨op, hs⟩, _, _⟩ := this
    exact ⟨by simp, fun _ _ => hs.says.noGap, fun h => by cases h⟩
  | err e => exact ⟨by simp, fun _ h => (by cases h), fun h => (by cases h)⟩
  | panic =>
    refine ⟨by simp, fun _ h => (by cases h), fun _ => ?_⟩
    obtain ⟨_, h1, h2⟩ := this
    refine ⟨fun hl => h1 (badHead_blank hl), ?_⟩
    rcases h2 with h2 | ⟨_, h2, h3⟩
    · exact .inl (tail h2)
    · exact .inr ⟨fun hl => h2 (badHead_blank hl), tail h3⟩
  | spin => exact this.elim

end Semnet
