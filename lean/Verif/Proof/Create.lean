import Verif.Proof.Calls
/-
  Creating calls under storage failures; word starts.
-/
namespace Semnet
open Spec

theorem WrL.some {C : Ctx} {σ : St} {good : RemE → St → Prop} {bad} {p : Go RemE} (h : WrL C good bad p σ) :
    WrL C (fun x σ' => ∃ r, x = some r ∧ good r σ') bad (do let r ← p; pure (some r)) σ :=
  WrL.bind h fun r _ h1 h2 => WrL.ret h1.inv ⟨r, rfl, h2⟩

/-- how a creating call ends, whatever fails -/
theorem createWp {C : Ctx} {fuel : Nat} {σ : St} {log : List Entry} (k : CallOK C fuel σ log) {c : Call}
    (ht : ∀ t ∈ c.texts, TextOK C.lim t) {o p : GoStr} (hc : c.pair log = some (o, p)) :
    WrL C (fun x σ' => ∃ r, x = some r ∧ (∃ op, Stored σ σ' r (wordsOf o) (wordsOf p) op) ∧ ¬ BadHead σ o ∧ ¬ BadHead σ p ∧ NewText C.lim σ σ' r o p ∧
        Links C.cfg c σ σ' ∧ PairSt σ σ' o p .created)
      (apiErr C.cfg C.lim σ o p (extraErr C.cfg σ c)) (c.prog fuel log) σ := by
  cases c with
  | createStory o' p' =>
    cases hc
    exact (WrL.cons (Wr.createStoryG k.R k.up k.lo k.inv k.B k.clean k.flt k.L k.D (ht o (by simp [Call.texts]))
      (ht p (by simp [Call.texts]))) (fun r σ' _ h => ⟨⟨_, h.1⟩, h.2⟩) (fun _ _ _ h => h)).some
  | addFact i o' p' =>
    obtain ⟨e, he, h0⟩ := Option.map_eq_some_iff.1 hc
    cases h0
    simp only [Call.prog, he]
    exact (WrL.cons (Wr.addFactToStory k.R k.up k.lo k.inv k.B k.clean k.flt k.L k.D (ht o (by simp [Call.texts]))
      (ht p (by simp [Call.texts])) (k.keeps.get he).ent) (fun r σ' _ h => ⟨⟨_, h.1⟩, h.2.2.1, h.2.2.2.1, h.2.2.2.2.1, ⟨h.2.1, h.2.2.2.2.2.1⟩, h.2.2.2.2.2.2⟩) (fun _ _ _ h => h)).some
  | addChild i o' p' =>
    obtain ⟨e, he, h0⟩ := Option.map_eq_some_iff.1 hc
    cases h0
    simp only [Call.prog, he]
    exact (WrL.cons (Wr.createChildStory k.R k.up k.lo k.inv k.B k.clean k.flt k.L k.D k.two (ht o (by simp [Call.texts]))
      (ht p (by simp [Call.texts])) (k.keeps.get he).ent) (fun r σ' _ h => ⟨⟨_, h.1⟩, h.2.2.1, h.2.2.2.1, h.2.2.2.2.1, ⟨h.2.1, h.2.2.2.2.2.1⟩, h.2.2.2.2.2.2⟩) (fun _ _ _ h => h)).some
  | addRemark i p' =>
    obtain ⟨e, he, h0⟩ := Option.map_eq_some_iff.1 hc
    cases h0
    have ok := k.keeps.get he
    obtain ⟨op, hop, _⟩ := ok.fact'
    have e1 : textOf (wordsOf e.object) = e.object := by rw [textOf_wordsOf, ok.obj]
    simp only [Call.prog, he]
    have := Wr.addRemarkToFact k.R k.up k.lo k.inv k.B k.clean k.flt k.L k.D (ht p (by simp [Call.texts])) ok.ent ok.says hop
      (by rw [e1]; exact ok.text) (by rw [e1])
    rw [e1] at this
    exact (WrL.cons this (fun r σ' _ h => ⟨⟨_, h.1⟩, h.2⟩) (fun _ _ _ h => h)).some
  | query => cases hc
  | getRemark => cases hc

/-! ### word starts -/

theorem char_space {c : Char} (h : (c.val.toNat : Int) = 32) : c = ' ' := by
  have h1 : c.toNat = 32 := by
    show c.val.toNat = 32
    omega
  rw [← Char.ofNat_toNat c, h1]

theorem head_rune {r : Int} (hv : validRune r = true) (hr : r ≠ 32) (t : GoStr) :
    ∃ rs, runesOf ((splitSpace (encodeRune r ++ t)).headD []) = r :: rs := by
  cases hs : splitSpace t with
  | nil => exact absurd hs (splitSpace_ne_nil t)
  | cons w ws =>
    rw [splitSpace_prefix (encodeRune_nospace hr) hs, List.headD_cons]
    exact ⟨_, runesOf_encode hv w⟩

/-- the first word of `s` and its first rune -/
theorem head_char {c : Char} (hc : c ≠ ' ') {s : GoStr} (h : String.utf8EncodeChar c <+: s) :
    ∃ rs, runesOf ((splitSpace s).headD []) = (c.val.toNat : Int) :: rs := by
  obtain ⟨t, rfl⟩ := h
  rw [← encode_char]
  exact head_rune (char_valid c) (fun e => hc (char_space e)) t

theorem badHead_iff {c : Char} (hc : c ≠ ' ') {s : GoStr} (h : String.utf8EncodeChar c <+: s) {σ : St} :
    BadHead σ s ↔ Dead σ (bitsOf (c.val.toNat : Int)) := by
  obtain ⟨rs, hr⟩ := head_char hc h
  unfold BadHead BadWord
  rw [hr]

/-- every call with a dead word start fails, whatever else fails -/
theorem CallOK.dead {C : Ctx} {fuel : Nat} {st : State} {σ : St} (k : CallOK C fuel σ st.log) (hw : σ.Is st.world)
    {f : Nat → Fate} (hf : C.F = true ∨ f = Go.noFault) {c : Call} (ht : ∀ t ∈ c.texts, TextOK C.lim t) {o p : GoStr}
    (hc : c.pair st.log = some (o, p)) (hd : BadHead σ o ∨ BadHead σ p) :
    (∀ x, ((c.prog fuel st.log).run C.cfg f st.world).1 ≠ .ok x) ∧
    (f = Go.noFault → BadHead σ o → ∃ e, ((c.prog fuel st.log).run C.cfg f st.world).1 = .err e) := by
  obtain ⟨σ', _, ⟨_, h2⟩, h3⟩ := wp_run k.R hf hw (createWp k ht hc)
  generalize ((c.prog fuel st.log).run C.cfg f st.world).1 = out at h2
  cases out with
  | ok a =>
    obtain ⟨_, _, _, h4, h5, _⟩ := h2
    exact (hd.elim h4 h5).elim
  | err e => exact ⟨by simp, fun _ _ => ⟨e, rfl⟩⟩
  | panic =>
    refine ⟨by simp, fun h4 h5 => ?_⟩
    rcases h2 with h2 | h2
    · rw [h3 h4, k.flt] at h2; cases h2
    · exact (h2.2.1 h5).elim
  | spin => exact h2.elim

theorem createStory_err {cfg : Cfg} {fuel : Nat} {st : State} {o p : GoStr} {e : Err} {w : World}
    (h : (Graph.createStory fuel o p).exec cfg st.world = (.err e, w)) :
    st.events cfg fuel [.call (.createStory o p) Go.noFault] = ⟨w, st.log⟩ := by
  have h1 : (Call.prog fuel st.log (.createStory o p)).run cfg Go.noFault st.world = (.err e, w) := by
    show Go.exec cfg (do let r ← Graph.createStory fuel o p; pure (some r)) st.world = _
    rw [exec_bind, h]
  show State.call _ _ _ _ _ = _
  unfold State.call
  rw [h1]

end Semnet
