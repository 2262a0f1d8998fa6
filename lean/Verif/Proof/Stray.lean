import Verif.Proof.Loose
import Verif.Proof.Catalogue
import Verif.Spec.Stray
/- Calls on handles fetched by an arbitrary identifier (for C66). -/
namespace Semnet
open Spec

/-- `p` changes nothing and reports an error -/
def Errs {α : Type} (cfg : Cfg) (s : Store) (p : Go α) : Prop := ∃ e, Ev cfg s p (.err e)

namespace Errs
variable {α β : Type} {cfg : Cfg} {s : Store}

theorem left {p : Go α} {f : α → Go β} (h : Errs cfg s p) : Errs cfg s (p >>= f) := let ⟨e, h⟩ := h; ⟨e, h.left⟩

theorem right {p : Go α} {f : α → Go β} {a} (h : Ev cfg s p (.ok a)) (h' : Errs cfg s (f a)) : Errs cfg s (p >>= f) :=
  let ⟨e, h'⟩ := h'; ⟨e, h.bind h'⟩

theorem dead {x : Nat} (h : s.live x = false) : Errs cfg s (Go.getReference x) := by
  refine ⟨.noNode, fun g m => ?_⟩
  simp [Go.getReference, Go.call, Go.runs, Go.noFault, Store.step, h]

/-- either the node is missing, or its references are read -/
theorem ref {x : Nat} {f : Nat × Nat → Go β} (h : s.live x = true → Errs cfg s (f (s.back x, s.fwd x))) :
    Errs cfg s (Go.getReference x >>= f) := by
  cases hx : s.live x with
  | false => exact (dead hx).left
  | true => exact .right (.ref hx rfl rfl) (h hx)

theorem deadTargets {x : Nat} (h : s.live x = false) : Errs cfg s (Go.readTargets x) := by
  refine ⟨.noNode, fun g m => ?_⟩
  simp [Go.readTargets, Go.call, Go.runs, Go.noFault, Store.step, h]

end Errs

theorem ev_getRemark (cfg : Cfg) (s : Store) (x : Nat) : Errs cfg s (Graph.getRemark x) ∨
    Ev cfg s (Graph.getRemark x) (.ok ⟨x, s.fwd x, s.fwd (s.fwd x), s.fwd (s.fwd (s.fwd x))⟩) := by
  unfold Graph.getRemark Remark.readEntityByClass
  cases h1 : s.live x with
  | false => exact .inl (Errs.dead h1).left
  | true =>
    cases h2 : s.live (s.fwd x) with
    | false => exact .inl (.right (.ref h1 rfl rfl) (Errs.dead h2).left)
    | true =>
      cases h3 : s.live (s.fwd (s.fwd x)) with
      | false => exact .inl (.right (.ref h1 rfl rfl) (.right (.ref h2 rfl rfl) (Errs.dead h3).left))
      | true => exact .inr (.bind (.ref h1 rfl rfl) (.bind (.ref h2 rfl rfl) (.bind (.ref h3 rfl rfl) (.ret _))))

variable {cfg : Cfg} {lim : Lim} {σ : St}

/-- the references lead from `x` to the end of an entity in `n` steps -/
inductive Runs (σ : St) : Nat → Nat → Prop
  | last {x} : (σ.tag x).noF = true → Runs σ 0 x
  | next {n x y} : Ref σ x y → Runs σ n y → Runs σ (n + 1) x

theorem Owns.runs (hi : Inv cfg lim σ) {x y : Nat} (h : Owns σ x y) (hx : ∃ n, n ≤ 3 ∧ Runs σ n x) :
    ∃ n, n ≤ 3 ∧ Runs σ n y := by
  induction h with
  | head => exact hx
  | step _ hr ih =>
    obtain ⟨n, hn, h⟩ := ih
    cases h with
    | last h => exact absurd (hr.f.symm.trans (hi.noF _ h)) hr.hy
    | next hr' h' =>
      have := hr.f.symm.trans hr'.f
      subst this
      exact ⟨_, by omega, h'⟩

theorem Clean.runs (hi : Inv cfg lim σ) (hc : Clean σ) {y : Nat} (hy : σ.tag y ≠ .none) (h9 : 9 ≤ y) :
    ∃ n, n ≤ 3 ∧ Runs σ n y := by
  obtain ⟨x, k, hx, ho⟩ := hc.whole.owned y hy h9
  refine ho.runs hi ?_
  rcases (hc.whole.heads x k hx).nodes with ⟨a, b, c, t1, t2, t3, hk, h, _, _, h3⟩ | ⟨_, a, b, r1, r2, _, h2⟩ | ⟨_, a, v, r1, h1⟩
  · exact ⟨3, by omega, .next h.ab (.next h.bc (.next h.cd (.last (by rw [h3]; cases hk <;> rfl))))⟩
  · exact ⟨2, by omega, .next r1 (.next r2 (.last (by rw [h2]; rfl)))⟩
  · exact ⟨1, by omega, .next r1 (.last (by rw [h1]; rfl))⟩

/-- where the fourth node of a fetched handle can lie: nowhere, at the end of an entity, or among the last class nodes -/
def Far (σ : St) (i y : Nat) : Prop := y = 0 ∨ (σ.tag y).noF = true ∨ (i ≤ y ∧ y ≤ 8)

theorem Far.mono {σ' : St} (m : Mono σ σ') {i y : Nat} (h : Far σ i y) : Far σ' i y := by
  rcases h with h | h | h
  · exact .inl h
  · exact .inr (.inl (by rw [m.tag y (by intro e; rw [e] at h; cases h)]; exact h))
  · exact .inr (.inr h)

theorem Inv.fwd0 (hi : Inv cfg lim σ) (hz : cfg.zero = false) : σ.fwd 0 = 0 := (hi.ref0 0 (hi.node0 hz)).1

theorem Inv.dead0 (hi : Inv cfg lim σ) (hz : cfg.zero = false) : σ.store.live 0 = false := by
  cases h : σ.store.live 0 with
  | false => rfl
  | true => exact absurd (hi.node0 hz) ((hi.live 0).1 h)

theorem far_third (hz : cfg.zero = false) (hi : Inv cfg lim σ) (hc : Clean σ) {i x : Nat} (hx : σ.tag x ≠ .none)
    (hix : i ≤ 8 ∧ (x ≤ 8 → i ≤ x + 3)) : Far σ i (σ.fwd (σ.fwd (σ.fwd x))) := by
  have h0 := hi.fwd0 hz
  have x0 : x ≠ 0 := fun e => hx (by rw [e]; exact hi.node0 hz)
  by_cases h9 : 9 ≤ x
  · obtain ⟨n, hn, h⟩ := hc.runs hi hx h9
    cases h with
    | last h => rw [hi.noF _ h, h0, h0]; exact .inl rfl
    | next r h =>
      rw [r.f]
      cases h with
      | last h => rw [hi.noF _ h, h0]; exact .inl rfl
      | next r h =>
        rw [r.f]
        cases h with
        | last h => rw [hi.noF _ h]; exact .inl rfl
        | next r h =>
          rw [r.f]
          cases h with
          | last h => exact .inr (.inl h)
          | next r h => omega
  · have h8 := hi.ends.1
    have hr := fun j h1 h2 => hi.roots j h1 h2
    by_cases e8 : x = 8
    · rw [e8, h8, h0, h0]; exact .inl rfl
    rw [hr x (by omega) (by omega)]
    by_cases e7 : x = 7
    · rw [e7, h8, h0]; exact .inl rfl
    rw [hr (x + 1) (by omega) (by omega)]
    by_cases e6 : x = 6
    · rw [e6, h8]; exact .inl rfl
    rw [hr (x + 1 + 1) (by omega) (by omega)]
    exact .inr (.inr ⟨by omega, by omega⟩)

section
variable (hz : cfg.zero = false) (hi : Inv cfg lim σ)
include hz hi

/-- the beginning common to CreateNextFact and CreateChildStoryFact -/
theorem Far.errs {y : Nat} (h : Far σ 6 y) : Errs cfg σ.store (Fact.readEntityByRemark y) ∨
    ∃ a, Ev cfg σ.store (Fact.readEntityByRemark y) (.ok a) ∧ Errs cfg σ.store (Story.fetchByFact a.story) := by
  have h0 : Errs cfg σ.store (Go.getReference 0) := .dead (hi.dead0 hz)
  have h8 : σ.store.fwd 8 = 0 := hi.ends.1
  have h7 : σ.store.fwd 7 = 8 := hi.roots 7 (by omega) (by omega)
  have h6 : σ.store.fwd 6 = 7 := hi.roots 6 (by omega) (by omega)
  have live : ∀ i, 1 ≤ i → i ≤ 8 → σ.store.live i = true := fun i h1 h2 =>
    (hi.live i).2 (by rw [(hi.root i).2 ⟨h1, h2⟩]; simp)
  unfold Fact.readEntityByRemark Story.fetchByFact
  rcases h with h | h | ⟨h, h'⟩
  · subst h; exact .inl h0.left
  · refine .inl (.ref fun _ => ?_)
    have : σ.store.fwd y = 0 := hi.noF y h
    rw [this]
    exact h0.left
  · have : y = 6 ∨ y = 7 ∨ y = 8 := by omega
    rcases this with e | e | e <;> subst e
    · refine .inr ⟨_, .bind (.ref (live 6 (by omega) (by omega)) rfl h6) (.bind (.ref (live 7 (by omega) (by omega)) rfl h7)
        (.ret _)), .ref fun _ => ?_⟩
      show Errs cfg σ.store (Go.getReference (σ.store.fwd 8) >>= _)
      rw [h8]
      exact h0.left
    · exact .inr ⟨_, .bind (.ref (live 7 (by omega) (by omega)) rfl h7) (.bind (.ref (live 8 (by omega) (by omega)) rfl h8)
        (.ret _)), h0.left⟩
    · refine .inl (.ref fun _ => ?_)
      rw [h8]
      exact h0.left

theorem errs_nextFact {y : Nat} (h : Far σ 6 y) : Errs cfg σ.store (Fact.createNextFact y) := by
  unfold Fact.createNextFact
  rcases h.errs hz hi with h | ⟨a, h, h'⟩
  · exact h.left
  · exact .right h h'.left

theorem errs_childFact {fuel y : Nat} (h : Far σ 5 y) : Errs cfg σ.store (Fact.createChildStoryFact fuel y) := by
  unfold Fact.createChildStoryFact
  have live : ∀ i, 1 ≤ i → i ≤ 8 → σ.store.live i = true := fun i h1 h2 =>
    (hi.live i).2 (by rw [(hi.root i).2 ⟨h1, h2⟩]; simp)
  have ref : ∀ i j, 1 ≤ i → i ≤ 8 → σ.fwd i = j → Ev cfg σ.store (Go.getReference i) (.ok (σ.store.back i, j)) :=
    fun i j h1 h2 h => .ref (live i h1 h2) rfl h
  by_cases h5 : y = 5
  · subst h5
    refine .right (a := ⟨σ.store.back 5, 5, 6, 7⟩) ?_ (.right (a := ⟨σ.store.back 7, 7, 8, 0⟩) ?_ (Errs.deadTargets (hi.dead0 hz)).left.left)
    · exact .bind (ref 5 6 (by omega) (by omega) (hi.roots 5 (by omega) (by omega)))
        (.bind (ref 6 7 (by omega) (by omega) (hi.roots 6 (by omega) (by omega))) (.ret _))
    · exact .bind (ref 7 8 (by omega) (by omega) (hi.roots 7 (by omega) (by omega)))
        (.bind (ref 8 0 (by omega) (by omega) hi.ends.1) (.ret _))
  · have h : Far σ 6 y := by
      rcases h with h | h | h
      · exact .inl h
      · exact .inr (.inl h)
      · exact .inr (.inr ⟨by omega, h.2⟩)
    rcases h.errs hz hi with h | ⟨a, h, h'⟩
    · exact h.left
    · exact .right h h'.left

end

/-- the outcome of a call that does not succeed, in a calm storage -/
structure Foiled (cfg : Cfg) (lim : Lim) (st : State) (p : Go (Option RemE)) : Prop where
  out : ∀ r, (p.exec cfg st.world).1 ≠ .ok (some r)
  sound : Sound cfg lim ⟨(p.exec cfg st.world).2, st.log⟩

theorem Holds.ext {st : State} {w : World} (h : Holds cfg lim st σ) (hc : Clean σ) {σ' : St}
    (hx : ExtC (calmCtx cfg lim) σ σ') (hw : σ'.Is w) (hf : σ'.flt = false) : Sound cfg lim ⟨w, st.log⟩ :=
  .inr ⟨σ', ⟨hw, hx.inv, hf, h.keeps.mono hx.mono⟩, hx.clean hc hf⟩

/-- a call whose second half fails without writing -/
theorem fails_pre {α : Type} {st : State} (h : Holds cfg lim st σ) (hc : Clean σ) {pre : Go α} {good bad}
    (hp : WrL (calmCtx cfg lim) good bad pre σ) {k : α → Go (Option RemE)}
    (hk : ∀ r σ', Inv cfg lim σ' → Clean σ' → Mono σ σ' → Errs cfg σ'.store (k r)) :
    Foiled cfg lim st (pre >>= k) := by
  obtain ⟨σ1, h1, ⟨hx, _⟩, h3⟩ := wp_run (C := calmCtx cfg lim) rfl (f := Go.noFault) (.inr rfl) h.is hp
  have hfl : σ1.flt = false := (h3 rfl).trans h.flt
  have h1 : σ1.Is (pre.exec cfg st.world).2 := h1
  generalize hb : pre.exec cfg st.world = out at h1
  obtain ⟨out, w⟩ := out
  have key : ((pre >>= k).exec cfg st.world).2 = w ∧ ∀ r, ((pre >>= k).exec cfg st.world).1 ≠ .ok (some r) := by
    rw [exec_bind, hb]
    cases out with
    | ok r =>
      obtain ⟨e, he⟩ := hk r σ1 hx.inv (hx.clean hc hfl) hx.mono
      have := he.exec w.mem
      rw [h1.store] at this
      exact ⟨by show (Go.exec cfg _ w).2 = w; rw [this], fun r => by show (Go.exec cfg _ w).1 ≠ _; rw [this]; simp⟩
    | _ => exact ⟨rfl, fun r => by simp⟩
  exact ⟨key.2, by rw [key.1]; exact h.ext hc hx h1 hfl⟩

theorem fails_half {fuel : Nat} (hf : Fits lim fuel) {st : State} (h : Holds cfg lim st σ) (hc : Clean σ) {o p : GoStr}
    (ho : TextOK lim o) (hp : TextOK lim p) {k : RemE → Go RemE}
    (hk : ∀ r σ', Inv cfg lim σ' → Mono σ σ' → Errs cfg σ'.store (k r)) :
    Foiled cfg lim st (half fuel (pure o) p >>= fun r => k r >>= fun r => pure (some r)) := by
  have c := h.calm hf hc
  exact fails_pre h hc (Wr.half (C := calmCtx cfg lim) rfl rfl rfl c.inv c.B c.clean c.flt c.L c.D
    (fun σ' h => Rd.ret (a := o) h.inv rfl) ho hp) (fun r σ' hi _ m => (hk r σ' hi m).left)

theorem fails_errs {st : State} {p : Go (Option RemE)} (h : Errs cfg st.world.store p) (hs : Sound cfg lim st) :
    Foiled cfg lim st p := by
  obtain ⟨e, he⟩ := h
  have := he.exec st.world.mem
  have : p.exec cfg st.world = (.err e, st.world) := this
  exact ⟨fun r => by rw [this]; simp, by rw [this]; exact hs⟩

/-- fetch the handle, then do `k` -/
theorem fails_get {st : State} {x : Nat} {k : RemE → Go (Option RemE)} (hs : Sound cfg lim st)
    (hk : st.world.store.live x = true → Foiled cfg lim st (k ⟨x, st.world.store.fwd x, st.world.store.fwd (st.world.store.fwd x),
      st.world.store.fwd (st.world.store.fwd (st.world.store.fwd x))⟩)) :
    Foiled cfg lim st (Graph.getRemark x >>= k) := by
  cases hx : st.world.store.live x with
  | false => exact fails_errs (Errs.dead hx).left.left hs
  | true =>
    rcases ev_getRemark cfg st.world.store x with h | h
    · exact fails_errs h.left hs
    · have h1 := h.exec st.world.mem
      have h1 : (Graph.getRemark x).exec cfg st.world = (.ok _, st.world) := h1
      have h2 : (Graph.getRemark x >>= k).exec cfg st.world = (k ⟨x, st.world.store.fwd x,
        st.world.store.fwd (st.world.store.fwd x), st.world.store.fwd (st.world.store.fwd (st.world.store.fwd x))⟩).exec cfg
        st.world := by rw [exec_bind, h1]
      have h3 := hk hx
      exact ⟨fun r => by rw [h2]; exact h3.out r, by rw [h2]; exact h3.sound⟩

theorem Sound.live {st : State} (hs : Sound cfg lim st) (hz : cfg.zero = false) {x : Nat} (hx : st.world.store.live x = true) :
    ∃ σ, Holds cfg lim st σ ∧ Clean σ ∧ σ.tag x ≠ .none := by
  rcases hs with h | ⟨σ, h, hc⟩
  · rw [h] at hx
    simp [State.init, World.open, Store.empty, Store.live, hz] at hx
  · exact ⟨σ, h, hc, (h.inv.live x).1 (by rw [h.is.store]; exact hx)⟩

theorem fails_addFact {fuel : Nat} (hz : cfg.zero = false) (hf : Fits lim fuel) {st : State} (hs : Sound cfg lim st) {x : Nat}
    (hx : x ≠ 1 ∧ x ≠ 2) {o p : GoStr} (ho : TextOK lim o) (hp : TextOK lim p) :
    Foiled cfg lim st ((Errand.addFact o p).prog fuel x) := by
  refine fails_get hs fun hl => ?_
  obtain ⟨σ, h, hc, ht⟩ := hs.live hz hl
  have x0 : x ≠ 0 := fun e => ht (by rw [e]; exact h.inv.node0 hz)
  have far := far_third hz h.inv hc ht (i := 6) ⟨by omega, fun _ => by omega⟩
  have e : σ.fwd (σ.fwd (σ.fwd x)) = st.world.store.fwd (st.world.store.fwd (st.world.store.fwd x)) := by
    rw [← h.is.store]; rfl
  rw [e] at far
  rw [addFactToStory_eq, bind_assoc]
  refine fails_half hf h hc ho hp (fun r σ' hi m => ?_)
  exact (errs_nextFact hz hi (far.mono m)).left

theorem fails_addChild {fuel : Nat} (hz : cfg.zero = false) (hf : Fits lim fuel) {st : State} (hs : Sound cfg lim st) {x : Nat}
    (hx : x ≠ 1) {o p : GoStr} (ho : TextOK lim o) (hp : TextOK lim p) :
    Foiled cfg lim st ((Errand.addChild o p).prog fuel x) := by
  refine fails_get hs fun hl => ?_
  obtain ⟨σ, h, hc, ht⟩ := hs.live hz hl
  have x0 : x ≠ 0 := fun e => ht (by rw [e]; exact h.inv.node0 hz)
  have far := far_third hz h.inv hc ht (i := 5) ⟨by omega, fun _ => by omega⟩
  have e : σ.fwd (σ.fwd (σ.fwd x)) = st.world.store.fwd (st.world.store.fwd (st.world.store.fwd x)) := by
    rw [← h.is.store]; rfl
  rw [e] at far
  rw [createChildStory_eq, bind_assoc]
  refine fails_half hf h hc ho hp (fun r σ' hi m => ?_)
  exact (errs_childFact hz hi (far.mono m)).left

/-! ### AddRemarkToFact on something that is no remark -/

/-- the role of the node that refers to `y`, by the role of `y` -/
def Prev (σ : St) (y : Nat) : Prop :=
  match σ.tag y with
  | .bitc _ => ∃ x, Ref σ x y ∧ σ.tag x = .cls Class.bitId
  | .chB => ∃ x, Ref σ x y ∧ σ.tag x = .cls Class.characterId
  | .chC _ => ∃ x, Ref σ x y ∧ σ.tag x = .chB
  | .chW => ∃ x p, Ref σ x y ∧ σ.tag x = .chC p
  | .wdC => ∃ x, Ref σ x y ∧ σ.tag x = .cls Class.wordId
  | .wdW _ => ∃ x, Ref σ x y ∧ σ.tag x = .wdC
  | .wdP => ∃ x p, Ref σ x y ∧ σ.tag x = .wdW p
  | .phW => ∃ x, Ref σ x y ∧ σ.tag x = .cls Class.phraseId
  | .phP _ => ∃ x, Ref σ x y ∧ σ.tag x = .phW
  | .phD => ∃ x p, Ref σ x y ∧ σ.tag x = .phP p
  | .dtP => ∃ x, Ref σ x y ∧ σ.tag x = .cls Class.detailId
  | .rmD => ∃ x, Ref σ x y ∧ σ.tag x = .cls Class.remarkId
  | .rmP => ∃ x, Ref σ x y ∧ σ.tag x = .rmD
  | .rmF => ∃ x, Ref σ x y ∧ σ.tag x = .rmP
  | .ftR _ => ∃ x, Ref σ x y ∧ σ.tag x = .cls Class.factId
  | .ftP => ∃ x b, Ref σ x y ∧ σ.tag x = .ftR b
  | .ftS => ∃ x, Ref σ x y ∧ σ.tag x = .ftP
  | .stF => ∃ x, Ref σ x y ∧ σ.tag x = .cls Class.storyId
  | .stP => ∃ x, Ref σ x y ∧ σ.tag x = .stF
  | _ => True

theorem Whole.prev {k x : Nat} (hi : Inv cfg lim σ) (hx : σ.tag x = .cls k) (h : Whole σ k x) {y : Nat} (ho : Owns σ x y) :
    Prev σ y := by
  have hs := h.strand hi hx
  have hm := ho.mem hs (trail_head _ _ _)
  rcases h.nodes with ⟨a, b, c, t1, t2, t3, hk, hc, h1, h2, h3⟩ | ⟨hk, a, b, r1, r2, h1, h2⟩ | ⟨hk, a, v, r1, h1⟩
  · have e : trail σ.store (size k) x = [x, a, b, c] := by
      have : size k = 4 := by cases hk <;> rfl
      rw [this]
      simp [trail, (back_fwd hc.ab).1, (back_fwd hc.bc).1, (back_fwd hc.cd).1]
    rw [e] at hm
    simp only [List.mem_cons, List.not_mem_nil, or_false] at hm
    rcases hm with e | e | e | e <;> subst e <;> unfold Prev
    · rw [hx]; trivial
    · rw [h1]; cases hk <;> exact ⟨_, hc.ab, hx⟩
    · rw [h2]; cases hk <;> first | exact ⟨_, hc.bc, h1⟩ | exact ⟨_, _, hc.bc, h1⟩
    · rw [h3]; cases hk <;> first | exact ⟨_, hc.cd, h2⟩ | exact ⟨_, _, hc.cd, h2⟩ | trivial
  · subst hk
    have e : trail σ.store (size Class.detailId) x = [x, a, b] := by
      show trail σ.store 3 x = _
      simp [trail, (back_fwd r1).1, (back_fwd r2).1]
    rw [e] at hm
    simp only [List.mem_cons, List.not_mem_nil, or_false] at hm
    rcases hm with e | e | e <;> subst e <;> unfold Prev
    · rw [hx]; trivial
    · rw [h1]; exact ⟨_, r1, hx⟩
    · rw [h2]; trivial
  · subst hk
    have e : trail σ.store (size Class.bitId) x = [x, a] := by
      show trail σ.store 2 x = _
      simp [trail, (back_fwd r1).1]
    rw [e] at hm
    simp only [List.mem_cons, List.not_mem_nil, or_false] at hm
    rcases hm with e | e <;> subst e <;> unfold Prev
    · rw [hx]; trivial
    · rw [h1]; exact ⟨_, r1, hx⟩

/-- what the reads of GetObjectAndProperty would have to find -/
structure Found (s : Store) (d e o t u : Nat) : Prop where
  Sd : s.sources d = [e]
  Se : s.sources (s.back e) = [o]
  lo : s.live (s.back (s.back o)) = true
  To : s.targets (s.back (s.back o)) = [t]
  lt : s.live (s.back (s.back t)) = true
  Tt : s.targets (s.back (s.back t)) = [u]
  lu : s.live (s.back (s.back u)) = true

section
variable {s : Store}

/-- a step that yields one of several values, or an error -/
def Gives {α : Type} (cfg : Cfg) (s : Store) (p : Go α) (good : α → Prop) : Prop :=
  Errs cfg s p ∨ ∃ a, Ev cfg s p (.ok a) ∧ good a

theorem Gives.errs {α β : Type} {p : Go α} {good : α → Prop} (h : Gives cfg s p good) {f : α → Go β}
    (hf : ∀ a, good a → Errs cfg s (f a)) : Errs cfg s (p >>= f) := by
  rcases h with h | ⟨a, h, ha⟩
  · exact h.left
  · exact .right h (hf a ha)

theorem gives_src {x : Nat} {er : Err} :
    Gives cfg s (Go.readSources x >>= fun l => match l with | [e] => pure e | _ => Go.err er : Go Nat)
      (fun e => s.sources x = [e]) := by
  by_cases h : s.live x = true ∧ ∃ e, s.sources x = [e]
  · obtain ⟨hx, e, he⟩ := h
    exact .inr ⟨e, .sources hx he fun l' hl => by rw [List.perm_singleton.1 hl]; exact .ret _, he⟩
  · refine .inl ?_
    cases hx : s.live x with
    | false =>
      refine Errs.left ⟨.noNode, fun g m => ?_⟩
      simp [Go.readSources, Go.call, Go.runs, Go.noFault, Store.step, hx]
    | true => exact ⟨er, .sources hx rfl fun l' hl => .one hl fun t ht => h ⟨hx, t, ht⟩⟩

theorem gives_tgt {x : Nat} {er : Err} :
    Gives cfg s (Go.readTargets x >>= fun l => match l with | [e] => pure e | _ => Go.err er : Go Nat)
      (fun e => s.targets x = [e]) := by
  by_cases h : s.live x = true ∧ ∃ e, s.targets x = [e]
  · obtain ⟨hx, e, he⟩ := h
    exact .inr ⟨e, .targets hx he fun l' hl => by rw [List.perm_singleton.1 hl]; exact .ret _, he⟩
  · refine .inl ?_
    cases hx : s.live x with
    | false => exact (Errs.deadTargets hx).left
    | true => exact ⟨er, .targets hx rfl fun l' hl => .one hl fun t ht => h ⟨hx, t, ht⟩⟩

theorem gives_phrases (e : DetailE) :
    Gives cfg s (Detail.getObjectAndPropertyPhrases e) (fun p => s.sources e.phrase = [p.1]) := by
  unfold Detail.getObjectAndPropertyPhrases
  cases hx : s.live e.phrase with
  | false =>
    refine .inl (Errs.left ⟨.noNode, fun g m => ?_⟩)
    simp [Go.readSources, Go.call, Go.runs, Go.noFault, Store.step, hx]
  | true =>
    by_cases he : ∃ o, s.sources e.phrase = [o]
    · obtain ⟨o, he⟩ := he
      by_cases ht : ∃ t, s.targets e.phrase = [t]
      · obtain ⟨t, ht⟩ := ht
        refine .inr ⟨(o, t), .sources hx he fun l' hl => ?_, he⟩
        rw [List.perm_singleton.1 hl]
        refine .targets hx ht fun l' hl => ?_
        rw [List.perm_singleton.1 hl]
        exact .ret _
      · refine .inl ⟨.detailTargetPhrases, .sources hx he fun l' hl => ?_⟩
        rw [List.perm_singleton.1 hl]
        exact .targets hx rfl fun l' hl => .one hl fun t h => ht ⟨t, h⟩
    · exact .inl ⟨.detailSourcePhrases, .sources hx rfl fun l' hl => .one hl fun t ht => he ⟨t, ht⟩⟩

/-- three references back -/
theorem gives_back3 {α : Type} (f : Nat → Nat → Nat → α) (x : Nat) :
    Gives cfg s (do
      let p ← Go.getReference x
      let y := p.1
      let p ← Go.getReference y
      let z := p.1
      let p ← Go.getReference z
      let c := p.1
      pure (f y z c)) (fun a => a = f (s.back x) (s.back (s.back x)) (s.back (s.back (s.back x))) ∧
        s.live (s.back (s.back x)) = true) := by
  cases h1 : s.live x with
  | false => exact .inl (Errs.dead h1).left
  | true =>
    cases h2 : s.live (s.back x) with
    | false => exact .inl (.right (.ref h1 rfl rfl) (Errs.dead h2).left)
    | true =>
      cases h3 : s.live (s.back (s.back x)) with
      | false => exact .inl (.right (.ref h1 rfl rfl) (.right (.ref h2 rfl rfl) (Errs.dead h3).left))
      | true =>
        exact .inr ⟨_, .bind (.ref h1 rfl rfl) (.bind (.ref h2 rfl rfl) (.bind (.ref h3 rfl rfl) (.ret _))), rfl, rfl⟩

theorem gives_detail (x : Nat) :
    Gives cfg s (Detail.fetch x) (fun a => a.phrase = s.back x) := by
  unfold Detail.fetch Detail.readEntityByRemark
  cases h1 : s.live x with
  | false => exact .inl (Errs.dead h1).left
  | true =>
    cases h2 : s.live (s.back x) with
    | false => exact .inl (.right (.ref h1 rfl rfl) (Errs.dead h2).left)
    | true => exact .inr ⟨_, .bind (.ref h1 rfl rfl) (.bind (.ref h2 rfl rfl) (.ret _)), rfl⟩

/-- GetObjectAndProperty fails if the reads cannot find a text -/
theorem errs_text {a : RemE} (h : ∀ e o t u, ¬ Found s a.detail e o t u) (fuel : Nat) :
    Errs cfg s (Remark.getObjectAndProperty fuel a) := by
  unfold Remark.getObjectAndProperty
  refine (gives_src : Gives cfg s (Remark.getSourceDetail a) _).errs fun e he => ?_
  refine (gives_detail e).errs fun d hd => ?_
  unfold Detail.getObjectAndProperty
  refine (gives_phrases d).errs fun p hp => ?_
  rw [hd] at hp
  refine (gives_back3 (fun y z c => (⟨c, z, y, p.1⟩ : PhraseE)) p.1 : Gives cfg s (Phrase.fetch p.1) _).errs fun ph hph => ?_
  obtain ⟨rfl, lo⟩ := hph
  refine Errs.left ?_
  unfold Phrase.extract Phrase.extractWordValue
  simp only [bind_assoc]
  refine (gives_tgt : Gives cfg s (Phrase.getTargetWord _) _).errs fun t ht => ?_
  refine (gives_back3 (fun y z c => (⟨c, z, y, t⟩ : WordE)) t : Gives cfg s (Word.fetch t) _).errs fun w hw => ?_
  obtain ⟨rfl, lt⟩ := hw
  refine Errs.left ?_
  unfold Word.extract Word.extractCharacterValue
  simp only [bind_assoc]
  refine (gives_tgt : Gives cfg s (Word.getTargetCharacter _) _).errs fun u hu => ?_
  refine Errs.left (Errs.left ?_)
  rcases (gives_back3 (fun y z c => (⟨c, z, y, u⟩ : CharE)) u : Gives cfg s (Character.readEntityByWord u) _) with h' | ⟨_, _, _, lu⟩
  · exact h'
  · exact absurd ⟨he, hp, lo, ht, lt, hu, lu⟩ (h e p.1 t u)

end

theorem Clean.prev (hz : cfg.zero = false) (hi : Inv cfg lim σ) (hc : Clean σ) {y : Nat} (h : σ.tag y ≠ .none)
    (h' : σ.tag y ≠ .root) : Prev σ y := by
  have h9 : 9 ≤ y := by
    have h1 : y ≠ 0 := fun e => h (by rw [e]; exact hi.node0 hz)
    have h2 : ¬ (1 ≤ y ∧ y ≤ 8) := fun e => h' ((hi.root y).2 e)
    omega
  obtain ⟨x, k, hx, ho⟩ := hc.whole.owned y h h9
  exact (hc.whole.heads x k hx).prev hi hx ho

section
variable (hz : cfg.zero = false) (hi : Inv cfg lim σ)
include hi

theorem Inv.edgeS {y x : Nat} (h : σ.store.sources y = [x]) : EdgeOK σ x y :=
  hi.edge x y (mem_S.1 (show x ∈ σ.store.sources y by rw [h]; simp))

theorem Inv.edgeT {x y : Nat} (h : σ.store.targets x = [y]) : EdgeOK σ x y :=
  hi.edge x y (mem_T.1 (show y ∈ σ.store.targets x by rw [h]; simp))

theorem Inv.noTag {x y : Nat} (h : σ.tag x = .root ∨ σ.tag x = .rmD) : σ.store.targets x ≠ [y] := by
  intro h'
  have := hi.edgeT h'
  unfold EdgeOK at this
  rcases h with h | h <;> rw [h] at this <;> cases hy : σ.tag y <;> rw [hy] at this <;> exact this

theorem Inv.backCls {x k : Nat} (h : σ.tag x = .cls k) : σ.store.back x = 0 := hi.noB x (by rw [h]; rfl)

include hz

/-- nodes that nothing leads to -/
theorem Inv.noSrc {x y : Nat} (h : (∃ k, σ.tag y = .cls k) ∨ σ.tag y = .none ∨ σ.tag y = .rmP ∨ σ.tag y = .ftP) :
    σ.store.sources y ≠ [x] := by
  intro h'
  have := hi.edgeS h'
  unfold EdgeOK at this
  rcases h with ⟨k, h⟩ | h | h | h <;> rw [h] at this <;> cases hx : σ.tag x <;> rw [hx] at this <;>
    first | exact this | skip
  have := ((hi.zero x).1 hx).2
  rw [hz] at this
  cases this

theorem not_found (hc : Clean σ) {d : Nat} (hd : σ.tag d ≠ .rmD) (e o t u : Nat) : ¬ Found σ.store d e o t u := by
  intro f
  have l0 := hi.dead0 hz
  have t0 := hi.node0 hz
  have hp : ∀ {y T}, σ.tag y = T → T ≠ .none → T ≠ .root → Prev σ y := fun h h1 h2 =>
    hc.prev hz hi (by rw [h]; exact h1) (by rw [h]; exact h2)
  have b2 : σ.store.back 2 = 1 := (hi.rootRef (i := 1) (by omega) (by omega)).b
  have b3 : σ.store.back 3 = 2 := (hi.rootRef (i := 2) (by omega) (by omega)).b
  have b4 : σ.store.back 4 = 3 := (hi.rootRef (i := 3) (by omega) (by omega)).b
  have b1 : σ.store.back 1 = 0 := hi.ends.2
  have bB : ∀ {x y}, Ref σ x y → σ.store.back y = x := fun r => r.b
  -- back from the node of a bit there is nothing
  have bitE : ∀ {y v}, σ.tag y = .bitc v → σ.store.back (σ.store.back y) = 0 := by
    intro y v h
    have q := hp h (by simp) (by simp)
    unfold Prev at q
    rw [h] at q
    obtain ⟨x, r, hx⟩ := q
    rw [bB r]
    exact hi.backCls hx
  have pB : ∀ {y}, σ.tag y = .chB → ∃ x, σ.store.back y = x ∧ σ.tag x = .cls Class.characterId := fun h => by
    have q := hp h (by simp) (by simp); simp only [Prev, h] at q; exact let ⟨x, r, hx⟩ := q; ⟨x, r.b, hx⟩
  have pC : ∀ {y p}, σ.tag y = .chC p → ∃ x, σ.store.back y = x ∧ σ.tag x = .chB := fun h => by
    have q := hp h (by simp) (by simp); simp only [Prev, h] at q; exact let ⟨x, r, hx⟩ := q; ⟨x, r.b, hx⟩
  have pW : ∀ {y}, σ.tag y = .chW → ∃ x p, σ.store.back y = x ∧ σ.tag x = .chC p := fun h => by
    have q := hp h (by simp) (by simp); simp only [Prev, h] at q; exact let ⟨x, p, r, hx⟩ := q; ⟨x, p, r.b, hx⟩
  have pwC : ∀ {y}, σ.tag y = .wdC → ∃ x, σ.store.back y = x ∧ σ.tag x = .cls Class.wordId := fun h => by
    have q := hp h (by simp) (by simp); simp only [Prev, h] at q; exact let ⟨x, r, hx⟩ := q; ⟨x, r.b, hx⟩
  have pwW : ∀ {y p}, σ.tag y = .wdW p → ∃ x, σ.store.back y = x ∧ σ.tag x = .wdC := fun h => by
    have q := hp h (by simp) (by simp); simp only [Prev, h] at q; exact let ⟨x, r, hx⟩ := q; ⟨x, r.b, hx⟩
  have pwP : ∀ {y}, σ.tag y = .wdP → ∃ x p, σ.store.back y = x ∧ σ.tag x = .wdW p := fun h => by
    have q := hp h (by simp) (by simp); simp only [Prev, h] at q; exact let ⟨x, p, r, hx⟩ := q; ⟨x, p, r.b, hx⟩
  have ppW : ∀ {y}, σ.tag y = .phW → ∃ x, σ.store.back y = x ∧ σ.tag x = .cls Class.phraseId := fun h => by
    have q := hp h (by simp) (by simp); simp only [Prev, h] at q; exact let ⟨x, r, hx⟩ := q; ⟨x, r.b, hx⟩
  have ppP : ∀ {y p}, σ.tag y = .phP p → ∃ x, σ.store.back y = x ∧ σ.tag x = .phW := fun h => by
    have q := hp h (by simp) (by simp); simp only [Prev, h] at q; exact let ⟨x, r, hx⟩ := q; ⟨x, r.b, hx⟩
  have ppD : ∀ {y}, σ.tag y = .phD → ∃ x p, σ.store.back y = x ∧ σ.tag x = .phP p := fun h => by
    have q := hp h (by simp) (by simp); simp only [Prev, h] at q; exact let ⟨x, p, r, hx⟩ := q; ⟨x, p, r.b, hx⟩
  have pdP : ∀ {y}, σ.tag y = .dtP → ∃ x, σ.store.back y = x ∧ σ.tag x = .cls Class.detailId := fun h => by
    have q := hp h (by simp) (by simp); simp only [Prev, h] at q; exact let ⟨x, r, hx⟩ := q; ⟨x, r.b, hx⟩
  have prP : ∀ {y}, σ.tag y = .rmP → ∃ x, σ.store.back y = x ∧ σ.tag x = .rmD := fun h => by
    have q := hp h (by simp) (by simp); simp only [Prev, h] at q; exact let ⟨x, r, hx⟩ := q; ⟨x, r.b, hx⟩
  have prF : ∀ {y}, σ.tag y = .rmF → ∃ x, σ.store.back y = x ∧ σ.tag x = .rmP := fun h => by
    have q := hp h (by simp) (by simp); simp only [Prev, h] at q; exact let ⟨x, r, hx⟩ := q; ⟨x, r.b, hx⟩
  have pfR : ∀ {y b}, σ.tag y = .ftR b → ∃ x, σ.store.back y = x ∧ σ.tag x = .cls Class.factId := fun h => by
    have q := hp h (by simp) (by simp); simp only [Prev, h] at q; exact let ⟨x, r, hx⟩ := q; ⟨x, r.b, hx⟩
  have pfP : ∀ {y}, σ.tag y = .ftP → ∃ x p, σ.store.back y = x ∧ σ.tag x = .ftR p := fun h => by
    have q := hp h (by simp) (by simp); simp only [Prev, h] at q; exact let ⟨x, p, r, hx⟩ := q; ⟨x, p, r.b, hx⟩
  have pfS : ∀ {y}, σ.tag y = .ftS → ∃ x, σ.store.back y = x ∧ σ.tag x = .ftP := fun h => by
    have q := hp h (by simp) (by simp); simp only [Prev, h] at q; exact let ⟨x, r, hx⟩ := q; ⟨x, r.b, hx⟩
  have psF : ∀ {y}, σ.tag y = .stF → ∃ x, σ.store.back y = x ∧ σ.tag x = .cls Class.storyId := fun h => by
    have q := hp h (by simp) (by simp); simp only [Prev, h] at q; exact let ⟨x, r, hx⟩ := q; ⟨x, r.b, hx⟩
  -- the node before `e` has no sources
  have stop : (∃ k, σ.tag (σ.store.back e) = .cls k) ∨ σ.tag (σ.store.back e) = .none ∨ σ.tag (σ.store.back e) = .rmP ∨
      σ.tag (σ.store.back e) = .ftP → False := fun h => hi.noSrc hz h f.Se
  have noZero : ∀ {x}, σ.tag x = .zero → False := fun h => by
    have := ((hi.zero _).1 h).2
    rw [hz] at this; cases this
  -- `t` is the class node of characters, words or phrases
  have clsT : ∀ {k}, σ.tag (σ.store.back (σ.store.back o)) = .cls k → t = k ∧ σ.tag t = .root := fun h => by
    have E := hi.edgeT f.To
    unfold EdgeOK at E
    rw [h] at E
    cases ht : σ.tag t <;> rw [ht] at E <;> first | exact E.elim | exact ⟨E, rfl⟩
  have E := hi.edgeS f.Sd
  have E' := hi.edgeS f.Se
  have E2 := hi.edgeT f.To
  have E3 := hi.edgeT f.Tt
  have lo := f.lo
  have lt := f.lt
  have lu := f.lu
  have rT : ∀ {x y}, σ.tag x = .root → σ.store.targets x = [y] → False := fun h h' => hi.noTag (.inl h) h'
  have root : ∀ i, 1 ≤ i → i ≤ 8 → σ.tag i = .root := fun i h1 h2 => (hi.root i).2 ⟨h1, h2⟩
  unfold EdgeOK at E E' E2 E3
  cases hd' : σ.tag d with
  | rmD => exact hd hd'
  | root =>
    rw [hd'] at E
    cases he : σ.tag e <;> rw [he] at E <;> first | exact E.elim | skip
    exact stop (.inr (.inl (by rw [hi.backCls he]; exact t0)))
  | bitc v =>
    rw [hd'] at E
    cases he : σ.tag e <;> rw [he] at E <;> first | exact E.elim | skip
    obtain ⟨x, hb, hx⟩ := pB he
    exact stop (.inl ⟨_, by rw [hb]; exact hx⟩)
  | chB =>
    rw [hd'] at E
    cases he : σ.tag e <;> rw [he] at E <;> first | exact E.elim | skip
    have q := hp he (by simp) (by simp)
    simp only [Prev, he] at q
    obtain ⟨x, r, hx⟩ := q
    exact stop (.inl ⟨_, by rw [bB r]; exact hx⟩)
  | chC p =>
    rw [hd'] at E
    cases he : σ.tag e <;> rw [he] at E <;> first | exact E.elim | skip
    obtain ⟨x, hb, hx⟩ := pC he
    rw [hb, hx] at E'
    cases ho : σ.tag o <;> rw [ho] at E' <;> first | exact E'.elim | skip
    rw [bitE ho, l0] at lo
    cases lo
  | chW =>
    rw [hd'] at E
    cases he : σ.tag e <;> rw [he] at E <;> first | exact E.elim | skip
    obtain ⟨x, hb, hx⟩ := pwC he
    exact stop (.inl ⟨_, by rw [hb]; exact hx⟩)
  | wdC =>
    rw [hd'] at E
    cases he : σ.tag e <;> rw [he] at E <;> first | exact E.elim | skip
    obtain ⟨x, p, hb, hx⟩ := pW he
    rw [hb, hx] at E'
    cases ho : σ.tag o <;> rw [ho] at E' <;> first | exact E'.elim | skip
    obtain ⟨y, hy, ty⟩ := pC ho
    obtain ⟨z, hz', tz⟩ := pB ty
    obtain ⟨et, _⟩ := clsT (by rw [hy, hz']; exact tz)
    rw [et, show Class.characterId = 2 from rfl, b2, b1, l0] at lt
    cases lt
  | wdW p =>
    rw [hd'] at E
    cases he : σ.tag e <;> rw [he] at E <;> first | exact E.elim | skip
    obtain ⟨x, hb, hx⟩ := pwW he
    rw [hb, hx] at E'
    cases ho : σ.tag o <;> rw [ho] at E' <;> first | exact E'.elim | skip
    obtain ⟨y, p, hy, ty⟩ := pW ho
    obtain ⟨z, hz', tz⟩ := pC ty
    rw [hy, hz', tz] at E2
    cases ht : σ.tag t <;> rw [ht] at E2 <;> first | exact E2.elim | skip
    rw [bitE ht, l0] at lt
    cases lt
  | wdP =>
    rw [hd'] at E
    cases he : σ.tag e <;> rw [he] at E <;> first | exact E.elim | skip
    obtain ⟨x, hb, hx⟩ := ppW he
    exact stop (.inl ⟨_, by rw [hb]; exact hx⟩)
  | phW =>
    rw [hd'] at E
    cases he : σ.tag e <;> rw [he] at E <;> first | exact E.elim | skip
    obtain ⟨x, p, hb, hx⟩ := pwP he
    rw [hb, hx] at E'
    cases ho : σ.tag o <;> rw [ho] at E' <;> first | exact E'.elim | skip
    obtain ⟨y, hy, ty⟩ := pwW ho
    obtain ⟨z, hz', tz⟩ := pwC ty
    obtain ⟨et, _⟩ := clsT (by rw [hy, hz']; exact tz)
    have h := f.Tt
    rw [et, show Class.wordId = 3 from rfl, b3, b2] at h
    exact rT (root 1 (by omega) (by omega)) h
  | phP p =>
    rw [hd'] at E
    cases he : σ.tag e <;> rw [he] at E <;> first | exact E.elim | skip
    obtain ⟨x, hb, hx⟩ := ppP he
    rw [hb, hx] at E'
    cases ho : σ.tag o <;> rw [ho] at E' <;> first | exact E'.elim | skip
    obtain ⟨y, p, hy, ty⟩ := pwP ho
    obtain ⟨z, hz', tz⟩ := pwW ty
    rw [hy, hz', tz] at E2
    cases ht : σ.tag t <;> rw [ht] at E2 <;> first | exact E2.elim | skip
    obtain ⟨y, p, hy, ty⟩ := pW ht
    obtain ⟨z, hz', tz⟩ := pC ty
    rw [hy, hz', tz] at E3
    cases hu : σ.tag u <;> rw [hu] at E3 <;> first | exact E3.elim | skip
    rw [bitE hu, l0] at lu
    cases lu
  | phD =>
    rw [hd'] at E
    cases he : σ.tag e <;> rw [he] at E <;> first | exact E.elim | skip
    obtain ⟨x, hb, hx⟩ := pdP he
    exact stop (.inl ⟨_, by rw [hb]; exact hx⟩)
  | dtP =>
    rw [hd'] at E
    cases he : σ.tag e <;> rw [he] at E <;> first | exact E.elim | skip
    obtain ⟨x, p, hb, hx⟩ := ppD he
    rw [hb, hx] at E'
    cases ho : σ.tag o <;> rw [ho] at E' <;> first | exact E'.elim | skip
    obtain ⟨y, hy, ty⟩ := ppP ho
    obtain ⟨z, hz', tz⟩ := ppW ty
    obtain ⟨et, _⟩ := clsT (by rw [hy, hz']; exact tz)
    have h := f.Tt
    rw [et, show Class.phraseId = 4 from rfl, b4, b3] at h
    exact rT (root 2 (by omega) (by omega)) h
  | rmF =>
    rw [hd'] at E
    cases he : σ.tag e <;> rw [he] at E <;> first | exact E.elim | skip
    obtain ⟨x, hb, hx⟩ := pfR he
    exact stop (.inl ⟨_, by rw [hb]; exact hx⟩)
  | ftR b =>
    rw [hd'] at E
    cases he : σ.tag e <;> rw [he] at E <;> first | exact E.elim | skip
    obtain ⟨x, hb, hx⟩ := prF he
    exact stop (.inr (.inr (.inl (by rw [hb]; exact hx))))
  | ftS =>
    rw [hd'] at E
    cases he : σ.tag e <;> rw [he] at E <;> first | exact E.elim | skip
    obtain ⟨x, hb, hx⟩ := psF he
    exact stop (.inl ⟨_, by rw [hb]; exact hx⟩)
  | stF =>
    rw [hd'] at E
    cases he : σ.tag e <;> rw [he] at E <;> first | exact E.elim | skip
    obtain ⟨x, hb, hx⟩ := pfS he
    exact stop (.inr (.inr (.inr (by rw [hb]; exact hx))))
  | stP =>
    rw [hd'] at E
    cases he : σ.tag e <;> rw [he] at E <;> first | exact E.elim | skip
    obtain ⟨x, p, hb, hx⟩ := pfP he
    rw [hb, hx] at E'
    cases ho : σ.tag o <;> rw [ho] at E' <;> first | exact E'.elim | skip
    obtain ⟨y, hy, ty⟩ := prF ho
    obtain ⟨z, hz', tz⟩ := prP ty
    have h := f.To
    rw [hy, hz'] at h
    exact hi.noTag (.inr tz) h
  | _ =>
    rw [hd'] at E
    cases he : σ.tag e <;> rw [he] at E <;> first | exact E.elim | exact noZero he | exact noZero hd'

end

theorem addRemarkToFact_pre (fuel : Nat) (a : RemE) (p : GoStr) :
    Remark.addRemarkToFact fuel a p = ((Class.provideEntity >>= fun _ => newEnt Class.remarkId) >>= fun n =>
      Remark.getObjectAndProperty fuel a >>= fun q => do
        let detail ← Detail.provide fuel q.1 p
        Go.connect detail.remark n.2.1
        let factIdentifier ← Remark.getTargetFact a
        let fact ← Fact.fetchByRemark factIdentifier
        Go.connect n.2.2.2 fact.fact.remark
        pure ⟨n.1, n.2.1, n.2.2.1, n.2.2.2⟩) := by
  unfold Remark.addRemarkToFact
  simp only [bind_assoc]
  rw [show ∀ f : RemE → Go RemE, (do let cls ← Class.createNode Class.remarkId; let e ← Remark.createEntity cls; f e) =
    (newEnt Class.remarkId >>= fun r => f ⟨r.1, r.2.1, r.2.2.1, r.2.2.2⟩) from fun f => remark_newEnt f]
  simp only [Remark.getObjectAndProperty, bind_assoc]

theorem fails_addRemark {fuel : Nat} (hz : cfg.zero = false) {st : State} (hs : Sound cfg lim st) {x : Nat}
    (hx : Class.remarkId ∉ st.world.store.targets x) {p : GoStr} :
    Foiled cfg lim st ((Errand.addRemark p).prog fuel x) := by
  refine fails_get hs fun hl => ?_
  obtain ⟨σ, h, hc, ht⟩ := hs.live hz hl
  rw [addRemarkToFact_pre]
  simp only [bind_assoc]
  rw [← bind_assoc]
  refine fails_pre h hc (pre := Class.provideEntity >>= fun _ => newEnt Class.remarkId) (good := fun _ _ => True)
    (bad := fun _ _ => True)
    (WrL.bind (((Rd.provideEntity (C := calmCtx cfg lim) h.inv).wr rfl).loose) fun _ σ1 h1 _ =>
      WrL.cons (Wr.newEnt (C := calmCtx cfg lim) (bad := fun _ _ => True) rfl h1.inv (by decide) remarkTags .remark).loose
        (fun _ _ _ _ => trivial) (fun _ _ _ _ => trivial)) fun r σ' hi' hc' m => ?_
  refine (errs_text (fun e o t u => not_found hz hi' hc' ?_ e o t u) fuel).left
  intro hd
  have e : σ.fwd x = st.world.store.fwd x := by rw [← h.is.store]; rfl
  have hd : σ'.tag (σ.fwd x) = .rmD := by rw [e]; exact hd
  have f0 : σ.fwd x ≠ 0 := fun e => by rw [e, hi'.node0 hz] at hd; cases hd
  have q := hc'.prev hz hi' (y := σ.fwd x) (by rw [hd]; simp) (by rw [hd]; simp)
  simp only [Prev, hd] at q
  obtain ⟨y, r, hy⟩ := q
  have ey : y = x := by
    rw [← r.b, m.back _ (by rw [(h.inv.refB x f0).1]; exact (h.inv.refB x f0).2)]
    exact (h.inv.refB x f0).1
  subst ey
  rw [m.tag y ht] at hy
  have hT := (hc.whole.heads y _ hy).T
  have : σ.store.targets y = [Class.remarkId] := hT
  rw [h.is.store] at this
  rw [this] at hx
  simp at hx

theorem fails_query {fuel : Nat} {st : State} (hs : Sound cfg lim st) {x : Nat} (hl : st.log ≠ []) {q : Query} :
    Foiled cfg lim st ((Errand.query q).prog fuel x) := by
  refine fails_get hs fun _ => ?_
  obtain ⟨σ, h, hc⟩ := hs.holds hl
  obtain ⟨σ1, h1, ⟨hx, hr⟩, h3⟩ := wp_run (C := calmCtx cfg lim) rfl (f := Go.noFault) (.inr rfl) h.is
    ((Quiet.query fuel _ q).wp (C := calmCtx cfg lim) h.inv (h.bits hl))
  have h1 : σ1.Is ((q.ask fuel _).exec cfg st.world).2 := h1
  generalize hb : (q.ask fuel _).exec cfg st.world = out at h1
  obtain ⟨out, w⟩ := out
  have hs1 := h.ext hc (.same hx (hr rfl)) h1 ((h3 rfl).trans h.flt)
  constructor
  · intro r
    rw [exec_bind, hb]
    cases out <;> simp [Go.exec, Go.run, Pure.pure]
  · rw [exec_bind, hb]
    cases out <;> exact hs1

theorem fails_errand {fuel : Nat} (hz : cfg.zero = false) (hf : Fits lim fuel) {st : State} (hs : Sound cfg lim st) {x : Nat}
    {c : Errand} (hc : c.Fair st x) (ht : ∀ t ∈ c.texts, TextOK lim t) : Foiled cfg lim st (c.prog fuel x) := by
  cases c with
  | addRemark p => exact fails_addRemark hz hs hc
  | addFact o p => exact fails_addFact hz hf hs hc (ht o (by simp [Errand.texts])) (ht p (by simp [Errand.texts]))
  | addChild o p => exact fails_addChild hz hf hs hc (ht o (by simp [Errand.texts])) (ht p (by simp [Errand.texts]))
  | query q => exact fails_query hs hc

theorem sound_deeds {fuel : Nat} (hz : cfg.zero = false) (hd : Policy cfg lim) (hf : Fits lim fuel) :
    ∀ (ds : List Deed) {st : State}, Sound cfg lim st → Fair cfg fuel st ds → (∀ d ∈ ds, ∀ t ∈ d.texts, TextOK lim t) →
      Sound cfg lim (st.deeds cfg fuel ds) := by
  intro ds
  induction ds with
  | nil => exact fun h _ _ => h
  | cons d ds ih =>
    intro st h hc ht
    refine ih (st := st.deed cfg fuel d) ?_ hc.2 (fun a ha => ht a (by simp [ha]))
    cases d with
    | event e => exact calm_step hd hf h e hc.1 (ht (.event e) (by simp))
    | errand x c => exact (fails_errand hz hf h hc.1 (ht (.errand x c) (by simp))).sound

theorem Spec.Errands.fits {cfg : Cfg} {fuel : Nat} {ds : List Deed} (h : Errands cfg fuel ds) : Fits (stdLim fuel) fuel :=
  ⟨h.budget, Nat.le_refl _, by have := h.budget; omega⟩

theorem Spec.Errands.sound {cfg : Cfg} {fuel : Nat} {ds : List Deed} (h : Errands cfg fuel ds) (hz : cfg.zero = false) :
    Sound cfg (stdLim fuel) ((State.init cfg).deeds cfg fuel ds) :=
  sound_deeds hz (.inl h.dup) h.fits ds (.init cfg _) h.fair fun d hd t ht => TextOK.std (h.texts d hd t ht)

end Semnet
