import Verif.Model.Unused
import Verif.Proof.Parts
import Verif.Proof.LexRel
/-
  The functions that nothing calls: sources of words and phrases.
-/
namespace Semnet
open Spec

/-! ### edges are never lost -/

theorem step_adds (cfg : Cfg) (s : Store) (o : Op) : ∀ e ∈ s.edges, e ∈ (s.step cfg o).2.edges := by
  intro e he
  cases o with
  | connect x y =>
    simp only [Store.step]
    cases s.live x && s.live y with
    | false => exact he
    | true =>
      simp only [if_true]
      cases s.edges.contains (x, y) with
      | false => exact List.mem_cons_of_mem _ he
      | true =>
        simp only [if_true]
        cases cfg.dup with
        | ignore => exact he
        | parallel => exact List.mem_cons_of_mem _ he
        | reject => exact he
  | setReference x y =>
    simp only [Store.step]
    cases s.live x && s.live y <;> exact he
  | _ => exact he

theorem exec_adds {α : Type} (cfg : Cfg) (p : Go α) : ∀ (w : World), ∀ e ∈ w.store.edges, e ∈ (p.exec cfg w).2.store.edges := by
  induction p with
  | ok a => exact fun _ _ h => h
  | err e => exact fun _ _ h => h
  | panic => exact fun _ _ h => h
  | spin => exact fun _ _ h => h
  | op o k ih => exact fun w e h => ih _ _ e (step_adds cfg w.store o e h)
  | getMem k ih => exact fun w e h => ih _ w e h
  | setMem m k ih => exact fun w e h => ih ⟨w.store, w.mem.set m⟩ e h

theorem exec_bind_ok {α β : Type} {cfg : Cfg} {p : Go α} {f : α → Go β} {w w' : World} {b : β}
    (h : (p >>= f).exec cfg w = (.ok b, w')) :
    ∃ a w1, p.exec cfg w = (.ok a, w1) ∧ (f a).exec cfg w1 = (.ok b, w') := by
  rw [exec_bind] at h
  generalize p.exec cfg w = out at h
  obtain ⟨out, w1⟩ := out
  cases out with
  | ok a => exact ⟨a, w1, rfl, h⟩
  | err e => cases h
  | panic => cases h
  | spin => cases h

theorem exec_connect_ok {cfg : Cfg} {x y : Nat} {w w' : World} {u : Unit} (h : (Go.connect x y).exec cfg w = (.ok u, w')) :
    (x, y) ∈ w'.store.edges := by
  obtain ⟨s, m⟩ := w
  simp only [Go.connect, Go.call, Go.exec, Go.run, Go.noFault, Store.step] at h
  cases hl : s.live x && s.live y with
  | false => simp [hl, Go.run] at h
  | true =>
    cases hc : s.edges.contains (x, y) with
    | false =>
      simp only [hl, hc, if_true, Bool.false_eq_true, if_false, Go.run] at h
      cases h
      exact List.mem_cons_self
    | true =>
      cases hd : cfg.dup with
      | ignore =>
        simp only [hl, hc, hd, if_true, Go.run] at h
        cases h
        exact List.contains_iff_mem.1 hc
      | parallel =>
        simp only [hl, hc, hd, if_true, Go.run] at h
        cases h
        exact List.mem_cons_self
      | reject =>
        simp only [hl, hc, hd, if_true, Go.run] at h
        cases h

theorem connect_cases (cfg : Cfg) (x y : Nat) (w : World) :
    (Go.connect x y).exec cfg w = (.ok (), w) ∨
    (Go.connect x y).exec cfg w = (.ok (), ⟨w.store.connected cfg x y, w.mem⟩) ∨
    ∃ e, (Go.connect x y).exec cfg w = (.err e, w) := by
  obtain ⟨s, m⟩ := w
  simp only [Go.connect, Go.call, Go.exec, Go.run, Go.noFault, Store.step]
  cases s.live x && s.live y with
  | false => exact .inr (.inr ⟨_, rfl⟩)
  | true =>
    cases s.edges.contains (x, y) with
    | false => exact .inr (.inl rfl)
    | true =>
      cases cfg.dup with
      | ignore => exact .inl rfl
      | parallel => exact .inr (.inl rfl)
      | reject => exact .inr (.inr ⟨_, rfl⟩)

theorem connect_effect (cfg : Cfg) (x y : Nat) (w : World) :
    (((Go.connect x y).exec cfg w).2.store.edges = w.store.edges ∨
      ((Go.connect x y).exec cfg w).2.store.edges = (x, y) :: w.store.edges) ∧
    ((Go.connect x y).exec cfg w).2.store.nodes = w.store.nodes ∧
    ((Go.connect x y).exec cfg w).2.store.refs = w.store.refs ∧ ((Go.connect x y).exec cfg w).2.mem = w.mem := by
  rcases connect_cases cfg x y w with h | h | ⟨e, h⟩ <;> rw [h]
  · exact ⟨.inl rfl, rfl, rfl, rfl⟩
  · exact ⟨.inr rfl, rfl, rfl, rfl⟩
  · exact ⟨.inl rfl, rfl, rfl, rfl⟩

theorem connect_failed {cfg : Cfg} {x y : Nat} {w w' : World} {e : Err}
    (h' : (Go.connect x y).exec cfg w = (.err e, w')) : w' = w := by
  rcases connect_cases cfg x y w with h | h | ⟨e, h⟩ <;> rw [h] at h' <;> cases h'
  rfl

theorem connect_returns (cfg : Cfg) (x y : Nat) (w : World) :
    ((Go.connect x y).exec cfg w).1 ≠ .panic ∧ ((Go.connect x y).exec cfg w).1 ≠ .spin := by
  rcases connect_cases cfg x y w with h | h | ⟨e, h⟩ <;> rw [h] <;> simp

theorem exec_targets_ok {cfg : Cfg} {x : Nat} {w w' : World} {l : List Nat}
    (h : (Go.readTargets x).exec cfg w = (.ok l, w')) : w' = w ∧ ∀ y ∈ l, (x, y) ∈ w.store.edges := by
  obtain ⟨s, m⟩ := w
  simp only [Go.readTargets, Go.call, Go.exec, Go.run, Go.noFault, Store.step] at h
  cases hl : s.live x with
  | false => simp [hl, Go.run] at h
  | true =>
    simp only [hl, if_true, Go.run] at h
    cases h
    refine ⟨rfl, fun y hy => ?_⟩
    have := (cfg.ord_perm _ _ _).mem_iff.1 hy
    simpa [Store.targets] using this

/-- Every head word that is provided has a source. -/
theorem wordHead_source {cfg : Cfg} {a : CharAgg} {w w' : World} {e : WordE}
    (h : (Word.provideHeadEntity a).exec cfg w = (.ok e, w')) : ∃ x, (x, e.character) ∈ w'.store.edges := by
  unfold Word.provideHeadEntity at h
  obtain ⟨c, w1, _, h⟩ := exec_bind_ok h
  obtain ⟨b, w2, _, h⟩ := exec_bind_ok h
  cases b with
  | true =>
    simp only [if_true] at h
    obtain ⟨t, w3, h1, h3⟩ := exec_bind_ok h
    unfold Character.getTargetWord at h1
    obtain ⟨l, w4, h2, h4⟩ := exec_bind_ok h1
    obtain ⟨hw, hl⟩ := exec_targets_ok h2
    split at h4
    · cases h4
      have hk := exec_adds cfg (Word.readEntityByCharacter t) w3 _ (by rw [hw]; exact hl t (by simp))
      rw [h3] at hk
      unfold Word.readEntityByCharacter at h3
      obtain ⟨r, w5, _, h5⟩ := exec_bind_ok h3
      obtain ⟨r', w6, _, h6⟩ := exec_bind_ok h5
      cases h6
      exact ⟨_, hk⟩
    · cases h4
  | false =>
    simp only [Bool.false_eq_true, if_false] at h
    obtain ⟨_, w3, _, h⟩ := exec_bind_ok h
    obtain ⟨_, w4, _, h⟩ := exec_bind_ok h
    obtain ⟨_, w5, _, h⟩ := exec_bind_ok h
    obtain ⟨_, w6, h1, h⟩ := exec_bind_ok h
    cases h
    exact ⟨_, exec_connect_ok h1⟩

/-- Every head phrase that is provided has a source. -/
theorem phraseHead_source {cfg : Cfg} {a : WordE} {w w' : World} {e : PhraseE}
    (h : (Phrase.provideHeadEntity a).exec cfg w = (.ok e, w')) : ∃ x, (x, e.word) ∈ w'.store.edges := by
  unfold Phrase.provideHeadEntity at h
  obtain ⟨b, w2, _, h⟩ := exec_bind_ok h
  cases b with
  | true =>
    simp only [if_true] at h
    obtain ⟨t, w3, h1, h3⟩ := exec_bind_ok h
    unfold Word.getTargetPhrase at h1
    obtain ⟨l, w4, h2, h4⟩ := exec_bind_ok h1
    obtain ⟨hw, hl⟩ := exec_targets_ok h2
    split at h4
    · cases h4
      have hk := exec_adds cfg (Phrase.readEntityByWord t) w3 _ (by rw [hw]; exact hl t (by simp))
      rw [h3] at hk
      unfold Phrase.readEntityByWord at h3
      obtain ⟨r, w5, _, h5⟩ := exec_bind_ok h3
      obtain ⟨r', w6, _, h6⟩ := exec_bind_ok h5
      cases h6
      exact ⟨_, hk⟩
    · cases h4
  | false =>
    simp only [Bool.false_eq_true, if_false] at h
    obtain ⟨_, w3, _, h⟩ := exec_bind_ok h
    obtain ⟨_, w4, _, h⟩ := exec_bind_ok h
    obtain ⟨_, w5, _, h⟩ := exec_bind_ok h
    obtain ⟨_, w6, h1, h⟩ := exec_bind_ok h
    cases h
    exact ⟨_, exec_connect_ok h1⟩

theorem wordProvide_source {cfg : Cfg} {fuel : Nat} {s : GoStr} {w w' : World} {e : WordE} {r : Int} (hs : runesOf s = [r])
    (h : (Word.provide fuel s).exec cfg w = (.ok e, w')) : ∃ x, (x, e.character) ∈ w'.store.edges := by
  unfold Word.provide at h
  rw [hs] at h
  obtain ⟨e1, w1, h1, h⟩ := exec_bind_ok h
  cases h
  unfold Word.provideFirstElement at h1
  obtain ⟨_, w2, _, h1⟩ := exec_bind_ok h1
  obtain ⟨_, w3, _, h1⟩ := exec_bind_ok h1
  exact wordHead_source h1

theorem phraseProvide_source {cfg : Cfg} {fuel : Nat} {s t : GoStr} {w w' : World} {e : PhraseE} (hs : splitSpace s = [t])
    (h : (Phrase.provide fuel s).exec cfg w = (.ok e, w')) : ∃ x, (x, e.word) ∈ w'.store.edges := by
  unfold Phrase.provide at h
  rw [hs] at h
  obtain ⟨e1, w1, h1, h⟩ := exec_bind_ok h
  cases h
  unfold Phrase.provideFirstElement at h1
  obtain ⟨_, w2, _, h1⟩ := exec_bind_ok h1
  obtain ⟨_, w3, _, h1⟩ := exec_bind_ok h1
  exact phraseHead_source h1

/-! ### in a shop -/

/-- words of one character and phrases of one word have sources -/
def Fed (s : Store) : Part → Prop
  | .word e t => (runesOf t).length = 1 → ∃ x, (x, e.character) ∈ s.edges
  | .phrase e t => (splitSpace t).length = 1 → ∃ x, (x, e.word) ∈ s.edges
  | _ => True

theorem Fed.mono {s s' : Store} (h : ∀ e ∈ s.edges, e ∈ s'.edges) : ∀ {x : Part}, Fed s x → Fed s' x
  | .word _ _, hx => fun hl => let ⟨x, hx⟩ := hx hl; ⟨x, h _ hx⟩
  | .phrase _ _, hx => fun hl => let ⟨x, hx⟩ := hx hl; ⟨x, h _ hx⟩
  | .character _ _, _ => trivial
  | .detail _ _ _, _ => trivial

theorem Fed.got {α : Type} {cfg : Cfg} {s : Shop} (h : ∀ x ∈ s.parts, Fed s.state.world.store x) {p : Go α} (part : α → Part)
    (hp : ∀ a w', p.exec cfg s.state.world = (.ok a, w') → Fed w'.store (part a)) :
    ∀ x ∈ (s.got part (p.exec cfg s.state.world)).parts,
      Fed (s.got part (p.exec cfg s.state.world)).state.world.store x := by
  have ha := exec_adds cfg p s.state.world
  generalize p.exec cfg s.state.world = out at *
  obtain ⟨out, w'⟩ := out
  intro x hx
  cases out with
  | ok a =>
    rcases List.mem_append.1 hx with hx | hx
    · exact (h x hx).mono ha
    · rw [List.mem_singleton.1 hx]; exact hp a w' rfl
  | err e => exact (h x hx).mono ha
  | panic => exact (h x hx).mono ha
  | spin => exact (h x hx).mono ha

theorem event_adds (cfg : Cfg) (fuel : Nat) (st : State) (e : Event) (he : e.Calm) :
    ∀ x ∈ st.world.store.edges, x ∈ (st.event cfg fuel e).world.store.edges := by
  intro x hx
  cases e with
  | call c f =>
    cases (show f = Go.noFault from he)
    have ha := exec_adds cfg (c.prog fuel st.log) st.world x hx
    unfold Go.exec at ha
    show x ∈ (st.call cfg fuel c Go.noFault).world.store.edges
    unfold State.call
    generalize (c.prog fuel st.log).run cfg Go.noFault st.world = out at ha
    split <;> exact ha
  | crash c f n => exact he.elim
  | reopen => exact hx

theorem one_of_length {α : Type} {l : List α} (h : l.length = 1) : ∃ a, l = [a] := List.length_eq_one_iff.1 h

theorem Fed.use {cfg : Cfg} {fuel : Nat} {s : Shop} (h : ∀ x ∈ s.parts, Fed s.state.world.store x) (u : Use)
    (hu : u.Fine fuel) : ∀ x ∈ (s.use cfg fuel u).parts, Fed (s.use cfg fuel u).state.world.store x := by
  cases u with
  | event e => exact fun x hx => (h x hx).mono (event_adds cfg fuel s.state e hu.1)
  | character r => exact Fed.got h _ fun a w' _ => trivial
  | word t =>
    refine Fed.got h _ fun a w' hp hl => ?_
    obtain ⟨r, hr⟩ := one_of_length hl
    exact wordProvide_source hr hp
  | phrase t =>
    refine Fed.got h _ fun a w' hp hl => ?_
    obtain ⟨r, hr⟩ := one_of_length hl
    exact phraseProvide_source hr hp
  | detail o p => exact Fed.got h _ fun a w' _ => trivial

theorem Fed.uses {cfg : Cfg} {fuel : Nat} : ∀ (us : List Use) {s : Shop}, (∀ x ∈ s.parts, Fed s.state.world.store x) →
    (∀ u ∈ us, u.Fine fuel) →
    ∀ x ∈ (us.foldl (Shop.use cfg fuel) s).parts, Fed (us.foldl (Shop.use cfg fuel) s).state.world.store x := by
  intro us
  induction us with
  | nil => exact fun h _ => h
  | cons u us ih => exact fun h hu => ih (Fed.use h u (hu u (by simp))) fun v hv => hu v (by simp [hv])

theorem nodup_one {l : List Nat} {x : Nat} (hn : l.Nodup) (hx : x ∈ l) (h : ∀ y ∈ l, y = x) : l = [x] := by
  cases l with
  | nil => cases hx
  | cons a l =>
    have ha : a = x := h a (by simp)
    subst ha
    cases l with
    | nil => rfl
    | cons b l =>
      have hb : b = a := h b (by simp)
      subst hb
      exact absurd (List.mem_cons_self) (List.nodup_cons.1 hn).1

/-! ### sources in the ghost state -/

/-- a source of a word is the word node of its only character -/
theorem Inv.sourceChar {cfg lim} {σ : St} (hi : Inv cfg lim σ) {rs w} (h : WordEnt σ rs w) {x : Nat}
    (hx : x ∈ σ.S w.character) : ∃ p c, CharEnt σ p c ∧ c.word = x ∧ rs = [Character.toRune p] ∧ σ.T w.character = [x] := by
  have he := hi.edge _ _ (mem_S.1 hx)
  unfold EdgeOK at he
  rw [h.tagC] at he
  cases ht : σ.tag x <;> rw [ht] at he <;> try exact he.elim
  obtain ⟨p, c, w', h1, h2, h3, h4, h5⟩ := he
  have := h3.extC h h4
  subst this
  exact ⟨p, c, h1, h2, h.runes_eq h3, h5⟩

/-- a source of a phrase is the phrase node of its only word -/
theorem Inv.sourceWord {cfg lim} {σ : St} (hi : Inv cfg lim σ) {ws e} (h : PhraseEnt σ ws e) {x : Nat}
    (hx : x ∈ σ.S e.word) : ∃ rs w, WordEnt σ rs w ∧ w.phrase = x ∧ ws = [rs] ∧ σ.T e.word = [x] := by
  have he := hi.edge _ _ (mem_S.1 hx)
  unfold EdgeOK at he
  rw [h.tagW] at he
  cases ht : σ.tag x <;> rw [ht] at he <;> try exact he.elim
  obtain ⟨rs, w, e', h1, h2, h3, h4, h5⟩ := he
  have := h3.extW h h4
  subst this
  exact ⟨rs, w, h1, h2, h.words_eq h3, h5⟩

theorem exec_sources {cfg : Cfg} {w : World} {x : Nat} (h : w.store.live x = true) :
    (Go.readSources x).exec cfg w = (.ok (cfg.ord w.store (.readSources x) (w.store.sources x)), w) := by
  simp [Go.readSources, Go.call, Go.exec, Go.run, Go.noFault, Store.step, h]
end Semnet
