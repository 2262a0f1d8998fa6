import Verif.Proof.Unused
import Verif.Proof.Catalogue
import Verif.Proof.Layer
import Verif.Props.Sample
/- C53: what the functions that nothing calls would do. -/
namespace Semnet.Props
open Spec Sample

private theorem live_of_tag {cfg : Cfg} {lim : Lim} {st : State} {σ : St} (h : Holds cfg lim st σ) {x : Nat}
    (hx : σ.tag x ≠ .none) : st.world.store.live x = true := by
  rw [← h.is.store]; exact (h.inv.live x).2 hx

/-- `GetSourceCharacter` of a word returned by the word layer, whatever was done before and after: a word of one
    character leads to that character, a longer word gives an error; nothing is written. -/
theorem C53_source_character {cfg : Cfg} {fuel : Nat} (hd : cfg.dup = .ignore) (hf : 31 ≤ fuel) {us : List Use}
    (hu : ∀ u ∈ us, u.Fine fuel) {e : WordE} {s : GoStr} (he : .word e s ∈ (shop cfg fuel us).parts) :
    (∀ r, runesOf s = [r] → ∃ x, (Word.getSourceCharacter e).exec cfg (shop cfg fuel us).state.world =
        (.ok x, (shop cfg fuel us).state.world) ∧
      ∃ a w', (Character.fetch x).exec cfg (shop cfg fuel us).state.world = (.ok a, w') ∧
        ∃ w'', (Character.extract fuel a).exec cfg w' = (.ok r, w'')) ∧
    ((runesOf s).length ≠ 1 → (Word.getSourceCharacter e).exec cfg (shop cfg fuel us).state.world =
        (.err .wordSourceCharacters, (shop cfg fuel us).state.world)) := by
  have fed := Fed.uses (cfg := cfg) (fuel := fuel) us (s := ⟨State.init cfg, []⟩) (fun x hx => by cases hx) hu _ he
  rcases Stock.uses hd hf us (.inl rfl) hu with h | ⟨σ, h⟩
  · exfalso
    have he' : _ ∈ (List.foldl (Shop.use cfg fuel) ⟨State.init cfg, []⟩ us).parts := he
    rw [h] at he'
    cases he'
  · change Stocked cfg (stdLim fuel) (shop cfg fuel us) σ at h
    change Fed (shop cfg fuel us).state.world.store _ at fed
    have ok : WordEnt σ (runesOf s) e := h.parts _ he
    have hi := h.holds.inv
    have hS : (shop cfg fuel us).state.world.store.sources e.character = σ.S e.character := by
      rw [← h.holds.is.store]; rfl
    have hl := live_of_tag h.holds (x := e.character) (by rw [ok.tagC]; simp)
    constructor
    · intro r hr
      obtain ⟨x, hx⟩ := fed (by rw [hr]; rfl)
      rw [← h.holds.is.store] at hx
      obtain ⟨p, c, h1, h2, h3, h4⟩ := hi.sourceChar ok (mem_S.2 hx)
      have hone : σ.S e.character = [x] := by
        refine nodup_one (hi.Snodup _) (mem_S.2 hx) fun y hy => ?_
        obtain ⟨_, _, _, _, _, h5⟩ := hi.sourceChar ok hy
        rw [h4] at h5
        exact (List.cons.inj h5).1.symm
      refine ⟨x, ?_, ?_⟩
      · unfold Word.getSourceCharacter
        rw [exec_bind, exec_sources hl, hS, hone, ord_one]
        rfl
      · subst h2
        have hL : (calmCtx cfg (stdLim fuel)).lim.L ≤ fuel := hf
        have hr' : r = Character.toRune p := by rw [h3] at hr; exact (List.cons.inj hr).1.symm
        have run : Rd (calmCtx cfg (stdLim fuel)) (· = r) (do
            let a ← Character.fetch c.word
            Character.extract fuel a) σ := by
          refine Rd.bind (good := (· = CharAgg.mk (some c))) ?_ ?_
          · unfold Character.fetch
            refine Rd.bind (Rd.charByWord (C := calmCtx cfg (stdLim fuel)) hi h1) ?_
            intro a σ1 g _ ha; subst ha
            exact Rd.ret g.inv rfl
          · intro a σ1 g _ ha; subst ha; rw [hr']
            exact Rd.charExtract g.inv (h1.mono g.mono) hL
        obtain ⟨w'', hw⟩ := h.holds.run run
        obtain ⟨a, w', h5, h6⟩ := exec_bind_ok hw
        exact ⟨a, w', h5, w'', h6⟩
    · intro hn
      have hnil : σ.S e.character = [] := by
        refine List.eq_nil_iff_forall_not_mem.2 fun x hx => ?_
        obtain ⟨p, c, _, _, h3, _⟩ := hi.sourceChar ok hx
        rw [h3] at hn
        exact hn rfl
      unfold Word.getSourceCharacter
      rw [exec_bind, exec_sources hl, hS, hnil, ord_nil]
      rfl

/-- `GetSourceWord` of a phrase returned by the phrase layer: a phrase of one word leads to that word, a longer
    phrase gives an error; nothing is written. -/
theorem C53_source_word {cfg : Cfg} {fuel : Nat} (hd : cfg.dup = .ignore) (hf : 31 ≤ fuel) {us : List Use}
    (hu : ∀ u ∈ us, u.Fine fuel) {e : PhraseE} {s : GoStr} (he : .phrase e s ∈ (shop cfg fuel us).parts) :
    (32 ∉ s → ∃ x, (Phrase.getSourceWord e).exec cfg (shop cfg fuel us).state.world =
        (.ok x, (shop cfg fuel us).state.world) ∧
      ∃ a w', (Word.fetch x).exec cfg (shop cfg fuel us).state.world = (.ok a, w') ∧
        ∃ w'', (Word.extract fuel a).exec cfg w' = (.ok (asText s), w'')) ∧
    (32 ∈ s → (Phrase.getSourceWord e).exec cfg (shop cfg fuel us).state.world =
        (.err .phraseSourceWords, (shop cfg fuel us).state.world)) := by
  have fed := Fed.uses (cfg := cfg) (fuel := fuel) us (s := ⟨State.init cfg, []⟩) (fun x hx => by cases hx) hu _ he
  rcases Stock.uses hd hf us (.inl rfl) hu with h | ⟨σ, h⟩
  · exfalso
    have he' : _ ∈ (List.foldl (Shop.use cfg fuel) ⟨State.init cfg, []⟩ us).parts := he
    rw [h] at he'
    cases he'
  · change Stocked cfg (stdLim fuel) (shop cfg fuel us) σ at h
    change Fed (shop cfg fuel us).state.world.store _ at fed
    have ok : PhraseEnt σ (wordsOf s) e := h.parts _ he
    have hi := h.holds.inv
    have hS : (shop cfg fuel us).state.world.store.sources e.word = σ.S e.word := by
      rw [← h.holds.is.store]; rfl
    have hl := live_of_tag h.holds (x := e.word) (by rw [ok.tagW]; simp)
    constructor
    · intro hs
      have hs1 : splitSpace s = [s] := splitSpace_one hs
      obtain ⟨x, hx⟩ := fed (by rw [hs1]; rfl)
      rw [← h.holds.is.store] at hx
      obtain ⟨rs, c, h1, h2, h3, h4⟩ := hi.sourceWord ok (mem_S.2 hx)
      have hone : σ.S e.word = [x] := by
        refine nodup_one (hi.Snodup _) (mem_S.2 hx) fun y hy => ?_
        obtain ⟨_, _, _, _, _, h5⟩ := hi.sourceWord ok hy
        rw [h4] at h5
        exact (List.cons.inj h5).1.symm
      refine ⟨x, ?_, ?_⟩
      · unfold Phrase.getSourceWord
        rw [exec_bind, exec_sources hl, hS, hone, ord_one]
        rfl
      · subst h2
        have hL : (calmCtx cfg (stdLim fuel)).lim.L ≤ fuel := hf
        have hD : (calmCtx cfg (stdLim fuel)).lim.D ≤ fuel := Nat.le_refl _
        have hr' : asText s = stringOf rs := by
          unfold wordsOf at h3
          rw [hs1] at h3
          rw [← (List.cons.inj h3).1]
          rfl
        have run : Rd (calmCtx cfg (stdLim fuel)) (· = asText s) (do
            let a ← Word.fetch c.phrase
            Word.extract fuel a) σ := by
          refine Rd.bind (good := (· = c)) (Rd.wordByPhrase (C := calmCtx cfg (stdLim fuel)) hi h1) ?_
          intro a σ1 g _ ha; subst ha; rw [hr']
          exact Rd.wordExtract g.inv (h1.mono g.mono) hL hD
        obtain ⟨w'', hw⟩ := h.holds.run run
        obtain ⟨a, w', h5, h6⟩ := exec_bind_ok hw
        exact ⟨a, w', h5, w'', h6⟩
    · intro hs
      have hnil : σ.S e.word = [] := by
        refine List.eq_nil_iff_forall_not_mem.2 fun x hx => ?_
        obtain ⟨p, c, _, _, h3, _⟩ := hi.sourceWord ok hx
        have : (splitSpace s).length = 1 := by
          have := congrArg List.length h3
          simpa [wordsOf] using this
        obtain ⟨t, ht⟩ := one_of_length this
        have hj := join_split s
        rw [ht] at hj
        have : t = s := hj
        subst this
        exact splitSpace_nospace t t (by rw [ht]; simp) hs
      unfold Phrase.getSourceWord
      rw [exec_bind, exec_sources hl, hS, hnil, ord_nil]
      rfl

/-- `GetSourceTree` never finds a parent story: for every story stored by API calls it fails, or (on a storage where
    0 is a node) it returns 0, which is no story. -/
theorem C53_no_parent_story {cfg : Cfg} {fuel : Nat} {es : List Event} (h : Calm cfg fuel es) {x : Nat} {e : StoryE}
    (hx : x ∈ (after cfg fuel es).world.store.sources 8)
    (he : [e.cls, e.fact, e.position, e.tree] = trail (after cfg fuel es).world.store 4 x) :
    (Story.getSourceTree e).exec cfg (after cfg fuel es).world = (.err .storySourceTrees, (after cfg fuel es).world) ∨
    cfg.zero = true ∧
      (Story.getSourceTree e).exec cfg (after cfg fuel es).world = (.ok 0, (after cfg fuel es).world) := by
  rcases h.sound with hb | ⟨σ, hs, hc⟩
  · unfold Blank at hb
    rw [hb] at hx
    simp [State.init, World.open, Store.empty, Store.sources] at hx
  · rw [← hs.is.store] at hx he
    obtain ⟨hw, hk⟩ : Whole σ 8 x ∧ True := ⟨(hc.strand hs.inv (by decide) hx).2.1, trivial⟩
    have ht : σ.tag e.tree = .stT := by
      rcases hw.nodes with ⟨a, b, c, t1, t2, t3, hk, ch, _, _, h3⟩ | ⟨h, _⟩ | ⟨h, _⟩
      · have e4 : e.tree = c := by
          simp only [trail, List.cons.injEq, and_true] at he
          obtain ⟨_, _, _, h4⟩ := he
          rw [h4]
          have f1 : σ.store.fwd x = a := ch.ab.f
          have f2 : σ.store.fwd a = b := ch.bc.f
          have f3 : σ.store.fwd b = c := ch.cd.f
          rw [f1, f2, f3]
        rw [e4, h3]
        cases hk
        rfl
      · cases h
      · cases h
    have hl := live_of_tag hs (x := e.tree) (by rw [ht]; simp)
    have hS : (after cfg fuel es).world.store.sources e.tree = σ.S e.tree := by rw [← hs.is.store]; rfl
    have h0 : ∀ y ∈ σ.S e.tree, y = 0 ∧ cfg.zero = true := by
      intro y hy
      have he := hs.inv.edge _ _ (mem_S.1 hy)
      unfold EdgeOK at he
      rw [ht] at he
      cases hty : σ.tag y <;> rw [hty] at he <;> try exact he.elim
      exact (hs.inv.zero y).1 hty
    unfold Story.getSourceTree
    rw [exec_bind, exec_sources hl, hS]
    cases hl' : σ.S e.tree with
    | nil => left; rw [ord_nil]; rfl
    | cons y l =>
      have hy := h0 y (by rw [hl']; simp)
      have : σ.S e.tree = [y] := nodup_one (hs.inv.Snodup _) (by rw [hl']; simp) fun z hz => by
        rw [(h0 z hz).1, hy.1]
      rw [← hl', this, ord_one, hy.1]
      exact .inr ⟨hy.2, rfl⟩

/-- `CreateNextStoryFact` of a remark creates nothing: it returns neither a fact nor an error. -/
theorem C53_creates_nothing {cfg : Cfg} {fuel : Nat} {es : List Event} (h : Calm cfg fuel es) {e : Entry}
    (he : e ∈ (after cfg fuel es).log) :
    (Remark.createNextStoryFact e.handle).exec cfg (after cfg fuel es).world = (.ok none, (after cfg fuel es).world) := by
  rcases h.sound with hb | ⟨σ, hs, hc⟩
  · unfold Blank at hb
    rw [hb] at he
    cases he
  · have ok := hs.keeps.ok e he
    have hT : ∃ f, σ.T e.handle.fact = [f] := by
      have := ok.fact
      cases ho : e.opener with
      | none => rw [ho] at this; obtain ⟨f, h1, _⟩ := this; exact ⟨_, h1⟩
      | some i => rw [ho] at this; obtain ⟨e', _, f, h1, _⟩ := this; exact ⟨_, h1⟩
    obtain ⟨f, hT⟩ := hT
    have hl := live_of_tag hs (x := e.handle.fact) (by rw [ok.ent.tf]; simp)
    have hT' : (after cfg fuel es).world.store.targets e.handle.fact = [f] := by
      rw [← hs.is.store]; exact hT
    unfold Remark.createNextStoryFact
    have : (Go.readTargets e.handle.fact).exec cfg (after cfg fuel es).world = (.ok [f], (after cfg fuel es).world) := by
      simp [Go.readTargets, Go.call, Go.exec, Go.run, Go.noFault, Store.step, hl, hT', ord_one]
    rw [exec_bind, this]
    rfl

/-- `MarkWord` and `Mark` add one edge, from the given node to the entity, or fail without effect. -/
theorem C53_marks_add_an_edge {cfg : Cfg} {p : Go Unit} {x y : Nat} (hp : (∃ e : CharE, p = Character.markWord e x ∧ y = e.word) ∨
      ∃ e : PhraseE, p = Phrase.mark e x ∧ y = e.detail) {w w' : World} {o : Out Unit} (h : p.exec cfg w = (o, w')) :
    (o = .ok () ∧ (x, y) ∈ w'.store.edges ∧ (w'.store.edges = w.store.edges ∨ w'.store.edges = (x, y) :: w.store.edges) ∨
      ∃ e, o = .err e ∧ w' = w) ∧
    w'.store.nodes = w.store.nodes ∧ w'.store.refs = w.store.refs ∧ w'.mem = w.mem := by
  have hp' : p = Go.connect x y := by
    rcases hp with ⟨e, rfl, rfl⟩ | ⟨e, rfl, rfl⟩ <;> rfl
  subst hp'
  cases o with
  | ok u =>
    have hm := exec_connect_ok h
    have : (w'.store.edges = w.store.edges ∨ w'.store.edges = (x, y) :: w.store.edges) ∧
        w'.store.nodes = w.store.nodes ∧ w'.store.refs = w.store.refs ∧ w'.mem = w.mem := by
      rw [show w' = ((Go.connect x y).exec cfg w).2 by rw [h]]
      exact connect_effect cfg x y w
    exact ⟨.inl ⟨rfl, hm, this.1⟩, this.2⟩
  | err e =>
    have := connect_failed h
    exact ⟨.inr ⟨e, rfl, this⟩, by rw [this], by rw [this], by rw [this]⟩
  | panic => exact absurd (congrArg Prod.fst h) (connect_returns cfg x y w).1
  | spin => exact absurd (congrArg Prod.fst h) (connect_returns cfg x y w).2

/-- `ExtendObject` and `ExtendProperty` return neither a detail nor an error, on every storage. -/
theorem C53_extends_nothing (cfg : Cfg) (d : DetailE) (f : Nat → Fate) (w : World) :
    (Detail.extendObject d).run cfg f w = (.ok none, w) ∧ (Detail.extendProperty d).run cfg f w = (.ok none, w) :=
  ⟨rfl, rfl⟩

/-- words of one and of two characters, phrases of one and of two words, an API call in between -/
def singles : List Use :=
  [.word (bytes "b"), .event (.call (.createStory (bytes "bd b") (bytes "d")) Go.noFault), .phrase (bytes "d"),
   .word (bytes "bd"), .phrase (bytes "d b")]

example : ∀ u ∈ singles, u.Fine fuel := by
  intro u hu
  simp only [singles, List.mem_cons, List.not_mem_nil, or_false] at hu
  rcases hu with rfl | rfl | rfl | rfl | rfl
  · exact ⟨by decide, by decide⟩
  · exact ⟨rfl, by decide⟩
  · show (bytes "d").length < fuel; decide
  · exact ⟨by decide, by decide⟩
  · show (bytes "d b").length < fuel; decide

/-- what the two lookups give for each part -/
def lookups (cfg : Cfg) (s : Shop) : List (Option (Out Nat)) :=
  s.parts.map fun
    | .word e _ => some ((Word.getSourceCharacter e).exec cfg s.state.world).1
    | .phrase e _ => some ((Phrase.getSourceWord e).exec cfg s.state.world).1
    | _ => none

example : lookups cfgA (shop cfgA fuel singles) =
    [some (.ok 61), some (.ok 171), some (.err .wordSourceCharacters), some (.err .phraseSourceWords)] := by decide +kernel

/-- the two stories of the history with child stories, and what the lookup gives -/
example : (after cfgB fuel esB).world.store.sources 8 = [150, 84] ∧
    trail (after cfgB fuel esB).world.store 4 150 = [150, 151, 152, 153] ∧
    trail (after cfgB fuel esB).world.store 4 84 = [84, 85, 86, 87] ∧
    ((Story.getSourceTree ⟨150, 151, 152, 153⟩).exec cfgB (after cfgB fuel esB).world).1 = .ok 0 ∧
    ((Story.getSourceTree ⟨84, 85, 86, 87⟩).exec cfgB (after cfgB fuel esB).world).1 = .err .storySourceTrees ∧
    (after cfgB fuel esB).log.length = 4 := by
  rw [after_esB]; decide +kernel

end Semnet.Props
