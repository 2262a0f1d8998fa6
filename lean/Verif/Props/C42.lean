import Verif.Proof.Catalogue
import Verif.Props.Sample
/- C42: the catalogue is complete: every node belongs to exactly one entity, and every entity is whole. -/
namespace Semnet.Props
open Spec Sample

/-- After any calm history that has stored something, the nodes of the storage are, each listed once: node 0 if the
    storage has one, the eight class nodes, and the nodes of the entities connected to the class nodes. -/
theorem C42_every_node_in_one_entity {cfg : Cfg} {fuel : Nat} {es : List Event} (h : Calm cfg fuel es)
    (h1 : (after cfg fuel es).world.store.live 1 = true) :
    (after cfg fuel es).world.store.nodes.Nodup ∧
    (after cfg fuel es).world.store.nodes.Perm
      ((if cfg.zero then [0] else []) ++ classes ++ inventory (after cfg fuel es).world.store) := by
  have ht := tidy_after cfg fuel es
  refine ⟨ht.nodup, ?_⟩
  rcases h.sound with hb | ⟨σ, hs, hc⟩
  · unfold Blank at hb
    rw [hb] at h1
    cases hz : cfg.zero <;> simp [State.init, World.open, Store.empty, Store.live, hz] at h1
  · have := hc.nodes_perm hs.inv (by rw [hs.is.store]; exact ht)
    rw [hs.is.store] at this
    exact this

/-- The size of the storage is determined by the number of entities of each class: two nodes for a bit, three for a
    detail, four for every other entity. -/
theorem C42_size_is_weight {cfg : Cfg} {fuel : Nat} {es : List Event} (h : Calm cfg fuel es)
    (h1 : (after cfg fuel es).world.store.live 1 = true) :
    (after cfg fuel es).world.store.nodes.length =
      (if cfg.zero then 1 else 0) + 8 + weight (after cfg fuel es).world.store := by
  rw [(C42_every_node_in_one_entity h h1).2.length_eq, List.length_append, List.length_append, inventory_length]
  cases cfg.zero <;> rfl

/-- A member of a class is connected to that class node only, and `Is` recognises it as a member of this class and
    of no other. -/
theorem C42_members_are_recognised {cfg : Cfg} {fuel : Nat} {es : List Event} (h : Calm cfg fuel es) {k x : Nat}
    (hk : k ∈ classes) (hx : x ∈ (after cfg fuel es).world.store.sources k) :
    (after cfg fuel es).world.store.targets x = [k] ∧
    ∀ k', (Class.isNode k' x).exec cfg (after cfg fuel es).world = (.ok (k == k'), (after cfg fuel es).world) := by
  obtain ⟨σ, is, hi, _, ht, hw⟩ := h.catalogue hk hx
  have hT : (after cfg fuel es).world.store.targets x = [k] := by rw [← is.store]; exact hw.T
  have hl : (after cfg fuel es).world.store.live x = true := by
    rw [← is.store]; exact (hi.live x).2 (by rw [ht]; simp)
  exact ⟨hT, exec_isNode hl hT⟩

/-- Every character of the catalogue is found by each of its four nodes. -/
theorem C42_characters_found {cfg : Cfg} {fuel : Nat} {es : List Event} (h : Calm cfg fuel es) {x : Nat}
    (hx : x ∈ (after cfg fuel es).world.store.sources 2) :
    ∃ e : CharE, [e.cls, e.bit, e.character, e.word] = trail (after cfg fuel es).world.store 4 x ∧
      FoundBy cfg (after cfg fuel es).world e
        [Character.readEntityByClass e.cls, Character.readEntityByBit e.bit, Character.readEntityByCharacter e.character,
          Character.readEntityByWord e.word] := by
  obtain ⟨a, b, c, ht, hl, f1, f2, f3, b1, b2, b3⟩ := h.four (k := 2) (by decide) (by decide) (by decide) hx
  simp only [List.mem_cons, List.not_mem_nil, or_false, forall_eq_or_imp, forall_eq] at hl
  refine ⟨⟨x, a, b, c⟩, ht.symm, fun r hr => ?_⟩
  simp only [List.mem_cons, List.not_mem_nil, or_false] at hr
  rcases hr with e | e | e | e <;> subst e <;>
    simp only [Character.readEntityByClass, Character.readEntityByBit, Character.readEntityByCharacter, Character.readEntityByWord,
      exec_ref, hl, f1, f2, f3, b1, b2, b3] <;> rfl

/-- Every word of the catalogue is found by each of its four nodes. -/
theorem C42_words_found {cfg : Cfg} {fuel : Nat} {es : List Event} (h : Calm cfg fuel es) {x : Nat}
    (hx : x ∈ (after cfg fuel es).world.store.sources 3) :
    ∃ e : WordE, [e.cls, e.character, e.word, e.phrase] = trail (after cfg fuel es).world.store 4 x ∧
      FoundBy cfg (after cfg fuel es).world e
        [Word.readEntityByClass e.cls, Word.readEntityByCharacter e.character, Word.readEntityByWord e.word,
          Word.readEntityByPhrase e.phrase] := by
  obtain ⟨a, b, c, ht, hl, f1, f2, f3, b1, b2, b3⟩ := h.four (k := 3) (by decide) (by decide) (by decide) hx
  simp only [List.mem_cons, List.not_mem_nil, or_false, forall_eq_or_imp, forall_eq] at hl
  refine ⟨⟨x, a, b, c⟩, ht.symm, fun r hr => ?_⟩
  simp only [List.mem_cons, List.not_mem_nil, or_false] at hr
  rcases hr with e | e | e | e <;> subst e <;>
    simp only [Word.readEntityByClass, Word.readEntityByCharacter, Word.readEntityByWord, Word.readEntityByPhrase,
      exec_ref, hl, f1, f2, f3, b1, b2, b3] <;> rfl

/-- Every phrase of the catalogue is found by each of its four nodes. -/
theorem C42_phrases_found {cfg : Cfg} {fuel : Nat} {es : List Event} (h : Calm cfg fuel es) {x : Nat}
    (hx : x ∈ (after cfg fuel es).world.store.sources 4) :
    ∃ e : PhraseE, [e.cls, e.word, e.phrase, e.detail] = trail (after cfg fuel es).world.store 4 x ∧
      FoundBy cfg (after cfg fuel es).world e
        [Phrase.readEntityByClass e.cls, Phrase.readEntityByWord e.word, Phrase.readEntityByPhrase e.phrase,
          Phrase.readEntityByDetail e.detail] := by
  obtain ⟨a, b, c, ht, hl, f1, f2, f3, b1, b2, b3⟩ := h.four (k := 4) (by decide) (by decide) (by decide) hx
  simp only [List.mem_cons, List.not_mem_nil, or_false, forall_eq_or_imp, forall_eq] at hl
  refine ⟨⟨x, a, b, c⟩, ht.symm, fun r hr => ?_⟩
  simp only [List.mem_cons, List.not_mem_nil, or_false] at hr
  rcases hr with e | e | e | e <;> subst e <;>
    simp only [Phrase.readEntityByClass, Phrase.readEntityByWord, Phrase.readEntityByPhrase, Phrase.readEntityByDetail,
      exec_ref, hl, f1, f2, f3, b1, b2, b3] <;> rfl

/-- Every detail of the catalogue is found by each of its three nodes. -/
theorem C42_details_found {cfg : Cfg} {fuel : Nat} {es : List Event} (h : Calm cfg fuel es) {x : Nat}
    (hx : x ∈ (after cfg fuel es).world.store.sources 5) :
    ∃ e : DetailE, [e.cls, e.phrase, e.remark] = trail (after cfg fuel es).world.store 3 x ∧
      FoundBy cfg (after cfg fuel es).world e
        [Detail.readEntityByClass e.cls, Detail.readEntityByPhrase e.phrase, Detail.readEntityByRemark e.remark] := by
  obtain ⟨a, b, ht, hl, f1, f2, b1, b2⟩ := h.three hx
  simp only [List.mem_cons, List.not_mem_nil, or_false, forall_eq_or_imp, forall_eq] at hl
  refine ⟨⟨x, a, b⟩, ht.symm, fun r hr => ?_⟩
  simp only [List.mem_cons, List.not_mem_nil, or_false] at hr
  rcases hr with e | e | e <;> subst e <;>
    simp only [Detail.readEntityByClass, Detail.readEntityByPhrase, Detail.readEntityByRemark,
      exec_ref, hl, f1, f2, b1, b2] <;> rfl

/-- Every remark of the catalogue is found by each of its four nodes. -/
theorem C42_remarks_found {cfg : Cfg} {fuel : Nat} {es : List Event} (h : Calm cfg fuel es) {x : Nat}
    (hx : x ∈ (after cfg fuel es).world.store.sources 6) :
    ∃ e : RemE, [e.cls, e.detail, e.position, e.fact] = trail (after cfg fuel es).world.store 4 x ∧
      FoundBy cfg (after cfg fuel es).world e
        [Remark.readEntityByClass e.cls, Remark.readEntityByDetail e.detail, Remark.readEntityByPosition e.position,
          Remark.readEntityByFact e.fact] := by
  obtain ⟨a, b, c, ht, hl, f1, f2, f3, b1, b2, b3⟩ := h.four (k := 6) (by decide) (by decide) (by decide) hx
  simp only [List.mem_cons, List.not_mem_nil, or_false, forall_eq_or_imp, forall_eq] at hl
  refine ⟨⟨x, a, b, c⟩, ht.symm, fun r hr => ?_⟩
  simp only [List.mem_cons, List.not_mem_nil, or_false] at hr
  rcases hr with e | e | e | e <;> subst e <;>
    simp only [Remark.readEntityByClass, Remark.readEntityByDetail, Remark.readEntityByPosition, Remark.readEntityByFact,
      exec_ref, hl, f1, f2, f3, b1, b2, b3] <;> rfl

/-- Every fact of the catalogue is found by each of its four nodes. -/
theorem C42_facts_found {cfg : Cfg} {fuel : Nat} {es : List Event} (h : Calm cfg fuel es) {x : Nat}
    (hx : x ∈ (after cfg fuel es).world.store.sources 7) :
    ∃ e : FactE, [e.cls, e.remark, e.position, e.story] = trail (after cfg fuel es).world.store 4 x ∧
      FoundBy cfg (after cfg fuel es).world e
        [Fact.readEntityByClass e.cls, Fact.readEntityByRemark e.remark, Fact.readEntityByPosition e.position,
          Fact.readEntityByStory e.story] := by
  obtain ⟨a, b, c, ht, hl, f1, f2, f3, b1, b2, b3⟩ := h.four (k := 7) (by decide) (by decide) (by decide) hx
  simp only [List.mem_cons, List.not_mem_nil, or_false, forall_eq_or_imp, forall_eq] at hl
  refine ⟨⟨x, a, b, c⟩, ht.symm, fun r hr => ?_⟩
  simp only [List.mem_cons, List.not_mem_nil, or_false] at hr
  rcases hr with e | e | e | e <;> subst e <;>
    simp only [Fact.readEntityByClass, Fact.readEntityByRemark, Fact.readEntityByPosition, Fact.readEntityByStory,
      exec_ref, hl, f1, f2, f3, b1, b2, b3] <;> rfl

/-- Every story of the catalogue is found by each of its four nodes. -/
theorem C42_stories_found {cfg : Cfg} {fuel : Nat} {es : List Event} (h : Calm cfg fuel es) {x : Nat}
    (hx : x ∈ (after cfg fuel es).world.store.sources 8) :
    ∃ e : StoryE, [e.cls, e.fact, e.position, e.tree] = trail (after cfg fuel es).world.store 4 x ∧
      FoundBy cfg (after cfg fuel es).world e
        [Story.readEntityByClass e.cls, Story.fetchByFact e.fact, Story.fetchByPosition e.position,
          Story.fetchByTree e.tree] := by
  obtain ⟨a, b, c, ht, hl, f1, f2, f3, b1, b2, b3⟩ := h.four (k := 8) (by decide) (by decide) (by decide) hx
  simp only [List.mem_cons, List.not_mem_nil, or_false, forall_eq_or_imp, forall_eq] at hl
  refine ⟨⟨x, a, b, c⟩, ht.symm, fun r hr => ?_⟩
  simp only [List.mem_cons, List.not_mem_nil, or_false] at hr
  rcases hr with e | e | e | e <;> subst e <;>
    simp only [Story.readEntityByClass, Story.fetchByFact, Story.fetchByPosition, Story.fetchByTree,
      exec_ref, hl, f1, f2, f3, b1, b2, b3] <;> rfl

/-- Members of the eight classes after the example history (the fourth remark is left over from the call that
    failed), and its 181 nodes. -/
example : classes.map (fun k => ((after cfgA fuel es).world.store.sources k).length) = [2, 13, 11, 8, 3, 4, 2, 2] ∧
    (after cfgA fuel es).world.store.nodes.length = 0 + 8 + (2 * 2 + 4 * 13 + 4 * 11 + 4 * 8 + 3 * 3 + 4 * 4 + 4 * 2 + 4 * 2) := by
  rw [after_es]; decide +kernel

/-- The last story of the history with facts and child stories, with its nodes. -/
example : trail (after cfgB fuel esB).world.store (size 8) 150 = [150, 151, 152, 153] ∧
    (Story.fetchByPosition 152).exec cfgB (after cfgB fuel esB).world =
      (.ok ⟨150, 151, 152, 153⟩, (after cfgB fuel esB).world) := by
  rw [after_esB]; decide +kernel

end Semnet.Props
