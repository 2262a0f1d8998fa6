import Verif.Proof.Alphabet
/-
  Over a free alphabet every new remark gets new phrases.
-/
namespace Semnet
open Spec

/-- the phrases of a remark, read from the storage -/
def phrasePair (s : Store) (r : RemE) : List Nat :=
  let d := s.back ((s.sources r.detail).headD 0)
  s.sources d ++ s.targets d

theorem phrasePair_eq {σ : St} {r : RemE} {d po pp} (h1 : σ.S r.detail = [d.remark]) (h2 : DetailEnt σ d po pp) :
    phrasePair σ.store r = [po.detail, pp.detail] := by
  have hd : σ.store.back ((σ.store.sources r.detail).headD 0) = d.phrase := by
    rw [show σ.store.sources r.detail = [d.remark] from h1]
    exact h2.ref.b
  unfold phrasePair
  rw [hd]
  show σ.S d.phrase ++ σ.T d.phrase = _
  rw [h2.So, h2.Tp]
  rfl

theorem Says.pair {σ : St} {r o p} (h : Says σ r o p) :
    ∃ x y, phrasePair σ.store r = [x, y] ∧ σ.tag x = .phD ∧ σ.tag y = .phD := by
  obtain ⟨d, po, pp, h1, h2, h3, h4⟩ := h
  exact ⟨_, _, phrasePair_eq h1 h2, h3.tagD, h4.tagD⟩

theorem Says.pair_mono {σ σ' : St} {r o p} (h : Says σ r o p) (hr : RemEnt σ r) (m : Mono σ σ') :
    phrasePair σ'.store r = phrasePair σ.store r := by
  obtain ⟨d, po, pp, h1, h2, _⟩ := h
  rw [phrasePair_eq h1 h2, phrasePair_eq (m.Seq hr.td rfl h1 (by simp)) (h2.mono m)]

/-- the phrases of all remarks -/
def allPhrases (st : State) : List Nat := st.log.flatMap fun e => phrasePair st.world.store e.handle

structure Apart (st : State) : Prop where
  nodup : (allPhrases st).Nodup
  length : (allPhrases st).length = 2 * st.log.length

theorem Keeps.pairs_mono {lim : Lim} {σ σ' : St} {log : List Entry} (h : Keeps lim σ log) (m : Mono σ σ') :
    (log.flatMap fun e => phrasePair σ'.store e.handle) = log.flatMap fun e => phrasePair σ.store e.handle := by
  have : ∀ l : List Entry, (∀ e ∈ l, e ∈ log) →
      (l.flatMap fun e => phrasePair σ'.store e.handle) = l.flatMap fun e => phrasePair σ.store e.handle := by
    intro l
    induction l with
    | nil => intro _; rfl
    | cons e l ih =>
      intro hl
      rw [List.flatMap_cons, List.flatMap_cons, ih fun a ha => hl a (by simp [ha])]
      rw [(h.ok e (hl e (by simp))).says.pair_mono (h.ok e (hl e (by simp))).ent m]
  exact this log fun _ h => h

theorem Apart.nil {st : State} (h : st.log = []) : Apart st := by
  have : allPhrases st = [] := by unfold allPhrases; rw [h]; rfl
  exact ⟨by rw [this]; exact List.nodup_nil, by rw [this, h]; rfl⟩

/-- the pair a creating call stores is over the alphabet, if the strings are -/
theorem pair_over' {A : Alphabet} {log : List Entry} (logs : ∀ e ∈ log, A.Over e.object ∧ A.Over e.property) {c : Call}
    (ht : ∀ t ∈ c.texts, A.Over t) {o p : GoStr} (hp : c.pair log = some (o, p)) : A.Over o ∧ A.Over p := by
  cases c with
  | createStory o' p' => cases hp; exact ⟨ht o (by simp [Call.texts]), ht p (by simp [Call.texts])⟩
  | addFact i o' p' =>
    obtain ⟨e, hg, h0⟩ := Option.map_eq_some_iff.1 hp
    cases h0
    exact ⟨ht o (by simp [Call.texts]), ht p (by simp [Call.texts])⟩
  | addChild i o' p' =>
    obtain ⟨e, hg, h0⟩ := Option.map_eq_some_iff.1 hp
    cases h0
    exact ⟨ht o (by simp [Call.texts]), ht p (by simp [Call.texts])⟩
  | addRemark i p' =>
    obtain ⟨e, hg, h0⟩ := Option.map_eq_some_iff.1 hp
    cases h0
    exact ⟨(logs e (List.mem_of_getElem? hg)).1, ht p (by simp [Call.texts])⟩
  | query => cases hp
  | getRemark => cases hp

/-- what the log gains -/
theorem call_gain {cfg : Cfg} {fuel : Nat} {st : State} {c : Call} {f : Nat → Fate} :
    (st.call cfg fuel c f).log = st.log ∨
    ∃ r e o p w, (c.prog fuel st.log).run cfg f st.world = (.ok (some r), w) ∧ c.entry st.log r = some e ∧
      e.handle = r ∧ c.pair st.log = some (o, p) ∧ st.call cfg fuel c f = ⟨w, st.log ++ [e]⟩ := by
  unfold State.call
  generalize hout : (Go.run cfg (Call.prog fuel st.log c) f st.world) = out
  obtain ⟨x, w⟩ := out
  cases x with
  | ok x =>
    cases x with
    | none => exact .inl rfl
    | some r =>
      cases c with
      | createStory o p => exact .inr ⟨r, _, o, p, w, rfl, rfl, rfl, rfl, rfl⟩
      | addFact i o p =>
        cases hi : st.log[i]? with
        | none => simp only [Call.prog, hi, pure, Go.run] at hout; cases hout
        | some e => exact .inr ⟨r, _, o, p, w, rfl, rfl, rfl, by simp [Call.pair, hi], rfl⟩
      | addChild i o p =>
        cases hi : st.log[i]? with
        | none => simp only [Call.prog, hi, pure, Go.run] at hout; cases hout
        | some e => exact .inr ⟨r, _, o, p, w, rfl, rfl, rfl, by simp [Call.pair, hi], rfl⟩
      | addRemark i p =>
        cases hi : st.log[i]? with
        | none => left; simp [Call.entry, hi]
        | some e =>
          exact .inr ⟨r, _, e.object, p, w, rfl, by simp only [Call.entry, hi]; rfl, rfl, by simp [Call.pair, hi],
            by simp [Call.entry, hi]⟩
      | query => exact .inl (by simp [Call.entry])
      | getRemark => exact .inl (by simp [Call.entry])
  | _ => exact .inl rfl

/-- a successful creating call stores a pair of new phrases -/
theorem NewText.fresh {A : Alphabet} (hA : A.Free) {fuel : Nat} {σ σ' : St} {r : RemE} {o p : GoStr}
    (h : NewText (alphaLim A False fuel) σ σ' r o p) (hs : Says σ' r (wordsOf o) (wordsOf p)) (over : A.Over o ∧ A.Over p) :
    ∃ x y, phrasePair σ'.store r = [x, y] ∧ σ.tag x = .none ∧ σ.tag y = .none ∧ x ≠ y := by
  obtain ⟨d, po, pp, h1, h2, h3, h4, _⟩ := h
  have g := hs.noGap
  have l2 := h4 (hA.leaf over.2 g.2)
  exact ⟨_, _, phrasePair_eq h1 h2, h3 (hA.leaf over.1 g.1), l2.1, l2.2⟩

theorem Apart.event {A : Alphabet} (hA : A.Free) {cfg : Cfg} (hd : cfg.dup = .ignore) {fuel : Nat}
    (hf : Fits (alphaLim A False fuel) fuel) {st : State} (hs : Sound cfg (alphaLim A False fuel) st)
    (logs : ∀ e ∈ st.log, A.Over e.object ∧ A.Over e.property) (h : Apart st) {ev : Event} (hc : ev.Calm)
    (ht : ∀ t ∈ ev.texts, A.Over t ∧ t.length < fuel) : Apart (st.event cfg fuel ev) := by
  have same : (st.event cfg fuel ev).log = st.log → Apart (st.event cfg fuel ev) := by
    intro hl
    by_cases h0 : st.log = []
    · exact .nil (hl.trans h0)
    obtain ⟨σ, hσ, hcl⟩ := hs.holds h0
    obtain ⟨σ', h', _, m⟩ := calm_from hf [ev] hσ hcl (by simpa using hc)
      (by intro e he t h'; rw [List.mem_singleton.1 he] at h'; exact TextOK.alpha (ht t h').1 (ht t h').2 fun h => h.elim)
    have h' : Holds cfg (alphaLim A False fuel) (st.event cfg fuel ev) σ' := h'
    have : allPhrases (st.event cfg fuel ev) = allPhrases st := by
      unfold allPhrases
      rw [hl, ← h'.is.store, ← hσ.is.store]
      exact hσ.keeps.pairs_mono m
    exact ⟨by rw [this]; exact h.nodup, by rw [this, hl]; exact h.length⟩
  cases ev with
  | reopen => exact same rfl
  | crash c f n => exact hc.elim
  | call c f =>
    have hf0 : f = Go.noFault := hc
    subst hf0
    have htx : ∀ t ∈ c.texts, TextOK (alphaLim A False fuel) t := fun t h' => TextOK.alpha (ht t h').1 (ht t h').2 fun h => h.elim
    rcases call_gain (cfg := cfg) (fuel := fuel) (st := st) (c := c) (f := Go.noFault) with hl | ⟨r, e, o, p, w, h1, h2, h3, h4, h5⟩
    · exact same hl
    have over := pair_over' logs (fun t h' => (ht t h').1) h4
    show Apart (st.call cfg fuel c Go.noFault)
    rw [h5]
    have h1' : (c.prog fuel st.log).exec cfg st.world = (.ok (some r), w) := h1
    by_cases h0 : st.log = []
    · obtain ⟨σ, σ', _, _, _, _, he⟩ := hs.creates (.inl hd) hf htx h4
      rw [h1'] at he
      obtain ⟨r', hr, ⟨op, hst⟩, _, _, hn, _⟩ := he.out
      cases hr
      obtain ⟨x, y, a, b, c, d⟩ := hn.fresh hA hst.says over
      have : allPhrases ⟨w, st.log ++ [e]⟩ = [x, y] := by
        unfold allPhrases
        rw [h0]
        simp only [List.nil_append, List.flatMap_cons, List.flatMap_nil, List.append_nil]
        rw [h3, ← he.is.store, a]
      exact ⟨by rw [this]; simp [d], by rw [this, h0]; rfl⟩
    · obtain ⟨σ, hσ, hcl⟩ := hs.holds h0
      obtain ⟨σ', he⟩ := WrL.ends hσ.is hσ.flt (createWp (hσ.calm hf hcl) htx h4)
      rw [h1'] at he
      obtain ⟨r', hr, ⟨op, hst⟩, _, _, hn, _⟩ := he.out
      cases hr
      obtain ⟨x, y, a, b, c, d⟩ := hn.fresh hA hst.says over
      have : allPhrases ⟨w, st.log ++ [e]⟩ = allPhrases st ++ [x, y] := by
        unfold allPhrases
        rw [List.flatMap_append]
        simp only [List.flatMap_cons, List.flatMap_nil, List.append_nil]
        rw [h3, ← he.is.store, a, hσ.keeps.pairs_mono he.ext.mono, hσ.is.store]
      have old : ∀ z ∈ allPhrases st, σ.tag z ≠ .none := by
        intro z hz
        obtain ⟨e', he', hz⟩ := List.mem_flatMap.1 hz
        obtain ⟨x', y', k1, k2, k3⟩ := (hσ.keeps.ok e' he').says.pair
        rw [← hσ.is.store, k1] at hz
        simp only [List.mem_cons, List.not_mem_nil, or_false] at hz
        rcases hz with rfl | rfl
        · rw [k2]; simp
        · rw [k3]; simp
      refine ⟨?_, ?_⟩
      · rw [this, List.nodup_append]
        refine ⟨h.nodup, by simp [d], ?_⟩
        intro z hz z' hz' e
        subst e
        simp only [List.mem_cons, List.not_mem_nil, or_false] at hz'
        rcases hz' with rfl | rfl
        · exact old _ hz b
        · exact old _ hz c
      · rw [this, List.length_append, h.length, List.length_append]
        simp only [List.length_cons, List.length_nil]
        omega

theorem Apart.after {A : Alphabet} (hA : A.Free) {cfg : Cfg} {fuel : Nat} {es : List Event} (h : Calm cfg fuel es)
    (hes : ∀ e ∈ es, ∀ t ∈ e.texts, A.Over t) : Apart (after cfg fuel es) := by
  have hf := alpha_fits (one := False) A h.budget
  have key : ∀ (l : List Event) {st : State}, Sound cfg (alphaLim A False fuel) st →
      (∀ e ∈ st.log, A.Over e.object ∧ A.Over e.property) → Apart st → (∀ e ∈ l, e ∈ es) →
      Apart (st.events cfg fuel l) := by
    intro l
    induction l with
    | nil => exact fun _ _ h _ => h
    | cons ev l ih =>
      intro st hs logs ha hl
      have hm := hl ev (by simp)
      have ht : ∀ t ∈ ev.texts, A.Over t ∧ t.length < fuel := fun t h' => ⟨hes ev hm t h', h.budget.2 ev hm t h'⟩
      rw [events_cons]
      refine ih ?_ ?_ (ha.event hA h.dup hf hs logs (h.calm ev hm) ht) fun a h' => hl a (by simp [h'])
      · exact calm_events (.inl h.dup) hf [ev] hs (by intro e he; rw [List.mem_singleton.1 he]; exact h.calm ev hm)
          (by intro e he t h'; rw [List.mem_singleton.1 he] at h'; exact TextOK.alpha (ht t h').1 (ht t h').2 fun h => h.elim)
      · exact log_texts (fun _ h => h.asText) cfg fuel [ev] logs
          (by intro e he t h'; rw [List.mem_singleton.1 he] at h'; exact (ht t h').1)
  exact key es (.init cfg _) (fun e he => by cases he) (.nil rfl) fun _ h => h

end Semnet
