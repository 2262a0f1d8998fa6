import Verif.Proof.Api
import Verif.Proof.Reopen
import Verif.Spec.Moody
/-
  Storages with a node 0: facts added by AddFactToStory, and where navigation leads.
-/
namespace Semnet
open Spec

/-- a mood that never changes -/
theorem runs_const {α : Type} (cfg : Cfg) : ∀ (p : Go α) (f : Nat → Fate) (w : World),
    p.runs (fun _ => cfg) f w = p.run cfg f w := by
  intro p
  induction p with
  | ok a => exact fun _ _ => rfl
  | err e => exact fun _ _ => rfl
  | panic => exact fun _ _ => rfl
  | spin => exact fun _ _ => rfl
  | op o k ih =>
    intro f w
    unfold Go.runs Go.run
    cases f 0 <;> exact ih _ _ _
  | getMem k ih => exact fun f w => ih _ f w
  | setMem m k ih => exact fun f w => ih f _

theorem runs_bind_ok {α β : Type} (f : α → Go β) : ∀ (p : Go α) (g : Nat → Cfg) {w w' : World} {a : α},
    p.runs g Go.noFault w = (.ok a, w') →
      ∃ n, (p >>= f).runs g Go.noFault w = (f a).runs (fun i => g (i + n)) Go.noFault w' := by
  intro p
  show ∀ (g : Nat → Cfg) {w w' : World} {a : α}, p.runs g Go.noFault w = (.ok a, w') →
      ∃ n, (p.bind f).runs g Go.noFault w = (f a).runs (fun i => g (i + n)) Go.noFault w'
  induction p with
  | ok a => intro g w w' x h; cases h; exact ⟨0, rfl⟩
  | err e => intro g w w' x h; cases h
  | panic => intro g w w' x h; cases h
  | spin => intro g w w' x h; cases h
  | op o k ih =>
    intro g w w' x h
    obtain ⟨n, hn⟩ := ih _ (fun i => g (i + 1)) h
    exact ⟨n + 1, hn⟩
  | getMem k ih => intro g w w' x h; exact ih _ g h
  | setMem m k ih => intro g w w' x h; exact ih g h

theorem runs_bind_err {α β : Type} (f : α → Go β) : ∀ (p : Go α) (g : Nat → Cfg) {w w' : World} {e : Err},
    p.runs g Go.noFault w = (.err e, w') → (p >>= f).runs g Go.noFault w = (.err e, w') := by
  intro p
  show ∀ (g : Nat → Cfg) {w w' : World} {e : Err}, p.runs g Go.noFault w = (.err e, w') →
    (p.bind f).runs g Go.noFault w = (.err e, w')
  induction p with
  | ok a => intro g w w' x h; cases h
  | err e => intro g w w' x h; cases h; rfl
  | panic => intro g w w' x h; cases h
  | spin => intro g w w' x h; cases h
  | op o k ih => intro g w w' x h; exact ih _ (fun i => g (i + 1)) h
  | getMem k ih => intro g w w' x h; exact ih _ g h
  | setMem m k ih => intro g w w' x h; exact ih g h

theorem runs_attempt {α : Type} : ∀ (p : Go α) (g : Nat → Cfg) (w : World),
    p.attempt.runs g Go.noFault w = (match p.runs g Go.noFault w with
      | (.ok a, w') => (.ok (.ok a), w')
      | (.err e, w') => (.ok (.error e), w')
      | (.panic, w') => (.panic, w')
      | (.spin, w') => (.spin, w')) := by
  intro p
  induction p with
  | ok a => exact fun _ _ => rfl
  | err e => exact fun _ _ => rfl
  | panic => exact fun _ _ => rfl
  | spin => exact fun _ _ => rfl
  | op o k ih => exact fun g w => ih _ _ _
  | getMem k ih => exact fun g w => ih _ _ _
  | setMem m k ih => exact fun g w => ih _ _

/-- `p` changes nothing and ends in `o`, whatever the storage's mood. -/
def Ev {α : Type} (_cfg : Cfg) (s : Store) (p : Go α) (o : Out α) : Prop :=
  ∀ (g : Nat → Cfg) m, p.runs g Go.noFault ⟨s, m⟩ = (o, ⟨s, m⟩)

namespace Ev
variable {α β : Type} {cfg : Cfg} {s : Store}

theorem exec {p : Go α} {o} (h : Ev cfg s p o) (m : Layer) : p.exec cfg ⟨s, m⟩ = (o, ⟨s, m⟩) := by
  rw [← h (fun _ => cfg) m, runs_const]
  rfl

theorem ret (a : α) : Ev cfg s (pure a) (.ok a) := fun _ _ => rfl
theorem err (e : Err) : Ev cfg s (Go.err e : Go α) (.err e) := fun _ _ => rfl

theorem bind {p : Go α} {f : α → Go β} {a o} (h : Ev cfg s p (.ok a)) (h' : Ev cfg s (f a) o) :
    Ev cfg s (p >>= f) o := by
  intro g m
  obtain ⟨n, hn⟩ := runs_bind_ok f p g (h g m)
  rw [hn]
  exact h' _ m

theorem left {p : Go α} {f : α → Go β} {e} (h : Ev cfg s p (.err e)) : Ev cfg s (p >>= f) (.err e) :=
  fun g m => runs_bind_err f p g (h g m)

/-- the storage lists the targets in any order -/
theorem targets {x : Nat} (h : s.live x = true) {l} (ht : s.targets x = l) {f : List Nat → Go β} {o}
    (k : ∀ l', l'.Perm l → Ev cfg s (f l') o) : Ev cfg s (Go.readTargets x >>= f) o := by
  intro g m
  subst ht
  have : (Go.readTargets x).runs g Go.noFault ⟨s, m⟩ = (.ok ((g 0).ord s (.readTargets x) (s.targets x)), ⟨s, m⟩) := by
    simp [Go.readTargets, Go.call, Go.runs, Go.noFault, Store.step, h]
  obtain ⟨n, hn⟩ := runs_bind_ok f _ g this
  rw [hn]
  exact k _ ((g 0).ord_perm _ _ _) _ m

theorem sources {x : Nat} (h : s.live x = true) {l} (ht : s.sources x = l) {f : List Nat → Go β} {o}
    (k : ∀ l', l'.Perm l → Ev cfg s (f l') o) : Ev cfg s (Go.readSources x >>= f) o := by
  intro g m
  subst ht
  have : (Go.readSources x).runs g Go.noFault ⟨s, m⟩ = (.ok ((g 0).ord s (.readSources x) (s.sources x)), ⟨s, m⟩) := by
    simp [Go.readSources, Go.call, Go.runs, Go.noFault, Store.step, h]
  obtain ⟨n, hn⟩ := runs_bind_ok f _ g this
  rw [hn]
  exact k _ ((g 0).ord_perm _ _ _) _ m

theorem ref {x : Nat} (h : s.live x = true) {b f} (hb : s.back x = b) (hf : s.fwd x = f) :
    Ev cfg s (Go.getReference x) (.ok (b, f)) := by
  intro g m
  subst hb hf
  simp [Go.getReference, Go.call, Go.runs, Go.noFault, Store.step, h]

/-- `len(x) != 1` -/
theorem one {l l' : List Nat} {f : Nat → Go β} {e : Err} (hp : l'.Perm l) (hl : ∀ t, l ≠ [t]) :
    Ev cfg s (match l' with | [t] => f t | _ => Go.err e) (.err e) := by
  match l' with
  | [] => exact err _
  | [t] => exact absurd (List.singleton_perm.1 hp).symm (hl t)
  | _ :: _ :: _ => exact err _

theorem attempt {p : Go α} {a} (h : Ev cfg s p (.ok a)) : Ev cfg s p.attempt (.ok (.ok a)) := by
  intro g m
  rw [runs_attempt, h g m]

theorem attemptErr {p : Go α} {e} (h : Ev cfg s p (.err e)) : Ev cfg s p.attempt (.ok (.error e)) := by
  intro g m
  rw [runs_attempt, h g m]

end Ev

/-- the class nodes 4 to 7, taken for a remark -/
def classRemark : RemE := ⟨4, 5, 6, 7⟩

section
variable {cfg : Cfg} {lim : Lim} {σ : St} (hi : Inv cfg lim σ)
include hi

theorem Ref.evB {x y : Nat} (h : Ref σ x y) :
    Ev cfg σ.store (Go.getReference y) (.ok (x, σ.fwd y)) :=
  Ev.ref ((hi.live y).2 (h.tagy hi)) h.b rfl

theorem Ref.evMid {w x y : Nat} (h : Ref σ w x) (h' : Ref σ x y) :
    Ev cfg σ.store (Go.getReference x) (.ok (w, y)) :=
  Ev.ref ((hi.live x).2 (h.tagy hi)) h.b h'.f

theorem Inv.rootRef {i : Nat} (h1 : 1 ≤ i) (h2 : i < 8) : Ref σ i (i + 1) := by
  have h := hi.roots i h1 h2
  refine ⟨h, ?_, by omega, by omega⟩
  have h3 := (hi.refB i (by omega)).1
  rw [h] at h3
  exact h3

theorem ev_classRemark : Ev cfg σ.store (Remark.readEntityByFact 7) (.ok classRemark) :=
  .bind ((hi.rootRef (i := 6) (by omega) (by omega)).evB hi) <|
  .bind ((hi.rootRef (i := 5) (by omega) (by omega)).evB hi) <|
  .bind ((hi.rootRef (i := 4) (by omega) (by omega)).evB hi) <| .ret _

theorem ev_refCls {x k : Nat} (h : σ.tag x = .cls k) :
    Ev cfg σ.store (Go.getReference x) (.ok (0, σ.fwd x)) :=
  Ev.ref ((hi.live x).2 (by rw [h]; simp)) (hi.noB x (by rw [h]; rfl)) rfl

theorem ev_ref0 (hz : cfg.zero = true) : Ev cfg σ.store (Go.getReference 0) (.ok (0, 0)) :=
  Ev.ref ((hi.live 0).2 (by rw [hi.tag0 hz]; simp)) (hi.noB 0 (by rw [hi.tag0 hz]; rfl))
    (hi.noF 0 (by rw [hi.tag0 hz]; rfl))

theorem ev_T {x t : Nat} (hx : σ.tag x ≠ .none) (h : σ.T x = [t]) :
    Ev cfg σ.store (Go.readTargets x) (.ok [t]) := by
  intro g m
  have hl := (hi.live x).2 hx
  have h' : σ.store.targets x = [t] := h
  simp [Go.readTargets, Go.call, Go.runs, Go.noFault, Store.step, hl, h', perm_one ((g 0).ord_perm _ _ [t])]

theorem ev_S {x t : Nat} (hx : σ.tag x ≠ .none) (h : σ.S x = [t]) :
    Ev cfg σ.store (Go.readSources x) (.ok [t]) := by
  intro g m
  have hl := (hi.live x).2 hx
  have h' : σ.store.sources x = [t] := h
  simp [Go.readSources, Go.call, Go.runs, Go.noFault, Store.step, hl, h', perm_one ((g 0).ord_perm _ _ [t])]

/-- the position of a fact taken for its story: the first remark of that "fact" -/
theorem ev_firstOfPosition {b f} (hf : FactEnt σ b f) :
    Ev cfg σ.store (Fact.readEntityByStory f.position) (.ok ⟨0, f.cls, f.remark, f.position⟩) :=
  .bind (hf.chain.bc.evB hi) <| .bind (hf.chain.ab.evB hi) <| .bind (ev_refCls hi hf.tc) <| .ret _

theorem ev_firstRemarkOfPosition {b f} (hf : FactEnt σ b f) {g p s : Nat} {v : Bool} :
    Ev cfg σ.store (Fact.getFirstRemark ⟨⟨g, f.cls, p, s⟩, v⟩) (.ok 7) :=
  .bind (ev_T hi (by rw [hf.tc]; simp) hf.Tc) <| .ret _

theorem ev_story0 (hz : cfg.zero = true) : Ev cfg σ.store (Story.fetchByFact 0) (.ok ⟨0, 0, 0, 0⟩) :=
  .bind (ev_ref0 hi hz) <| .bind (ev_ref0 hi hz) <| .ret _

theorem ev_storyPos0 (hz : cfg.zero = true) : Ev cfg σ.store (Story.fetchByPosition 0) (.ok ⟨0, 0, 0, 0⟩) :=
  .bind (ev_ref0 hi hz) <| .bind (ev_ref0 hi hz) <| .ret _

theorem ev_factOf {b f} (hf : FactEnt σ b f) :
    Ev cfg σ.store (Fact.fetchByRemark f.remark) (.ok ⟨f, true⟩) :=
  .bind (.bind (hf.chain.ab.evMid hi hf.chain.bc) <| .bind (hf.chain.bc.evMid hi hf.chain.cd) <| .ret _) <| .ret _

theorem ev_storyOrZero {b f s} (hf : FactEnt σ b f) (h : σ.T f.story = [s]) {v} :
    Ev cfg σ.store (Fact.targetStoryOrZero ⟨f, v⟩) (.ok s) :=
  .bind (.attempt (.bind (ev_T hi (by rw [hf.ts]; simp) h) <| .ret _)) <| .ret _

theorem ev_remarkFact {r f} (hr : RemEnt σ r) (h : σ.T r.fact = [f]) :
    Ev cfg σ.store (Remark.getTargetFact r) (.ok f) :=
  .bind (ev_T hi (by rw [hr.tf]; simp) h) <| .ret _

theorem zero_live (hz : cfg.zero = true) : σ.store.live 0 = true := (hi.live 0).2 (by rw [hi.tag0 hz]; simp)

theorem tag0_ne (hz : cfg.zero = true) : σ.tag 0 ≠ .none := by rw [hi.tag0 hz]; simp

/-- GetFirstFact of a fact added by AddFactToStory -/
theorem ev_firstLoose (hz : cfg.zero = true) (hc : Clean σ) {r} (hr : RemEnt σ r) (hb : Belongs σ r none) :
    (Ev cfg σ.store (Remark.getFirstFact r) (.ok classRemark) ∧ ∃ t, σ.T 0 = [t]) ∨
    (¬ (∃ t, σ.T 0 = [t]) ∧ ∃ e, Ev cfg σ.store (Remark.getFirstFact r) (.err e)) := by
  obtain ⟨f, hT, hf, hTs⟩ := hb
  rcases Classical.em (∃ t, σ.T 0 = [t]) with ⟨t, ht⟩ | hn
  · obtain ⟨f', hf', hft, _⟩ := hi.zeroTarget hz hc ht
    subst hft
    refine .inl ⟨?_, _, ht⟩
    have h1 : Ev cfg σ.store (Fact.toFirstFact ⟨f, true⟩) (.ok ⟨⟨0, f'.cls, f'.remark, f'.position⟩, false⟩) :=
      .bind (ev_storyOrZero hi hf hTs) <| .bind (ev_story0 hi hz) <|
      .bind (.bind (ev_T hi (tag0_ne hi hz) ht) <| .ret _) <| .bind (ev_firstOfPosition hi hf') <| .ret _
    exact .bind (ev_remarkFact hi hr hT) <| .bind (ev_factOf hi hf) <| .bind h1 <|
      .bind (ev_firstRemarkOfPosition hi hf') <| ev_classRemark hi
  · refine .inr ⟨hn, .storyTargetFacts, ?_⟩
    refine .bind (ev_remarkFact hi hr hT) <| .bind (ev_factOf hi hf) <| .left <| .bind (ev_storyOrZero hi hf hTs) <|
      .bind (ev_story0 hi hz) <| .left <| .targets (zero_live hi hz) rfl fun _ hp => .one hp ?_
    exact fun t ht => hn ⟨t, ht⟩

/-- the fact that navigation takes for the fact of a remark -/
theorem ev_factOfRemark (hz : cfg.zero = true) {r} (hr : RemEnt σ r) :
    Ev cfg σ.store (Fact.fetchByRemark r.fact) (.ok ⟨⟨r.position, r.fact, 0, 0⟩, true⟩) := by
  have h : σ.fwd r.fact = 0 := hi.noF _ (by rw [hr.tf]; rfl)
  have h1 := hr.chain.cd.evB hi
  rw [h] at h1
  exact .bind (.bind h1 <| .bind (ev_ref0 hi hz) <| .ret _) <| .ret _

theorem ev_storyOfZero (hz : cfg.zero = true) {t c k : Nat} {v} (ht : σ.T 0 = [t]) :
    Ev cfg σ.store (Fact.targetStoryOrZero ⟨⟨c, k, 0, 0⟩, v⟩) (.ok t) :=
  .bind (.attempt (.bind (ev_T hi (tag0_ne hi hz) ht) <| .ret _)) <| .ret _

theorem ev_storyOfZero' (hz : cfg.zero = true) {c k : Nat} {v} (hn : ¬ ∃ t, σ.T 0 = [t]) :
    Ev cfg σ.store (Fact.targetStoryOrZero ⟨⟨c, k, 0, 0⟩, v⟩) (.ok 0) :=
  .bind (.attemptErr (.targets (zero_live hi hz) rfl fun _ hp => .one hp fun t ht => hn ⟨t, ht⟩)) <| .ret _

theorem ev_storyAtPosition {b f} (hf : FactEnt σ b f) :
    Ev cfg σ.store (Story.fetchByFact f.position) (.ok ⟨f.remark, f.position, f.story, σ.fwd f.story⟩) :=
  .bind (hf.chain.bc.evMid hi hf.chain.cd) <| .bind (hf.chain.cd.evB hi) <| .ret _

/-- GetNextStory -/
theorem ev_nextStory (hz : cfg.zero = true) (hc : Clean σ) {r} (hr : RemEnt σ r) :
    (Ev cfg σ.store (Remark.getNextStory r) (.ok classRemark) ∧ ∃ t, σ.T 0 = [t]) ∨
    (¬ (∃ t, σ.T 0 = [t]) ∧ ∃ e, Ev cfg σ.store (Remark.getNextStory r) (.err e)) := by
  rcases Classical.em (∃ t, σ.T 0 = [t]) with ⟨t, ht⟩ | hn
  · obtain ⟨f', hf', hft, hs⟩ := hi.zeroTarget hz hc ht
    subst hft
    refine .inl ⟨?_, _, ht⟩
    have h1 : Ev cfg σ.store (Fact.toNextStory ⟨⟨r.position, r.fact, 0, 0⟩, true⟩)
        (.ok ⟨⟨0, f'.cls, f'.remark, f'.position⟩, false⟩) :=
      .bind (ev_storyOfZero hi hz ht) <| .bind (ev_storyAtPosition hi hf') <|
      .bind (.bind (ev_T hi (by rw [hf'.ts]; simp) hs) <| .ret _) <| .bind (ev_storyPos0 hi hz) <|
      .bind (.bind (ev_T hi (tag0_ne hi hz) ht) <| .ret _) <| .bind (ev_firstOfPosition hi hf') <| .ret _
    exact .bind (ev_factOfRemark hi hz hr) <| .bind h1 <|
      .bind (ev_firstRemarkOfPosition hi hf') <| ev_classRemark hi
  · refine .inr ⟨hn, .storyNext, ?_⟩
    refine .bind (ev_factOfRemark hi hz hr) <| .left <| .bind (ev_storyOfZero' hi hz hn) <|
      .bind (ev_story0 hi hz) <| .left <| .targets (zero_live hi hz) rfl fun _ hp => .one hp ?_
    exact fun t ht => hn ⟨t, ht⟩

omit hi in
theorem perm_isEmpty {l l' : List Nat} (h : l'.Perm l) : l'.isEmpty = l.isEmpty := by
  have := h.length_eq
  cases l' <;> cases l <;> simp at this ⊢

/-- HasNextFact -/
theorem ev_hasNextFact (hz : cfg.zero = true) {r} (hr : RemEnt σ r) :
    Ev cfg σ.store (Remark.hasNextFact r) (.ok !(σ.T 0).isEmpty) := by
  refine .bind (ev_factOfRemark hi hz hr) <| .targets (zero_live hi hz) rfl fun _ hp => ?_
  rw [perm_isEmpty hp]
  exact .ret _

/-- HasNextStory -/
theorem ev_hasNextStory (hz : cfg.zero = true) (hc : Clean σ) {r} (hr : RemEnt σ r) :
    Ev cfg σ.store (Remark.hasNextStory r) (.ok !(σ.T 0).isEmpty) := by
  refine .bind (ev_factOfRemark hi hz hr) ?_
  rcases Classical.em (∃ t, σ.T 0 = [t]) with ⟨t, ht⟩ | hn
  · obtain ⟨f', hf', hft, hs⟩ := hi.zeroTarget hz hc ht
    subst hft
    rw [ht]
    exact .bind (ev_storyOfZero hi hz ht) <| .bind (ev_storyAtPosition hi hf') <|
      .bind (ev_T hi (by rw [hf'.ts]; simp) hs) <| .ret _
  · refine .bind (ev_storyOfZero' hi hz hn) <| .bind (ev_story0 hi hz) <| .targets (zero_live hi hz) rfl fun _ hp => ?_
    rw [perm_isEmpty hp]
    exact .ret _

/-- the class nodes have no text -/
theorem ev_classText (hz : cfg.zero = true) (hc : Clean σ) (fuel : Nat) :
    ∃ e, Ev cfg σ.store (Remark.getObjectAndProperty fuel classRemark) (.err e) := by
  have t5 : σ.tag 5 = .root := (hi.root 5).2 (by omega)
  have l5 : σ.store.live 5 = true := (hi.live 5).2 (by rw [t5]; simp)
  rcases Classical.em (∃ d, σ.S 5 = [d]) with ⟨d, hd⟩ | hn
  · have he := hi.edge d 5 (mem_S.1 (by rw [hd]; simp))
    unfold EdgeOK at he
    rw [t5] at he
    cases htd : σ.tag d <;> rw [htd] at he <;> try exact he.elim
    have h1 : Ev cfg σ.store (Detail.fetch d) (.ok ⟨0, 0, d⟩) :=
      .bind (ev_refCls hi htd) <| .bind (ev_ref0 hi hz) <| .ret _
    have h0 : Ev cfg σ.store (Remark.getSourceDetail classRemark) (.ok d) :=
      .bind (ev_S hi (x := 5) (by rw [t5]; simp) hd) <| .ret _
    rcases Classical.em (∃ s, σ.S 0 = [s]) with ⟨s, hs⟩ | hn
    · rcases Classical.em (∃ t, σ.T 0 = [t]) with ⟨t, ht⟩ | hn
      · obtain ⟨f, hf, hft, hfs⟩ := hi.zeroTarget hz hc ht
        have : f.story ∈ σ.S 0 := mem_S.2 (mem_T.1 (by rw [hfs]; simp))
        rw [hs] at this
        have : f.story = s := List.mem_singleton.1 this
        subst this
        refine ⟨.phraseTargetWords, .bind h0 <| .bind h1 <| .bind
          (.bind (ev_S hi (tag0_ne hi hz) hs) <| .bind (ev_T hi (tag0_ne hi hz) ht) <| .ret _) <|
          .bind (.bind (hf.chain.cd.evB hi) <| .bind (hf.chain.bc.evB hi) <| .bind (hf.chain.ab.evB hi) <| .ret _) <|
          .left <| .left <| .left <| .targets ((hi.live f.remark).2 (by rw [hf.tr]; simp))
            (hi.noT f.remark (by rw [hf.tr]; rfl)) fun _ hp => .one hp (by simp)⟩
      · exact ⟨.detailTargetPhrases, .bind h0 <| .bind h1 <| .left <| .bind (ev_S hi (tag0_ne hi hz) hs) <|
          .targets (zero_live hi hz) rfl fun _ hp => .one hp fun t ht => hn ⟨t, ht⟩⟩
    · refine ⟨.detailSourcePhrases, .bind h0 <| .bind h1 <| .left <| .sources (zero_live hi hz) rfl fun _ hp => ?_⟩
      exact .one hp fun t ht => hn ⟨t, ht⟩
  · exact ⟨.remarkSourceDetails, .left <| .sources l5 rfl fun _ hp => .one hp fun t ht => hn ⟨t, ht⟩⟩

/-- GetStory of a fact added by AddFactToStory -/
theorem ev_storyLoose (hz : cfg.zero = true) (hc : Clean σ) {r} (hr : RemEnt σ r) (hb : Belongs σ r none)
    {fuel : Nat} (h1 : 1 ≤ fuel) : ∃ e, Ev cfg σ.store (Output.getStory fuel r) (.err e) := by
  obtain ⟨n, rfl⟩ : ∃ n, fuel = n + 1 := ⟨fuel - 1, by omega⟩
  rcases ev_firstLoose hi hz hc hr hb with ⟨h, _⟩ | ⟨_, e, h⟩
  · obtain ⟨e, he⟩ := ev_classText hi hz hc (n + 1)
    exact ⟨e, .bind h <| .left he⟩
  · exact ⟨e, .left h⟩

theorem classRemark_ne {r} (hr : RemEnt σ r) : classRemark ≠ r := by
  intro h
  have h1 := hr.tc
  rw [← h, show classRemark.cls = 4 from rfl, (hi.root 4).2 (by omega)] at h1
  cases h1

/-- without a node 0 no fact is added by AddFactToStory -/
theorem belongs_zero {r} (hb : Belongs σ r none) : cfg.zero = true := by
  obtain ⟨f, _, _, h⟩ := hb
  have := (hi.edge _ _ (mem_T.1 (show 0 ∈ σ.T f.story by rw [h]; simp))).tags.2
  cases hz : cfg.zero with
  | true => rfl
  | false => exact absurd (hi.node0 hz) this

end
end Semnet
