import Verif.Proof.Api
import Verif.Spec.Catalogue
/- The catalogue: every node belongs to exactly one entity (for C42). -/
namespace Semnet
open Spec

variable {cfg : Cfg} {lim : Lim} {σ : St}

/-! ### node lists without repetition -/

/-- identifiers are given out once; edges and references join nodes -/
structure Store.Tidy (s : Store) : Prop where
  nodup : s.nodes.Nodup
  bound : ∀ x ∈ s.nodes, x < s.next
  edges : ∀ e ∈ s.edges, s.live e.1 = true ∧ s.live e.2 = true
  refs : ∀ e ∈ s.refs, s.live e.1 = true ∧ s.live e.2 = true

theorem Store.Tidy.empty (cfg : Cfg) : (Store.empty cfg).Tidy := by
  unfold Store.empty
  constructor <;> split <;> simp

theorem Store.Tidy.step {s : Store} (h : s.Tidy) (cfg : Cfg) (o : Op) : (s.step cfg o).2.Tidy := by
  have hc : ∀ x y, (s.live x && s.live y) = true → (s.connected cfg x y).Tidy := fun x y hl =>
    ⟨h.nodup, fun z hz => Nat.lt_of_lt_of_le (h.bound z hz) (Nat.le_add_right _ _), fun e he => by
      rcases List.mem_cons.1 he with e' | he
      · rw [e']; exact ⟨(Bool.and_eq_true_iff.1 hl).1, (Bool.and_eq_true_iff.1 hl).2⟩
      · exact h.edges e he, h.refs⟩
  cases o with
  | create =>
    have grow : ∀ z, s.live z = true → s.created.live z = true := fun z hz => by
      unfold Store.live Store.created at *; simp at hz ⊢; exact .inr hz
    refine ⟨List.nodup_cons.2 ⟨fun hx => Nat.lt_irrefl _ (h.bound _ hx), h.nodup⟩, fun x hx => ?_,
      fun e he => ⟨grow _ (h.edges e he).1, grow _ (h.edges e he).2⟩,
      fun e he => ⟨grow _ (h.refs e he).1, grow _ (h.refs e he).2⟩⟩
    rcases List.mem_cons.1 hx with e | hx
    · rw [e]; exact Nat.lt_succ_self _
    · exact Nat.lt_succ_of_lt (h.bound x hx)
  | has _ => exact h
  | readSources _ => exact h
  | readTargets _ => exact h
  | getReference _ => exact h
  | setReference x y =>
    show (if _ then _ else _ : Except Err Unit × Store).2.Tidy
    split
    · rename_i hl
      refine ⟨h.nodup, h.bound, h.edges, fun e he => ?_⟩
      rcases List.mem_cons.1 he with e' | he
      · rw [e']; exact ⟨(Bool.and_eq_true_iff.1 hl).1, (Bool.and_eq_true_iff.1 hl).2⟩
      · exact h.refs e he
    · exact h
  | connect x y =>
    unfold Store.step
    dsimp only
    split
    · rename_i hl
      split
      · split
        · exact h
        · exact hc x y hl
        · exact h
      · exact hc x y hl
    · exact h

theorem tidy_run {α : Type} (cfg : Cfg) : ∀ (p : Go α) (f : Nat → Fate) (w : World), w.store.Tidy →
    (p.run cfg f w).2.store.Tidy
  | .ok _, _, _, h => h
  | .err _, _, _, h => h
  | .panic, _, _, h => h
  | .spin, _, _, h => h
  | .op o k, f, w, h => by
    unfold Go.run
    dsimp only
    split
    · exact tidy_run cfg _ _ _ (h.step cfg o)
    · exact tidy_run cfg _ _ _ h
    · exact tidy_run cfg _ _ _ (h.step cfg o)
  | .getMem k, f, w, h => tidy_run cfg (k w.mem) f w h
  | .setMem m k, f, w, h => tidy_run cfg k f ⟨w.store, w.mem.set m⟩ h

theorem tidy_crash {α : Type} (cfg : Cfg) : ∀ (p : Go α) (n : Nat) (f : Nat → Fate) (w : World), w.store.Tidy →
    (p.crashAfter cfg n f w).Tidy
  | .ok _, _, _, _, h => by simp only [Go.crashAfter]; exact h
  | .err _, _, _, _, h => by simp only [Go.crashAfter]; exact h
  | .panic, _, _, _, h => by simp only [Go.crashAfter]; exact h
  | .spin, _, _, _, h => by simp only [Go.crashAfter]; exact h
  | .op o k, 0, f, w, h => by unfold Go.crashAfter; exact h
  | .op o k, n + 1, f, w, h => by
    unfold Go.crashAfter
    dsimp only
    split
    · exact tidy_crash cfg _ _ _ _ (h.step cfg o)
    · exact tidy_crash cfg _ _ _ _ h
    · exact tidy_crash cfg _ _ _ _ (h.step cfg o)
  | .getMem k, n, f, w, h => by
    simp only [Go.crashAfter]; exact tidy_crash cfg (k w.mem) n f w h
  | .setMem m k, n, f, w, h => by
    simp only [Go.crashAfter]; exact tidy_crash cfg k n f ⟨w.store, w.mem.set m⟩ h

theorem tidy_event {cfg : Cfg} {fuel : Nat} {st : State} (h : st.world.store.Tidy) (e : Event) :
    (st.event cfg fuel e).world.store.Tidy := by
  cases e with
  | call c f =>
    show (st.call cfg fuel c f).world.store.Tidy
    have := tidy_run cfg (c.prog fuel st.log) f st.world h
    unfold State.call
    split <;> rename_i hr <;> rw [hr] at this <;> exact this
  | crash c f n => exact tidy_crash cfg _ n f _ h
  | reopen => exact h

theorem tidy_after (cfg : Cfg) (fuel : Nat) (es : List Event) : (after cfg fuel es).world.store.Tidy := by
  suffices ∀ (es : List Event) (st : State), st.world.store.Tidy → (st.events cfg fuel es).world.store.Tidy from
    this es _ (Store.Tidy.empty cfg)
  intro es
  induction es with
  | nil => exact fun _ h => h
  | cons e es ih => intro st h; exact ih _ (tidy_event h e)

/-! ### members of a class -/

theorem Inv.member (hi : Inv cfg lim σ) {k x : Nat} (hk : 1 ≤ k ∧ k ≤ 8) (hx : x ∈ σ.S k) : σ.tag x = .cls k := by
  have h := hi.edge x k (mem_S.1 hx)
  unfold EdgeOK at h
  rw [(hi.root k).2 hk] at h
  cases ht : σ.tag x <;> rw [ht] at h <;> first | exact h.elim | skip
  rw [h]

theorem Whole.member {k x : Nat} (h : Whole σ k x) : x ∈ σ.S k :=
  mem_S.2 (mem_T.1 (by rw [h.T]; simp))

theorem Whole.class {k x : Nat} (h : Whole σ k x) : 1 ≤ k ∧ k ≤ 8 := by
  rcases h.nodes with ⟨a, b, c, t1, t2, t3, hk, _⟩ | ⟨hk, _⟩ | ⟨hk, _⟩
  · cases hk <;> decide
  · subst hk; decide
  · subst hk; decide

theorem back_fwd {x y : Nat} (h : Ref σ x y) : σ.store.fwd x = y ∧ σ.store.back y = x := ⟨h.f, h.b⟩

/-- the nodes of an entity -/
structure Strand (σ : St) (l : List Nat) : Prop where
  nodup : (l.map σ.tag).Nodup
  some : ∀ y ∈ l, σ.tag y ≠ .none ∧ σ.tag y ≠ .root ∧ σ.tag y ≠ .zero
  owns : ∀ y ∈ l, ∀ x, l.head? = Option.some x → Owns σ x y
  closed : ∀ y ∈ l, σ.fwd y ∈ l ∨ σ.fwd y = 0

theorem Whole.strand (hi : Inv cfg lim σ) {k x : Nat} (hx : σ.tag x = .cls k) (h : Whole σ k x) :
    Strand σ (trail σ.store (size k) x) := by
  rcases h.nodes with ⟨a, b, c, t1, t2, t3, hk, hc, h1, h2, h3⟩ | ⟨hk, a, b, r1, r2, h1, h2⟩ | ⟨hk, a, v, r1, h1⟩
  · have e : trail σ.store (size k) x = [x, a, b, c] := by
      have : size k = 4 := by cases hk <;> rfl
      rw [this]
      simp [trail, (back_fwd hc.ab).1, (back_fwd hc.bc).1, (back_fwd hc.cd).1]
    have hf : σ.fwd c = 0 := hi.noF c (by rw [h3]; cases hk <;> rfl)
    have o1 := (Owns.head (σ := σ) (x := x)).step hc.ab
    have o2 := o1.step hc.bc
    have o3 := o2.step hc.cd
    rw [e]
    constructor
    · simp only [List.map_cons, List.map_nil, hx, h1, h2, h3]; cases hk <;> simp
    · simp only [List.mem_cons, List.not_mem_nil, or_false, forall_eq_or_imp, forall_eq, hx, h1, h2, h3]
      cases hk <;> simp
    · intro y hy z hz
      injection hz with hz
      subst hz
      simp only [List.mem_cons, List.not_mem_nil, or_false] at hy
      rcases hy with e | e | e | e <;> subst e
      · exact .head
      · exact o1
      · exact o2
      · exact o3
    · intro y hy
      simp only [List.mem_cons, List.not_mem_nil, or_false] at hy
      rcases hy with e | e | e | e <;> subst e
      · rw [hc.ab.f]; simp
      · rw [hc.bc.f]; simp
      · rw [hc.cd.f]; simp
      · exact .inr hf
  · subst hk
    have e : trail σ.store (size Class.detailId) x = [x, a, b] := by
      show trail σ.store 3 x = _
      simp [trail, (back_fwd r1).1, (back_fwd r2).1]
    have hf : σ.fwd b = 0 := hi.noF b (by rw [h2]; rfl)
    have o1 := (Owns.head (σ := σ) (x := x)).step r1
    have o2 := o1.step r2
    rw [e]
    constructor
    · simp [hx, h1, h2]
    · simp [hx, h1, h2]
    · intro y hy z hz
      injection hz with hz
      subst hz
      simp only [List.mem_cons, List.not_mem_nil, or_false] at hy
      rcases hy with e | e | e <;> subst e
      · exact .head
      · exact o1
      · exact o2
    · intro y hy
      simp only [List.mem_cons, List.not_mem_nil, or_false] at hy
      rcases hy with e | e | e <;> subst e
      · rw [r1.f]; simp
      · rw [r2.f]; simp
      · exact .inr hf
  · subst hk
    have e : trail σ.store (size Class.bitId) x = [x, a] := by
      show trail σ.store 2 x = _
      simp [trail, (back_fwd r1).1]
    have hf : σ.fwd a = 0 := hi.noF a (by rw [h1]; rfl)
    have o1 := (Owns.head (σ := σ) (x := x)).step r1
    rw [e]
    constructor
    · simp [hx, h1]
    · simp [hx, h1]
    · intro y hy z hz
      injection hz with hz
      subst hz
      simp only [List.mem_cons, List.not_mem_nil, or_false] at hy
      rcases hy with e | e <;> subst e
      · exact .head
      · exact o1
    · intro y hy
      simp only [List.mem_cons, List.not_mem_nil, or_false] at hy
      rcases hy with e | e <;> subst e
      · rw [r1.f]; simp
      · exact .inr hf

theorem trail_head (s : Store) (k x : Nat) : (trail s (size k) x).head? = some x := by
  unfold size; split <;> rfl

theorem trail_length (s : Store) : ∀ n x, (trail s n x).length = n
  | 0, _ => rfl
  | n + 1, x => by simp [trail, trail_length s n]

theorem Owns.mem {l : List Nat} (hs : Strand σ l) {x y : Nat} (hx : l.head? = some x) (h : Owns σ x y) : y ∈ l := by
  induction h with
  | head =>
    cases l with
    | nil => cases hx
    | cons a l => injection hx with hx; rw [hx]; simp
  | step _ hr ih =>
    rcases hs.closed _ ih with h | h
    · rw [← hr.f]; exact h
    · exact absurd (hr.f.symm.trans h) hr.hy

theorem Owns.unique {x x' y : Nat} (hx : σ.back x = 0) (hx' : σ.back x' = 0) (h : Owns σ x y) (h' : Owns σ x' y) :
    x = x' := by
  induction h with
  | head =>
    cases h' with
    | head => rfl
    | step _ hr => exact absurd (hr.b.symm.trans hx) hr.hx
  | step _ hr ih =>
    cases h' with
    | head => exact absurd (hr.b.symm.trans hx') hr.hx
    | step h2 hr' =>
      rw [← hr'.b, hr.b] at h2
      exact ih h2

theorem nodup_of_map {α β : Type} {f : α → β} : ∀ {l : List α}, (l.map f).Nodup → l.Nodup
  | [], _ => List.nodup_nil
  | a :: l, h => by
    rw [List.map_cons, List.nodup_cons] at h
    exact List.nodup_cons.2 ⟨fun ha => h.1 (List.mem_map_of_mem ha), nodup_of_map h.2⟩

theorem mem_classes {k : Nat} : k ∈ classes ↔ 1 ≤ k ∧ k ≤ 8 := by
  simp only [classes, List.mem_cons, List.not_mem_nil, or_false]; omega

theorem Clean.strand (hi : Inv cfg lim σ) (hc : Clean σ) {k x : Nat} (hk : k ∈ classes) (hx : x ∈ σ.S k) :
    σ.tag x = .cls k ∧ Whole σ k x ∧ Strand σ (trail σ.store (size k) x) := by
  have ht := hi.member (mem_classes.1 hk) hx
  have hw := hc.whole.heads x k ht
  exact ⟨ht, hw, hw.strand hi ht⟩

theorem mem_inventory {s : Store} {y : Nat} : y ∈ inventory s ↔
    ∃ k ∈ classes, ∃ x ∈ s.sources k, y ∈ trail s (size k) x := by
  simp [inventory, List.mem_flatMap]

/-- entities do not share nodes -/
theorem Clean.disjoint (hi : Inv cfg lim σ) (hc : Clean σ) {k k' x x' y : Nat} (hk : k ∈ classes) (hk' : k' ∈ classes)
    (hx : x ∈ σ.S k) (hx' : x' ∈ σ.S k') (h : y ∈ trail σ.store (size k) x) (h' : y ∈ trail σ.store (size k') x') :
    k = k' ∧ x = x' := by
  obtain ⟨t, _, s⟩ := hc.strand hi hk hx
  obtain ⟨t', _, s'⟩ := hc.strand hi hk' hx'
  have e := (s.owns y h x (trail_head _ _ _)).unique (hi.noB x (by rw [t]; rfl)) (hi.noB x' (by rw [t']; rfl))
    (s'.owns y h' x' (trail_head _ _ _))
  subst e
  rw [t] at t'
  injection t' with e
  exact ⟨e, rfl⟩

theorem Clean.inventory_nodup (hi : Inv cfg lim σ) (hc : Clean σ) : (inventory σ.store).Nodup := by
  unfold inventory List.Nodup
  rw [List.pairwise_flatMap]
  have hcl : classes.Nodup := by decide
  constructor
  · intro k hk
    rw [List.pairwise_flatMap]
    constructor
    · intro x hx
      exact nodup_of_map (hc.strand hi hk hx).2.2.nodup
    · refine (hi.Snodup k).imp_of_mem ?_
      intro x x' hx hx' hne y hy z hz e
      subst e
      exact hne (hc.disjoint hi hk hk hx hx' hy hz).2
  · refine List.Pairwise.imp_of_mem ?_ hcl
    intro k k' hk hk' hne y hy z hz e
    subst e
    obtain ⟨x, hx, hy⟩ := List.mem_flatMap.1 hy
    obtain ⟨x', hx', hz⟩ := List.mem_flatMap.1 hz
    exact hne (hc.disjoint hi hk hk' hx hx' hy hz).1

theorem Clean.mem_inventory (hi : Inv cfg lim σ) (hc : Clean σ) (y : Nat) :
    y ∈ inventory σ.store ↔ 9 ≤ y ∧ σ.tag y ≠ .none := by
  rw [Semnet.mem_inventory]
  constructor
  · rintro ⟨k, hk, x, hx, hy⟩
    obtain ⟨t, w, s⟩ := hc.strand hi hk hx
    have hs := s.some y hy
    refine ⟨?_, hs.1⟩
    refine Classical.byContradiction fun h9 => ?_
    have hy' : σ.tag y = .root ∨ σ.tag y = .zero := by
      by_cases h0 : y = 0
      · right
        refine (hi.zero y).2 ⟨h0, ?_⟩
        cases hz : cfg.zero with
        | true => rfl
        | false => exact absurd (h0 ▸ hi.node0 hz) hs.1
      · exact .inl ((hi.root y).2 (by omega))
    exact hy'.elim hs.2.1 hs.2.2
  · rintro ⟨h9, hy⟩
    obtain ⟨x, k, hx, ho⟩ := hc.whole.owned y hy h9
    have hw := hc.whole.heads x k hx
    exact ⟨k, mem_classes.2 hw.class, x, hw.member, ho.mem (hw.strand hi hx) (trail_head _ _ _)⟩

/-- the storage consists of its class nodes, node 0 if it has one, and the entities of the catalogue -/
theorem Clean.nodes_perm (hi : Inv cfg lim σ) (hc : Clean σ) (ht : σ.store.Tidy) :
    σ.store.nodes.Perm ((if cfg.zero then [0] else []) ++ classes ++ inventory σ.store) := by
  have hz : ∀ y, y ∈ (if cfg.zero then [0] else [] : List Nat) ↔ y = 0 ∧ cfg.zero = true := by
    intro y; cases cfg.zero <;> simp
  refine (List.perm_ext_iff_of_nodup ht.nodup ?_).2 fun y => ?_
  · refine List.nodup_append.2 ⟨List.nodup_append.2 ⟨?_, by decide, ?_⟩, hc.inventory_nodup hi, ?_⟩
    · cases cfg.zero <;> simp
    · intro a ha b hb
      have := (hz a).1 ha
      have := mem_classes.1 hb
      omega
    · intro a ha b hb
      have := (hc.mem_inventory hi b).1 hb
      rcases List.mem_append.1 ha with ha | ha
      · have := (hz a).1 ha; omega
      · have := mem_classes.1 ha; omega
  · have hl : y ∈ σ.store.nodes ↔ σ.tag y ≠ .none := by
      rw [← hi.live y]; unfold Store.live; simp
    rw [hl, List.mem_append, List.mem_append, hz, mem_classes, hc.mem_inventory hi]
    constructor
    · intro h
      by_cases h9 : 9 ≤ y
      · exact .inr ⟨h9, h⟩
      by_cases h0 : y = 0
      · refine .inl (.inl ⟨h0, ?_⟩)
        cases hz : cfg.zero with
        | true => rfl
        | false => exact absurd (h0 ▸ hi.node0 hz) h
      · exact .inl (.inr (by omega))
    · rintro ((h | h) | h)
      · rw [(hi.zero y).2 h]; simp
      · rw [(hi.root y).2 h]; simp
      · exact h.2

theorem inventory_length (s : Store) : (inventory s).length = weight s := by
  unfold inventory weight
  rw [List.length_flatMap]
  congr 1
  apply List.map_congr_left
  intro k _
  rw [List.length_flatMap]
  have : ∀ l : List Nat, (l.map fun x => (trail s (size k) x).length).sum = size k * l.length := by
    intro l
    induction l with
    | nil => simp
    | cons a l ih => rw [List.map_cons, List.sum_cons, ih, trail_length, List.length_cons, Nat.mul_succ, Nat.add_comm]
  exact this _

/-! ### readers -/

theorem exec_ref {β : Type} {w : World} {x : Nat} (hl : w.store.live x = true) {k : Nat × Nat → Go β} :
    (Go.getReference x >>= k).exec cfg w = (k (w.store.back x, w.store.fwd x)).exec cfg w := by
  rw [exec_bind]
  have : (Go.getReference x).exec cfg w = (.ok (w.store.back x, w.store.fwd x), w) := by
    show (Go.op (.getReference x) _).run cfg Go.noFault w = _
    simp [Go.run, Store.step, hl, Go.noFault]
  rw [this]

/-- a complete entity is found by each of its nodes -/
theorem Inv.chain_live (hi : Inv cfg lim σ) {x a b c : Nat} {k t1 t2 t3} (hx : σ.tag x = .cls k) (hk : Kind k t1 t2 t3)
    (h1 : σ.tag a = t1) (h2 : σ.tag b = t2) (h3 : σ.tag c = t3) :
    σ.store.live x = true ∧ σ.store.live a = true ∧ σ.store.live b = true ∧ σ.store.live c = true := by
  refine ⟨(hi.live x).2 ?_, (hi.live a).2 ?_, (hi.live b).2 ?_, (hi.live c).2 ?_⟩
  · rw [hx]; simp
  · rw [h1]; exact hk.none.1
  · rw [h2]; exact hk.none.2.1
  · rw [h3]; exact hk.none.2.2

/-- the class nodes of a storage without entities have no sources -/
theorem Spec.Calm.catalogue {fuel es} (h : Calm cfg fuel es) {k x : Nat} (hk : k ∈ classes)
    (hx : x ∈ (after cfg fuel es).world.store.sources k) :
    ∃ σ, σ.Is (after cfg fuel es).world ∧ Inv cfg (stdLim fuel) σ ∧ Clean σ ∧ σ.tag x = .cls k ∧ Whole σ k x := by
  rcases h.sound with hb | ⟨σ, hs, hc⟩
  · unfold Blank at hb
    rw [hb] at hx
    cases hx
  · have hx' : x ∈ σ.S k := by unfold St.S; rw [hs.is.store]; exact hx
    obtain ⟨h1, h2, _⟩ := hc.strand hs.inv hk hx'
    exact ⟨σ, hs.is, hs.inv, hc, h1, h2⟩

/-- for the classes whose entities have four nodes -/
theorem Spec.Calm.four {fuel es} (h : Calm cfg fuel es) {k x : Nat} (hk : k ∈ classes) (h1 : k ≠ 1) (h5 : k ≠ 5)
    (hx : x ∈ (after cfg fuel es).world.store.sources k) :
    ∃ a b c, trail (after cfg fuel es).world.store 4 x = [x, a, b, c] ∧
      (∀ y ∈ [x, a, b, c], (after cfg fuel es).world.store.live y = true) ∧
      (after cfg fuel es).world.store.fwd x = a ∧ (after cfg fuel es).world.store.fwd a = b ∧
      (after cfg fuel es).world.store.fwd b = c ∧ (after cfg fuel es).world.store.back a = x ∧
      (after cfg fuel es).world.store.back b = a ∧ (after cfg fuel es).world.store.back c = b := by
  obtain ⟨σ, is, hi, hc, ht, hw⟩ := h.catalogue hk hx
  rw [← is.store]
  rcases hw.nodes with ⟨a, b, c, t1, t2, t3, hk', hch, h1, h2, h3⟩ | ⟨hk', _⟩ | ⟨hk', _⟩
  · obtain ⟨l0, l1, l2, l3⟩ := hi.chain_live ht hk' h1 h2 h3
    refine ⟨a, b, c, ?_, ?_, hch.ab.f, hch.bc.f, hch.cd.f, hch.ab.b, hch.bc.b, hch.cd.b⟩
    · simp [trail, (back_fwd hch.ab).1, (back_fwd hch.bc).1, (back_fwd hch.cd).1]
    · simp [l0, l1, l2, l3]
  · exact absurd hk' h5
  · exact absurd hk' h1

/-- for details -/
theorem Spec.Calm.three {fuel es} (h : Calm cfg fuel es) {x : Nat}
    (hx : x ∈ (after cfg fuel es).world.store.sources 5) :
    ∃ a b, trail (after cfg fuel es).world.store 3 x = [x, a, b] ∧
      (∀ y ∈ [x, a, b], (after cfg fuel es).world.store.live y = true) ∧
      (after cfg fuel es).world.store.fwd x = a ∧ (after cfg fuel es).world.store.fwd a = b ∧
      (after cfg fuel es).world.store.back a = x ∧ (after cfg fuel es).world.store.back b = a := by
  obtain ⟨σ, is, hi, hc, ht, hw⟩ := h.catalogue (k := 5) (by decide) hx
  rw [← is.store]
  rcases hw.nodes with ⟨a, b, c, t1, t2, t3, hk', _⟩ | ⟨_, a, b, r1, r2, h1, h2⟩ | ⟨hk', _⟩
  · cases hk'
  · refine ⟨a, b, by simp [trail, (back_fwd r1).1, (back_fwd r2).1], ?_, r1.f, r2.f, r1.b, r2.b⟩
    have l0 := (hi.live x).2 (by rw [ht]; simp)
    have l1 := (hi.live a).2 (by rw [h1]; simp)
    have l2 := (hi.live b).2 (by rw [h2]; simp)
    simp [l0, l1, l2]
  · cases hk'

theorem exec_isNode {w : World} {x k : Nat} (hl : w.store.live x = true) (hT : w.store.targets x = [k]) (k' : Nat) :
    (Class.isNode k' x).exec cfg w = (.ok (k == k'), w) := by
  unfold Class.isNode
  rw [exec_bind]
  have : (Go.readTargets x).exec cfg w = (.ok [k], w) := by
    show (Go.op (.readTargets x) _).run cfg Go.noFault w = _
    have : ∀ s o, cfg.ord s o [k] = [k] := fun s o => List.perm_singleton.1 (cfg.ord_perm s o [k])
    simp [Go.run, Store.step, hl, Go.noFault, hT, this]
  rw [this]
  rfl

end Semnet
