import Verif.Proof.Hist
/-
  The beginning: an empty storage, the class nodes, and calm histories.
-/
namespace Semnet
open Spec

/-! ### running sequences without failures -/

theorem exec_bind {α β : Type} {cfg : Cfg} {f : α → Go β} : ∀ {p : Go α} {w : World},
    (p >>= f).exec cfg w = match p.exec cfg w with
      | (.ok a, w') => (f a).exec cfg w'
      | (.err e, w') => (.err e, w')
      | (.panic, w') => (.panic, w')
      | (.spin, w') => (.spin, w') := by
  intro p
  show ∀ {w : World}, (p.bind f).exec cfg w = _
  induction p with
  | ok a => intro w; rfl
  | err e => intro w; rfl
  | panic => intro w; rfl
  | spin => intro w; rfl
  | op o k ih => intro w; exact ih _
  | getMem k ih => intro w; exact ih _
  | setMem m k ih => intro w; exact ih (w := ⟨w.store, w.mem.set m⟩)

/-- the storage with the eight class nodes -/
def rootStore (cfg : Cfg) : Store :=
  ⟨9, [8, 7, 6, 5, 4, 3, 2, 1] ++ (if cfg.zero then [0] else []), [],
    [(7, 8), (6, 7), (5, 6), (4, 5), (3, 4), (2, 3), (1, 2)]⟩

theorem provide_empty (cfg : Cfg) (m : Layer) :
    Class.provideEntity.exec cfg ⟨Store.empty cfg, m⟩ = (.ok (), ⟨rootStore cfg, m⟩) := by
  unfold rootStore Store.empty
  cases cfg.zero <;>
  simp [Class.provideEntity, Class.createRoot, Go.has, Go.create, Go.setReference, Go.call, Bind.bind, Pure.pure,
    Go.bind, Go.exec, Go.run, Go.noFault, Store.step, Store.live, Store.created, Store.referred, Class.bitId,
    Class.characterId, Class.wordId, Class.phraseId, Class.detailId, Class.remarkId, Class.factId, Class.storyId]

theorem provide_roots (cfg : Cfg) (m : Layer) :
    Class.provideEntity.exec cfg ⟨rootStore cfg, m⟩ = (.ok (), ⟨rootStore cfg, m⟩) := by
  unfold rootStore
  simp [Class.provideEntity, Go.has, Go.call, Bind.bind, Pure.pure, Go.bind, Go.exec, Go.run, Go.noFault, Store.step,
    Store.live]

theorem createStory_empty (cfg : Cfg) (fuel : Nat) (o p : GoStr) (m : Layer) :
    (Graph.createStory fuel o p).exec cfg ⟨Store.empty cfg, m⟩ =
    (Graph.createStory fuel o p).exec cfg ⟨rootStore cfg, m⟩ := by
  unfold Graph.createStory
  rw [exec_bind, exec_bind, provide_empty, provide_roots]

def rootTag (cfg : Cfg) (x : Nat) : Tag :=
  if x = 0 then (if cfg.zero then .zero else .none) else if x ≤ 8 then .root else .none

def rootSt (cfg : Cfg) : St := ⟨rootStore cfg, Layer.fresh, rootTag cfg, none, false⟩

theorem rootSt_T (cfg : Cfg) (x : Nat) : (rootSt cfg).T x = [] := rfl
theorem rootSt_S (cfg : Cfg) (x : Nat) : (rootSt cfg).S x = [] := rfl

theorem rootSt_fwd (cfg : Cfg) (x : Nat) : (rootSt cfg).fwd x = if 1 ≤ x ∧ x < 8 then x + 1 else 0 := by
  unfold St.fwd Store.fwd rootSt rootStore
  match x with
  | 0 => rfl
  | 1 => rfl
  | 2 => rfl
  | 3 => rfl
  | 4 => rfl
  | 5 => rfl
  | 6 => rfl
  | 7 => rfl
  | n + 8 =>
    rw [if_neg (c := 1 ≤ n + 8 ∧ n + 8 < 8) (by omega)]
    simp

theorem rootSt_back (cfg : Cfg) (x : Nat) : (rootSt cfg).back x = if 2 ≤ x ∧ x ≤ 8 then x - 1 else 0 := by
  unfold St.back Store.back rootSt rootStore
  match x with
  | 0 => rfl
  | 1 => rfl
  | 2 => rfl
  | 3 => rfl
  | 4 => rfl
  | 5 => rfl
  | 6 => rfl
  | 7 => rfl
  | 8 => rfl
  | n + 9 =>
    rw [if_neg (c := 2 ≤ n + 9 ∧ n + 9 ≤ 8) (by omega)]
    simp

theorem rootTag_ne (cfg : Cfg) (x : Nat) : rootTag cfg x ≠ .none ↔ (1 ≤ x ∧ x ≤ 8) ∨ (x = 0 ∧ cfg.zero = true) := by
  unfold rootTag
  by_cases h : x = 0
  · subst h
    cases cfg.zero <;> simp
  · rw [if_neg h]
    by_cases h8 : x ≤ 8
    · rw [if_pos h8]; simp; omega
    · rw [if_neg h8]; simp; omega

theorem rootTag_cases (cfg : Cfg) (x : Nat) :
    (rootTag cfg x = .zero ∧ x = 0 ∧ cfg.zero = true) ∨ (rootTag cfg x = .root ∧ 1 ≤ x ∧ x ≤ 8) ∨
    (rootTag cfg x = .none ∧ ¬ (1 ≤ x ∧ x ≤ 8) ∧ (x = 0 → cfg.zero = false)) := by
  unfold rootTag
  by_cases h : x = 0
  · subst h
    cases cfg.zero <;> simp
  · rw [if_neg h]
    by_cases h8 : x ≤ 8
    · rw [if_pos h8]; simp; omega
    · rw [if_neg h8]; simp; omega

theorem rootSt_inv (cfg : Cfg) (lim : Lim) (hd : Policy cfg lim) : Inv cfg lim (rootSt cfg) where
  dup := hd
  next := by show 9 ≤ 9; omega
  live x := by
    show (rootStore cfg).live x = true ↔ rootTag cfg x ≠ .none
    rw [rootTag_ne]
    unfold Store.live rootStore
    cases cfg.zero <;> simp <;> omega
  bound x h := by
    rcases (rootTag_ne cfg x).1 h with h | h
    · show x < 9; omega
    · show x < 9; omega
  zero x := by
    show rootTag cfg x = .zero ↔ _
    rcases rootTag_cases cfg x with ⟨h, h'⟩ | ⟨h, h'⟩ | ⟨h, _, h'⟩
    · rw [h]; simp [h']
    · rw [h]; simp; omega
    · rw [h]; simp; intro h0; simp [h' h0]
  node0 h := by show rootTag cfg 0 = .none; simp [rootTag, h]
  root x := by
    show rootTag cfg x = .root ↔ _
    rcases rootTag_cases cfg x with ⟨h, h'⟩ | ⟨h, h'⟩ | ⟨h, h', _⟩
    · rw [h]; simp; omega
    · rw [h]; simp; omega
    · rw [h]; simp; omega
  nodup := List.nodup_nil
  edge x y h := by cases h
  ref0 x h := by
    have h' : rootTag cfg x = .none := h
    rcases rootTag_cases cfg x with ⟨h1, _⟩ | ⟨h1, _⟩ | ⟨_, h2, _⟩
    · rw [h1] at h'; cases h'
    · rw [h1] at h'; cases h'
    · rw [rootSt_fwd, rootSt_back, if_neg (by omega), if_neg (by omega)]; exact ⟨rfl, rfl⟩
  noF x h := by
    have h' : (rootTag cfg x).noF = true := h
    rcases rootTag_cases cfg x with ⟨_, h2, _⟩ | ⟨h1, _⟩ | ⟨h1, _, _⟩
    · rw [rootSt_fwd, if_neg (by omega)]
    · rw [h1] at h'; cases h'
    · rw [h1] at h'; cases h'
  noB x h := by
    have h' : (rootTag cfg x).noB = true := h
    rcases rootTag_cases cfg x with ⟨_, h2, _⟩ | ⟨h1, _⟩ | ⟨h1, _, _⟩
    · rw [rootSt_back, if_neg (by omega)]
    · rw [h1] at h'; cases h'
    · rw [h1] at h'; cases h'
  refB x h := by
    rw [rootSt_fwd] at h ⊢
    split at h
    · rename_i hx
      rw [if_pos hx, rootSt_back, if_pos (by omega)]; omega
    · exact absurd rfl h
  refDt x h := by
    have h' : rootTag cfg x = .dtP := h
    rcases rootTag_cases cfg x with ⟨h1, _⟩ | ⟨h1, _⟩ | ⟨h1, _⟩ <;> rw [h1] at h' <;> cases h'
  tcrit x _ := by rw [rootSt_T]; simp
  noT x _ := rootSt_T cfg x
  scrit x _ := by rw [rootSt_S]; simp
  noS x _ := rootSt_S cfg x
  tagOK x := by
    show TagOK lim (rootTag cfg x)
    rcases rootTag_cases cfg x with ⟨h1, _⟩ | ⟨h1, _⟩ | ⟨h1, _⟩ <;> rw [h1] <;> trivial
  sib x y y' q h := by cases h
  bits := by
    refine ⟨rfl, ?_⟩
    intro x v h
    have h' : rootTag cfg x = .bitc v := h
    rcases rootTag_cases cfg x with ⟨h1, _⟩ | ⟨h1, _⟩ | ⟨h1, _⟩ <;> rw [h1] at h' <;> cases h'
  roots i h1 h2 := by rw [rootSt_fwd, if_pos ⟨h1, h2⟩]
  ends := ⟨by rw [rootSt_fwd]; simp, by rw [rootSt_back]; simp⟩
  mem h := by cases h

theorem rootSt_clean (cfg : Cfg) : Clean (rootSt cfg) where
  whole := by
    constructor
    · intro x k h
      have h' : rootTag cfg x = .cls k := h
      rcases rootTag_cases cfg x with ⟨h1, _⟩ | ⟨h1, _⟩ | ⟨h1, _⟩ <;> rw [h1] at h' <;> cases h'
    · intro x h h9
      have h' : rootTag cfg x ≠ .none := h
      rcases rootTag_cases cfg x with ⟨h1, h2⟩ | ⟨h1, h2⟩ | ⟨h1, h2⟩ <;> first | omega | exact absurd h1 h'
  full x h := by
    have h' : rootTag cfg x = .dtP := h
    rcases rootTag_cases cfg x with ⟨h1, _⟩ | ⟨h1, _⟩ | ⟨h1, _⟩ <;> rw [h1] at h' <;> cases h'
  uniq x y h := by
    have h' : rootTag cfg x = .dtP := h
    rcases rootTag_cases cfg x with ⟨h1, _⟩ | ⟨h1, _⟩ | ⟨h1, _⟩ <;> rw [h1] at h' <;> cases h'
  zero t h := by cases h

/-! ### calm histories -/

/-- nothing has been stored yet -/
def Blank (cfg : Cfg) (st : State) : Prop := st = State.init cfg

/-- reachable by a calm history: nothing yet, or everything promised is there -/
def Sound (cfg : Cfg) (lim : Lim) (st : State) : Prop :=
  Blank cfg st ∨ ∃ σ, Holds cfg lim st σ ∧ Clean σ

def calmCtx (cfg : Cfg) (lim : Lim) : Ctx := ⟨cfg, lim, false, false, true, true⟩
def stormCtx (cfg : Cfg) (lim : Lim) : Ctx := ⟨cfg, lim, true, false, true, true⟩

/-- limits fit the loop budget -/
structure Fits (lim : Lim) (fuel : Nat) : Prop where
  L : lim.L ≤ fuel
  D : lim.D ≤ fuel
  two : 2 ≤ fuel

theorem Holds.calm {cfg lim fuel} (hf : Fits lim fuel) {st σ} (h : Holds cfg lim st σ) (hc : Clean σ) :
    CallOK (calmCtx cfg lim) fuel σ st.log :=
  ⟨rfl, rfl, rfl, h.inv, h.flt, fun h => (by cases h), fun _ => hc, hf.L, hf.D, hf.two, h.keeps⟩

theorem Holds.bits {cfg lim st σ} (h : Holds cfg lim st σ) (hl : st.log ≠ []) : σ.bits ≠ none := by
  obtain ⟨e, he⟩ := List.exists_mem_of_ne_nil _ hl
  exact (h.keeps.ok e he).bits

theorem Holds.storm {cfg lim fuel} (hf : Fits lim fuel) {st σ} (h : Holds cfg lim st σ)
    (hc : cfg.zero = true → Clean σ) (hl : st.log ≠ []) : CallOK (stormCtx cfg lim) fuel σ st.log :=
  ⟨rfl, rfl, rfl, h.inv, h.flt, fun _ => h.bits hl, hc, hf.L, hf.D, hf.two, h.keeps⟩

/-- the state after the class nodes were made -/
def State.roots (cfg : Cfg) : State := ⟨World.open (rootStore cfg), []⟩

theorem roots_holds {cfg : Cfg} {lim : Lim} (hd : Policy cfg lim) :
    Holds cfg lim (State.roots cfg) (rootSt cfg) :=
  ⟨⟨rfl, rfl⟩, rootSt_inv cfg lim hd, rfl, ⟨by simp [State.roots], by simp [State.roots]⟩⟩

theorem create_blank (cfg : Cfg) (fuel : Nat) (o p : GoStr) :
    (State.init cfg).call cfg fuel (.createStory o p) Go.noFault =
    (State.roots cfg).call cfg fuel (.createStory o p) Go.noFault := by
  have key : (Call.prog fuel [] (.createStory o p)).exec cfg (World.open (Store.empty cfg)) =
      (Call.prog fuel [] (.createStory o p)).exec cfg (World.open (rootStore cfg)) := by
    simp only [Call.prog]
    rw [exec_bind, exec_bind]
    rw [show World.open (Store.empty cfg) = ⟨Store.empty cfg, Layer.fresh⟩ from rfl, createStory_empty]
    rfl
  unfold State.call
  have k2 := key
  unfold Go.exec at k2
  show (match (Call.prog fuel [] (.createStory o p)).run cfg Go.noFault (World.open (Store.empty cfg)) with
    | _ => _) = _
  rw [show (State.init cfg).log = [] from rfl, show (State.roots cfg).log = [] from rfl,
    show (State.init cfg).world = World.open (Store.empty cfg) from rfl,
    show (State.roots cfg).world = World.open (rootStore cfg) from rfl, k2]

theorem Stays.state {cfg : Cfg} {fuel : Nat} {st : State} {c : Call} {f : Nat → Fate}
    (h : ((c.prog fuel st.log).run cfg f st.world).2 = st.world)
    (h' : ∀ r, ((c.prog fuel st.log).run cfg f st.world).1 ≠ .ok (some r)) : st.call cfg fuel c f = st := by
  unfold State.call
  generalize ((c.prog fuel st.log).run cfg f st.world) = out at h h'
  obtain ⟨out, w⟩ := out
  simp only at h h'
  subst h
  cases out with
  | ok o =>
    cases o with
    | none => rfl
    | some r => exact absurd rfl (h' r)
  | _ => rfl

theorem getRemark_world (cfg : Cfg) (i : Nat) (w : World) : ((Graph.getRemark i).exec cfg w).2 = w := by
  unfold Graph.getRemark Remark.readEntityByClass
  have key : ∀ (x : Nat) (w : World), ((Go.getReference x).exec cfg w).2 = w := by
    intro x w
    simp only [Go.getReference, Go.call, Go.exec, Go.run, Go.noFault, Store.step]
    cases w.store.live x <;> rfl
  rw [exec_bind]
  have h1 := key i w
  generalize (Go.getReference i).exec cfg w = a at h1
  obtain ⟨a, w1⟩ := a
  simp only at h1
  subst h1
  cases a with
  | ok a =>
    simp only
    rw [exec_bind]
    have h1 := key a.2 w1
    generalize (Go.getReference a.2).exec cfg w1 = b at h1
    obtain ⟨b, w1⟩ := b
    simp only at h1
    subst h1
    cases b with
    | ok b =>
      simp only
      rw [exec_bind]
      have h1 := key b.2 w1
      generalize (Go.getReference b.2).exec cfg w1 = c at h1
      obtain ⟨c, w1⟩ := c
      simp only at h1
      subst h1
      cases c <;> rfl
    | _ => rfl
  | _ => rfl

theorem getRemark_blank (cfg : Cfg) (fuel : Nat) (i : Nat) :
    (State.init cfg).call cfg fuel (.getRemark i) Go.noFault = State.init cfg := by
  refine Stays.state ?_ ?_
  · have := getRemark_world cfg i (State.init cfg).world
    show ((Graph.getRemark i >>= fun _ => pure none : Go (Option RemE)).exec cfg _).2 = _
    rw [exec_bind]
    generalize (Graph.getRemark i).exec cfg _ = a at this
    obtain ⟨a, w⟩ := a
    simp only at this
    subst this
    cases a <;> rfl
  · intro r
    show ((Graph.getRemark i >>= fun _ => pure none : Go (Option RemE)).exec cfg _).1 ≠ _
    rw [exec_bind]
    generalize (Graph.getRemark i).exec cfg _ = a
    obtain ⟨a, w⟩ := a
    cases a <;> simp [Go.exec, Go.run, Pure.pure]

theorem calm_step {cfg : Cfg} {lim : Lim} {fuel : Nat} (hd : Policy cfg lim) (hf : Fits lim fuel) {st : State}
    (h : Sound cfg lim st) (e : Event) (he : e.Calm) (ht : ∀ t ∈ e.texts, TextOK lim t) :
    Sound cfg lim (st.event cfg fuel e) := by
  rcases h with h | ⟨σ, h, hc⟩
  · unfold Blank at h
    subst h
    have step : ∀ c, (∀ t ∈ c.texts, TextOK lim t) →
        Sound cfg lim ((State.roots cfg).call cfg fuel c Go.noFault) := by
      intro c hc
      have k := (roots_holds (lim := lim) hd).calm hf (rootSt_clean cfg)
      obtain ⟨σ, p⟩ := callState (C := calmCtx cfg lim) k ⟨rfl, rfl⟩ c Go.noFault (.inr rfl) hc
      exact .inr ⟨σ, p.holds, p.clean rfl (rootSt_clean cfg)⟩
    cases e with
    | reopen => exact .inl rfl
    | crash => exact he.elim
    | call c f =>
      have hfe : f = Go.noFault := he
      subst hfe
      show Sound cfg lim (State.call cfg fuel _ c _)
      cases c with
      | createStory o p => rw [create_blank]; exact step _ ht
      | addRemark => exact .inl rfl
      | addFact => exact .inl rfl
      | addChild => exact .inl rfl
      | query => exact .inl rfl
      | getRemark i => exact .inl (getRemark_blank cfg fuel i)
  · obtain ⟨σ', p⟩ := eventPost (C := calmCtx cfg lim) (h.calm hf hc) h.is e (.inr he) ht
    exact .inr ⟨σ', p.holds, p.clean he hc⟩

theorem events_cons (cfg : Cfg) (fuel : Nat) (st : State) (e : Event) (es : List Event) :
    st.events cfg fuel (e :: es) = (st.event cfg fuel e).events cfg fuel es := rfl
theorem events_append (cfg : Cfg) (fuel : Nat) (st : State) (es es' : List Event) :
    st.events cfg fuel (es ++ es') = (st.events cfg fuel es).events cfg fuel es' := by
  unfold State.events; rw [List.foldl_append]

theorem calm_events {cfg : Cfg} {lim : Lim} {fuel : Nat} (hd : Policy cfg lim) (hf : Fits lim fuel) :
    ∀ (es : List Event) {st : State}, Sound cfg lim st → (∀ e ∈ es, e.Calm) →
    (∀ e ∈ es, ∀ t ∈ e.texts, TextOK lim t) → Sound cfg lim (st.events cfg fuel es) := by
  intro es
  induction es with
  | nil => exact fun h _ _ => h
  | cons e es ih =>
    intro st h hc ht
    rw [events_cons]
    exact ih (calm_step hd hf h e (hc e (by simp)) (ht e (by simp))) (fun a ha => hc a (by simp [ha]))
      (fun a ha => ht a (by simp [ha]))

theorem Sound.init (cfg : Cfg) (lim : Lim) : Sound cfg lim (State.init cfg) := .inl rfl

theorem Sound.holds {cfg lim st} (h : Sound cfg lim st) (hl : st.log ≠ []) : ∃ σ, Holds cfg lim st σ ∧ Clean σ := by
  rcases h with h | h
  · rw [h] at hl; exact absurd rfl hl
  · exact h

/-! ### after a calm beginning: anything (storages without node 0) -/

theorem storm_events {cfg : Cfg} {lim : Lim} {fuel : Nat} (hz : cfg.zero = false) (hf : Fits lim fuel) :
    ∀ (es : List Event) {st : State} {σ : St}, Holds cfg lim st σ → st.log ≠ [] →
    (∀ e ∈ es, ∀ t ∈ e.texts, TextOK lim t) →
    ∃ σ', Holds cfg lim (st.events cfg fuel es) σ' ∧ Mono σ σ' ∧ ∃ l, (st.events cfg fuel es).log = st.log ++ l := by
  intro es
  induction es with
  | nil => exact fun h _ _ => ⟨_, h, .refl _, [], by simp [State.events]⟩
  | cons e es ih =>
    intro st σ h hl ht
    rw [events_cons]
    obtain ⟨σ1, p⟩ := eventPost (C := stormCtx cfg lim) (h.storm hf (fun h => by rw [hz] at h; cases h) hl) h.is e
      (.inl rfl) (ht e (by simp))
    obtain ⟨l1, hl1⟩ := p.log
    obtain ⟨σ2, h2, m2, l2, hl2⟩ := ih p.holds
      (by show (st.event cfg fuel e).log ≠ []
          have : (st.event cfg fuel e).log = st.log ++ l1 := hl1
          rw [this]; simp [hl])
      (fun a ha => ht a (by simp [ha]))
    refine ⟨σ2, h2, p.mono.trans m2, l1 ++ l2, ?_⟩
    have : (st.event cfg fuel e).log = st.log ++ l1 := hl1
    have h3 : ((st.event cfg fuel e).events cfg fuel es).log = (st.event cfg fuel e).log ++ l2 := hl2
    rw [h3, this, List.append_assoc]

end Semnet
