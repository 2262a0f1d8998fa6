import Verif.Proof.Step
import Verif.Proof.Read
/-
  Several processes writing at the same time: ghost state, entity predicates, invariant, monotonicity.

  Compared with `Inv`: the targets of a bit's node and of a word's phrase node are not limited (two processes may both
  connect a new first character to a bit, or a new phrase to a word), equal characters may be stored beside each other,
  and each node has an owner, the process that created it.
-/
namespace Semnet.Race
open Class

/-- Ghost state with the creator of each node. -/
structure Rt extends St where
  own : Nat → Nat

instance : Coe Rt St := ⟨Rt.toSt⟩

/-- at most one target, connected by the creator, fixed once set -/
def tfix : Tag → Bool
  | .cls _ | .chB | .wdC | .phW | .dtP | .rmF | .ftR _ | .ftS | .stF => true
  | _ => false

/-! ### entities -/

structure ChB (bs : BitE × BitE) (σ : Rt) (e : CharE) (p : List Bool) (v : Bool) : Prop where
  chain : Chain σ e.cls e.bit e.character e.word
  tb : σ.tag e.bit = .chB
  tc : σ.tag e.character = .chC p
  tw : σ.tag e.word = .chW
  Tb : σ.T e.bit = [bitNode bs v]

/-- `e` is a complete character with bit path `p`. -/
inductive Ch (bs : BitE × BitE) (σ : Rt) : List Bool → CharE → Prop
  | head {v e} : ChB bs σ e [v] v → Ch bs σ [v] e
  | tail {p v e e'} : Ch bs σ p e' → ChB bs σ e (p ++ [v]) v → σ.S e.character = [e'.character] →
      Ch bs σ (p ++ [v]) e

structure WdB (bs : BitE × BitE) (σ : Rt) (w : WordE) (rs : List Int) (p : List Bool) (c : CharE) : Prop where
  chain : Chain σ w.cls w.character w.word w.phrase
  tc : σ.tag w.character = .wdC
  tw : σ.tag w.word = .wdW rs
  tp : σ.tag w.phrase = .wdP
  ch : Ch bs σ p c
  Tc : σ.T w.character = [c.word]
  good : goodRune (Character.toRune p)

/-- `w` is a complete word spelling `rs`. -/
inductive Wd (bs : BitE × BitE) (σ : Rt) : List Int → WordE → Prop
  | head {p c w} : WdB bs σ w [Character.toRune p] p c → Wd bs σ [Character.toRune p] w
  | tail {rs p c w w'} : Wd bs σ rs w' → WdB bs σ w (rs ++ [Character.toRune p]) p c → σ.S w.word = [w'.word] →
      Wd bs σ (rs ++ [Character.toRune p]) w

structure PhB (bs : BitE × BitE) (σ : Rt) (e : PhraseE) (ws : List (List Int)) (rs : List Int) (w : WordE) : Prop where
  chain : Chain σ e.cls e.word e.phrase e.detail
  tw : σ.tag e.word = .phW
  tp : σ.tag e.phrase = .phP ws
  td : σ.tag e.detail = .phD
  wd : Wd bs σ rs w
  Tw : σ.T e.word = [w.phrase]

/-- `e` is a complete phrase with the words `ws`. -/
inductive Ph (bs : BitE × BitE) (σ : Rt) : List (List Int) → PhraseE → Prop
  | head {rs w e} : PhB bs σ e [rs] rs w → Ph bs σ [rs] e
  | tail {ws rs w e e'} : Ph bs σ ws e' → PhB bs σ e (ws ++ [rs]) rs w → σ.S e.phrase = [e'.phrase] →
      Ph bs σ (ws ++ [rs]) e

/-- the remark `r` says `o`, `p` -/
def Says (bs : BitE × BitE) (σ : Rt) (r : RemE) (o p : List (List Int)) : Prop :=
  ∃ d po pp, σ.S r.detail = [d.remark] ∧ DetailEnt σ d po pp ∧ Ph bs σ o po ∧ Ph bs σ p pp

/-- the remark `r` belongs to the story opened by `r1` -/
structure In (σ : Rt) (r r1 : RemE) (f : FactE) (s : StoryE) : Prop where
  Tr : σ.T r.fact = [f.remark]
  fact : FactEnt σ false f
  opener : RemEnt σ r1
  Tf : σ.T f.remark = [r1.fact]
  story : StoryEnt σ s
  Ts : σ.T f.story = [s.fact]
  Tb : σ.T s.fact = [f.story]

/-- the remark `r` belongs to a fact without a story -/
structure Loose (σ : Rt) (r : RemE) (f : FactE) : Prop where
  Tr : σ.T r.fact = [f.remark]
  fact : FactEnt σ true f
  Ts : σ.T f.story = [0]

/-- the fact of the remark `r`; `r1`: the remark that opened its story -/
def At (σ : Rt) (r : RemE) : Option RemE → Prop
  | some r1 => ∃ f s, In σ r r1 f s
  | none => ∃ f, Loose σ r f

/-- What an edge means, by the roles of its ends. -/
def REdge (bs : BitE × BitE) (σ : Rt) (x y : Nat) : Prop :=
  match σ.tag x, σ.tag y with
  | .cls k, .root => y = k
  | .chB, .bitc _ => True
  | .bitc v, .chB => ∃ e, Ch bs σ [v] e ∧ e.bit = y
  | .chC _, .chC _ => ∃ p v e e', Ch bs σ p e ∧ e.character = x ∧ Ch bs σ (p ++ [v]) e' ∧ e'.character = y
  | .chW, .wdC => ∃ p e w, Ch bs σ p e ∧ e.word = x ∧ Wd bs σ [Character.toRune p] w ∧ w.character = y
  | .wdC, .chW => True
  | .wdW _, .wdW _ => ∃ rs r w w', Wd bs σ rs w ∧ w.word = x ∧ Wd bs σ (rs ++ [r]) w' ∧ w'.word = y
  | .wdP, .phW => ∃ rs w e, Wd bs σ rs w ∧ w.phrase = x ∧ Ph bs σ [rs] e ∧ e.word = y
  | .phW, .wdP => True
  | .phP _, .phP _ => ∃ ws rs e e', Ph bs σ ws e ∧ e.phrase = x ∧ Ph bs σ (ws ++ [rs]) e' ∧ e'.phrase = y
  | .phD, .dtP => True
  | .dtP, .phD => True
  | .dtR, .rmD => True
  | .rmF, .ftR _ => True
  | .ftR _, .rmF => True
  | .ftS, .stF => True
  | .stF, .ftS => True
  | .ftP, .stP => True
  | .zero, .ftP => True
  | .zero, .stT => True
  | .ftS, .zero => True
  | .stT, .zero => True
  | _, _ => False

/-- What nobody ever changes. -/
structure RMono (σ σ' : Rt) : Prop where
  tag : ∀ x, σ.tag x ≠ .none → σ'.tag x = σ.tag x
  own : ∀ x, σ.tag x ≠ .none → σ'.own x = σ.own x
  fwd : ∀ x, σ.fwd x ≠ 0 → σ'.fwd x = σ.fwd x
  back : ∀ x, σ.back x ≠ 0 → σ'.back x = σ.back x
  T : ∀ x, tfix (σ.tag x) = true → σ.T x ≠ [] → σ'.T x = σ.T x
  S : ∀ x, (σ.tag x).scrit = true → σ.S x ≠ [] → σ'.S x = σ.S x
  edges : ∀ x y, (x, y) ∈ σ.store.edges → (x, y) ∈ σ'.store.edges

/-- the nodes that only storing new text connects -/
def ftag : Tag → Bool
  | .bitc _ | .chB | .chC _ | .chW | .wdC | .wdW _ | .wdP | .phW | .phP _ | .phD | .dtP => true
  | _ => false

/-- the nodes from which words and phrases are continued -/
def gtag : Tag → Bool
  | .wdW _ | .wdP | .phP _ | .phD => true
  | _ => false

/-- the nodes whose targets are the business of their creator; `s`: words and phrases are not shared -/
def tkeep (s : Bool) (t : Tag) : Bool := tfix t || (gtag t && s)

theorem tkeep_fix {s : Bool} {t : Tag} (h : tfix t = true) : tkeep s t = true := by simp [tkeep, h]

theorem tkeep_cases {s : Bool} {t : Tag} (h : tkeep s t = true) : tfix t = true ∨ s = true ∧ gtag t = true := by
  simp [tkeep] at h
  exact h.imp id fun h => ⟨h.2, h.1⟩

/-- Since `σ0` no text has been stored that was not there. -/
structure Frozen (σ0 σ : Rt) : Prop where
  mono : RMono σ0 σ
  fwd : ∀ x, σ0.tag x ≠ .none → σ.fwd x = σ0.fwd x
  back : ∀ x, σ0.tag x ≠ .none → σ.back x = σ0.back x
  T : ∀ x, ftag (σ0.tag x) = true → σ.T x = σ0.T x
  S : ∀ x, ftag (σ0.tag x) = true → σ.S x = σ0.S x

/-- a storage with its two bits, in the middle of any calls; `fz`: the state since which no text has been added -/
structure RI (cfg : Cfg) (lim : Lim) (bs : BitE × BitE) (fz : Option Rt) (σ : Rt) : Prop where
  dup : cfg.dup = .ignore
  zero : ∀ x, σ.tag x = .zero ↔ (x = 0 ∧ cfg.zero = true)
  next : 9 ≤ σ.store.next
  live : ∀ x, σ.store.live x = true ↔ σ.tag x ≠ .none
  bound : ∀ x, σ.tag x ≠ .none → x < σ.store.next
  node0 : cfg.zero = false → σ.tag 0 = .none
  ref00 : ∀ x, σ.tag x = .zero → σ.fwd x = 0 ∧ σ.back x = 0
  root : ∀ x, σ.tag x = .root ↔ (1 ≤ x ∧ x ≤ 8)
  edge : ∀ x y, (x, y) ∈ σ.store.edges → REdge bs σ x y
  ref0 : ∀ x, σ.tag x = .none → σ.fwd x = 0 ∧ σ.back x = 0
  rmF : ∀ x, σ.tag x = .rmF → σ.fwd x = 0
  refDt : ∀ x, σ.tag x = .dtP → σ.fwd x ≠ 0 → σ.tag (σ.fwd x) = .dtR ∧ σ.back (σ.fwd x) = x
  tfix : ∀ x, tfix (σ.tag x) = true → (σ.T x).length ≤ 1
  noT : ∀ x, (σ.tag x).noT = true → σ.T x = []
  sfix : ∀ x, (σ.tag x).scrit = true → (σ.S x).length ≤ 1
  noS : ∀ x, (σ.tag x).noS = true → σ.S x = []
  tagOK : ∀ x, TagOK lim (σ.tag x)
  bits : BitsOK σ bs
  frz : ∀ σ0, fz = some σ0 → Frozen σ0 σ
  hd : lim.solo = true → ∃ y, σ.T (bitNode bs true) = [y]

/-! ### everything survives -/

theorem RMono.tagEq {σ σ' : Rt} (m : RMono σ σ') {x : Nat} {t : Tag} (h : σ.tag x = t) (ht : t ≠ .none) :
    σ'.tag x = t := by
  rw [m.tag x (by rw [h]; exact ht), h]

theorem RMono.fresh {σ σ' : Rt} (m : RMono σ σ') {x : Nat} (h : σ'.tag x = .none) : σ.tag x = .none := by
  apply Classical.byContradiction
  intro hx
  rw [m.tag x hx] at h
  exact hx h

theorem RMono.Teq {σ σ' : Rt} (m : RMono σ σ') {x : Nat} {t : Tag} {l : List Nat} (h : σ.tag x = t)
    (ht : Race.tfix t = true) (hT : σ.T x = l) (hl : l ≠ []) : σ'.T x = l := by
  rw [m.T x (by rw [h]; exact ht) (by rw [hT]; exact hl), hT]

theorem RMono.Seq {σ σ' : Rt} (m : RMono σ σ') {x : Nat} {t : Tag} {l : List Nat} (h : σ.tag x = t)
    (ht : t.scrit = true) (hS : σ.S x = l) (hl : l ≠ []) : σ'.S x = l := by
  rw [m.S x (by rw [h]; exact ht) (by rw [hS]; exact hl), hS]

theorem RMono.ref {σ σ' : Rt} (m : RMono σ σ') {x y : Nat} (h : Ref σ x y) : Ref σ' x y :=
  ⟨by rw [m.fwd x (by rw [h.f]; exact h.hy), h.f], by rw [m.back y (by rw [h.b]; exact h.hx), h.b],
   h.hx, h.hy⟩

theorem RMono.chain {σ σ' : Rt} (m : RMono σ σ') {a b c d : Nat} (h : Chain σ a b c d) :
    Chain σ' a b c d := ⟨m.ref h.ab, m.ref h.bc, m.ref h.cd⟩

theorem ChB.mono {bs} {σ σ' : Rt} (m : RMono σ σ') {e p v} (h : ChB bs σ e p v) : ChB bs σ' e p v where
  chain := m.chain h.chain
  tb := m.tagEq h.tb (by simp)
  tc := m.tagEq h.tc (by simp)
  tw := m.tagEq h.tw (by simp)
  Tb := m.Teq h.tb rfl h.Tb (by simp)

theorem Ch.mono {bs} {σ σ' : Rt} (m : RMono σ σ') {p e} (h : Ch bs σ p e) : Ch bs σ' p e := by
  induction h with
  | head hb => exact .head (hb.mono m)
  | tail _ hb hS ih => exact .tail ih (hb.mono m) (m.Seq hb.tc rfl hS (by simp))

theorem WdB.mono {bs} {σ σ' : Rt} (m : RMono σ σ') {w rs p c} (h : WdB bs σ w rs p c) : WdB bs σ' w rs p c where
  chain := m.chain h.chain
  tc := m.tagEq h.tc (by simp)
  tw := m.tagEq h.tw (by simp)
  tp := m.tagEq h.tp (by simp)
  ch := h.ch.mono m
  Tc := m.Teq h.tc rfl h.Tc (by simp)
  good := h.good

theorem Wd.mono {bs} {σ σ' : Rt} (m : RMono σ σ') {p e} (h : Wd bs σ p e) : Wd bs σ' p e := by
  induction h with
  | head hb => exact .head (hb.mono m)
  | tail _ hb hS ih => exact .tail ih (hb.mono m) (m.Seq hb.tw rfl hS (by simp))

theorem PhB.mono {bs} {σ σ' : Rt} (m : RMono σ σ') {e ws rs w} (h : PhB bs σ e ws rs w) : PhB bs σ' e ws rs w where
  chain := m.chain h.chain
  tw := m.tagEq h.tw (by simp)
  tp := m.tagEq h.tp (by simp)
  td := m.tagEq h.td (by simp)
  wd := h.wd.mono m
  Tw := m.Teq h.tw rfl h.Tw (by simp)

theorem Ph.mono {bs} {σ σ' : Rt} (m : RMono σ σ') {p e} (h : Ph bs σ p e) : Ph bs σ' p e := by
  induction h with
  | head hb => exact .head (hb.mono m)
  | tail _ hb hS ih => exact .tail ih (hb.mono m) (m.Seq hb.tp rfl hS (by simp))

theorem RMono.detail {σ σ' : Rt} (m : RMono σ σ') {d o p} (h : DetailEnt σ d o p) : DetailEnt σ' d o p where
  ref := m.ref h.ref
  tp := m.tagEq h.tp (by simp)
  tr := m.tagEq h.tr (by simp)
  So := m.Seq h.tp rfl h.So (by simp)
  Tp := m.Teq h.tp rfl h.Tp (by simp)

theorem RMono.fact {σ σ' : Rt} (m : RMono σ σ') {b f} (h : FactEnt σ b f) : FactEnt σ' b f where
  chain := m.chain h.chain
  tc := m.tagEq h.tc (by simp)
  Tc := m.Teq h.tc rfl h.Tc (by simp)
  tr := m.tagEq h.tr (by simp)
  tp := m.tagEq h.tp (by simp)
  ts := m.tagEq h.ts (by simp)

theorem RMono.story {σ σ' : Rt} (m : RMono σ σ') {f} (h : StoryEnt σ f) : StoryEnt σ' f where
  chain := m.chain h.chain
  tf := m.tagEq h.tf (by simp)
  tp := m.tagEq h.tp (by simp)
  tt := m.tagEq h.tt (by simp)

theorem RMono.rem {σ σ' : Rt} (m : RMono σ σ') {r} (h : RemEnt σ r) : RemEnt σ' r where
  chain := m.chain h.chain
  tc := m.tagEq h.tc (by simp)
  td := m.tagEq h.td (by simp)
  tp := m.tagEq h.tp (by simp)
  tf := m.tagEq h.tf (by simp)
  Tc := m.Teq h.tc rfl h.Tc (by simp)

theorem Says.mono {bs} {σ σ' : Rt} (m : RMono σ σ') {r o p} (hr : RemEnt σ r) (h : Says bs σ r o p) :
    Says bs σ' r o p := by
  obtain ⟨d, po, pp, hS, hd, ho, hp⟩ := h
  exact ⟨d, po, pp, m.Seq hr.td rfl hS (by simp), m.detail hd, ho.mono m, hp.mono m⟩

theorem In.mono {σ σ' : Rt} (m : RMono σ σ') {r r1 f s} (hr : RemEnt σ r) (h : In σ r r1 f s) : In σ' r r1 f s where
  Tr := m.Teq hr.tf rfl h.Tr (by simp)
  fact := m.fact h.fact
  opener := m.rem h.opener
  Tf := m.Teq h.fact.tr rfl h.Tf (by simp)
  story := m.story h.story
  Ts := m.Teq h.fact.ts rfl h.Ts (by simp)
  Tb := m.Teq h.story.tf rfl h.Tb (by simp)

theorem Loose.mono {σ σ' : Rt} (m : RMono σ σ') {r f} (hr : RemEnt σ r) (h : Loose σ r f) : Loose σ' r f where
  Tr := m.Teq hr.tf rfl h.Tr (by simp)
  fact := m.fact h.fact
  Ts := m.Teq h.fact.ts rfl h.Ts (by simp)

theorem At.mono {σ σ' : Rt} (m : RMono σ σ') {r r1} (hr : RemEnt σ r) (h : At σ r r1) : At σ' r r1 := by
  cases r1 with
  | some r1 => obtain ⟨f, s, h⟩ := h; exact ⟨f, s, h.mono m hr⟩
  | none => obtain ⟨f, h⟩ := h; exact ⟨f, h.mono m hr⟩

theorem REdge.tags {bs} {σ : Rt} {x y : Nat} (h : REdge bs σ x y) : σ.tag x ≠ .none ∧ σ.tag y ≠ .none := by
  constructor
  · intro h0; simp [REdge, h0] at h
  · intro h0; unfold REdge at h; rw [h0] at h; split at h <;> simp_all

theorem REdge.mono {bs} {σ σ' : Rt} (m : RMono σ σ') {x y} (h : REdge bs σ x y) : REdge bs σ' x y := by
  have hx : σ'.tag x = σ.tag x := m.tag x h.tags.1
  have hy : σ'.tag y = σ.tag y := m.tag y h.tags.2
  unfold REdge at *
  rw [hx, hy]
  generalize σ.tag x = a at h ⊢
  generalize σ.tag y = b at h ⊢
  clear hx hy
  split at h <;> try exact h
  · obtain ⟨e, he, h⟩ := h; exact ⟨e, he.mono m, h⟩
  · obtain ⟨p, v, e, e', h1, h2, h3, h4⟩ := h; exact ⟨p, v, e, e', h1.mono m, h2, h3.mono m, h4⟩
  · obtain ⟨p, e, w, h1, h2, h3, h4⟩ := h; exact ⟨p, e, w, h1.mono m, h2, h3.mono m, h4⟩
  · obtain ⟨rs, r, w, w', h1, h2, h3, h4⟩ := h; exact ⟨rs, r, w, w', h1.mono m, h2, h3.mono m, h4⟩
  · obtain ⟨rs, w, e, h1, h2, h3, h4⟩ := h; exact ⟨rs, w, e, h1.mono m, h2, h3.mono m, h4⟩
  · obtain ⟨ws, rs, e, e', h1, h2, h3, h4⟩ := h; exact ⟨ws, rs, e, e', h1.mono m, h2, h3.mono m, h4⟩

theorem tag_ne_of_tfix {t : Tag} (h : tfix t = true) : t ≠ .none := by
  intro h'; simp [h', tfix] at h

theorem RMono.refl (σ : Rt) : RMono σ σ := by
  constructor <;> intros <;> simp_all

theorem RMono.trans {a b c : Rt} (m : RMono a b) (n : RMono b c) : RMono a c where
  tag x h := by
    have h1 := m.tag x h
    rw [n.tag x (by rw [h1]; exact h), h1]
  own x h := by
    have h1 := m.tag x h
    rw [n.own x (by rw [h1]; exact h), m.own x h]
  fwd x h := by
    have h1 := m.fwd x h
    rw [n.fwd x (by rw [h1]; exact h), h1]
  back x h := by
    have h1 := m.back x h
    rw [n.back x (by rw [h1]; exact h), h1]
  T x h h' := by
    have h1 := m.T x h h'
    rw [n.T x (by rw [m.tag x (tag_ne_of_tfix h)]; exact h) (by rw [h1]; exact h'), h1]
  S x h h' := by
    have h1 := m.S x h h'
    rw [n.S x (by rw [m.tag x (tag_ne_of_scrit h)]; exact h) (by rw [h1]; exact h'), h1]
  edges x y h := n.edges x y (m.edges x y h)

/-- what a process remembers of the bits is right -/
def MemOK (bs : BitE × BitE) (m : Layer) : Prop := m.isInitialized = true → bs = (m.zeroEntity, m.oneEntity)

/-- what a thread knows of its bit layer: which fields have been assigned -/
structure Know where
  zero : Bool
  one : Bool
  done : Bool

def Know.bot : Know := ⟨false, false, false⟩
def Know.top : Know := ⟨true, true, true⟩

/-- having read the layer -/
def Know.learn (κ : Know) (m : Layer) : Know := if m.isInitialized then .top else κ

/-- the layer is right, and what is known of it is true -/
structure MemAt (bs : BitE × BitE) (κ : Know) (m : Layer) : Prop where
  ok : MemOK bs m
  zero : κ.zero = true → m.zeroEntity = bs.1
  one : κ.one = true → m.oneEntity = bs.2
  done : κ.done = true → m.isInitialized = true

theorem MemOK.at {bs : BitE × BitE} {m : Layer} (h : MemOK bs m) : MemAt bs .bot m :=
  ⟨h, (fun h => by cases h), (fun h => by cases h), (fun h => by cases h)⟩

theorem MemAt.learn {bs : BitE × BitE} {κ : Know} {m : Layer} (h : MemAt bs κ m) : MemAt bs (κ.learn m) m := by
  unfold Know.learn
  split
  · rename_i hm
    have := h.ok hm
    exact ⟨h.ok, fun _ => by rw [this], fun _ => by rw [this], fun _ => hm⟩
  · exact h

/-- the assignment is right, given what is known; what is known afterwards -/
def Know.assign (bs : BitE × BitE) (κ : Know) : Assign → Option Know
  | .zeroEntity e => if e = bs.1 then some { κ with zero := true } else none
  | .oneEntity e => if e = bs.2 then some { κ with one := true } else none
  | .isInitialized => if κ.zero && κ.one then some .top else none

/-- a right assignment; whatever others know stays true -/
theorem MemAt.assign {bs : BitE × BitE} {κ κ' : Know} {m : Layer} {u : Assign} (h : MemAt bs κ m)
    (hu : κ.assign bs u = some κ') :
    MemAt bs κ' (m.set u) ∧ ∀ κ0, MemAt bs κ0 m → MemAt bs κ0 (m.set u) := by
  cases u with
  | zeroEntity e =>
    simp only [Know.assign] at hu
    split at hu
    · rename_i he
      cases hu
      have hk : MemOK bs (m.set (.zeroEntity e)) := fun hm => by
        have := h.ok hm
        show bs = (e, m.oneEntity)
        rw [he, this]
      exact ⟨⟨hk, fun _ => he, h.one, h.done⟩, fun κ0 h0 => ⟨hk, fun _ => he, h0.one, h0.done⟩⟩
    · cases hu
  | oneEntity e =>
    simp only [Know.assign] at hu
    split at hu
    · rename_i he
      cases hu
      have hk : MemOK bs (m.set (.oneEntity e)) := fun hm => by
        have := h.ok hm
        show bs = (m.zeroEntity, e)
        rw [he, this]
      exact ⟨⟨hk, h.zero, fun _ => he, h.done⟩, fun κ0 h0 => ⟨hk, h0.zero, fun _ => he, h0.done⟩⟩
    · cases hu
  | isInitialized =>
    simp only [Know.assign] at hu
    split at hu
    · rename_i he
      cases hu
      simp only [Bool.and_eq_true] at he
      have h1 := h.zero he.1
      have h2 := h.one he.2
      have hk : MemOK bs (m.set .isInitialized) := fun _ => by
        show bs = (m.zeroEntity, m.oneEntity)
        rw [h1, h2]
      exact ⟨⟨hk, fun _ => h1, fun _ => h2, fun _ => rfl⟩, fun κ0 h0 => ⟨hk, h0.zero, h0.one, fun _ => rfl⟩⟩
    · cases hu

theorem RI.tagNext {cfg lim bs fz} {σ : Rt} (hi : RI cfg lim bs fz σ) {x : Nat} (h : σ.store.next ≤ x) :
    σ.tag x = .none := by
  apply Classical.byContradiction
  intro hx
  exact Nat.lt_irrefl _ (Nat.lt_of_lt_of_le (hi.bound x hx) h)

theorem RI.Tnone {cfg lim bs fz} {σ : Rt} (hi : RI cfg lim bs fz σ) {x : Nat} (h : σ.tag x = .none) : σ.T x = [] := by
  apply List.eq_nil_iff_forall_not_mem.2
  intro y hy
  exact (hi.edge x y (mem_T.1 hy)).tags.1 h

theorem RI.Snone {cfg lim bs fz} {σ : Rt} (hi : RI cfg lim bs fz σ) {x : Nat} (h : σ.tag x = .none) : σ.S x = [] := by
  apply List.eq_nil_iff_forall_not_mem.2
  intro y hy
  exact (hi.edge y x (mem_S.1 hy)).tags.2 h

theorem RI.Sroot {cfg lim bs fz} {σ : Rt} (hi : RI cfg lim bs fz σ) {k : Nat} (h1 : 1 ≤ k) (h8 : k ≤ 8) : σ.tag k = .root :=
  (hi.root k).2 ⟨h1, h8⟩

end Semnet.Race
