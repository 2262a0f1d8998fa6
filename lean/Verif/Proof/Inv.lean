import Verif.Model.Remark
/-
  Ghost state, entity predicates, the invariant and the monotonicity relation.
-/
namespace Semnet

/-- Ghost role of a node. `chC p`: the character node of a character with bit path `p`; `wdW rs`: the word
    node of a word spelling `rs`; `phP ws`: the phrase node of a phrase of words `ws`;
    `ftR true`: the remark node of a fact made by AddFactToStory. -/
inductive Tag
  | none | zero | root
  | cls (k : Nat) | bitc (v : Bool)
  | chB | chC (p : List Bool) | chW
  | wdC | wdW (rs : List Int) | wdP
  | phW | phP (ws : List (List Int)) | phD
  | dtP | dtR
  | rmD | rmP | rmF
  | ftR (loose : Bool) | ftP | ftS
  | stF | stP | stT
  deriving DecidableEq

namespace Tag
/-- at most one target, fixed once set -/
def tcrit : Tag → Bool
  | cls _ | bitc _ | chB | wdC | wdP | phW | dtP | rmF | ftR _ | ftS | stF => true
  | _ => false
/-- never a target -/
def noT : Tag → Bool
  | rmP | ftR true => true
  | _ => false
/-- at most one source, fixed once set -/
def scrit : Tag → Bool
  | chC _ | wdW _ | phP _ | dtP | rmD => true
  | _ => false
/-- never a source -/
def noS : Tag → Bool
  | chC [_] | wdW [_] | phP [_] => true
  | _ => false
/-- never refers to a node -/
def noF : Tag → Bool
  | zero | bitc _ | chW | wdP | phD | dtR | rmF | ftS | stT => true
  | _ => false
/-- nothing refers to it -/
def noB : Tag → Bool
  | zero | cls _ => true
  | _ => false
/-- roles below the detail, from which no edge leads to a role above it -/
@[simp] def low : Tag → Bool
  | none | zero | dtR | rmD | rmP | rmF | ftR _ | ftP | ftS | stF | stP | stT => false
  | _ => true
/-- roles above the detail -/
@[simp] def high : Tag → Bool
  | zero | rmD | rmP | rmF | ftR _ | ftP | ftS | stF | stP | stT => true
  | _ => false
/-- roles from which the search for stored texts proceeds -/
@[simp] def src : Tag → Bool
  | bitc _ | chC _ | chW | wdW _ | wdP | phP _ => true
  | _ => false
end Tag

/-- Ghost-extended state of a process on a storage. `flt`: a storage failure has happened in this call. -/
structure St where
  store : Store
  mem : Layer
  tag : Nat → Tag
  bits : Option (BitE × BitE)
  flt : Bool

namespace St
def T (σ : St) (x : Nat) : List Nat := σ.store.targets x
def S (σ : St) (x : Nat) : List Nat := σ.store.sources x
def fwd (σ : St) (x : Nat) : Nat := σ.store.fwd x
def back (σ : St) (x : Nat) : Nat := σ.store.back x
end St

/-- A rune that can occur in a stored word. -/
def goodRune (r : Int) : Prop := validRune r = true ∧ r ≠ 32

/-- Limits on what is stored: which bit paths, how long words and phrases. -/
structure Lim where
  path : List Bool → Prop
  D : Nat
  L : Nat
  path_len : ∀ p, path p → p.length ≤ L
  /-- words have one character -/
  one : Prop
  /-- several processes never share the words and phrases they store -/
  solo : Bool

/-- what `Connect` may do about existing edges -/
def Policy (cfg : Cfg) (lim : Lim) : Prop := cfg.dup = .ignore ∨ lim.one

/-- `x` refers to `y`. -/
structure Ref (σ : St) (x y : Nat) : Prop where
  f : σ.fwd x = y
  b : σ.back y = x
  hx : x ≠ 0
  hy : y ≠ 0

/-- a complete chain of four nodes -/
structure Chain (σ : St) (a b c d : Nat) : Prop where
  ab : Ref σ a b
  bc : Ref σ b c
  cd : Ref σ c d

def bitNode (bs : BitE × BitE) (v : Bool) : Nat := if v then bs.2.character else bs.1.character
def bitEnt (bs : BitE × BitE) (v : Bool) : BitE := if v then bs.2 else bs.1

structure CharBase (σ : St) (e : CharE) (p : List Bool) (v : Bool) (bs : BitE × BitE) : Prop where
  chain : Chain σ e.cls e.bit e.character e.word
  tb : σ.tag e.bit = .chB
  tc : σ.tag e.character = .chC p
  tw : σ.tag e.word = .chW
  bits : σ.bits = some bs
  Tb : σ.T e.bit = [bitNode bs v]

/-- `e` is a complete character with bit path `p`. -/
inductive CharEnt (σ : St) : List Bool → CharE → Prop
  | head {v e bs} : CharBase σ e [v] v bs → σ.S e.character = [] → σ.T (bitNode bs v) = [e.bit] →
      σ.tag (bitNode bs v) = .bitc v → CharEnt σ [v] e
  | tail {p v e e' bs} : CharEnt σ p e' → CharBase σ e (p ++ [v]) v bs →
      σ.S e.character = [e'.character] → σ.tag (bitNode bs v) = .bitc v → CharEnt σ (p ++ [v]) e

structure WordBase (σ : St) (w : WordE) (rs : List Int) (p : List Bool) (c : CharE) : Prop where
  chain : Chain σ w.cls w.character w.word w.phrase
  tc : σ.tag w.character = .wdC
  tw : σ.tag w.word = .wdW rs
  tp : σ.tag w.phrase = .wdP
  ch : CharEnt σ p c
  Tc : σ.T w.character = [c.word]
  good : goodRune (Character.toRune p)

/-- `w` is a complete word spelling `rs`. -/
inductive WordEnt (σ : St) : List Int → WordE → Prop
  | head {p c w} : WordBase σ w [Character.toRune p] p c → σ.S w.word = [] →
      WordEnt σ [Character.toRune p] w
  | tail {rs p c w w'} : WordEnt σ rs w' → WordBase σ w (rs ++ [Character.toRune p]) p c →
      σ.S w.word = [w'.word] → WordEnt σ (rs ++ [Character.toRune p]) w

structure PhraseBase (σ : St) (e : PhraseE) (ws : List (List Int)) (rs : List Int) (w : WordE) : Prop where
  chain : Chain σ e.cls e.word e.phrase e.detail
  tw : σ.tag e.word = .phW
  tp : σ.tag e.phrase = .phP ws
  td : σ.tag e.detail = .phD
  wd : WordEnt σ rs w
  Tw : σ.T e.word = [w.phrase]

/-- `e` is a complete phrase with the words `ws`. -/
inductive PhraseEnt (σ : St) : List (List Int) → PhraseE → Prop
  | head {rs w e} : PhraseBase σ e [rs] rs w → σ.S e.phrase = [] → PhraseEnt σ [rs] e
  | tail {ws rs w e e'} : PhraseEnt σ ws e' → PhraseBase σ e (ws ++ [rs]) rs w →
      σ.S e.phrase = [e'.phrase] → PhraseEnt σ (ws ++ [rs]) e

/-- `d` is a complete detail of the phrases `o`, `p`. -/
structure DetailEnt (σ : St) (d : DetailE) (o p : PhraseE) : Prop where
  ref : Ref σ d.phrase d.remark
  tp : σ.tag d.phrase = .dtP
  tr : σ.tag d.remark = .dtR
  So : σ.S d.phrase = [o.detail]
  Tp : σ.T d.phrase = [p.detail]

structure FactEnt (σ : St) (loose : Bool) (f : FactE) : Prop where
  chain : Chain σ f.cls f.remark f.position f.story
  tc : σ.tag f.cls = .cls Class.factId
  Tc : σ.T f.cls = [Class.factId]
  tr : σ.tag f.remark = .ftR loose
  tp : σ.tag f.position = .ftP
  ts : σ.tag f.story = .ftS

structure StoryEnt (σ : St) (s : StoryE) : Prop where
  chain : Chain σ s.cls s.fact s.position s.tree
  tf : σ.tag s.fact = .stF
  tp : σ.tag s.position = .stP
  tt : σ.tag s.tree = .stT

/-- node structure of a remark -/
structure RemEnt (σ : St) (r : RemE) : Prop where
  chain : Chain σ r.cls r.detail r.position r.fact
  tc : σ.tag r.cls = .cls Class.remarkId
  td : σ.tag r.detail = .rmD
  tp : σ.tag r.position = .rmP
  tf : σ.tag r.fact = .rmF
  Tc : σ.T r.cls = [Class.remarkId]

/-- the remark `r` says `o`, `p` -/
def Says (σ : St) (r : RemE) (o p : List (List Int)) : Prop :=
  ∃ d po pp, σ.S r.detail = [d.remark] ∧ DetailEnt σ d po pp ∧ PhraseEnt σ o po ∧ PhraseEnt σ p pp

/-- the fact of remark `r`; if it belongs to a story, the story was opened by `opener` -/
def Belongs (σ : St) (r : RemE) (opener : Option RemE) : Prop :=
  ∃ f, σ.T r.fact = [f.remark] ∧
    match opener with
    | some r1 => FactEnt σ false f ∧ RemEnt σ r1 ∧ σ.T f.remark = [r1.fact] ∧
        ∃ s, StoryEnt σ s ∧ σ.T f.story = [s.fact] ∧ σ.T s.fact = [f.story]
    | none => FactEnt σ true f ∧ σ.T f.story = [0]

/-- What an edge means, by the roles of its ends. -/
def EdgeOK (σ : St) (x y : Nat) : Prop :=
  match σ.tag x, σ.tag y with
  | .cls k, .root => y = k
  | .chB, .bitc _ => True
  | .bitc v, .chB => ∃ e, CharEnt σ [v] e ∧ e.bit = y
  | .chC _, .chC _ => ∃ p v e e', CharEnt σ p e ∧ e.character = x ∧
      CharEnt σ (p ++ [v]) e' ∧ e'.character = y
  | .chW, .wdC => ∃ p e w, CharEnt σ p e ∧ e.word = x ∧
      WordEnt σ [Character.toRune p] w ∧ w.character = y ∧ σ.T y = [x]
  | .wdC, .chW => True
  | .wdW _, .wdW _ => ∃ rs r w w', WordEnt σ rs w ∧ w.word = x ∧
      WordEnt σ (rs ++ [r]) w' ∧ w'.word = y
  | .wdP, .phW => ∃ rs w e, WordEnt σ rs w ∧ w.phrase = x ∧ PhraseEnt σ [rs] e ∧ e.word = y ∧
      σ.T y = [x]
  | .phW, .wdP => True
  | .phP _, .phP _ => ∃ ws rs e e', PhraseEnt σ ws e ∧ e.phrase = x ∧
      PhraseEnt σ (ws ++ [rs]) e' ∧ e'.phrase = y
  | .phD, .dtP => True
  | .dtP, .phD => True
  | .dtR, .rmD => True
  | .rmF, .ftR _ => True
  | .ftR _, .rmF => True
  | .ftS, .stF => True
  | .stF, .ftS => True
  | .zero, .ftP => ∃ f, FactEnt σ true f ∧ f.position = y ∧ σ.T f.story = [0]
  | .zero, .stT => True
  | .ftS, .zero => True
  | .stT, .zero => True
  | .ftP, .stP => True
  | _, _ => False

/-- limits on stored contents -/
def TagOK (lim : Lim) : Tag → Prop
  | .chC p => lim.path p ∧ p ≠ []
  | .wdW rs => rs.length ≤ lim.D ∧ rs ≠ []
  | .phP ws => ws.length ≤ lim.D ∧ ws ≠ []
  | _ => True

/-- the two bits -/
structure BitsOK (σ : St) (bs : BitE × BitE) : Prop where
  v0 : bs.1.value = false
  v1 : bs.2.value = true
  s0 : bs.1.storage = true
  s1 : bs.2.storage = true
  lt : bs.1.cls < bs.2.cls
  S1 : (σ.S Class.bitId).Perm [bs.1.cls, bs.2.cls]
  f0 : σ.fwd bs.1.cls = bs.1.character
  f1 : σ.fwd bs.2.cls = bs.2.character
  c0 : bs.1.character ≠ 0
  c1 : bs.2.character ≠ 0
  t0 : σ.tag bs.1.character = .bitc false
  t1 : σ.tag bs.2.character = .bitc true
  tc0 : σ.tag bs.1.cls = .cls Class.bitId
  tc1 : σ.tag bs.2.cls = .cls Class.bitId
  only : ∀ x v, σ.tag x = .bitc v → x = bitNode bs v

theorem BitsOK.mk0 {σ : St} {bs} (h : BitsOK σ bs) : (⟨false, bs.1.cls, bs.1.character, true⟩ : BitE) = bs.1 := by
  obtain ⟨⟨a, b, c, d⟩, e⟩ := bs
  have := h.v0
  have := h.s0
  simp_all
theorem BitsOK.mk1 {σ : St} {bs} (h : BitsOK σ bs) : (⟨true, bs.2.cls, bs.2.character, true⟩ : BitE) = bs.2 := by
  obtain ⟨e, ⟨a, b, c, d⟩⟩ := bs
  have := h.v1
  have := h.s1
  simp_all

theorem BitsOK.use {σ : St} {bs} (h : BitsOK σ bs) (v : Bool) : Bit.use (bitEnt bs v) = pure () := by
  unfold Bit.use
  cases v
  · exact if_pos h.s0
  · exact if_pos h.s1

/-- the storage of a bit is not nil -/
theorem BitsOK.used {σ : St} {bs} (h : BitsOK σ bs) (v : Bool) {α : Type} (f : Unit → Go α) :
    (Bit.use (bitEnt bs v) >>= f) = f () := by rw [h.use v]; rfl

/-- The invariant. -/
structure Inv (cfg : Cfg) (lim : Lim) (σ : St) : Prop where
  dup : Policy cfg lim
  next : 9 ≤ σ.store.next
  live : ∀ x, σ.store.live x = true ↔ σ.tag x ≠ .none
  bound : ∀ x, σ.tag x ≠ .none → x < σ.store.next
  zero : ∀ x, σ.tag x = .zero ↔ (x = 0 ∧ cfg.zero = true)
  node0 : cfg.zero = false → σ.tag 0 = .none
  root : ∀ x, σ.tag x = .root ↔ (1 ≤ x ∧ x ≤ 8)
  nodup : σ.store.edges.Nodup
  edge : ∀ x y, (x, y) ∈ σ.store.edges → EdgeOK σ x y
  ref0 : ∀ x, σ.tag x = .none → σ.fwd x = 0 ∧ σ.back x = 0
  noF : ∀ x, (σ.tag x).noF = true → σ.fwd x = 0
  noB : ∀ x, (σ.tag x).noB = true → σ.back x = 0
  refB : ∀ x, σ.fwd x ≠ 0 → σ.back (σ.fwd x) = x ∧ x ≠ 0
  refDt : ∀ x, σ.tag x = .dtP → σ.fwd x ≠ 0 → σ.tag (σ.fwd x) = .dtR
  tcrit : ∀ x, (σ.tag x).tcrit = true → (σ.T x).length ≤ 1
  noT : ∀ x, (σ.tag x).noT = true → σ.T x = []
  scrit : ∀ x, (σ.tag x).scrit = true → (σ.S x).length ≤ 1
  noS : ∀ x, (σ.tag x).noS = true → σ.S x = []
  tagOK : ∀ x, TagOK lim (σ.tag x)
  sib : ∀ x y y' q, (x, y) ∈ σ.store.edges → (x, y') ∈ σ.store.edges → σ.tag y = .chC q →
    σ.tag y' = .chC q → y = y'
  bits : match σ.bits with
    | some bs => BitsOK σ bs
    | none => σ.S Class.bitId = [] ∧ ∀ x v, σ.tag x ≠ .bitc v
  roots : ∀ i, 1 ≤ i → i < 8 → σ.fwd i = i + 1
  ends : σ.fwd 8 = 0 ∧ σ.back 1 = 0
  mem : σ.mem.isInitialized = true → σ.bits = some (σ.mem.zeroEntity, σ.mem.oneEntity)

/-- What later steps never change. -/
structure Mono (σ σ' : St) : Prop where
  tag : ∀ x, σ.tag x ≠ .none → σ'.tag x = σ.tag x
  fwd : ∀ x, σ.fwd x ≠ 0 → σ'.fwd x = σ.fwd x
  back : ∀ x, σ.back x ≠ 0 → σ'.back x = σ.back x
  T : ∀ x, (σ.tag x).tcrit = true → σ.T x ≠ [] → σ'.T x = σ.T x
  S : ∀ x, (σ.tag x).scrit = true → σ.S x ≠ [] → σ'.S x = σ.S x
  S0 : ∀ x, (σ.tag x).noS = true → σ.S x = [] → σ'.S x = []
  T0 : ∀ x, (σ.tag x).noT = true → σ.T x = [] → σ'.T x = []
  edges : ∀ x y, (x, y) ∈ σ.store.edges → (x, y) ∈ σ'.store.edges
  bits : ∀ b, σ.bits = some b → σ'.bits = some b
  word : ∀ p e, CharEnt σ p e → σ.T e.character ≠ [] → σ'.T e.word = σ.T e.word

/-- connections of what is above the details are unchanged -/
structure Keep (σ σ' : St) : Prop where
  T : ∀ x, (σ.tag x).high = true → σ'.T x = σ.T x
  S : ∀ x, (σ.tag x).high = true → σ'.S x = σ.S x

/-- the roles of the three nodes behind the class node of an entity of class `k` -/
inductive Kind : Nat → Tag → Tag → Tag → Prop
  | character (p) : Kind Class.characterId .chB (.chC p) .chW
  | word (rs) : Kind Class.wordId .wdC (.wdW rs) .wdP
  | phrase (ws) : Kind Class.phraseId .phW (.phP ws) .phD
  | remark : Kind Class.remarkId .rmD .rmP .rmF
  | fact (b) : Kind Class.factId (.ftR b) .ftP .ftS
  | story : Kind Class.storyId .stF .stP .stT

/-- `x` is the class node of a complete entity of class `k` -/
structure Whole (σ : St) (k x : Nat) : Prop where
  T : σ.T x = [k]
  nodes : (∃ a b c t1 t2 t3, Kind k t1 t2 t3 ∧ Chain σ x a b c ∧ σ.tag a = t1 ∧ σ.tag b = t2 ∧ σ.tag c = t3) ∨
    (k = Class.detailId ∧ ∃ a b, Ref σ x a ∧ Ref σ a b ∧ σ.tag a = .dtP ∧ σ.tag b = .dtR) ∨
    (k = Class.bitId ∧ ∃ a v, Ref σ x a ∧ σ.tag a = .bitc v)

/-- `y` is reached from `x` by following references -/
inductive Owns (σ : St) (x : Nat) : Nat → Prop
  | head : Owns σ x x
  | step {y z} : Owns σ x y → Ref σ y z → Owns σ x z

/-- `y` belongs to an entity -/
def Owned (σ : St) (y : Nat) : Prop := ∃ x k, σ.tag x = .cls k ∧ Owns σ x y

/-- all entities are complete, and every node belongs to one -/
structure Wholes (σ : St) : Prop where
  heads : ∀ x k, σ.tag x = .cls k → Whole σ k x
  owned : ∀ y, σ.tag y ≠ .none → 9 ≤ y → Owned σ y

/-- what a never-failed storage additionally satisfies -/
structure CleanB (σ : St) : Prop where
  full : ∀ x, σ.tag x = .dtP → σ.S x ≠ [] → σ.T x ≠ [] → σ.fwd x ≠ 0
  uniq : ∀ x y, σ.tag x = .dtP → σ.tag y = .dtP → σ.S x ≠ [] → σ.T x ≠ [] → σ.S x = σ.S y →
    σ.T x = σ.T y → x = y
  zero : ∀ t, σ.T 0 = [t] → σ.tag t = .ftP ∧ σ.T t = []

/-- what a quiescent, never-failed storage additionally satisfies -/
structure Clean (σ : St) : Prop extends CleanB σ where
  whole : Wholes σ

end Semnet
