import Verif.Spec.Cost
import Verif.Proof.Codes
import Verif.Proof.Layer
import Verif.Proof.Queries
import Verif.Proof.Reopen
import Verif.Proof.Growth
/-
  Counting the storage calls of reads.
-/
namespace Semnet
open Spec

theorem calls_bind {α β : Type} {cfg : Cfg} {f : α → Go β} : ∀ {p : Go α} {w w' : World} {a : α},
    p.exec cfg w = (.ok a, w') →
    storageCalls cfg (p >>= f) w = storageCalls cfg p w + storageCalls cfg (f a) w' := by
  intro p
  show ∀ {w w' : World} {a : α}, _ → storageCalls cfg (p.bind f) w = _
  induction p with
  | ok a =>
    intro w w' b h
    simp only [Go.exec, Go.run, Prod.mk.injEq, Out.ok.injEq] at h
    obtain ⟨rfl, rfl⟩ := h
    simp only [Go.bind, storageCalls, Nat.zero_add]
  | err e => intro w w' b h; simp [Go.exec, Go.run] at h
  | panic => intro w w' b h; simp [Go.exec, Go.run] at h
  | spin => intro w w' b h; simp [Go.exec, Go.run] at h
  | op o k ih =>
    intro w w' b h
    have := ih _ (w := ⟨(w.store.step cfg o).2, w.mem⟩) (w' := w') (a := b) h
    simp only [Go.bind, storageCalls, this, Nat.add_assoc]
  | getMem k ih => intro w w' b h; exact ih _ (w := w) (w' := w') h
  | setMem m k ih => intro w w' b h; exact ih (w := ⟨w.store, w.mem.set m⟩) (w' := w') h

theorem calls_attempt {α : Type} {cfg : Cfg} : ∀ {p : Go α} {w : World},
    storageCalls cfg p.attempt w = storageCalls cfg p w := by
  intro p
  induction p with
  | ok a => intro w; rfl
  | err e => intro w; rfl
  | panic => intro w; rfl
  | spin => intro w; rfl
  | op o k ih => intro w; simp only [Go.attempt, storageCalls, ih]
  | getMem k ih => intro w; simp only [Go.attempt, storageCalls, ih]
  | setMem m k ih => intro w; simp only [Go.attempt, storageCalls, ih]

/-- the process-local memory agrees with the storage -/
def Agrees (σ : St) (m : Layer) : Prop := m.isInitialized = true → σ.bits = some (m.zeroEntity, m.oneEntity)

/-- In any process on the storage of `σ`, `p` answers `a`, leaves the storage alone and makes `n` storage calls,
    apart from the entrance.  If `warm`, the entrance has been paid afterwards. -/
def Takes {α : Type} (cfg : Cfg) (σ : St) (warm : Bool) (p : Go α) (a : α) (n : Nat) : Prop :=
  ∀ m, Agrees σ m → ∃ m', Agrees σ m' ∧ (m.isInitialized = true → m'.isInitialized = true) ∧
    (warm = true → m'.isInitialized = true) ∧ p.exec cfg ⟨σ.store, m⟩ = (.ok a, ⟨σ.store, m'⟩) ∧
    storageCalls cfg p ⟨σ.store, m⟩ + entrance m' = n + entrance m

section
variable {cfg : Cfg} {lim : Lim} {σ : St} {α β : Type}

theorem Takes.ret {a : α} : Takes cfg σ false (pure a) a 0 :=
  fun m hm => ⟨m, hm, id, fun h => (by cases h), rfl, rfl⟩

theorem Takes.bind {w1 w2 : Bool} {p : Go α} {f : α → Go β} {a : α} {b : β} {n k : Nat} (h : Takes cfg σ w1 p a n)
    (hf : Takes cfg σ w2 (f a) b k) : Takes cfg σ (w1 || w2) (p >>= f) b (n + k) := by
  intro m hm
  obtain ⟨m1, a1, b1, c1, d1, e1⟩ := h m hm
  obtain ⟨m2, a2, b2, c2, d2, e2⟩ := hf m1 a1
  refine ⟨m2, a2, fun x => b2 (b1 x), fun x => ?_, by rw [exec_bind, d1]; exact d2, ?_⟩
  · rcases Bool.or_eq_true_iff.1 x with x | x
    · exact b2 (c1 x)
    · exact c2 x
  · rw [calls_bind d1]; omega

theorem Takes.cast {w w' : Bool} {p : Go α} {a a' : α} {n n' : Nat} (h : Takes cfg σ w p a n) (hw : w' = true → w = true)
    (ha : a = a') (hn : n = n') : Takes cfg σ w' p a' n' := by
  subst ha hn
  intro m hm
  obtain ⟨m1, a1, b1, c1, d1, e1⟩ := h m hm
  exact ⟨m1, a1, b1, fun x => c1 (hw x), d1, e1⟩

/-- one step of a straight-line program -/
theorem Takes.step {w w1 : Bool} {p : Go α} {f : α → Go β} {a : α} {b : β} {n N : Nat} (h : Takes cfg σ w1 p a n)
    (hf : Takes cfg σ (w && !w1) (f a) b (N - n)) (hn : n ≤ N) : Takes cfg σ w (p >>= f) b N :=
  (h.bind hf).cast (by cases w <;> cases w1 <;> simp) rfl (by omega)

theorem Takes.done {a b : α} {n : Nat} (h : a = b) (hn : n = 0) : Takes cfg σ false (pure a) b n :=
  Takes.ret.cast id h hn.symm

theorem Takes.attempt {w : Bool} {p : Go α} {a : α} {n : Nat} (h : Takes cfg σ w p a n) :
    Takes cfg σ w p.attempt (.ok a) n := by
  intro m hm
  obtain ⟨m1, a1, b1, c1, d1, e1⟩ := h m hm
  refine ⟨m1, a1, b1, c1, ?_, by rw [calls_attempt]; exact e1⟩
  unfold Go.exec at d1 ⊢
  rw [exec_attempt, d1]

/-- one storage call that succeeds and changes nothing -/
theorem Takes.call {o : Op} {r : o.Res} (h : σ.store.step cfg o = (.ok r, σ.store)) :
    Takes cfg σ false (Go.call o) r 1 := by
  intro m hm
  refine ⟨m, hm, id, fun h => (by cases h), ?_, ?_⟩
  · simp only [Go.call, Go.exec, Go.run, Go.noFault, h]
  · simp only [Go.call, storageCalls, h]

theorem Takes.targets (hi : Inv cfg lim σ) {x y : Nat} (hx : σ.tag x ≠ .none) (h : σ.T x = [y]) :
    Takes cfg σ false (Go.readTargets x) [y] 1 := by
  refine Takes.call ?_
  have h' : σ.store.targets x = [y] := h
  simp only [Store.step, (hi.live x).2 hx, if_true, h', ord_one]

theorem Takes.targets0 (hi : Inv cfg lim σ) {x : Nat} (hx : σ.tag x ≠ .none) (h : σ.T x = []) :
    Takes cfg σ false (Go.readTargets x) [] 1 := by
  refine Takes.call ?_
  have h' : σ.store.targets x = [] := h
  simp only [Store.step, (hi.live x).2 hx, if_true, h', ord_nil]

theorem Takes.sources (hi : Inv cfg lim σ) {x y : Nat} (hx : σ.tag x ≠ .none) (h : σ.S x = [y]) :
    Takes cfg σ false (Go.readSources x) [y] 1 := by
  refine Takes.call ?_
  have h' : σ.store.sources x = [y] := h
  simp only [Store.step, (hi.live x).2 hx, if_true, h', ord_one]

theorem Takes.sources0 (hi : Inv cfg lim σ) {x : Nat} (hx : σ.tag x ≠ .none) (h : σ.S x = []) :
    Takes cfg σ false (Go.readSources x) [] 1 := by
  refine Takes.call ?_
  have h' : σ.store.sources x = [] := h
  simp only [Store.step, (hi.live x).2 hx, if_true, h', ord_nil]

theorem Takes.ref (hi : Inv cfg lim σ) {x : Nat} (hx : σ.tag x ≠ .none) :
    Takes cfg σ false (Go.getReference x) (σ.back x, σ.fwd x) 1 := by
  refine Takes.call ?_
  simp only [Store.step, (hi.live x).2 hx, if_true]
  rfl

theorem Takes.refMid (hi : Inv cfg lim σ) {x y z : Nat} (h1 : Ref σ x y) (h2 : Ref σ y z) :
    Takes cfg σ false (Go.getReference y) (x, z) 1 :=
  (Takes.ref hi (h2.tagx hi)).cast id (by rw [h1.b, h2.f]) rfl

theorem Takes.refF (hi : Inv cfg lim σ) {x y : Nat} (h : Ref σ x y) :
    Takes cfg σ false (Go.getReference x) (σ.back x, y) 1 :=
  (Takes.ref hi (h.tagx hi)).cast id (by rw [h.f]) rfl

theorem Takes.refB (hi : Inv cfg lim σ) {x y : Nat} (h : Ref σ x y) :
    Takes cfg σ false (Go.getReference y) (x, σ.fwd y) 1 :=
  (Takes.ref hi (h.tagy hi)).cast id (by rw [h.b]) rfl

/-! ### bits -/

theorem Takes.bitInit (hi : Inv cfg lim σ) {bs} (hb : σ.bits = some bs) : Takes cfg σ true Bit.init bs 0 := by
  intro m hm
  have ok := getD_bits hi hb
  by_cases h : m.isInitialized = true
  · have hm' := hm h
    rw [hb] at hm'
    refine ⟨m, hm, id, fun _ => h, ?_, ?_⟩
    · show (Bit.init).exec cfg ⟨σ.store, m⟩ = _
      rw [Option.some.inj hm']
      simp only [Bit.init, Bit.ensure, Bit.fill, Go.readMem, Bind.bind, Go.bind, Go.exec, Go.run, h, if_true, Pure.pure]
    · have : storageCalls cfg Bit.init ⟨σ.store, m⟩ = 0 := by
        simp only [Bit.init, Bit.ensure, Bit.fill, Go.readMem, Bind.bind, Go.bind, storageCalls, h, if_true, Pure.pure]
      omega
  · have l1 : σ.store.live 1 = true := hi.liveT ((hi.root 1).2 (by omega)) (by simp)
    have lz : σ.store.live bs.1.cls = true := hi.liveT ok.tc0 (by simp)
    have lo : σ.store.live bs.2.cls = true := hi.liveT ok.tc1 (by simp)
    have fz : σ.store.fwd bs.1.cls = bs.1.character := ok.f0
    have fo : σ.store.fwd bs.2.cls = bs.2.character := ok.f1
    have hlt := ok.lt
    have hlt' : ¬ bs.2.cls < bs.1.cls := by omega
    have e0 : (⟨false, bs.1.cls, bs.1.character, true⟩ : BitE) = bs.1 := ok.mk0
    have e1 : (⟨true, bs.2.cls, bs.2.character, true⟩ : BitE) = bs.2 := ok.mk1
    have hs : cfg.ord σ.store (.readSources 1) (σ.store.sources 1) = [bs.1.cls, bs.2.cls] ∨ cfg.ord σ.store (.readSources 1) (σ.store.sources 1) = [bs.2.cls, bs.1.cls] :=
      perm_two ((cfg.ord_perm _ _ _).trans ok.S1)
    have key : (Bit.init).exec cfg ⟨σ.store, m⟩ = (.ok bs, ⟨σ.store, ⟨true, bs.1, bs.2⟩⟩) ∧
        storageCalls cfg Bit.init ⟨σ.store, m⟩ = 4 := by
      rcases hs with hs | hs <;>
        simp only [Bit.init, Bit.ensure, Bit.fill, Layer.set, Go.readMem, Bind.bind, Go.bind, Go.exec, Go.run, storageCalls, h, Pure.pure, Class.provideEntity,
          Go.has, Go.call, Go.noFault, Store.step, l1, if_true, Class.getAllBits, Go.readSources, Class.bitId, hs,
          Go.getReference, lz, lo, hlt, hlt', fz, fo, Go.assign, e0, e1, if_false, Prod.eta, and_self, Nat.add_zero,
          Bool.false_eq_true]
    refine ⟨⟨true, bs.1, bs.2⟩, fun _ => hb, fun _ => rfl, fun _ => rfl, key.1, ?_⟩
    rw [key.2]
    simp only [entrance, h, if_true, Bool.false_eq_true, if_false]

theorem Takes.bitFetch (hi : Inv cfg lim σ) {bs} (hb : σ.bits = some bs) (v : Bool) :
    Takes cfg σ true (Bit.fetch (bitNode bs v)) (bitEnt bs v) 0 := by
  unfold Bit.fetch
  have ok := getD_bits hi hb
  refine (Takes.bind (w2 := false) (Takes.bitInit hi hb) (b := bitEnt bs v) (k := 0) ?_).cast (by simp) rfl rfl
  cases v
  · simp only [bitNode, bitEnt, Bool.false_eq_true, if_false, if_true]
    exact Takes.ret
  · simp only [bitNode, bitEnt, if_true, ok.ne.symm, if_false]
    exact Takes.ret

theorem bitEnt_value {bs} (h : BitsOK σ bs) (v : Bool) : (bitEnt bs v).value = v := by
  cases v
  · exact h.v0
  · exact h.v1

/-! ### characters -/

theorem Takes.charByCharacter (hi : Inv cfg lim σ) {p e} (h : CharEnt σ p e) :
    Takes cfg σ false (Character.readEntityByCharacter e.character) e 2 := by
  unfold Character.readEntityByCharacter
  refine Takes.step (Takes.refMid hi h.chain.bc h.chain.cd) ?_ (by omega)
  refine Takes.step (Takes.refMid hi h.chain.ab h.chain.bc) ?_ (by omega)
  exact .done rfl rfl

theorem Takes.charByWord (hi : Inv cfg lim σ) {p e} (h : CharEnt σ p e) :
    Takes cfg σ false (Character.readEntityByWord e.word) e 3 := by
  unfold Character.readEntityByWord
  refine Takes.step (Takes.refB hi h.chain.cd) ?_ (by omega)
  refine Takes.step (Takes.refMid hi h.chain.bc h.chain.cd) ?_ (by omega)
  refine Takes.step (Takes.refMid hi h.chain.ab h.chain.bc) ?_ (by omega)
  exact .done rfl rfl

theorem Takes.extractBitValue (hi : Inv cfg lim σ) {e p v bs} (h : CharBase σ e p v bs) :
    Takes cfg σ true (Character.extractBitValue ⟨some e⟩) v 1 := by
  have ht : Takes cfg σ false (Character.getTargetBit e) (bitNode bs v) 1 := by
    unfold Character.getTargetBit
    refine Takes.step (Takes.targets hi (by rw [h.tb]; simp) h.Tb) ?_ (by omega)
    exact .done rfl rfl
  unfold Character.extractBitValue
  refine Takes.step (Takes.ret (a := e)) ?_ (by omega)
  refine Takes.step ht ?_ (by omega)
  refine Takes.step (Takes.bitFetch hi h.bits v) ?_ (by omega)
  exact .done (bitEnt_value (getD_bits hi h.bits) v) rfl

theorem Takes.charLoop (hi : Inv cfg lim σ) : ∀ (fuel : Nat) {p e} (_ : CharEnt σ p e) (path : List Bool),
    p.length ≤ fuel →
    Takes cfg σ false (Character.extractLoop fuel ⟨some e⟩ path) (path ++ p.dropLast.reverse) (5 * p.length - 4) := by
  intro fuel
  induction fuel with
  | zero =>
    intro p e h path hl
    exact absurd (List.length_eq_zero_iff.1 (Nat.le_zero.1 hl)) h.ne_nil
  | succ n ih =>
    intro p e h path hl
    unfold Character.extractLoop
    obtain ⟨q, v, bs, hp, hb, ht, hc⟩ := h.cases'
    have hx : σ.tag e.character ≠ .none := by rw [hb.tc]; simp
    have hlp : p.length = q.length + 1 := by simp [hp]
    rcases hc with ⟨hq, hS⟩ | ⟨e', he', hS⟩
    · subst hq
      have h1 : Takes cfg σ false (Character.hasPreviousElement ⟨some e⟩) false 1 := by
        unfold Character.hasPreviousElement
        refine Takes.step (Takes.ret (a := e)) ?_ (by omega)
        unfold Character.hasSourceCharacter
        refine Takes.step (Takes.sources0 hi hx hS) ?_ (by omega)
        exact .done rfl rfl
      refine Takes.step h1 ?_ (by omega)
      simp only [Bool.false_eq_true, if_false]
      exact .done (by simp [hp]) (by simp [hp])
    · have h1 : Takes cfg σ false (Character.hasPreviousElement ⟨some e⟩) true 1 := by
        unfold Character.hasPreviousElement
        refine Takes.step (Takes.ret (a := e)) ?_ (by omega)
        unfold Character.hasSourceCharacter
        refine Takes.step (Takes.sources hi hx hS) ?_ (by omega)
        exact .done rfl rfl
      have h2 : Takes cfg σ false (Character.getSourceCharacter e) e'.character 1 := by
        unfold Character.getSourceCharacter
        refine Takes.step (Takes.sources hi hx hS) ?_ (by omega)
        exact .done rfl rfl
      have h3 : Takes cfg σ false (Character.getPreviousElement ⟨some e⟩) ⟨some e'⟩ 3 := by
        unfold Character.getPreviousElement
        refine Takes.step (Takes.ret (a := e)) ?_ (by omega)
        refine Takes.step h2 ?_ (by omega)
        refine Takes.step (Takes.charByCharacter hi he') ?_ (by omega)
        exact .done rfl rfl
      obtain ⟨q', v', bs', hq', hb'⟩ := he'.base
      have hlen : 1 ≤ q.length := List.length_pos_iff.2 he'.ne_nil
      refine Takes.step h1 ?_ (by omega)
      simp only [if_true]
      refine Takes.step h3.attempt ?_ (by omega)
      refine Takes.step (Takes.ret (a := (⟨some e'⟩ : CharElem))) ?_ (by omega)
      refine Takes.step (Takes.extractBitValue hi hb') ?_ (by omega)
      exact (ih he' (path ++ [v']) (by omega)).cast (by simp) (by simp [hp, hq']) (by omega)

theorem Takes.charExtract (hi : Inv cfg lim σ) {p e} (h : CharEnt σ p e) {fuel : Nat} (hf : lim.L ≤ fuel) :
    Takes cfg σ true (Character.extract fuel ⟨some e⟩) (Character.toRune p) (5 * p.length - 3) := by
  obtain ⟨q, v, bs, hp, hb⟩ := h.base
  have hlen : 1 ≤ p.length := List.length_pos_iff.2 h.ne_nil
  unfold Character.extract
  refine Takes.step (Takes.extractBitValue hi hb) ?_ (by omega)
  refine Takes.step (Takes.charLoop hi fuel h [v] (Nat.le_trans (h.len hi) hf)) ?_ (by omega)
  exact .done (by simp [hp]) (by omega)

/-! ### words -/

theorem Takes.wordByWord (hi : Inv cfg lim σ) {p e} (h : WordEnt σ p e) :
    Takes cfg σ false (Word.readEntityByWord e.word) e 2 := by
  unfold Word.readEntityByWord
  refine Takes.step (Takes.refMid hi h.chain.bc h.chain.cd) ?_ (by omega)
  refine Takes.step (Takes.refMid hi h.chain.ab h.chain.bc) ?_ (by omega)
  exact .done rfl rfl

theorem Takes.wordByPhrase (hi : Inv cfg lim σ) {p e} (h : WordEnt σ p e) :
    Takes cfg σ false (Word.readEntityByPhrase e.phrase) e 3 := by
  unfold Word.readEntityByPhrase
  refine Takes.step (Takes.refB hi h.chain.cd) ?_ (by omega)
  refine Takes.step (Takes.refMid hi h.chain.bc h.chain.cd) ?_ (by omega)
  refine Takes.step (Takes.refMid hi h.chain.ab h.chain.bc) ?_ (by omega)
  exact .done rfl rfl

theorem Takes.extractCharacterValue (hi : Inv cfg lim σ) {w rs p c} (h : WordBase σ w rs p c) {fuel : Nat}
    (hf : lim.L ≤ fuel) :
    Takes cfg σ true (Word.extractCharacterValue fuel w) (Character.toRune p) (5 * p.length + 1) := by
  have hlen : 1 ≤ p.length := List.length_pos_iff.2 h.ch.ne_nil
  have h1 : Takes cfg σ false (Word.getTargetCharacter w) c.word 1 := by
    unfold Word.getTargetCharacter
    refine Takes.step (Takes.targets hi (by rw [h.tc]; simp) h.Tc) ?_ (by omega)
    exact .done rfl rfl
  have h2 : Takes cfg σ false (Character.fetch c.word) ⟨some c⟩ 3 := by
    unfold Character.fetch
    refine Takes.step (Takes.charByWord hi h.ch) ?_ (by omega)
    exact .done rfl rfl
  unfold Word.extractCharacterValue
  refine Takes.step h1 ?_ (by omega)
  refine Takes.step h2 ?_ (by omega)
  exact (Takes.charExtract hi h.ch hf).cast (by simp) rfl (by omega)

end

/-! ### limits that say that the stored paths are binary codes -/

def codeLim (fuel : Nat) : Lim :=
  ⟨fun p => p.length ≤ 31 ∧ ∃ n : Nat, p = bitsOf n, fuel, 31, fun _ h => h.1, False, false⟩

theorem TextOK.code {fuel : Nat} {s : GoStr} (h : s.length < fuel) : TextOK (codeLim fuel) s := by
  have := TextOK.std h
  refine ⟨fun w hw => ⟨fun r hr => ⟨((this.word w hw).rune r hr).1, fun q hq hp => ?_⟩, (this.word w hw).len,
    fun h => h.elim⟩, this.len⟩
  exact ⟨((this.word w hw).rune r hr).2 q hq hp, _, bitsOf_prefix hq hp⟩

theorem Fits.code {fuel : Nat} (h : Fits (stdLim fuel) fuel) : Fits (codeLim fuel) fuel := ⟨h.1, h.2, h.3⟩

theorem binDigits_len (f n : Nat) (h : n ≤ f) : (binDigits f n).length = binaryLength n := by
  induction f generalizing n with
  | zero =>
    have : n = 0 := by omega
    subst this; rfl
  | succ f ih =>
    unfold binDigits
    split
    · rename_i h2
      match n, h2 with
      | 0, _ => rfl
      | 1, _ => rfl
    · rename_i h2
      have h2' : 2 ≤ n := by omega
      rw [List.length_append, ih (n / 2) (by omega), binaryLength, binaryLength, if_neg (by omega), if_neg (by omega)]
      conv => rhs; rw [Nat.log2_def, if_pos h2']
      rfl

theorem bitsOf_len (r : Nat) : (bitsOf r).length = binaryLength r := by
  unfold bitsOf
  rw [Int.natAbs_natCast]
  exact binDigits_len _ _ (Nat.le_refl _)

/-- how long the code of a stored character is -/
theorem CharEnt.code_len {cfg : Cfg} {fuel : Nat} {σ : St} (hi : Inv cfg (codeLim fuel) σ) {p e} (h : CharEnt σ p e) :
    p.length = binaryLength (Character.toRune p).toNat := by
  obtain ⟨hl, n, hn⟩ := h.path hi
  have hv : valOf (bitsOf n) = n := by
    have := valOf_binDigits (Int.natAbs n) (Int.natAbs n) (Nat.le_refl _)
    rw [Int.natAbs_natCast] at this
    exact this
  have : n < 2 ^ 31 := by
    by_cases hn' : n = 0
    · subst hn'; decide
    have hb : (bitsOf n).length = binaryLength n := bitsOf_len n
    rw [← hn, binaryLength, if_neg hn'] at hb
    exact (Nat.log2_lt hn').1 (by omega)
  rw [hn, toRune_bitsOf (by omega) (by omega), bitsOf_len]
  rfl

/-- characters and digits of a word -/
def wordBulk (rs : List Int) : Nat := (rs.map (fun r => 1 + binaryLength r.toNat)).sum
/-- words, characters and digits of a phrase -/
def phraseBulk (ws : List (List Int)) : Nat := (ws.map (fun rs => 1 + wordBulk rs)).sum

theorem wordBulk_snoc (rs : List Int) (r : Int) : wordBulk (rs ++ [r]) = wordBulk rs + (1 + binaryLength r.toNat) := by
  simp [wordBulk]
theorem phraseBulk_snoc (ws : List (List Int)) (rs : List Int) :
    phraseBulk (ws ++ [rs]) = phraseBulk ws + (1 + wordBulk rs) := by
  simp [phraseBulk]

theorem phraseBulk_words (t : GoStr) : phraseBulk (wordsOf t) = bulk t := by
  unfold phraseBulk wordsOf bulk
  rw [List.map_map]
  rfl

section
variable {cfg : Cfg} {σ : St} {fuel : Nat}

theorem Takes.wordLoop (hi : Inv cfg (codeLim fuel) σ) (hf : 31 ≤ fuel) : ∀ (n : Nat) {rs w} (_ : WordEnt σ rs w)
    (path : List Int), rs.length ≤ n →
    Takes cfg σ false (Word.extractLoop fuel n w path) (path ++ rs.dropLast.reverse) (5 * wordBulk rs.dropLast + 1) := by
  intro n
  induction n with
  | zero =>
    intro p e h path hl
    exact absurd (List.length_eq_zero_iff.1 (Nat.le_zero.1 hl)) h.ne_nil
  | succ n ih =>
    intro rs w h path hl
    unfold Word.extractLoop
    obtain ⟨q, p, c, hp, hb, hc⟩ := h.cases'
    have hx : σ.tag w.word ≠ .none := by rw [hb.tw]; simp
    have hlp : rs.length = q.length + 1 := by simp [hp]
    rcases hc with ⟨hq, hS⟩ | ⟨e', he', hS⟩
    · subst hq
      have h1 : Takes cfg σ false (Word.hasSourceWord w) false 1 := by
        unfold Word.hasSourceWord
        refine Takes.step (Takes.sources0 hi hx hS) ?_ (by omega)
        exact .done rfl rfl
      refine Takes.step h1 ?_ (by omega)
      simp only [Bool.false_eq_true, if_false]
      exact .done (by simp [hp]) (by simp [hp, wordBulk])
    · have h1 : Takes cfg σ false (Word.hasSourceWord w) true 1 := by
        unfold Word.hasSourceWord
        refine Takes.step (Takes.sources hi hx hS) ?_ (by omega)
        exact .done rfl rfl
      have h2 : Takes cfg σ false (Word.getSourceWord w) e'.word 1 := by
        unfold Word.getSourceWord
        refine Takes.step (Takes.sources hi hx hS) ?_ (by omega)
        exact .done rfl rfl
      have h3 : Takes cfg σ false (Word.getPreviousElement w) e' 3 := by
        unfold Word.getPreviousElement
        refine Takes.step h2 ?_ (by omega)
        exact Takes.wordByWord hi he'
      obtain ⟨q', p', c', hq', hb'⟩ := he'.base
      have hk := hb'.ch.code_len hi
      have hd : rs.dropLast = q := by simp [hp]
      have hw : wordBulk rs.dropLast = wordBulk q.dropLast + (1 + p'.length) := by
        rw [hd, hq', wordBulk_snoc, ← hk]
        simp
      refine Takes.step h1 ?_ (by omega)
      simp only [if_true]
      refine Takes.step h3.attempt ?_ (by omega)
      refine Takes.step (Takes.ret (a := e')) ?_ (by omega)
      refine Takes.step (Takes.extractCharacterValue hi hb' hf) ?_ (by omega)
      exact (ih he' _ (by omega)).cast (by simp) (by rw [hd]; simp [hq']) (by omega)

theorem Takes.wordExtract (hi : Inv cfg (codeLim fuel) σ) (hf : 31 ≤ fuel) {rs w} (h : WordEnt σ rs w) :
    Takes cfg σ true (Word.extract fuel w) (stringOf rs) (5 * wordBulk rs - 3) := by
  obtain ⟨q, p, c, hp, hb⟩ := h.base
  have hk := hb.ch.code_len hi
  have hlen : 1 ≤ p.length := List.length_pos_iff.2 hb.ch.ne_nil
  have hw : wordBulk rs = wordBulk rs.dropLast + (1 + p.length) := by
    rw [hp, wordBulk_snoc, ← hk]
    simp
  unfold Word.extract
  refine Takes.step (Takes.extractCharacterValue hi hb hf) ?_ (by omega)
  refine Takes.step (Takes.wordLoop hi hf fuel h _ (h.len hi)) ?_ (by omega)
  exact .done (by simp [hp]) (by omega)

/-! ### phrases -/

theorem Takes.phraseByPhrase (hi : Inv cfg (codeLim fuel) σ) {p e} (h : PhraseEnt σ p e) :
    Takes cfg σ false (Phrase.readEntityByPhrase e.phrase) e 2 := by
  unfold Phrase.readEntityByPhrase
  refine Takes.step (Takes.refMid hi h.chain.bc h.chain.cd) ?_ (by omega)
  refine Takes.step (Takes.refMid hi h.chain.ab h.chain.bc) ?_ (by omega)
  exact .done rfl rfl

theorem Takes.phraseFetch (hi : Inv cfg (codeLim fuel) σ) {p e} (h : PhraseEnt σ p e) :
    Takes cfg σ false (Phrase.fetch e.detail) e 3 := by
  unfold Phrase.fetch Phrase.readEntityByDetail
  refine Takes.step (Takes.refB hi h.chain.cd) ?_ (by omega)
  refine Takes.step (Takes.refMid hi h.chain.bc h.chain.cd) ?_ (by omega)
  refine Takes.step (Takes.refMid hi h.chain.ab h.chain.bc) ?_ (by omega)
  exact .done rfl rfl

theorem wordBulk_pos {rs : List Int} (h : rs ≠ []) : 2 ≤ wordBulk rs := by
  cases rs with
  | nil => exact absurd rfl h
  | cons r rs =>
    simp only [wordBulk, List.map_cons, List.sum_cons]
    have : 1 ≤ binaryLength r.toNat := by unfold binaryLength; split <;> omega
    omega

theorem Takes.extractWordValue (hi : Inv cfg (codeLim fuel) σ) (hf : 31 ≤ fuel) {e ws rs w} (h : PhraseBase σ e ws rs w) :
    Takes cfg σ true (Phrase.extractWordValue fuel e) (stringOf rs) (5 * wordBulk rs + 1) := by
  have h1 : Takes cfg σ false (Phrase.getTargetWord e) w.phrase 1 := by
    unfold Phrase.getTargetWord
    refine Takes.step (Takes.targets hi (by rw [h.tw]; simp) h.Tw) ?_ (by omega)
    exact .done rfl rfl
  have hp := wordBulk_pos h.wd.ne_nil
  unfold Phrase.extractWordValue
  refine Takes.step h1 ?_ (by omega)
  refine Takes.step (Takes.wordByPhrase hi h.wd) ?_ (by omega)
  exact (Takes.wordExtract hi hf h.wd).cast (by simp) rfl (by omega)

theorem Takes.phraseLoop (hi : Inv cfg (codeLim fuel) σ) (hf : 31 ≤ fuel) : ∀ (n : Nat) {ws e} (_ : PhraseEnt σ ws e)
    (path : List GoStr), ws.length ≤ n →
    Takes cfg σ false (Phrase.extractLoop fuel n e path) (path ++ (ws.dropLast.map stringOf).reverse)
      (5 * phraseBulk ws.dropLast + 1) := by
  intro n
  induction n with
  | zero =>
    intro p e h path hl
    exact absurd (List.length_eq_zero_iff.1 (Nat.le_zero.1 hl)) h.ne_nil
  | succ n ih =>
    intro ws w h path hl
    unfold Phrase.extractLoop
    obtain ⟨q, rs, c, hp, hb, hc⟩ := h.cases'
    have hx : σ.tag w.phrase ≠ .none := by rw [hb.tp]; simp
    have hlp : ws.length = q.length + 1 := by simp [hp]
    rcases hc with ⟨hq, hS⟩ | ⟨e', he', hS⟩
    · subst hq
      have h1 : Takes cfg σ false (Phrase.hasSourcePhrase w) false 1 := by
        unfold Phrase.hasSourcePhrase
        refine Takes.step (Takes.sources0 hi hx hS) ?_ (by omega)
        exact .done rfl rfl
      refine Takes.step h1 ?_ (by omega)
      simp only [Bool.false_eq_true, if_false]
      exact .done (by simp [hp]) (by simp [hp, phraseBulk])
    · have h1 : Takes cfg σ false (Phrase.hasSourcePhrase w) true 1 := by
        unfold Phrase.hasSourcePhrase
        refine Takes.step (Takes.sources hi hx hS) ?_ (by omega)
        exact .done rfl rfl
      have h2 : Takes cfg σ false (Phrase.getSourcePhrase w) e'.phrase 1 := by
        unfold Phrase.getSourcePhrase
        refine Takes.step (Takes.sources hi hx hS) ?_ (by omega)
        exact .done rfl rfl
      have h3 : Takes cfg σ false (Phrase.getPreviousElement w) e' 3 := by
        unfold Phrase.getPreviousElement
        refine Takes.step h2 ?_ (by omega)
        exact Takes.phraseByPhrase hi he'
      obtain ⟨q', rs', c', hq', hb'⟩ := he'.base
      have hd : ws.dropLast = q := by simp [hp]
      have hw : phraseBulk ws.dropLast = phraseBulk q.dropLast + (1 + wordBulk rs') := by
        rw [hd, hq', phraseBulk_snoc]
        simp
      refine Takes.step h1 ?_ (by omega)
      simp only [if_true]
      refine Takes.step h3.attempt ?_ (by omega)
      refine Takes.step (Takes.ret (a := e')) ?_ (by omega)
      refine Takes.step (Takes.extractWordValue hi hf hb') ?_ (by omega)
      exact (ih he' _ (by omega)).cast (by simp) (by rw [hd]; simp [hq']) (by omega)

theorem Takes.phraseExtract (hi : Inv cfg (codeLim fuel) σ) (hf : 31 ≤ fuel) {ws e} (h : PhraseEnt σ ws e) :
    Takes cfg σ true (Phrase.extract fuel e) (textOf ws) (5 * phraseBulk ws - 3) := by
  obtain ⟨q, rs, c, hp, hb⟩ := h.base
  have hq := wordBulk_pos hb.wd.ne_nil
  have hw : phraseBulk ws = phraseBulk ws.dropLast + (1 + wordBulk rs) := by
    rw [hp, phraseBulk_snoc]
    simp
  unfold Phrase.extract
  refine Takes.step (Takes.extractWordValue hi hf hb) ?_ (by omega)
  refine Takes.step (Takes.phraseLoop hi hf fuel h _ (h.len hi)) ?_ (by omega)
  exact .done (by simp [hp, textOf]) (by omega)

theorem PhraseEnt.bulk_pos {ws e} (h : PhraseEnt σ ws e) : 3 ≤ phraseBulk ws := by
  obtain ⟨q, rs, c, hp, hb⟩ := h.base
  have hq := wordBulk_pos hb.wd.ne_nil
  rw [hp, phraseBulk_snoc]
  omega

/-! ### remarks -/

theorem Takes.remarkText (hi : Inv cfg (codeLim fuel) σ) (hf : 31 ≤ fuel) {r o p} (hr : RemEnt σ r) (hs : Says σ r o p) :
    Takes cfg σ true (Remark.getObjectAndProperty fuel r) (textOf o, textOf p)
      (5 * (1 + phraseBulk o + phraseBulk p)) := by
  obtain ⟨d, po, pp, hS, hd, ho, hp⟩ := hs
  have bo := ho.bulk_pos
  have bp := hp.bulk_pos
  have h1 : Takes cfg σ false (Remark.getSourceDetail r) d.remark 1 := by
    unfold Remark.getSourceDetail
    refine Takes.step (Takes.sources hi (by rw [hr.td]; simp) hS) ?_ (by omega)
    exact .done rfl rfl
  have h2 : Takes cfg σ false (Detail.fetch d.remark) ⟨σ.back d.phrase, d.phrase, d.remark⟩ 2 := by
    unfold Detail.fetch Detail.readEntityByRemark
    refine Takes.step (Takes.refB hi hd.ref) ?_ (by omega)
    refine Takes.step (Takes.ref hi (by rw [hd.tp]; simp)) ?_ (by omega)
    exact .done rfl rfl
  have h3 : Takes cfg σ false (Detail.getObjectAndPropertyPhrases ⟨σ.back d.phrase, d.phrase, d.remark⟩)
      (po.detail, pp.detail) 2 := by
    unfold Detail.getObjectAndPropertyPhrases
    refine Takes.step (Takes.sources hi (by rw [hd.tp]; simp) hd.So) ?_ (by omega)
    refine Takes.step (Takes.targets hi (by rw [hd.tp]; simp) hd.Tp) ?_ (by omega)
    exact .done rfl rfl
  unfold Remark.getObjectAndProperty
  refine Takes.step h1 ?_ (by omega)
  refine Takes.step h2 ?_ (by omega)
  unfold Detail.getObjectAndProperty
  refine Takes.step h3 ?_ (by omega)
  refine Takes.step (Takes.phraseFetch hi ho) ?_ (by omega)
  refine Takes.step (Takes.phraseExtract hi hf ho) ?_ (by omega)
  refine Takes.step (Takes.phraseFetch hi hp) ?_ (by omega)
  refine Takes.step (Takes.phraseExtract hi hf hp) ?_ (by omega)
  exact .done rfl (by omega)

theorem Takes.hasNextRemark (hi : Inv cfg (codeLim fuel) σ) {r} (h : RemEnt σ r) :
    Takes cfg σ false (Remark.hasNextRemark r) false 1 := by
  unfold Remark.hasNextRemark
  refine Takes.step (Takes.targets0 hi (by rw [h.tp]; simp) (hi.noT _ (by rw [h.tp]; rfl))) ?_ (by omega)
  exact .done rfl rfl

theorem Takes.getFirstFact (hi : Inv cfg (codeLim fuel) σ) {r r1} (hr : RemEnt σ r) (hb : Belongs σ r (some r1)) :
    Takes cfg σ false (Remark.getFirstFact r) r1 14 := by
  obtain ⟨f, hT, hf, hr1, hTf, s, hs, h1, h2⟩ := hb
  have a1 : Takes cfg σ false (Remark.getTargetFact r) f.remark 1 := by
    unfold Remark.getTargetFact
    refine Takes.step (Takes.targets hi (by rw [hr.tf]; simp) hT) ?_ (by omega)
    exact .done rfl rfl
  have a2 : Takes cfg σ false (Fact.fetchByRemark f.remark) ⟨f, true⟩ 2 := by
    unfold Fact.fetchByRemark
    refine Takes.step (a := f) (n := 2) (w1 := false) ?_ ?_ (by omega)
    · unfold Fact.readEntityByRemark
      refine Takes.step (Takes.refMid hi hf.chain.ab hf.chain.bc) ?_ (by omega)
      refine Takes.step (Takes.refMid hi hf.chain.bc hf.chain.cd) ?_ (by omega)
      exact .done rfl rfl
    · exact .done rfl rfl
  have a3 : Takes cfg σ false (Fact.targetStoryOrZero ⟨f, true⟩) s.fact 1 := by
    unfold Fact.targetStoryOrZero
    refine Takes.step (a := .ok s.fact) (n := 1) (w1 := false) (Takes.attempt ?_) ?_ (by omega)
    · unfold Fact.getTargetStory
      refine Takes.step (Takes.targets hi (by rw [hf.ts]; simp) h1) ?_ (by omega)
      exact .done rfl rfl
    · exact .done rfl rfl
  have a4 : Takes cfg σ false (Story.fetchByFact s.fact) s 2 := by
    unfold Story.fetchByFact
    refine Takes.step (Takes.refMid hi hs.chain.ab hs.chain.bc) ?_ (by omega)
    refine Takes.step (Takes.refMid hi hs.chain.bc hs.chain.cd) ?_ (by omega)
    exact .done rfl rfl
  have a5 : Takes cfg σ false (Story.getTargetFact s) f.story 1 := by
    unfold Story.getTargetFact
    refine Takes.step (Takes.targets hi (by rw [hs.tf]; simp) h2) ?_ (by omega)
    exact .done rfl rfl
  have a6 : Takes cfg σ false (Fact.readEntityByStory f.story) f 3 := by
    unfold Fact.readEntityByStory
    refine Takes.step (Takes.refB hi hf.chain.cd) ?_ (by omega)
    refine Takes.step (Takes.refMid hi hf.chain.bc hf.chain.cd) ?_ (by omega)
    refine Takes.step (Takes.refMid hi hf.chain.ab hf.chain.bc) ?_ (by omega)
    exact .done rfl rfl
  have a7 : Takes cfg σ false (Fact.toFirstFact ⟨f, true⟩) ⟨f, false⟩ 7 := by
    unfold Fact.toFirstFact
    refine Takes.step a3 ?_ (by omega)
    refine Takes.step a4 ?_ (by omega)
    refine Takes.step a5 ?_ (by omega)
    refine Takes.step (a := f) (n := 3) (w1 := false) a6 ?_ (by omega)
    exact .done rfl rfl
  have a8 : Takes cfg σ false (Fact.getFirstRemark ⟨f, false⟩) r1.fact 1 := by
    unfold Fact.getFirstRemark
    refine Takes.step (Takes.targets hi (by rw [hf.tr]; simp) hTf) ?_ (by omega)
    exact .done rfl rfl
  unfold Remark.getFirstFact
  refine Takes.step a1 ?_ (by omega)
  refine Takes.step a2 ?_ (by omega)
  refine Takes.step a7 ?_ (by omega)
  refine Takes.step a8 ?_ (by omega)
  unfold Remark.readEntityByFact
  refine Takes.step (Takes.refB hi hr1.chain.cd) ?_ (by omega)
  refine Takes.step (Takes.refMid hi hr1.chain.bc hr1.chain.cd) ?_ (by omega)
  refine Takes.step (Takes.refMid hi hr1.chain.ab hr1.chain.bc) ?_ (by omega)
  exact .done rfl rfl

theorem Takes.getStory (hi : Inv cfg (codeLim fuel) σ) (hf : 31 ≤ fuel) {r r1 o p} (hr : RemEnt σ r)
    (hb : Belongs σ r (some r1)) (hr1 : RemEnt σ r1) (hs : Says σ r1 o p) :
    Takes cfg σ true (Output.getStory fuel r) (textOf o ++ [spaceByte] ++ textOf p ++ [spaceByte])
      (15 + 5 * (1 + phraseBulk o + phraseBulk p)) := by
  unfold Output.getStory
  refine Takes.step (Takes.getFirstFact hi hr hb) ?_ (by omega)
  obtain ⟨n, hn⟩ : ∃ n, fuel = n + 1 := ⟨fuel - 1, by omega⟩
  have hl : Output.loop fuel fuel r1 [] = Output.loop fuel (n + 1) r1 [] := by rw [hn]
  rw [hl]
  unfold Output.loop
  refine Takes.step (Takes.remarkText hi hf hr1 hs) ?_ (by omega)
  refine Takes.step (Takes.hasNextRemark hi hr1) ?_ (by omega)
  simp only [Bool.false_eq_true, if_false]
  exact .done (by simp) (by omega)

end

/-! ### histories -/

/-- what a program that `Takes` costs in a process -/
theorem Takes.cost {α : Type} {cfg : Cfg} {lim : Lim} {σ : St} (hi : Inv cfg lim σ) {p : Go α} {a : α} {n : Nat}
    {w : World} (hw : σ.Is w) (h : Takes cfg σ true p a n) : storageCalls cfg p w = n + entrance w.mem := by
  obtain ⟨m', _, _, h3, _, h5⟩ := h w.mem (by rw [← hw.mem]; exact hi.mem)
  have e0 : entrance m' = 0 := by simp [entrance, h3 rfl]
  obtain ⟨s, m⟩ := w
  have hst : σ.store = s := hw.store
  rw [hst] at h5
  simp only at h5 ⊢
  omega

/-! ### queries that do not read text -/

section
variable {α : Type} {cfg : Cfg} {s : Store} {m : Layer}

theorem calls_ref {x : Nat} {k : Nat × Nat → Go α} (h : s.live x = true) :
    storageCalls cfg (Go.getReference x >>= k) ⟨s, m⟩ = 1 + storageCalls cfg (k (s.back x, s.fwd x)) ⟨s, m⟩ := by
  simp only [Go.getReference, Go.call, Bind.bind, Go.bind, storageCalls, Store.step, h, if_true]

theorem calls_targets {x : Nat} {k : List Nat → Go α} (h : s.live x = true) :
    storageCalls cfg (Go.readTargets x >>= k) ⟨s, m⟩ = 1 + storageCalls cfg (k (cfg.ord s (.readTargets x) (s.targets x))) ⟨s, m⟩ := by
  simp only [Go.readTargets, Go.call, Bind.bind, Go.bind, storageCalls, Store.step, h, if_true]

theorem calls_pure {a : α} : storageCalls cfg (pure a : Go α) ⟨s, m⟩ = 0 := rfl

end

section
variable {cfg : Cfg} {lim : Lim} {σ : St} {w : World}

theorem calls_getRemark (hi : Inv cfg lim σ) (hw : σ.Is w) {r} (h : RemEnt σ r) :
    storageCalls cfg (Graph.getRemark r.cls) w = 3 := by
  obtain ⟨s, m⟩ := w
  have hst : σ.store = s := hw.store
  have l1 := (hi.live _).2 (h.chain.ab.tagx hi)
  have l2 := (hi.live _).2 (h.chain.bc.tagx hi)
  have l3 := (hi.live _).2 (h.chain.cd.tagx hi)
  have f1 : σ.store.fwd r.cls = r.detail := h.chain.ab.f
  have f2 : σ.store.fwd r.detail = r.position := h.chain.bc.f
  rw [hst] at l1 l2 l3 f1 f2
  simp only [Graph.getRemark, Remark.readEntityByClass, calls_ref, l1, l2, l3, f1, f2, calls_pure]

theorem calls_hasNextRemark (hi : Inv cfg lim σ) (hw : σ.Is w) {r} (h : RemEnt σ r) :
    storageCalls cfg (Remark.hasNextRemark r) w = 1 := by
  obtain ⟨s, m⟩ := w
  have hst : σ.store = s := hw.store
  have l1 := (hi.live _).2 (h.chain.cd.tagx hi)
  rw [hst] at l1
  simp only [Remark.hasNextRemark, calls_targets, l1, calls_pure]

theorem calls_getFirstFact (hi : Inv cfg lim σ) (hw : σ.Is w) {r r1} (hr : RemEnt σ r) (hb : Belongs σ r (some r1)) :
    storageCalls cfg (Remark.getFirstFact r) w = 14 := by
  obtain ⟨s, m⟩ := w
  have hst : σ.store = s := hw.store
  obtain ⟨f, hT, hf, hr1, hTf, y, hs, h1, h2⟩ := hb
  have l1 := (hi.live _).2 (hr.chain.cd.tagy hi)
  have l2 := (hi.live _).2 (hf.chain.bc.tagx hi)
  have l3 := (hi.live _).2 (hf.chain.cd.tagx hi)
  have l4 := (hi.live _).2 (hf.chain.cd.tagy hi)
  have l5 := (hi.live _).2 (hs.chain.bc.tagx hi)
  have l6 := (hi.live _).2 (hs.chain.cd.tagx hi)
  have l7 := (hi.live _).2 (hr1.chain.cd.tagy hi)
  have l8 := (hi.live _).2 (hr1.chain.cd.tagx hi)
  have l9 := (hi.live _).2 (hr1.chain.bc.tagx hi)
  have t1 : σ.store.targets r.fact = [f.remark] := hT
  have t2 : σ.store.targets f.remark = [r1.fact] := hTf
  have t3 : σ.store.targets f.story = [y.fact] := h1
  have t4 : σ.store.targets y.fact = [f.story] := h2
  have f1 : σ.store.fwd f.remark = f.position := hf.chain.bc.f
  have f2 : σ.store.fwd f.position = f.story := hf.chain.cd.f
  have f3 : σ.store.fwd y.fact = y.position := hs.chain.bc.f
  have b1 : σ.store.back f.story = f.position := hf.chain.cd.b
  have b2 : σ.store.back f.position = f.remark := hf.chain.bc.b
  have b3 : σ.store.back r1.fact = r1.position := hr1.chain.cd.b
  have b4 : σ.store.back r1.position = r1.detail := hr1.chain.bc.b
  rw [hst] at l1 l2 l3 l4 l5 l6 l7 l8 l9 t1 t2 t3 t4 f1 f2 f3 b1 b2 b3 b4
  have ha : ∀ {β : Type} (x : FactE) (k : Nat → Go β), x.story = f.story →
      storageCalls cfg (Fact.targetStoryOrZero ⟨x, true⟩ >>= k) ⟨s, m⟩ = 1 + storageCalls cfg (k y.fact) ⟨s, m⟩ := by
    intro β x k hx
    simp only [Fact.targetStoryOrZero, Fact.getTargetStory, hx, Go.readTargets, Go.call, Bind.bind, Go.bind, Go.attempt,
      storageCalls, Store.step, l4, if_true, t3, ord_one, Pure.pure, Except.toOption, Option.getD]
  simp only [Remark.getFirstFact, Remark.getTargetFact, Fact.fetchByRemark, Fact.readEntityByRemark, Fact.toFirstFact,
    Story.fetchByFact, Story.getTargetFact, Fact.viaStorage, Fact.readEntityByStory, Fact.getFirstRemark,
    Remark.readEntityByFact, bind_assoc, pure_bind, calls_targets, calls_ref, l1, l2, l3, l4, l5, l6, l7, l8, l9,
    t1, t2, t4, f1, f2, f3, b1, b2, b3, b4, ord_one, ha, if_true, calls_pure]

end

theorem Spec.Budget.code {fuel es} (h : Budget fuel es) : ∀ e ∈ es, ∀ t ∈ e.texts, TextOK (codeLim fuel) t :=
  fun e he t ht => TextOK.code (h.2 e he t ht)

theorem Spec.Calm.codes {cfg fuel es} (h : Calm cfg fuel es) (hl : (after cfg fuel es).log ≠ []) :
    ∃ σ, Holds cfg (codeLim fuel) (after cfg fuel es) σ ∧ Clean σ :=
  (calm_events (.inl h.dup) h.budget.fits.code es (.init cfg _) h.calm h.budget.code).holds hl

theorem Spec.Stormy.codes {cfg fuel es es'} (hz : cfg.zero = false) (h : Stormy cfg fuel es es') :
    ∃ σ, Holds cfg (codeLim fuel) (after cfg fuel (es ++ es')) σ := by
  obtain ⟨σ, hs, _⟩ := h.start.codes h.log
  obtain ⟨σ', h1, _⟩ := storm_events hz h.start.budget.fits.code es' hs h.log h.budget.code
  exact ⟨σ', by rw [after_append]; exact h1⟩

theorem Holds.costs {cfg : Cfg} {fuel : Nat} {st : State} {σ : St} (h : Holds cfg (codeLim fuel) st σ) (hf : 31 ≤ fuel)
    {e : Entry} (he : e ∈ st.log) : Costs cfg fuel st.log st.world e := by
  have hi := h.inv
  have hk := h.keeps.ok e he
  have op : ∀ e', e.opener.bind (st.log[·]?) = some e' → Belongs σ e.handle (some e'.handle) ∧ e' ∈ st.log := by
    intro e' h'
    have hfact := hk.fact
    cases ho : e.opener with
    | none => rw [ho] at h'; cases h'
    | some i =>
      rw [ho] at h' hfact
      obtain ⟨e'', h1, h2⟩ := hfact
      have : e'' = e' := Option.some.inj (h1.symm.trans h')
      subst this
      exact ⟨h2, List.mem_of_getElem? h1⟩
  refine ⟨?_, calls_getRemark hi h.is hk.ent, calls_hasNextRemark hi h.is hk.ent,
    fun e' h' => calls_getFirstFact hi h.is hk.ent (op e' h').1, fun e' h' => ?_⟩
  · have := (Takes.remarkText hi hf hk.ent hk.says).cost hi h.is
    rw [phraseBulk_words, phraseBulk_words] at this
    exact this
  · obtain ⟨hb, hm⟩ := op e' h'
    have hk' := h.keeps.ok e' hm
    have := (Takes.getStory hi hf hk.ent hb hk'.ent hk'.says).cost hi h.is
    rw [phraseBulk_words, phraseBulk_words] at this
    exact this

/-! ### in bytes -/

theorem rune_width (b : UInt8) (t : List UInt8) :
    1 + binaryLength (decodeRune (b :: t)).1.toNat ≤ 17 * (decodeRune (b :: t)).2 := by
  have hp := decodeRune_pos b t
  have h0 := (validRune_iff.1 (decodeRune_valid b t)).1
  have hb : binaryLength (decodeRune (b :: t)).1.toNat = (bitsOf (decodeRune (b :: t)).1).length := by
    rw [← bitsOf_len, Int.toNat_of_nonneg h0]
  rw [hb]
  rcases decodeRune_size b t with h | ⟨h, hw⟩
  · have := bitsOf_length h (by decide)
    omega
  · have := bitsOf_length h (by decide)
    omega

theorem bulk_join : ∀ ws : List GoStr, (ws.map (fun w => 1 + ((runesOf w).map (fun r => 1 + binaryLength r.toNat)).sum)).sum ≤
    17 * (joinSpace ws).length + 1 := by
  intro ws
  induction ws with
  | nil => exact Nat.zero_le _
  | cons w ws ih =>
    have hw : ((runesOf w).map (fun r => 1 + binaryLength r.toNat)).sum ≤ 17 * w.length :=
      runes_sum _ 17 rune_width _ w (Nat.le_refl _)
    rw [List.map_cons, List.sum_cons]
    cases ws with
    | nil =>
      simp only [joinSpace, List.map_nil, List.sum_nil]
      omega
    | cons v ws =>
      rw [joinSpace_cons w (by simp), List.length_append, List.length_cons]
      omega

theorem bulk_le (t : GoStr) : bulk t ≤ 17 * t.length + 1 := by
  have := bulk_join (splitSpace t)
  rw [join_split] at this
  exact this

end Semnet
