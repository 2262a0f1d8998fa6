import Verif.Proof.LexRel
/-
  Providing characters.
-/
set_option linter.unusedSimpArgs false
namespace Semnet
open Class

theorem Wr.bitProvide {C : Ctx} (hR : C.R = false) {σ : St} (hi : Inv C.cfg C.lim σ)
    (hB : C.F = true → σ.bits ≠ none) (v : Bool) {bad} :
    Wr C (fun b σ' => (∃ bs, σ'.bits = some bs ∧ b = bitEnt bs v) ∧ Froz σ σ') bad (Bit.provide v) σ := by
  unfold Bit.provide
  refine Wr.bind (Wr.bitInit hR hi hB) ?_
  intro bs σ1 h1 ⟨hb, hz⟩
  exact Wr.ret h1.inv ⟨⟨bs, hb, rfl⟩, hz⟩

/-! ### the search among the continuations -/

theorem Rd.charReadAll {C : Ctx} : ∀ (ids : List Nat) {σ : St} (_ : Inv C.cfg C.lim σ) {p : List Bool}
    (_ : ∀ i ∈ ids, ∃ v e', CharEnt σ (p ++ [v]) e' ∧ e'.character = i),
    Rd C (fun cs => cs.map (·.character) = ids ∧ ∀ c ∈ cs, ∃ v, CharEnt σ (p ++ [v]) c)
      (Character.readAll ids) σ := by
  intro ids
  induction ids with
  | nil => intro σ hi p _; exact Rd.ret hi ⟨rfl, by simp⟩
  | cons i is ih =>
    intro σ hi p h
    unfold Character.readAll
    obtain ⟨v, e', he', hc⟩ := h i (by simp)
    subst hc
    refine Rd.bind (Rd.charByCharacter hi he') ?_
    intro a σ1 h1 _ ha; subst ha
    refine Rd.bind (good := fun cs => cs.map (·.character) = is ∧ ∀ c ∈ cs, ∃ v, CharEnt σ (p ++ [v]) c) ?_ ?_
    · refine Rd.cons (ih h1.inv (p := p) ?_) ?_
      · intro i hi'
        obtain ⟨v, e', h2, h3⟩ := h i (by simp [hi'])
        exact ⟨v, e', h2.mono h1.mono, h3⟩
      · intro cs ⟨h2, h3⟩
        refine ⟨h2, ?_⟩
        intro c hc
        have hm : c.character ∈ is := by rw [← h2]; exact List.mem_map_of_mem hc
        obtain ⟨v, e', h4, h5⟩ := h c.character (by simp [hm])
        obtain ⟨v', h6⟩ := h3 c hc
        have := h6.ext (h4.mono h1.mono) h5.symm
        subst this
        exact ⟨v, h4⟩
    · intro cs σ2 h2 _ ⟨h3, h4⟩
      refine Rd.ret h2.inv ⟨by simp [h3], ?_⟩
      intro c hc
      rcases List.mem_cons.1 hc with rfl | hc
      · exact ⟨v, he'⟩
      · exact h4 c hc

theorem Rd.charSearch {C : Ctx} (b : Bool) : ∀ (cs : List CharE) {σ : St} (_ : Inv C.cfg C.lim σ) {p : List Bool}
    (_ : ∀ c ∈ cs, ∃ v, CharEnt σ (p ++ [v]) c),
    Rd C (fun o => match o with
      | some c => c ∈ cs ∧ CharEnt σ (p ++ [b]) c
      | none => ∀ c ∈ cs, ¬ CharEnt σ (p ++ [b]) c)
      (Character.search b cs) σ := by
  intro cs
  induction cs with
  | nil => intro σ hi p _; exact Rd.ret hi (by simp)
  | cons c cs ih =>
    intro σ hi p h
    unfold Character.search
    obtain ⟨v, hc⟩ := h c (by simp)
    obtain ⟨q, v', bs, hq, hb⟩ := hc.base
    have hv : v = v' := by simp at hq; exact hq.2
    subst hv
    refine Rd.bind (Rd.getTargetBit hi hb) ?_
    intro a σ1 h1 _ ha; subst ha
    refine Rd.bind (Rd.bitFetch h1.inv (h1.mono.bits _ hb.bits) v) ?_
    intro a σ2 h2 _ ha
    rw [ha]
    have h12 := h1.trans h2
    by_cases hbv : b = v
    · rw [if_pos hbv]; subst hbv
      exact Rd.ret h2.inv ⟨by simp, hc⟩
    · rw [if_neg hbv]
      refine Rd.cons (ih h2.inv (p := p) ?_) ?_
      · intro c' hc'
        obtain ⟨v', h'⟩ := h c' (by simp [hc'])
        exact ⟨v', h'.mono h12.mono⟩
      · intro o ho
        cases o with
        | some c' =>
          refine ⟨by simp [ho.1], ?_⟩
          obtain ⟨v', h'⟩ := h c' (by simp [ho.1])
          have := (h'.mono h12.mono).path_eq ho.2
          rw [← this]; exact h'
        | none =>
          intro c' hc' hbad
          rcases List.mem_cons.1 hc' with rfl | hc'
          · have := hc.path_eq hbad
            simp at this
            exact hbv this.symm
          · exact ho c' hc' (hbad.mono h12.mono)

/-! ### creating -/

theorem charTags {lim : Lim} {p : List Bool} (hp : lim.path p) (hn : p ≠ []) :
    EntTags lim .chB (.chC p) .chW := by
  constructor <;> first | rfl | (constructor <;> simp [TagOK, hp, hn]) | simp

theorem char_newEnt (f : CharE → Go α) :
    (do let cls ← Class.createNode characterId; let e ← Character.createEntity cls; f e) =
    (newEnt characterId >>= fun r => f ⟨r.1, r.2.1, r.2.2.1, r.2.2.2⟩) := by
  simp only [newEnt, mk4, Character.createEntity, bind_assoc, pure_bind]

/-- connecting a new character to its bit -/
theorem Wr.toBit {C : Ctx} (hR : C.R = false) {σ : St} (hi : Inv C.cfg C.lim σ) {bs} (hb : σ.bits = some bs)
    {v : Bool} {a : Nat} (ta : σ.tag a = .chB) (Ta : σ.T a = []) (ha : a ≠ 0) {bad} :
    Wr C (fun _ σ' => ∃ c, σ' = σ.conn c a (bitNode bs v)) bad (Go.connect a (bitNode bs v)) σ := by
  have tv := (getD_bits hi hb).tag v
  refine Wr.connect hR hi ?_ ?_ ?_ ?_ ha ?_
  · constructor
    · intro h; have := mem_T.2 h; rw [Ta] at this; cases this
    · intro _; exact Ta
    · rw [ta]; rfl
    · rw [tv]; simp [Tag.scrit]
    · rw [tv]; rfl
    · rw [tv]; simp
    · rw [ta]; simp
    · intro h; rw [h, (hi.root bitId).2 (by decide)] at tv; cases tv
  · simp only [EdgeOK, tag_conn, ta, tv]
  · rw [ta]; simp
  · rw [tv]; simp
  · rw [ta]; simp

/-- a new character that is connected to its bit only -/
structure CharPre (σ : St) (bs : BitE × BitE) (p : List Bool) (v : Bool) (e : CharE) : Prop where
  base : CharBase σ e p v bs
  S : σ.S e.character = []

theorem Chain.same {σ σ' : St} (h : Same σ σ') {a b c d} (hc : Chain σ a b c d) : Chain σ' a b c d := hc.mono h.mono

theorem CharPre.same {σ σ' : St} (h : Same σ σ') {bs p v e} (hc : CharPre σ bs p v e) : CharPre σ' bs p v e :=
  ⟨hc.base.mono h.mono, by rw [h.S]; exact hc.S⟩

theorem CharBase.conn {cfg : Cfg} {σ : St} {x y : Nat} {bs p v e} (h : CharBase σ e p v bs) (hx : e.bit ≠ x) :
    CharBase (σ.conn cfg x y) e p v bs where
  chain := ⟨⟨h.chain.ab.f, h.chain.ab.b, h.chain.ab.hx, h.chain.ab.hy⟩,
          ⟨h.chain.bc.f, h.chain.bc.b, h.chain.bc.hx, h.chain.bc.hy⟩,
          ⟨h.chain.cd.f, h.chain.cd.b, h.chain.cd.hx, h.chain.cd.hy⟩⟩
  tb := h.tb
  tc := h.tc
  tw := h.tw
  bits := h.bits
  Tb := by rw [T_conn, if_neg hx]; exact h.Tb

/-- new character nodes, connected to the bit -/
theorem Wr.charPre {C : Ctx} (hR : C.R = false) {σ : St} (hi : Inv C.cfg C.lim σ) {bs} (hb : σ.bits = some bs)
    {v : Bool} {p : List Bool} (hp : C.lim.path p) (hpn : p ≠ []) {bad} :
    Wr C (fun e σ' => CharPre σ' bs p v e ∧ (∀ x, σ.tag x ≠ .none → σ'.T x = σ.T x) ∧
        σ.tag e.character = .none ∧ Froz σ σ')
      bad (do
        let cls ← Class.createNode characterId
        let e ← Character.createEntity cls
        Go.connect e.bit (bitNode bs v)
        pure e) σ := by
  rw [char_newEnt]
  refine Wr.bind (Wr.newEnt hR hi (by decide) (charTags hp hpn) (.character _)) ?_
  intro r σ2 h2 hn
  obtain ⟨n, a, b, c⟩ := r
  simp only at hn ⊢
  have hb2 : σ2.bits = some bs := by rw [hn.bits, hb]
  have tv2 := (getD_bits h2.inv hb2).tag v
  refine Wr.bind (Wr.toBit hR h2.inv hb2 (v := v) hn.ta hn.Ta hn.chain.ab.hy) ?_
  intro _ σ3 h3 ⟨c', e3⟩
  subst e3
  refine Wr.ret h3.inv ⟨⟨⟨?_, hn.ta, hn.tb, hn.tc, hb2, ?_⟩, ?_⟩, ?_, hn.fb,
    hn.froz.trans h2.inv h2.mono h3.mono (.conn (by rw [hn.ta]; rfl))⟩
  · exact hn.chain.mono h3.mono
  · rw [T_conn, if_pos rfl, hn.Ta]
  · rw [S_conn, if_neg]
    · exact hn.Sb
    · intro e; have := hn.tb; rw [show b = _ from e, tv2] at this; cases this
  · intro x hx
    rw [T_conn, if_neg, hn.frT x hx]
    intro e; rw [e, hn.fa] at hx; exact hx rfl

/-- new nodes, then one edge -/
theorem At.of {cfg lim} {a b c : St} {x : Nat} (hb : Inv cfg lim b) (m : Mono a b) (m' : Mono b c) (h : Froz a b)
    (h' : ∀ z, z ≠ x → c.T z = b.T z) : At a c x := by
  intro z hz hx
  rw [h' z hx]
  by_cases ht : b.tag z = .none
  · rw [hb.Tnone ht]
    symm
    apply List.eq_nil_iff_forall_not_mem.2
    intro y hy
    have := mem_T.2 (m.edges _ _ (mem_T.1 hy))
    rw [hb.Tnone ht] at this
    cases this
  · rw [m'.tag z ht] at hz
    exact h z hz

theorem Wr.headLink {C : Ctx} (hR : C.R = false) (hL : C.lo = true) {σ : St} (hi : Inv C.cfg C.lim σ) {bs v e}
    (h : CharPre σ bs [v] v e) (hT : σ.T (bitNode bs v) = []) {bad} :
    Wr C (fun _ σ' => CharEnt σ' [v] e ∧ ∀ x, x ≠ bitNode bs v → σ'.T x = σ.T x) bad
      (Bit.pointToCharacter (bitEnt bs v) e.bit) σ := by
  unfold Bit.pointToCharacter
  rw [(getD_bits hi h.base.bits).used v]
  simp only [bitEnt_character]
  have tv := (getD_bits hi h.base.bits).tag v
  refine Wr.rbind hR (good := (· = [])) (Rd.targets hi ?_ ?_) ?_
  · rw [tv]; simp
  · intro σ4 l h4 ro hl
    rw [(ro hR).T, hT] at hl
    exact perm_nil' hl
  intro l σ1 h1 hs hl; subst hl
  have h' := h.same hs
  have hT' : σ1.T (bitNode bs v) = [] := by rw [hs.T, hT]
  have tv' := (getD_bits h1.inv h'.base.bits).tag v
  have nab : e.bit ≠ bitNode bs v := by
    intro he; have := h'.base.tb; rw [he, tv'] at this; cases this
  have ent : CharEnt (σ1.conn C.cfg (bitNode bs v) e.bit) [v] e := by
    refine .head (bs := bs) (h'.base.conn nab) ?_ ?_ tv'
    · rw [S_conn, if_neg]
      · exact h'.S
      · intro he; have := h'.base.tc; rw [he, h'.base.tb] at this; cases this
    · rw [T_conn, if_pos rfl, hT']
  refine Wr.cons (Wr.connect hR h1.inv ?_ ?_ ?_ ?_ ((getD_bits h1.inv h'.base.bits).ne0 v) ?_) ?_ (fun _ _ _ h => h)
  · constructor
    · intro h; have := mem_T.2 h; rw [hT'] at this; cases this
    · intro _; exact hT'
    · rw [tv']; rfl
    · rw [h'.base.tb]; simp [Tag.scrit]
    · rw [h'.base.tb]; rfl
    · rw [h'.base.tb]; simp
    · rw [tv']; simp
    · intro hh; have := h'.base.tb; rw [hh, (h1.inv.root bitId).2 (by decide)] at this; cases this
  · simp only [EdgeOK, tag_conn, tv', h'.base.tb]
    exact ⟨e, ent, rfl⟩
  · rw [tv']; simp
  · rw [h'.base.tb]; simp
  · rw [tv']; simp [hL]
  · intro _ σ2 _ ⟨c', e2⟩; subst e2
    exact ⟨ent.mono (.conn_conn _ c' _ _ _), fun x hx => by rw [T_conn, if_neg hx, hs.T]⟩

theorem Wr.tailLink {C : Ctx} (hR : C.R = false) (hL : C.lo = true) {σ : St} (hi : Inv C.cfg C.lim σ) {bs p v e prev}
    (h : CharPre σ bs (p ++ [v]) v e) (hprev : CharEnt σ p prev)
    (hno : ∀ y ∈ σ.T prev.character, σ.tag y ≠ .chC (p ++ [v])) {bad} :
    Wr C (fun _ σ' => CharEnt σ' (p ++ [v]) e ∧ σ'.T prev.character = e.character :: σ.T prev.character ∧
      ∀ x, x ≠ prev.character → σ'.T x = σ.T x) bad (Go.connect prev.character e.character) σ := by
  have tv := (getD_bits hi h.base.bits).tag v
  have hne : p ≠ [] := hprev.ne_nil
  have c : ConnOK σ prev.character e.character := by
    constructor
    · intro h'; have := mem_S.2 h'; rw [h.S] at this; cases this
    · rw [hprev.tagC]; simp [Tag.tcrit]
    · rw [hprev.tagC]; rfl
    · intro _; exact h.S
    · rw [h.base.tc]
      match p, hne with
      | a :: q, _ => cases q <;> rfl
    · intro y' q h1 h2 h3
      rw [h.base.tc] at h2
      injection h2 with h2
      rw [← h2] at h3
      exact hno y' (mem_T.2 h1) h3
    · rw [hprev.tagC]; simp
    · intro hh; have := h.base.tc; rw [hh, (hi.root bitId).2 (by decide)] at this; cases this
  have hm := Mono.conn (cfg := C.cfg) c
  have ent : CharEnt (σ.conn C.cfg prev.character e.character) (p ++ [v]) e := by
    refine .tail (hprev.mono hm) (h.base.conn ?_) ?_ tv
    · intro he; have := h.base.tb; rw [he, hprev.tagC] at this; cases this
    · rw [S_conn, if_pos rfl, h.S]
  refine Wr.cons (Wr.connect hR hi c ?_ ?_ ?_ hprev.chain.cd.hx ?_) ?_ (fun _ _ _ h => h)
  · simp only [EdgeOK, tag_conn, hprev.tagC, h.base.tc]
    exact ⟨p, v, prev, e, hprev.mono hm, rfl, ent, rfl⟩
  · rw [hprev.tagC]; simp
  · rw [h.base.tc]; simp
  · rw [hprev.tagC]; simp [hL]
  · intro _ σ2 _ ⟨c', e2⟩; subst e2
    exact ⟨ent.mono (.conn_conn _ c' _ _ _), by rw [T_conn, if_pos rfl], fun x hx => by rw [T_conn, if_neg hx]⟩

theorem Wr.charHead {C : Ctx} (hR : C.R = false) (hL : C.lo = true) {σ : St} (hi : Inv C.cfg C.lim σ) {bs} (hb : σ.bits = some bs)
    {v : Bool} (hp : C.lim.path [v]) {bad} :
    Wr C (fun e σ' => CharEnt σ' [v] e ∧ CharStep σ σ' [v]) bad (Character.provideHeadEntity (bitEnt bs v)) σ := by
  unfold Character.provideHeadEntity
  have ok := getD_bits hi hb
  have tv := ok.tag v
  have tlen := hi.tcrit (bitNode bs v) (by rw [tv]; rfl)
  match hT : σ.T (bitNode bs v), tlen with
  | [], _ =>
    refine Wr.rbind hR (good := (· = false)) ?_ ?_
    · unfold Bit.hasTargetCharacter
      rw [ok.used v]
      refine Rd.bind (good := (· = [])) (Rd.targets hi ?_ ?_) ?_
      · rw [bitEnt_character, tv]; simp
      · intro σ1 l h1 ro hl
        rw [(ro hR).T, bitEnt_character, hT] at hl
        exact perm_nil' hl
      · intro a σ1 h1 _ ha; subst ha
        exact Rd.ret h1.inv rfl
    intro a σ1 h1 hs ha; subst ha
    have hT1 : σ1.T (bitNode bs v) = [] := by rw [hs.T, hT]
    have hb1 : σ1.bits = some bs := by rw [hs.bits, hb]
    simp only [Bool.false_eq_true, if_false, bitEnt_character]
    have := Wr.charPre hR h1.inv hb1 (v := v) hp (by simp) (bad := bad)
    have := Wr.bind this (good' := fun e σ' => CharEnt σ' [v] e ∧ CharStep σ σ' [v])
      (f := fun e => do Bit.pointToCharacter (bitEnt bs v) e.bit; pure e) ?_
    · simpa only [bind_assoc, pure_bind] using this
    · intro e σ2 h2 ⟨hpre, hfr, hnc, hz⟩
      refine Wr.bind (Wr.headLink hR hL h2.inv hpre ?_) ?_
      · rw [hfr _ (by rw [(getD_bits h1.inv hb1).tag v]; simp), hT1]
      · intro _ σ3 h3 ⟨he, hfr3⟩
        exact Wr.ret h3.inv ⟨he, .sameL hs (.head h1.inv h3.inv (h2.trans h3).mono hb1
          (.of h2.inv h2.mono h3.mono hz hfr3) he hnc)⟩
  | [y], _ =>
    obtain ⟨e, he, hy⟩ := hi.bitHead hb (v := v) (y := y) (by rw [hT]; simp)
    refine Wr.rbind hR (good := (· = true)) ?_ ?_
    · unfold Bit.hasTargetCharacter
      rw [ok.used v]
      rw [bitEnt_character]
      refine Rd.bind (Rd.targets1 hi tv rfl hT) ?_
      intro a σ1 h1 _ ha; subst ha
      exact Rd.ret h1.inv rfl
    intro a σ1 h1 hs ha; subst ha
    simp only [if_true]
    refine Wr.rbind hR (good := (· = y)) ?_ ?_
    · unfold Bit.getTargetCharacter
      rw [ok.used v]
      rw [bitEnt_character]
      refine Rd.bind (Rd.targets1 h1.inv (h1.mono.tagEq tv (by simp)) rfl
        (h1.mono.Teq tv rfl hT (by simp))) ?_
      intro a σ1 h1 _ ha; subst ha
      exact Rd.ret h1.inv rfl
    intro a σ2 h2 hs2 ha; subst ha
    have h12 := h1.trans h2
    subst hy
    refine ((Rd.charByBit h2.inv (he.mono h12.mono)).wr hR).cons ?_ (fun _ _ _ h => h)
    intro a σ3 h3 ⟨hs3, ha⟩
    subst ha
    exact ⟨he.mono (h12.trans h3).mono, .same ((hs.trans hs2).trans hs3) ⟨_, he⟩⟩

theorem Wr.charTail {C : Ctx} (hR : C.R = false) (hL : C.lo = true) {σ : St} (hi : Inv C.cfg C.lim σ) {bs} (hb : σ.bits = some bs)
    {v : Bool} {p prev} (hprev : CharEnt σ p prev) (hp : C.lim.path (p ++ [v]))
    (hno : ∀ c, c.character ∈ σ.T prev.character → ¬ CharEnt σ (p ++ [v]) c) {bad} :
    Wr C (fun e σ' => CharEnt σ' (p ++ [v]) e ∧ CharStep σ σ' (p ++ [v])) bad
      (Character.createTailEntity (bitEnt bs v) prev) σ := by
  unfold Character.createTailEntity
  simp only [bitEnt_character]
  have := Wr.charPre hR hi hb (v := v) hp (by simp) (bad := bad)
  have := Wr.bind this (good' := fun e σ' => CharEnt σ' (p ++ [v]) e ∧ CharStep σ σ' (p ++ [v]))
    (f := fun e => do Go.connect prev.character e.character; pure e) ?_
  · simpa only [bind_assoc, pure_bind] using this
  · intro e σ2 h2 ⟨hpre, hfr, hnc, hz⟩
    refine Wr.bind (Wr.tailLink hR hL h2.inv hpre (hprev.mono h2.mono) ?_) ?_
    · intro y hy ht
      rw [hfr _ (by rw [hprev.tagC]; simp)] at hy
      obtain ⟨v', e', he', hc⟩ := hi.charChild hprev hy
      subst hc
      have := (he'.mono h2.mono).tagC
      rw [ht] at this
      injection this with this
      rw [← this] at he'
      exact hno e' hy he'
    · intro _ σ3 h3 ⟨he, hTp, hfr3⟩
      refine Wr.ret h3.inv ⟨he, .tail hi (h2.trans h3).mono hprev (.of h2.inv h2.mono h3.mono hz hfr3) ?_ he hnc⟩
      rw [hTp, hfr _ (by rw [hprev.tagC]; simp)]

/-- one step down the trie -/
theorem Wr.charNext {C : Ctx} (hR : C.R = false) (hL : C.lo = true) {σ : St} (hi : Inv C.cfg C.lim σ) {v : Bool} {p e}
    (he : CharEnt σ p e) (hp : C.lim.path (p ++ [v])) {bad} :
    Wr C (fun el σ' => (∃ c, el = ⟨some c⟩ ∧ CharEnt σ' (p ++ [v]) c) ∧ CharStep σ σ' (p ++ [v])) bad
      (Character.provideNextElement ⟨some e⟩ v) σ := by
  unfold Character.provideNextElement
  refine Wr.rbind hR (good := (· = e)) (Rd.ret hi rfl) ?_
  intro a σ1 h1 hs1 ha; subst ha
  refine Wr.rbind hR (good := fun l => l.Perm (σ.T a.character)) (Rd.targets h1.inv ?_ ?_) ?_
  · rw [(he.mono h1.mono).tagC]; simp
  · intro σ2 l h2 ro hl
    rw [(ro hR).T, hs1.T] at hl; exact hl
  intro ids σ2 h2 hs2 hids
  have s12 := hs1.trans hs2
  have h12 := h1.trans h2
  refine Wr.rbind hR (Rd.charReadAll ids h2.inv (p := p) ?_) ?_
  · intro i hi'
    refine h2.inv.charChild (he.mono h12.mono) ?_
    rw [s12.T]; exact hids.mem_iff.1 hi'
  intro cs σ3 h3 hs3 ⟨hcs, hent⟩
  have s13 := s12.trans hs3
  have h13 := h12.trans h3
  refine Wr.rbind hR (Rd.charSearch v cs h3.inv (p := p) ?_) ?_
  · intro c hc
    obtain ⟨v', h'⟩ := hent c hc
    exact ⟨v', h'.mono h3.mono⟩
  intro o σ4 h4 hs4 ho
  have s14 := s13.trans hs4
  have h14 := h13.trans h4
  cases o with
  | some c =>
    exact Wr.ret h4.inv ⟨⟨c, rfl, ho.2.mono h4.mono⟩, .same s14 ⟨c, s13.symm.charEnt ho.2⟩⟩
  | none =>
    refine Wr.rbind hR (Rd.provideEntity h4.inv) ?_
    intro _ σ5 h5 hs5 _
    have s15 := s14.trans hs5
    have h15 := h14.trans h5
    have he5 := he.mono h15.mono
    obtain ⟨bs, hb5⟩ := he5.bits
    refine Wr.rbind hR (Rd.bitProvide h5.inv hb5 v) ?_
    intro b σ6 h6 hs6 hb; subst hb
    have h16 := h15.trans h6
    have s16 := s15.trans hs6
    refine Wr.bind (Wr.charTail hR hL h6.inv (h6.mono.bits _ hb5) (he.mono h16.mono) hp ?_) ?_
    · intro c hc hce
      rw [s16.T] at hc
      have hc' : c.character ∈ cs.map (·.character) := by rw [hcs]; exact hids.mem_iff.2 hc
      obtain ⟨c', hc'm, hc'e⟩ := List.mem_map.1 hc'
      obtain ⟨v', h'⟩ := hent c' hc'm
      have s26 := ((hs3.trans hs4).trans hs5).trans hs6
      have h'6 := s26.charEnt h'
      have := h'6.ext hce hc'e
      subst this
      have hs36 := (hs4.trans hs5).trans hs6
      exact ho c' hc'm (hs36.symm.charEnt hce)
    · intro c σ7 h7 ⟨hc, hst⟩
      exact Wr.ret h7.inv ⟨⟨c, rfl, hc⟩, .sameL s16 hst⟩

theorem Wr.charFirst {C : Ctx} (hR : C.R = false) (hL : C.lo = true) {σ : St} (hi : Inv C.cfg C.lim σ)
    (hB : C.F = true → σ.bits ≠ none) {v : Bool} (hp : C.lim.path [v]) {bad} :
    WrL C (fun el σ' => match el.character with
      | some c => CharEnt σ' [v] c ∧ σ'.flt = σ.flt ∧ CharStep σ σ' [v]
      | none => σ'.flt = true) bad (Character.provideFirstElement v) σ := by
  unfold Character.provideFirstElement
  refine WrL.bind (Wr.bitProvide hR hi hB v) ?_
  intro b σ1 h1 ⟨⟨⟨bs, hb1, hb⟩, hz⟩, hfl1⟩; subst hb
  refine WrL.bind ((Rd.provideEntity h1.inv).wr hR) ?_
  intro _ σ2 h2 ⟨⟨hs2, _⟩, hfl2⟩
  have hb2 : σ2.bits = some bs := by rw [hs2.bits, hb1]
  refine wp_bind (wp_attempt (wp_mono ?_ (Wr.charHead hR hL h2.inv hb2 hp (bad := never))))
  intro o σ3 ⟨h3, h4⟩
  cases o with
  | ok e => exact ⟨h3, h4.1.1, h4.2.trans (hfl2.trans hfl1),
      .trans h1.inv h1.mono (h2.trans h3).mono (.froz hi h1.mono hz) (.sameL hs2 h4.1.2) (List.nil_prefix)⟩
  | err e => exact ⟨h3, h4.elim id (fun h => h.elim)⟩
  | panic => exact ⟨h3, h4.imp id (fun h => h.elim)⟩
  | spin => exact h4.elim

/-- all bit strings on the way are allowed -/
def PathOK (lim : Lim) (path : List Bool) : Prop := ∀ q, q ≠ [] → q <+: path → lim.path q

theorem Wr.charWalk {C : Ctx} (hR : C.R = false) (hL : C.lo = true) (f0 : Bool) (σ0 : St) : ∀ (bs : List Bool) {σ : St} (_ : Inv C.cfg C.lim σ)
    (_ : Mono σ0 σ) {p}
    {el : Option CharElem} (_ : match el with
      | some ⟨some e⟩ => CharEnt σ p e ∧ σ.flt = f0 ∧ CharStep σ0 σ p
      | _ => σ.flt = true) (_ : p ≠ []) (_ : PathOK C.lim (p ++ bs)) {bad},
    WrL C (fun (el' : Option CharElem) σ' => match el' with
      | some ⟨some e⟩ => CharEnt σ' (p ++ bs) e ∧ σ'.flt = f0 ∧ CharStep σ0 σ' (p ++ bs)
      | _ => σ'.flt = true) bad (Character.walk el bs) σ := by
  intro bs
  induction bs with
  | nil =>
    intro σ hi m0 p el hel hp hpath bad
    unfold Character.walk
    refine WrL.ret hi ?_
    simpa using hel
  | cons b bs ih =>
    intro σ hi m0 p el hel hp hpath bad
    unfold Character.walk
    match el, hel with
    | none, hf => exact ⟨.refl hi, .inl hf⟩
    | some ⟨none⟩, hf => exact ⟨.refl hi, .inl hf⟩
    | some ⟨some e⟩, ⟨he, hfl0, hst⟩ =>
      refine WrL.bind ((Rd.ret (good := (· = ⟨some e⟩)) hi rfl).wr hR) ?_
      intro a σ1 h1 ⟨⟨hs1, ha⟩, hfl1⟩; subst ha
      have hpb : C.lim.path (p ++ [b]) := hpath _ (by simp) ⟨bs, by simp⟩
      have key := Wr.charNext hR hL h1.inv (he.mono h1.mono) hpb (bad := never)
      refine wp_bind (wp_attempt (wp_mono ?_ key))
      intro o σ2 ⟨h3, h4⟩
      have fin : ∀ (r : Option CharElem), (match r with
          | some ⟨some e⟩ => CharEnt σ2 (p ++ [b]) e ∧ σ2.flt = f0 ∧ CharStep σ0 σ2 (p ++ [b])
          | _ => σ2.flt = true) → wp C (WPost C σ1 (fun (el' : Option CharElem) σ' => match el' with
          | some ⟨some e⟩ => CharEnt σ' (p ++ b :: bs) e ∧ σ'.flt = f0 ∧ CharStep σ0 σ' (p ++ b :: bs)
          | _ => σ'.flt = true) bad) (Character.walk r bs) σ2 := by
        intro r hr
        have := ih h3.inv ((m0.trans h1.mono).trans h3.mono) (p := p ++ [b]) (el := r) hr (by simp) (by simpa using hpath) (bad := bad)
        refine wp_mono ?_ this
        intro o' σ3 ⟨h5, h6⟩
        refine ⟨h3.trans h5, ?_⟩
        simpa using h6
      cases o with
      | ok el2 =>
        obtain ⟨⟨⟨c, rfl, hc⟩, hst2⟩, hfl⟩ := h4
        exact fin (some ⟨some c⟩) ⟨hc, hfl.trans (hfl1.trans hfl0),
          .trans h1.inv (m0.trans h1.mono) h3.mono (hst.sameR hs1) hst2 (List.prefix_append _ _)⟩
      | err e => exact fin none (h4.elim id (fun h => h.elim))
      | panic => exact ⟨h3, h4.imp id (fun h => h.elim)⟩
      | spin => exact h4.elim

theorem Wr.charProvide {C : Ctx} (hR : C.R = false) (hL : C.lo = true) {σ : St} (hi : Inv C.cfg C.lim σ)
    (hB : C.F = true → σ.bits ≠ none) {r : Rune} {path : List Bool} (hc : Character.collect r = .ok path)
    (hne : path ≠ []) (hp : PathOK C.lim path) {bad} :
    WrL C (fun a σ' => match a.character with
      | some e => CharEnt σ' path e ∧ σ'.flt = σ.flt ∧ CharStep σ σ' path
      | none => σ'.flt = true) bad (Character.provide r) σ := by
  unfold Character.provide
  rw [hc]
  match path, hne with
  | b :: bs, _ =>
    refine WrL.bind (Wr.charFirst hR hL hi hB (v := b) (hp [b] (by simp) ⟨bs, rfl⟩)) ?_
    intro el σ1 h1 hel
    refine WrL.bind (Wr.charWalk hR hL σ.flt σ bs h1.inv h1.mono (p := [b]) (el := some el) ?_ (by simp) (by simpa using hp)) ?_
    · obtain ⟨c⟩ := el
      cases c with
      | none => exact hel
      | some e => exact hel
    intro el2 σ2 h2 hel2
    match el2, hel2 with
    | none, hf => exact ⟨.refl h2.inv, .inl hf⟩
    | some ⟨none⟩, hf => exact ⟨.refl h2.inv, hf⟩
    | some ⟨some e⟩, he => exact ⟨.refl h2.inv, he⟩

end Semnet
