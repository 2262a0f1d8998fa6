import Verif.Proof.Known
import Verif.Proof.Final
import Verif.Spec.Found
/-
  What has been written is found, as long as its first characters are known.
-/
set_option linter.unusedSimpArgs false
namespace Semnet
open Class Spec

/-! ### looking up what is there -/

section
variable {cfg : Cfg} {lim : Lim} {σ : St} {bs : BitE × BitE} (G : Ground cfg lim σ bs)

theorem Known.attempt {α : Type} {p : Go α} {a : α} (h : Known cfg lim σ (some (.ok a)) p) :
    Known cfg lim σ (some (.ok (.ok a))) p.attempt := fun g hg m hm => by
  obtain ⟨m1, hm1, hl⟩ := h g hg m hm
  exact ⟨m1, hm1, by rw [Race.looks_attempt, hl]⟩

include G

theorem Known.sure {α : Type} {x : α} {p : Go α} (hq : Quiet p)
    (hr : ∀ m, Inv cfg lim (σ.seen m) → Rd (calmCtx cfg lim) (· = x) p (σ.seen m)) : Known cfg lim σ (some (.ok x)) p := by
  intro g hg m hm
  obtain ⟨a, m1, ha, hm1, hl⟩ := G.ask hq hr hg hm
  subst ha
  exact ⟨m1, hm1, hl⟩

theorem Known.classes : Known cfg lim σ (some (.ok ())) Class.provideEntity :=
  Known.sure G .classes fun _ hm => (Rd.provideEntity hm).cons fun _ _ => rfl

/-- the one target -/
theorem Known.single {x y : Nat} (hx : σ.tag x ≠ .none) (hT : (σ.T x) = [y]) {β : Type} {r : Option (Out β)}
    {f : List Nat → Go β} (h : Known cfg lim σ r (f [y])) : Known cfg lim σ r (Go.readTargets x >>= f) :=
  Known.targets G hx fun l hl => by rw [hT] at hl; rw [perm_one hl]; exact h

theorem Known.charHead {v : Bool} {e} (he : CharEnt σ [v] e) :
    Known cfg lim σ (some (.ok e)) (Character.provideHeadEntity (bitEnt bs v)) := by
  have tv : σ.tag (bitEnt bs v).character ≠ .none := by
    rw [bitEnt_character, (getD_bits G.inv G.bits).tag v]; simp
  have hT : σ.T (bitEnt bs v).character = [e.bit] := by
    rw [bitEnt_character]
    generalize hq : [v] = q at he
    cases he with
    | @head v' _ bs' hb hS hT ht =>
      cases hq
      have := hb.bits
      rw [G.bits] at this
      cases this
      exact hT
    | tail h1 => exact absurd hq.symm (append_one_ne h1.ne_nil)
  unfold Character.provideHeadEntity
  refine Known.then (a := true) (by
    unfold Bit.hasTargetCharacter
    rw [(getD_bits G.inv G.bits).used v]
    exact Known.single G tv hT (Known.ret _)) ?_
  simp only [if_true]
  refine Known.then (a := e.bit) (by
    unfold Bit.getTargetCharacter
    rw [(getD_bits G.inv G.bits).used v]
    exact Known.single G tv hT (Known.ret _)) ?_
  exact Known.sure G (by unfold Character.readEntityByBit; quiet) fun m hm => Rd.charByBit hm (he.sees m)

theorem Known.charNext {p a v c} (ha : CharEnt σ p a) (hc : CharEnt σ (p ++ [v]) c) :
    Known cfg lim σ (some (.ok ⟨some c⟩)) (Character.provideNextElement ⟨some a⟩ v) := by
  unfold Character.provideNextElement
  refine Known.then (Known.ret a) (Known.charLook G ha v ?_)
  intro o ho
  cases o with
  | some c' =>
    have := CharEnt.unique G.inv hc ho.1
    subst this
    exact Known.ret _
  | none => exact absurd (ha.inT G.inv hc) (ho c hc)

theorem Known.charWalk : ∀ (l : List Bool) {p a c}, CharEnt σ p a → CharEnt σ (p ++ l) c →
    Known cfg lim σ (some (.ok (some ⟨some c⟩))) (Character.walk (some ⟨some a⟩) l) := by
  intro l
  induction l with
  | nil =>
    intro p a c ha hc
    rw [List.append_nil] at hc
    have := ha.unique G.inv hc
    subst this
    unfold Character.walk
    exact Known.ret _
  | cons v l ih =>
    intro p a c ha hc
    have e : p ++ v :: l = (p ++ [v]) ++ l := by simp
    obtain ⟨a', ha'⟩ := hc.prefix (q := p ++ [v]) (by simp) ⟨l, e.symm⟩
    unfold Character.walk
    refine Known.then (Known.ret _) (Known.then (Known.charNext G ha ha').attempt ?_)
    exact ih ha' (e ▸ hc)

theorem Known.charProvide {r : Rune} (hr : 0 ≤ r) {c} (hc : CharEnt σ (bitsOf r) c) :
    Known cfg lim σ (some (.ok ⟨some c⟩)) (Character.provide r) := by
  unfold Character.provide
  rw [collect_ok hr]
  generalize bitsOf r = path at hc
  match path, hc.ne_nil with
  | v :: l, _ =>
    obtain ⟨a, ha⟩ := hc.prefix (q := [v]) (by simp) ⟨l, rfl⟩
    dsimp only
    refine Known.then (a := ⟨some a⟩) ?_ (Known.then (Known.charWalk G l ha hc) (Known.then (Known.ret _) (Known.ret _)))
    unfold Character.provideFirstElement
    refine Known.then (Known.sure G (Quiet.bitProvide v) fun m hm => Rd.bitProvide (σ := σ.seen m) hm G.bits v) ?_
    refine Known.then (Known.classes G) ?_
    exact Known.then (Known.charHead G ha).attempt (Known.ret _)

theorem Known.wordHead {r c w} (hc : CharEnt σ (bitsOf r) c) {y} (hC : σ.T c.character = [y]) (hW : σ.T c.word = [w.character])
    (hw : WordEnt σ [r] w) : Known cfg lim σ (some (.ok w)) (Word.provideHeadEntity ⟨some c⟩) := by
  unfold Word.provideHeadEntity
  refine Known.then (Known.ret c) ?_
  refine Known.then (a := true) (Known.single G (by rw [hc.tagC]; simp) hC (Known.ret _)) ?_
  simp only [if_true]
  refine Known.then (a := w.character) (Known.single G (by rw [hc.tagW]; simp) hW (Known.ret _)) ?_
  exact Known.sure G (by unfold Word.readEntityByCharacter; quiet) fun m hm => Rd.wordByCharacter hm (hw.sees m)

theorem Known.wordNext (hS : WSib σ) {fuel : Nat} (hf : lim.L ≤ fuel) {p a r c} (ha : WordEnt σ p a) (hc : WordEnt σ (p ++ [r]) c)
    (hm : c.word ∈ σ.T a.word) : Known cfg lim σ (some (.ok c)) (Word.provideNextElement fuel a r) := by
  unfold Word.provideNextElement
  refine Known.wordLook G hf ha r ?_
  intro o ho
  cases o with
  | some c' =>
    have := hc.ext ho.1 (hS _ _ _ _ hm ho.2 hc.tagW ho.1.tagW)
    subst this
    exact Known.ret _
  | none => exact absurd hm (ho c hc)

omit G in
theorem WReach.parent {rs r w} (hn : rs ≠ []) (h : WReach σ (rs ++ [r]) w) :
    ∃ w1, WReach σ rs w1 ∧ w.word ∈ σ.T w1.word := by
  generalize hq : rs ++ [r] = q at h
  cases h with
  | head => exact absurd hq (append_one_ne hn)
  | @tail rs' r' w1 _ h1 _ hm =>
    obtain ⟨rfl, rfl⟩ := append_one_inj hq
    exact ⟨w1, h1, hm⟩

omit G in
/-- the beginning of a word that is found is found -/
theorem WReach.prefix {p : List Int} (hn : p ≠ []) : ∀ (n : Nat) (qs : List Int) {w}, qs.length = n → WReach σ (p ++ qs) w →
    ∃ w', WReach σ p w' := by
  intro n
  induction n with
  | zero =>
    intro qs w e h
    rw [List.length_eq_zero_iff.1 e, List.append_nil] at h
    exact ⟨w, h⟩
  | succ n ih =>
    intro qs w e h
    have hq : qs ≠ [] := by intro h0; rw [h0] at e; cases e
    rw [← List.dropLast_concat_getLast hq, ← List.append_assoc] at h
    obtain ⟨w1, h1, _⟩ := WReach.parent (by simp [hn]) h
    exact ih qs.dropLast (by rw [List.length_dropLast]; omega) h1

theorem Known.wordWalk (hS : WSib σ) {fuel : Nat} (hf : lim.L ≤ fuel) : ∀ (qs : List Int) {p a w}, WReach σ p a →
    WReach σ (p ++ qs) w → Known cfg lim σ (some (.ok (some w))) (Word.walk fuel (some a) qs) := by
  intro qs
  induction qs with
  | nil =>
    intro p a w ha hw
    rw [List.append_nil] at hw
    have := ha.unique G.inv hS hw
    subst this
    unfold Word.walk
    exact Known.ret _
  | cons r qs ih =>
    intro p a w ha hw
    have e : p ++ r :: qs = (p ++ [r]) ++ qs := by simp
    rw [e] at hw
    obtain ⟨a', ha'⟩ := WReach.prefix (by simp) _ qs rfl hw
    obtain ⟨a1, h1, h2⟩ := WReach.parent ha.ent.ne_nil ha'
    have := ha.unique G.inv hS h1
    subst this
    unfold Word.walk
    refine Known.then (Known.ret _) (Known.then (Known.wordNext G hS hf ha.ent ha'.ent h2).attempt ?_)
    exact ih ha' hw

/-- the first character of the text is `known` -/
def Leads (σ : St) (r : Int) : Prop := ∃ c y, CharEnt σ (bitsOf r) c ∧ σ.T c.character = [y]

theorem Known.wordProvide (hS : WSib σ) {fuel : Nat} (hf : lim.L ≤ fuel) {s : GoStr} (h0 : ∀ r ∈ (runesOf s).head?, 0 ≤ r)
    (hl : Leads σ ((runesOf s).headD 0)) {w} (hw : WReach σ (runesOf s) w) :
    Known cfg lim σ (some (.ok w)) (Word.provide fuel s) := by
  unfold Word.provide
  generalize runesOf s = rs at *
  match rs with
  | [] => exact absurd rfl hw.ent.ne_nil
  | r :: rs =>
    obtain ⟨a, ha⟩ := WReach.prefix (p := [r]) (by simp) _ rs rfl hw
    dsimp only
    refine Known.then (a := a) ?_ (Known.then (Known.wordWalk G hS hf rs ha hw) (Known.ret _))
    generalize hq : [r] = q at ha
    cases ha with
    | tail h1 => exact absurd hq.symm (append_one_ne h1.ent.ne_nil)
    | @head r' c _ hc hT hw' =>
      cases hq
      obtain ⟨c', y, hc', hy⟩ := hl
      have := hc.unique G.inv hc'
      subst this
      unfold Word.provideFirstElement
      refine Known.then (Known.charProvide G (h0 r (by simp)) hc) (Known.then (Known.classes G) ?_)
      exact Known.wordHead G hc hy hT hw'

theorem Known.phraseHead {rs w e} (hw : WordEnt σ rs w) (hT : σ.T w.phrase = [e.word]) (he : PhraseEnt σ [rs] e) :
    Known cfg lim σ (some (.ok e)) (Phrase.provideHeadEntity w) := by
  have tp : σ.tag w.phrase ≠ .none := by rw [hw.tagP]; simp
  unfold Phrase.provideHeadEntity
  refine Known.then (a := true) (Known.single G tp hT (Known.ret _)) ?_
  simp only [if_true]
  refine Known.then (a := e.word) (Known.single G tp hT (Known.ret _)) ?_
  exact Known.sure G (by unfold Phrase.readEntityByWord; quiet) fun m hm => Rd.phraseByWord hm (he.sees m)

theorem Known.phraseNext (hS : PSib σ) {fuel : Nat} (hf : lim.L ≤ fuel) (hD : lim.D ≤ fuel) {p a c} {w : GoStr}
    (hw : stringOf (runesOf w) = w) (ha : PhraseEnt σ p a) (hc : PhraseEnt σ (p ++ [runesOf w]) c)
    (hm : c.phrase ∈ σ.T a.phrase) : Known cfg lim σ (some (.ok c)) (Phrase.provideNextElement fuel a w) := by
  unfold Phrase.provideNextElement
  refine Known.phraseLook G hf hD ha hw ?_
  intro o ho
  cases o with
  | some c' =>
    have := hc.ext ho.1 (hS _ _ _ _ hm ho.2 hc.tagP ho.1.tagP)
    subst this
    exact Known.ret _
  | none => exact absurd hm (ho c hc)

omit G in
theorem Reach.prefix {p : List (List Int)} (hn : p ≠ []) : ∀ (n : Nat) (qs : List (List Int)) {w}, qs.length = n →
    Reach σ (p ++ qs) w → ∃ w', Reach σ p w' := by
  intro n
  induction n with
  | zero =>
    intro qs w e h
    rw [List.length_eq_zero_iff.1 e, List.append_nil] at h
    exact ⟨w, h⟩
  | succ n ih =>
    intro qs w e h
    have hq : qs ≠ [] := by intro h0; rw [h0] at e; cases e
    rw [← List.dropLast_concat_getLast hq, ← List.append_assoc] at h
    obtain ⟨w1, h1, _⟩ := Reach.parent (by simp [hn]) h
    exact ih qs.dropLast (by rw [List.length_dropLast]; omega) h1

theorem Known.phraseWalk (hW : WSib σ) (hS : PSib σ) {fuel : Nat} (hf : lim.L ≤ fuel) (hD : lim.D ≤ fuel) :
    ∀ (qs : List GoStr), (∀ w ∈ qs, stringOf (runesOf w) = w) → ∀ {p a w}, Reach σ p a →
    Reach σ (p ++ qs.map runesOf) w → Known cfg lim σ (some (.ok (some w))) (Phrase.walk fuel (some a) qs) := by
  intro qs
  induction qs with
  | nil =>
    intro _ p a w ha hw
    rw [List.map_nil, List.append_nil] at hw
    have := ha.unique G.inv hW hS hw
    subst this
    unfold Phrase.walk
    exact Known.ret _
  | cons r qs ih =>
    intro hv p a w ha hw
    have e : p ++ (r :: qs).map runesOf = (p ++ [runesOf r]) ++ qs.map runesOf := by simp
    rw [e] at hw
    obtain ⟨a', ha'⟩ := Reach.prefix (by simp) _ _ rfl hw
    obtain ⟨a1, h1, h2⟩ := Reach.parent ha.ent.ne_nil ha'
    have := ha.unique G.inv hW hS h1
    subst this
    unfold Phrase.walk
    refine Known.then (Known.ret _) (Known.then (Known.phraseNext G hS hf hD (hv r (by simp)) ha.ent ha'.ent h2).attempt ?_)
    exact ih (fun w hw => hv w (by simp [hw])) ha' hw

theorem Known.phraseProvide (hW : WSib σ) (hS : PSib σ) {fuel : Nat} (hf : lim.L ≤ fuel) (hD : lim.D ≤ fuel) {s : GoStr}
    (hs : ∀ w ∈ splitSpace s, stringOf (runesOf w) = w) {c u vs} (hc : wordsOf s = runes ((c :: u) :: vs))
    (hl : Leads σ (rune c)) {e} (he : Reach σ (wordsOf s) e) :
    Known cfg lim σ (some (.ok e)) (Phrase.provide fuel s) := by
  unfold Phrase.provide
  unfold wordsOf at hc he
  generalize splitSpace s = rs at *
  match rs with
  | [] => exact absurd rfl he.ent.ne_nil
  | w :: ws =>
    obtain ⟨a, ha⟩ := Reach.prefix (p := [runesOf w]) (by simp) _ (ws.map runesOf) rfl he
    have hw : runesOf w = rune c :: u.map rune := by
      simp only [List.map_cons, List.cons.injEq] at hc
      exact hc.1
    dsimp only
    refine Known.then (a := a) ?_ (Known.then (Known.phraseWalk G hW hS hf hD ws (fun w hw => hs w (by simp [hw])) ha he) (Known.ret _))
    generalize hq : [runesOf w] = q at ha
    cases ha with
    | tail h1 => exact absurd hq.symm (append_one_ne h1.ent.ne_nil)
    | @head rs' w' _ h1 h2 h3 =>
      cases hq
      unfold Phrase.provideFirstElement
      refine Known.then (Known.wordProvide G hW hf ?_ ?_ h1) (Known.then (Known.classes G) ?_)
      · rw [hw]
        intro r hr
        cases hr
        unfold rune
        omega
      · rw [hw]; exact hl
      · exact Known.phraseHead G h1.ent h2 h3

theorem Known.detailEntity (hc : Clean σ) {po pp : PhraseE} {wo wp} (ho : PhraseEnt σ wo po) (hp : PhraseEnt σ wp pp) {d}
    (hd : DetailEnt σ d po pp) :
    Known cfg lim σ (some (.ok ⟨σ.back d.phrase, d.phrase, d.remark⟩)) (Detail.provideEntity po pp) := by
  unfold Detail.provideEntity
  have mo : d.phrase ∈ σ.T po.detail := mem_T.2 (mem_S.1 (by rw [hd.So]; simp))
  have mp : d.phrase ∈ σ.S pp.detail := mem_S.2 (mem_T.1 (by rw [hd.Tp]; simp))
  refine Known.targets G (by rw [ho.tagD]; simp) ?_
  intro l1 h1
  refine Known.sources G (by rw [hp.tagD]; simp) ?_
  intro l2 h2
  show Known cfg lim σ _ (match Detail.common l1 l2 with
      | [] => Detail.createEntity po pp
      | [d] => Detail.readEntityByPhrase d
      | _ => Go.err .tooManyCommonDetails)
  have hx : Detail.common l1 l2 = [d.phrase] := by
    rw [common_eq (h2.nodup_iff.2 (G.inv.Snodup _))]
    have hn : (l1.filter fun o => decide (o ∈ l2)).Nodup := (h1.nodup_iff.2 (G.inv.Tnodup _)).filter _
    have hm : ∀ x, x ∈ (l1.filter fun o => decide (o ∈ l2)) ↔ x = d.phrase := by
      intro x
      rw [List.mem_filter, decide_eq_true_eq, h1.mem_iff, h2.mem_iff]
      constructor
      · rintro ⟨a, b⟩
        obtain ⟨tx, sx⟩ := G.inv.detailTag ho.tagD (mem_T.1 a)
        have txx := G.inv.detailT tx (mem_S.1 b)
        exact hc.uniq x d.phrase tx hd.tp (by rw [sx]; simp) (by rw [txx]; simp) (by rw [sx, hd.So]) (by rw [txx, hd.Tp])
      · rintro rfl; exact ⟨mo, mp⟩
    generalize (l1.filter fun o => decide (o ∈ l2)) = l at hn hm
    match l, hn, hm with
    | [], _, hm => exact absurd ((hm _).2 rfl) (by simp)
    | [y], _, hm => rw [(hm y).1 (by simp)]
    | y :: z :: _, hn, hm =>
      have a := (hm y).1 (by simp)
      have b := (hm z).1 (by simp)
      rw [a, b] at hn
      simp at hn
  rw [hx]
  unfold Detail.readEntityByPhrase
  refine Known.then (a := (σ.back d.phrase, d.remark)) ?_ (Known.ret _)
  refine Known.sure G (Quiet.ref d.phrase) fun m hm =>
        Rd.getRef (σ := σ.seen m) hm (by show σ.tag d.phrase ≠ _; rw [hd.tp]; simp) ?_
  intro σ1 _ ro
  rw [(ro rfl).back, (ro rfl).fwd]
  show (σ.back d.phrase, σ.fwd d.phrase) = _
  rw [hd.ref.f]

end

/-! ### the texts of remarks stay where the search leads -/

theorem Led.fwd {σ σ' : St} (m : Mono σ σ') {L L' : Lexicon} (h : LexRel σ L) (h' : LexRel σ' L')
    (grow : ∀ c, L.heads.count c ≤ L'.heads.count c) {ws e} (hl : Led σ L ws e) : Led σ' L' ws e := by
  obtain ⟨c, u, vs, rfl, h2, h3⟩ := hl
  have h4 : 0 < L.heads.count c := List.count_pos_iff.2 h2
  have h5 := grow c
  refine ⟨c, u, vs, rfl, List.count_pos_iff.1 (by omega), fun hc' => ?_⟩
  have hc : L.heads.count c = 1 := by omega
  exact (h3 hc).fwd m fun e he => LexRel.keeps m h h' hc hc' he

/-- the search leads to the texts of a remark -/
def Tied (σ : St) (L : Lexicon) (e : Entry) : Prop :=
  ∃ d po pp, σ.S e.handle.detail = [d.remark] ∧ DetailEnt σ d po pp ∧ Led σ L (wordsOf e.object) po ∧
    Led σ L (wordsOf e.property) pp

theorem Tied.fwd {lim : Lim} {σ σ' : St} (m : Mono σ σ') {L L' : Lexicon} (h : LexRel σ L) (h' : LexRel σ' L') (g : LexGrown L L')
    {log : List Entry} {e : Entry} (ok : Entry.OK lim σ log e) (ht : Tied σ L e) : Tied σ' L' e := by
  obtain ⟨d, po, pp, h1, h2, h3, h4⟩ := ht
  exact ⟨d, po, pp, m.Seq ok.ent.td rfl h1 (by simp), h2.mono m, h3.fwd m h h' g.heads, h4.fwd m h h' g.heads⟩

/-- `Lex`, and the search leads to the texts of all remarks -/
def LexT (cfg : Cfg) (lim : Lim) (st : State) (L : Lexicon) : Prop :=
  (Blank cfg st ∧ L = ⟨[], [], []⟩) ∨ ∃ σ, Holds cfg lim st σ ∧ Clean σ ∧ LexRel σ L ∧ ∀ e ∈ st.log, Tied σ L e

theorem LexT.lex {cfg lim st L} (h : LexT cfg lim st L) : Lex cfg lim st L := by
  rcases h with h | ⟨σ, h1, h2, h3, _⟩
  · exact .inl h
  · exact .inr ⟨σ, h1, h2, h3⟩

/-- the texts of a new remark -/
theorem pair_entry {log : List Entry} {k : Call} {r : RemE} {e : Entry} {o p : GoStr}
    (he : k.entry log r = some e) (hp : k.pair log = some (o, p)) :
    wordsOf e.object = wordsOf o ∧ wordsOf e.property = wordsOf p := by
  cases k with
  | createStory o' p' => cases he; cases hp; exact ⟨wordsOf_asText _, wordsOf_asText _⟩
  | addRemark i p' =>
    simp only [Call.entry] at he
    simp only [Call.pair] at hp
    cases hl : log[i]? with
    | none => rw [hl] at he; cases he
    | some e' =>
      rw [hl] at he hp
      cases he
      simp only [Option.map_some, Option.some.injEq, Prod.mk.injEq] at hp
      simp only [wordsOf_asText, hp]
      exact ⟨trivial, trivial⟩
  | addFact i o' p' =>
    simp only [Call.pair] at hp
    obtain ⟨_, _, h⟩ := Option.map_eq_some_iff.1 hp
    cases h; cases he
    exact ⟨wordsOf_asText _, wordsOf_asText _⟩
  | addChild i o' p' =>
    simp only [Call.pair] at hp
    obtain ⟨_, _, h⟩ := Option.map_eq_some_iff.1 hp
    cases h; cases he
    exact ⟨wordsOf_asText _, wordsOf_asText _⟩
  | query => cases hp
  | getRemark => cases hp

theorem Tying.mono {σ0 σ σ' : St} {r : RemE} {o p} (hr : RemEnt σ r) (h : Tying σ0 σ r o p) (m : Mono σ σ') : Tying σ0 σ' r o p :=
  let ⟨d, po, pp, h1, h2, h3⟩ := h
  ⟨d, po, pp, m.Seq hr.td rfl h1 (by simp), h2.mono m, h3.mono m⟩

theorem feltTied {C : Ctx} {fuel : Nat} {σ : St} {st : State} (k : CallOK C fuel σ st.log)
    (hw : σ.Is st.world) {g : Nat → Cfg} (hg : Suits C.cfg g) (c : Call)
    (ht : ∀ t ∈ c.texts, TextOK C.lim t) {o p : GoStr} (hp : c.pair st.log = some (o, p)) :
    ∃ σ', EventPost C.cfg C.lim σ st (st.felt fuel (g, .call c Go.noFault)) True σ' ∧
      Lexed st.log c σ σ' ∧ ∀ e ∈ (st.felt fuel (g, .call c Go.noFault)).log, e ∈ st.log ∨
        (wordsOf e.object = wordsOf o ∧ wordsOf e.property = wordsOf p ∧ Tying σ σ' e.handle o p) := by
  obtain ⟨σ1, h1, ⟨h2, hlx, h3⟩, h4⟩ := wp_runs k.R hg (.inr rfl) hw (callWp k c ht)
  refine ⟨{ σ1 with mem := σ1.mem, flt := false }, ?_⟩
  have hs : Same σ1 { σ1 with mem := σ1.mem, flt := false } := .unfail σ1 _
  have hi : Inv C.cfg C.lim { σ1 with mem := σ1.mem, flt := false } := h2.inv.same hs h2.inv.mem
  have hm := h2.mono.trans hs.mono
  refine and_left_comm.1 ⟨hlx.trans (by rw [h4 rfl]; exact k.flt) h2.inv hi hs, ?_⟩
  show EventPost _ _ _ _ (st.ended c ((c.prog fuel st.log).runs g Go.noFault st.world)) _ _ ∧
    ∀ e ∈ (st.ended c ((c.prog fuel st.log).runs g Go.noFault st.world)).log, _
  unfold State.ended
  generalize ((Call.prog fuel st.log c).runs g Go.noFault st.world) = out at h1 h3
  obtain ⟨out, w⟩ := out
  have hcl : True → Clean σ → Clean { σ1 with mem := σ1.mem, flt := false } := fun _ hc =>
    (h2.clean hc (by rw [h4 rfl]; exact k.flt)).same hs
  have plain : ∃ l, st.log = st.log ++ l := ⟨[], by simp⟩
  cases out with
  | ok out =>
    cases out with
    | none => exact ⟨⟨⟨⟨h1.store, h1.mem⟩, hi, rfl, k.keeps.mono hm⟩, hm, hcl, plain⟩, fun e he => .inl he⟩
    | some r =>
      obtain ⟨e, e1, e2, e3, e4, e5⟩ := h3
      simp only [e1, Option.toList]
      refine ⟨⟨⟨⟨h1.store, h1.mem⟩, hi, rfl, ?_⟩, hm, hcl, _, rfl⟩, ?_⟩
      · refine k.keeps.add hm ?_ (by rw [e2]; exact e4)
        simpa using e3.mono hs.mono (log' := [])
      · intro e' he'
        rcases List.mem_append.1 he' with he' | he'
        · exact .inl he'
        · have := List.mem_singleton.1 he'
          subst this
          obtain ⟨a, b⟩ := pair_entry e1 hp
          refine .inr ⟨a, b, ?_⟩
          rw [e2]
          exact (e5 o p hp).mono (e2 ▸ e3.ent) hs.mono
  | err e => exact ⟨⟨⟨⟨h1.store, h1.mem⟩, hi, rfl, k.keeps.mono hm⟩, hm, hcl, plain⟩, fun e he => .inl he⟩
  | panic => exact ⟨⟨⟨⟨h1.store, h1.mem⟩, hi, rfl, k.keeps.mono hm⟩, hm, hcl, plain⟩, fun e he => .inl he⟩
  | spin => exact ⟨⟨⟨⟨h1.store, h1.mem⟩, hi, rfl, k.keeps.mono hm⟩, hm, hcl, plain⟩, fun e he => .inl he⟩

theorem LexT.readyM {cfg : Cfg} {lim : Lim} {fuel : Nat} (hd : Policy cfg lim) {st : State} {L : Lexicon}
    (h : LexT cfg lim st L) {g : Nat → Cfg} (hg : Suits cfg g) {k : Call} (hk : k.pair st.log ≠ none) :
    ∃ σ st' g', Suits cfg g' ∧ Holds cfg lim st' σ ∧ Clean σ ∧ LexRel σ L ∧ st'.log = st.log ∧
      (∀ e ∈ st.log, Tied σ L e) ∧ st.felt fuel (g, .call k Go.noFault) = st'.felt fuel (g', .call k Go.noFault) := by
  rcases h with ⟨h, rfl⟩ | ⟨σ, h, hc, hl, ht⟩
  · unfold Blank at h
    subst h
    refine ⟨_, State.roots cfg, fun n => g (n + 15), fun n => hg (n + 15), roots_holds hd, rootSt_clean cfg,
      rootSt_lex cfg, rfl, (fun e he => by cases he), ?_⟩
    cases k with
    | createStory o p => exact felt_blank cfg fuel o p g
    | _ => exact absurd rfl hk
  · exact ⟨σ, st, g, hg, h, hc, hl, rfl, ht, rfl⟩

theorem LexT.create {cfg : Cfg} {lim : Lim} {fuel : Nat} (hd : Policy cfg lim) (hf : Fits lim fuel) {st : State}
    {L : Lexicon} (h : LexT cfg lim st L) {g : Nat → Cfg} (hg : Suits cfg g)
    {k : Call} (ht : ∀ t ∈ k.texts, TextOK lim t) {o p : GoStr} (hp : k.pair st.log = some (o, p)) {os ps : List (List Char)}
    (ho : splitSpace o = os.map strOf) (hps : splitSpace p = ps.map strOf) :
    LexT cfg lim (st.felt fuel (g, .call k Go.noFault)) (L.pair os ps).1 := by
  obtain ⟨σ, st', g', hg', hs, hc, hL, hlog, hT, hfelt⟩ := h.readyM (fuel := fuel) hd hg (k := k) (by rw [hp]; simp)
  rw [hfelt]
  rw [← hlog] at hp hT
  obtain ⟨σ2, ev, hx, hnew⟩ := feltTied (C := calmCtx cfg lim) (hs.calm hf hc) hs.is hg' k ht hp
  unfold Lexed at hx
  rw [hp] at hx
  obtain ⟨v, hv⟩ := hx
  have hL2 := (hv ev.holds.flt L os ps ho hps hL).2
  refine .inr ⟨σ2, ev.holds, ev.clean trivial hc, hL2, fun e he => ?_⟩
  rcases hnew e he with h1 | ⟨h1, h2, d, po, pp, h3, h4, h5⟩
  · exact (hT e h1).fwd ev.mono hL hL2 (grown_pair L os ps) (hs.keeps.ok e h1)
  · obtain ⟨⟨σa, ma, xa, la⟩, σb, mb, xb, lb, eq⟩ := h5 L os ps ho hps hL
    refine ⟨d, po, pp, h3, h4, ?_, ?_⟩
    · rw [h1]
      refine la.fwd ma xa hL2 ?_
      rw [eq]
      exact (grown_phrase _ _).heads
    · rw [h2]
      exact lb.fwd mb xb hL2 fun _ => Nat.le_refl _

theorem LexT.quiet {cfg : Cfg} {lim : Lim} {fuel : Nat} (hf : Fits lim fuel) {st : State}
    {L : Lexicon} (h : LexT cfg lim st L) {g : Nat → Cfg} (hg : Suits cfg g) {k : Call}
    (ht : ∀ t ∈ k.texts, TextOK lim t) (hp : k.pair st.log = none) :
    LexT cfg lim (st.felt fuel (g, .call k Go.noFault)) L := by
  obtain ⟨q1, q2, _⟩ := h.lex.quietM hf hg ht hp
  rcases h with ⟨h, rfl⟩ | ⟨σ, hs, hc, hL, hT⟩
  · refine .inl ⟨?_, rfl⟩
    rcases q1 with ⟨h1, _⟩ | ⟨σ, h1, _⟩
    · exact h1
    · unfold Blank at h ⊢
      subst h
      cases k with
      | createStory => cases hp
      | addRemark => rfl
      | addFact => rfl
      | addChild => rfl
      | query => rfl
      | getRemark i => exact getRemark_felt fuel i _ g
  · obtain ⟨σ', ev, hx⟩ := feltLexed (C := calmCtx cfg lim) (hs.calm hf hc) hs.is hg k Go.noFault (.inr rfl) ht
    have hx := hx rfl
    unfold Lexed at hx
    rw [hp] at hx
    have hL' := hL.same hs.inv ev.holds.inv hx
    refine .inr ⟨σ', ev.holds, ev.clean rfl hc, hL', fun e he => ?_⟩
    rw [q2] at he
    exact (hT e he).fwd ev.mono hL hL' (.refl L) (hs.keeps.ok e he)

theorem LexT.reopen {cfg : Cfg} {lim : Lim} {fuel : Nat} {st : State} {L : Lexicon} (h : LexT cfg lim st L)
    (g : Nat → Cfg) : LexT cfg lim (st.felt fuel (g, .reopen)) L := by
  rcases h with ⟨h, rfl⟩ | ⟨σ, hs, hc, hL, hT⟩
  · unfold Blank at h
    subst h
    exact .inl ⟨rfl, rfl⟩
  · have e : Same σ { σ with mem := Layer.fresh, flt := false } := .unfail σ _
    have hi : Inv cfg lim { σ with mem := Layer.fresh, flt := false } := hs.inv.same e fresh_mem
    have hL' := hL.same hs.inv hi e
    exact .inr ⟨{ σ with mem := Layer.fresh, flt := false }, ⟨⟨hs.is.store, rfl⟩, hi, rfl, hs.keeps.mono e.mono⟩, hc.same e,
      hL', fun x hx => (hT x hx).fwd e.mono hL hL' (.refl L) (hs.keeps.ok x hx)⟩

theorem LexT.event {cfg : Cfg} {lim : Lim} {fuel : Nat} (hd : Policy cfg lim) (hf : Fits lim fuel) {st : State}
    {s : Scribe} (ha : Agree cfg lim st s) (h : LexT cfg lim st s.lex) {g : Nat → Cfg} (hg : Suits cfg g) (c : Cmd)
    (ht : ∀ t ∈ c.event.texts, TextOK lim t) : LexT cfg lim (st.felt fuel (g, c.event)) (s.step cfg.zero c).lex := by
  unfold Cmd.event at ht ⊢
  cases hk : c.call with
  | none =>
    have : c = .reopen := by cases c <;> first | rfl | cases hk
    subst this
    exact h.reopen g
  | some k =>
    rw [hk] at ht
    have hp := scribe_pair ha.notes hk
    cases hn : s.note c with
    | none =>
      rw [hn] at hp
      have hj : s.judge cfg.zero c = none := by unfold Scribe.judge; rw [hn]; rfl
      have hs : s.step cfg.zero c = s := by unfold Scribe.step; rw [hj]
      rw [hs]
      exact h.quiet hf hg ht hp
    | some n =>
      rw [hn] at hp
      have hj := judge_eq (zero := cfg.zero) hn
      have hs : (s.step cfg.zero c).lex = (s.lex.pair (words n.object) (words n.property)).1 := by
        unfold Scribe.step
        rw [hj]
        cases (s.lex.pair (words n.object) (words n.property)).2.unless (s.refuses cfg.zero c) <;> rfl
      rw [hs]
      exact h.create hd hf hg ht hp (split_utf8 _) (split_utf8 _)

theorem lexT_moody {cfg : Cfg} {fuel : Nat} {es : List ((Nat → Cfg) × Cmd)}
    (h : CalmMoods cfg fuel (es.map fun e => (e.1, e.2.event))) :
    LexT cfg (stdLim fuel) (moodily cfg fuel (es.map fun e => (e.1, e.2.event))) (scribe cfg.zero (es.map Prod.snd)).lex := by
  have key : ∀ (es : List ((Nat → Cfg) × Cmd)) (st : State) (s : Scribe),
      (∀ e ∈ es, Suits cfg e.1 ∧ ∀ t ∈ e.2.event.texts, t.length < fuel) → Agree cfg (stdLim fuel) st s →
      LexT cfg (stdLim fuel) st s.lex →
      LexT cfg (stdLim fuel) ((es.map fun e => (e.1, e.2.event)).foldl (State.felt fuel) st)
        ((es.map Prod.snd).foldl (Scribe.step cfg.zero) s).lex := by
    intro es
    induction es with
    | nil => exact fun _ _ _ _ h => h
    | cons e es ih =>
      intro st s ht ha hs
      obtain ⟨g, c⟩ := e
      obtain ⟨h1, h2⟩ := ht _ List.mem_cons_self
      exact ih _ _ (fun c hc => ht c (by simp [hc]))
        (ha.eventM (.inl h.calm.dup) h.calm.budget.fits h1 c fun t h' => TextOK.std (h2 t h'))
        (hs.event (.inl h.calm.dup) h.calm.budget.fits ha h1 c fun t h' => TextOK.std (h2 t h'))
  refine key es _ _ (fun e he => ⟨h.suits _ (List.mem_map_of_mem he), ?_⟩) ⟨rfl, fun _ => rfl, .inl ⟨rfl, rfl⟩⟩ (.inl ⟨rfl, rfl⟩)
  refine h.calm.budget.2 e.2.event ?_
  rw [List.map_map]
  exact List.mem_map.2 ⟨e, he, rfl⟩

/-! ### found if known -/

theorem wordsOf_utf8 (t : List Char) : wordsOf (utf8 t) = runes (words t) := by
  unfold wordsOf
  rw [split_utf8, List.map_map]
  exact List.map_congr_left fun u _ => runesOf_chars u

theorem start_known {l : Lexicon} {c : Char} : l.start c = .known ↔ l.branches c = 1 ∧ l.heads.count c = 1 := by
  unfold Lexicon.start
  split
  · simp_all
  · split <;> simp_all

/-- the search leads to a text with a known first character -/
theorem Led.find {cfg lim} {σ : St} (hi : Inv cfg lim σ) {L : Lexicon} (h : LexRel σ L) {t : List Char} {e}
    (hl : Led σ L (wordsOf (utf8 t)) e) (ho : L.opens t = true) :
    ∃ c u vs, wordsOf (utf8 t) = runes ((c :: u) :: vs) ∧ Leads σ (rune c) ∧ Reach σ (wordsOf (utf8 t)) e := by
  obtain ⟨c, u, vs, h1, h2, h3⟩ := hl
  rw [wordsOf_utf8] at h1
  have h4 := mapmap_rune_inj h1
  unfold Lexicon.opens at ho
  rw [h4] at ho
  obtain ⟨h5, h6⟩ := start_known.1 (by simpa using ho)
  obtain ⟨a, ha⟩ := (h.char (bitsOf (rune c))).2 ⟨bitsOf_ne_nil _, c, h.sub c h2, List.prefix_refl _⟩
  have h7 := h.branches hi ha
  rw [h5] at h7
  obtain ⟨y, hy⟩ := List.length_eq_one_iff.1 h7
  exact ⟨c, u, vs, by rw [wordsOf_utf8, h4], ⟨a, y, ha, hy⟩, h3 h6⟩

theorem found_known {cfg : Cfg} {fuel : Nat} {es : List ((Nat → Cfg) × Cmd)}
    (h : CalmMoods cfg fuel (es.map fun e => (e.1, e.2.event))) {n : Note} (hn : n ∈ (scribe cfg.zero (es.map Prod.snd)).notes)
    (ho : (scribe cfg.zero (es.map Prod.snd)).lex.opens n.object = true)
    (hp : (scribe cfg.zero (es.map Prod.snd)).lex.opens n.property = true) :
    FamiliarMoods cfg fuel (moodily cfg fuel (es.map fun e => (e.1, e.2.event))).world (utf8 n.object) (utf8 n.property) := by
  have hf := h.calm.budget.fits
  have hni : n.item ∈ (scribe cfg.zero (es.map Prod.snd)).notes.map Note.item := List.mem_map_of_mem hn
  rw [(scribe_moody h).notes] at hni
  obtain ⟨e, he, hei⟩ := List.mem_map.1 hni
  have e1 : e.object = utf8 n.object := congrArg Item.object hei
  have e2 : e.property = utf8 n.property := congrArg Item.property hei
  rcases lexT_moody h with ⟨hb, _⟩ | ⟨σ, hs, hc, hx, hT⟩
  · rw [hb] at he; cases he
  · have hb := (hs.keeps.ok e he).bits
    cases hb' : σ.bits with
    | none => exact absurd hb' hb
    | some bs =>
      have G : Ground cfg (stdLim fuel) σ bs := ⟨hs.inv, hb'⟩
      obtain ⟨d, po, pp, h1, h2, h3, h4⟩ := hT e he
      rw [e1] at h3
      rw [e2] at h4
      obtain ⟨c, u, vs, a1, a2, a3⟩ := h3.find hs.inv hx ho
      obtain ⟨c', u', vs', b1, b2, b3⟩ := h4.find hs.inv hx hp
      have K : Known cfg (stdLim fuel) σ (some (.ok ⟨σ.back d.phrase, d.phrase, d.remark⟩))
          (Detail.provide fuel (utf8 n.object) (utf8 n.property)) := by
        unfold Detail.provide
        refine Known.then (Known.phraseProvide G hx.wsib hx.psib hf.L hf.D (utf8_valid _) a1 a2 a3) ?_
        refine Known.then (Known.phraseProvide G hx.wsib hx.psib hf.L hf.D (utf8_valid _) b1 b2 b3) ?_
        exact Known.then (Known.classes G) (Known.detailEntity G hc a3.ent b3.ent h2)
      intro g hg
      obtain ⟨m', _, hl⟩ := K g hg σ.mem (hs.inv.same (Same.seen σ σ.mem) hs.inv.mem)
      rw [← hs.is.store, ← hs.is.mem]
      exact ⟨_, m', hl, h2.ref.hy⟩

/-! ### known if found -/

theorem looks_blank_bit {cfg : Cfg} (g : Nat → Cfg) (v : Bool) : Go.looks g (Bit.provide v) (Store.empty cfg) Layer.fresh = none := by
  unfold Bit.provide Bit.init Bit.ensure Bit.fill Store.empty
  cases cfg.zero <;>
  simp [Class.provideEntity, Class.createRoot, Go.has, Go.create, Go.setReference, Go.call, Bind.bind, Pure.pure, Go.readMem,
    Go.bind, Go.looks, Store.step, Store.live, Class.bitId, Layer.fresh]

/-- nothing is found in an empty storage -/
theorem looks_blank {cfg : Cfg} (fuel : Nat) (g : Nat → Cfg) (o p : GoStr) {d m} :
    Go.looks g (Detail.provide fuel o p) (Store.empty cfg) Layer.fresh ≠ some (.ok d, m) := by
  have ch : ∀ r, (∃ e, Go.looks g (Character.provide r) (Store.empty cfg) Layer.fresh = some (.err e, Layer.fresh)) ∨
      Go.looks g (Character.provide r) (Store.empty cfg) Layer.fresh = some (.panic, Layer.fresh) ∨
      Go.looks g (Character.provide r) (Store.empty cfg) Layer.fresh = none := by
    intro r
    unfold Character.provide
    split
    · exact .inl ⟨_, rfl⟩
    · split
      · exact .inr (.inl rfl)
      · refine .inr (.inr (Race.looks_bind_none ?_))
        unfold Character.provideFirstElement
        exact Race.looks_bind_none (looks_blank_bit g _)
  have wd : ∀ w, (∃ e, Go.looks g (Word.provide fuel w) (Store.empty cfg) Layer.fresh = some (.err e, Layer.fresh)) ∨
      Go.looks g (Word.provide fuel w) (Store.empty cfg) Layer.fresh = some (.panic, Layer.fresh) ∨
      Go.looks g (Word.provide fuel w) (Store.empty cfg) Layer.fresh = none := by
    intro w
    unfold Word.provide
    split
    · exact .inl ⟨_, rfl⟩
    · rename_i r rs _
      unfold Word.provideFirstElement
      rcases ch r with ⟨e, h⟩ | h | h
      · exact .inl ⟨e, Race.looks_bind_err (Race.looks_bind_err h)⟩
      · exact .inr (.inl (Race.looks_bind_panic (Race.looks_bind_panic h)))
      · exact .inr (.inr (Race.looks_bind_none (Race.looks_bind_none h)))
  intro h
  unfold Detail.provide Phrase.provide at h
  split at h
  · rw [Race.looks_bind_err (e := .noWords) (m1 := Layer.fresh) rfl] at h; cases h
  · rename_i w ws _
    unfold Phrase.provideFirstElement at h
    rcases wd w with ⟨e, h1⟩ | h1 | h1
    · rw [Race.looks_bind_err (Race.looks_bind_err (Race.looks_bind_err h1))] at h; cases h
    · rw [Race.looks_bind_panic (Race.looks_bind_panic (Race.looks_bind_panic h1))] at h; cases h
    · rw [Race.looks_bind_none (Race.looks_bind_none (Race.looks_bind_none h1))] at h; cases h

/-- the lexicon keeps the beginnings of the phrases it accepts -/
theorem rest_mem (new : Bool) : ∀ (ws : List (List Char)) (l : Lexicon) (before : List (List Char)), before ∈ l.phrases →
    (l.rest new before ws).2 = .created → before ++ ws ∈ (l.rest new before ws).1.phrases := by
  intro ws
  induction ws with
  | nil => intro l before h _; simpa [Lexicon.rest] using h
  | cons w ws ih =>
    intro l before h hv
    have e : before ++ w :: ws = (before ++ [w]) ++ ws := by simp
    rw [e]
    unfold Lexicon.rest at hv ⊢
    split at hv
    · rename_i hc
      rw [if_pos hc]
      refine ih _ _ ?_ hv
      simp only [Bool.and_eq_true] at hc
      simpa using hc.2
    · rename_i hc
      rw [if_neg hc]
      split at hv
      · cases hv
      · rename_i l1 _ hw
        exact ih _ _ List.mem_cons_self hv

theorem phrase_mem {l : Lexicon} {ws : List (List Char)} (h : (l.phrase ws).2 = .created) : ws ∈ (l.phrase ws).1.phrases := by
  match ws with
  | [] => cases h
  | w :: ws =>
    simp only [Lexicon.phrase] at h ⊢
    match hw : l.word w with
    | (l1, none) => rw [hw] at h; cases h
    | (l1, some s) =>
      rw [hw] at h
      exact rest_mem _ ws _ [w] List.mem_cons_self h

theorem rest_phrases (new : Bool) : ∀ (ws : List (List Char)) (l : Lexicon) (before : List (List Char)), ∀ x ∈ l.phrases,
    x ∈ (l.rest new before ws).1.phrases := by
  intro ws
  induction ws with
  | nil => intro l before x h; rw [Lexicon.rest]; exact h
  | cons w ws ih =>
    intro l before x h
    rw [lexRest_cons]
    split
    · exact ih l _ x h
    · have g := word_phrases l w
      split
      · rename_i l1 hw; rw [hw] at g; rw [g]; exact h
      · rename_i l1 s hw
        rw [hw] at g
        refine ih _ _ x (List.mem_cons_of_mem _ ?_)
        rw [g]; exact h

/-- the lexicon forgets no phrase -/
theorem phrases_grow (l : Lexicon) (ws : List (List Char)) : ∀ x ∈ l.phrases, x ∈ (l.phrase ws).1.phrases := by
  intro x h
  match ws with
  | [] => exact h
  | w :: ws =>
    simp only [Lexicon.phrase]
    have g := word_phrases l w
    split
    · rename_i l1 hw; rw [hw] at g; rw [g]; exact h
    · rename_i l1 s hw
      rw [hw] at g
      refine rest_phrases _ ws _ _ x (List.mem_cons_of_mem _ ?_)
      rw [g]; exact h

/-- a phrase is refused, entered from scratch or looked up -/
theorem phrase_cases (l : Lexicon) {ws : List (List Char)} (h : (l.phrase ws).2 = .created) :
    ∃ c u vs, ws = (c :: u) :: vs ∧ c ∈ (l.phrase ws).1.used ∧
      ((l.branches c = 0 ∧ l.heads.count c < (l.phrase ws).1.heads.count c) ∨ l.start c = .known) := by
  match ws with
  | [] => cases h
  | w :: vs =>
    simp only [Lexicon.phrase] at h ⊢
    rcases word_cases l w with ⟨_, h2⟩ | ⟨c, u, rfl, h1, h2⟩ | ⟨c, u, rfl, h1, h1', h2⟩
    · match hw : l.word w with
      | (l1, none) => rw [hw] at h; cases h
      | (l1, some s) => rw [hw] at h2; cases h2
    · rw [h2]
      have g := grown_rest (Start.fresh == .fresh) vs ((((l.see [c]).enter c).see u).keep [c :: u]) [c :: u]
      refine ⟨c, u, vs, rfl, g.used c ?_, .inl ⟨h1, Nat.lt_of_lt_of_le ?_ (g.heads c)⟩⟩
      · simp [Lexicon.see, Lexicon.keep, Lexicon.enter]
      · simp [Lexicon.see, Lexicon.keep, Lexicon.enter]
    · rw [h2]
      have g := grown_rest (Start.known == .fresh) vs (((l.see [c]).see u).keep [c :: u]) [c :: u]
      refine ⟨c, u, vs, rfl, g.used c ?_, .inr (start_known.2 ⟨h1, h1'⟩)⟩
      simp [Lexicon.see, Lexicon.keep, Lexicon.enter]

/-- a run that leaves the storage as it is -/
theorem same_of_store {C : Ctx} {σ σ' : St} (hi : Inv C.cfg C.lim σ) (hi' : Inv C.cfg C.lim σ') (m : Mono σ σ')
    (hs : σ'.store = σ.store) (hb : σ.bits ≠ none) : Same σ σ' := by
  refine ⟨hs, ?_, ?_⟩
  · funext x
    by_cases h : σ.tag x = .none
    · rw [h]
      refine Classical.byContradiction fun h' => ?_
      have := (hi'.live x).2 h'
      rw [hs] at this
      exact (hi.live x).1 this h
    · exact m.tag x h
  · cases hb' : σ.bits with
    | none => exact absurd hb' hb
    | some bs => exact m.bits bs hb'

/-- two lexicons of the same state, the second later than the first: what the second accepted was known to the first -/
theorem phrase_was {cfg lim} {σ : St} (hi : Inv cfg lim σ) {L L1 L' : Lexicon} (h : LexRel σ L) (h' : LexRel σ L') (g : LexGrown L L1)
    {ws : List (List Char)} (g' : LexGrown (L1.phrase ws).1 L') (hv : (L1.phrase ws).2 = .created) (hm : ws ∈ L'.phrases) :
    (∃ c u vs, ws = (c :: u) :: vs ∧ L.start c = .known) ∧ ws ∈ L.phrases := by
  obtain ⟨c, u, vs, rfl, h1, h2⟩ := phrase_cases L1 hv
  have g1 := grown_phrase L1 ((c :: u) :: vs)
  obtain ⟨e, he⟩ := (h'.char (bitsOf (rune c))).2 ⟨bitsOf_ne_nil _, c, g'.used c h1, List.prefix_refl _⟩
  have e1 := h.heads c e he
  have e2 := h'.heads c e he
  have b1 := h.branches hi he
  have b2 := h'.branches hi he
  have n1 := g.heads c
  have n2 := g1.heads c
  have n3 := g'.heads c
  have m1 := branches_mono g.used c
  have m2 := branches_mono g1.used c
  have m3 := branches_mono g'.used c
  rcases h2 with ⟨_, h3⟩ | h3
  · omega
  · obtain ⟨h4, h5⟩ := start_known.1 h3
    have c1 := (g1.trans g').closed c (by omega)
    have k1 : L.heads.count c = 1 := by omega
    have k2 : L'.heads.count c = 1 := by omega
    exact ⟨⟨c, u, vs, rfl, start_known.2 ⟨by omega, k1⟩⟩, (h.phr c u vs k1).2 ((h'.phr c u vs k2).1 hm)⟩

theorem known_found_ok {cfg : Cfg} {fuel : Nat} {es : List ((Nat → Cfg) × Cmd)}
    (h : CalmMoods cfg fuel (es.map fun e => (e.1, e.2.event))) {o p : List Char} (ho : TextOK (stdLim fuel) (utf8 o))
    (hp : TextOK (stdLim fuel) (utf8 p)) {g : Nat → Cfg} (hg : Suits cfg g) {d m}
    (hl : Go.looks g (Detail.provide fuel (utf8 o) (utf8 p)) (moodily cfg fuel (es.map fun e => (e.1, e.2.event))).world.store
      (moodily cfg fuel (es.map fun e => (e.1, e.2.event))).world.mem = some (.ok d, m)) :
    ((scribe cfg.zero (es.map Prod.snd)).lex.opens o = true ∧ words o ∈ (scribe cfg.zero (es.map Prod.snd)).lex.phrases) ∧
    (scribe cfg.zero (es.map Prod.snd)).lex.opens p = true ∧ words p ∈ (scribe cfg.zero (es.map Prod.snd)).lex.phrases := by
  have hf := h.calm.budget.fits
  rcases (scribe_moody h).lex with ⟨hb, _⟩ | ⟨σ, hs, hc, hx⟩
  · rw [hb] at hl
    exact absurd hl (looks_blank fuel g _ _)
  · obtain ⟨σ', he⟩ := WrL.endsM (cfg := cfg) (lim := stdLim fuel) hg hs.is hs.flt (Wr.detailProvide (C := calmCtx cfg (stdLim fuel)) rfl rfl rfl hs.inv
      (fun h => by cases h) (fun _ => hc) hs.flt hf.L hf.D ho hp)
    have hr := Race.looks_runs _ g _ hl
    have hout := he.out
    have his := he.is
    rw [hr] at hout his
    simp only at hout
    have hst : σ'.store = σ.store := his.store.trans hs.is.store.symm
    obtain ⟨po, _, hpo, _⟩ := hout.ent
    obtain ⟨bs, hbs⟩ := hpo.bits
    have hb : σ.bits ≠ none := by
      intro hb
      have h1 := hs.inv.bits
      rw [hb] at h1
      have h2 := (getD_bits he.ext.inv hbs).S1
      unfold St.S at h1 h2
      rw [hst, h1.1] at h2
      have := h2.length_eq
      simp at this
    have same := same_of_store (C := calmCtx cfg (stdLim fuel)) hs.inv he.ext.inv he.ext.mono hst hb
    obtain ⟨hv, hx'⟩ := hout.lex he.flt _ _ _ (split_utf8 o) (split_utf8 p) hx
    have hx' := hx'.same he.ext.inv hs.inv same.symm
    generalize (scribe cfg.zero (es.map Prod.snd)).lex = L at hx hx' hv
    have opens : ∀ {t : List Char}, (∃ c u vs, words t = (c :: u) :: vs ∧ L.start c = .known) → L.opens t = true := by
      rintro t ⟨c, u, vs, h1, h2⟩
      unfold Lexicon.opens
      rw [h1]
      simp [h2]
    have hpr : (L.phrase (words o)).2 = .created ∧ L.pair (words o) (words p) = (L.phrase (words o)).1.phrase (words p) := by
      unfold Lexicon.pair at hv ⊢
      match ho' : L.phrase (words o) with
      | (l1, .created) => exact ⟨rfl, rfl⟩
      | (l1, .error) => rw [ho'] at hv; cases hv
      | (l1, .panic) => rw [ho'] at hv; cases hv
    rw [hpr.2] at hv hx'
    have mo := phrase_mem hpr.1
    have mp := phrase_mem hv
    have g2 := grown_phrase (L.phrase (words o)).1 (words p)
    have a := phrase_was hs.inv hx hx' (.refl L) (ws := words o) g2 hpr.1 (phrases_grow _ _ _ mo)
    have b := phrase_was hs.inv hx hx' (grown_phrase L (words o)) (ws := words p) (.refl _) hv mp
    exact ⟨⟨opens a.1, a.2⟩, opens b.1, b.2⟩

theorem known_found {cfg : Cfg} {fuel : Nat} {es : List ((Nat → Cfg) × Cmd)}
    (h : CalmMoods cfg fuel (es.map fun e => (e.1, e.2.event))) {o p : List Char} (ho : (utf8 o).length < fuel)
    (hp : (utf8 p).length < fuel) {g : Nat → Cfg} (hg : Suits cfg g) {d m}
    (hl : Go.looks g (Detail.provide fuel (utf8 o) (utf8 p)) (moodily cfg fuel (es.map fun e => (e.1, e.2.event))).world.store
      (moodily cfg fuel (es.map fun e => (e.1, e.2.event))).world.mem = some (.ok d, m)) :
    ((scribe cfg.zero (es.map Prod.snd)).lex.opens o = true ∧ words o ∈ (scribe cfg.zero (es.map Prod.snd)).lex.phrases) ∧
    (scribe cfg.zero (es.map Prod.snd)).lex.opens p = true ∧ words p ∈ (scribe cfg.zero (es.map Prod.snd)).lex.phrases :=
  known_found_ok h (TextOK.std ho) (TextOK.std hp) hg hl

/-- the texts of a note are short enough -/
theorem noted_text {cfg : Cfg} {fuel : Nat} {es : List ((Nat → Cfg) × Cmd)}
    (h : CalmMoods cfg fuel (es.map fun e => (e.1, e.2.event))) {n : Note} (hn : n ∈ (scribe cfg.zero (es.map Prod.snd)).notes) :
    TextOK (stdLim fuel) (utf8 n.object) ∧ TextOK (stdLim fuel) (utf8 n.property) := by
  have hni : n.item ∈ (scribe cfg.zero (es.map Prod.snd)).notes.map Note.item := List.mem_map_of_mem hn
  rw [(scribe_moody h).notes] at hni
  obtain ⟨e, he, hei⟩ := List.mem_map.1 hni
  have e1 : e.object = utf8 n.object := congrArg Item.object hei
  have e2 : e.property = utf8 n.property := congrArg Item.property hei
  rcases lexT_moody h with ⟨hb, _⟩ | ⟨σ, hs, hc, hx, hT⟩
  · rw [hb] at he; cases he
  · have := hs.keeps.ok e he
    rw [← e1, ← e2]
    exact ⟨this.text, this.ptext⟩

/-- a text that is looked up now and later is looked up in between -/
theorem opens_between {l l' l'' : Lexicon} (h : LexGrown l l') (h' : LexGrown l' l'') {t : List Char} (h1 : l.opens t = true)
    (h2 : l''.opens t = true) : l'.opens t = true := by
  unfold Lexicon.opens at h1 h2 ⊢
  match ht : words t with
  | [] => rw [ht] at h1; cases h1
  | [] :: _ => rw [ht] at h1; cases h1
  | (c :: u) :: vs =>
    rw [ht] at h1 h2
    simp only [beq_iff_eq] at h1 h2 ⊢
    have k : ∀ {x : Lexicon}, x.start c = .known ↔ x.branches c = 1 ∧ x.heads.count c = 1 := by
      intro x
      unfold Lexicon.start
      split
      · simp; omega
      · split <;> simp_all
    rw [k] at h1 h2 ⊢
    have a1 := branches_mono h.used c
    have a2 := branches_mono h'.used c
    exact ⟨by omega, by rw [h.closed c (by omega)]; exact h1.2⟩

theorem scribe_grown (zero : Bool) (cs cs' : List Cmd) : LexGrown (scribe zero cs).lex (scribe zero (cs ++ cs')).lex := by
  unfold scribe
  rw [List.foldl_append]
  exact (steps_grown zero cs' _).1

end Semnet
