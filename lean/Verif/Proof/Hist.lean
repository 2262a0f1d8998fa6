import Verif.Proof.Quiet
import Verif.Proof.Text
/-
  Histories: what the log promises holds in the storage.
-/
namespace Semnet
open Spec

/-- What the log says about one remark is so in the storage. -/
structure Entry.OK (lim : Lim) (σ : St) (log : List Entry) (e : Entry) : Prop where
  ent : RemEnt σ e.handle
  says : Says σ e.handle (wordsOf e.object) (wordsOf e.property)
  obj : asText e.object = e.object
  prop : asText e.property = e.property
  text : TextOK lim e.object
  ptext : TextOK lim e.property
  fact : match e.opener with
    | some i => ∃ e', log[i]? = some e' ∧ Belongs σ e.handle (some e'.handle)
    | none => Belongs σ e.handle none
  zero : e.opener = none → σ.tag 0 = .zero

theorem getElem?_append_some {α : Type} {l l' : List α} {i : Nat} {a : α} (h : l[i]? = some a) :
    (l ++ l')[i]? = some a := by
  rw [List.getElem?_append_left (by exact (List.getElem?_eq_some_iff.1 h).1)]; exact h

theorem Entry.OK.mono {lim} {σ σ' : St} (m : Mono σ σ') {log log' : List Entry} {e : Entry}
    (h : Entry.OK lim σ log e) : Entry.OK lim σ' (log ++ log') e where
  ent := h.ent.mono m
  says := h.says.mono m h.ent
  obj := h.obj
  prop := h.prop
  text := h.text
  ptext := h.ptext
  fact := by
    have := h.fact
    cases ho : e.opener with
    | none => rw [ho] at this; exact this.mono m h.ent
    | some i =>
      rw [ho] at this
      obtain ⟨e', h1, h2⟩ := this
      exact ⟨e', getElem?_append_some h1, h2.mono m h.ent⟩
  zero ho := by rw [m.tag 0 (by rw [h.zero ho]; simp)]; exact h.zero ho

theorem Entry.OK.fact' {lim} {σ : St} {log} {e : Entry} (h : Entry.OK lim σ log e) :
    ∃ op, Belongs σ e.handle op ∧ ∀ i, e.opener = some i → ∃ e', log[i]? = some e' ∧ op = some e'.handle := by
  have := h.fact
  cases ho : e.opener with
  | none => rw [ho] at this; exact ⟨none, this, fun i hi => by cases hi⟩
  | some i =>
    rw [ho] at this
    obtain ⟨e', h1, h2⟩ := this
    exact ⟨_, h2, fun j hj => by cases hj; exact ⟨e', h1, rfl⟩⟩

/-- The storage keeps the promises of the log. -/
structure Keeps (lim : Lim) (σ : St) (log : List Entry) : Prop where
  ok : ∀ e ∈ log, Entry.OK lim σ log e
  nodup : (log.map (·.handle.cls)).Nodup

theorem Keeps.mono {lim} {σ σ' : St} (m : Mono σ σ') {log} (h : Keeps lim σ log) : Keeps lim σ' log where
  ok e he := by simpa using (h.ok e he).mono m (log' := [])
  nodup := h.nodup

theorem Keeps.get {lim} {σ : St} {log} (h : Keeps lim σ log) {i : Nat} {e : Entry} (he : log[i]? = some e) :
    Entry.OK lim σ log e := h.ok e (List.mem_of_getElem? he)

theorem Keeps.add {lim} {σ σ' : St} (m : Mono σ σ') {log} (h : Keeps lim σ log) {e : Entry}
    (he : Entry.OK lim σ' (log ++ [e]) e) (hf : σ.tag e.handle.cls = .none) : Keeps lim σ' (log ++ [e]) where
  ok a ha := by
    rcases List.mem_append.1 ha with ha | ha
    · exact (h.ok a ha).mono m
    · rw [List.mem_singleton.1 ha]; exact he
  nodup := by
    rw [List.map_append]
    refine List.nodup_append.2 ⟨h.nodup, by simp, ?_⟩
    intro x hx y hy
    simp only [List.map_cons, List.map_nil, List.mem_singleton] at hy
    obtain ⟨a, ha, rfl⟩ := List.mem_map.1 hx
    intro e1
    rw [hy] at e1
    have := (h.ok a ha).ent.tc
    rw [e1, hf] at this
    cases this

/-! ### one call -/

/-- what one call does to the lexicon -/
def Lexed (log : List Entry) (c : Call) (σ σ' : St) : Prop :=
  match c.pair log with
  | some (o, p) => ∃ v, PairSt σ σ' o p v
  | none => Same σ σ'

theorem PairErr.lexed {σ σ' : St} {o p X b} (h : PairErr σ σ' o p X b) : ∃ v, PairSt σ σ' o p v := by
  rcases h with h | ⟨_, _, h⟩ <;> exact ⟨_, h⟩

/-- what one call guarantees -/
def CallPost (C : Ctx) (log : List Entry) (c : Call) (σ : St) (out : Out (Option RemE)) (σ' : St) : Prop :=
  ExtC C σ σ' ∧ Lexed log c σ σ' ∧
    match out with
    | .ok (some r) => ∃ e, c.entry log r = some e ∧ e.handle = r ∧ Entry.OK C.lim σ' (log ++ [e]) e ∧
        σ.tag r.cls = .none ∧ ∀ o p, c.pair log = some (o, p) → Tying σ σ' r o p
    | _ => True

theorem Entry.OK.bits {lim σ log e} (h : Entry.OK lim σ log e) : σ.bits ≠ none := h.says.bits

theorem Lexed.same {log : List Entry} {c : Call} (hc : c.pair log = none) {σ σ' : St} (h : Same σ σ') : Lexed log c σ σ' := by
  unfold Lexed; rw [hc]; exact h

theorem quietWp {α : Type} {C : Ctx} (hR : C.R = false) {σ : St} {p : Go α} {log c} (hc : c.pair log = none)
    (h : wp C (fun _ σ' => Ext C σ σ' ∧ RO C σ σ') p σ) :
    wp C (CallPost C log c σ) (do let _ ← p; pure none) σ := by
  refine wp_bind (wp_mono ?_ h)
  intro o σ1 ⟨h1, h2⟩
  cases o <;> exact ⟨.same h1 (h2 hR), .same hc (h2 hR), trivial⟩

theorem wp_quietCall {C : Ctx} {σ : St} (hi : Inv C.cfg C.lim σ) {o : Op} (h : o.isRead = true) :
    wp C (fun _ σ' => Ext C σ σ' ∧ RO C σ σ') (Go.call o) σ := by
  refine wp_read hi (fun c s => isRead_step h c s) ?_ ?_
  · intro σ1 h1 h2 _ _ c
    cases (σ1.store.step c o).1 <;> exact ⟨h1, h2⟩
  · intro σ1 h1 h2 _ _; exact ⟨h1, h2⟩

theorem wp_getRemark {C : Ctx} {σ : St} (hi : Inv C.cfg C.lim σ) (x : Nat) :
    wp C (fun _ σ' => Ext C σ σ' ∧ RO C σ σ') (Graph.getRemark x) σ := by
  unfold Graph.getRemark Remark.readEntityByClass
  refine wp_bind (wp_mono ?_ (wp_quietCall hi rfl))
  intro o σ1 ⟨h1, r1⟩
  cases o with
  | ok a =>
    refine wp_bind (wp_mono ?_ (wp_quietCall h1.inv rfl))
    intro o σ2 ⟨h2, r2⟩
    cases o with
    | ok a =>
      refine wp_bind (wp_mono ?_ (wp_quietCall h2.inv rfl))
      intro o σ3 ⟨h3, r3⟩
      cases o <;> exact ⟨h1.trans (h2.trans h3), r1.trans (r2.trans r3)⟩
    | _ => exact ⟨h1.trans h2, r1.trans r2⟩
  | _ => exact ⟨h1, r1⟩

theorem noCall {C : Ctx} {σ : St} (hi : Inv C.cfg C.lim σ) {log c} (hc : c.pair log = none) :
    wp C (CallPost C log c σ) (pure none) σ := ⟨.refl hi, .same hc (.refl σ), trivial⟩

theorem WrL.call {C : Ctx} {σ : St} {p : Go RemE} {bad good log c} {o q : GoStr}
    (h : WrL C good bad p σ) (hc : c.pair log = some (o, q)) (hb : ∀ b σ', bad b σ' → ∃ v, PairSt σ σ' o q v)
    (hg' : ∀ r σ', good r σ' → PairSt σ σ' o q .created ∧ Tying σ σ' r o q)
    (hg : ∀ r σ', ExtC C σ σ' → good r σ' → ∃ e, c.entry log r = some e ∧ e.handle = r ∧
      Entry.OK C.lim σ' (log ++ [e]) e ∧ σ.tag r.cls = .none) :
    wp C (CallPost C log c σ) (do let r ← p; pure (some r)) σ := by
  refine wp_bind (wp_mono ?_ h)
  intro o σ1 ⟨h1, h2⟩
  have key : ∀ b, σ1.flt = true ∨ bad b σ1 → Lexed log c σ σ1 := by
    intro b h
    unfold Lexed
    rw [hc]
    rcases h with h | h
    · exact ⟨.created, fun h' => by rw [h] at h'; cases h'⟩
    · exact hb b σ1 h
  cases o with
  | ok r =>
    obtain ⟨e, e1, e2, e3, e4⟩ := hg r σ1 h1 h2
    refine ⟨h1, ?_, e, e1, e2, e3, e4, fun o' q' h => ?_⟩
    · unfold Lexed
      rw [hc]
      exact ⟨_, (hg' r σ1 h2).1⟩
    · rw [hc] at h; cases h; exact (hg' r σ1 h2).2
  | err e => exact ⟨h1, key _ h2, trivial⟩
  | panic => exact ⟨h1, key _ h2, trivial⟩
  | spin => exact h2.elim

/-- what a call needs -/
structure CallOK (C : Ctx) (fuel : Nat) (σ : St) (log : List Entry) : Prop where
  R : C.R = false
  up : C.up = true
  lo : C.lo = true
  inv : Inv C.cfg C.lim σ
  flt : σ.flt = false
  B : C.F = true → σ.bits ≠ none
  clean : C.cfg.zero = true → Clean σ
  L : C.lim.L ≤ fuel
  D : C.lim.D ≤ fuel
  two : 2 ≤ fuel
  keeps : Keeps C.lim σ log

theorem getElem?_concat {α : Type} (l : List α) (a : α) : (l ++ [a])[l.length]? = some a := by simp

theorem callWp {C : Ctx} {fuel : Nat} {σ : St} {log : List Entry} (k : CallOK C fuel σ log) (c : Call)
    (ht : ∀ t ∈ c.texts, TextOK C.lim t) : wp C (CallPost C log c σ) (c.prog fuel log) σ := by
  cases c with
  | createStory o p =>
    have ho := ht o (by simp [Call.texts])
    have hp := ht p (by simp [Call.texts])
    refine WrL.call (Wr.createStoryG k.R k.up k.lo k.inv k.B k.clean k.flt k.L k.D ho hp) rfl (fun _ _ h => h.1.2.lexed)
      (fun _ _ h => ⟨h.2.2.2.2.2, h.2.2.2.1.tying⟩) ?_
    intro r σ' h ⟨hs, _⟩
    refine ⟨_, rfl, rfl, ⟨hs.ent, ?_, asText_twice _, asText_twice _, ho.asText, hp.asText,
      ⟨_, getElem?_concat _ _, hs.fact⟩, fun h => by cases h⟩, hs.fresh⟩
    simp only [wordsOf_asText]; exact hs.says
  | addRemark h p =>
    have hp := ht p (by simp [Call.texts])
    simp only [Call.prog]
    cases he : log[h]? with
    | none => exact noCall k.inv (by simp [Call.pair, he])
    | some e =>
      have ok := k.keeps.get he
      obtain ⟨op, hop, hop'⟩ := ok.fact'
      have e1 : textOf (wordsOf e.object) = e.object := by rw [textOf_wordsOf, ok.obj]
      refine WrL.call (Wr.addRemarkToFact k.R k.up k.lo k.inv k.B k.clean k.flt k.L k.D hp ok.ent ok.says hop ?_ ?_) (o := e.object) (q := p)
        (by simp [Call.pair, he]) (fun _ _ h => by rw [← e1]; exact h.1.2.lexed) (fun _ _ h => by rw [← e1]; exact ⟨h.2.2.2.2.2, h.2.2.2.1.tying⟩) ?_
      · rw [textOf_wordsOf, ok.obj]; exact ok.text
      · rw [textOf_wordsOf, ok.obj]
      intro r σ' hx ⟨hs, _⟩
      refine ⟨⟨r, e.object, asText p, e.opener⟩, by simp [Call.entry, he], rfl,
        ⟨hs.ent, ?_, ok.obj, asText_twice _, ok.text, hp.asText, ?_,
          fun h => by rw [hx.mono.tag 0 (by rw [ok.zero h]; simp)]; exact ok.zero h⟩, hs.fresh⟩
      · simp only [wordsOf_asText]; exact hs.says
      · have hf := ok.fact
        have hfact := hs.fact
        cases ho : e.opener with
        | none =>
          rw [ho] at hf
          simp only
          cases op with
          | none => exact hfact
          | some r1 =>
            obtain ⟨f, hf1, hf2, _⟩ := hf
            obtain ⟨g, hg1, hg2, _⟩ := hop
            rw [hf1] at hg1
            have e1 : f.remark = g.remark := by injection hg1
            have := hf2.tr
            rw [e1, hg2.tr] at this
            cases this
        | some i =>
          obtain ⟨e', h1, h2⟩ := hop' i ho
          subst h2
          exact ⟨e', getElem?_append_some h1, hfact⟩
  | addFact h o p =>
    have ho := ht o (by simp [Call.texts])
    have hp := ht p (by simp [Call.texts])
    simp only [Call.prog]
    cases he : log[h]? with
    | none => exact noCall k.inv (by simp [Call.pair, he])
    | some e =>
      have ok := k.keeps.get he
      refine WrL.call (Wr.addFactToStory k.R k.up k.lo k.inv k.B k.clean k.flt k.L k.D ho hp ok.ent) (o := o) (q := p)
        (by simp [Call.pair, he]) (fun _ _ h => h.1.2.lexed) (fun _ _ h => ⟨h.2.2.2.2.2.2, h.2.2.2.2.1.tying⟩) ?_
      intro r σ' h ⟨hs, hz, _⟩
      refine ⟨_, rfl, rfl, ⟨hs.ent, ?_, asText_twice _, asText_twice _, ho.asText, hp.asText, hs.fact,
        fun _ => h.inv.tag0 hz⟩, hs.fresh⟩
      simp only [wordsOf_asText]; exact hs.says
  | addChild h o p =>
    have ho := ht o (by simp [Call.texts])
    have hp := ht p (by simp [Call.texts])
    simp only [Call.prog]
    cases he : log[h]? with
    | none => exact noCall k.inv (by simp [Call.pair, he])
    | some e =>
      have ok := k.keeps.get he
      refine WrL.call (Wr.createChildStory k.R k.up k.lo k.inv k.B k.clean k.flt k.L k.D k.two ho hp ok.ent) (o := o) (q := p)
        (by simp [Call.pair, he]) (fun _ _ h => h.1.2.lexed) (fun _ _ h => ⟨h.2.2.2.2.2.2, h.2.2.2.2.1.tying⟩) ?_
      intro r σ' h ⟨hs, _⟩
      refine ⟨_, rfl, rfl, ⟨hs.ent, ?_, asText_twice _, asText_twice _, ho.asText, hp.asText,
      ⟨_, getElem?_concat _ _, hs.fact⟩, fun h => by cases h⟩, hs.fresh⟩
      simp only [wordsOf_asText]; exact hs.says
  | query h q =>
    simp only [Call.prog]
    cases he : log[h]? with
    | none => exact noCall k.inv (by simp [Call.pair])
    | some e => exact quietWp k.R rfl ((Quiet.query fuel e.handle q).wp k.inv (k.keeps.get he).bits)
  | getRemark i =>
    simp only [Call.prog]
    refine wp_bind (wp_mono ?_ (wp_getRemark k.inv i))
    intro o σ1 ⟨h1, h2⟩
    cases o <;> exact ⟨.same h1 (h2 k.R), .same rfl (h2 k.R), trivial⟩

/-! ### events -/

/-- `σ` is a ghost view of `st`, and the storage keeps the promises of the log -/
structure Holds (cfg : Cfg) (lim : Lim) (st : State) (σ : St) : Prop where
  is : σ.Is st.world
  inv : Inv cfg lim σ
  flt : σ.flt = false
  keeps : Keeps lim σ st.log

/-- forget a failure -/
theorem Same.unfail (σ : St) (m : Layer) : Same σ { σ with mem := m, flt := false } := ⟨rfl, rfl, rfl⟩

/-- What one event does.  `F`: failures and crashes are possible. -/
structure EventPost (cfg : Cfg) (lim : Lim) (σ : St) (st st' : State) (calm : Prop) (σ' : St) : Prop where
  holds : Holds cfg lim st' σ'
  mono : Mono σ σ'
  clean : calm → Clean σ → Clean σ'
  log : ∃ l, st'.log = st.log ++ l

theorem Lexed.trans {cfg lim} {log : List Entry} {c : Call} {σ σ1 σ' : St} (h : Lexed log c σ σ1) (hf : σ1.flt = false)
    (hi : Inv cfg lim σ1) (hi' : Inv cfg lim σ') (hs : Same σ1 σ') : Lexed log c σ σ' := by
  unfold Lexed at h ⊢
  cases hc : c.pair log with
  | none => rw [hc] at h; exact h.trans hs
  | some q =>
    rw [hc] at h
    obtain ⟨v, h⟩ := h
    exact ⟨v, fun _ L os ps ho hp hL => ⟨(h hf L os ps ho hp hL).1, (h hf L os ps ho hp hL).2.same hi hi' hs⟩⟩

theorem callLexed {C : Ctx} {fuel : Nat} {σ : St} {st : State} (k : CallOK C fuel σ st.log)
    (hw : σ.Is st.world) (c : Call) (f : Nat → Fate) (hf : C.F = true ∨ f = Go.noFault)
    (ht : ∀ t ∈ c.texts, TextOK C.lim t) :
    ∃ σ', EventPost C.cfg C.lim σ st (st.call C.cfg fuel c f) (f = Go.noFault) σ' ∧
      (f = Go.noFault → Lexed st.log c σ σ') := by
  obtain ⟨σ1, h1, ⟨h2, hlx, h3⟩, h4⟩ := wp_run k.R hf hw (callWp k c ht)
  refine ⟨{ σ1 with mem := σ1.mem, flt := false }, ?_⟩
  have hs : Same σ1 { σ1 with mem := σ1.mem, flt := false } := .unfail σ1 _
  have hi : Inv C.cfg C.lim { σ1 with mem := σ1.mem, flt := false } := h2.inv.same hs h2.inv.mem
  have hm := h2.mono.trans hs.mono
  refine ⟨?_, fun hf => hlx.trans (by rw [h4 hf]; exact k.flt) h2.inv hi hs⟩
  unfold State.call
  generalize (Go.run C.cfg (Call.prog fuel st.log c) f st.world) = out at h1 h3
  obtain ⟨out, w⟩ := out
  have hcl : f = Go.noFault → Clean σ → Clean { σ1 with mem := σ1.mem, flt := false } := fun hf hc =>
    (h2.clean hc (by rw [h4 hf]; exact k.flt)).same hs
  have plain : ∃ l, st.log = st.log ++ l := ⟨[], by simp⟩
  cases out with
  | ok o =>
    cases o with
    | none => exact ⟨⟨⟨h1.store, h1.mem⟩, hi, rfl, k.keeps.mono hm⟩, hm, hcl, plain⟩
    | some r =>
      obtain ⟨e, e1, e2, e3, e4⟩ := h3
      simp only [e1, Option.toList]
      refine ⟨⟨⟨h1.store, h1.mem⟩, hi, rfl, ?_⟩, hm, hcl, _, rfl⟩
      refine k.keeps.add hm ?_ (by rw [e2]; exact e4.1)
      simpa using e3.mono hs.mono (log' := [])
  | err e => exact ⟨⟨⟨h1.store, h1.mem⟩, hi, rfl, k.keeps.mono hm⟩, hm, hcl, plain⟩
  | panic => exact ⟨⟨⟨h1.store, h1.mem⟩, hi, rfl, k.keeps.mono hm⟩, hm, hcl, plain⟩
  | spin => exact ⟨⟨⟨h1.store, h1.mem⟩, hi, rfl, k.keeps.mono hm⟩, hm, hcl, plain⟩

theorem callState {C : Ctx} {fuel : Nat} {σ : St} {st : State} (k : CallOK C fuel σ st.log)
    (hw : σ.Is st.world) (c : Call) (f : Nat → Fate) (hf : C.F = true ∨ f = Go.noFault)
    (ht : ∀ t ∈ c.texts, TextOK C.lim t) :
    ∃ σ', EventPost C.cfg C.lim σ st (st.call C.cfg fuel c f) (f = Go.noFault) σ' :=
  let ⟨σ', h, _⟩ := callLexed k hw c f hf ht
  ⟨σ', h⟩

theorem fresh_mem {σ : St} : Layer.fresh.isInitialized = true →
    σ.bits = some (Layer.fresh.zeroEntity, Layer.fresh.oneEntity) := fun h => by cases h

theorem eventPost {C : Ctx} {fuel : Nat} {σ : St} {st : State} (k : CallOK C fuel σ st.log) (hw : σ.Is st.world)
    (e : Event) (hf : C.F = true ∨ e.Calm) (ht : ∀ t ∈ e.texts, TextOK C.lim t) :
    ∃ σ', EventPost C.cfg C.lim σ st (st.event C.cfg fuel e) e.Calm σ' := by
  cases e with
  | call c f => exact callState k hw c f hf ht
  | crash c f n =>
    have hF : C.F = true := hf.resolve_right id
    obtain ⟨σ1, h1, h2⟩ := wp_crash k.R hF n k.inv hw (f := f) (callWp k c ht)
    have hs : Same σ1 { σ1 with mem := Layer.fresh, flt := false } := .unfail σ1 _
    have hm := h2.mono.trans hs.mono
    exact ⟨{ σ1 with mem := Layer.fresh, flt := false },
      ⟨⟨h1, rfl⟩, h2.inv.same hs fresh_mem, rfl, k.keeps.mono hm⟩, hm, fun h => h.elim, [], by simp [State.event]⟩
  | reopen =>
    have hs : Same σ { σ with mem := Layer.fresh, flt := false } := .unfail σ _
    exact ⟨{ σ with mem := Layer.fresh, flt := false },
      ⟨⟨hw.store, rfl⟩, k.inv.same hs fresh_mem, rfl, k.keeps.mono hs.mono⟩, hs.mono, fun _ hc => hc.same hs,
      [], by simp [State.event]⟩

end Semnet
