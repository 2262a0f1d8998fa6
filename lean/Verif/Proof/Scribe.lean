import Verif.Proof.Machine
import Verif.Spec.Scribe
/-
  The abstract machine for arbitrary texts runs in step with the code.
-/
namespace Semnet
open Spec

/-! ### texts -/

theorem strOf_eq (u : List Char) : strOf u = utf8 u := by
  unfold strOf stringOf utf8
  rw [List.flatMap_map]
  exact congrArg (u.flatMap ·) (funext encode_char)

theorem split_utf8 (t : List Char) : splitSpace (utf8 t) = (words t).map strOf := by
  rw [show strOf = utf8 from funext strOf_eq]
  exact splitSpace_chars t

theorem utf8_bytes (t : List Char) : utf8 t = bytes (String.ofList t) := by
  rw [bytes_eq]; simp [utf8]

theorem asText_utf8 (t : List Char) : asText (utf8 t) = utf8 t := by
  rw [utf8_bytes, asText_bytes]

/-! ### the lexicon of a state -/

/-- `L` is the lexicon of `st` -/
def Lex (cfg : Cfg) (lim : Lim) (st : State) (L : Lexicon) : Prop :=
  (Blank cfg st ∧ L = ⟨[], [], []⟩) ∨ ∃ σ, Holds cfg lim st σ ∧ Clean σ ∧ LexRel σ L

theorem rootSt_char (cfg : Cfg) {p e} : ¬ CharEnt (rootSt cfg) p e := by
  intro h
  cases h with
  | head _ _ h => rw [rootSt_T] at h; cases h
  | tail _ _ h => rw [rootSt_S] at h; cases h

theorem rootSt_lex (cfg : Cfg) : LexRel (rootSt cfg) ⟨[], [], []⟩ where
  char p := ⟨fun ⟨_, h⟩ => (rootSt_char cfg h).elim, fun ⟨_, _, h, _⟩ => by cases h⟩
  heads c e h := (rootSt_char cfg h).elim
  sub c h := by cases h
  first ws h := by cases h
  phr c u vs h := by cases h
  wsib x y y' rs h := by rw [rootSt_T] at h; cases h
  psib x y y' ws h := by rw [rootSt_T] at h; cases h

theorem Lex.sound {cfg lim st L} (h : Lex cfg lim st L) : Sound cfg lim st := by
  rcases h with ⟨h, _⟩ | ⟨σ, h, hc, _⟩
  · exact .inl h
  · exact .inr ⟨σ, h, hc⟩

/-- a state, seen by a creating call -/
theorem Lex.ready {cfg : Cfg} {lim : Lim} {fuel : Nat} (hd : Policy cfg lim) {st : State} {L : Lexicon}
    (h : Lex cfg lim st L) {k : Call} (hk : k.pair st.log ≠ none) :
    ∃ σ st', Holds cfg lim st' σ ∧ Clean σ ∧ LexRel σ L ∧ st'.log = st.log ∧ σ.T 0 = st.world.store.targets 0 ∧
      ((k.prog fuel st.log).exec cfg st.world).1 = ((k.prog fuel st'.log).exec cfg st'.world).1 ∧
      st.call cfg fuel k Go.noFault = st'.call cfg fuel k Go.noFault := by
  rcases h with ⟨h, rfl⟩ | ⟨σ, h, hc, hl⟩
  · unfold Blank at h
    subst h
    refine ⟨_, State.roots cfg, roots_holds hd, rootSt_clean cfg, rootSt_lex cfg, rfl, rfl, ?_⟩
    cases k with
    | createStory o p =>
      refine ⟨?_, create_blank cfg fuel o p⟩
      simp only [Call.prog]
      rw [exec_bind, exec_bind, show (State.init cfg).world = ⟨Store.empty cfg, Layer.fresh⟩ from rfl, createStory_empty]
      rfl
    | _ => exact absurd rfl hk
  · exact ⟨σ, st, h, hc, hl, rfl, h.T0, rfl, rfl⟩

/-- what remains of a verdict on texts -/
def Spec.Verdict.unless (v : Verdict) (refused : Bool) : Verdict :=
  match v with
  | .created => if refused then .error else .created
  | v => v

theorem Lex.verdict {cfg : Cfg} {lim : Lim} {fuel : Nat} (hd : Policy cfg lim) (hf : Fits lim fuel) {st : State}
    {L : Lexicon} (h : Lex cfg lim st L) {m : Machine} (hl : cfg.zero = true → m.links = (st.world.store.targets 0).length)
    {k : Call} (ht : ∀ t ∈ k.texts, TextOK lim t) {o p : GoStr} (hp : k.pair st.log = some (o, p)) {os ps : List (List Char)}
    (ho : splitSpace o = os.map strOf) (hps : splitSpace p = ps.map strOf) :
    ((L.pair os ps).2.unless (m.refuses cfg.zero k)).Is ((k.prog fuel st.log).exec cfg st.world).1 := by
  obtain ⟨σ, st', hs, hc, hL, hlog, h0, hx, _⟩ := h.ready (fuel := fuel) hd (k := k) (by rw [hp]; simp)
  rw [hx]
  rw [← hlog] at hp
  obtain ⟨σ', he⟩ := WrL.ends hs.is hs.flt (createWp (hs.calm hf hc) ht hp)
  have hout := he.out
  have refuse : extraErr cfg σ k ↔ m.refuses cfg.zero k = true := by
    cases k with
    | addFact i o p => cases hz : cfg.zero <;> simp [extraErr, Machine.refuses, hz]
    | addChild i o p =>
      cases hz : cfg.zero with
      | false => simp [extraErr, Machine.refuses, hz]
      | true => simp [extraErr, Machine.refuses, hz, h0, hl hz]
    | _ => simp [extraErr, Machine.refuses]
  generalize ((k.prog fuel st'.log).exec cfg st'.world).1 = out at hout
  cases out with
  | ok x =>
    obtain ⟨r, rfl, _, _, _, _, hlk, hps'⟩ := hout
    rw [(hps' he.flt L os ps ho hps hL).1]
    simp only [Spec.Verdict.unless]
    rw [if_neg (fun h => hlk.allowed (refuse.2 h))]
    exact ⟨r, rfl⟩
  | err e =>
    rcases hout.1.2 with h1 | ⟨_, h2, h1⟩
    · rw [(h1 he.flt L os ps ho hps hL).1]
      exact ⟨e, rfl⟩
    · rw [(h1 he.flt L os ps ho hps hL).1]
      rcases h2 with h2 | h2
      · exact absurd hc h2.1
      · simp only [Spec.Verdict.unless]
        rw [if_pos (refuse.1 h2)]
        exact ⟨e, rfl⟩
  | panic =>
    rcases hout.1.2 with h1 | ⟨h3, h2, h1⟩
    · rw [(h1 he.flt L os ps ho hps hL).1]; rfl
    · cases h3
  | spin => exact hout.elim

/-- the lexicon after a creating call -/
theorem Lex.pair {cfg : Cfg} {lim : Lim} {fuel : Nat} (hd : Policy cfg lim) (hf : Fits lim fuel) {st : State}
    {L : Lexicon} (h : Lex cfg lim st L) {k : Call} (ht : ∀ t ∈ k.texts, TextOK lim t) {o p : GoStr}
    (hp : k.pair st.log = some (o, p)) {os ps : List (List Char)}
    (ho : splitSpace o = os.map strOf) (hps : splitSpace p = ps.map strOf) :
    Lex cfg lim (st.call cfg fuel k Go.noFault) (L.pair os ps).1 := by
  obtain ⟨σ, st', hs, hc, hL, hlog, _, _, hcall⟩ := h.ready (fuel := fuel) hd (k := k) (by rw [hp]; simp)
  rw [hcall]
  rw [← hlog] at hp
  obtain ⟨σ', ev, hx⟩ := callLexed (C := calmCtx cfg lim) (hs.calm hf hc) hs.is k Go.noFault (.inr rfl) ht
  have hx := hx rfl
  unfold Lexed at hx
  rw [hp] at hx
  obtain ⟨v, hv⟩ := hx
  exact .inr ⟨σ', ev.holds, ev.clean rfl hc, (hv ev.holds.flt L os ps ho hps hL).2⟩

/-- other events do not change the lexicon -/
theorem Lex.quiet {cfg : Cfg} {lim : Lim} {fuel : Nat} (hf : Fits lim fuel) {st : State}
    {L : Lexicon} (h : Lex cfg lim st L) {k : Call} (ht : ∀ t ∈ k.texts, TextOK lim t) (hp : k.pair st.log = none) :
    Lex cfg lim (st.call cfg fuel k Go.noFault) L := by
  rcases h with ⟨h, rfl⟩ | ⟨σ, hs, hc, hL⟩
  · refine .inl ⟨?_, rfl⟩
    unfold Blank at h ⊢
    subst h
    cases k with
    | createStory => cases hp
    | addRemark => rfl
    | addFact => rfl
    | addChild => rfl
    | query => rfl
    | getRemark i => exact getRemark_blank cfg fuel i
  · obtain ⟨σ', ev, hx⟩ := callLexed (C := calmCtx cfg lim) (hs.calm hf hc) hs.is k Go.noFault (.inr rfl) ht
    have hx := hx rfl
    unfold Lexed at hx
    rw [hp] at hx
    exact .inr ⟨σ', ev.holds, ev.clean rfl hc, hL.same hs.inv ev.holds.inv hx⟩

theorem Lex.reopen {cfg : Cfg} {lim : Lim} {fuel : Nat} {st : State} {L : Lexicon} (h : Lex cfg lim st L) :
    Lex cfg lim (st.event cfg fuel .reopen) L := by
  rcases h with ⟨h, rfl⟩ | ⟨σ, hs, hc, hL⟩
  · unfold Blank at h
    subst h
    exact .inl ⟨rfl, rfl⟩
  · have e : Same σ { σ with mem := Layer.fresh, flt := false } := .unfail σ _
    have hi : Inv cfg lim { σ with mem := Layer.fresh, flt := false } := hs.inv.same e fresh_mem
    exact .inr ⟨{ σ with mem := Layer.fresh, flt := false }, ⟨⟨hs.is.store, rfl⟩, hi, rfl, hs.keeps.mono e.mono⟩, hc.same e, hL.same hs.inv hi e⟩

/-! ### the scribe -/

theorem scribe_pair {s : Scribe} {log : List Entry} (hm : s.notes.map Note.item = log.map Entry.item) {c : Cmd} {k : Call}
    (hk : c.call = some k) : k.pair log = (s.note c).map fun n => (utf8 n.object, utf8 n.property) := by
  have key : ∀ h : Nat, log[h]?.map Entry.item = s.notes[h]?.map Note.item := fun h => by
    rw [← List.getElem?_map, ← List.getElem?_map, hm]
  cases c with
  | createStory o p => cases hk; rfl
  | addRemark h p =>
    cases hk
    have := key h
    simp only [Call.pair, Scribe.note]
    cases h1 : log[h]? <;> cases h2 : s.notes[h]? <;> rw [h1, h2] at this <;> simp at this <;> simp
    have h3 : (Entry.item _).object = (Note.item _).object := congrArg Item.object this
    exact h3
  | addFact h o p =>
    cases hk
    have := key h
    simp only [Call.pair, Scribe.note]
    cases h1 : log[h]? <;> cases h2 : s.notes[h]? <;> rw [h1, h2] at this <;> simp at this <;> simp
  | addChild h o p =>
    cases hk
    have := key h
    simp only [Call.pair, Scribe.note]
    cases h1 : log[h]? <;> cases h2 : s.notes[h]? <;> rw [h1, h2] at this <;> simp at this <;> simp
  | query => cases hk; rfl
  | getRemark => cases hk; rfl
  | reopen => cases hk

theorem scribe_note {s : Scribe} {log : List Entry} (hm : s.notes.map Note.item = log.map Entry.item) {c : Cmd} {k : Call}
    (hk : c.call = some k) {n : Note} (hn : s.note c = some n) {r : RemE} {e : Entry} (he : k.entry log r = some e) :
    n.item = e.item := by
  have hlen : s.notes.length = log.length := by
    have := congrArg List.length hm
    simpa using this
  cases c with
  | createStory o p => cases hk; cases hn; cases he; simp [Note.item, Entry.item, asText_utf8, hlen]
  | addRemark h p =>
    cases hk
    have : log[h]?.map Entry.item = s.notes[h]?.map Note.item := by
      rw [← List.getElem?_map, ← List.getElem?_map, hm]
    simp only [Call.entry] at he
    simp only [Scribe.note] at hn
    cases h1 : log[h]? with
    | none => rw [h1] at he; cases he
    | some e' =>
      cases h2 : s.notes[h]? with
      | none => rw [h2] at hn; cases hn
      | some n' =>
        rw [h1] at he this
        rw [h2] at hn this
        cases he; cases hn
        simp only [Option.map_some, Option.some.injEq] at this
        have a := congrArg Item.object this
        have b := congrArg Item.opener this
        simp only [Entry.item, Note.item] at a b
        simp [Note.item, Entry.item, asText_utf8, a, b]
  | addFact h o p =>
    cases hk
    obtain ⟨_, _, rfl⟩ := Option.map_eq_some_iff.1 hn
    cases he; simp [Note.item, Entry.item, asText_utf8]
  | addChild h o p =>
    cases hk
    obtain ⟨_, _, rfl⟩ := Option.map_eq_some_iff.1 hn
    cases he; simp [Note.item, Entry.item, asText_utf8, hlen]
  | query => cases hn
  | getRemark => cases hn
  | reopen => cases hn

theorem scribe_refuses {s : Scribe} {c : Cmd} {k : Call} (hk : c.call = some k) (zero : Bool) :
    s.refuses zero c = s.machine.refuses zero k := by
  cases c <;> cases hk <;> rfl

theorem scribe_link {c : Cmd} {k : Call} (hk : c.call = some k) (n : Nat) : c.link n = k.link n := by
  cases c <;> cases hk <;> rfl

/-- the state and the scribe agree -/
structure Agree (cfg : Cfg) (lim : Lim) (st : State) (s : Scribe) : Prop where
  notes : s.notes.map Note.item = st.log.map Entry.item
  links : cfg.zero = true → s.links = (st.world.store.targets 0).length
  lex : Lex cfg lim st s.lex

theorem judge_eq {zero : Bool} {s : Scribe} {c : Cmd} {n : Note} (hn : s.note c = some n) :
    s.judge zero c = some ((s.lex.pair (words n.object) (words n.property)).1,
      (s.lex.pair (words n.object) (words n.property)).2.unless (s.refuses zero c)) := by
  unfold Scribe.judge
  rw [hn]
  simp only [Option.map_some]
  cases s.lex.pair (words n.object) (words n.property) with
  | mk l v => cases v <;> rfl

theorem Agree.verdict {cfg : Cfg} {lim : Lim} {fuel : Nat} (hd : Policy cfg lim) (hf : Fits lim fuel) {st : State}
    {s : Scribe} (h : Agree cfg lim st s) {c : Cmd} {k : Call} (hk : c.call = some k) (ht : ∀ t ∈ k.texts, TextOK lim t)
    {l : Lexicon} {v : Verdict} (hv : s.judge cfg.zero c = some (l, v)) :
    v.Is ((k.prog fuel st.log).exec cfg st.world).1 ∧ Lex cfg lim (st.call cfg fuel k Go.noFault) l := by
  cases hn : s.note c with
  | none => unfold Scribe.judge at hv; rw [hn] at hv; cases hv
  | some n =>
    have hp := scribe_pair h.notes hk
    rw [hn] at hp
    rw [judge_eq hn] at hv
    cases hv
    rw [scribe_refuses hk]
    exact ⟨h.lex.verdict hd hf (m := s.machine) h.links ht hp (split_utf8 _) (split_utf8 _),
      h.lex.pair hd hf ht hp (split_utf8 _) (split_utf8 _)⟩

theorem Verdict.ok_iff {out : Out (Option RemE)} {v : Verdict} (h : v.Is out) : v = .created ↔ ∃ r, out = .ok (some r) := by
  cases v with
  | created => exact ⟨fun _ => h, fun _ => rfl⟩
  | error => obtain ⟨x, rfl⟩ := h; exact ⟨fun h => (by cases h), fun ⟨_, h⟩ => (by cases h)⟩
  | panic => cases h; exact ⟨fun h => (by cases h), fun ⟨_, h⟩ => (by cases h)⟩

theorem Verdict.unique {out : Out (Option RemE)} {v v' : Verdict} (h : v.Is out) (h' : v'.Is out) : v = v' := by
  cases v <;> cases v' <;> simp [Verdict.Is] at h h' <;> first
    | rfl
    | (obtain ⟨_, rfl⟩ := h; cases h'; done)
    | (obtain ⟨_, rfl⟩ := h; obtain ⟨_, h'⟩ := h'; cases h'; done)
    | (subst h; obtain ⟨_, h'⟩ := h'; cases h'; done)

/-- one step of scribe and code -/
theorem Agree.call {cfg : Cfg} {lim : Lim} {fuel : Nat} (hd : Policy cfg lim) (hf : Fits lim fuel) {st : State}
    {s : Scribe} (h : Agree cfg lim st s) {c : Cmd} {k : Call} (hk : c.call = some k) (ht : ∀ t ∈ k.texts, TextOK lim t) :
    Agree cfg lim (st.call cfg fuel k Go.noFault) (s.step cfg.zero c) := by
  have hT := fun hz => call_T0 hd hf hz h.lex.sound (c := k) ht
  have hp := scribe_pair h.notes hk
  cases hj : s.judge cfg.zero c with
  | none =>
    have hn : s.note c = none := by
      cases hn : s.note c with
      | none => rfl
      | some n => rw [judge_eq hn] at hj; cases hj
    rw [hn] at hp
    have hlog : (st.call cfg fuel k Go.noFault).log = st.log := by
      rcases call_gain (cfg := cfg) (fuel := fuel) (st := st) (c := k) (f := Go.noFault) with h1 | ⟨r, e, o, p, w, h1, h2, h3, h4, h5⟩
      · exact h1
      · rw [hp] at h4; cases h4
    have hs : s.step cfg.zero c = s := by unfold Scribe.step; rw [hj]
    rw [hs]
    refine ⟨by rw [hlog]; exact h.notes, fun hz => ?_, h.lex.quiet hf ht hp⟩
    rw [hT hz, if_pos (by rw [hlog]), h.links hz]
  | some q =>
    obtain ⟨l, v⟩ := q
    obtain ⟨hv, hlex⟩ := h.verdict hd hf hk ht hj
    have hne : k.pair st.log ≠ none := by
      rw [hp]
      intro hh
      have : s.note c = none := by simpa using hh
      unfold Scribe.judge at hj
      rw [this] at hj
      cases hj
    rcases call_gain (cfg := cfg) (fuel := fuel) (st := st) (c := k) (f := Go.noFault) with h1 | ⟨r, e, o, p, w, h1, h2, h3, h4, h5⟩
    · have hvc : v ≠ .created := by
        intro hh
        obtain ⟨r, hr⟩ := (Verdict.ok_iff hv).1 hh
        exact (call_log_iff hne).1 (by rw [h1]) r hr
      have hs : s.step cfg.zero c = { s with lex := l } := by
        unfold Scribe.step
        rw [hj]
        cases v with
        | created => exact absurd rfl hvc
        | error => rfl
        | panic => rfl
      rw [hs]
      refine ⟨by rw [h1]; exact h.notes, fun hz => ?_, hlex⟩
      rw [hT hz, if_pos (by rw [h1]), ← h.links hz]
    · have h1' : (k.prog fuel st.log).exec cfg st.world = (.ok (some r), w) := h1
      have hvc : v = .created := (Verdict.ok_iff hv).2 ⟨r, by rw [h1']⟩
      subst hvc
      cases hn : s.note c with
      | none => unfold Scribe.judge at hj; rw [hn] at hj; cases hj
      | some n =>
        have hs : s.step cfg.zero c = ⟨s.notes ++ [n], c.link s.links, l⟩ := by
          unfold Scribe.step
          rw [hj, hn]
          rfl
        rw [hs]
        refine ⟨?_, fun hz => ?_, hlex⟩
        · rw [h5]
          simp [h.notes, scribe_note h.notes hk hn h2]
        · rw [hT hz, if_neg (by rw [h5]; simp), ← h.links hz, scribe_link hk]

theorem Agree.event {cfg : Cfg} {lim : Lim} {fuel : Nat} (hd : Policy cfg lim) (hf : Fits lim fuel) {st : State}
    {s : Scribe} (h : Agree cfg lim st s) (c : Cmd) (ht : ∀ t ∈ c.event.texts, TextOK lim t) :
    Agree cfg lim (st.event cfg fuel c.event) (s.step cfg.zero c) := by
  unfold Cmd.event at ht ⊢
  cases hk : c.call with
  | some k =>
    rw [hk] at ht
    exact h.call hd hf hk ht
  | none =>
    have : c = .reopen := by cases c <;> first | rfl | cases hk
    subst this
    exact ⟨h.notes, h.links, h.lex.reopen⟩

/-- scribe and code run in step -/
theorem scribe_runs {cfg : Cfg} {fuel : Nat} {cs : List Cmd} (h : Calm cfg fuel (cs.map Cmd.event)) :
    Agree cfg (stdLim fuel) (after cfg fuel (cs.map Cmd.event)) (scribe cfg.zero cs) := by
  have key : ∀ (cs : List Cmd) (st : State) (s : Scribe), (∀ c ∈ cs, ∀ t ∈ c.event.texts, t.length < fuel) →
      Agree cfg (stdLim fuel) st s →
      Agree cfg (stdLim fuel) (st.events cfg fuel (cs.map Cmd.event)) (cs.foldl (Scribe.step cfg.zero) s) := by
    intro cs
    induction cs with
    | nil => exact fun _ _ _ h => h
    | cons c cs ih =>
      intro st s ht hs
      rw [List.map_cons, events_cons, List.foldl_cons]
      exact ih _ _ (fun c hc => ht c (by simp [hc]))
        (hs.event (.inl h.dup) h.budget.fits c fun t h' => TextOK.std (ht c (by simp) t h'))
  exact key cs _ _ (fun c hc t h' => h.budget.2 _ (List.mem_map_of_mem hc) t h')
    ⟨rfl, fun _ => rfl, .inl ⟨rfl, rfl⟩⟩

/-- the verdict on the next call, and no other -/
theorem scribe_iff {cfg : Cfg} {fuel : Nat} {cs : List Cmd} (h : Calm cfg fuel (cs.map Cmd.event)) {c : Cmd} {k : Call}
    (hk : c.call = some k) (ht : ∀ t ∈ k.texts, t.length < fuel)
    (hp : k.pair (after cfg fuel (cs.map Cmd.event)).log ≠ none) (v : Verdict) :
    v.Is ((k.prog fuel (after cfg fuel (cs.map Cmd.event)).log).exec cfg (after cfg fuel (cs.map Cmd.event)).world).1 ↔
      ((scribe cfg.zero cs).judge cfg.zero c).map Prod.snd = some v := by
  have a := scribe_runs h
  rw [scribe_pair a.notes hk] at hp
  cases hj : (scribe cfg.zero cs).judge cfg.zero c with
  | none =>
    cases hn : (scribe cfg.zero cs).note c with
    | none => rw [hn] at hp; exact absurd rfl hp
    | some n => rw [judge_eq hn] at hj; cases hj
  | some q =>
    obtain ⟨l, v'⟩ := q
    have hv := (a.verdict (.inl h.dup) h.budget.fits hk (fun t h' => TextOK.std (ht t h')) hj).1
    simp only [Option.map_some, Option.some.injEq]
    exact ⟨fun h => Verdict.unique hv h, fun h => h ▸ hv⟩

end Semnet
