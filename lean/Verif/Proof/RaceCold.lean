import Verif.Proof.RaceSolo
import Verif.Proof.Alphabet
import Verif.Spec.Cold
/-
  Several processes writing new text at the same time, over an alphabet in which no character that begins a word is
  continued by another one: the system.
-/
set_option linter.unusedSimpArgs false
namespace Semnet.Race
open Class Spec

/-! ### one call -/

/-- a call whose texts, new or not, no other text meets -/
theorem begins_solo {C : RC} (s : Solo C) {σ : Rt} (hi : C.I σ) {fuel : Nat} (hf : Fits C.lim fuel) {log}
    (k : Logs C.lim C.bs σ log) {c : Call} (ht : ∀ t ∈ c.texts, SoloText C t) (hl : ∀ e ∈ log, SoloText C e.object)
    (htot : C.tot = true → c.Due C.cfg log)
    (hz : C.cfg.zero = false ∨ (c.WarmBy C.cfg (fun _ _ => True) log ∧ (c.texts = [] → c.Due C.cfg log → C.tot = true))) :
    rwp C (Ends C σ log c) (c.yields fuel log) σ := by
  have off' : ¬ c.Due C.cfg log → C.tot = false := fun h => off fun h' => h (htot h')
  apply Does.ends
  cases c with
  | createStory o p =>
    have ho := ht o (by simp [Call.texts])
    have hp := ht p (by simp [Call.texts])
    exact Does.map (Does.createStory hi (.solo s ho hp)) fun r σ' h => ⟨ho.ok, hp.ok, h⟩
  | addRemark h p =>
    have hp := ht p (by simp [Call.texts])
    simp only [Call.yields]
    cases he : log[h]? with
    | none => exact Does.ret hi fun h1 => absurd (List.getElem?_eq_none_iff.1 he) (Nat.not_le.2 h1)
    | some e =>
      have ok := k.get he
      have e1' : textOf (wordsOf e.object) = e.object := by rw [textOf_wordsOf, ok.obj]
      exact Does.addRemark hi hf k he hp.ok (.solo s (by rw [e1']; exact hl e (List.mem_of_getElem? he)) hp)
  | addFact h o p =>
    have ho := ht o (by simp [Call.texts])
    have hp := ht p (by simp [Call.texts])
    simp only [Call.yields]
    cases he : log[h]? with
    | none => exact Does.ret hi fun h1 => absurd (List.getElem?_eq_none_iff.1 he) (Nat.not_le.2 h1.2)
    | some e =>
      rcases hz with h0 | ⟨hc, _⟩
      · exact Does.map (Does.addFactToStory (off' fun h1 => absurd (h0.symm.trans h1.1) (by simp)) h0 hi (k.get he).ent
          (.solo s ho hp)) fun r σ' h => h.elim
      · refine Does.bind (Does.addLooseFact hc.1 hi (k.get he).ent (.solo s ho hp)) ?_
        intro r σ' h' hn
        exact Does.ret h'.inv ⟨ho.ok, hp.ok, hn, h'.inv.tag0 hc.1⟩
  | addChild h o p =>
    have ho := ht o (by simp [Call.texts])
    have hp := ht p (by simp [Call.texts])
    simp only [Call.yields]
    cases he : log[h]? with
    | none => exact Does.ret hi id
    | some e =>
      rcases hz with h0 | ⟨hc, _⟩
      · exact Does.map (Does.createChildStory (off' id) h0 hi (k.get he).ent (.solo s ho hp)) fun r σ' h => h.elim
      · exact hc.elim
  | query h q =>
    refine Does.query hi hf k (fun e he ha => off' ?_) (fun e a he ha => hz.imp id fun h => h.2 rfl ⟨e, a, he, ha⟩) ?_
    · intro ⟨e', a, he', ha'⟩
      rw [he] at he'
      cases he'
      rw [ha] at ha'
      cases ha'
    · rcases hz with h0 | ⟨hc, _⟩
      · exact fun h1 => absurd (h0.symm.trans h1) (by simp)
      · exact hc
  | getRemark i => exact Does.getRemark hi k off'

/-! ### texts over the alphabet -/

theorem soloText {A : Alphabet} (hA : A.Free) {C : RC} {one : Prop} {fuel : Nat} (hlim : C.lim = alphaLim A one fuel) {t : GoStr}
    (h : A.Over t) (ok : TextOK C.lim t) (hg : C.tot = true → ¬ Gap t) : SoloText C t := by
  refine ⟨ok, fun w hw => ⟨ok.word w hw, ?_, ?_⟩⟩
  · intro r rs hr b hp
    obtain ⟨cs, h1, h2, h3⟩ := h.words w hw
    cases cs with
    | nil => rw [h1] at hr; cases hr
    | cons c cs =>
      rw [h1] at hr
      cases hr
      rw [hlim] at hp
      obtain ⟨_, d, hd, hp⟩ := hp
      have h4 : code c <+: code d := by
        rw [code_eq, code_eq]
        exact ((List.prefix_append _ _).trans hp).map _
      have := hA.2 c d (h3 c (by simp)) hd h4
      subst this
      have := hp.length_le
      rw [List.length_append, List.length_singleton] at this
      exact absurd this (Nat.not_succ_le_self _)
  · intro ht h1
    have : w = [] := runesOf_eq_nil.1 h1
    subst this
    exact hg ht (nil_mem_split hw)

theorem Ph.full {bs σ ws e} (h : Ph bs σ ws e) : [] ∉ ws := by
  induction h with
  | head hb => intro h; simp at h; exact hb.wd.ne_nil h
  | tail _ hb _ ih =>
    intro h
    rcases List.mem_append.1 h with h | h
    · exact ih h
    · simp at h; exact hb.wd.ne_nil h

theorem Says.noGap {bs σ r o p} (h : Says bs σ r (wordsOf o) p) : ¬ Gap o := by
  obtain ⟨_, _, _, _, _, h1, _⟩ := h
  exact fun g => h1.full (List.mem_map.2 ⟨[], g.mem, rfl⟩)

theorem bits_first : ∀ (f n : Nat) {q : List Bool}, n ≤ f → binDigits f n = false :: q → n = 0 := by
  intro f
  induction f with
  | zero => intro n q h _; omega
  | succ f ih =>
    intro n q h e
    unfold binDigits at e
    split at e
    · rename_i h2
      by_cases h0 : n = 0
      · exact h0
      · have : n = 1 := by omega
        subst this
        simp at e
    · rename_i h2
      cases hb : binDigits f (n / 2) with
      | nil => exact absurd hb (binDigits_ne_nil _ _)
      | cons v q' =>
        rw [hb, List.cons_append] at e
        cases e
        have := ih (n / 2) (by omega) hb
        omega

/-- no character but NUL begins with the bit 0 -/
theorem alpha_top {A : Alphabet} (hA : ¬ A.used '\x00') {one : Prop} {fuel : Nat} {v : Bool} (h : (alphaLim A one fuel).path [v]) :
    v = true := by
  obtain ⟨_, c, hc, q, hq⟩ := h
  cases v with
  | true => rfl
  | false =>
    have h0 := bits_first _ _ (Nat.le_refl _) hq.symm
    have : c = '\x00' := by
      apply Char.ext
      apply UInt32.toNat_inj.1
      simpa using h0
    subst this
    exact absurd hc hA

theorem Char.first {cfg : Cfg} {lim : Lim} {σ : St} (hi : Inv cfg lim σ) (ht : ∀ v, lim.path [v] → v = true) {p e}
    (h : CharEnt σ p e) : ∀ bs, σ.bits = some bs → ∃ y, σ.T (bitNode bs true) = [y] := by
  induction h with
  | head hb _ hT _ =>
    intro bs hbs
    rw [hb.bits] at hbs
    cases hbs
    have hp := (CharEnt.head hb ‹_› hT ‹_›).path hi
    have := ht _ hp
    subst this
    exact ⟨_, hT⟩
  | tail _ _ _ _ ih => exact ih

theorem first_bit {cfg : Cfg} {lim : Lim} {st : State} {σ : St} (h : Holds cfg lim st σ) (hl : st.log ≠ [])
    (ht : ∀ v, lim.path [v] → v = true) : ∀ bs, σ.bits = some bs → ∃ y, σ.T (bitNode bs true) = [y] := by
  obtain ⟨e, he⟩ := List.exists_mem_of_ne_nil _ hl
  obtain ⟨_, po, _, _, _, hp, _⟩ := (h.keeps.ok e he).says
  generalize wordsOf e.object = ws at hp
  have wd : ∃ rs w, WordEnt σ rs w := by
    cases hp with
    | head hb => exact ⟨_, _, hb.wd⟩
    | tail _ hb => exact ⟨_, _, hb.wd⟩
  obtain ⟨rs, w, hw⟩ := wd
  have ch : ∃ p c, CharEnt σ p c := by
    cases hw with
    | head hb => exact ⟨_, _, hb.ch⟩
    | tail _ hb => exact ⟨_, _, hb.ch⟩
  obtain ⟨p, c, hc⟩ := ch
  exact Char.first h.inv ht hc

/-! ### the crowd -/

/-- the calls of the threads in `ok` that have a result, and pass no text with gaps, cannot fail -/
noncomputable def Mode.solo (cfg : Cfg) (ok : Nat → Prop) : Mode :=
  ⟨none, fun i log c => @decide (ok i ∧ c.Due cfg log ∧ ∀ t ∈ c.texts, ¬ Gap t) (Classical.propDecidable _), fun _ => False⟩

theorem MoveOK.solo {A : Alphabet} (hA : A.Free) (h0 : ¬ A.used '\x00') {cfg : Cfg} {fuel : Nat} {bs log} {ok : Nat → Prop}
    (hf : Fits (alphaLim A False fuel) fuel) {t : Move} (ht : ∀ s ∈ t.texts, s.length < fuel ∧ A.Over s)
    (hl : ∀ e ∈ log, A.Over e.object) (hok : ∀ i f, t = .step i f → ok i → f = .ok)
    (hz : cfg.zero = false ∨ (t.WarmBy cfg (fun _ _ => True) log ∧ ∀ i, ok i)) :
    MoveOK cfg (alphaLim A False fuel) bs (.solo cfg ok) fuel log t where
  start i c e σ hi k := by
    subst e
    have htot : (actor cfg (alphaLim A False fuel) bs (.solo cfg ok) i log c).tot = true ↔
        (ok i ∧ c.Due cfg log ∧ ∀ t ∈ c.texts, ¬ Gap t) := by simp [Mode.solo]
    refine begins_solo (C := actor cfg (alphaLim A False fuel) bs (.solo cfg ok) i log c) ⟨rfl, rfl, fun v hv => alpha_top h0 hv⟩
      hi hf k ?_ ?_ (fun h => (htot.1 h).2.1) (hz.imp id fun h => ⟨h.1, fun h1 h2 => htot.2 ⟨h.2 i, h2, by simp [h1]⟩⟩)
    · intro s hs
      exact soloText hA rfl (ht s hs).2 (.alpha (ht s hs).2 (ht s hs).1 fun h => h.elim) fun h => (htot.1 h).2.2 s hs
    · intro e he
      exact soloText hA rfl (hl e he) (k.ok e he).text fun _ => (k.ok e he).says.noGap
  fate i f e := by
    by_cases h : ok i
    · exact .inl (hok i f e h)
    · exact .inr fun l c => by simp [Mode.solo, h]

/-- what holds of all strings passed holds of all strings logged, and of those being stored -/
structure Texts (P : GoStr → Prop) (y : Crowd) : Prop where
  log : ∀ e ∈ y.log, P e.object ∧ P e.property
  cur : ∀ i b, y.cur i = some b → ∀ t ∈ b.call.texts, P t

theorem Texts.start {P : GoStr → Prop} {st : State} (h : ∀ e ∈ st.log, P e.object ∧ P e.property) : Texts P (Crowd.start st) :=
  ⟨h, fun i b h => by cases h⟩

theorem Texts.move {P : GoStr → Prop} (hP : ∀ t, P t → P (asText t)) {y : Crowd} (h : Texts P y) (c : Cfg) (fuel : Nat)
    (home : Nat → Nat) {t : Move} (ht : ∀ s ∈ t.texts, P s) : Texts P (y.move c fuel home t) := by
  have put : ∀ {i : Nat} {a : Option Begun}, (∀ b, a = some b → ∀ t ∈ b.call.texts, P t) →
      ∀ j b, upd y.cur i a j = some b → ∀ t ∈ b.call.texts, P t :=
    fun ha => upd_all (P := fun _ (a : Option Begun) => ∀ b, a = some b → ∀ t ∈ b.call.texts, P t) ha fun j _ => h.cur j
  cases t with
  | «begin» i c =>
    simp only [Crowd.move]
    cases hc : y.cur i with
    | some b => exact h
    | none => exact ⟨h.log, put fun b hb => by cases hb; exact ht⟩
  | step i f =>
    simp only [Crowd.move]
    cases hc : y.cur i with
    | none => exact h
    | some b =>
      simp only
      cases ho : Go.end b.prog with
      | none => exact ⟨h.log, put fun b' hb => by cases hb; exact h.cur i b hc⟩
      | some o =>
        have idle : Texts P { y with cur := upd y.cur i none } := ⟨h.log, put fun b' hb => by cases hb⟩
        simp only
        unfold Crowd.return
        cases o with
        | ok yl =>
          cases yl with
          | created r =>
            refine ⟨?_, idle.cur⟩
            intro e he
            rcases List.mem_append.1 he with he | he
            · exact h.log e he
            · exact entry_texts hP h.log (h.cur i b hc) e he
          | answered a => exact ⟨h.log, idle.cur⟩
          | nothing => exact idle
        | _ => exact idle
  | die p =>
    refine ⟨h.log, ?_⟩
    intro i b hb
    simp only [Crowd.move] at hb
    split at hb
    · cases hb
    · exact h.cur i b hb
  | spawn j i qs => exact ⟨h.log, h.cur⟩
  | read j =>
    simp only [Crowd.move]
    cases hj : y.readers j with
    | none => exact h
    | some rd => exact ⟨h.log, h.cur⟩

/-- moves over the alphabet -/
theorem CrowdInv.staySolo {A : Alphabet} (hA : A.Free) (h0 : ¬ A.used '\x00') {cfg : Cfg} {fuel : Nat} {bs home} {ok : Nat → Prop}
    (hf : Fits (alphaLim A False fuel) fuel) : ∀ (ts : List (Cfg × Move)) {y : Crowd} {σ : Rt},
    CrowdInv home cfg (alphaLim A False fuel) bs (.solo cfg ok) y σ → Texts A.Over y → (∀ t ∈ ts, t.1.dup = cfg.dup) →
    A.Writes fuel ts → (∀ i, ok i → Spared i ts) →
    (cfg.zero = false ∨ ((∀ ts1 t ts2, ts = ts1 ++ t :: ts2 → t.2.WarmBy cfg (fun _ _ => True) (y.feel fuel home ts1).log) ∧ ∀ i, ok i)) →
    ∃ σ', CrowdInv home cfg (alphaLim A False fuel) bs (.solo cfg ok) (y.feel fuel home ts) σ' := by
  intro ts
  induction ts with
  | nil => exact fun h _ _ _ _ _ => ⟨_, h⟩
  | cons t ts ih =>
    intro y σ h hx hd ht hs hz
    obtain ⟨σ1, h1⟩ := h.move (home := home) hf (c := t.1) ⟨hd t (by simp), fun h => absurd rfl h⟩ t.2
      (.solo hA h0 hf (ht t (by simp)) (fun e he => (hx.log e he).1)
        (fun i f e hi => hs i hi t.1 f (by rw [← e]; exact List.mem_cons_self)) (hz.imp id fun h => ⟨h.1 [] t ts rfl, h.2⟩))
    refine ih h1 (hx.move (fun _ h => h.asText) _ _ _ fun s hs => (ht t (by simp) s hs).2) (fun t' h' => hd t' (by simp [h']))
      (fun t' h' => ht t' (by simp [h'])) (fun i hi c f h' => hs i hi c f (by simp [h'])) (hz.imp id fun h => ⟨?_, h.2⟩)
    intro ts1 t' ts2 e
    exact h.1 (t :: ts1) t' ts2 (by rw [e]; rfl)

/-- a call that has a result, of a thread whose storage calls do not fail -/
theorem CrowdInv.succeedsSolo {home cfg lim bs} {ok : Nat → Prop} {y : Crowd} {σ : Rt} (h : CrowdInv home cfg lim bs (.solo cfg ok) y σ) {i b}
    (hi : ok i) (hc : y.cur i = some b) (hd : b.call.Due cfg b.log) (hg : ∀ t ∈ b.call.texts, ¬ Gap t) {o}
    (ho : Go.end b.prog = some o) :
    (∃ r e, o = .ok (.created r) ∧ b.call.entry y.log r = some e) ∨
      (∃ a, o = .ok (.answered a) ∧ Heard.Right ⟨b.call, b.log, a⟩) := by
  obtain ⟨hp, σ1, hb, _⟩ := h.actors i b hc
  obtain ⟨σs, hq, he⟩ := hb.out ho
  have ht : (actor cfg lim bs (.solo cfg ok) i b.log b.call).tot = true := by
    simp only [actor, Mode.solo, decide_eq_true_eq]
    exact ⟨hi, hd, hg⟩
  have no : (actor cfg lim bs (.solo cfg ok) i b.log b.call).tot ≠ false := by rw [ht]; simp
  cases o with
  | ok v =>
    cases v with
    | created r =>
      obtain ⟨e, h1, _⟩ := Made.entry hq hp h.logs he.mono
      exact .inl ⟨r, e, rfl, h1⟩
    | answered a => exact .inr ⟨a, rfl, hq⟩
    | nothing => exact absurd hd hq
  | spin => exact hq.elim
  | err e => exact absurd hq no
  | panic => exact absurd hq no

/-! ### the start -/

theorem felts_texts {P : GoStr → Prop} (hP : ∀ t, P t → P (asText t)) (fuel : Nat) :
    ∀ (es : List ((Nat → Cfg) × Event)) {st : State}, (∀ e ∈ st.log, P e.object ∧ P e.property) →
    (∀ e ∈ es, ∀ t ∈ e.2.texts, P t) → ∀ e ∈ (es.foldl (State.felt fuel) st).log, P e.object ∧ P e.property := by
  intro es
  induction es with
  | nil => exact fun h _ => h
  | cons e es ih =>
    intro st h ht
    refine ih ?_ (fun a ha => ht a (by simp [ha]))
    have ht := ht e (by simp)
    obtain ⟨g, e⟩ := e
    cases e with
    | call c f =>
      show ∀ e ∈ (st.ended c ((c.prog fuel st.log).runs g f st.world)).log, _
      generalize ((c.prog fuel st.log).runs g f st.world) = out
      obtain ⟨o, w⟩ := out
      cases o with
      | ok o =>
        cases o with
        | none => exact h
        | some r =>
          intro a ha
          rcases List.mem_append.1 ha with ha | ha
          · exact h a ha
          · exact entry_texts hP h ht a ha
      | _ => exact h
    | crash c f n => exact h
    | reopen => exact h

theorem _root_.Semnet.Spec.Settled.alpha {A : Alphabet} {cfg : Cfg} {fuel : Nat} {es : List ((Nat → Cfg) × Event)}
    (h : Settled cfg fuel es) (hes : ∀ e ∈ es, ∀ t ∈ e.2.texts, A.Over t) :
    cfg.dup = .ignore ∧ Fits (alphaLim A False fuel) fuel ∧ (moodily cfg fuel es).log ≠ [] ∧
      ∃ σ, Holds cfg (alphaLim A False fuel) (moodily cfg fuel es) σ := by
  have calm : ∀ {es : List ((Nat → Cfg) × Event)}, CalmMoods cfg fuel es → (∀ e ∈ es, ∀ t ∈ e.2.texts, A.Over t) →
      Sound cfg (alphaLim A False fuel) (moodily cfg fuel es) := fun {es} h hes =>
    felt_calms (.inl h.calm.dup) (alpha_fits A h.calm.budget) es (.init cfg _) h.suits
      (fun e he => h.calm.calm e.2 (List.mem_map_of_mem he))
      fun e he t h' => TextOK.alpha (hes e he t h') (h.calm.budget.2 e.2 (List.mem_map_of_mem he) t h') fun h => h.elim
  rcases h with ⟨hz, es1, es2, rfl, h⟩ | ⟨h, hl⟩
  · have fits : Fits (alphaLim A False fuel) fuel := alpha_fits A h.start.calm.budget
    obtain ⟨σ, hs, _⟩ := (calm h.start fun e he => hes e (by simp [he])).holds h.log
    obtain ⟨σ1, h1, l, hl⟩ := felt_storms hz fits es2 hs h.log h.suits fun e he t h' =>
      TextOK.alpha (hes e (by simp [he]) t h') (h.budget.2 e.2 (List.mem_map_of_mem he) t h') fun h => h.elim
    rw [← moodily_append] at h1 hl
    exact ⟨h.start.calm.dup, fits, by rw [hl]; exact fun h' => h.log (List.append_eq_nil_iff.1 h').1, σ1, h1⟩
  · obtain ⟨σ, hs, _⟩ := (calm h hes).holds hl
    exact ⟨h.calm.dup, alpha_fits A h.calm.budget, hl, σ, hs⟩

/-- a crowd writing over the alphabet -/
theorem crowd_cold {A : Alphabet} (hA : A.Free) (h0 : ¬ A.used '\x00') {cfg : Cfg} {fuel : Nat} {es : List ((Nat → Cfg) × Event)}
    (h : Settled cfg fuel es) (hes : ∀ e ∈ es, ∀ t ∈ e.2.texts, A.Over t) (home : Nat → Nat) {ts : List (Cfg × Move)}
    (hd : ∀ t ∈ ts, t.1.dup = cfg.dup) (ht : A.Writes fuel ts)
    (hz : cfg.zero = false ∨ Modest cfg fuel home (moodily cfg fuel es) ts) :
    ∃ bs σ, CrowdInv home cfg (alphaLim A False fuel) bs (.solo cfg fun i => Spared i ts)
      ((Crowd.start (moodily cfg fuel es)).feel fuel home ts) σ := by
  obtain ⟨hdup, fits, hl, σ, hs⟩ := h.alpha hes
  obtain ⟨bs, h1⟩ := CrowdInv.start hdup hs hl (fun _ => first_bit hs hl fun v hv => alpha_top h0 hv)
    (.solo cfg fun i => Spared i ts) rfl
  have all : cfg.zero = false ∨ (Modest cfg fuel home (moodily cfg fuel es) ts ∧ ∀ i, Spared i ts) := by
    refine hz.imp id fun h => ⟨h, fun i c f hm => ?_⟩
    obtain ⟨ts1, ts2, rfl⟩ := List.append_of_mem hm
    exact h ts1 _ ts2 rfl
  obtain ⟨σ', h2⟩ := CrowdInv.staySolo hA h0 (home := home) fits ts h1
    (.start (felts_texts (fun _ h => h.asText) fuel es (fun e he => by cases he) hes)) hd ht (fun i h => h) all
  exact ⟨bs, σ', h2⟩

theorem modest_prefix {cfg : Cfg} {fuel : Nat} {home : Nat → Nat} {st : State} {s : Nat → Cfg × Move}
    (hw : Modests cfg fuel home st s) (k : Nat) : Modest cfg fuel home st ((List.range k).map s) := by
  intro ts1 t ts2 e
  obtain ⟨e1, e2⟩ := range_splitM e
  rw [e1]
  have := hw ts1.length
  rwa [feels_feel, ← e2] at this

theorem CrowdInv.resultsSolo {home cfg lim bs} {ok : Nat → Prop} {y : Crowd} {σ : Rt} (h : CrowdInv home cfg lim bs (.solo cfg ok) y σ)
    {j : Nat} {rd} (hj : y.readers j = some rd) {g : Nat → Cfg} (hg : Suits cfg g) :
    rd.Good (rd.results g y.store (y.mem (home j))) := by
  obtain ⟨_, κ, σs, h1, he, hk⟩ := h.readers j rd hj
  obtain ⟨_, σ', _, h2, _⟩ := rwp_run (RC.crisp rfl) (g := g) (fun n => ⟨hg n, fun h => absurd rfl h⟩) he.inv hk (rwpk_env he h1)
  rw [h.store] at h2
  exact h2

end Semnet.Race
