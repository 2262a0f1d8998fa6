import Verif.Proof.RaceStart
import Verif.Spec.Warm
/-
  Several processes writing at the same time: the system.
-/
namespace Semnet.Race
open Class Spec

/-! ### a thread in the middle of a program -/

/-- The thread still has to do `p`; the others have acted since its last storage call.  `m` is its bit layer. -/
def Busy {α : Type} (C : RC) (Q : Out α → Rt → Prop) (p : Go α) (m : Layer) (σ : Rt) : Prop :=
  ∃ κ σs, rwpk C Q p κ σs ∧ Env C σs σ ∧ MemAt C.bs κ m

/-- what is known of the bit layer stays true -/
def MemLe (bs : BitE × BitE) (m m' : Layer) : Prop := ∀ κ, MemAt bs κ m → MemAt bs κ m'

theorem MemLe.refl {bs : BitE × BitE} (m : Layer) : MemLe bs m m := fun _ h => h
theorem MemLe.ok {bs : BitE × BitE} {m m' : Layer} (h : MemLe bs m m') (hm : MemOK bs m) : MemOK bs m' := (h _ hm.at).ok

theorem rwp.busy {α : Type} {C : RC} {Q : Out α → Rt → Prop} {p : Go α} {m : Layer} {σ : Rt} (h : rwp C Q p σ) (hi : C.I σ)
    (hm : MemOK C.bs m) : Busy C Q p m σ := ⟨.bot, σ, h .bot, .refl hi, hm.at⟩

/-- what another thread does -/
theorem Busy.other {α : Type} {cfg lim bs fz al i j t t' w w'} {Q : Out α → Rt → Prop} {p : Go α} {m m' : Layer} {σ σ' : Rt}
    (h : Busy ⟨cfg, lim, bs, i, t, fz, al, w⟩ Q p m σ) (g : Guar ⟨cfg, lim, bs, j, t', fz, al, w'⟩ σ σ') (hij : i ≠ j)
    (hm : MemLe bs m m') : Busy ⟨cfg, lim, bs, i, t, fz, al, w⟩ Q p m' σ' := by
  obtain ⟨κ, σs, h1, he, hk⟩ := h
  refine ⟨κ, σs, h1, ⟨g.inv, he.mono.trans g.mono, ?_⟩, hm κ hk⟩
  intro x hx ho
  have hx' : σ.tag x ≠ .none := by rw [he.mono.tag x hx]; exact hx
  have ho' : σ.own x = i := by rw [he.mono.own x hx]; exact ho
  exact (he.keep x hx ho).trans he.mono hx (g.keep x hx' (by rw [ho']; exact hij))

/-- it has ended -/
theorem Busy.out {α : Type} {C : RC} {Q : Out α → Rt → Prop} {p : Go α} {m : Layer} {σ : Rt} (h : Busy C Q p m σ) {o}
    (ho : Go.end p = some o) : ∃ σs, Q o σs ∧ Env C σs σ := by
  obtain ⟨κ, σs, h1, he, _⟩ := h
  refine ⟨σs, ?_, he⟩
  cases p <;> simp [Go.end] at ho <;> subst ho <;> exact h1

/-- its turn -/
theorem Busy.turn {α : Type} {C : RC} {Q : Out α → Rt → Prop} {p : Go α} {m : Layer} {σ : Rt} (h : Busy C Q p m σ)
    (hi : C.I σ) {f : Fate} (hf : C.tot = false ∨ f = .ok) {c : Cfg} (hc : C.Like c) (hh : C.weak = false) :
    ∃ σ', Guar C σ σ' ∧ σ'.store = (Go.one c f p σ.store m).2.1 ∧ MemLe C.bs m (Go.one c f p σ.store m).2.2 ∧
      Busy C Q (Go.one c f p σ.store m).1 (Go.one c f p σ.store m).2.2 σ' := by
  have h0 := h
  obtain ⟨κ, σs, h1, he, hk⟩ := h
  cases p with
  | op o k =>
    obtain ⟨⟨t, b, hs, h3⟩, h4, h5⟩ := h1 c hc _ he
    cases f with
    | ok => exact ⟨_, hs, rfl, .refl m, κ, _, h3, .refl hs.inv, hk⟩
    | fail =>
      have hF := hf.resolve_right (by simp)
      exact ⟨σ, .refl hi, rfl, .refl m, κ, _, h4 hF, .refl hi, hk⟩
    | failLate =>
      have hF := hf.resolve_right (by simp)
      obtain ⟨t, b, hs, h6⟩ := h5 hF
      exact ⟨_, hs, rfl, .refl m, κ, _, h6, .refl hs.inv, hk⟩
  | getMem k => exact ⟨σ, .refl hi, rfl, .refl m, _, σs, h1 m (.inr ⟨RC.crisp hh, hk⟩), he, hk.learn⟩
  | setMem u k =>
    obtain ⟨κ', h2, h3⟩ := h1
    exact ⟨σ, .refl hi, rfl, (hk.assign h2).2, κ', σs, h3, he, (hk.assign h2).1⟩
  | _ => exact ⟨σ, .refl hi, rfl, .refl m, h0⟩

/-- what a thread may rely on stays so -/
theorem rwpk_env {α : Type} {C : RC} {P : Out α → Prop} :
    ∀ {p : Go α} {κ : Know} {σ σ1 : Rt}, Env C σ σ1 → rwpk C (fun o _ => P o) p κ σ → rwpk C (fun o _ => P o) p κ σ1 := by
  intro p
  induction p with
  | ok a => exact fun _ h => h
  | err e => exact fun _ h => h
  | panic => exact fun _ h => h
  | spin => exact fun _ h => h
  | op o k ih => exact fun he h c hc σ2 he2 => h c hc σ2 (he.trans he2)
  | getMem k ih => exact fun he h m hm => ih m he (h m hm)
  | setMem u k ih => exact fun he ⟨κ', h1, h2⟩ => ⟨κ', h1, ih he h2⟩

/-! ### a call -/

/-- the remark that a creating call has made -/
def Made (C : RC) (σ0 σ : Rt) (log : List Entry) (c : Call) (r : RemE) : Prop :=
  match c with
  | .createStory o p => TextOK C.lim o ∧ TextOK C.lim p ∧ New C σ0 σ (wordsOf o) (wordsOf p) r (some r)
  | .addRemark h p => ∃ e, log[h]? = some e ∧ TextOK C.lim p ∧ match e.opener with
    | some i => ∃ e1, log[i]? = some e1 ∧ New C σ0 σ (wordsOf e.object) (wordsOf p) r (some e1.handle)
    | none => New C σ0 σ (wordsOf e.object) (wordsOf p) r none ∧ σ.tag 0 = .zero
  | .addFact _ o p => TextOK C.lim o ∧ TextOK C.lim p ∧ New C σ0 σ (wordsOf o) (wordsOf p) r none ∧ σ.tag 0 = .zero
  | _ => False

/-- what a call yields -/
def Gives (C : RC) (σ0 σ : Rt) (log : List Entry) (c : Call) : Yield → Prop
  | .created r => Made C σ0 σ log c r
  | .answered a => Heard.Right ⟨c, log, a⟩
  | .nothing => ¬ c.Due C.cfg log

def Ends (C : RC) (σ0 : Rt) (log : List Entry) (c : Call) (o : Out Yield) (σ : Rt) : Prop :=
  match o with
  | .ok y => Gives C σ0 σ log c y
  | .spin => False
  | _ => C.tot = false

theorem Does.ends {C : RC} {σ : Rt} {log} {c : Call} {p : Go Yield} (h : Does C (fun y σ' => Gives C σ σ' log c y) p σ) :
    rwp C (Ends C σ log c) p σ := by
  refine rwp_mono ?_ h
  intro o σ' ⟨_, h2⟩
  cases o <;> exact h2

theorem Does.query {C : RC} {σ : Rt} (hi : C.I σ) {fuel : Nat} (hf : Fits C.lim fuel) {log} (k : Logs C.lim C.bs σ log)
    {h : Nat} {q : Query} (hC : ∀ e, log[h]? = some e → e.answer log q = none → C.tot = false)
    (hA : ∀ e a, log[h]? = some e → e.answer log q = some a → C.cfg.zero = false ∨ C.tot = true)
    (hS : C.cfg.zero = true → q = .getStory → ∀ e, log[h]? = some e → e.opener ≠ none) :
    Does C (fun y σ' => Gives C σ σ' log (.query h q) y) (Call.yields fuel log (.query h q)) σ := by
  simp only [Call.yields]
  cases he : log[h]? with
  | none => exact Does.ret hi fun ⟨e, a, h1, _⟩ => by rw [he] at h1; cases h1
  | some e =>
    cases ha : e.answer log q with
    | none =>
      have hn : (q.ask fuel e.handle).NoSpin := by
        cases q with
        | getNextRemark => exact .bind (ns_getNextRemark _) fun _ => .pure _
        | hasNextFact => exact .bind (ns_hasNextFact _) fun _ => .pure _
        | getNextFact => exact .bind (ns_getNextFact _) fun _ => .pure _
        | hasNextStory => exact .bind (ns_hasNextStory _) fun _ => .pure _
        | getNextStory => exact .bind (ns_getNextStory _) fun _ => .pure _
        | getFirstFact => exact .bind (ns_getFirstFact _) fun _ => .pure _
        | getStory =>
          have hfa := (k.get he).fact
          cases ho : e.opener with
          | some i =>
            rw [ho] at hfa
            obtain ⟨e1, h2, _⟩ := hfa
            simp [Entry.answer, ho, h2] at ha
          | none =>
            rw [ho] at hfa
            exact absurd ho (hS ((hi.zero 0).1 hfa.2).2 rfl e he)
        | getObjectAndProperty => cases ha
        | hasNextRemark => cases ha
      refine Does.map (Does.quiet (Quiet.query fuel e.handle q) hn (hC e he ha) hi) fun a σ' _ => ⟨e, he, fun a' ha' => ?_⟩
      simp only [ha] at ha'
      cases ha'
    | some a =>
      refine Does.map (Does.ask (hA e a he ha) hi k (List.mem_of_getElem? he) hf ha) fun b σ' hb => ⟨e, he, fun a' ha' => ?_⟩
      simp only [ha] at ha'
      cases ha'
      exact hb

theorem Does.getRemark {C : RC} {σ : Rt} (hi : C.I σ) {fuel : Nat} {log} (k : Logs C.lim C.bs σ log) {i : Nat}
    (hC : (¬ ∃ e ∈ log, Remark.getIdentifier e.handle = i) → C.tot = false) :
    Does C (fun y σ' => Gives C σ σ' log (.getRemark i) y) (Call.yields fuel log (.getRemark i)) σ := by
  simp only [Call.yields]
  by_cases hex : ∃ e ∈ log, Remark.getIdentifier e.handle = i
  · obtain ⟨e, he, hid⟩ := hex
    subst hid
    refine Does.map (Does.get hi k he) fun b σ' hb e' he' hid' => ?_
    have := k.unique he' he hid'
    subst this
    rw [hb]
  · exact Does.map (Does.quiet (quiet_getRemark i) (ns_getRemark i) (hC hex) hi) fun b σ' hb e' he' hid' =>
      absurd ⟨e', he', hid'⟩ hex

theorem Does.addRemark {C : RC} {σ : Rt} (hi : C.I σ) {fuel : Nat} (hf : Fits C.lim fuel) {log} (k : Logs C.lim C.bs σ log)
    {h : Nat} {e} (he : log[h]? = some e) {p : GoStr} (hp : TextOK C.lim p)
    (hpr : Prov C σ fuel (textOf (wordsOf e.object)) p) :
    Does C (fun y σ' => Gives C σ σ' log (.addRemark h p) y)
      (do let r ← Remark.addRemarkToFact fuel e.handle p; pure (.created r)) σ := by
  have ok := k.get he
  have e1' : textOf (wordsOf e.object) = e.object := by rw [textOf_wordsOf, ok.obj]
  have hfa := ok.fact
  cases ho : e.opener with
  | some i =>
    rw [ho] at hfa
    obtain ⟨e1, h2, h3⟩ := hfa
    refine Does.map (Does.addRemarkToFact hi hf.L hf.D ok.ent ok.says h3 hpr (by rw [e1'])) ?_
    intro r σ' hn
    refine ⟨e, he, hp, ?_⟩
    rw [ho]
    exact ⟨e1, h2, hn⟩
  | none =>
    rw [ho] at hfa
    refine Does.bind (Does.addRemarkToFact hi hf.L hf.D ok.ent ok.says hfa.1 hpr (by rw [e1'])) ?_
    intro r σ' h' hn
    refine Does.ret h'.inv ⟨e, he, hp, ?_⟩
    rw [ho]
    exact ⟨hn, h'.mono.tagEq hfa.2 (by simp)⟩

theorem begins {C : RC} (hC : C.tot = false) (hz : C.fz = none) (hso : C.lim.solo = false) (h0 : C.cfg.zero = false) {σ : Rt}
    (hi : C.I σ) {fuel : Nat}
    (hf : Fits C.lim fuel) {log}
    (k : Logs C.lim C.bs σ log) {c : Call} (ht : ∀ t ∈ c.texts, TextOK C.lim t) :
    rwp C (Ends C σ log c) (c.yields fuel log) σ := by
  apply Does.ends
  cases c with
  | createStory o p =>
    have ho := ht o (by simp [Call.texts])
    have hp := ht p (by simp [Call.texts])
    exact Does.map (Does.createStory hi (.free hC hz hso h0 hf.L hf.D ho hp)) fun r σ' h => ⟨ho, hp, h⟩
  | addRemark h p =>
    have hp := ht p (by simp [Call.texts])
    simp only [Call.yields]
    cases he : log[h]? with
    | none => exact Does.ret hi fun h1 => absurd (List.getElem?_eq_none_iff.1 he) (Nat.not_le.2 h1)
    | some e =>
      have ok := k.get he
      have e1' : textOf (wordsOf e.object) = e.object := by rw [textOf_wordsOf, ok.obj]
      exact Does.addRemark hi hf k he hp (.free hC hz hso h0 hf.L hf.D (by rw [e1']; exact ok.text) hp)
  | addFact h o p =>
    have ho := ht o (by simp [Call.texts])
    have hp := ht p (by simp [Call.texts])
    simp only [Call.yields]
    cases he : log[h]? with
    | none => exact Does.ret hi fun h1 => absurd (h0.symm.trans h1.1) (by simp)
    | some e => exact Does.map (Does.addFactToStory hC h0 hi (k.get he).ent (.free hC hz hso h0 hf.L hf.D ho hp)) fun r σ' h => h.elim
  | addChild h o p =>
    have ho := ht o (by simp [Call.texts])
    have hp := ht p (by simp [Call.texts])
    simp only [Call.yields]
    cases he : log[h]? with
    | none => exact Does.ret hi id
    | some e => exact Does.map (Does.createChildStory hC h0 hi (k.get he).ent (.free hC hz hso h0 hf.L hf.D ho hp)) fun r σ' h => h.elim
  | query h q =>
    exact Does.query hi hf k (fun _ _ _ => hC) (fun _ _ _ _ => .inl h0) (fun h1 => absurd (h0.symm.trans h1) (by simp))
  | getRemark i => exact Does.getRemark hi k fun _ => hC

theorem prefix_get {α : Type} {l l' : List α} (h : l <+: l') {i : Nat} {a : α} (ha : l[i]? = some a) : l'[i]? = some a := by
  obtain ⟨t, rfl⟩ := h
  exact getElem?_append_some ha

/-- the new entry -/
theorem Made.entry {C : RC} {σ0 σs σ : Rt} {blog log : List Entry} {c : Call} {r : RemE} (h : Made C σ0 σs blog c r)
    (hp : blog <+: log) (k : Logs C.lim C.bs σ log) (m : RMono σs σ) :
    ∃ e, c.entry log r = some e ∧ e.handle = r ∧ LogOK C.lim C.bs σ (log ++ [e]) e ∧ σ0.tag r.cls = .none ∧
      σ.own r.cls = C.me := by
  have own : ∀ {o p r1}, New C σ0 σs o p r r1 → σ.own r.cls = C.me := by
    intro o p r1 hn
    rw [m.own r.cls (by rw [hn.ent.tc]; simp), hn.own]
  cases c with
  | createStory o p =>
    obtain ⟨ho, hp', hn⟩ := h
    refine ⟨_, rfl, rfl, ⟨m.rem hn.ent, ?_, asText_twice _, asText_twice _, ho.asText, hp'.asText,
      ⟨_, getElem?_concat _ _, hn.fact.mono m hn.ent⟩⟩, hn.fresh, own hn⟩
    simp only [wordsOf_asText]
    exact hn.says.mono m hn.ent
  | addRemark h p =>
    obtain ⟨e, h1, hp', h⟩ := h
    have h1' := prefix_get hp h1
    have ok := k.get h1'
    obtain ⟨r1, hn, hat⟩ : ∃ r1, New C σ0 σs (wordsOf e.object) (wordsOf p) r r1 ∧
        (∀ l, match e.opener with
          | some i => ∃ e', (log ++ l)[i]? = some e' ∧ At σ r (some e'.handle)
          | none => At σ r none ∧ σ.tag 0 = .zero) := by
      cases ho : e.opener with
      | some i =>
        rw [ho] at h
        obtain ⟨e1, h3, hn⟩ := h
        exact ⟨_, hn, fun l => ⟨e1, getElem?_append_some (prefix_get hp h3), hn.fact.mono m hn.ent⟩⟩
      | none =>
        rw [ho] at h
        exact ⟨_, h.1, fun l => ⟨h.1.fact.mono m h.1.ent, m.tagEq h.2 (by simp)⟩⟩
    refine ⟨⟨r, e.object, asText p, e.opener⟩, by simp [Call.entry, h1'], rfl, ⟨m.rem hn.ent, ?_, ok.obj, asText_twice _,
      ok.text, hp'.asText, hat _⟩, hn.fresh, own hn⟩
    simp only [wordsOf_asText]
    exact hn.says.mono m hn.ent
  | addFact h' o p =>
    obtain ⟨ho, hp', hn, h0⟩ := h
    refine ⟨_, rfl, rfl, ⟨m.rem hn.ent, ?_, asText_twice _, asText_twice _, ho.asText, hp'.asText,
      ⟨hn.fact.mono m hn.ent, m.tagEq h0 (by simp)⟩⟩, hn.fresh, own hn⟩
    simp only [wordsOf_asText]
    exact hn.says.mono m hn.ent
  | _ => exact h.elim

/-! ### the system -/

/-- `fz`: the state since which no text has been added; `sure`: the calls of each thread that cannot fail; `al`: the storages that may answer
  if no text is added -/
structure Mode where
  fz : Option Rt
  sure : Nat → List Entry → Call → Bool
  al : Cfg → Prop

/-- any calls, of which any may fail -/
def Mode.free : Mode := ⟨none, fun _ _ _ => false, fun _ => False⟩

/-- the `i`-th thread in a call -/
abbrev actor (cfg : Cfg) (lim : Lim) (bs : BitE × BitE) (M : Mode) (i : Nat) (log : List Entry) (c : Call) : RC :=
  ⟨cfg, lim, bs, 2 * i + 1, M.sure i log c, M.fz, M.al, false⟩
/-- the `j`-th reader -/
abbrev reader (cfg : Cfg) (lim : Lim) (bs : BitE × BitE) (M : Mode) (j : Nat) : RC := ⟨cfg, lim, bs, 2 * j + 2, true, M.fz, M.al, false⟩

/-- what is known of the `i`-th thread -/
def ActorOK (cfg : Cfg) (lim : Lim) (bs : BitE × BitE) (M : Mode) (log : List Entry) (σ : Rt) (i : Nat) (m : Layer) (a : Option Begun) : Prop :=
  ∀ b, a = some b → b.log <+: log ∧
    ∃ σ0, Busy (actor cfg lim bs M i b.log b.call) (Ends (actor cfg lim bs M i b.log b.call) σ0 b.log b.call) b.prog m σ ∧
      ∀ e ∈ log, σ.own e.handle.cls = 2 * i + 1 → σ0.tag e.handle.cls ≠ .none

/-- what is known of the `j`-th reader -/
def ReaderOK (cfg : Cfg) (lim : Lim) (bs : BitE × BitE) (M : Mode) (log : List Entry) (σ : Rt) (j : Nat) (m : Layer) (a : Option Asker) : Prop :=
  ∀ rd, a = some rd → rd.log <+: log ∧ Busy (reader cfg lim bs M j) (fun o _ => rd.Good o) rd.prog m σ

structure CrowdInv (home : Nat → Nat) (cfg : Cfg) (lim : Lim) (bs : BitE × BitE) (M : Mode) (y : Crowd) (σ : Rt) : Prop where
  store : σ.store = y.store
  inv : RI cfg lim bs M.fz σ
  mem : ∀ p, MemOK bs (y.mem p)
  logs : Logs lim bs σ y.log
  actors : ∀ i, ActorOK cfg lim bs M y.log σ i (y.mem (home i)) (y.cur i)
  heard : ∀ h ∈ y.heard, h.Right ∧ h.log <+: y.log
  readers : ∀ j, ReaderOK cfg lim bs M y.log σ j (y.mem (home j)) (y.readers j)

/-- what another thread does -/
theorem ActorOK.other {cfg lim bs M log} {σ σ' : Rt} {i j t m m' a} (h : ActorOK cfg lim bs M log σ i m a)
    (k : Logs lim bs σ log) (g : Guar ⟨cfg, lim, bs, j, t, M.fz, M.al, false⟩ σ σ') (hij : 2 * i + 1 ≠ j) (hm : MemLe bs m m') :
    ActorOK cfg lim bs M log σ' i m' a := by
  intro b hb
  obtain ⟨h1, σ0, h2, h3⟩ := h b hb
  refine ⟨h1, σ0, h2.other g hij hm, fun e he ho => h3 e he ?_⟩
  rw [← ho]
  exact (g.mono.own _ (by rw [(k.ok e he).ent.tc]; simp)).symm

theorem ReaderOK.other {cfg lim bs M log} {σ σ' : Rt} {i j t m m' a} (h : ReaderOK cfg lim bs M log σ i m a)
    (g : Guar ⟨cfg, lim, bs, j, t, M.fz, M.al, false⟩ σ σ') (hij : 2 * i + 2 ≠ j) (hm : MemLe bs m m') :
    ReaderOK cfg lim bs M log σ' i m' a :=
  fun rd hr => ⟨(h rd hr).1, (h rd hr).2.other g hij hm⟩

theorem ActorOK.none {cfg lim bs M log σ i m} : ActorOK cfg lim bs M log σ i m none := fun _ h => by cases h
theorem ReaderOK.none {cfg lim bs M log σ i m} : ReaderOK cfg lim bs M log σ i m none := fun _ h => by cases h

theorem upd_all {α : Type} {f : Nat → α} {i : Nat} {a : α} {P : Nat → α → Prop} (ha : P i a)
    (h : ∀ j, j ≠ i → P j (f j)) : ∀ j, P j (upd f i a j) := by
  intro j
  unfold upd
  split
  · rename_i e; subst e; exact ha
  · rename_i e; exact h j e

theorem upd_self {α : Type} (f : Nat → α) (i : Nat) (a : α) : upd f i a i = a := if_pos rfl

theorem upd_le {bs : BitE × BitE} {f : Nat → Layer} {p : Nat} {m : Layer} (h : MemLe bs (f p) m) (q : Nat) :
    MemLe bs (f q) (upd f p m q) := by
  unfold upd
  split
  · rename_i e; subst e; exact h
  · exact .refl _

/-- the move fits the mode -/
structure MoveOK (cfg : Cfg) (lim : Lim) (bs : BitE × BitE) (M : Mode) (fuel : Nat) (log : List Entry) (t : Move) : Prop where
  start : ∀ i c, t = .begin i c → ∀ σ, RI cfg lim bs M.fz σ → Logs lim bs σ log →
    rwp (actor cfg lim bs M i log c) (Ends (actor cfg lim bs M i log c) σ log c) (c.yields fuel log) σ
  fate : ∀ i f, t = .step i f → f = .ok ∨ ∀ l c, M.sure i l c = false

theorem MoveOK.free {cfg lim bs fuel log} (hso : lim.solo = false) (h0 : cfg.zero = false) (hf : Fits lim fuel) {t : Move} (ht : ∀ s ∈ t.texts, TextOK lim s) :
    MoveOK cfg lim bs .free fuel log t where
  start i c e σ hi k := by
    subst e
    exact begins rfl rfl hso h0 hi hf k ht
  fate _ _ _ := .inr fun _ _ => rfl

/-- One move; its storage call, if any, is answered by `c`. -/
theorem CrowdInv.move {cfg lim bs M fuel home} (hf : Fits lim fuel) {y : Crowd} {σ : Rt} (h : CrowdInv home cfg lim bs M y σ)
    {c : Cfg} (hl : c.dup = cfg.dup ∧ (M.fz ≠ none → M.al c ∨ c = cfg)) (t : Move) (ht : MoveOK cfg lim bs M fuel y.log t) :
    ∃ σ', CrowdInv home cfg lim bs M (y.move c fuel home t) σ' := by
  cases t with
  | «begin» i c =>
    simp only [Crowd.move]
    cases hc : y.cur i with
    | some b => exact ⟨σ, h⟩
    | none =>
      refine ⟨σ, h.store, h.inv, h.mem, h.logs, upd_all (P := fun i a => ActorOK cfg lim bs M y.log σ i (y.mem (home i)) a) ?_ (fun j _ => h.actors j), h.heard, h.readers⟩
      intro b hb
      cases hb
      refine ⟨List.prefix_refl _, σ, (ht.start i c rfl σ h.inv h.logs).busy h.inv (h.mem _), ?_⟩
      intro e he _
      rw [(h.logs.ok e he).ent.tc]
      simp
  | step i f =>
    simp only [Crowd.move]
    cases hc : y.cur i with
    | none => exact ⟨σ, h⟩
    | some b =>
      obtain ⟨hp, σ0, hb, hown⟩ := h.actors i b hc
      simp only
      cases ho : Go.end b.prog with
      | none =>
        obtain ⟨σ', g, hs, hm, hb'⟩ := hb.turn h.inv (f := f)
          ((ht.fate i f rfl).symm.imp (fun h => h _ _) id) hl rfl
        rw [h.store] at hs hb' hm
        refine ⟨σ', hs, g.inv, fun p => (upd_le hm p).ok (h.mem p), h.logs.mono g.mono,
          upd_all (P := fun i' a => ActorOK cfg lim bs M y.log σ' i' (upd y.mem (home i) _ (home i')) a) ?_
            (fun i' hi' => (h.actors i').other h.logs g (by omega) (upd_le hm _)), h.heard,
          fun j => (h.readers j).other g (by omega) (upd_le hm _)⟩
        intro b' hb2
        rw [upd_self]
        cases hb2
        refine ⟨hp, σ0, hb', fun e he ho => hown e he ?_⟩
        rw [← ho]
        exact (g.mono.own _ (by rw [(h.logs.ok e he).ent.tc]; simp)).symm
      | some o =>
        obtain ⟨σs, hq, he⟩ := hb.out ho
        have act : ∀ i', ActorOK cfg lim bs M y.log σ i' (y.mem (home i')) (upd y.cur i none i') :=
          upd_all (P := fun i a => ActorOK cfg lim bs M y.log σ i (y.mem (home i)) a) .none (fun j _ => h.actors j)
        have idle : CrowdInv home cfg lim bs M { y with cur := upd y.cur i none } σ :=
          ⟨h.store, h.inv, h.mem, h.logs, act, h.heard, h.readers⟩
        refine ⟨σ, ?_⟩
        simp only
        unfold Crowd.return
        cases o with
        | ok yl =>
          cases yl with
          | created r =>
            obtain ⟨e, h1, h2, h3, h4, h5⟩ := Made.entry hq hp h.logs he.mono
            have hfresh : ∀ e' ∈ y.log, e'.handle.cls ≠ r.cls := by
              intro e' he' hc'
              exact hown e' he' (by rw [hc', h5]) (by rw [hc', h4])
            have hlog : (Call.entry y.log r b.call).toList = [e] := by rw [h1]; rfl
            simp only
            rw [hlog]
            refine ⟨h.store, h.inv, h.mem, ⟨?_, ?_⟩,
              upd_all (P := fun i a => ActorOK cfg lim bs M (y.log ++ [e]) σ i (y.mem (home i)) a) .none ?_, ?_, ?_⟩
            · intro e' he'
              rcases List.mem_append.1 he' with he' | he'
              · exact (h.logs.ok e' he').append _
              · rw [List.mem_singleton.1 he']; exact h3
            · rw [List.map_append, List.nodup_append]
              refine ⟨h.logs.nodup, by simp, ?_⟩
              intro a ha b' hb'
              obtain ⟨e', he', rfl⟩ := List.mem_map.1 ha
              simp only [List.map_cons, List.map_nil, List.mem_singleton] at hb'
              rw [hb', h2]
              exact hfresh e' he'
            · intro i' hii b' hb'
              obtain ⟨g1, σ1, g2, g3⟩ := h.actors i' b' hb'
              refine ⟨g1.trans (List.prefix_append _ _), σ1, g2, ?_⟩
              intro e' he' ho'
              rcases List.mem_append.1 he' with he' | he'
              · exact g3 e' he' ho'
              · rw [List.mem_singleton.1 he', h2, h5] at ho'
                exact absurd ho' (by show 2 * i + 1 ≠ _; omega)
            · intro x hx
              exact ⟨(h.heard x hx).1, (h.heard x hx).2.trans (List.prefix_append _ _)⟩
            · intro j rd hj
              exact ⟨(h.readers j rd hj).1.trans (List.prefix_append _ _), (h.readers j rd hj).2⟩
          | answered a =>
            refine ⟨h.store, h.inv, h.mem, h.logs, act, ?_, h.readers⟩
            intro x hx
            rcases List.mem_append.1 hx with hx | hx
            · exact h.heard x hx
            · rw [List.mem_singleton.1 hx]; exact ⟨hq, hp⟩
          | nothing => exact idle
        | _ => exact idle
  | die p =>
    refine ⟨σ, h.store, h.inv, upd_all (fun h => by cases h) (fun p _ => h.mem p), h.logs, ?_, h.heard, ?_⟩
    · intro i
      simp only [Crowd.move]
      split
      · exact .none
      · rename_i hp
        simp only [upd, if_neg hp]
        exact h.actors i
    · intro j
      simp only [Crowd.move]
      split
      · exact .none
      · rename_i hp
        simp only [upd, if_neg hp]
        exact h.readers j
  | spawn j i qs =>
    refine ⟨σ, h.store, h.inv, h.mem, h.logs, h.actors, h.heard,
      upd_all (P := fun j a => ReaderOK cfg lim bs M y.log σ j (y.mem (home j)) a) ?_ (fun j _ => h.readers j)⟩
    intro rd hr
    cases hr
    exact ⟨List.prefix_refl _, (rwp_interview rfl hf h.inv h.logs i qs _).busy h.inv (h.mem _)⟩
  | read j =>
    simp only [Crowd.move]
    cases hj : y.readers j with
    | none => exact ⟨σ, h⟩
    | some rd =>
      obtain ⟨hp, hb⟩ := h.readers j rd hj
      obtain ⟨σ', g, hs, hm, hb'⟩ := hb.turn h.inv (f := .ok) (.inr rfl) hl rfl
      rw [h.store] at hs hb' hm
      refine ⟨σ', hs, g.inv, fun p => (upd_le hm p).ok (h.mem p), h.logs.mono g.mono,
        fun i' => (h.actors i').other h.logs g (by omega) (upd_le hm _), h.heard,
        upd_all (P := fun j' a => ReaderOK cfg lim bs M y.log σ' j' (upd y.mem (home j) _ (home j')) a) ?_
          (fun j' hj' => (h.readers j').other g (by omega) (upd_le hm _))⟩
      intro rd' hr
      rw [upd_self]
      cases hr
      exact ⟨hp, hb'⟩

theorem CrowdInv.moves {cfg lim bs M fuel home} (hf : Fits lim fuel) : ∀ (ts : List Move) {y : Crowd} {σ : Rt},
    CrowdInv home cfg lim bs M y σ →
    (∀ ts1 t ts2, ts = ts1 ++ t :: ts2 → MoveOK cfg lim bs M fuel (y.moves cfg fuel home ts1).log t) →
    ∃ σ', CrowdInv home cfg lim bs M (y.moves cfg fuel home ts) σ' := by
  intro ts
  induction ts with
  | nil => exact fun h _ => ⟨_, h⟩
  | cons t ts ih =>
    intro y σ h ht
    obtain ⟨σ1, h1⟩ := h.move hf ⟨rfl, fun _ => .inr rfl⟩ t (ht [] t ts rfl)
    exact ih h1 fun ts1 t' ts2 e => ht (t :: ts1) t' ts2 (by rw [e]; rfl)

theorem CrowdInv.start {home cfg lim} {st : State} {σ : St} (hd : cfg.dup = .ignore)
    (h : Holds cfg lim st σ) (hl : st.log ≠ [])
    (hh : lim.solo = true → ∀ bs, σ.bits = some bs → ∃ y, σ.T (bitNode bs true) = [y]) (M : Mode) (hM : M.fz = none) :
    ∃ bs, CrowdInv home cfg lim bs M (Crowd.start st) (.of σ) := by
  cases hb : σ.bits with
  | none => exact absurd hb (h.bits hl)
  | some bs =>
    refine ⟨bs, h.is.store, by rw [hM]; exact inv_race hd h.inv hb fun hs => hh hs bs hb, upd_all ?_ (fun _ _ h => by cases h),
      ⟨fun e he => entry_race hb (h.keeps.ok e he), h.keeps.nodup⟩,
      (fun i => .none), (fun x hx => by cases hx), (fun j => .none)⟩
    intro hm
    have hm' := h.is.mem
    have := h.inv.mem (by rw [hm']; exact hm)
    rw [hb, hm'] at this
    exact Option.some.inj this

theorem CrowdInv.readable {home cfg lim bs M fuel} (hf : Fits lim fuel) {y : Crowd} {σ : Rt} (h : CrowdInv home cfg lim bs M y σ)
    {m : Layer} (hm : MemOK bs m) {e} (he : e ∈ y.log) : Readable cfg fuel y.log ⟨y.store, m⟩ e := by
  have := Logs.readable h.inv h.logs hf hm he
  rw [h.store] at this
  exact this

/-- without node 0 every remark has a story -/
theorem CrowdInv.opener {home cfg lim bs M} {y : Crowd} {σ : Rt} (h : CrowdInv home cfg lim bs M y σ) (hz : cfg.zero = false) {e}
    (he : e ∈ y.log) : ∃ i e', e.opener = some i ∧ y.log[i]? = some e' := by
  have hf := (h.logs.ok e he).fact
  cases ho : e.opener with
  | some i =>
    rw [ho] at hf
    obtain ⟨e', h1, _⟩ := hf
    exact ⟨i, e', rfl, h1⟩
  | none =>
    rw [ho] at hf
    exact absurd (hz.symm.trans ((h.inv.zero 0).1 hf.2).2) (by simp)

theorem CrowdInv.result {home cfg lim bs M} {y : Crowd} {σ : Rt} (h : CrowdInv home cfg lim bs M y σ) {j : Nat} {rd}
    (hj : y.readers j = some rd) : rd.Good (rd.result cfg y.store (y.mem (home j))) := by
  obtain ⟨_, κ, σs, h1, he, hk⟩ := h.readers j rd hj
  have := rwp_alone (RC.crisp rfl) he.inv hk (rwpk_env he h1)
  rw [h.store] at this
  exact this

/-- threads of any number of processes, after a history -/
theorem crowd_inv {cfg : Cfg} (hz : cfg.zero = false) {fuel : Nat} {es es' : List Event} (h : Stormy cfg fuel es es')
    (home : Nat → Nat) {ts : List Move} (ht : ∀ t ∈ ts, ∀ s ∈ t.texts, s.length < fuel) :
    ∃ bs σ, CrowdInv home cfg (stdLim fuel) bs .free ((Crowd.start (after cfg fuel (es ++ es'))).moves cfg fuel home ts) σ := by
  obtain ⟨σ, hs⟩ := h.holds hz
  have hl : (after cfg fuel (es ++ es')).log ≠ [] := by
    obtain ⟨l, hl⟩ := events_log cfg fuel es' (after cfg fuel es)
    rw [after_append, hl]
    intro h'
    exact h.log (List.append_eq_nil_iff.1 h').1
  obtain ⟨bs, h0⟩ := CrowdInv.start h.start.dup hs hl (fun h => by cases h) .free rfl
  obtain ⟨σ', h1⟩ := h0.moves h.budget.fits ts fun ts1 t ts2 e =>
    .free rfl hz h.budget.fits fun s hs => .std (ht t (by rw [e]; simp) s hs)
  exact ⟨bs, σ', h1⟩

theorem move_log (cfg : Cfg) (fuel : Nat) (home : Nat → Nat) (y : Crowd) (t : Move) :
    y.log <+: (y.move cfg fuel home t).log := by
  cases t with
  | «begin» i c => simp only [Crowd.move]; split <;> exact List.prefix_refl _
  | step i f =>
    simp only [Crowd.move]
    split
    · exact List.prefix_refl _
    · split
      · unfold Crowd.return
        simp only
        split
        · exact List.prefix_append _ _
        · exact List.prefix_refl _
        · exact List.prefix_refl _
      · exact List.prefix_refl _
  | die i => exact List.prefix_refl _
  | spawn j i qs => exact List.prefix_refl _
  | read j => simp only [Crowd.move]; split <;> exact List.prefix_refl _

theorem moves_log (cfg : Cfg) (fuel : Nat) (home : Nat → Nat) : ∀ (ts : List Move) (y : Crowd),
    y.log <+: (y.moves cfg fuel home ts).log := by
  intro ts
  induction ts with
  | nil => exact fun y => List.prefix_refl _
  | cons t ts ih => exact fun y => (move_log cfg fuel home y t).trans (ih _)

end Semnet.Race
