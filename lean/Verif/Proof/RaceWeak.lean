import Verif.Spec.Weak
import Verif.Proof.RaceSys
import Verif.Proof.Uses
/-
  Goroutines that share a `Graph` under Go's memory model.
-/
namespace Semnet.Race
open Class Spec

/-! ### what is seen -/

/-- the assignment is right -/
def Truly (bs : BitE × BitE) : Assign → Prop
  | .zeroEntity e => e = bs.1
  | .oneEntity e => e = bs.2
  | .isInitialized => True

theorem Know.says {bs : BitE × BitE} {κ κ' : Know} {u : Assign} (h : κ.assign bs u = some κ') : Truly bs u := by
  cases u <;> simp only [Know.assign] at h <;> try trivial
  all_goals
    split at h
    · assumption
    · cases h

theorem see_whole {g : Glance} (h : g.Whole) (f : Option Nat → BitE) : g.see f = f g.value := by
  unfold Glance.see
  rw [h.1, h.2.1, h.2.2]

/-- a sight that sees entities as they were assigned -/
theorem Hazy.see {bs : BitE × BitE} {m : Layer} (h : Hazy bs m) {us : List Assign} (hu : ∀ u ∈ us, Truly bs u) {s : Sight}
    (hs : s.Whole) : Hazy bs (s.see m us) := by
  constructor
  · show s.zeroEntity.see _ = _ ∨ s.zeroEntity.see _ = _
    rw [see_whole hs.1]
    unfold zeroSeen
    split
    · rename_i e he
      obtain ⟨n, _, hn⟩ := Option.bind_eq_some_iff.1 he
      exact .inl (hu _ (List.mem_of_getElem? hn))
    · exact h.1
  · show s.oneEntity.see _ = _ ∨ s.oneEntity.see _ = _
    rw [see_whole hs.2]
    unfold oneSeen
    split
    · rename_i e he
      obtain ⟨n, _, hn⟩ := Option.bind_eq_some_iff.1 he
      exact .inl (hu _ (List.mem_of_getElem? hn))
    · exact h.2

theorem Hazy.set {bs : BitE × BitE} {m : Layer} (h : Hazy bs m) {u : Assign} (hu : Truly bs u) : Hazy bs (m.set u) := by
  cases u with
  | zeroEntity e => exact ⟨.inl hu, h.2⟩
  | oneEntity e => exact ⟨h.1, .inl hu⟩
  | isInitialized => exact h

theorem Hazy.sets {bs : BitE × BitE} : ∀ (us : List Assign) {m : Layer}, Hazy bs m → (∀ u ∈ us, Truly bs u) →
    Hazy bs (us.foldl Layer.set m) := by
  intro us
  induction us with
  | nil => exact fun h _ => h
  | cons u us ih => exact fun h hu => ih (h.set (hu u (by simp))) fun v hv => hu v (by simp [hv])

/-- what may be seen by the threads of a process -/
structure Vague (bs : BitE × BitE) (m : Layer) (us : List Assign) : Prop where
  mem : Hazy bs m
  says : ∀ u ∈ us, Truly bs u

theorem Vague.view {bs : BitE × BitE} {y : Lax} {p : Nat} (h : Vague bs (y.crowd.mem p) (y.said p)) {s : Option Sight}
    (hs : ∀ x, s = some x → x.Whole) : Hazy bs (y.view p s) := by
  cases s with
  | none => exact h.mem.sets _ h.says
  | some x => exact h.mem.see h.says (hs x rfl)

/-! ### one thread -/

/-- a thread in the middle of a call -/
def Hesitant {α : Type} (C : RC) (Q : Out α → Rt → Prop) (p : Go α) (σ : Rt) : Prop :=
  ∃ κ σs, rwpk C Q p κ σs ∧ Env C σs σ

theorem rwp.hesitant {α : Type} {C : RC} {Q : Out α → Rt → Prop} {p : Go α} {σ : Rt} (h : rwp C Q p σ) (hi : C.I σ) :
    Hesitant C Q p σ := ⟨.bot, σ, h .bot, .refl hi⟩

/-- what another thread does -/
theorem Hesitant.other {α : Type} {cfg lim bs fz al i j t t' w w'} {Q : Out α → Rt → Prop} {p : Go α} {σ σ' : Rt}
    (h : Hesitant ⟨cfg, lim, bs, i, t, fz, al, w⟩ Q p σ) (g : Guar ⟨cfg, lim, bs, j, t', fz, al, w'⟩ σ σ') (hij : i ≠ j) :
    Hesitant ⟨cfg, lim, bs, i, t, fz, al, w⟩ Q p σ' := by
  obtain ⟨κ, σs, h1, he⟩ := h
  refine ⟨κ, σs, h1, ⟨g.inv, he.mono.trans g.mono, ?_⟩⟩
  intro x hx ho
  have hx' : σ.tag x ≠ .none := by rw [he.mono.tag x hx]; exact hx
  have ho' : σ.own x = i := by rw [he.mono.own x hx]; exact ho
  exact (he.keep x hx ho).trans he.mono hx (g.keep x hx' (by rw [ho']; exact hij))

/-- it has ended -/
theorem Hesitant.out {α : Type} {C : RC} {Q : Out α → Rt → Prop} {p : Go α} {σ : Rt} (h : Hesitant C Q p σ) {o}
    (ho : Go.end p = some o) : ∃ σs, Q o σs ∧ Env C σs σ := by
  obtain ⟨κ, σs, h1, he⟩ := h
  refine ⟨σs, ?_, he⟩
  cases p <;> simp [Go.end] at ho <;> subst ho <;> exact h1

/-- its turn -/
theorem Hesitant.turn {α : Type} {C : RC} (hh : C.hazy = true) {Q : Out α → Rt → Prop} {p : Go α} {m : Layer} {σ : Rt}
    (h : Hesitant C Q p σ) (hi : C.I σ) (hm : Hazy C.bs m) {f : Fate} :
    ∃ σ', Guar C σ σ' ∧ σ'.store = (Go.one C.cfg f p σ.store m).2.1 ∧ (∀ u ∈ Go.says p, Truly C.bs u) ∧
      Hesitant C Q (Go.one C.cfg f p σ.store m).1 σ' := by
  have h0 := h
  have hF := RC.hazy_tot hh
  obtain ⟨κ, σs, h1, he⟩ := h
  cases p with
  | op o k =>
    obtain ⟨⟨t, b, hs, h3⟩, h4, h5⟩ := h1 _ C.like _ he
    cases f with
    | ok => exact ⟨_, hs, rfl, (by simp [Go.says]), κ, _, h3, .refl hs.inv⟩
    | fail => exact ⟨σ, .refl hi, rfl, (by simp [Go.says]), κ, _, h4 hF, .refl hi⟩
    | failLate =>
      obtain ⟨t, b, hs, h6⟩ := h5 hF
      exact ⟨_, hs, rfl, (by simp [Go.says]), κ, _, h6, .refl hs.inv⟩
  | getMem k => exact ⟨σ, .refl hi, rfl, (by simp [Go.says]), _, σs, h1 m (.inl ⟨hh, hm⟩), he⟩
  | setMem u k =>
    obtain ⟨κ', h2, h3⟩ := h1
    refine ⟨σ, .refl hi, rfl, ?_, κ', σs, h3, he⟩
    intro v hv
    rw [List.mem_singleton.1 hv]
    exact Know.says h2
  | _ => exact ⟨σ, .refl hi, rfl, (by simp [Go.says]), h0⟩

/-! ### the crowd -/

/-- the `i`-th thread -/
abbrev doer (cfg : Cfg) (lim : Lim) (bs : BitE × BitE) (i : Nat) : RC := ⟨cfg, lim, bs, 2 * i + 1, false, none, fun _ => False, true⟩
/-- the `j`-th reader -/
abbrev looker (cfg : Cfg) (lim : Lim) (bs : BitE × BitE) (j : Nat) : RC := ⟨cfg, lim, bs, 2 * j + 2, false, none, fun _ => False, true⟩

def DoerOK (cfg : Cfg) (lim : Lim) (bs : BitE × BitE) (log : List Entry) (σ : Rt) (i : Nat) (a : Option Begun) : Prop :=
  ∀ b, a = some b → b.log <+: log ∧
    ∃ σ0, Hesitant (doer cfg lim bs i) (Ends (doer cfg lim bs i) σ0 b.log b.call) b.prog σ ∧
      ∀ e ∈ log, σ.own e.handle.cls = 2 * i + 1 → σ0.tag e.handle.cls ≠ .none

def LookerOK (cfg : Cfg) (lim : Lim) (bs : BitE × BitE) (σ : Rt) (j : Nat) (a : Option Asker) : Prop :=
  ∀ rd, a = some rd → Hesitant (looker cfg lim bs j) (fun _ _ => True) rd.prog σ

structure WeakInv (cfg : Cfg) (lim : Lim) (bs : BitE × BitE) (y : Lax) (σ : Rt) : Prop where
  store : σ.store = y.crowd.store
  inv : RI cfg lim bs none σ
  mem : ∀ p, Vague bs (y.crowd.mem p) (y.said p)
  logs : Logs lim bs σ y.crowd.log
  actors : ∀ i, DoerOK cfg lim bs y.crowd.log σ i (y.crowd.cur i)
  heard : ∀ h ∈ y.crowd.heard, h.Right ∧ h.log <+: y.crowd.log
  readers : ∀ j, LookerOK cfg lim bs σ j (y.crowd.readers j)

theorem DoerOK.other {cfg lim bs log} {σ σ' : Rt} {i j t w a} (h : DoerOK cfg lim bs log σ i a)
    (k : Logs lim bs σ log) (g : Guar ⟨cfg, lim, bs, j, t, none, fun _ => False, w⟩ σ σ') (hij : 2 * i + 1 ≠ j) :
    DoerOK cfg lim bs log σ' i a := by
  intro b hb
  obtain ⟨h1, σ0, h2, h3⟩ := h b hb
  refine ⟨h1, σ0, h2.other g hij, fun e he ho => h3 e he ?_⟩
  rw [← ho]
  exact (g.mono.own _ (by rw [(k.ok e he).ent.tc]; simp)).symm

theorem LookerOK.other {cfg lim bs} {σ σ' : Rt} {i j t w a} (h : LookerOK cfg lim bs σ i a)
    (g : Guar ⟨cfg, lim, bs, j, t, none, fun _ => False, w⟩ σ σ') (hij : 2 * i + 2 ≠ j) :
    LookerOK cfg lim bs σ' i a :=
  fun rd hr => (h rd hr).other g hij

theorem DoerOK.none {cfg lim bs log σ i} : DoerOK cfg lim bs log σ i none := fun _ h => by cases h
theorem LookerOK.none {cfg lim bs σ i} : LookerOK cfg lim bs σ i none := fun _ h => by cases h

theorem vague_upd {bs : BitE × BitE} {mem : Nat → Layer} {said : Nat → List Assign} {p : Nat} {us : List Assign}
    (h : ∀ q, Vague bs (mem q) (said q)) (hu : ∀ u ∈ us, Truly bs u) (q : Nat) :
    Vague bs (mem q) (upd said p (said p ++ us) q) := by
  refine ⟨(h q).mem, ?_⟩
  unfold upd
  split
  · rename_i e
    subst e
    intro u hu'
    rcases List.mem_append.1 hu' with h' | h'
    · exact (h q).says u h'
    · exact hu u h'
  · exact (h q).says

theorem upd_nil {said : Nat → List Assign} {p : Nat} : upd said p (said p ++ []) = said := by
  funext q
  unfold upd
  split
  · rename_i e; subst e; simp
  · rfl

theorem WeakInv.same {cfg lim bs} {y y' : Lax} {σ : Rt} (h : WeakInv cfg lim bs y σ) (e : y' = y) : WeakInv cfg lim bs y' σ := e ▸ h

theorem WeakInv.move {cfg lim bs fuel home} (h0 : cfg.zero = false) (hso : lim.solo = false) (hf : Fits lim fuel) {y : Lax}
    {σ : Rt} (h : WeakInv cfg lim bs y σ) (t : Move × Option Sight) (hs : ∀ x, t.2 = some x → x.Whole)
    (ht : ∀ s ∈ t.1.texts, TextOK lim s) : ∃ σ', WeakInv cfg lim bs (y.move cfg fuel home t) σ' := by
  have hz : ∀ i, (doer cfg lim bs i).hazy = true := fun i => by simp [RC.hazy, h0]
  have hz' : ∀ i, (looker cfg lim bs i).hazy = true := fun i => by simp [RC.hazy, h0]
  obtain ⟨t, s⟩ := t
  have nil : ∀ q p, Vague bs (y.crowd.mem q) (upd y.said p (y.said p ++ []) q) := fun q p => by
    rw [upd_nil]; exact h.mem q
  cases t with
  | «begin» i c =>
    simp only [Lax.move, Crowd.move, Crowd.says]
    cases hc : y.crowd.cur i with
    | some b => exact ⟨σ, h.store, h.inv, fun q => nil q _, h.logs, h.actors, h.heard, h.readers⟩
    | none =>
      refine ⟨σ, h.store, h.inv, fun q => nil q _, h.logs,
        upd_all (P := fun i a => DoerOK cfg lim bs y.crowd.log σ i a) ?_ (fun j _ => h.actors j), h.heard, h.readers⟩
      intro b hb
      cases hb
      refine ⟨List.prefix_refl _, σ, (begins (C := doer cfg lim bs i) (c := c) rfl rfl hso h0 h.inv hf h.logs ht).hesitant h.inv, ?_⟩
      intro e he _
      rw [(h.logs.ok e he).ent.tc]
      simp
  | step i f =>
    simp only [Lax.move, Crowd.move, Crowd.says]
    cases hc : y.crowd.cur i with
    | none => exact ⟨σ, h.store, h.inv, fun q => nil q _, h.logs, h.actors, h.heard, h.readers⟩
    | some b =>
      obtain ⟨hp, σ0, hb, hown⟩ := h.actors i b hc
      simp only
      cases ho : Go.end b.prog with
      | none =>
        obtain ⟨σ', g, hst, hu, hb'⟩ := hb.turn (hz i) h.inv (m := y.view (home i) s) ((h.mem _).view hs) (f := f)
        rw [h.store] at hst hb'
        simp only [Move.at, upd_self]
        refine ⟨σ', hst, g.inv, vague_upd h.mem hu, h.logs.mono g.mono,
          upd_all (P := fun i' a => DoerOK cfg lim bs y.crowd.log σ' i' a) ?_
            (fun i' hi' => (h.actors i').other h.logs g (by omega)), h.heard,
          fun j => (h.readers j).other g (by omega)⟩
        intro b' hb2
        cases hb2
        refine ⟨hp, σ0, hb', fun e he ho => hown e he ?_⟩
        rw [← ho]
        exact (g.mono.own _ (by rw [(h.logs.ok e he).ent.tc]; simp)).symm
      | some o =>
        have hsay : Go.says b.prog = [] := by
          revert ho
          cases b.prog <;> simp [Go.end, Go.says]
        rw [hsay]
        obtain ⟨σs, hq, he⟩ := hb.out ho
        have act : ∀ i', DoerOK cfg lim bs y.crowd.log σ i' (upd y.crowd.cur i none i') :=
          upd_all (P := fun i a => DoerOK cfg lim bs y.crowd.log σ i a) .none (fun j _ => h.actors j)
        refine ⟨σ, ?_⟩
        simp only
        unfold Crowd.return
        cases o with
        | ok yl =>
          cases yl with
          | created r =>
            obtain ⟨e, h1, h2, h3, h4, h5⟩ := Made.entry hq hp h.logs he.mono
            have hfresh : ∀ e' ∈ y.crowd.log, e'.handle.cls ≠ r.cls := by
              intro e' he' hc'
              exact hown e' he' (by rw [hc', h5]) (by rw [hc', h4])
            have hlog : (Call.entry y.crowd.log r b.call).toList = [e] := by rw [h1]; rfl
            simp only
            rw [hlog]
            refine ⟨h.store, h.inv, fun q => nil q _, ⟨?_, ?_⟩,
              upd_all (P := fun i a => DoerOK cfg lim bs (y.crowd.log ++ [e]) σ i a) .none ?_, ?_, h.readers⟩
            · intro e' he'
              rcases List.mem_append.1 he' with he' | he'
              · exact (h.logs.ok e' he').append _
              · rw [List.mem_singleton.1 he']; exact h3
            · rw [List.map_append, List.nodup_append]
              refine ⟨h.logs.nodup, by simp, ?_⟩
              intro a ha b' hb'
              obtain ⟨e', he', rfl⟩ := List.mem_map.1 ha
              simp only [List.map_cons, List.map_nil, List.mem_singleton] at hb'
              rw [hb', h2]
              exact hfresh e' he'
            · intro i' hii b' hb'
              obtain ⟨g1, σ1, g2, g3⟩ := h.actors i' b' hb'
              refine ⟨g1.trans (List.prefix_append _ _), σ1, g2, ?_⟩
              intro e' he' ho'
              rcases List.mem_append.1 he' with he' | he'
              · exact g3 e' he' ho'
              · rw [List.mem_singleton.1 he', h2, h5] at ho'
                exact absurd ho' (by show 2 * i + 1 ≠ _; omega)
            · intro x hx
              exact ⟨(h.heard x hx).1, (h.heard x hx).2.trans (List.prefix_append _ _)⟩
          | answered a =>
            refine ⟨h.store, h.inv, fun q => nil q _, h.logs, act, ?_, h.readers⟩
            intro x hx
            rcases List.mem_append.1 hx with hx | hx
            · exact h.heard x hx
            · rw [List.mem_singleton.1 hx]; exact ⟨hq, hp⟩
          | nothing => exact ⟨h.store, h.inv, fun q => nil q _, h.logs, act, h.heard, h.readers⟩
        | _ => exact ⟨h.store, h.inv, fun q => nil q _, h.logs, act, h.heard, h.readers⟩
  | die p =>
    refine ⟨σ, h.store, h.inv, ?_, h.logs, ?_, h.heard, ?_⟩
    · intro q
      simp only [Lax.move, Crowd.move, Move.at, upd]
      split
      · exact ⟨⟨.inr rfl, .inr rfl⟩, fun u hu => by cases hu⟩
      · exact h.mem q
    · intro i
      simp only [Lax.move, Crowd.move]
      split
      · exact .none
      · exact h.actors i
    · intro j
      simp only [Lax.move, Crowd.move]
      split
      · exact .none
      · exact h.readers j
  | spawn j i qs =>
    refine ⟨σ, h.store, h.inv, fun q => nil q _, h.logs, h.actors, h.heard,
      upd_all (P := fun j a => LookerOK cfg lim bs σ j a) ?_ (fun j _ => h.readers j)⟩
    intro rd hr
    cases hr
    exact (rwp_mono (fun _ _ _ => trivial) (quiet_rwp (quiet_interview fuel i qs) h.inv)).hesitant h.inv
  | read j =>
    simp only [Lax.move, Crowd.move, Crowd.says]
    cases hj : y.crowd.readers j with
    | none => exact ⟨σ, h.store, h.inv, fun q => nil q _, h.logs, h.actors, h.heard, h.readers⟩
    | some rd =>
      obtain ⟨σ', g, hst, hu, hb'⟩ := (h.readers j rd hj).turn (hz' j) h.inv (m := y.view (home j) s) ((h.mem _).view hs) (f := .ok)
      rw [h.store] at hst hb'
      simp only [Move.at, upd_self]
      refine ⟨σ', hst, g.inv, vague_upd h.mem hu, h.logs.mono g.mono,
        fun i' => (h.actors i').other h.logs g (by omega), h.heard,
        upd_all (P := fun j' a => LookerOK cfg lim bs σ' j' a) ?_
          (fun j' hj' => (h.readers j').other g (by omega))⟩
      intro rd' hr
      cases hr
      exact hb'

theorem WeakInv.moves {cfg lim bs fuel home} (h0 : cfg.zero = false) (hso : lim.solo = false) (hf : Fits lim fuel) :
    ∀ (ts : List (Move × Option Sight)) {y : Lax} {σ : Rt}, WeakInv cfg lim bs y σ →
    (∀ t ∈ ts, ∀ x, t.2 = some x → x.Whole) → (∀ t ∈ ts, ∀ s ∈ t.1.texts, TextOK lim s) →
    ∃ σ', WeakInv cfg lim bs (y.moves cfg fuel home ts) σ' := by
  intro ts
  induction ts with
  | nil => exact fun h _ _ => ⟨_, h⟩
  | cons t ts ih =>
    intro y σ h hs ht
    obtain ⟨σ1, h1⟩ := h.move h0 hso hf t (hs t (by simp)) (ht t (by simp))
    exact ih h1 (fun t' h' => hs t' (by simp [h'])) fun t' h' => ht t' (by simp [h'])

/-- goroutines of any number of processes, after a history -/
theorem weak_inv {cfg : Cfg} (hz : cfg.zero = false) {fuel : Nat} {es es' : List Event} (h : Stormy cfg fuel es es')
    (hm : (after cfg fuel (es ++ es')).world.mem.isInitialized = true ∨ (after cfg fuel (es ++ es')).world.mem = Layer.fresh)
    (home : Nat → Nat) {ts : List (Move × Option Sight)} (hs : ∀ t ∈ ts, ∀ x, t.2 = some x → x.Whole)
    (ht : ∀ t ∈ ts, ∀ s ∈ t.1.texts, s.length < fuel) :
    ∃ bs σ, WeakInv cfg (stdLim fuel) bs ((Lax.start (after cfg fuel (es ++ es'))).moves cfg fuel home ts) σ := by
  obtain ⟨bs, σ, h0⟩ := crowd_inv hz h home (ts := []) (by simp)
  have h1 : WeakInv cfg (stdLim fuel) bs (Lax.start (after cfg fuel (es ++ es'))) σ := by
    refine ⟨h0.store, h0.inv, fun p => ⟨?_, fun u hu => by cases hu⟩, h0.logs, fun i => .none, h0.heard, fun j => .none⟩
    show Hazy bs (upd (fun _ => Layer.fresh) 0 _ p)
    unfold upd
    split
    · rcases hm with hm | hm
      · have := h0.mem 0 hm
        rw [this]
        exact ⟨.inl rfl, .inl rfl⟩
      · rw [hm]; exact ⟨.inr rfl, .inr rfl⟩
    · exact ⟨.inr rfl, .inr rfl⟩
  obtain ⟨σ', h2⟩ := h1.moves hz rfl h.budget.fits ts hs fun t ht' s hs' => .std (ht t ht' s hs')
  exact ⟨bs, σ', h2⟩

/-! ### a layer that was initialized before the goroutines started -/

/-- the program does not assign to the layer `m` -/
def Still {α : Type} (m : Layer) : Go α → Prop
  | .op _ k => ∀ r, Still m (k r)
  | .getMem k => Still m (k m)
  | .setMem _ _ => False
  | _ => True

theorem Still.bind {α β : Type} {m : Layer} : ∀ {p : Go α} {f : α → Go β}, Still m p → (∀ a, Still m (f a)) → Still m (p >>= f) := by
  intro p
  induction p with
  | ok a => exact fun _ hf => hf a
  | op o k ih => exact fun h hf r => ih r (h r) hf
  | getMem k ih => exact fun h hf => ih m h hf
  | setMem u k ih => exact fun h _ => h.elim
  | _ => exact fun _ _ => trivial

theorem Still.attempt {α : Type} {m : Layer} : ∀ {p : Go α}, Still m p → Still m p.attempt := by
  intro p
  induction p with
  | op o k ih => exact fun h r => ih r (h r)
  | getMem k ih => exact fun h => ih m h
  | setMem u k ih => exact fun h => h.elim
  | _ => exact fun _ => trivial

theorem _root_.Semnet.Uses.still {α : Type} {p : Go α} (h : Uses p) {m : Layer} (hm : m.isInitialized = true) : Still m p := by
  induction h with
  | pure a => trivial
  | err e => trivial
  | panic => trivial
  | spin => trivial
  | call o => intro r; cases r <;> trivial
  | init =>
    show Still m ((if m.isInitialized = true then pure () else Bit.fill) >>= fun _ => _)
    rw [if_pos hm]
    trivial
  | bind _ _ ih ihf => exact .bind ih ihf
  | attempt _ ih => exact .attempt ih

theorem uses_yields (n log) (c : Call) : Uses (c.yields n log) := by
  cases c with
  | createStory o p => simp only [Call.yields, Graph.createStory, Remark.createEntity]; uses
  | addRemark i p =>
    simp only [Call.yields, Remark.addRemarkToFact, Remark.createEntity, Remark.getSourceDetail, Detail.fetch,
      Detail.readEntityByRemark]
    uses
  | addFact i o p => simp only [Call.yields, Remark.addFactToStory, Remark.createEntity]; uses
  | addChild i o p => simp only [Call.yields, Remark.createChildStory, Remark.createEntity]; uses
  | query i q => simp only [Call.yields]; have := fun r => uses_ask n r q; uses; exact this _
  | getRemark i => simp only [Call.yields]; uses

theorem uses_asks (n : Nat) (r : RemE) : ∀ qs, Uses (asks n r qs)
  | [] => .pure _
  | q :: qs => .bind (uses_ask n r q) fun _ => .bind (uses_asks n r qs) fun _ => .pure _

theorem uses_interview (n i : Nat) (qs) : Uses (interview n i qs) := .bind (uses_getRemark i) fun r => uses_asks n r qs

theorem Still.says {α : Type} {m : Layer} {p : Go α} (h : Still m p) : Go.says p = [] := by
  cases p with
  | setMem u k => exact h.elim
  | _ => rfl

theorem Still.one {α : Type} {m : Layer} {p : Go α} (h : Still m p) {cfg f s} : Still m (Go.one cfg f p s m).1 := by
  cases p with
  | setMem u k => exact h.elim
  | op o k => cases f <;> exact h _
  | _ => exact h

theorem one_mem {α : Type} {cfg f s} {m : Layer} {p : Go α} :
    (Go.one cfg f p s m).2.2 = (Go.says p).foldl Layer.set m := by
  cases p with
  | op o k => cases f <;> rfl
  | _ => rfl

theorem see_nil {m : Layer} {s : Sight} : s.see m [] = m := by
  have h : ∀ n : Option Nat, (n.bind fun n => ([] : List Assign)[n]?) = none := by intro n; cases n <;> rfl
  have h0 : ∀ n, zeroSeen m [] n = m.zeroEntity := fun n => by unfold zeroSeen; rw [h n]
  have h1 : ∀ n, oneSeen m [] n = m.oneEntity := fun n => by unfold oneSeen; rw [h n]
  have h2 : ∀ n, doneSeen m [] n = m.isInitialized := fun n => by unfold doneSeen; rw [h n]
  unfold Sight.see Glance.see
  simp only [h0, h1, h2]

/-- the crowd in which all assignments are seen -/
def tight (y : Lax) : Crowd := { y.crowd with mem := y.latest }

/-- the process `p` has been initialized before its goroutines started -/
structure Settled (home : Nat → Nat) (y : Lax) (p : Nat) : Prop where
  said : y.said p = []
  mem : (y.crowd.mem p).isInitialized = true
  cur : ∀ i, home i = p → ∀ b, y.crowd.cur i = some b → Still (y.crowd.mem p) b.prog
  readers : ∀ j, home j = p → ∀ rd, y.crowd.readers j = some rd → Still (y.crowd.mem p) rd.prog

theorem Settled.view {home y p} (h : Settled home y p) (s : Option Sight) : y.view p s = y.latest p := by
  cases s with
  | none => rfl
  | some s =>
    show s.see (y.crowd.mem p) (y.said p) = (y.said p).foldl Layer.set (y.crowd.mem p)
    rw [h.said]
    exact see_nil

theorem tight_upd {y : Lax} {p : Nat} {us : List Assign} {a b c d e} :
    Lax.latest ⟨⟨a, y.crowd.mem, b, c, d, e⟩, upd y.said p (y.said p ++ us)⟩ = upd y.latest p (us.foldl Layer.set (y.latest p)) := by
  funext q
  simp only [Lax.latest, upd]
  split
  · rename_i e; subst e; rw [List.foldl_append]
  · rfl

theorem upd_id {α : Type} (f : Nat → α) (p : Nat) : upd f p (f p) = f := by
  funext q; unfold upd; split
  · rename_i e; subst e; rfl
  · rfl

theorem tight_move {cfg fuel home} {y : Lax} (t : Move × Option Sight)
    (hv : y.view (t.1.at home) t.2 = y.latest (t.1.at home)) :
    tight (y.move cfg fuel home t) = (tight y).move cfg fuel home t.1 := by
  obtain ⟨t, s⟩ := t
  cases t with
  | «begin» i c =>
    simp only [Lax.move, Crowd.move, Crowd.says, tight]
    cases hc : y.crowd.cur i with
    | some b => simp only; rw [tight_upd]; simp only [List.foldl_nil, upd_id]
    | none => simp only; rw [tight_upd]; simp only [List.foldl_nil, upd_id]
  | step i f =>
    simp only [Move.at] at hv
    simp only [Lax.move, Crowd.move, Crowd.says, tight, Move.at, hv, upd_self]
    cases hc : y.crowd.cur i with
    | none => simp only; rw [tight_upd]; simp only [List.foldl_nil, upd_id]
    | some b =>
      simp only
      cases ho : Go.end b.prog with
      | none =>
        simp only
        rw [tight_upd, one_mem]
      | some o =>
        have hsay : Go.says b.prog = [] := by
          revert ho
          cases b.prog <;> simp [Go.end, Go.says]
        simp only
        rw [hsay, tight_upd]
        simp only [List.foldl_nil, upd_id]
        unfold Crowd.return
        cases o with
        | ok yl => cases yl <;> rfl
        | _ => rfl
  | die p =>
    simp only [Lax.move, Crowd.move, tight, Move.at]
    congr 1
    funext q
    simp only [Lax.latest, upd]
    split <;> rfl
  | spawn j i qs =>
    simp only [Lax.move, Crowd.move, Crowd.says, tight]
    rw [tight_upd]; simp only [List.foldl_nil, upd_id]
  | read j =>
    simp only [Move.at] at hv
    simp only [Lax.move, Crowd.move, Crowd.says, tight, Move.at, hv, upd_self]
    cases hj : y.crowd.readers j with
    | none => simp only; rw [tight_upd]; simp only [List.foldl_nil, upd_id]
    | some rd =>
      simp only
      rw [tight_upd, one_mem]

theorem Settled.move {cfg fuel home} {y : Lax} {p : Nat} (h : Settled home y p) (t : Move × Option Sight) (hd : t.1 ≠ .die p) :
    Settled home (y.move cfg fuel home t) p := by
  have hv := fun s => (h.view s).trans (show y.latest p = y.crowd.mem p by unfold Lax.latest; rw [h.said]; rfl)
  have hu : ∀ q us, (q = p → us = []) → upd y.said q (y.said q ++ us) p = [] := by
    intro q us hq
    unfold upd
    split
    · rename_i e
      rw [hq e.symm, ← e, h.said]; rfl
    · exact h.said
  obtain ⟨t, s⟩ := t
  cases t with
  | «begin» i c =>
    simp only [Lax.move, Crowd.move, Crowd.says]
    cases hc : y.crowd.cur i with
    | some b => exact ⟨hu _ _ fun _ => rfl, h.mem, h.cur, h.readers⟩
    | none =>
      refine ⟨hu _ _ fun _ => rfl, h.mem, ?_, h.readers⟩
      intro i' hi' b hb
      revert hb
      simp only [upd]
      split
      · intro hb; cases hb; exact (uses_yields _ _ _).still h.mem
      · exact h.cur i' hi' b
  | step i f =>
    simp only [Lax.move, Crowd.move, Crowd.says]
    cases hc : y.crowd.cur i with
    | none => exact ⟨hu _ _ fun _ => rfl, h.mem, h.cur, h.readers⟩
    | some b =>
      have hs : Move.at home (.step i f) = p → Go.says b.prog = [] := fun e => (h.cur i e b hc).says
      simp only
      cases ho : Go.end b.prog with
      | none =>
        refine ⟨hu _ _ hs, h.mem, ?_, h.readers⟩
        intro i' hi' b' hb
        revert hb
        simp only [upd]
        split
        · rename_i e
          subst e
          intro hb
          cases hb
          subst hi'
          simp only [Move.at, if_true]
          rw [hv s]
          exact (h.cur i' rfl b hc).one
        · exact h.cur i' hi' b'
      | some o =>
        have cur : ∀ i', home i' = p → ∀ b', upd y.crowd.cur i none i' = some b' → Still (y.crowd.mem p) b'.prog := by
          intro i' hi' b' hb
          revert hb
          simp only [upd]
          split
          · intro hb; cases hb
          · exact h.cur i' hi' b'
        unfold Crowd.return
        cases o with
        | ok yl => cases yl <;> exact ⟨hu _ _ hs, h.mem, cur, h.readers⟩
        | _ => exact ⟨hu _ _ hs, h.mem, cur, h.readers⟩
  | die q =>
    have hq : p ≠ q := fun e => hd (by rw [e])
    refine ⟨?_, ?_, ?_, ?_⟩
    · simp only [Lax.move, Move.at, upd, if_neg hq]; exact h.said
    · simp only [Lax.move, Crowd.move, upd, if_neg hq]; exact h.mem
    · intro i hi b hb
      simp only [Lax.move, Crowd.move, upd, hi, if_neg hq] at hb ⊢
      exact h.cur i hi b hb
    · intro i hi b hb
      simp only [Lax.move, Crowd.move, upd, hi, if_neg hq] at hb ⊢
      exact h.readers i hi b hb
  | spawn j i qs =>
    simp only [Lax.move, Crowd.move, Crowd.says]
    refine ⟨hu _ _ fun _ => rfl, h.mem, h.cur, ?_⟩
    intro i' hi' b hb
    revert hb
    simp only [upd]
    split
    · intro hb; cases hb; exact (uses_interview _ _ _).still h.mem
    · exact h.readers i' hi' b
  | read j =>
    simp only [Lax.move, Crowd.move, Crowd.says]
    cases hj : y.crowd.readers j with
    | none => exact ⟨hu _ _ fun _ => rfl, h.mem, h.cur, h.readers⟩
    | some rd =>
      have hs : Move.at home (.read j) = p → Go.says rd.prog = [] := fun e => (h.readers j e rd hj).says
      refine ⟨hu _ _ hs, h.mem, h.cur, ?_⟩
      intro i' hi' b' hb
      revert hb
      simp only [upd]
      split
      · rename_i e
        subst e
        intro hb
        cases hb
        subst hi'
        simp only [Move.at, if_true]
        rw [hv s]
        exact (h.readers i' rfl rd hj).one
      · exact h.readers i' hi' b'

theorem tight_moves {cfg fuel home} : ∀ (ts : List (Move × Option Sight)) {y : Lax},
    (∀ t ∈ ts, t.2 = none ∨ (Settled home y (t.1.at home) ∧ ∀ t' ∈ ts, t'.1 ≠ .die (t.1.at home))) →
    tight (y.moves cfg fuel home ts) = (tight y).moves cfg fuel home (ts.map Prod.fst) := by
  intro ts
  induction ts with
  | nil => exact fun _ => rfl
  | cons t ts ih =>
    intro y h
    show tight ((y.move cfg fuel home t).moves cfg fuel home ts) = ((tight y).move cfg fuel home t.1).moves cfg fuel home (ts.map Prod.fst)
    rw [ih, tight_move t]
    · rcases h t (by simp) with e | ⟨e, _⟩
      · rw [e]; rfl
      · exact e.view _
    · intro t' ht'
      refine (h t' (by simp [ht'])).imp id fun ⟨h1, h2⟩ => ⟨h1.move t (h2 t (by simp)), fun x hx => h2 x (by simp [hx])⟩

/-! ### with synchronization -/

theorem sync_latest {y : Lax} {p : Nat} : (y.sync p).latest = y.latest := by
  funext q
  simp only [Lax.latest, Lax.sync, upd]
  split
  · rename_i e; subst e; rfl
  · rfl

theorem tight_sync {y : Lax} {p : Nat} : tight (y.sync p) = tight y := by
  unfold tight
  rw [sync_latest]
  rfl

theorem still_ended {α : Type} {m : Layer} {p : Go α} (h : Go.end p ≠ none) : Still m p := by
  cases p with
  | op o k => exact absurd rfl h
  | getMem k => exact absurd rfl h
  | setMem u k => exact absurd rfl h
  | _ => trivial

theorem Settled.sync {home y p q} (h : Settled home y p) : Settled home (y.sync q) p := by
  by_cases e : p = q
  · subst e
    have hm : (y.sync p).crowd.mem p = y.crowd.mem p := by
      simp only [Lax.sync, upd_self, Lax.latest, h.said]; rfl
    refine ⟨by simp only [Lax.sync, upd_self], by rw [hm]; exact h.mem, ?_, ?_⟩
    · intro i hi b hb; rw [hm]; exact h.cur i hi b hb
    · intro i hi b hb; rw [hm]; exact h.readers i hi b hb
  · have hm : (y.sync q).crowd.mem p = y.crowd.mem p := by simp only [Lax.sync, upd, if_neg e]
    refine ⟨by simp only [Lax.sync, upd, if_neg e]; exact h.said, by rw [hm]; exact h.mem, ?_, ?_⟩
    · intro i hi b hb; rw [hm]; exact h.cur i hi b hb
    · intro i hi b hb; rw [hm]; exact h.readers i hi b hb

theorem settled_sync {home : Nat → Nat} {y : Lax} {p : Nat} (h : (y.latest p).isInitialized = true) (hq : y.Quiet home p) :
    Settled home (y.sync p) p :=
  ⟨by simp only [Lax.sync, upd_self], by simp only [Lax.sync, upd_self]; exact h,
    fun i hi b hb => still_ended (hq.1 i hi b hb), fun i hi b hb => still_ended (hq.2 i hi b hb)⟩

theorem tight_acts {cfg fuel home} : ∀ (as : List Act) {done : Nat → Prop} {y : Lax}, (∀ p, done p → Settled home y p) →
    Careful cfg fuel home done y as → tight (y.acts cfg fuel home as) = (tight y).moves cfg fuel home (Act.moves as) := by
  intro as
  induction as with
  | nil => exact fun _ _ => rfl
  | cons a as ih =>
    intro done y hs hc
    cases a with
    | sync p =>
      show tight ((y.sync p).acts cfg fuel home as) = (tight y).moves cfg fuel home (Act.moves as)
      rw [ih ?_ hc, tight_sync]
      rintro q (hq | ⟨rfl, h1, h2⟩)
      · exact (hs q hq).sync
      · exact settled_sync h1 h2
    | move t s =>
      show tight ((y.move cfg fuel home (t, s)).acts cfg fuel home as) =
        ((tight y).move cfg fuel home t).moves cfg fuel home (Act.moves as)
      rw [ih ?_ hc.2, tight_move (t, s)]
      · cases s with
        | none => rfl
        | some s => exact (hs _ (hc.1 (fun h => by cases h))).view _
      · rintro q ⟨h1, h2⟩
        exact (hs q h1).move (t, s) h2

theorem careful_mono {cfg fuel home} : ∀ (as : List Act) {d d' : Nat → Prop} {y : Lax}, (∀ p, d p → d' p) →
    Careful cfg fuel home d y as → Careful cfg fuel home d' y as := by
  intro as
  induction as with
  | nil => exact fun _ _ => trivial
  | cons a as ih =>
    intro d d' y h hc
    cases a with
    | sync p => exact ih (fun q => Or.imp (h q) id) hc
    | move t s => exact ⟨fun hs => h _ (hc.1 hs), ih (fun q hq => ⟨h q hq.1, hq.2⟩) hc.2⟩

/-- moves that see everything are harmless -/
theorem careful_seen {cfg fuel home} : ∀ (ts : List Move) {as : List Act} {d : Nat → Prop} {y : Lax},
    (∀ t ∈ ts, ∀ p, t ≠ .die p) → Careful cfg fuel home d (y.acts cfg fuel home (ts.map (Act.move · none))) as →
    Careful cfg fuel home d y (ts.map (Act.move · none) ++ as) := by
  intro ts
  induction ts with
  | nil => exact fun _ h => h
  | cons t ts ih =>
    intro as d y hd h
    refine ⟨fun h => absurd rfl h, ih (fun t' ht' => hd t' (by simp [ht'])) ?_⟩
    exact careful_mono as (fun p hp => ⟨hp, hd t (by simp) p⟩) h

/-- in a process that is done with its initialization everything is harmless -/
theorem careful_done {cfg fuel home p} : ∀ (as : List Act) {d : Nat → Prop} {y : Lax}, d p →
    (∀ a ∈ as, ∃ t s, a = .move t s ∧ t.at home = p ∧ t ≠ .die p) → Careful cfg fuel home d y as := by
  intro as
  induction as with
  | nil => exact fun _ _ => trivial
  | cons a as ih =>
    intro d y hp ha
    obtain ⟨t, s, rfl, h1, h2⟩ := ha a (by simp)
    exact ⟨fun _ => by rw [h1]; exact hp, ih ⟨hp, h2⟩ fun a' ha' => ha a' (by simp [ha'])⟩

theorem careful_sync {cfg fuel home p} {as : List Act} {d : Nat → Prop} {y : Lax} (h : (y.latest p).isInitialized = true)
    (hq : y.Quiet home p) (ha : ∀ a ∈ as, ∃ t s, a = .move t s ∧ t.at home = p ∧ t ≠ .die p) :
    Careful cfg fuel home d y (.sync p :: as) :=
  careful_done as (.inr ⟨rfl, h, hq⟩) ha

end Semnet.Race
