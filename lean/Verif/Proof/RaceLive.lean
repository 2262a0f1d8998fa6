import Verif.Proof.RaceSys
import Verif.Spec.MoodyRace
/-
  Several processes writing at the same time: every call ends.
-/
namespace Semnet.Race
open Class Spec

/-- the moves of others do not touch the call in progress -/
theorem move_keeps {cfg : Cfg} {fuel : Nat} {home : Nat → Nat} {y : Crowd} {i : Nat} {b : Begun} (h : y.cur i = some b)
    {t : Move} (hs : ∀ f, t ≠ .step i f) (hd : t ≠ .die (home i)) : (y.move cfg fuel home t).cur i = some b := by
  cases t with
  | «begin» j c =>
    simp only [Crowd.move]
    cases hc : y.cur j with
    | some _ => exact h
    | none =>
      simp only [upd]
      split
      · rename_i e; subst e; rw [h] at hc; cases hc
      · exact h
  | step j f =>
    have hji : i ≠ j := fun e => hs f (by rw [e])
    simp only [Crowd.move]
    cases hc : y.cur j with
    | none => exact h
    | some b' =>
      simp only
      cases Go.end b'.prog with
      | none => simp only [upd, if_neg hji]; exact h
      | some o =>
        simp only [Crowd.return]
        split <;> simp only [upd, if_neg hji] <;> exact h
  | die p =>
    have : home i ≠ p := fun e => hd (by rw [e])
    simp only [Crowd.move, if_neg this]
    exact h
  | spawn j k qs => exact h
  | read j =>
    simp only [Crowd.move]
    cases y.readers j <;> exact h

/-- its next step -/
theorem next_step {fuel : Nat} {home : Nat → Nat} {y : Crowd} {s : Nat → Cfg × Move} {i : Nat} {b : Begun} :
    ∀ (d n : Nat), (y.feels fuel home s n).cur i = some b → (∃ f, (s (n + d)).2 = .step i f) →
      (∀ k, n ≤ k → (s k).2 ≠ .die (home i)) →
      ∃ k f, n ≤ k ∧ (s k).2 = .step i f ∧ (y.feels fuel home s k).cur i = some b := by
  intro d
  induction d with
  | zero => intro n h ⟨f, hf⟩ _; exact ⟨n, f, Nat.le_refl _, hf, h⟩
  | succ d ih =>
    intro n h hf hd
    by_cases hn : ∃ f, (s n).2 = .step i f
    · obtain ⟨f, hn⟩ := hn
      exact ⟨n, f, Nat.le_refl _, hn, h⟩
    · obtain ⟨k, f, hk, h1, h2⟩ := ih (n + 1) (move_keeps h (fun f hf => hn ⟨f, hf⟩) (hd n (Nat.le_refl _)))
        (by rw [Nat.add_assoc, Nat.add_comm 1 d]; exact hf) (fun k hk => hd k (by omega))
      exact ⟨k, f, by omega, h1, h2⟩

theorem returnsM {fuel : Nat} {home : Nat → Nat} {y : Crowd} {s : Nat → Cfg × Move} {i : Nat}
    (hinf : ∀ m, ∃ k, m ≤ k ∧ ∃ f, (s k).2 = .step i f) :
    ∀ (p : Go Yield) (b : Begun) (n : Nat), b.prog = p → (y.feels fuel home s n).cur i = some b →
      (∀ k, n ≤ k → (s k).2 ≠ .die (home i)) →
      ∃ k b' o, n ≤ k ∧ (y.feels fuel home s k).cur i = some b' ∧ b'.call = b.call ∧ b'.log = b.log ∧
        Go.end b'.prog = some o ∧ y.feels fuel home s (k + 1) = (y.feels fuel home s k).return i b' o := by
  intro p
  have first : ∀ (b : Begun) (n : Nat), (y.feels fuel home s n).cur i = some b →
      (∀ k, n ≤ k → (s k).2 ≠ .die (home i)) →
      ∃ k f, n ≤ k ∧ (s k).2 = .step i f ∧ (y.feels fuel home s k).cur i = some b := by
    intro b n h hd
    obtain ⟨k, hk, f, hf⟩ := hinf n
    exact next_step (k - n) n h ⟨f, by rw [Nat.add_sub_cancel' hk]; exact hf⟩ hd
  have leaf : ∀ (o : Out Yield) (b : Begun) (n : Nat), Go.end b.prog = some o →
      (y.feels fuel home s n).cur i = some b → (∀ k, n ≤ k → (s k).2 ≠ .die (home i)) →
      ∃ k b' o, n ≤ k ∧ (y.feels fuel home s k).cur i = some b' ∧ b'.call = b.call ∧ b'.log = b.log ∧
        Go.end b'.prog = some o ∧ y.feels fuel home s (k + 1) = (y.feels fuel home s k).return i b' o := by
    intro o b n he h hd
    obtain ⟨k, f, hk, h1, h2⟩ := first b n h hd
    refine ⟨k, b, o, hk, h2, rfl, rfl, he, ?_⟩
    show (y.feels fuel home s k).move (s k).1 fuel home (s k).2 = _
    rw [h1]
    simp only [Crowd.move, h2, he]
  have inner : ∀ (b : Begun) (n : Nat), Go.end b.prog = none →
      (y.feels fuel home s n).cur i = some b → (∀ k, n ≤ k → (s k).2 ≠ .die (home i)) →
      ∃ k f, n ≤ k ∧ (y.feels fuel home s (k + 1)).cur i = some { b with prog :=
        (Go.one (s k).1 f b.prog (y.feels fuel home s k).store ((y.feels fuel home s k).mem (home i))).1 } := by
    intro b n he h hd
    obtain ⟨k, f, hk, h1, h2⟩ := first b n h hd
    refine ⟨k, f, hk, ?_⟩
    show ((y.feels fuel home s k).move (s k).1 fuel home (s k).2).cur i = _
    rw [h1]
    simp only [Crowd.move, h2, he, upd, if_true]
  induction p with
  | ok a => intro b n hp; exact leaf _ b n (by rw [hp]; rfl)
  | err e => intro b n hp; exact leaf _ b n (by rw [hp]; rfl)
  | panic => intro b n hp; exact leaf _ b n (by rw [hp]; rfl)
  | spin => intro b n hp; exact leaf _ b n (by rw [hp]; rfl)
  | op o k ih =>
    intro b n hp h hd
    obtain ⟨m, f, hm, h1⟩ := inner b n (by rw [hp]; rfl) h hd
    rw [hp] at h1
    obtain ⟨r, hr⟩ : ∃ r, (Go.one (s m).1 f (.op o k) (y.feels fuel home s m).store
        ((y.feels fuel home s m).mem (home i))).1 = k r := by
      cases f <;> exact ⟨_, rfl⟩
    rw [hr] at h1
    obtain ⟨k', b', o', h2, h3, h4, h5, h6⟩ := ih r _ (m + 1) rfl h1 (fun k hk => hd k (by omega))
    exact ⟨k', b', o', by omega, h3, h4, h5, h6⟩
  | getMem k ih =>
    intro b n hp h hd
    obtain ⟨m, f, hm, h1⟩ := inner b n (by rw [hp]; rfl) h hd
    rw [hp] at h1
    obtain ⟨k', b', o', h2, h3, h4, h5, h6⟩ := ih _ _ (m + 1) rfl h1 (fun k hk => hd k (by omega))
    exact ⟨k', b', o', by omega, h3, h4, h5, h6⟩
  | setMem l k ih =>
    intro b n hp h hd
    obtain ⟨m, f, hm, h1⟩ := inner b n (by rw [hp]; rfl) h hd
    rw [hp] at h1
    obtain ⟨k', b', o', h2, h3, h4, h5, h6⟩ := ih _ (m + 1) rfl h1 (fun k hk => hd k (by omega))
    exact ⟨k', b', o', by omega, h3, h4, h5, h6⟩

theorem run_feels (cfg : Cfg) (fuel : Nat) (home : Nat → Nat) (y : Crowd) (s : Nat → Move) :
    ∀ n, y.run cfg fuel home s n = y.feels fuel home (fun n => (cfg, s n)) n := by
  intro n
  induction n with
  | zero => rfl
  | succ n ih => simp only [Crowd.run, Crowd.feels, ih]

theorem returns {cfg : Cfg} {fuel : Nat} {home : Nat → Nat} {y : Crowd} {s : Nat → Move} {i : Nat}
    (hinf : ∀ m, ∃ k, m ≤ k ∧ ∃ f, s k = .step i f)
    (p : Go Yield) (b : Begun) (n : Nat) (hp : b.prog = p) (hb : (y.run cfg fuel home s n).cur i = some b)
    (hd : ∀ k, n ≤ k → s k ≠ .die (home i)) :
    ∃ k b' o, n ≤ k ∧ (y.run cfg fuel home s k).cur i = some b' ∧ b'.call = b.call ∧ b'.log = b.log ∧
        Go.end b'.prog = some o ∧ y.run cfg fuel home s (k + 1) = (y.run cfg fuel home s k).return i b' o := by
  simp only [run_feels] at hb ⊢
  exact returnsM (s := fun n => (cfg, s n)) hinf p b n hp hb hd

theorem run_moves (cfg : Cfg) (fuel : Nat) (home : Nat → Nat) (y : Crowd) (s : Nat → Move) :
    ∀ n, y.run cfg fuel home s n = y.moves cfg fuel home ((List.range n).map s) := by
  intro n
  induction n with
  | zero => rfl
  | succ n ih =>
    simp only [Crowd.run, ih, Crowd.moves, List.range_succ, List.map_append, List.map_cons, List.map_nil, List.foldl_append,
      List.foldl_cons, List.foldl_nil]

theorem CrowdInv.noSpin {home cfg lim bs M} {y : Crowd} {σ : Rt} (h : CrowdInv home cfg lim bs M y σ) {i b} (hc : y.cur i = some b) :
    Go.end b.prog ≠ some .spin := by
  intro he
  obtain ⟨_, _, hb, _⟩ := h.actors i b hc
  obtain ⟨_, hq, _⟩ := hb.out he
  exact hq

/-! ### the budget -/

theorem le_yields {m n : Nat} (h : m ≤ n) (log) (c : Call) : Go.Le (c.yields m log) (c.yields n log) := by
  cases c with
  | createStory o p => exact .last (le_createStory h _ _)
  | addRemark i p =>
    simp only [Call.yields]
    cases log[i]? with
    | none => exact .refl _
    | some e => exact .last (le_addRemark h _ _)
  | addFact i o p =>
    simp only [Call.yields]
    cases log[i]? with
    | none => exact .refl _
    | some e => exact .last (le_addFact h _ _ _)
  | addChild i o p =>
    simp only [Call.yields]
    cases log[i]? with
    | none => exact .refl _
    | some e => exact .last (le_addChild h _ _ _)
  | query i q =>
    simp only [Call.yields]
    cases log[i]? with
    | none => exact .refl _
    | some e => exact .last (le_ask h _ _)
  | getRemark i => exact .refl _

/-- the same but for the budget -/
def SameCall : Option Begun → Option Begun → Prop
  | none, none => True
  | some b, some b' => b'.call = b.call ∧ b'.log = b.log ∧ Go.Le b.prog b'.prog
  | _, _ => False

structure Alike (y y' : Crowd) : Prop where
  store : y'.store = y.store
  mem : y'.mem = y.mem
  log : y'.log = y.log
  heard : y'.heard = y.heard
  cur : ∀ i, SameCall (y.cur i) (y'.cur i)
  readers : ∀ j, y.readers j = none ∧ y'.readers j = none

theorem Le_end {α : Type} {p q : Go α} (h : Go.Le p q) (hs : Go.end p ≠ some .spin) : Go.end q = Go.end p := by
  cases h <;> first | rfl | exact absurd rfl hs

theorem Le_one {α : Type} {p q : Go α} (h : Go.Le p q) (hs : Go.end p ≠ some .spin) (cfg : Cfg) (f : Fate) (s : Store)
    (m : Layer) : (Go.one cfg f q s m).2 = (Go.one cfg f p s m).2 ∧
      Go.Le (Go.one cfg f p s m).1 (Go.one cfg f q s m).1 := by
  cases h with
  | spin q => exact absurd rfl hs
  | ok a => exact ⟨rfl, .ok a⟩
  | err e => exact ⟨rfl, .err e⟩
  | panic => exact ⟨rfl, .panic⟩
  | op o h => cases f <;> exact ⟨rfl, h _⟩
  | getMem h => exact ⟨rfl, h _⟩
  | setMem m' h => exact ⟨rfl, h⟩

theorem Alike.move {cfg : Cfg} {fuel fuel' : Nat} (hf : fuel ≤ fuel') {home : Nat → Nat} {y y' : Crowd} (h : Alike y y')
    (hn : ∀ i b, y.cur i = some b → Go.end b.prog ≠ some .spin) {t : Move} (ht : ∀ j i qs, t ≠ .spawn j i qs) :
    Alike (y.move cfg fuel home t) (y'.move cfg fuel' home t) := by
  have up : ∀ {i : Nat} {a a' : Option Begun}, SameCall a a' → ∀ j, SameCall (upd y.cur i a j) (upd y'.cur i a' j) := by
    intro i a a' ha j
    unfold upd
    split
    · exact ha
    · exact h.cur j
  cases t with
  | «begin» i c =>
    have hc := h.cur i
    simp only [Crowd.move]
    cases h1 : y.cur i <;> cases h2 : y'.cur i <;> rw [h1, h2] at hc
    · refine ⟨h.store, h.mem, h.log, h.heard, up ⟨rfl, h.log, ?_⟩, h.readers⟩
      rw [h.log]
      exact le_yields hf _ _
    · exact hc.elim
    · exact hc.elim
    · exact h
  | step i f =>
    have hc := h.cur i
    simp only [Crowd.move]
    cases h1 : y.cur i <;> cases h2 : y'.cur i <;> rw [h1, h2] at hc
    · exact h
    · exact hc.elim
    · exact hc.elim
    · rename_i b b'
      obtain ⟨c1, c2, c3⟩ := hc
      have hns := hn i b h1
      simp only [Le_end c3 hns]
      cases he : Go.end b.prog with
      | none =>
        obtain ⟨e1, e2⟩ := Le_one c3 hns cfg f y.store (y.mem (home i))
        simp only [h.store, h.mem, e1]
        exact ⟨rfl, rfl, h.log, h.heard, up ⟨c1, c2, e2⟩, h.readers⟩
      | some o =>
        simp only [Crowd.return]
        have cu := up (i := i) (a := none) (a' := none) trivial
        cases o with
        | ok yl =>
          cases yl with
          | created r => exact ⟨h.store, h.mem, by simp only [h.log, c1], h.heard, cu, h.readers⟩
          | answered a => exact ⟨h.store, h.mem, h.log, by simp only [h.heard, c1, c2], cu, h.readers⟩
          | nothing => exact ⟨h.store, h.mem, h.log, h.heard, cu, h.readers⟩
        | _ => exact ⟨h.store, h.mem, h.log, h.heard, cu, h.readers⟩
  | die p =>
    refine ⟨h.store, by simp only [Crowd.move, h.mem], h.log, h.heard, ?_, ?_⟩
    · intro i
      simp only [Crowd.move]
      split
      · trivial
      · exact h.cur i
    · intro j
      simp only [Crowd.move]
      split
      · exact ⟨rfl, rfl⟩
      · exact h.readers j
  | spawn j i qs => exact absurd rfl (ht j i qs)
  | read j =>
    simp only [Crowd.move, (h.readers j).1, (h.readers j).2]
    exact h

theorem Alike.feel {cfg : Cfg} (h0 : cfg.zero = false) {lim bs} (hso : lim.solo = false) {fuel fuel' : Nat} (hf : fuel ≤ fuel') (hfit : Fits lim fuel) {home : Nat → Nat} :
    ∀ (ts : List (Cfg × Move)) {y y' : Crowd} {σ : Rt}, CrowdInv home cfg lim bs .free y σ → Alike y y' →
      (∀ t ∈ ts, t.1.dup = cfg.dup) →
      (∀ t ∈ ts, ∀ s ∈ t.2.texts, TextOK lim s) → (∀ t ∈ ts, ∀ j i qs, t.2 ≠ .spawn j i qs) →
      Alike (y.feel fuel home ts) (y'.feel fuel' home ts) := by
  intro ts
  induction ts with
  | nil => exact fun _ h _ _ _ => h
  | cons t ts ih =>
    intro y y' σ hi h hd ht hsp
    obtain ⟨σ1, h1⟩ := hi.move hfit ⟨hd t (by simp), fun h => absurd rfl h⟩ t.2 (.free hso h0 hfit (ht t (by simp)))
    exact ih h1 (h.move hf (fun i b hc => hi.noSpin hc) (hsp t (by simp))) (fun t' ht' => hd t' (by simp [ht']))
      (fun t' ht' => ht t' (by simp [ht'])) (fun t' ht' => hsp t' (by simp [ht']))

theorem moves_feel (cfg : Cfg) (fuel : Nat) (home : Nat → Nat) (y : Crowd) (ts : List Move) :
    y.moves cfg fuel home ts = y.feel fuel home (ts.map fun t => (cfg, t)) := by
  simp only [Crowd.moves, Crowd.feel, List.foldl_map]

theorem Alike.moves {cfg : Cfg} (h0 : cfg.zero = false) {lim bs} (hso : lim.solo = false) {fuel fuel' : Nat} (hf : fuel ≤ fuel') (hfit : Fits lim fuel) {home : Nat → Nat}
    (ts : List Move) {y y' : Crowd} {σ : Rt} (hi : CrowdInv home cfg lim bs .free y σ) (h : Alike y y')
    (ht : ∀ t ∈ ts, ∀ s ∈ t.texts, TextOK lim s) (hs : ∀ t ∈ ts, ∀ j i qs, t ≠ .spawn j i qs) :
    Alike (y.moves cfg fuel home ts) (y'.moves cfg fuel' home ts) := by
  rw [moves_feel, moves_feel]
  refine Alike.feel h0 hso hf hfit _ hi h ?_ ?_ ?_ <;> intro t htt <;> obtain ⟨t', h', rfl⟩ := List.mem_map.1 htt
  · rfl
  · exact ht t' h'
  · exact hs t' h'

theorem Alike.start (st : State) : Alike (Crowd.start st) (Crowd.start st) :=
  ⟨rfl, rfl, rfl, rfl, fun _ => trivial, fun _ => ⟨rfl, rfl⟩⟩

end Semnet.Race
