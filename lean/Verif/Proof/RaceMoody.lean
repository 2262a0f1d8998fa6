import Verif.Proof.RaceLive
import Verif.Proof.Moody
/-
  Several processes writing at the same time, on a storage that behaves differently at every call.
-/
namespace Semnet.Race
open Class Spec

/-- what is promised of a process is what it will yield when left alone, whatever the mood -/
theorem rwp_aloneM {α : Type} {C : RC} (hh : C.hazy = false) (hz : C.fz = none) {P : Out α → Prop} :
    ∀ {p : Go α} {κ : Know} {σ : Rt} {m : Layer} {g : Nat → Cfg}, Suits C.cfg g → C.I σ → MemAt C.bs κ m →
      rwpk C (fun o _ => P o) p κ σ →
      P (p.runs g Go.noFault ⟨σ.store, m⟩).1 := by
  intro p
  induction p with
  | ok a => exact fun _ _ _ h => h
  | err e => exact fun _ _ _ h => h
  | panic => exact fun _ _ _ h => h
  | spin => exact fun _ _ _ h => h
  | op o k ih =>
    intro κ σ m g hg hi hm h
    obtain ⟨⟨t, b, hs, h1⟩, _, _⟩ := h (g 0) ⟨hg 0, fun h => absurd hz h⟩ _ (Env.refl hi)
    exact ih _ (fun n => hg (n + 1)) hs.inv hm h1
  | getMem k ih => intro κ σ m g hg hi hm h; exact ih _ hg hi hm.learn (h m (.inr ⟨hh, hm⟩))
  | setMem u k ih => intro κ σ m g hg hi hm ⟨κ', h1, h2⟩; exact ih hg hi (hm.assign h1).1 h2

theorem Does.runs {α : Type} {C : RC} (hz : C.fz = none) (hC : C.tot = true) {p : Go α} {σ : Rt} (hi : C.I σ) {m : Layer}
    (hm : MemOK C.bs m) {a : α} (h : Does C (fun x _ => x = a) p σ) {g : Nat → Cfg} (hg : Suits C.cfg g) :
    ∃ w', p.runs g Go.noFault ⟨σ.store, m⟩ = (.ok a, w') := by
  have := rwp_aloneM (RC.tot_crisp hC) hz (P := fun o => o = .ok a) hg hi hm.at (rwp_mono (fun o σ' ⟨h1, h2⟩ => by
    cases o with
    | ok b => simp only at h2; rw [h2]
    | spin => exact h2.elim
    | _ => simp only at h2; rw [hC] at h2; cases h2) h .bot)
  exact ⟨_, Prod.ext this rfl⟩

theorem Logs.readableM {cfg lim bs} {σ : Rt} (hi : RI cfg lim bs none σ) {log} (k : Logs lim bs σ log) {fuel} (hf : Fits lim fuel)
    {m : Layer} (hm : MemOK bs m) {e} (he : e ∈ log) : ReadableMoods cfg fuel log ⟨σ.store, m⟩ e where
  ask _ hg _ _ ha := Does.runs (C := ⟨cfg, lim, bs, 0, true, none, fun _ => False, false⟩) rfl rfl hi hm
    (Does.ask (C := ⟨cfg, lim, bs, 0, true, none, fun _ => False, false⟩) (.inr rfl) hi k he hf ha) hg
  get _ hg := Does.runs (C := ⟨cfg, lim, bs, 0, true, none, fun _ => False, false⟩) rfl rfl hi hm
    (Does.get (C := ⟨cfg, lim, bs, 0, true, none, fun _ => False, false⟩) hi k he) hg

theorem CrowdInv.feel {cfg lim bs fuel home} (hso : lim.solo = false) (h0 : cfg.zero = false) (hf : Fits lim fuel) : ∀ (ts : List (Cfg × Move)) {y : Crowd} {σ : Rt},
    CrowdInv home cfg lim bs .free y σ → (∀ t ∈ ts, t.1.dup = cfg.dup) → (∀ t ∈ ts, ∀ s ∈ t.2.texts, TextOK lim s) →
    ∃ σ', CrowdInv home cfg lim bs .free (y.feel fuel home ts) σ' := by
  intro ts
  induction ts with
  | nil => exact fun h _ _ => ⟨_, h⟩
  | cons t ts ih =>
    intro y σ h hd ht
    obtain ⟨σ1, h1⟩ := h.move hf ⟨hd t (by simp), fun h => absurd rfl h⟩ t.2 (.free hso h0 hf (ht t (by simp)))
    exact ih h1 (fun t' h' => hd t' (by simp [h'])) (fun t' h' => ht t' (by simp [h']))

theorem CrowdInv.readableM {home cfg lim bs fuel} (hf : Fits lim fuel) {y : Crowd} {σ : Rt} (h : CrowdInv home cfg lim bs .free y σ)
    {m : Layer} (hm : MemOK bs m) {e} (he : e ∈ y.log) : ReadableMoods cfg fuel y.log ⟨y.store, m⟩ e := by
  have := Logs.readableM h.inv h.logs hf hm he
  rw [h.store] at this
  exact this

theorem CrowdInv.results {home cfg lim bs} {y : Crowd} {σ : Rt} (h : CrowdInv home cfg lim bs .free y σ) {j : Nat} {rd}
    (hj : y.readers j = some rd) {g : Nat → Cfg} (hg : Suits cfg g) :
    rd.Good (rd.results g y.store (y.mem (home j))) := by
  obtain ⟨_, κ, σs, h1, he, hk⟩ := h.readers j rd hj
  have := rwp_aloneM (C := reader cfg lim bs .free j) (RC.crisp rfl) rfl hg he.inv hk (rwpk_env he h1)
  rw [h.store] at this
  exact this

theorem moodyStart {cfg : Cfg} (hz : cfg.zero = false) {fuel : Nat} {es es' : List ((Nat → Cfg) × Event)}
    (h : StormyMoods cfg fuel es es') :
    ∃ bs σ, CrowdInv home cfg (stdLim fuel) bs .free (Crowd.start (moodily cfg fuel (es ++ es'))) σ := by
  obtain ⟨σ, hs⟩ := h.holds hz
  have hl : (moodily cfg fuel (es ++ es')).log ≠ [] := by
    obtain ⟨l, hl⟩ := felts_log fuel es' (moodily cfg fuel es)
    rw [moodily_append, hl]
    intro h'
    exact h.log (List.append_eq_nil_iff.1 h').1
  obtain ⟨bs, h0⟩ := CrowdInv.start h.start.calm.dup hs hl (fun h => by cases h) .free rfl
  exact ⟨bs, _, h0⟩

/-- threads of any number of processes, after a history, in whatever moods -/
theorem moodyCrowd {cfg : Cfg} (hz : cfg.zero = false) {fuel : Nat} {es es' : List ((Nat → Cfg) × Event)}
    (h : StormyMoods cfg fuel es es') (home : Nat → Nat) {ts : List (Cfg × Move)} (hd : ∀ t ∈ ts, t.1.dup = cfg.dup)
    (ht : ∀ t ∈ ts, ∀ s ∈ t.2.texts, s.length < fuel) :
    ∃ bs σ, CrowdInv home cfg (stdLim fuel) bs .free ((Crowd.start (moodily cfg fuel (es ++ es'))).feel fuel home ts) σ := by
  obtain ⟨bs, σ, h0⟩ := moodyStart hz h
  obtain ⟨σ', h1⟩ := h0.feel rfl hz h.start.calm.budget.fits ts hd fun t htt s hs => .std (ht t htt s hs)
  exact ⟨bs, σ', h1⟩

theorem feel_log (fuel : Nat) (home : Nat → Nat) : ∀ (ts : List (Cfg × Move)) (y : Crowd),
    y.log <+: (y.feel fuel home ts).log := by
  intro ts
  induction ts with
  | nil => exact fun y => List.prefix_refl _
  | cons t ts ih => exact fun y => (move_log t.1 fuel home y t.2).trans (ih _)

theorem feels_feel (fuel : Nat) (home : Nat → Nat) (y : Crowd) (s : Nat → Cfg × Move) :
    ∀ n, y.feels fuel home s n = y.feel fuel home ((List.range n).map s) := by
  intro n
  induction n with
  | zero => rfl
  | succ n ih =>
    simp only [Crowd.feels, ih, Crowd.feel, List.range_succ, List.map_append, List.map_cons, List.map_nil, List.foldl_append,
      List.foldl_cons, List.foldl_nil]

end Semnet.Race
