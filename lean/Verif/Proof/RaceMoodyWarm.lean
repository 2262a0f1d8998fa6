import Verif.Proof.RaceWarm
import Verif.Proof.RaceMoody
/-
  Several processes writing at the same time, none of which needs new text, on a storage that behaves differently at every call.
-/
namespace Semnet.Race
open Class Spec

theorem _root_.Semnet.Spec.Settled.fits {cfg fuel es} (h : Settled cfg fuel es) : Fits (stdLim fuel) fuel := by
  rcases h with ⟨_, _, _, _, h⟩ | ⟨h, _⟩
  · exact h.start.calm.budget.fits
  · exact h.calm.budget.fits

theorem _root_.Semnet.Spec.Settled.start {home : Nat → Nat} {cfg fuel es} (h : Settled cfg fuel es) :
    ∃ bs M σ, CrowdInv home cfg (stdLim fuel) bs M (Crowd.start (moodily cfg fuel es)) σ := by
  rcases h with ⟨hz, _, _, rfl, h⟩ | ⟨h, hl⟩
  · obtain ⟨bs, σ, h0⟩ := moodyStart hz h
    exact ⟨bs, _, σ, h0⟩
  · obtain ⟨σ, hs, _⟩ := h.sound.holds hl
    obtain ⟨bs, h0⟩ := CrowdInv.start h.calm.dup hs hl (fun h => by cases h) .free rfl
    exact ⟨bs, .free, _, h0⟩

/-- a warm crowd, in whatever moods -/
theorem crowd_moodyWarm {cfg : Cfg} {fuel : Nat} {es : List ((Nat → Cfg) × Event)} (h : Settled cfg fuel es) (home : Nat → Nat)
    {ts : List (Cfg × Move)} (hd : ∀ t ∈ ts, t.1.dup = cfg.dup) (ht : ∀ t ∈ ts, ∀ s ∈ t.2.texts, s.length < fuel)
    (hw : WarmFeel cfg fuel home (moodily cfg fuel es) ts) :
    ∃ bs σ0 σ, CrowdInv home cfg (stdLim fuel) bs (.warm cfg (fun _ => True) σ0)
      ((Crowd.start (moodily cfg fuel es)).feel fuel home ts) σ := by
  obtain ⟨bs, M, σ, h0⟩ := h.start
  exact CrowdInv.warmFeel h.fits (Steadies.all _ _) h0 (fun t htt => ⟨hd t htt, .inl trivial⟩) ht
    fun ts1 t ts2 e => WarmBy.imp (fun o p h => FamiliarMoods.all h) (hw ts1 t ts2 e)

theorem CrowdInv.readableAny {home cfg lim bs M fuel} (hf : Fits lim fuel) {y : Crowd} {σ : Rt} (h : CrowdInv home cfg lim bs M y σ)
    {m : Layer} (hm : MemOK bs m) {e} (he : e ∈ y.log) : ReadableMoods cfg fuel y.log ⟨y.store, m⟩ e := by
  have := Logs.readableM (σ := σ) { h.inv with frz := fun σ0 h => by cases h } h.logs hf hm he
  rw [h.store] at this
  exact this

theorem CrowdInv.resultsWarm {home cfg lim bs} {σ0 : Rt} {y : Crowd} {σ : Rt}
    (h : CrowdInv home cfg lim bs (.warm cfg (fun _ => True) σ0) y σ) {j : Nat} {rd}
    (hj : y.readers j = some rd) {g : Nat → Cfg} (hg : Suits cfg g) :
    rd.Good (rd.results g y.store (y.mem (home j))) := by
  obtain ⟨_, κ, σs, h1, he, hk⟩ := h.readers j rd hj
  obtain ⟨_, σ', _, h2, _⟩ := rwp_run (RC.crisp rfl) (g := g) (fun n => ⟨hg n, fun _ => .inl trivial⟩) he.inv hk (rwpk_env he h1)
  rw [h.store] at h2
  exact h2

/-- in an endless run, calls that have a result and must succeed when they end do return with it -/
theorem due_returnsM {fuel : Nat} {home : Nat → Nat} {y : Crowd} {s : Nat → Cfg × Move} {i n : Nat} {b : Begun}
    (key : ∀ k {b' o}, (y.feels fuel home s k).cur i = some b' → b'.call = b.call → b'.log = b.log → Go.end b'.prog = some o →
      (∃ r e, o = .ok (.created r) ∧ b'.call.entry (y.feels fuel home s k).log r = some e) ∨
        (∃ a, o = .ok (.answered a) ∧ Heard.Right ⟨b'.call, b'.log, a⟩))
    (hb : (y.feels fuel home s n).cur i = some b)
    (hinf : ∀ m, ∃ k, m ≤ k ∧ ∃ f, (s k).2 = .step i f) (hl : ∀ k, n ≤ k → (s k).2 ≠ .die (home i)) :
    ∃ k, n ≤ k ∧ (y.feels fuel home s (k + 1)).cur i = none ∧
      ((∃ r e, b.call.entry (y.feels fuel home s k).log r = some e ∧
        (y.feels fuel home s (k + 1)).log = (y.feels fuel home s k).log ++ [e]) ∨
      (∃ a, Heard.Right ⟨b.call, b.log, a⟩ ∧
        (y.feels fuel home s (k + 1)).heard = (y.feels fuel home s k).heard ++ [⟨b.call, b.log, a⟩])) := by
  obtain ⟨k, b', o, h1, h2, h3, h4, h5, h6⟩ := returnsM hinf b.prog b n rfl hb hl
  have key := key k h2 h3 h4 h5
  refine ⟨k, h1, ?_⟩
  rw [h6]
  rw [h3, h4] at key
  rcases key with ⟨r, e, rfl, he⟩ | ⟨a, rfl, ha⟩
  · refine ⟨by simp [Crowd.return, upd], .inl ⟨r, e, he, ?_⟩⟩
    simp only [Crowd.return, h3]
    rw [he]
    rfl
  · refine ⟨by simp [Crowd.return, upd], .inr ⟨a, ha, ?_⟩⟩
    simp only [Crowd.return, h3, h4]

theorem range_splitM {s : Nat → Cfg × Move} {k : Nat} {ts1 t ts2} (h : (List.range k).map s = ts1 ++ t :: ts2) :
    t = s ts1.length ∧ ts1 = (List.range ts1.length).map s := by
  have hl : k = ts1.length + (ts2.length + 1) := by simpa using congrArg List.length h
  have h1 : ((List.range k).map s)[ts1.length]? = some t := by rw [h]; simp
  have h2 : ((List.range k).map s).take ts1.length = ts1 := by rw [h]; simp
  refine ⟨?_, ?_⟩
  · rw [List.getElem?_map, List.getElem?_range (by omega)] at h1
    exact (Option.some.inj h1).symm
  · rw [← List.map_take, List.take_range, Nat.min_eq_left (by omega)] at h2
    exact h2.symm

/-- the first moves of a warm run are warm -/
theorem warm_prefixM {cfg : Cfg} {fuel : Nat} {home : Nat → Nat} {st : State} {s : Nat → Cfg × Move}
    (hw : WarmFeels cfg fuel home st s) (k : Nat) : WarmFeel cfg fuel home st ((List.range k).map s) := by
  intro ts1 t ts2 e
  obtain ⟨e1, e2⟩ := range_splitM e
  rw [e1]
  have := hw ts1.length
  rwa [feels_feel, ← e2] at this

end Semnet.Race
