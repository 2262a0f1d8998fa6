import Verif.Proof.Errs
import Verif.Props.Sample
/- C35: an object/property pair is stored once. -/
namespace Semnet.Props
open Spec Sample

/-- After any fault-free history, no API call - creating call, query or `GetRemark` - fails with "phrases have too
    many common details": `detail.Factory.ProvideEntity` never meets two details with the same pair of phrases. -/
theorem C35_pair_stored_once {cfg : Cfg} {fuel : Nat} {es : List Event} (h : Calm cfg fuel es) {c : Call}
    (ht : ∀ t ∈ c.texts, t.length < fuel) :
    ((c.prog fuel (after cfg fuel es).log).exec cfg (after cfg fuel es).world).1 ≠ .err .tooManyCommonDetails := by
  refine h.sound.notE (.inl h.dup) h.budget.fits fun t htt => ?_
  exact .std (ht t htt)

/-- the detail a remark hangs on: the node from which its detail node is connected belongs to it -/
def detailOf (s : Store) (r : RemE) : Nat := s.back ((s.sources r.detail).headD 0)

/-- The detail of every remark returned so far connects one object phrase with one property phrase, and remarks whose
    details connect the same two phrases have the same detail. -/
theorem C35_one_detail_per_pair {cfg : Cfg} {fuel : Nat} {es : List Event} (h : Calm cfg fuel es) {e e' : Entry}
    (he : e ∈ (after cfg fuel es).log) (he' : e' ∈ (after cfg fuel es).log) :
    let s := (after cfg fuel es).world.store
    (∃ o p, s.sources (detailOf s e.handle) = [o] ∧ s.targets (detailOf s e.handle) = [p]) ∧
    (s.sources (detailOf s e.handle) = s.sources (detailOf s e'.handle) →
      s.targets (detailOf s e.handle) = s.targets (detailOf s e'.handle) →
      detailOf s e.handle = detailOf s e'.handle) := by
  obtain ⟨σ, hs, hc⟩ := h.holds he
  intro s
  have key : ∀ {e : Entry}, e ∈ (after cfg fuel es).log → ∃ o p, σ.tag (detailOf s e.handle) = .dtP ∧
      σ.S (detailOf s e.handle) = [o] ∧ σ.T (detailOf s e.handle) = [p] := by
    intro e he
    obtain ⟨d, po, pp, h1, h2, _⟩ := (hs.keeps.ok e he).says
    have hd : detailOf s e.handle = d.phrase := by
      have hq : s = σ.store := hs.is.store.symm
      have h3 : s.sources e.handle.detail = [d.remark] := by rw [hq]; exact h1
      show s.back ((s.sources e.handle.detail).headD 0) = _
      rw [h3, hq]
      exact h2.ref.b
    rw [hd]
    exact ⟨_, _, h2.tp, h2.So, h2.Tp⟩
  have hS : s.sources = σ.S := by rw [← show σ.store = s from hs.is.store]; rfl
  have hT : s.targets = σ.T := by rw [← show σ.store = s from hs.is.store]; rfl
  obtain ⟨o, p, t, hSo, hTp⟩ := key he
  obtain ⟨_, _, t', _, _⟩ := key he'
  rw [hS, hT]
  exact ⟨⟨o, p, hSo, hTp⟩, fun h1 h2 => hc.uniq _ _ t t' (by simp [hSo]) (by simp [hTp]) h1 h2⟩

/-- Two stories that make the words "0" and "1" ones that later calls find again. -/
def esShared : List Event :=
  [call (.createStory (bytes "0") (bytes "1")), call (.createStory (bytes "a") (bytes "b"))]

/-- The sharing is real: after these stories `CreateStory("0", "1")` succeeds and does not create a new detail node
    (class 5). -/
example : ((after cfgA fuel esShared).world.store.edges.filter (·.2 = 5)).length = 2 ∧
    succeeds ((Graph.createStory fuel (bytes "0") (bytes "1")).exec cfgA (after cfgA fuel esShared).world) = true ∧
    (((Graph.createStory fuel (bytes "0") (bytes "1")).exec cfgA
      (after cfgA fuel esShared).world).2.store.edges.filter (·.2 = 5)).length = 2 := by
  decide +kernel

/-- The remark of this third story hangs on the detail of the first one; that of ("a", "b") on another. -/
example : (let st := after cfgA fuel (esShared ++ [call (.createStory (bytes "0") (bytes "1"))])
    st.log.map fun e => detailOf st.world.store e.handle) = [99, 167, 99] := by
  decide +kernel

/-- Under storage failures it is false: if the 87th storage call of `CreateStory("0", "1")` fails (the ReadSources
    whose error is dropped, `detail/factory.go:33`), the call succeeds with a second detail for the pair, and the next
    `CreateStory("0", "1")` fails with this error. -/
theorem C35_dropped_error_makes_duplicate :
    succeeds ((Graph.createStory fuel (bytes "0") (bytes "1")).run cfgA (fun n => if n = 86 then .fail else .ok)
      (after cfgA fuel esShared).world) = true ∧
    ((Graph.createStory fuel (bytes "0") (bytes "1")).exec cfgA (after cfgA fuel (esShared ++
      [.call (.createStory (bytes "0") (bytes "1")) (fun n => if n = 86 then .fail else .ok)])).world).1 =
      .err .tooManyCommonDetails := by
  decide +kernel

end Semnet.Props
