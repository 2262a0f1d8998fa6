import Verif.Proof.Create
import Verif.Props.Sample
/- C23: a character can become unusable as a word start, permanently. -/
namespace Semnet.Props
open Spec Sample

/-- the string `s` starts with the character `c` -/
def Starts (c : Char) (s : GoStr) : Prop := String.utf8EncodeChar c <+: s

theorem dead_start {cfg : Cfg} {fuel : Nat} {es : List Event} (h : Calm cfg fuel es) {o p : GoStr}
    (ht : o.length < fuel ∧ p.length < fuel) {c d : Char} (hc : c ≠ ' ') (hd : d ≠ ' ') (ho : Starts c o)
    (hp : Starts d p) {e : Err}
    (hr : ((Graph.createStory fuel o p).exec cfg (after cfg fuel es).world).1 = .err e) :
    ∃ x, (x = c ∨ x = d) ∧ x ≠ ' ' ∧ ∃ σ, Holds cfg (stdLim fuel)
      (after cfg fuel (es ++ [.call (.createStory o p) Go.noFault])) σ ∧ Clean σ ∧ Dead σ (bitsOf (x.val.toNat : Int)) := by
  obtain ⟨σ, σ', hi, hcl, hk, _, he⟩ := h.sound.createStory (.inl h.dup) h.budget.fits (TextOK.std ht.1) (TextOK.std ht.2)
  have hb := he.out
  have his := he.is
  generalize hout : (Graph.createStory fuel o p).exec cfg (after cfg fuel es).world = out at hr hb his
  obtain ⟨x, w⟩ := out
  simp only at hr
  subst hr
  have hh : Holds cfg (stdLim fuel) (after cfg fuel (es ++ [.call (.createStory o p) Go.noFault])) σ' := by
    rw [after_append, createStory_err hout]
    exact ⟨his, he.ext.inv, he.flt, hk.mono he.ext.mono⟩
  have hcl' := he.ext.clean hcl he.flt
  rcases hb.2 with hb | ⟨_, hb | ⟨_, hb | hb⟩⟩
  · exact ⟨c, .inl rfl, hc, σ', hh, hcl', (badHead_iff hc ho).1 hb⟩
  · exact ⟨d, .inr rfl, hd, σ', hh, hcl', (badHead_iff hd hp).1 hb⟩
  · exact (hb.1 hcl).elim
  · exact hb.elim

/-- If `CreateStory(o, p)` returns an error although `o` and `p` start with characters other than a space,
    then one of these two characters is lost as a word start: whatever fault-free calls follow, every creating
    call whose object starts with it returns an error, and none whose property starts with it succeeds. -/
theorem C23_dead_word_start {cfg : Cfg} {fuel : Nat} {es : List Event} (h : Calm cfg fuel es) {o p : GoStr}
    (ht : o.length < fuel ∧ p.length < fuel) {c d : Char} (hc : c ≠ ' ') (hd : d ≠ ' ') (ho : Starts c o)
    (hp : Starts d p) {e : Err}
    (hr : ((Graph.createStory fuel o p).exec cfg (after cfg fuel es).world).1 = .err e) :
    ∃ x, (x = c ∨ x = d) ∧ ∀ es', Calm cfg fuel (es ++ [.call (.createStory o p) Go.noFault] ++ es') →
      ∀ (call : Call) (o' p' : GoStr), (∀ t ∈ call.texts, t.length < fuel) →
        call.pair (after cfg fuel (es ++ [.call (.createStory o p) Go.noFault] ++ es')).log = some (o', p') →
        let result := ((call.prog fuel (after cfg fuel (es ++ [.call (.createStory o p) Go.noFault] ++ es')).log).exec cfg
          (after cfg fuel (es ++ [.call (.createStory o p) Go.noFault] ++ es')).world).1
        (Starts x o' → ∃ err, result = .err err) ∧ (Starts x p' → ∀ r, result ≠ .ok r) := by
  obtain ⟨x, hx, hx', σ, hs, hcl, hD⟩ := dead_start h ht hc hd ho hp hr
  refine ⟨x, hx, fun es' h' call o' p' htx hpair => ?_⟩
  obtain ⟨σ', hs', hcl', m⟩ := h'.from hs hcl
  have hD' := hD.mono hs.inv m
  have key := fun hb => CallOK.dead (C := calmCtx cfg (stdLim fuel)) (hs'.calm h'.budget.fits hcl') hs'.is
    (f := Go.noFault) (.inr rfl) (c := call) (fun t h1 => TextOK.std (htx t h1)) hpair hb
  exact ⟨fun hb => (key (.inl ((badHead_iff hx' hb).2 hD'))).2 rfl ((badHead_iff hx' hb).2 hD'),
    fun hb => (key (.inr ((badHead_iff hx' hb).2 hD'))).1⟩

/-- On storages without node 0 this holds whatever happens in between and during the call — storage failures,
    crashes, reopening — as long as one remark was created before. -/
theorem C23_dead_word_start_in_storms {cfg : Cfg} {fuel : Nat} {es : List Event} (h : Calm cfg fuel es)
    (hz : cfg.zero = false) {o p : GoStr}
    (ht : o.length < fuel ∧ p.length < fuel) {c d : Char} (hc : c ≠ ' ') (hd : d ≠ ' ') (ho : Starts c o)
    (hp : Starts d p) {e : Err}
    (hr : ((Graph.createStory fuel o p).exec cfg (after cfg fuel es).world).1 = .err e) :
    ∃ x, (x = c ∨ x = d) ∧ ∀ es', Stormy cfg fuel (es ++ [.call (.createStory o p) Go.noFault]) es' →
      ∀ (call : Call) (f : Nat → Fate) (o' p' : GoStr), (∀ t ∈ call.texts, t.length < fuel) →
        call.pair (after cfg fuel (es ++ [.call (.createStory o p) Go.noFault] ++ es')).log = some (o', p') →
        Starts x o' ∨ Starts x p' →
        ∀ r, ((call.prog fuel (after cfg fuel (es ++ [.call (.createStory o p) Go.noFault] ++ es')).log).run cfg f
          (after cfg fuel (es ++ [.call (.createStory o p) Go.noFault] ++ es')).world).1 ≠ .ok r := by
  obtain ⟨x, hx, hx', σ, hs, hcl, hD⟩ := dead_start h ht hc hd ho hp hr
  refine ⟨x, hx, fun es' h' call f o' p' htx hpair hst => ?_⟩
  obtain ⟨σ', hs', m, l, hl⟩ := storm_events hz h'.start.budget.fits es' hs h'.log h'.budget.texts
  rw [← after_append] at hs' hl
  have hne : (after cfg fuel (es ++ [.call (.createStory o p) Go.noFault] ++ es')).log ≠ [] := by
    rw [hl]
    have := h'.log
    intro e1
    exact this (List.append_eq_nil_iff.1 e1).1
  have hD' := hD.mono hs.inv m
  exact (CallOK.dead (C := stormCtx cfg (stdLim fuel))
    (hs'.storm h'.start.budget.fits (fun h => by rw [hz] at h; cases h) hne) hs'.is
    (f := f) (.inl rfl) (c := call) (fun t h1 => TextOK.std (htx t h1)) hpair
    (hst.imp (fun hb => (badHead_iff hx' hb).2 hD') (fun hb => (badHead_iff hx' hb).2 hD'))).1

/-- After `es` the string "1" as an object starts with a lost character: its code 110001 continues to the
    codes of "b" and "c", which are stored.  "e" is not lost. -/
example : ((Graph.createStory fuel (bytes "1") (bytes "1")).exec cfgA (after cfgA fuel es).world).1 =
      .err .characterTargetWords ∧
    ((Graph.createStory fuel (bytes "1x y") (bytes "e")).exec cfgA (after cfgA fuel es).world).1 =
      .err .characterTargetWords ∧
    succeeds ((Graph.createStory fuel (bytes "ef") (bytes "e")).exec cfgA (after cfgA fuel es).world) = true := by
  rw [after_es]; decide +kernel

end Semnet.Props
