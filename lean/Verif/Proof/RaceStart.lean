import Verif.Proof.RaceAsk
/-
  Several processes writing at the same time: the state in which they start.
-/
namespace Semnet.Race
open Class Spec

/-- all nodes belong to nobody -/
def Rt.of (σ : St) : Rt := { toSt := σ, own := fun _ => 0 }

theorem CharBase.race {σ : St} {bs} (hb : σ.bits = some bs) {e p v bs'} (h : CharBase σ e p v bs') :
    ChB bs (.of σ) e p v := by
  have := h.bits
  rw [hb] at this
  cases this
  exact ⟨h.chain, h.tb, h.tc, h.tw, h.Tb⟩

theorem CharEnt.race {σ : St} {bs} (hb : σ.bits = some bs) {p e} (h : CharEnt σ p e) : Ch bs (.of σ) p e := by
  induction h with
  | head h _ _ _ => exact .head (CharBase.race hb h)
  | tail _ h hS _ ih => exact .tail ih (CharBase.race hb h) hS

theorem WordBase.race {σ : St} {bs} (hb : σ.bits = some bs) {w rs p c} (h : WordBase σ w rs p c) :
    WdB bs (.of σ) w rs p c :=
  ⟨h.chain, h.tc, h.tw, h.tp, CharEnt.race hb h.ch, h.Tc, h.good⟩

theorem WordEnt.race {σ : St} {bs} (hb : σ.bits = some bs) {p e} (h : WordEnt σ p e) : Wd bs (.of σ) p e := by
  induction h with
  | head h _ => exact .head (WordBase.race hb h)
  | tail _ h hS ih => exact .tail ih (WordBase.race hb h) hS

theorem PhraseBase.race {σ : St} {bs} (hb : σ.bits = some bs) {e ws rs w} (h : PhraseBase σ e ws rs w) :
    PhB bs (.of σ) e ws rs w :=
  ⟨h.chain, h.tw, h.tp, h.td, WordEnt.race hb h.wd, h.Tw⟩

theorem PhraseEnt.race {σ : St} {bs} (hb : σ.bits = some bs) {p e} (h : PhraseEnt σ p e) : Ph bs (.of σ) p e := by
  induction h with
  | head h _ => exact .head (PhraseBase.race hb h)
  | tail _ h hS ih => exact .tail ih (PhraseBase.race hb h) hS

theorem edge_race {σ : St} {bs} (hb : σ.bits = some bs) {x y}
    (h : EdgeOK σ x y) : REdge bs (.of σ) x y := by
  unfold EdgeOK at h
  unfold REdge
  generalize hgx : σ.tag x = a at h
  generalize hgy : σ.tag y = b at h
  have ex : (Rt.of σ).tag x = a := hgx
  have ey : (Rt.of σ).tag y = b := hgy
  rw [ex, ey]
  split at h <;> try trivial
  · obtain ⟨e, he, h⟩ := h; exact ⟨e, CharEnt.race hb he, h⟩
  · obtain ⟨p, v, e, e', h1, h2, h3, h4⟩ := h
    exact ⟨p, v, e, e', CharEnt.race hb h1, h2, CharEnt.race hb h3, h4⟩
  · obtain ⟨p, e, w, h1, h2, h3, h4, _⟩ := h; exact ⟨p, e, w, CharEnt.race hb h1, h2, WordEnt.race hb h3, h4⟩
  · obtain ⟨rs, r, w, w', h1, h2, h3, h4⟩ := h
    exact ⟨rs, r, w, w', WordEnt.race hb h1, h2, WordEnt.race hb h3, h4⟩
  · obtain ⟨rs, w, e, h1, h2, h3, h4, _⟩ := h; exact ⟨rs, w, e, WordEnt.race hb h1, h2, PhraseEnt.race hb h3, h4⟩
  · obtain ⟨ws, rs, e, e', h1, h2, h3, h4⟩ := h
    exact ⟨ws, rs, e, e', PhraseEnt.race hb h1, h2, PhraseEnt.race hb h3, h4⟩

theorem tcrit_of_tfix {t : Tag} (h : Race.tfix t = true) : t.tcrit = true := by
  cases t <;> simp_all [Race.tfix, Tag.tcrit]

theorem inv_race {cfg lim} {σ : St} {bs} (hd : cfg.dup = .ignore) (hi : Inv cfg lim σ)
    (hb : σ.bits = some bs) (hh : lim.solo = true → ∃ y, σ.T (bitNode bs true) = [y]) : RI cfg lim bs none (.of σ) where
  dup := hd
  zero := hi.zero
  next := hi.next
  live := hi.live
  bound := hi.bound
  node0 := hi.node0
  ref00 x h := ⟨hi.noF x (by show (σ.tag x).noF = true; rw [show σ.tag x = .zero from h]; rfl),
    hi.noB x (by show (σ.tag x).noB = true; rw [show σ.tag x = .zero from h]; rfl)⟩
  root := hi.root
  edge x y h := edge_race hb (hi.edge x y h)
  ref0 := hi.ref0
  rmF x h := hi.noF x (by show (σ.tag x).noF = true; rw [show σ.tag x = .rmF from h]; rfl)
  refDt x h h' := ⟨hi.refDt x h h', (hi.refB x h').1⟩
  tfix x h := hi.tcrit x (tcrit_of_tfix h)
  noT := hi.noT
  sfix := hi.scrit
  noS := hi.noS
  tagOK := hi.tagOK
  bits := by
    have := hi.bits
    rw [hb] at this
    exact this
  frz _ h := by cases h
  hd := hh

/-- no text is going to be added any more -/
theorem RI.freeze {cfg lim bs fz} {σ : Rt} (hi : RI cfg lim bs fz σ) : RI cfg lim bs (some σ) σ :=
  { hi with frz := fun σ0 h => by cases h; exact ⟨.refl σ, fun _ _ => rfl, fun _ _ => rfl, fun _ _ => rfl, fun _ _ => rfl⟩ }

theorem entry_race {lim} {σ : St} {bs} (hb : σ.bits = some bs) {log e}
    (h : Entry.OK lim σ log e) : LogOK lim bs (.of σ) log e where
  ent := h.ent
  says := by
    obtain ⟨d, po, pp, h1, h2, h3, h4⟩ := h.says
    exact ⟨d, po, pp, h1, h2, PhraseEnt.race hb h3, PhraseEnt.race hb h4⟩
  obj := h.obj
  prop := h.prop
  text := h.text
  ptext := h.ptext
  fact := by
    have hf := h.fact
    cases ho : e.opener with
    | none =>
      rw [ho] at hf
      obtain ⟨f, hT, hf, hT'⟩ := hf
      exact ⟨⟨f, hT, hf, hT'⟩, h.zero ho⟩
    | some i =>
      rw [ho] at hf
      obtain ⟨e', hl, f, hT, hf, hr1, hTf, s, hs, h1, h2⟩ := hf
      exact ⟨e', hl, f, s, hT, hf, hr1, hTf, hs, h1, h2⟩

end Semnet.Race
