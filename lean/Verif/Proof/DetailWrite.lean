import Verif.Proof.PhraseWrite
/-
  Providing details.
-/
set_option linter.unusedSimpArgs false
namespace Semnet
open Class Spec

theorem Inv.Snodup {cfg lim} {σ : St} (hi : Inv cfg lim σ) (x : Nat) : (σ.S x).Nodup := by
  have h := hi.nodup.filter (fun e => e.2 == x)
  unfold St.S Store.sources
  unfold List.Nodup at h ⊢
  rw [List.pairwise_map]
  refine List.Pairwise.imp_of_mem ?_ h
  intro a b ha hb hab e
  apply hab
  have h1 := (List.mem_filter.1 ha).2
  have h2 := (List.mem_filter.1 hb).2
  simp at h1 h2
  exact Prod.ext e (h1.trans h2.symm)

theorem filter_beq_nodup {l : List Nat} (h : l.Nodup) (x : Nat) :
    l.filter (fun p => p == x) = if x ∈ l then [x] else [] := by
  induction l with
  | nil => simp
  | cons a l ih =>
    have hn := List.nodup_cons.1 h
    rw [List.filter_cons, ih hn.2]
    by_cases e : a = x
    · subst e; simp [hn.1]
    · simp [e, Ne.symm e]

theorem common_eq {l1 l2 : List Nat} (h : l2.Nodup) :
    Detail.common l1 l2 = l1.filter (fun o => decide (o ∈ l2)) := by
  unfold Detail.common
  induction l1 with
  | nil => rfl
  | cons a l ih =>
    rw [List.flatMap_cons, ih, filter_beq_nodup h, List.filter_cons]
    by_cases e : a ∈ l2 <;> simp [e]

theorem Inv.detailTag {cfg lim} {σ : St} (hi : Inv cfg lim σ) {x y : Nat} (hx : σ.tag x = .phD)
    (h : (x, y) ∈ σ.store.edges) : σ.tag y = .dtP ∧ σ.S y = [x] := by
  have he := hi.edge _ _ h
  unfold EdgeOK at he
  rw [hx] at he
  cases ht : σ.tag y <;> rw [ht] at he <;> try exact he.elim
  refine ⟨rfl, ?_⟩
  have hl := hi.scrit y (by rw [ht]; rfl)
  have hm : x ∈ σ.S y := mem_S.2 h
  match hS : σ.S y, hl with
  | [], _ => rw [hS] at hm; cases hm
  | [z], _ => rw [hS] at hm; simp at hm; rw [hm]

theorem Inv.detailT {cfg lim} {σ : St} (hi : Inv cfg lim σ) {x y : Nat} (hx : σ.tag x = .dtP)
    (h : (x, y) ∈ σ.store.edges) : σ.T x = [y] := by
  have hl := hi.tcrit x (by rw [hx]; rfl)
  have hm : y ∈ σ.T x := mem_T.2 h
  match hT : σ.T x, hl with
  | [], _ => rw [hT] at hm; cases hm
  | [z], _ => rw [hT] at hm; simp at hm; rw [hm]

/-- node 0, if it leads anywhere, leads to the position of a fact without successor -/
def CleanZ (σ : St) : Prop := ∀ t, σ.T 0 = [t] → σ.tag t = .ftP ∧ σ.T t = []

/-- a new detail, nothing else touched -/
structure NewDetail (σ σ' : St) (o p : Nat) (d : DetailE) : Prop where
  ref : Ref σ' d.phrase d.remark
  tp : σ'.tag d.phrase = .dtP
  tr : σ'.tag d.remark = .dtR
  So : σ'.S d.phrase = [o]
  Tp : σ'.T d.phrase = [p]
  tagD : ∀ x, σ'.tag x = .dtP → x = d.phrase ∨ (σ.tag x = .dtP ∧ σ'.S x = σ.S x ∧ σ'.T x = σ.T x ∧ σ'.fwd x = σ.fwd x)
  frT : ∀ x, σ.tag x ≠ .none → x ≠ o → σ'.T x = σ.T x
  fr0 : σ'.T 0 = σ.T 0
  keep : Keep σ σ'
  flt : σ'.flt = σ.flt
  froz : Froz σ σ'
  newC : ∀ x k, σ'.tag x = .cls k → σ.tag x = .cls k ∨ Whole σ' k x
  newO : ∀ y, σ'.tag y ≠ .none → σ.tag y ≠ .none ∨ Owned σ' y

theorem NewDetail.cleanZ {cfg lim} {σ σ' : St} {o p : Nat} {d : DetailE} (_hi : Inv cfg lim σ) (m : Mono σ σ')
    (h : NewDetail σ σ' o p d) (ho : σ.tag o = .phD) (hc : CleanZ σ) : CleanZ σ' := by
  intro t ht
  rw [h.fr0] at ht
  obtain ⟨h1, h2⟩ := hc t ht
  refine ⟨m.tagEq h1 (by simp), ?_⟩
  rw [h.frT t (by rw [h1]; simp) (by intro e; rw [e, ho] at h1; cases h1)]
  exact h2

theorem NewDetail.clean {cfg lim} {σ σ' : St} {o p : Nat} {d : DetailE} (hi : Inv cfg lim σ) (m : Mono σ σ')
    (h : NewDetail σ σ' o p d) (ho : σ.tag o = .phD)
    (hno : ∀ y, σ.tag y = .dtP → σ.S y = [o] → σ.T y = [p] → False) (hc : CleanB σ) : CleanB σ' where
  full x h1 h2 h3 := by
    rcases h.tagD x h1 with e | ⟨a, b, c, e⟩
    · rw [e, h.ref.f]; exact h.ref.hy
    · rw [e]; rw [b] at h2; rw [c] at h3; exact hc.full x a h2 h3
  uniq x y h1 h2 h3 h4 h5 h6 := by
    rcases h.tagD x h1 with e | ⟨a, b, c, _⟩ <;> rcases h.tagD y h2 with e' | ⟨a', b', c', _⟩
    · rw [e, e']
    · exfalso
      rw [e, h.So, b'] at h5
      rw [e, h.Tp, c'] at h6
      exact hno y a' h5.symm h6.symm
    · exfalso
      rw [e', h.So, b] at h5
      rw [e', h.Tp, c] at h6
      exact hno x a h5 h6
    · rw [b] at h3 h5; rw [c] at h4 h6; rw [b'] at h5; rw [c'] at h6
      exact hc.uniq x y a a' h3 h4 h5 h6
  zero := h.cleanZ hi m ho hc.zero

theorem wp_detailCreate {C : Ctx} (hR : C.R = false) {σ : St} (hi : Inv C.cfg C.lim σ) {o p : PhraseE}
    (ho : σ.tag o.detail = .phD) (hp : σ.tag p.detail = .phD) {Q : Out DetailE → St → Prop}
    (hq : ∀ d σ', Ext C σ σ' → NewDetail σ σ' o.detail p.detail d → Q (.ok d) σ')
    (hf : ∀ σ', Ext C σ σ' → σ'.flt = true → Q (.err .fault) σ') :
    wp C Q (Detail.createEntity o p) σ := by
  unfold Detail.createEntity
  have hno : ∀ x, σ.store.next ≤ x → σ.tag x = .none := fun x h => hi.tagNext h
  have T0 : ∀ x, σ.store.next ≤ x → σ.T x = [] := fun x h => hi.Tnone (hno x h)
  have S0 : ∀ x, σ.store.next ≤ x → σ.S x = [] := fun x h => hi.Snone (hno x h)
  have hz := hi.nextNe0
  have hol : o.detail < σ.store.next := hi.bound _ (by rw [ho]; simp)
  have hpl : p.detail < σ.store.next := hi.bound _ (by rw [hp]; simp)
  have ho0 : o.detail ≠ 0 := by
    intro e; rw [e] at ho
    by_cases h : C.cfg.zero = true
    · rw [(hi.zero 0).2 ⟨rfl, h⟩] at ho; cases ho
    · rw [hi.node0 (by simpa using h)] at ho; cases ho
  have h8 : ∀ k, 1 ≤ k → k ≤ 8 → k < σ.store.next := by intro k _ _; have := hi.next; omega
  refine wp_bind (wp_createNode hR hi (k := detailId) (by decide) ?_ hf)
  intro c1 e1
  have hn1 : ((σ.mk' (.cls detailId)).conn c1 σ.store.next detailId).store.next = σ.store.next + 1 + c1.arrow := rfl
  have ht1 : ∀ x, ((σ.mk' (.cls detailId)).conn c1 σ.store.next detailId).tag x =
    if x = σ.store.next then .cls detailId else σ.tag x := fun x => rfl
  have hT1 : ∀ x, ((σ.mk' (.cls detailId)).conn c1 σ.store.next detailId).T x =
    if x = σ.store.next then detailId :: σ.T x else σ.T x := fun x => T_conn ..
  have hS1 : ∀ x, ((σ.mk' (.cls detailId)).conn c1 σ.store.next detailId).S x =
    if x = detailId then σ.store.next :: σ.S x else σ.S x := fun x => S_conn ..
  have hf1 : ∀ x, ((σ.mk' (.cls detailId)).conn c1 σ.store.next detailId).fwd x = σ.fwd x := fun x => rfl
  have hb1 : ∀ x, ((σ.mk' (.cls detailId)).conn c1 σ.store.next detailId).back x = σ.back x := fun x => rfl
  have hfl1 : ((σ.mk' (.cls detailId)).conn c1 σ.store.next detailId).flt = σ.flt := rfl
  have e1' := e1.toExt
  clear e1
  generalize (σ.mk' (.cls detailId)).conn c1 σ.store.next detailId = σ1 at *
  generalize hn : σ.store.next = n at *
  generalize hm : n + 1 + c1.arrow = m at *
  have hnm : n < m := by omega
  -- the phrase node
  refine wp_bind (wp_create hR e1'.inv (t := .dtP) ⟨by simp, by simp, by simp, by simp, trivial⟩ ?_
    (fun σ' a b => hf σ' (e1'.trans a) b))
  have e2 := e1'.trans (Ext.add e1'.inv (t := .dtP) ⟨by simp, by simp, by simp, by simp, trivial⟩)
  rw [hn1]
  have ht2 : ∀ x, (σ1.mk' .dtP).tag x = if x = m then .dtP else σ1.tag x := by intro x; rw [tag_mk, hn1]
  have ho2 : (σ1.mk' .dtP).tag o.detail = .phD := by
    rw [ht2, if_neg (by omega), ht1, if_neg (by omega)]; exact ho
  have hm2 : (σ1.mk' .dtP).tag m = .dtP := by rw [ht2, if_pos rfl]
  have hTm : σ1.T m = [] := by rw [hT1, if_neg (by omega)]; exact T0 _ (by omega)
  have hSm : σ1.S m = [] := by
    rw [hS1, if_neg (by have := h8 detailId (by decide) (by decide); omega)]; exact S0 _ (by omega)
  have c3 : ConnOK (σ1.mk' .dtP) o.detail m := by
    constructor
    · intro h
      have : o.detail ∈ (σ1.mk' .dtP).S m := mem_S.2 h
      rw [S_mk, hSm] at this; cases this
    · rw [ho2]; simp [Tag.tcrit]
    · rw [ho2]; rfl
    · intro _; exact hSm
    · rw [hm2]; rfl
    · intro y' q _ h; rw [hm2] at h; cases h
    · rw [ho2]; simp
    · have := h8 bitId (by decide) (by decide); omega
  have E3 : EdgeOK ((σ1.mk' .dtP).conn C.cfg o.detail m) o.detail m := by
    simp only [EdgeOK, tag_conn, ho2, hm2]
  refine wp_bind (wp_connect hR e2.inv c3 E3 ?_ (fun σ' a b => hf σ' (e2.trans a) b))
  intro c2
  have e3 := e2.trans (Ext.conn (c := c2) e2.inv c3 E3)
  have ht3 : ∀ x, ((σ1.mk' .dtP).conn c2 o.detail m).tag x = if x = m then .dtP else σ1.tag x := ht2
  have hT3 : ∀ x, ((σ1.mk' .dtP).conn c2 o.detail m).T x = if x = o.detail then m :: σ1.T x else σ1.T x :=
    fun x => T_conn ..
  have hS3 : ∀ x, ((σ1.mk' .dtP).conn c2 o.detail m).S x = if x = m then o.detail :: σ1.S x else σ1.S x :=
    fun x => S_conn ..
  have hf3 : ∀ x, ((σ1.mk' .dtP).conn c2 o.detail m).fwd x = σ1.fwd x := fun x => rfl
  have hb3 : ∀ x, ((σ1.mk' .dtP).conn c2 o.detail m).back x = σ1.back x := fun x => rfl
  have hn3 : ((σ1.mk' .dtP).conn c2 o.detail m).store.next = m + 1 + c2.arrow := by
    rw [← hn1]; rfl
  have hfl3 : ((σ1.mk' .dtP).conn c2 o.detail m).flt = σ1.flt := rfl
  clear E3 c3 ht2 hm2 ho2 e2
  generalize (σ1.mk' .dtP).conn c2 o.detail m = σ3 at *
  -- to the property
  have hm3 : σ3.tag m = .dtP := by rw [ht3, if_pos rfl]
  have hp3 : σ3.tag p.detail = .phD := by rw [ht3, if_neg (by omega), ht1, if_neg (by omega)]; exact hp
  have hTm3 : σ3.T m = [] := by rw [hT3, if_neg (by omega)]; exact hTm
  have c4 : ConnOK σ3 m p.detail := by
    constructor
    · intro h
      have : p.detail ∈ σ3.T m := mem_T.2 h
      rw [hTm3] at this; cases this
    · intro _; exact hTm3
    · rw [hm3]; rfl
    · rw [hp3]; simp [Tag.scrit]
    · rw [hp3]; rfl
    · intro y' q _ h; rw [hp3] at h; cases h
    · rw [hm3]; simp
    · intro e
      have := (e3.inv.root p.detail).2 (by rw [e]; decide)
      rw [hp3] at this; cases this
  have E4 : EdgeOK (σ3.conn C.cfg m p.detail) m p.detail := by
    simp only [EdgeOK, tag_conn, hp3, hm3]
  refine wp_bind (wp_connect hR e3.inv c4 E4 ?_ (fun σ' a b => hf σ' (e3.trans a) b))
  intro c4'
  have e4 := e3.trans (Ext.conn (c := c4') e3.inv c4 E4)
  -- the remark node
  have k5 : CreateOK C.lim .dtR := ⟨by simp, by simp, by simp, by simp, trivial⟩
  refine wp_bind (wp_create hR e4.inv k5 ?_ (fun σ' a b => hf σ' (e4.trans a) b))
  have e5 := e4.trans (Ext.add e4.inv k5)
  have hn4 : (σ3.conn c4' m p.detail).store.next = m + 1 + c2.arrow + c4'.arrow := by rw [← hn3]; rfl
  rw [hn4]
  generalize hq' : m + 1 + c2.arrow + c4'.arrow = q at *
  have hmq : m < q := by omega
  have ht5 : ∀ x, ((σ3.conn c4' m p.detail).mk' .dtR).tag x = if x = q then .dtR else σ3.tag x := by
    intro x; rw [tag_mk, hn4]; rfl
  have hT5 : ∀ x, ((σ3.conn c4' m p.detail).mk' .dtR).T x = if x = m then p.detail :: σ3.T x else σ3.T x :=
    fun x => T_conn c4' σ3 m p.detail x
  have hS5 : ∀ x, ((σ3.conn c4' m p.detail).mk' .dtR).S x = if x = p.detail then m :: σ3.S x else σ3.S x :=
    fun x => S_conn c4' σ3 m p.detail x
  have hf5 : ∀ x, ((σ3.conn c4' m p.detail).mk' .dtR).fwd x = σ3.fwd x := fun x => rfl
  have hb5 : ∀ x, ((σ3.conn c4' m p.detail).mk' .dtR).back x = σ3.back x := fun x => rfl
  have hfl5 : ((σ3.conn c4' m p.detail).mk' .dtR).flt = σ3.flt := rfl
  clear E4 c4 e4 hn4
  generalize (σ3.conn c4' m p.detail).mk' .dtR = σ5 at *
  have htn5 : σ5.tag n = .cls detailId := by
    rw [ht5, if_neg (by omega), ht3, if_neg (by omega), ht1, if_pos rfl]
  have htm5 : σ5.tag m = .dtP := by rw [ht5, if_neg (by omega), ht3, if_pos rfl]
  have htq5 : σ5.tag q = .dtR := by rw [ht5, if_pos rfl]
  have rn := hi.ref0 n (hno _ (by omega))
  have rm := hi.ref0 m (hno _ (by omega))
  have rq := hi.ref0 q (hno _ (by omega))
  have r6 : RefOK σ5 n m := by
    constructor
    · exact hz
    · omega
    · rw [htn5]; simp
    · rw [htm5]; simp
    · rw [hf5, hf3, hf1]; exact rn.1
    · rw [hb5, hb3, hb1]; exact rm.2
    · rw [htn5]; rfl
    · rw [htm5]; rfl
    · rw [htn5]; simp
    · have := hi.next; omega
    · have := hi.next; omega
  refine wp_bind (wp_setRef hR e5.inv r6 ?_ (fun σ' a b => hf σ' (e5.trans a) b))
  have e6 := e5.trans (Ext.ref e5.inv r6)
  have r7 : RefOK (σ5.ref n m) m q := by
    constructor
    · omega
    · omega
    · rw [tag_ref, htm5]; simp
    · rw [tag_ref, htq5]; simp
    · rw [fwd_ref, if_neg (by omega), hf5, hf3, hf1]; exact rm.1
    · rw [back_ref, if_neg (by omega), hb5, hb3, hb1]; exact rq.2
    · rw [tag_ref, htm5]; rfl
    · rw [tag_ref, htq5]; rfl
    · intro _; exact htq5
    · have := hi.next; omega
    · have := hi.next; omega
  refine wp_bind (wp_setRef hR e6.inv r7 ?_ (fun σ' a b => hf σ' (e6.trans a) b))
  have e7 := e6.trans (Ext.ref e6.inv r7)
  refine hq _ _ e7 ?_
  constructor
  · refine ⟨?_, ?_, ?_, ?_⟩
    · show _ = q; rw [fwd_ref, if_pos rfl]
    · show _ = m; rw [back_ref, if_pos rfl]
    · show m ≠ 0; omega
    · show q ≠ 0; omega
  · exact htm5
  · exact htq5
  · show σ5.S m = _
    rw [hS5, if_neg (by omega), hS3, if_pos rfl, hSm]
  · show σ5.T m = _
    rw [hT5, if_pos rfl, hTm3]
  · intro x hx
    have hx' : σ5.tag x = .dtP := hx
    by_cases hxm : x = m
    · exact .inl hxm
    right
    rw [ht5] at hx'
    by_cases hxq : x = q
    · rw [if_pos hxq] at hx'; cases hx'
    rw [if_neg hxq, ht3, if_neg hxm, ht1] at hx'
    by_cases hxn : x = n
    · rw [if_pos hxn] at hx'; cases hx'
    rw [if_neg hxn] at hx'
    have hxo : x ≠ o.detail := by intro e; rw [e, ho] at hx'; cases hx'
    have hxp : x ≠ p.detail := by intro e; rw [e, hp] at hx'; cases hx'
    have hxd : x ≠ detailId := by
      intro e
      have := (hi.root x).2 (by rw [e]; decide)
      rw [hx'] at this; cases this
    refine ⟨hx', ?_, ?_, ?_⟩
    · show σ5.S x = _
      rw [hS5, if_neg hxp, hS3, if_neg hxm, hS1, if_neg hxd]
    · show σ5.T x = _
      rw [hT5, if_neg hxm, hT3, if_neg hxo, hT1, if_neg hxn]
    · rw [fwd_ref, if_neg hxm, fwd_ref, if_neg hxn, hf5, hf3, hf1]
  · intro x hx hxo
    have hl := hi.bound x hx
    show σ5.T x = _
    rw [hT5, if_neg (by omega), hT3, if_neg hxo, hT1, if_neg (by omega)]
  · show σ5.T 0 = _
    rw [hT5, if_neg (by omega), hT3, if_neg (Ne.symm ho0), hT1, if_neg (Ne.symm hz)]
  · constructor
    · intro x hx
      have hl := hi.bound x (by intro e; rw [e] at hx; cases hx)
      show σ5.T x = _
      rw [hT5, if_neg (by omega), hT3, if_neg (by intro e; rw [e, ho] at hx; cases hx), hT1, if_neg (by omega)]
    · intro x hx
      have hl := hi.bound x (by intro e; rw [e] at hx; cases hx)
      show σ5.S x = _
      rw [hS5, if_neg (by intro e; rw [e, hp] at hx; cases hx), hS3, if_neg (by omega), hS1, if_neg]
      intro e
      rw [(hi.root x).2 (by rw [e]; decide)] at hx
      cases hx
  · show σ5.flt = _
    rw [hfl5, hfl3, hfl1]
  · intro x hx
    have hx' : (σ5.tag x).src = true := hx
    show σ5.T x = _
    have a1 : x ≠ m := by intro e; rw [e, htm5] at hx'; cases hx'
    have a2 : x ≠ n := by intro e; rw [e, htn5] at hx'; cases hx'
    have a3 : x ≠ o.detail := by
      intro e
      rw [e, ht5, if_neg (by omega), ht3, if_neg (by omega), ht1, if_neg (by omega), ho] at hx'
      cases hx'
    rw [hT5, if_neg a1, hT3, if_neg a3, hT1, if_neg a2]
  · intro x k hx
    have hx' : σ5.tag x = .cls k := hx
    rw [ht5] at hx'
    split at hx'
    · cases hx'
    rw [ht3] at hx'
    split at hx'
    · cases hx'
    rw [ht1] at hx'
    split at hx'
    · rename_i e
      subst e
      injection hx' with hx'
      subst hx'
      refine .inr ⟨?_, .inr (.inl ⟨rfl, m, q, ⟨?_, ?_, hz, by omega⟩, ⟨?_, ?_, by omega, by omega⟩, htm5, htq5⟩)⟩
      · show σ5.T x = _
        rw [hT5, if_neg (by omega), hT3, if_neg (by omega), hT1, if_pos rfl, T0 _ (by omega)]
      · rw [fwd_ref, if_neg (by omega), fwd_ref, if_pos rfl]
      · rw [back_ref, if_neg (by omega), back_ref, if_pos rfl]
      · rw [fwd_ref, if_pos rfl]
      · rw [back_ref, if_pos rfl]
    · exact .inl hx'
  · intro y hy
    have r1 : Ref ((σ5.ref n m).ref m q) n m := by
      refine ⟨?_, ?_, hz, by omega⟩
      · rw [fwd_ref, if_neg (by omega), fwd_ref, if_pos rfl]
      · rw [back_ref, if_neg (by omega), back_ref, if_pos rfl]
    have r2 : Ref ((σ5.ref n m).ref m q) m q := by
      refine ⟨?_, ?_, by omega, by omega⟩
      · rw [fwd_ref, if_pos rfl]
      · rw [back_ref, if_pos rfl]
    have tn : ((σ5.ref n m).ref m q).tag n = .cls detailId := by
      show σ5.tag n = _
      rw [ht5, if_neg (by omega), ht3, if_neg (by omega), ht1, if_pos rfl]
    have hy' : σ5.tag y ≠ .none := hy
    rw [ht5] at hy'
    split at hy'
    · rename_i e; rw [e]; exact .inr ⟨_, _, tn, .step (.step .head r1) r2⟩
    rw [ht3] at hy'
    split at hy'
    · rename_i e; rw [e]; exact .inr ⟨_, _, tn, .step .head r1⟩
    rw [ht1] at hy'
    split at hy'
    · rename_i e; rw [e]; exact .inr ⟨_, _, tn, .head⟩
    · exact .inl hy'

theorem Clean.zeroSame {σ σ' : St} (h : Same σ σ') (hc : CleanZ σ) : CleanZ σ' := by
  intro t ht
  rw [h.T] at ht ⊢
  rw [h.tag]
  exact hc t ht

theorem filter_two {l : List Nat} (hl : l.Nodup) {p : Nat → Bool} {x y : Nat} {r : List Nat}
    (h : l.filter p = x :: y :: r) : x ∈ l ∧ y ∈ l ∧ p x = true ∧ p y = true ∧ x ≠ y := by
  have hn := hl.filter p
  rw [h] at hn
  have hx : x ∈ l.filter p := by rw [h]; simp
  have hy : y ∈ l.filter p := by rw [h]; simp
  refine ⟨(List.mem_filter.1 hx).1, (List.mem_filter.1 hy).1, (List.mem_filter.1 hx).2, (List.mem_filter.1 hy).2, ?_⟩
  intro e
  subst e
  simp at hn

/-- the result of providing a detail; without a complete detail the storage has been left unfinished before -/
structure DetailGood (C : Ctx) (σ0 σ : St) (o p : PhraseE) (d : DetailE) : Prop where
  ent : DetailEnt σ d o p ∨ (d.remark = 0 ∧ C.cfg.zero = false ∧ ¬ Clean σ0 ∧ σ0.S p.detail ≠ [])
  zero : Clean σ0 → CleanZ σ
  keep : Keep σ0 σ

theorem Wr.detailProvideEntity {C : Ctx} (hR : C.R = false) {σ : St} (hi : Inv C.cfg C.lim σ)
    (hc : C.cfg.zero = true → Clean σ) {o p : PhraseE} {wo wp'} (ho : PhraseEnt σ wo o)
    (hp : PhraseEnt σ wp' p) :
    WrL C (fun d σ' => DetailGood C σ σ' o p d) (fun b _ => b = false ∧ ¬ Clean σ ∧ σ.S p.detail ≠ [])
      (Detail.provideEntity o p) σ := by
  unfold Detail.provideEntity
  have hto := ho.tagD
  have htp := hp.tagD
  refine WrL.bind ((Rd.targets hi (x := o.detail) (by rw [hto]; simp) (good := fun l => l.Perm (σ.T o.detail)) ?_).wr hR
    (bad := fun b _ => b = false ∧ ¬ Clean σ ∧ σ.S p.detail ≠ [])).loose ?_
  · intro σ1 l h1 h2 hl
    rw [(h2 hR).T] at hl; exact hl
  intro l1 σ1 h1 ⟨hs1, hl1⟩
  have htp1 : σ1.tag p.detail = .phD := by rw [hs1.tag]; exact htp
  have hto1 : σ1.tag o.detail = .phD := by rw [hs1.tag]; exact hto
  have key := (Rd.sources h1.inv (x := p.detail) (by rw [htp1]; simp) (good := fun l => l.Perm (σ.S p.detail)) (by
    intro σ2 l a b hl
    rw [(b hR).S, hs1.S] at hl; exact hl)).attempt
  refine wp_bind (wp_mono ?_ key)
  intro out σ2 ⟨h2, h3, h4⟩
  have hs2 := h3 hR
  have hs := hs1.trans hs2
  have e2 : ExtC C σ σ2 := h1.trans (.same h2 hs2)
  have hto2 : σ2.tag o.detail = .phD := by rw [hs2.tag]; exact hto1
  have htp2 : σ2.tag p.detail = .phD := by rw [hs2.tag]; exact htp1
  have create : (σ2.flt = true ∨ ∀ y, σ2.tag y = .dtP → σ2.S y = [o.detail] → σ2.T y = [p.detail] → False) →
      wp C (WPost C σ1 (fun d σ' => DetailGood C σ σ' o p d) (fun b _ => b = false ∧ ¬ Clean σ ∧ σ.S p.detail ≠ []))
        (Detail.createEntity o p) σ2 := by
    intro hor
    refine wp_detailCreate hR e2.inv hto2 htp2 ?_ (fun σ' a b => ⟨.faulty (h2.trans a) b, .inl b⟩)
    intro d σ3 h3 hnew
    have hk := (Keep.same hs2).trans h2.mono hnew.keep
    refine ⟨⟨⟨h2.trans h3, ?_, fun _ _ => hk, fun _ _ => (Froz.same hs2).trans h2.inv h2.mono h3.mono hnew.froz⟩,
      fun hw _ => (hw.same hs2).mono h3.mono hnew.newC hnew.newO⟩, ?_, ?_, (Keep.same hs1).trans h1.mono hk⟩
    · intro hc1 hfl
      rcases hor with hor | hor
      · rw [hnew.flt, hor] at hfl; cases hfl
      · exact hnew.clean e2.inv h3.mono hto2 hor (hc1.same hs2)
    · exact .inl ⟨hnew.ref, hnew.tp, hnew.tr, hnew.So, hnew.Tp⟩
    · intro hcl
      exact hnew.cleanZ e2.inv h3.mono hto2 (Clean.zeroSame hs hcl.zero)
  cases out with
  | err e => exact h4.elim
  | panic => exact ⟨.same h2 hs2, .inl h4⟩
  | spin => exact h4.elim
  | ok r =>
    cases r with
    | error e =>
      have : Detail.common l1 ((Except.error e : Except Err (List Nat)).toOption.getD []) = [] := by
        unfold Detail.common; simp [Except.toOption]
      show wp C _ (match Detail.common l1 ((Except.error e : Except Err (List Nat)).toOption.getD []) with
        | [] => Detail.createEntity o p
        | [d] => Detail.readEntityByPhrase d
        | _ => Go.err .tooManyCommonDetails) σ2
      rw [this]
      exact create (.inl h4)
    | ok l2 =>
      obtain ⟨hl2, hfl⟩ := h4
      have hn2 : l2.Nodup := hl2.nodup_iff.2 (hi.Snodup _)
      have hn1 : l1.Nodup := hl1.nodup_iff.2 (hi.Tnodup _)
      show wp C _ (match Detail.common l1 l2 with
        | [] => Detail.createEntity o p
        | [d] => Detail.readEntityByPhrase d
        | _ => Go.err .tooManyCommonDetails) σ2
      have hinfo : ∀ x, x ∈ l1 → x ∈ l2 → σ.tag x = .dtP ∧ σ.S x = [o.detail] ∧ σ.T x = [p.detail] := by
        intro x hx1 hx2
        have a := hi.detailTag hto (mem_T.1 (hl1.mem_iff.1 hx1))
        exact ⟨a.1, a.2, hi.detailT a.1 (mem_S.1 (hl2.mem_iff.1 hx2))⟩
      match hcm : Detail.common l1 l2 with
      | [] =>
        refine create (.inr ?_)
        intro y hy hS hT
        rw [common_eq hn2] at hcm
        have : y ∈ l1.filter (fun o => decide (o ∈ l2)) := by
          rw [List.mem_filter]
          refine ⟨hl1.mem_iff.2 (mem_T.2 (mem_S.1 ?_)), ?_⟩
          · rw [← hs.S, hS]; simp
          · rw [decide_eq_true_iff]
            refine hl2.mem_iff.2 (mem_S.2 (mem_T.1 ?_))
            rw [← hs.T, hT]; simp
        rw [hcm] at this; cases this
      | [d] =>
        have hd : d ∈ l1 ∧ d ∈ l2 := by
          have : d ∈ Detail.common l1 l2 := by rw [hcm]; simp
          rw [common_eq hn2, List.mem_filter] at this
          exact ⟨this.1, by simpa using this.2⟩
        obtain ⟨t1, t2, t3⟩ := hinfo d hd.1 hd.2
        have hsp : σ.S p.detail ≠ [] := fun e => by
          have := hl2.mem_iff.1 hd.2; rw [e] at this; cases this
        have htd : σ2.tag d = .dtP := by rw [hs.tag]; exact t1
        have hrd : Rd C (fun r : DetailE => r = ⟨σ.back d, d, σ.fwd d⟩) (Detail.readEntityByPhrase d) σ2 := by
          unfold Detail.readEntityByPhrase
          refine Rd.bind (Rd.getRef e2.inv (by rw [htd]; simp) (good := fun p => p = (σ.back d, σ.fwd d)) ?_) ?_
          · intro σ3 _ a
            rw [(a hR).back, (a hR).fwd, hs.back, hs.fwd]
          · intro p σ3 a _ hp; rw [hp]; exact .ret a.inv rfl
        refine wp_mono ?_ (hrd.wr hR (bad := fun b _ => b = false ∧ ¬ Clean σ ∧ σ.S p.detail ≠ [])).loose
        intro out σ3 ⟨g1, g2⟩
        refine ⟨(ExtC.same h2 hs2).trans g1, ?_⟩
        cases out with
        | err e => exact g2
        | panic => exact g2
        | spin => exact g2
        | ok r =>
          obtain ⟨hs3, hr⟩ := g2
          have hs' := hs.trans hs3
          subst hr
          refine ⟨?_, fun hcl => Clean.zeroSame hs' hcl.zero, .same hs'⟩
          by_cases hz : σ.fwd d = 0
          · right
            have hncl : ¬ Clean σ := fun hcl => hcl.full d t1 (by rw [t2]; simp) (by rw [t3]; simp) hz
            refine ⟨hz, ?_, hncl, hsp⟩
            cases h : C.cfg.zero with
            | false => rfl
            | true => exact absurd (hc h) hncl
          · left
            have hb := hi.refB d hz
            refine ⟨⟨?_, ?_, hb.2, hz⟩, ?_, ?_, ?_, ?_⟩
            · rw [hs'.fwd]
            · rw [hs'.back]; exact hb.1
            · rw [hs'.tag]; exact t1
            · rw [hs'.tag]; exact hi.refDt d t1 hz
            · rw [hs'.S]; exact t2
            · rw [hs'.T]; exact t3
      | x :: y :: r =>
        rw [common_eq hn2] at hcm
        obtain ⟨a1, a2, a3, a4, a5⟩ := filter_two hn1 hcm
        obtain ⟨b1, b2, b3⟩ := hinfo x a1 (by simpa using a3)
        obtain ⟨c1, c2, c3⟩ := hinfo y a2 (by simpa using a4)
        have hsp : σ.S p.detail ≠ [] := fun e => by
          have := hl2.mem_iff.1 (show x ∈ l2 by simpa using a3); rw [e] at this; cases this
        refine ⟨.same h2 hs2, .inr ⟨rfl, ?_, hsp⟩⟩
        intro hcl
        exact a5 (hcl.uniq x y b1 c1 (by rw [b2]; simp) (by rw [b3]; simp) (b2.trans c2.symm) (b3.trans c3.symm))

/-- a property that may meet details left unfinished by an interrupted call -/
def Messy (lim : Lim) (σ0 : St) (p : GoStr) : Prop := ¬ Clean σ0 ∧ ¬ LeafHead lim p

theorem Messy.mono {lim σ σ' p} (h : Messy lim σ' p) (hc : Clean σ → Clean σ') : Messy lim σ p :=
  ⟨fun h' => h.1 (hc h'), h.2⟩

theorem Inv.tag0 {cfg lim} {σ : St} (hi : Inv cfg lim σ) (hz : cfg.zero = true) : σ.tag 0 = .zero :=
  (hi.zero 0).2 ⟨rfl, hz⟩

/-- no word of `s` is empty -/
def Solid (s : GoStr) : Prop := [] ∉ splitSpace s

theorem PhraseEnt.solid {σ : St} {s : GoStr} {e} (h : PhraseEnt σ (wordsOf s) e) : Solid s := by
  intro g
  obtain ⟨w, hw⟩ := h.words [] (List.mem_map.2 ⟨[], g, rfl⟩)
  exact hw.ne_nil rfl

/-- entering object and property ends with `v` and the lexicon of `σ`, unless there was a fault -/
def PairSt (σ0 σ : St) (o p : GoStr) (v : Verdict) : Prop := σ.flt = false →
  ∀ (L : Lexicon) os ps, splitSpace o = os.map strOf → splitSpace p = ps.map strOf → LexRel σ0 L →
    (L.pair os ps).2 = v ∧ LexRel σ (L.pair os ps).1

theorem PairSt.froz {C : Ctx} {σ0 σ σ' : St} {o p v} (h : PairSt σ0 σ o p v) (hi : Inv C.cfg C.lim σ) (e : Ext C σ σ')
    (hz : σ'.flt = false → Froz σ σ') : PairSt σ0 σ' o p v := by
  intro hf L os ps h1 h2 h3
  have hf' : σ.flt = false := by
    cases hq : σ.flt with
    | false => rfl
    | true => rw [e.flt hq] at hf; cases hf
  obtain ⟨h4, h5⟩ := h hf' L os ps h1 h2 h3
  exact ⟨h4, h5.froz hi e.inv e.mono (hz hf)⟩

theorem PairSt.pre {cfg lim} {σ0 σ1 σ : St} {o p v} (h : PairSt σ1 σ o p v) (hi : Inv cfg lim σ0) (hi' : Inv cfg lim σ1)
    (m : Mono σ0 σ1) (hz : Froz σ0 σ1) : PairSt σ0 σ o p v := fun hf L os ps h1 h2 h3 =>
  h hf L os ps h1 h2 (h3.froz hi hi' m hz)

/-- how entering object and property ends when a call fails; `X` is a reason for failure after that -/
def PairErr (σ0 σ : St) (o p : GoStr) (X : Prop) (b : Bool) : Prop :=
  PairSt σ0 σ o p (if b then .panic else .error) ∨ (b = false ∧ X ∧ PairSt σ0 σ o p .created)

theorem PairErr.pre {cfg lim} {σ0 σ1 σ : St} {o p X X' b} (h : PairErr σ1 σ o p X b) (hi : Inv cfg lim σ0)
    (hi' : Inv cfg lim σ1) (m : Mono σ0 σ1) (hz : Froz σ0 σ1) (hX : X → X') : PairErr σ0 σ o p X' b :=
  h.imp (fun h => h.pre hi hi' m hz) fun ⟨h1, h2, h3⟩ => ⟨h1, hX h2, h3.pre hi hi' m hz⟩

/-- how providing a detail may fail -/
def detailErr (cfg : Cfg) (lim : Lim) (σ0 : St) (o p : GoStr) : Bool → St → Prop := fun b σ =>
  ((cfg.zero = true → σ.T 0 = σ0.T 0) ∧ PairErr σ0 σ o p (Messy lim σ0 p) b) ∧
  if b then ¬ BadHead σ0 o ∧ (BadTail σ o ∨ (Solid o ∧ ¬ BadHead σ0 p ∧ BadTail σ p))
  else BadHead σ o ∨ (Solid o ∧ (BadHead σ p ∨ (Solid p ∧ Messy lim σ0 p)))

/-- entering object and property has led to the phrases `po` and `pp` -/
def LedSt (σ0 σ : St) (o p : GoStr) (po pp : PhraseE) : Prop :=
  ∀ (L : Lexicon) os ps, splitSpace o = os.map strOf → splitSpace p = ps.map strOf → LexRel σ0 L →
    (∃ σ1, Mono σ1 σ ∧ LexRel σ1 (L.phrase os).1 ∧ Led σ1 (L.phrase os).1 (wordsOf o) po) ∧
    ∃ σ2, Mono σ2 σ ∧ LexRel σ2 (L.pair os ps).1 ∧ Led σ2 (L.pair os ps).1 (wordsOf p) pp ∧
      L.pair os ps = (L.phrase os).1.phrase ps

theorem LedSt.mono {σ0 σ σ' : St} {o p po pp} (h : LedSt σ0 σ o p po pp) (m : Mono σ σ') : LedSt σ0 σ' o p po pp :=
  fun L os ps h1 h2 h3 =>
    let ⟨⟨σ1, a, b⟩, σ2, c, d⟩ := h L os ps h1 h2 h3
    ⟨⟨σ1, a.trans m, b⟩, σ2, c.trans m, d⟩

theorem LedSt.pre {cfg lim} {σ0 σ1 σ : St} {o p po pp} (h : LedSt σ1 σ o p po pp) (hi : Inv cfg lim σ0) (hi' : Inv cfg lim σ1)
    (m : Mono σ0 σ1) (hz : Froz σ0 σ1) : LedSt σ0 σ o p po pp := fun L os ps h1 h2 h3 =>
  h L os ps h1 h2 (h3.froz hi hi' m hz)

/-- Post of `Detail.provide`. -/
structure DetailDone (C : Ctx) (σ0 σ : St) (o p : GoStr) (d : DetailE) : Prop where
  ent : ∃ po pp, PhraseEnt σ (wordsOf o) po ∧ PhraseEnt σ (wordsOf p) pp ∧
    (LeafHead C.lim o → σ0.tag po.detail = .none) ∧ (LeafHead C.lim p → σ0.tag pp.detail = .none ∧ po.detail ≠ pp.detail) ∧
    LedSt σ0 σ o p po pp ∧ (DetailEnt σ d po pp ∨ (d.remark = 0 ∧ C.cfg.zero = false ∧ Messy C.lim σ0 p))
  zero : Clean σ0 → σ0.flt = false → CleanZ σ
  keep : Keep σ0 σ
  obj : ¬ BadHead σ0 o
  prop : ¬ BadHead σ0 p
  lex : PairSt σ0 σ o p .created

theorem Wr.detailProvide {C : Ctx} (hR : C.R = false) (hU : C.up = true) (hL : C.lo = true) {σ : St} (hi : Inv C.cfg C.lim σ)
    (hB : C.F = true → σ.bits ≠ none) (hc : C.cfg.zero = true → Clean σ) (hfl : σ.flt = false)
    {fuel : Nat} (hf : C.lim.L ≤ fuel) (hD : C.lim.D ≤ fuel) {o p : GoStr}
    (hso : TextOK C.lim o) (hsp : TextOK C.lim p) :
    WrL C (fun d σ' => DetailDone C σ σ' o p d) (detailErr C.cfg C.lim σ o p) (Detail.provide fuel o p) σ := by
  unfold Detail.provide
  refine WrL.bind (WrL.cons (WrL.lower hU (Wr.phraseProvide (C := C.lower) hR hL hi hB hf hD hso)) (fun _ _ _ h => h) ?_) ?_
  · intro b σ' h1 ⟨h2, hk⟩
    unfold phraseErr at h2
    unfold detailErr
    refine ⟨⟨fun hz => hk.T 0 (by rw [hi.tag0 hz]; rfl), .inl fun _ L os ps ho _ hl => ?_⟩, ?_⟩
    · obtain ⟨h3, h4⟩ := h2.2 L os ho hl
      unfold Lexicon.pair
      revert h3 h4
      cases L.phrase os with
      | mk l1 v => intro h3 h4; cases b <;> (simp only [if_true, Bool.false_eq_true, if_false] at h3; subst h3; exact ⟨rfl, h4⟩)
    have h2 := h2.1
    cases b with
    | false => exact .inl h2
    | true => exact ⟨h2.2, .inl h2.1⟩
  intro po σ1 h1 ⟨⟨⟨hpo, hno, hwo, hlo⟩, hf1⟩, hk1⟩
  have hB1 : C.F = true → σ1.bits ≠ none := by
    intro h
    have hb := hB h
    cases hb' : σ.bits with
    | none => exact absurd hb' hb
    | some b => rw [h1.mono.bits b hb']; simp
  have hpair : ∀ (L : Lexicon) os ps, splitSpace o = os.map strOf → LexRel σ L →
      L.pair os ps = (L.phrase os).1.phrase ps ∧ LexRel σ1 (L.phrase os).1 := by
    intro L os ps ho hl
    obtain ⟨⟨h3, h4⟩, _⟩ := hlo L os ho hl
    unfold Lexicon.pair
    revert h3 h4
    cases L.phrase os with
    | mk l1 v => intro h3 h4; simp only at h3; subst h3; exact ⟨rfl, h4⟩
  have hnp : ¬ BadHead σ1 p → ¬ BadHead σ p := fun h h' => h (h'.mono hi h1.mono)
  refine WrL.bind (WrL.cons (WrL.lower hU (Wr.phraseProvide (C := C.lower) hR hL h1.inv hB1 hf hD hsp)) (fun _ _ _ h => h) ?_) ?_
  · intro b σ' h2 ⟨h3, hk⟩
    unfold phraseErr at h3
    unfold detailErr
    refine ⟨⟨fun hz => (hk.T 0 (by rw [h1.inv.tag0 hz]; rfl)).trans
      ((hk1 (hf1.trans hfl)).T 0 (by rw [hi.tag0 hz]; rfl)), .inl fun _ L os ps ho hp hl => ?_⟩, ?_⟩
    · obtain ⟨h4, h5⟩ := hpair L os ps ho hl
      rw [h4]; exact h3.2 _ ps hp h5
    have h3 := h3.1
    cases b with
    | false => exact .inr ⟨hpo.solid, .inl h3⟩
    | true => exact ⟨hno, .inr ⟨hpo.solid, hnp h3.2, h3.1⟩⟩
  intro pp σ2 h2 ⟨⟨⟨hpp, hnp', hwp, hlp⟩, hf2⟩, hk2⟩
  have e2 := h1.trans h2
  have hpo2 := hpo.mono h2.mono
  refine WrL.bind ((Rd.provideEntity h2.inv).wr hR).loose ?_
  intro _ σ3 h3 ⟨hs3, _⟩
  have e3 := e2.trans h3
  have hfl2 : σ2.flt = false := by rw [hf2, hf1, hfl]
  have hcl3 : Clean σ → Clean σ3 := fun hcl => (e2.clean hcl hfl2).same hs3
  have hlex3 : PairSt σ σ3 o p .created := fun _ L os ps ho hp hl => by
    obtain ⟨h4, h5⟩ := hpair L os ps ho hl
    obtain ⟨⟨h6, h7⟩, _⟩ := hlp _ ps hp h5
    rw [h4]; exact ⟨h6, h7.same h2.inv h3.inv hs3⟩
  have hled2 : LedSt σ σ2 o p po pp := fun L os ps ho hp hl => by
    obtain ⟨h4, h5⟩ := hpair L os ps ho hl
    obtain ⟨⟨_, h7⟩, h8⟩ := hlp _ ps hp h5
    refine ⟨⟨σ1, h2.mono, h5, (hlo L os ho hl).2⟩, σ2, .refl σ2, ?_⟩
    rw [h4]
    exact ⟨h7, h8, rfl⟩
  refine WrL.cons (WrL.upper hL (Wr.detailProvideEntity (C := C.upper) hR h3.inv (fun h => hcl3 (hc h)) (hpo2.mono h3.mono)
    (hpp.mono h3.mono))) ?_ ?_
  · intro d σ4 h4 ⟨hg, hz4⟩
    refine ⟨⟨po, pp, (hpo2.mono h3.mono).mono h4.mono, (hpp.mono h3.mono).mono h4.mono, fun hl => (hwo hl).d0,
        fun hl => ⟨h1.mono.tagNone (hwp hl).d0, fun e => by have := (hwp hl).d0; rw [← e, hpo.tagD] at this; cases this⟩,
        (hled2.mono h3.mono).mono h4.mono, ?_⟩, fun a _ => hg.zero (hcl3 a),
      (((hk1 (hf1.trans hfl)).trans h1.mono (hk2 hfl2)).trans e2.mono (.same hs3)).trans e3.mono hg.keep, hno, hnp hnp', hlex3.froz h3.inv h4.toExt hz4⟩
    exact hg.ent.imp id fun ⟨a, b, c, d⟩ => ⟨a, b, fun hcl => c (hcl3 hcl), fun hl => d (by rw [hs3.S]; exact (hwp hl).Sd)⟩
  · intro b σ4 h4 ⟨⟨a, c, d⟩, hz4⟩
    subst a
    have hm : Messy C.lim σ p := ⟨fun hcl => c (hcl3 hcl), fun hl => d (by rw [hs3.S]; exact (hwp hl).Sd)⟩
    exact ⟨⟨fun hz => absurd (hcl3 (hc hz)) c, .inr ⟨rfl, hm, hlex3.froz h3.inv h4.toExt fun _ => hz4⟩⟩,
      .inr ⟨hpo.solid, .inr ⟨hpp.solid, hm⟩⟩⟩

end Semnet
