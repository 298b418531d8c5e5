import Verif.Spec.Expr
import Verif.Lemmas.Odometer

/-! Simulation of the iteration state of expressions. -/

namespace Model
open Spec

namespace Expr
variable {σ : Type} {α β : Type}

/-- State invariant of freshly built expressions. -/
def Wf : {α : Type} → Expr σ α → Prop
  | _, view _ v => v.map.WF
  | _, axis _ v a m off => v.map.WF ∧ a.get v.map = some m ∧ off = 0
  | _, lanes _ v a m off => v.map.WF ∧ a.removeMap v.map = some m ∧ off = 0
  | _, fill _ => True
  | _, fromElem s _ => s.WF
  | _, fromFn s idx _ => s.WF ∧ idx = dimsDefault s.ty
  | _, intoExpr s buf idx => s.WF ∧ buf.length = size s.dims ∧ idx = 0
  | _, map e _ => e.Wf
  | _, enumerate e k => e.Wf ∧ k = 0
  | _, zip a b s => a.Wf ∧ b.Wf ∧ zipShape a b = some s

theorem wf_of_built {e : Expr σ α} (h : Built e) : e.Wf := by
  induction h with
  | view h => exact h
  | axis h he =>
    simp only [axisNew, Option.map_eq_some_iff] at he
    obtain ⟨m, hm, rfl⟩ := he
    exact ⟨h, hm, rfl⟩
  | lanes h he =>
    simp only [lanesNew, Option.bind_eq_some_iff, Option.map_eq_some_iff] at he
    obtain ⟨m, hm, _, _, rfl⟩ := he
    exact ⟨h, hm, rfl⟩
  | fill => trivial
  | fromElem h he =>
    simp only [fromElemNew, Option.map_eq_some_iff] at he
    obtain ⟨_, _, rfl⟩ := he
    exact h
  | fromFn h he =>
    simp only [fromFnNew, Option.map_eq_some_iff] at he
    obtain ⟨_, _, rfl⟩ := he
    exact ⟨h, rfl⟩
  | intoExpr h hb => exact ⟨h, hb, rfl⟩
  | map _ ih => exact ih
  | enumerate _ ih => exact ⟨ih, rfl⟩
  | zip _ _ he iha ihb =>
    simp only [zipNew, Option.map_eq_some_iff] at he
    obtain ⟨_, hs, rfl⟩ := he
    exact ⟨iha, ihb, hs⟩

theorem zipShape_spec {a : Expr σ α} {b : Expr σ β} {s : Shape} (h : zipShape a b = some s) :
    s.dims = (if a.dims.length < b.dims.length then b.dims else a.dims) ∧
    a.dims = s.dims.drop (s.dims.length - a.dims.length) ∧
    b.dims = s.dims.drop (s.dims.length - b.dims.length) ∧
    (a.repeatable = false → a.dims = s.dims) ∧ (b.repeatable = false → b.dims = s.dims) := by
  unfold zipShape at h
  simp only [check, rank, ge_iff_le, Option.bind_eq_bind, Option.bind_eq_some_iff] at h
  obtain ⟨_, h1, _, h2, _, h3, h4⟩ := h
  simp only [Option.ite_none_right_eq_some, and_true] at h1 h2 h3
  rw [Shape.fromDims_eq, Option.ite_none_right_eq_some] at h4
  obtain ⟨_, h4⟩ := h4
  injection h4 with h4
  subst h4
  refine ⟨rfl, ?_⟩
  by_cases hc : a.dims.length < b.dims.length
  · simp only [if_pos hc] at *
    have h3' : a.dims = b.dims.drop (b.dims.length - a.dims.length) := by
      simpa using h3
    refine ⟨h3', by simp, ?_, fun _ => trivial⟩
    intro hr
    simp only [hr, Bool.false_eq_true, false_or] at h1
    replace h1 : b.dims.length ≤ a.dims.length := h1
    omega
  · simp only [if_neg hc] at *
    have h3' : a.dims.drop (a.dims.length - b.dims.length) = b.dims := by
      simpa using h3
    refine ⟨by simp, h3'.symm, fun _ => trivial, ?_⟩
    intro hr
    simp only [hr, Bool.false_eq_true, false_or] at h2
    replace h2 : a.dims.length ≤ b.dims.length := h2
    have : a.dims.length = b.dims.length := by omega
    rw [← h3', this]; simp

/-- `e` is a component of an expression with dimensions `D` and `O` outer dimensions. -/
structure Fit (e : Expr σ α) (D : List Nat) (O : Nat) : Prop where
  suffix : e.dims = D.drop (D.length - e.dims.length)
  inner : ∀ k, e.innerRank = some k → D.length - O ≤ k
  rep : e.repeatable = false → e.dims = D

theorem Fit.le {e : Expr σ α} {D O} (h : Fit e D O) : e.dims.length ≤ D.length := by
  have := congrArg List.length h.suffix
  rw [List.length_drop] at this; omega

theorem minRank_left {x y : Option Nat} {k} (h : x = some k) : ∃ m, minRank x y = some m ∧ m ≤ k := by
  subst h
  cases y with
  | none => exact ⟨k, rfl, le_refl _⟩
  | some y => exact ⟨min k y, rfl, by omega⟩

theorem minRank_right {x y : Option Nat} {k} (h : y = some k) : ∃ m, minRank x y = some m ∧ m ≤ k := by
  subst h
  cases x with
  | none => exact ⟨k, rfl, le_refl _⟩
  | some y => exact ⟨min y k, rfl, by omega⟩

theorem drop_suffix {A B C : List Nat} (h1 : A = B.drop (B.length - A.length))
    (h2 : B = C.drop (C.length - B.length)) : A = C.drop (C.length - A.length) := by
  have l1 := congrArg List.length h1
  have l2 := congrArg List.length h2
  rw [List.length_drop] at l1 l2
  conv_lhs => rw [h1, h2]
  rw [List.drop_drop, List.length_drop]
  congr 1
  omega

theorem Fit.zip {a : Expr σ α} {b : Expr σ β} {s : Shape} {D O} (hz : zipShape a b = some s)
    (h : Fit (.zip a b s) D O) : Fit a D O ∧ Fit b D O := by
  obtain ⟨_, ha, hb, ra, rb⟩ := zipShape_spec hz
  obtain ⟨hs, hi, hr⟩ := h
  replace hs : s.dims = D.drop (D.length - s.dims.length) := hs
  refine ⟨⟨drop_suffix ha hs, ?_, ?_⟩, ⟨drop_suffix hb hs, ?_, ?_⟩⟩
  · intro k hk
    obtain ⟨m, hm, hle⟩ := minRank_left (y := b.innerRank) hk
    exact le_trans (hi m hm) hle
  · intro h
    rw [ra h]; exact hr (by simp [repeatable, h])
  · intro k hk
    obtain ⟨m, hm, hle⟩ := minRank_right (x := a.innerRank) hk
    exact le_trans (hi m hm) hle
  · intro h
    rw [rb h]; exact hr (by simp [repeatable, h])

theorem fit_self (e : Expr σ α) : Fit e e.dims e.outerRank := by
  refine ⟨by simp, ?_, fun _ => rfl⟩
  intro k hk
  have : e.outerRank = e.dims.length - k := by simp only [outerRank, hk]
  omega

/-- Index stored by `FromFn` at outer position `p`, after `c` items of the inner dimension. -/
def ownIdx (r : Nat) (p : List Nat) (c : Nat) : List Nat :=
  (p ++ List.replicate (r - p.length) 0).modify (r - 1) (· + c)

/-- The state of an expression when iterated in an expression of rank `R`, at the outer position
`pos`, after `c` items in the inner dimensions and `n` items altogether. -/
def adv (R : Nat) (pos : List Nat) (c n : Nat) : {α : Type} → Expr σ α → Expr σ α
  | _, view r v => view r ⟨v.ptr + dot v.map.strides (pos.drop (R - v.dims.length)), v.map⟩
  | _, axis r v a m _ => axis r v a m (m.innerStride * (((pos.drop (R - 1)).getD 0 0 : Nat) : Int))
  | _, lanes r v a m _ => lanes r v a m (dot m.strides (pos.drop (R - m.dims.length)))
  | _, fill f => fill f
  | _, fromElem s f => fromElem s f
  | _, fromFn s _ f => fromFn s (ownIdx s.dims.length (pos.drop (R - s.dims.length)) c) f
  | _, intoExpr s buf _ => intoExpr s buf n
  | _, map e f => map (adv R pos c n e) f
  | _, enumerate e _ => enumerate (adv R pos c n e) n
  | _, zip a b s => zip (adv R pos c n a) (adv R pos c n b) s

@[simp] theorem adv_shape (R pos c n) (e : Expr σ α) : (adv R pos c n e).shape = e.shape := by
  induction e <;> simp_all [adv, shape]

@[simp] theorem adv_innerRank (R pos c n) (e : Expr σ α) :
    (adv R pos c n e).innerRank = e.innerRank := by
  induction e <;> simp_all [adv, innerRank]

@[simp] theorem adv_outerRank (R pos c n) (e : Expr σ α) :
    (adv R pos c n e).outerRank = e.outerRank := by
  simp [outerRank, rank]

theorem axis_dims {v : View} {a : Axis} {m : Mapping} (h : v.map.WF) (hm : a.get v.map = some m) :
    ∃ p, axisPos a v.dims.length = some p ∧ p < v.dims.length ∧ m.dims = [v.dims.getD p 0] ∧
      m.strides = [v.map.strides.getD p 0] ∧ m.innerStride = v.map.strides.getD p 0 ∧ m.WF := by
  rw [Axis.get_eq a _ h] at hm
  cases hp : axisPos a v.map.dims.length with
  | none => rw [hp] at hm; simp at hm
  | some p =>
    rw [hp] at hm
    simp only [Option.bind_some, Option.some.injEq] at hm
    subst hm
    have hlt : p < v.map.dims.length := Axis.index_lt (axisIndex_eq a _ ▸ hp)
    have hp' : a.index v.map.dims.length = some p := (axisIndex_eq a _).trans hp
    have hst : a.keep v.map.shape.ty v.map.layout = .dense →
        [v.map.strides.getD p 0] = denseStrides [v.map.dims.getD p 0] := by
      intro hk
      obtain ⟨e1, e2⟩ := Axis.keep_dense h.1 hp' hk
      have := Axis.denseStrides_last e2
      rw [← Mapping.strides_of_dense e1] at this
      simp [denseStrides, List.getD_eq_getElem?_getD, this]
    have hw : (Mapping.mk (.static [a.dimTy v.map.shape.ty]) [v.map.dims.getD p 0]
        [v.map.strides.getD p 0] (a.keep v.map.shape.ty v.map.layout)).WF := by
      refine Mapping.mk_wf ?_ rfl
      have := Axis.dimTy_fits h.1 hp' hlt
      rw [List.getD_eq_getElem?_getD, List.getElem?_eq_getElem hlt]
      exact ShapeTy.conforms_cons.2 ⟨this, by rw [ShapeTy.conforms_nil]⟩
    refine ⟨p, rfl, hlt, by simp [View.dims], Mapping.mk_strides hst, ?_, hw⟩
    cases hk : a.keep v.map.shape.ty v.map.layout with
    | strided => rfl
    | dense =>
      have := hst hk
      simp only [denseStrides, List.cons.injEq, and_true] at this
      rw [this]; rfl

theorem lanes_dims {v : View} {a : Axis} {m : Mapping} (h : v.map.WF)
    (hm : a.removeMap v.map = some m) :
    ∃ p, axisPos a v.dims.length = some p ∧ p < v.dims.length ∧ m.dims = v.dims.eraseIdx p ∧
      m.strides = v.map.strides.eraseIdx p ∧ m.WF := by
  rw [Axis.removeMap_eq a _ h] at hm
  cases hp : axisPos a v.map.dims.length with
  | none => rw [hp] at hm; simp at hm
  | some p =>
    rw [hp] at hm
    simp only [Option.bind_some, Option.some.injEq] at hm
    subst hm
    have hlt : p < v.map.dims.length := Axis.index_lt (axisIndex_eq a _ ▸ hp)
    have hp' : a.index v.map.dims.length = some p := (axisIndex_eq a _).trans hp
    refine ⟨p, rfl, hlt, by simp [View.dims], Mapping.mk_strides ?_, ?_⟩
    · intro hL
      obtain ⟨e1, e2⟩ := Axis.split_dense h.1 hp' hL
      subst e2
      rw [Mapping.strides_of_dense e1]
      cases v.map.dims <;> simp [denseStrides]
    · refine Mapping.mk_wf (Axis.remove_conforms h.1 hp') ?_
      rw [List.length_eraseIdx, List.length_eraseIdx, h.len]

/-- The inner dimensions of a mapping are laid out with the inner stride. -/
theorem inner_dot {m : Mapping} (hm : m.WF) {t c : Nat} (ht : t ≤ m.dims.length)
    (hi : ∀ k, mapInnerRank m = some k → m.dims.length - t ≤ k)
    (hc : c < size (m.dims.drop t)) :
    dot (m.strides.drop t) (unrank (m.dims.drop t) c) = m.innerStride * (c : Int) := by
  have hz : m.dims.length = t → dot (m.strides.drop t) (unrank (m.dims.drop t) c) = m.innerStride * (c : Int) := by
    intro h
    have e1 : m.dims.drop t = [] := List.drop_eq_nil_of_le (by omega)
    have e2 : m.strides.drop t = [] := List.drop_eq_nil_of_le (by rw [hm.len]; omega)
    rw [e1] at hc ⊢
    have : c = 0 := by simpa using hc
    subst this; simp [e2, dot_nil_left]
  cases m with
  | dense s =>
    by_cases h0 : s.ty.rank? = some 0
    · apply hz
      have hw := hm.1
      have : s.dims.length = 0 := by
        change s.ty.Conforms s.dims at hw
        cases hty : s.ty with
        | dynRank => simp [hty, ShapeTy.rank?] at h0
        | static ds =>
          simp only [hty, ShapeTy.rank?, Option.some.injEq, List.length_eq_zero_iff] at h0
          subst h0
          rw [hty] at hw
          cases hd : s.dims with
          | nil => rfl
          | cons d ds => rw [hd] at hw; simp at hw
      change s.dims.length = t
      change t ≤ s.dims.length at ht
      omega
    · have hs : (Mapping.dense s).innerStride = 1 := by simp [Mapping.innerStride, h0]
      rw [hs, one_mul]
      have : (Mapping.dense s).strides.drop t = denseStrides (s.dims.drop t) := by
        change (denseStrides s.dims).drop t = _
        apply List.ext_getElem?
        intro n
        rw [List.getElem?_drop, Mapping.getElem?_denseStrides, Mapping.getElem?_denseStrides]
        rw [List.length_drop, List.drop_drop]
        by_cases hl : t + n < s.dims.length
        · rw [if_pos hl, if_pos (by omega)]; rfl
        · rw [if_neg hl, if_neg (by omega)]
      rw [this]
      change dot (denseStrides (s.dims.drop t)) (unrank (s.dims.drop t) c) = _
      rw [dot_denseStrides (by simp), rowMajor_unrank hc]
  | strided s st =>
    by_cases hr : s.dims.length = t
    · exact hz hr
    · change t ≤ s.dims.length at ht
      have hpos : 0 < s.dims.length := by omega
      have := hi 1 (by simp [mapInnerRank, Mapping.isDense, Mapping.rank, Shape.rank, Mapping.shape, hpos])
      change s.dims.length - t ≤ 1 at this
      have hl : st.length = s.dims.length := hm.len
      have ht' : t = s.dims.length - 1 := by omega
      have e1 : s.dims.drop t = [s.dims[t]'(by omega)] := by
        rw [List.drop_eq_getElem_cons (by omega), List.drop_eq_nil_of_le (by omega)]
      have e2 : st.drop t = [st[t]'(by omega)] := by
        rw [List.drop_eq_getElem_cons (by omega), List.drop_eq_nil_of_le (by omega)]
      change dot (st.drop t) (unrank (s.dims.drop t) c) = _
      rw [e1, e2]
      have hst : (Mapping.strided s st).innerStride = st[t]'(by omega) := by
        simp only [Mapping.innerStride, Shape.rank, hpos, if_true, ← ht']
        rw [List.getD_eq_getElem?_getD, List.getElem?_eq_getElem (by omega)]; rfl
      rw [hst]
      simp [unrank]

/-- The elements of a mapping iterated within the dimensions `D` at outer position `pos`. -/
theorem own_dot {m : Mapping} (hm : m.WF) {D pos : List Nat} {O c : Nat}
    (hs : m.dims = D.drop (D.length - m.dims.length))
    (hi : ∀ k, mapInnerRank m = some k → D.length - O ≤ k)
    (hO : O ≤ D.length) (hp : pos.length = O) (hc : c < size (D.drop O)) :
    dot m.strides ((pos ++ unrank (D.drop O) c).drop (D.length - m.dims.length)) =
      dot m.strides (pos.drop (D.length - m.dims.length)) + m.innerStride * (c : Int) := by
  by_cases hr : m.dims = []
  · have e1 : (pos ++ unrank (D.drop O) c).drop (D.length - m.dims.length) = [] := by
      apply List.drop_eq_nil_of_le; rw [hr]; simp; omega
    have e2 : pos.drop (D.length - m.dims.length) = [] := by
      apply List.drop_eq_nil_of_le; rw [hr]; simp; omega
    rw [e1, e2, dot_nil_right, zero_add]
    cases m with
    | dense s =>
      by_cases h0 : s.ty.rank? = some 0
      · simp [Mapping.innerStride, h0]
      · change s.dims = [] at hr
        have := hi 0 (by simp [mapInnerRank, Mapping.isDense, Mapping.shape, h0, Mapping.rank, Shape.rank, hr])
        have e : D.drop O = [] := List.drop_eq_nil_of_le (by omega)
        rw [e] at hc
        have : c = 0 := by simpa using hc
        subst this; simp
    | strided s st =>
      change s.dims = [] at hr
      simp [Mapping.innerStride, Shape.rank, hr]
  have hle : m.dims.length ≤ D.length := by
    have := congrArg List.length hs; rw [List.length_drop] at this; omega
  have hpos : 0 < m.dims.length := List.length_pos_of_ne_nil hr
  -- the inner dimensions belong to the mapping
  have hk : D.length - O ≤ m.dims.length := by
    cases m with
    | dense s =>
      by_cases h0 : s.ty.rank? = some 0
      · exfalso
        have hw := hm.1
        change s.ty.Conforms s.dims at hw
        change 0 < s.dims.length at hpos
        cases hty : s.ty with
        | dynRank => simp [hty, ShapeTy.rank?] at h0
        | static ds =>
          simp only [hty, ShapeTy.rank?, Option.some.injEq, List.length_eq_zero_iff] at h0
          subst h0
          rw [hty] at hw
          cases hd : s.dims with
          | nil => rw [hd] at hpos; simp at hpos
          | cons d ds => rw [hd] at hw; simp at hw
      · exact hi _ (by simp [mapInnerRank, Mapping.isDense, Mapping.shape, h0])
    | strided s st =>
      have := hi 1 (by
        change 0 < s.dims.length at hpos
        simp [mapInnerRank, Mapping.isDense, Mapping.rank, Shape.rank, Mapping.shape, hpos])
      omega
  have hle2 : D.length - m.dims.length ≤ pos.length := by omega
  rw [drop_append_le _ _ hle2]
  generalize hq : pos.drop (D.length - m.dims.length) = q
  have hql : q.length = m.dims.length - (D.length - O) := by rw [← hq, List.length_drop]; omega
  have hD : D.drop O = m.dims.drop q.length := by
    conv_rhs => rw [hs]
    rw [List.drop_drop, hql]; congr 1; omega
  have hidot := inner_dot hm (t := q.length) (c := c) (by omega)
    (fun k hk' => by have := hi k hk'; omega) (hD ▸ hc)
  rw [hD]
  have hsl := hm.len
  conv_lhs => rw [← List.take_append_drop q.length m.strides]
  rw [dot_append (by rw [List.length_take]; omega), hidot]
  congr 1
  have h2 : dot (m.strides.take q.length ++ m.strides.drop q.length) (q ++ []) = dot m.strides q := by
    rw [List.take_append_drop, List.append_nil]
  rw [dot_append (by rw [List.length_take]; omega), dot_nil_right] at h2
  omega

theorem modify_last (q : List Nat) (c : Nat) :
    (q ++ [0]).modify q.length (· + c) = q ++ [c] := by
  induction q with
  | nil => simp
  | cons x q ih => simp [ih]

theorem ownIdx_get {D pos : List Nat} {r O c : Nat} (hr : r ≤ D.length) (hpos : 0 < r)
    (hi : D.length - O ≤ 1) (hO : O ≤ D.length) (hp : pos.length = O) (hc : c < size (D.drop O)) :
    (pos ++ unrank (D.drop O) c).drop (D.length - r) = ownIdx r (pos.drop (D.length - r)) c ∧
    ownIdx r (pos.drop (D.length - r)) (c + 1) =
      (ownIdx r (pos.drop (D.length - r)) c).set (r - 1)
        ((ownIdx r (pos.drop (D.length - r)) c).getD (r - 1) 0 + 1) := by
  have hlen : ∀ p : List Nat, ∀ k, p.length ≤ r → (ownIdx r p k).length = r := by
    intro p k h; simp [ownIdx]; omega
  have hpl : (pos.drop (D.length - r)).length ≤ r := by rw [List.length_drop]; omega
  constructor
  · by_cases h : O = D.length
    · have e : D.drop O = [] := List.drop_eq_nil_of_le (by omega)
      rw [e] at hc ⊢
      have : c = 0 := by simpa using hc
      subst this
      have e2 : r - (pos.drop (D.length - r)).length = 0 := by rw [List.length_drop]; omega
      simp only [unrank, List.append_nil, ownIdx, e2, List.replicate_zero]
      apply List.ext_getElem?; intro n
      rw [List.getElem?_modify]; simp
    · have e : D.drop O = [D[O]'(by omega)] := by
        rw [List.drop_eq_getElem_cons (by omega), List.drop_eq_nil_of_le (by omega)]
      rw [e]
      rw [drop_append_le _ _ (by omega)]
      have e2 : r - (pos.drop (D.length - r)).length = 1 := by rw [List.length_drop]; omega
      generalize pos.drop (D.length - r) = q at *
      have e3 : r - 1 = q.length := by omega
      simp only [unrank, ownIdx, e2, e3, size_nil, Nat.div_one, List.replicate_one, modify_last]
  · apply List.ext_getElem?; intro n
    have hL : ∀ k, (ownIdx r (pos.drop (D.length - r)) k).length = r := fun k => hlen _ _ hpl
    rw [List.getElem?_set, hL]
    by_cases hn : r - 1 = n
    · subst hn
      rw [if_pos rfl, if_pos (by omega)]
      rw [List.getD_eq_getElem?_getD]
      simp only [ownIdx, List.getElem?_modify, if_true]
      have : r - 1 < (pos.drop (D.length - r) ++ List.replicate (r - (pos.drop (D.length - r)).length) 0).length := by
        rw [List.length_append, List.length_replicate]; omega
      rw [List.getElem?_eq_getElem this]
      simp [Nat.add_assoc]
    · rw [if_neg hn]
      simp [ownIdx, List.getElem?_modify, hn]

theorem get_adv {e : Expr σ α} (hw : e.Wf) {D pos : List Nat} {O c : Nat} (hf : Fit e D O)
    (hR : Regular e D.length O) (hO : O ≤ D.length) (hp : Valid (D.take O) pos)
    (hc : c < size (D.drop O)) :
    (adv D.length pos c (rowMajor D (pos ++ unrank (D.drop O) c)) e).get c =
      M.bind (item e (rowMajor D (pos ++ unrank (D.drop O) c))
        ((pos ++ unrank (D.drop O) c).drop (D.length - e.dims.length)))
      fun x => M.pure (x, adv D.length pos (c + 1)
        (rowMajor D (pos ++ unrank (D.drop O) c) + 1) e) := by
  have hpl : pos.length = O := by rw [hp.length, List.length_take]; omega
  have hJ : Valid D (pos ++ unrank (D.drop O) c) := by
    conv_lhs => rw [← List.take_append_drop O D]
    exact (valid_append hp.length).2 ⟨hp, unrank_valid hc⟩
  have hJd : Valid e.dims ((pos ++ unrank (D.drop O) c).drop (D.length - e.dims.length)) := by
    have := hJ.drop (D.length - e.dims.length)
    rwa [← hf.suffix] at this
  generalize hn : rowMajor D (pos ++ unrank (D.drop O) c) = n
  induction e with
  | view r v =>
    have hd := own_dot (m := v.map) hw hf.suffix hf.inner hO hpl hc
    simp only [adv, get, item]
    rw [View.index_eq v hw, if_pos (show Valid v.dims _ from hJd)]
    simp only [orUb, M.pure_bind]
    change M.pure (v.ptr + dot v.map.strides (pos.drop (D.length - v.map.dims.length)) +
      v.map.innerStride * (c : Int), _) = M.pure (v.ptr + dot v.map.strides
        ((pos ++ unrank (D.drop O) c).drop (D.length - v.map.dims.length)), _)
    rw [hd, Int.add_assoc]
  | axis r v a m off =>
    obtain ⟨hv, hm, -⟩ := hw
    obtain ⟨p, hp1, hp2, hmd, -, hin, hmw⟩ := axis_dims hv hm
    have hi : D.length - O ≤ 1 := hf.inner 1 rfl
    have hlen : (axis r v a m off : Expr σ View).dims.length = 1 := by
      change m.dims.length = 1; rw [hmd]; rfl
    have hge : 1 ≤ D.length := hlen ▸ hf.le
    have hk : ((pos ++ unrank (D.drop O) c).drop (D.length - 1)).getD 0 0 =
        (pos.drop (D.length - 1)).getD 0 0 + c := by
      by_cases h : O = D.length
      · have e : D.drop O = [] := List.drop_eq_nil_of_le (by omega)
        rw [e] at hc ⊢
        have : c = 0 := by simpa using hc
        subst this
        simp [unrank]
      · have e : D.drop O = [D[O]'(by omega)] := by
          rw [List.drop_eq_getElem_cons (by omega), List.drop_eq_nil_of_le (by omega)]
        rw [e, drop_append_le _ _ (by omega)]
        have : pos.drop (D.length - 1) = [] := List.drop_eq_nil_of_le (by omega)
        rw [this]; simp [unrank]
    rw [hlen] at hJd ⊢
    generalize (pos ++ unrank (D.drop O) c).drop (D.length - 1) = J at *
    have hJ' : J.getD 0 0 < v.dims.getD p 0 := by
      have hJd' : Valid m.dims J := hJd
      rw [hmd] at hJd'
      obtain ⟨i, is, rfl, hi', -⟩ := valid_cons'.1 hJd'
      exact hi'
    simp only [adv, get, item]
    rw [View.axisAt_eq v hv, hp1, Option.bind_some, if_pos hJ', Axis.removeMap_eq a _ hv,
      show axisPos a v.map.dims.length = some p from hp1]
    have hno := hR p hp1 (Nat.lt_of_le_of_lt (Nat.zero_le _) hJ')
    have hcl : ((Mapping.mk (a.remove v.map.shape.ty) (v.map.dims.eraseIdx p)
        (v.map.strides.eraseIdx p) (a.split v.map.shape.ty v.map.layout))).shape.checkedLen =
        some (size (v.dims.eraseIdx p)) := by
      rw [Shape.checkedLen_eq, Mapping.mk_shape]
      exact if_pos hno
    simp only [Option.bind_eq_bind, Option.bind_some, hcl, Option.pure_def, M.lift_some,
      M.pure_bind, orUb, hin, hk]
    congr 3
    by_cases h0 : size (v.dims.eraseIdx p) = 0
    · rw [if_pos h0, if_pos h0]
    · rw [if_neg h0, if_neg h0]
      push_cast
      rw [Int.mul_add]
  | lanes r v a m off =>
    obtain ⟨hv, hm, -⟩ := hw
    obtain ⟨p, hp1, hp2, hmd, hms, hmw⟩ := lanes_dims hv hm
    have hd := own_dot (m := m) hmw hf.suffix hf.inner hO hpl hc
    have hnil : pos.drop (D.length - m.dims.length) = [] :=
      List.drop_eq_nil_of_le (by rw [hpl]; exact hR)
    rw [hnil, dot_nil_right, zero_add] at hd
    replace hJd : Valid m.dims ((pos ++ unrank (D.drop O) c).drop (D.length - m.dims.length)) := hJd
    simp only [adv, get, item, hnil]
    change _ = (orUb (laneAt v a ((pos ++ unrank (D.drop O) c).drop (D.length - m.dims.length)))).bind _
    generalize (pos ++ unrank (D.drop O) c).drop (D.length - m.dims.length) = J at *
    rw [Axis.get_eq a _ hv, show axisPos a v.map.dims.length = some p from hp1]
    simp only [laneAt, Axis.get_eq a _ hv, hp1,
      Option.bind_eq_bind, Option.bind_some, Option.pure_def]
    have hem : (Mapping.mk (.static [a.dimTy v.map.shape.ty]) [v.map.dims.getD p 0]
        [v.map.strides.getD p 0] (a.keep v.map.shape.ty v.map.layout)).isEmpty = true ↔
        v.dims.getD p 0 = 0 := by
      rw [Mapping.isEmpty_iff, Mapping.mk_dims, size_cons, size_nil, Nat.mul_one]
    by_cases h0 : v.dims.getD p 0 = 0
    · rw [if_pos h0, if_pos (hem.2 h0)]
      simp [orUb]
    · rw [if_neg h0, if_neg (fun h => h0 (hem.1 h))]
      have hgd : v.dims.getD p 0 = v.dims[p] := by
        rw [List.getD_eq_getElem?_getD, List.getElem?_eq_getElem hp2]; rfl
      have hva : Valid v.dims (J.insertIdx p 0) :=
        (valid_insertIdx hp2).2 ⟨by omega, hmd ▸ hJd⟩
      have hJl : p ≤ J.length := by
        rw [hJd.length, hmd, List.length_eraseIdx, if_pos hp2]; omega
      rw [View.index_eq v hv, if_pos hva, dot_insertIdx (by rw [hv.len]; exact hp2) hJl, ← hms, hd]
      simp [orUb]
  | fill f => simp [adv, get, item]
  | fromElem s f => simp [adv, get, item]
  | fromFn s idx f =>
    have hle : s.dims.length ≤ D.length := hf.le
    simp only [adv, get, item]
    change _ = M.bind (f ((pos ++ unrank (D.drop O) c).drop (D.length - s.dims.length))) _
    by_cases h0 : 0 < s.dims.length
    · have hi : D.length - O ≤ 1 := hf.inner 1 (by simp only [innerRank]; exact if_pos h0)
      obtain ⟨h1, h2⟩ := ownIdx_get hle h0 hi hO hpl hc
      rw [h1, h2]
      congr 1
      funext x
      rw [if_pos h0]
      have : s.dims.length - 1 < (ownIdx s.dims.length (pos.drop (D.length - s.dims.length)) c).length := by
        simp [ownIdx]; omega
      rw [List.getD_eq_getElem?_getD, List.getElem?_eq_getElem this]; rfl
    · have hz : s.dims.length = 0 := by omega
      have e1 : (pos ++ unrank (D.drop O) c).drop (D.length - s.dims.length) = [] := by
        apply List.drop_eq_nil_of_le; rw [hz]; simp; omega
      have e2 : pos.drop (D.length - s.dims.length) = [] := by
        apply List.drop_eq_nil_of_le; rw [hz]; omega
      have e3 : ∀ k, ownIdx s.dims.length (pos.drop (D.length - s.dims.length)) k = [] := by
        intro k; rw [e2, hz]; rfl
      rw [e1, e3, e3]
      simp [hz]
  | intoExpr s buf idx =>
    obtain ⟨hs, hb, -⟩ := hw
    have hd : s.dims = D := hf.rep rfl
    simp only [adv, get, item, hd]
    have : (intoExpr s buf idx : Expr σ _).dims = D := hd
    rw [this, Nat.sub_self, List.drop_zero, hn]
    have : n < buf.length := by rw [hb, hd, ← hn]; exact rowMajor_lt hJ
    rw [List.getElem?_eq_getElem this]
    simp [orUb]
  | map e f ih =>
    have := ih hw ⟨hf.suffix, hf.inner, hf.rep⟩ hR hJd
    simp only [adv, get, item, this, M.bind_assoc, M.pure_bind]
    rfl
  | enumerate e k ih =>
    have := ih hw.1 ⟨hf.suffix, hf.inner, hf.rep⟩ hR hJd
    simp only [adv, get, item, this, M.bind_assoc, M.pure_bind]
    rfl
  | zip a b s iha ihb =>
    obtain ⟨ha, hb, hz⟩ := hw
    obtain ⟨fa, fb⟩ := hf.zip hz
    obtain ⟨-, sa, sb, -, -⟩ := zipShape_spec hz
    have hle : s.dims.length ≤ D.length := hf.le
    have la : a.dims.length ≤ s.dims.length := by
      have := congrArg List.length sa; rw [List.length_drop] at this; omega
    have lb : b.dims.length ≤ s.dims.length := by
      have := congrArg List.length sb; rw [List.length_drop] at this; omega
    have va := hJ.drop (D.length - a.dims.length)
    rw [← fa.suffix] at va
    have vb := hJ.drop (D.length - b.dims.length)
    rw [← fb.suffix] at vb
    have ea := iha ha fa hR.1 va
    have eb := ihb hb fb hR.2 vb
    have hd : (Expr.zip a b s).dims = s.dims := rfl
    simp only [adv, get, item, ea, eb, M.bind_assoc, M.pure_bind]
    rw [hd, List.drop_drop, List.drop_drop,
      show D.length - s.dims.length + (s.dims.length - a.dims.length) = D.length - a.dims.length by omega,
      show D.length - s.dims.length + (s.dims.length - b.dims.length) = D.length - b.dims.length by omega]

theorem adv_init {e : Expr σ α} (hw : e.Wf) {R O R' O' : Nat} (hR : Regular e R' O') (hO : O ≤ R)
    (hr : e.dims.length ≤ R) : adv R (List.replicate O 0) 0 0 e = e := by
  induction e with
  | view r v => simp [adv, dot_zeros]
  | axis r v a m off =>
    obtain ⟨-, -, rfl⟩ := hw
    simp only [adv, List.drop_replicate]
    cases O - (R - 1) <;> simp [List.replicate_succ]
  | lanes r v a m off =>
    obtain ⟨-, -, rfl⟩ := hw
    simp [adv, dot_zeros]
  | fill f => rfl
  | fromElem s f => rfl
  | fromFn s idx f =>
    obtain ⟨hs, rfl⟩ := hw
    simp only [adv, ownIdx, List.drop_replicate]
    congr 1
    have hz : ∀ (k : Nat) (l : List Nat), l.modify k (· + 0) = l := by
      intro k l; apply List.ext_getElem?; intro n
      rw [List.getElem?_modify]; simp
    rw [hz, List.length_replicate, ← List.replicate_add]
    cases hty : s.ty with
    | static ds =>
      have hl : ds.length = s.dims.length := by
        have hs' : s.ty.Conforms s.dims := hs
        rw [hty] at hs'
        exact ShapeTy.conforms_static_length hs'
      have hle : s.dims.length ≤ R := hr
      simp only [dimsDefault, List.map_const', hl]
      congr 1; omega
    | dynRank =>
      have hd := hR hty
      simp [dimsDefault, hd]; omega
  | intoExpr s buf idx =>
    obtain ⟨-, -, rfl⟩ := hw
    rfl
  | map e f ih => simp only [adv]; rw [ih hw hR hr]
  | enumerate e k ih =>
    obtain ⟨hw, rfl⟩ := hw
    simp only [adv]; rw [ih hw hR hr]
  | zip a b s iha ihb =>
    obtain ⟨ha, hb, hz⟩ := hw
    obtain ⟨-, sa, sb, -, -⟩ := zipShape_spec hz
    have hle : s.dims.length ≤ R := hr
    have la : a.dims.length ≤ s.dims.length := by
      have := congrArg List.length sa; rw [List.length_drop] at this; omega
    have lb : b.dims.length ≤ s.dims.length := by
      have := congrArg List.length sb; rw [List.length_drop] at this; omega
    simp only [adv]; rw [iha ha hR.1 (by omega), ihb hb hR.2 (by omega)]

theorem dot_drop_modify {st : List Int} {pos : List Nat} {i R : Nat} (hi : i < pos.length)
    (hl : st.length ≤ R) (hR : i < R) (hc : R - st.length ≤ i) :
    dot st ((pos.modify i (· + 1)).drop (R - st.length)) =
      dot st (pos.drop (R - st.length)) + st[i - (R - st.length)]'(by omega) := by
  rw [drop_modify, if_pos hc, dot_modify (by omega) (by rw [List.length_drop]; omega)]
  push_cast; ring

theorem dot_drop_set {st : List Int} {pos : List Nat} {i R : Nat}
    (hl : st.length ≤ R) (hR : i < R) (hc : R - st.length ≤ i) :
    dot st ((pos.set i 0).drop (R - st.length)) =
      dot st (pos.drop (R - st.length)) -
        st[i - (R - st.length)]'(by omega) * ((pos.getD i 0 : Nat) : Int) := by
  by_cases hi : i < pos.length
  · have h1 : i - (R - st.length) < (pos.drop (R - st.length)).length := by
      rw [List.length_drop]; omega
    rw [drop_set, if_pos hc, dot_set _ _ _ _ h1 (by omega)]
    have : (pos.drop (R - st.length))[i - (R - st.length)] = pos.getD i 0 := by
      rw [List.getElem_drop, List.getD_eq_getElem?_getD, List.getElem?_eq_getElem hi]
      simp only [Option.getD_some]
      congr 1; omega
    rw [this]; push_cast; ring
  · rw [List.set_eq_of_length_le (by omega), List.getD_eq_getElem?_getD,
      List.getElem?_eq_none (by omega)]
    simp

theorem ownIdx_length {r : Nat} {p : List Nat} {c : Nat} (h : p.length ≤ r) :
    (ownIdx r p c).length = r := by
  simp [ownIdx]; omega

theorem ownIdx_getElem? {r : Nat} {p : List Nat} {c n : Nat} (h : p.length ≤ r) :
    (ownIdx r p c)[n]? =
      if n < r then some (p.getD n 0 + if n = r - 1 then c else 0) else none := by
  unfold ownIdx
  rw [List.getElem?_modify, List.getElem?_append, List.getElem?_replicate]
  have e : (r - 1 = n) = (n = r - 1) := by apply propext; exact eq_comm
  simp only [e]
  by_cases hn : n < r
  · rw [if_pos hn]
    by_cases hp : n < p.length
    · rw [if_pos hp]
      simp [hp, List.getD_eq_getElem?_getD]
      split <;> rfl
    · rw [if_neg hp, if_pos (by omega)]
      have : p.getD n 0 = 0 := by rw [List.getD_eq_getElem?_getD, List.getElem?_eq_none (by omega)]; rfl
      rw [this]; simp
  · rw [if_neg hn, if_neg (by omega), if_neg (by omega)]
    rfl

theorem step_adv {e : Expr σ α} (hw : e.Wf) {D pos : List Nat} {O c n i : Nat} (hf : Fit e D O)
    (hO : O ≤ D.length) (hp : pos.length = O) (hi : i < O)
    (hc : (i + 1 < D.length ∧ c = 0) ∨ (i + 1 = D.length ∧ c = 1)) :
    (if D.length - e.dims.length ≤ i then
      (adv D.length pos c n e).stepDim (i - (D.length - e.dims.length))
      else some (adv D.length pos c n e)) =
    some (adv D.length (pos.modify i (· + 1)) 0 n e) := by
  induction e with
  | view r v =>
    have hl : v.map.strides.length = v.dims.length := hw.len
    have hle : v.dims.length ≤ D.length := hf.le
    rw [show (view r v : Expr σ Int).dims = v.dims from rfl]
    by_cases h : D.length - v.dims.length ≤ i
    · rw [if_pos h]
      simp only [adv, stepDim, Mapping.stride_eq _ hw, ← hl]
      rw [List.getElem?_eq_getElem (by omega), dot_drop_modify (by omega) (by omega) (by omega) (by omega)]
      simp [Int.add_assoc, hl]
    · rw [if_neg h]
      simp only [adv, drop_modify, if_neg h]
  | axis r v a m off =>
    obtain ⟨p, hp1, hp2, hmd, -, hin, hmw⟩ := axis_dims hw.1 hw.2.1
    have hlen : (axis r v a m off : Expr σ View).dims.length = 1 := by
      change m.dims.length = 1; rw [hmd]; rfl
    have hge : 1 ≤ D.length := hlen ▸ hf.le
    rw [hlen]
    by_cases h : D.length - 1 ≤ i
    · have : i = D.length - 1 := by omega
      subst this
      rw [if_pos h]
      simp only [adv, stepDim, drop_modify, le_refl, if_true, Nat.sub_self]
      have : pos.drop (D.length - 1) = [pos[D.length - 1]'(by omega)] := by
        rw [List.drop_eq_getElem_cons (by omega), List.drop_eq_nil_of_le (by omega)]
      rw [this]
      simp [Int.mul_add]
    · rw [if_neg h]
      simp only [adv, drop_modify, if_neg h]
  | lanes r v a m off =>
    obtain ⟨p, hp1, hp2, hmd, hms, hmw⟩ := lanes_dims hw.1 hw.2.1
    have hl : m.strides.length = m.dims.length := hmw.len
    have hle : m.dims.length ≤ D.length := hf.le
    rw [show (lanes r v a m off : Expr σ View).dims = m.dims from rfl]
    by_cases h : D.length - m.dims.length ≤ i
    · rw [if_pos h]
      simp only [adv, stepDim, Mapping.stride_eq _ hmw, ← hl]
      rw [dot_drop_modify (by omega) (by omega) (by omega) (by omega)]
      rw [List.getElem?_eq_getElem (by omega)]
      simp
    · rw [if_neg h]
      simp only [adv, drop_modify, if_neg h]
  | fill f => simp [adv, stepDim]
  | fromElem s f => simp [adv, stepDim]
  | fromFn s idx f =>
    have hle : s.dims.length ≤ D.length := hf.le
    rw [show (fromFn s idx f : Expr σ _).dims = s.dims from rfl]
    have hpl : (pos.drop (D.length - s.dims.length)).length ≤ s.dims.length := by
      rw [List.length_drop]; omega
    by_cases h : D.length - s.dims.length ≤ i
    · rw [if_pos h]
      simp only [adv, stepDim, drop_modify, if_pos h]
      generalize hq : pos.drop (D.length - s.dims.length) = q at *
      have hql : i - (D.length - s.dims.length) < q.length := by
        rw [← hq, List.length_drop]; omega
      have hml : ∀ g : Nat → Nat, (q.modify (i - (D.length - s.dims.length)) g).length ≤ s.dims.length := by
        intro g; rw [List.length_modify]; exact hpl
      rcases hc with ⟨h1, rfl⟩ | ⟨h1, rfl⟩
      · rw [if_pos (by omega), ownIdx_getElem? hpl, if_pos (by omega)]
        simp only
        congr 2
        apply List.ext_getElem?; intro k
        rw [List.getElem?_set, ownIdx_length hpl, ownIdx_getElem? hpl, ownIdx_getElem? (hml _)]
        by_cases hk : i - (D.length - s.dims.length) = k
        · subst hk
          have hlt : i - (D.length - s.dims.length) < s.dims.length := by omega
          simp [List.getD_eq_getElem?_getD, hql, hlt]
        · rw [if_neg hk]
          simp [List.getD_eq_getElem?_getD, hk]
      · rw [if_neg (by omega)]
        congr 2
        apply List.ext_getElem?; intro k
        rw [ownIdx_getElem? hpl, ownIdx_getElem? (hml _)]
        by_cases hk : k < s.dims.length
        · rw [if_pos hk, if_pos hk]
          by_cases hk' : i - (D.length - s.dims.length) = k
          · have : k = s.dims.length - 1 := by omega
            simp [List.getD_eq_getElem?_getD, hk', this.symm, List.getElem?_eq_getElem (hk' ▸ hql)]
          · have : k ≠ s.dims.length - 1 := by omega
            simp [List.getD_eq_getElem?_getD, hk', this]
        · rw [if_neg hk, if_neg hk]
    · rw [if_neg h]
      simp only [adv, drop_modify, if_neg h]
      rcases hc with ⟨h1, rfl⟩ | ⟨h1, rfl⟩
      · rfl
      · have h0 : s.dims.length = 0 := by omega
        have e : pos.drop (D.length - s.dims.length) = [] := List.drop_eq_nil_of_le (by omega)
        rw [e, h0]; rfl
  | intoExpr s buf idx => simp [adv, stepDim]
  | map e f ih =>
    have := ih hw ⟨hf.suffix, hf.inner, hf.rep⟩
    simp only [adv, stepDim]
    change (if D.length - e.dims.length ≤ i then Option.map _ (stepDim _ (i - (D.length - e.dims.length))) else _) = _
    split at this
    · rename_i h; rw [if_pos h, this]; rfl
    · rename_i h; rw [if_neg h]; injection this with this; rw [this]
  | enumerate e k ih =>
    have := ih hw.1 ⟨hf.suffix, hf.inner, hf.rep⟩
    simp only [adv, stepDim]
    change (if D.length - e.dims.length ≤ i then Option.map _ (stepDim _ (i - (D.length - e.dims.length))) else _) = _
    split at this
    · rename_i h; rw [if_pos h, this]; rfl
    · rename_i h; rw [if_neg h]; injection this with this; rw [this]
  | zip a b s iha ihb =>
    obtain ⟨ha, hb, hz⟩ := hw
    obtain ⟨fa, fb⟩ := hf.zip hz
    have ea := iha ha fa
    have eb := ihb hb fb
    have la := fa.le
    have lb := fb.le
    obtain ⟨-, sa, sb, -, -⟩ := zipShape_spec hz
    have hle : s.dims.length ≤ D.length := hf.le
    have la' : a.dims.length ≤ s.dims.length := by
      have := congrArg List.length sa; rw [List.length_drop] at this; omega
    have lb' : b.dims.length ≤ s.dims.length := by
      have := congrArg List.length sb; rw [List.length_drop] at this; omega
    rw [show (Expr.zip a b s).dims = s.dims from rfl]
    by_cases h : D.length - s.dims.length ≤ i
    · rw [if_pos h]
      have hda : (adv D.length pos c n a).rank = a.dims.length := by simp [rank]
      have hdb : (adv D.length pos c n b).rank = b.dims.length := by simp [rank]
      simp only [adv]
      change (Option.bind (if s.dims.length - (i - (D.length - s.dims.length)) ≤ _ then _ else _) _) = _
      rw [hda, hdb]
      have ca : (s.dims.length - (i - (D.length - s.dims.length)) ≤ a.dims.length) ↔
          D.length - a.dims.length ≤ i := by omega
      have cb : (s.dims.length - (i - (D.length - s.dims.length)) ≤ b.dims.length) ↔
          D.length - b.dims.length ≤ i := by omega
      have ea' : (if s.dims.length - (i - (D.length - s.dims.length)) ≤ a.dims.length then
          (adv D.length pos c n a).stepDim
            (a.dims.length - (s.dims.length - (i - (D.length - s.dims.length))))
          else some (adv D.length pos c n a)) = some (adv D.length (pos.modify i (· + 1)) 0 n a) := by
        rw [← ea]
        by_cases hh : D.length - a.dims.length ≤ i
        · rw [if_pos hh, if_pos (ca.2 hh)]; congr 1; omega
        · rw [if_neg hh, if_neg (fun x => hh (ca.1 x))]
      have eb' : (if s.dims.length - (i - (D.length - s.dims.length)) ≤ b.dims.length then
          (adv D.length pos c n b).stepDim
            (b.dims.length - (s.dims.length - (i - (D.length - s.dims.length))))
          else some (adv D.length pos c n b)) = some (adv D.length (pos.modify i (· + 1)) 0 n b) := by
        rw [← eb]
        by_cases hh : D.length - b.dims.length ≤ i
        · rw [if_pos hh, if_pos (cb.2 hh)]; congr 1; omega
        · rw [if_neg hh, if_neg (fun x => hh (cb.1 x))]
      rw [ea', eb']; rfl
    · rw [if_neg h]
      rw [if_neg (by omega)] at ea eb
      injection ea with ea
      injection eb with eb
      simp only [adv, ea, eb]

theorem reset_adv {e : Expr σ α} (hw : e.Wf) {D pos : List Nat} {O c n i : Nat} (hf : Fit e D O)
    (hO : O ≤ D.length) (hp : pos.length = O)
    (hc : (i + 1 < D.length ∧ i < O ∧ c = 0) ∨ i + 1 = D.length) :
    (if D.length - e.dims.length ≤ i then
      (adv D.length pos c n e).resetDim (i - (D.length - e.dims.length)) (pos.getD i 0)
      else some (adv D.length pos c n e)) =
    some (adv D.length (pos.set i 0) 0 n e) := by
  induction e with
  | view r v =>
    have hl : v.map.strides.length = v.dims.length := hw.len
    have hle : v.dims.length ≤ D.length := hf.le
    rw [show (view r v : Expr σ Int).dims = v.dims from rfl]
    by_cases h : D.length - v.dims.length ≤ i
    · rw [if_pos h]
      simp only [adv, resetDim, Mapping.stride_eq _ hw, ← hl]
      rw [List.getElem?_eq_getElem (by omega), dot_drop_set (by omega) (by omega) (by omega)]
      simp only [Option.map_some, Option.some.injEq, view.injEq, View.mk.injEq, and_true, true_and]
      ring
    · rw [if_neg h]
      simp only [adv, drop_set, if_neg h]
  | axis r v a m off =>
    obtain ⟨p, hp1, hp2, hmd, -, hin, hmw⟩ := axis_dims hw.1 hw.2.1
    have hlen : (axis r v a m off : Expr σ View).dims.length = 1 := by
      change m.dims.length = 1; rw [hmd]; rfl
    have hge : 1 ≤ D.length := hlen ▸ hf.le
    rw [hlen]
    by_cases h : D.length - 1 ≤ i
    · have : i = D.length - 1 := by omega
      subst this
      rw [if_pos h]
      simp only [adv, resetDim, drop_set, le_refl, if_true, Nat.sub_self]
      have : ((pos.drop (D.length - 1)).set 0 0).getD 0 0 = 0 := by
        cases pos.drop (D.length - 1) <;> simp
      rw [this]; simp
    · rw [if_neg h]
      simp only [adv, drop_set, if_neg h]
  | lanes r v a m off =>
    obtain ⟨p, hp1, hp2, hmd, hms, hmw⟩ := lanes_dims hw.1 hw.2.1
    have hl : m.strides.length = m.dims.length := hmw.len
    have hle : m.dims.length ≤ D.length := hf.le
    rw [show (lanes r v a m off : Expr σ View).dims = m.dims from rfl]
    by_cases h : D.length - m.dims.length ≤ i
    · rw [if_pos h]
      simp only [adv, resetDim, Mapping.stride_eq _ hmw, ← hl]
      rw [dot_drop_set (by omega) (by omega) (by omega)]
      rw [List.getElem?_eq_getElem (by omega)]
      simp
    · rw [if_neg h]
      simp only [adv, drop_set, if_neg h]
  | fill f => simp [adv, resetDim]
  | fromElem s f => simp [adv, resetDim]
  | fromFn s idx f =>
    have hle : s.dims.length ≤ D.length := hf.le
    rw [show (fromFn s idx f : Expr σ _).dims = s.dims from rfl]
    have hpl : (pos.drop (D.length - s.dims.length)).length ≤ s.dims.length := by
      rw [List.length_drop]; omega
    by_cases h : D.length - s.dims.length ≤ i
    · rw [if_pos h]
      simp only [adv, resetDim, drop_set, if_pos h]
      generalize hq : pos.drop (D.length - s.dims.length) = q at *
      have hml : (q.set (i - (D.length - s.dims.length)) 0).length ≤ s.dims.length := by
        rw [List.length_set]; exact hpl
      have hlt : i - (D.length - s.dims.length) < s.dims.length := by omega
      rw [ownIdx_length hpl, if_pos hlt]
      congr 2
      apply List.ext_getElem?; intro k
      rw [List.getElem?_set, ownIdx_length hpl, ownIdx_getElem? hpl, ownIdx_getElem? hml]
      by_cases hk : i - (D.length - s.dims.length) = k
      · subst hk
        simp only [if_true, hlt]
        congr 1
        rw [List.getD_eq_getElem?_getD, List.getElem?_set]
        by_cases hk2 : i - (D.length - s.dims.length) < q.length
        · simp [hk2]
        · simp [hk2]
      · rw [if_neg hk, List.getD_eq_getElem?_getD, List.getD_eq_getElem?_getD, List.getElem?_set,
          if_neg hk]
        by_cases hk2 : k < s.dims.length
        · rw [if_pos hk2, if_pos hk2]
          rcases hc with ⟨h1, h2, rfl⟩ | h1
          · rfl
          · have : k ≠ s.dims.length - 1 := by omega
            simp [this]
        · rw [if_neg hk2, if_neg hk2]
    · rw [if_neg h]
      simp only [adv, drop_set, if_neg h]
      rcases hc with ⟨h1, -, rfl⟩ | h1
      · rfl
      · have h0 : s.dims.length = 0 := by omega
        have e : pos.drop (D.length - s.dims.length) = [] := List.drop_eq_nil_of_le (by omega)
        rw [e, h0]; rfl
  | intoExpr s buf idx => simp [adv, resetDim]
  | map e f ih =>
    have := ih hw ⟨hf.suffix, hf.inner, hf.rep⟩
    simp only [adv, resetDim]
    change (if D.length - e.dims.length ≤ i then Option.map _ (resetDim _ (i - (D.length - e.dims.length)) _) else _) = _
    split at this
    · rename_i h; rw [if_pos h, this]; rfl
    · rename_i h; rw [if_neg h]; injection this with this; rw [this]
  | enumerate e k ih =>
    have := ih hw.1 ⟨hf.suffix, hf.inner, hf.rep⟩
    simp only [adv, resetDim]
    change (if D.length - e.dims.length ≤ i then Option.map _ (resetDim _ (i - (D.length - e.dims.length)) _) else _) = _
    split at this
    · rename_i h; rw [if_pos h, this]; rfl
    · rename_i h; rw [if_neg h]; injection this with this; rw [this]
  | zip a b s iha ihb =>
    obtain ⟨ha, hb, hz⟩ := hw
    obtain ⟨fa, fb⟩ := hf.zip hz
    have ea := iha ha fa
    have eb := ihb hb fb
    have la := fa.le
    have lb := fb.le
    obtain ⟨-, sa, sb, -, -⟩ := zipShape_spec hz
    have hle : s.dims.length ≤ D.length := hf.le
    have la' : a.dims.length ≤ s.dims.length := by
      have := congrArg List.length sa; rw [List.length_drop] at this; omega
    have lb' : b.dims.length ≤ s.dims.length := by
      have := congrArg List.length sb; rw [List.length_drop] at this; omega
    rw [show (Expr.zip a b s).dims = s.dims from rfl]
    by_cases h : D.length - s.dims.length ≤ i
    · rw [if_pos h]
      have hda : (adv D.length pos c n a).rank = a.dims.length := by simp [rank]
      have hdb : (adv D.length pos c n b).rank = b.dims.length := by simp [rank]
      simp only [adv]
      change (Option.bind (if s.dims.length - (i - (D.length - s.dims.length)) ≤ _ then _ else _) _) = _
      rw [hda, hdb]
      have ca : (s.dims.length - (i - (D.length - s.dims.length)) ≤ a.dims.length) ↔
          D.length - a.dims.length ≤ i := by omega
      have cb : (s.dims.length - (i - (D.length - s.dims.length)) ≤ b.dims.length) ↔
          D.length - b.dims.length ≤ i := by omega
      have ea' : (if s.dims.length - (i - (D.length - s.dims.length)) ≤ a.dims.length then
          (adv D.length pos c n a).resetDim
            (a.dims.length - (s.dims.length - (i - (D.length - s.dims.length)))) (pos.getD i 0)
          else some (adv D.length pos c n a)) = some (adv D.length (pos.set i 0) 0 n a) := by
        rw [← ea]
        by_cases hh : D.length - a.dims.length ≤ i
        · rw [if_pos hh, if_pos (ca.2 hh)]; congr 1; omega
        · rw [if_neg hh, if_neg (fun x => hh (ca.1 x))]
      have eb' : (if s.dims.length - (i - (D.length - s.dims.length)) ≤ b.dims.length then
          (adv D.length pos c n b).resetDim
            (b.dims.length - (s.dims.length - (i - (D.length - s.dims.length)))) (pos.getD i 0)
          else some (adv D.length pos c n b)) = some (adv D.length (pos.set i 0) 0 n b) := by
        rw [← eb]
        by_cases hh : D.length - b.dims.length ≤ i
        · rw [if_pos hh, if_pos (cb.2 hh)]; congr 1; omega
        · rw [if_neg hh, if_neg (fun x => hh (cb.1 x))]
      rw [ea', eb']; rfl
    · rw [if_neg h]
      rw [if_neg (by omega)] at ea eb
      injection ea with ea
      injection eb with eb
      simp only [adv, ea, eb]

end Expr
end Model
