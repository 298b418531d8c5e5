import Verif.Model.View
import Verif.Lemmas.Shape
import Mathlib.Data.List.InsertIdx

/-! Type-level functions agree with run-time dimensions. -/

namespace Model
open Spec
namespace ShapeTy

theorem conforms_head {ty : ShapeTy} {d ds} (h : ty.Conforms (d :: ds)) : ty.head.Fits d := by
  cases ty with
  | dynRank => trivial
  | static l => cases l with
    | nil => simp at h
    | cons x l => exact (conforms_cons.1 h).1

theorem conforms_tail {ty : ShapeTy} {d ds} (h : ty.Conforms (d :: ds)) : ty.tail.Conforms ds := by
  cases ty with
  | dynRank => trivial
  | static l => cases l with
    | nil => simp at h
    | cons x l => exact (conforms_cons.1 h).2

theorem conforms_prepend {ty : ShapeTy} {x : DimTy} {d ds} (hx : x.Fits d) (h : ty.Conforms ds) :
    (ty.prepend x).Conforms (d :: ds) := by
  cases ty with
  | dynRank => trivial
  | static l =>
    simp only [prepend]; split
    · exact conforms_cons.2 ⟨hx, h⟩
    · trivial

theorem conforms_reverse {ty : ShapeTy} {ds} (h : ty.Conforms ds) : ty.reverse.Conforms ds.reverse := by
  cases ty with
  | dynRank => trivial
  | static l => exact List.rel_reverse h

theorem conforms_toDyn {ty : ShapeTy} {ds} (h : ty.Conforms ds) {ds' : List Nat}
    (hl : ds'.length = ds.length) : ty.toDyn.Conforms ds' := by
  cases ty with
  | dynRank => trivial
  | static l =>
    have := conforms_static_length h
    clear h
    simp only [toDyn]
    induction l generalizing ds ds' with
    | nil =>
      cases ds' with
      | nil => simp
      | cons _ _ => simp at this hl; omega
    | cons x l ih =>
      cases ds' with
      | nil => simp at this hl; omega
      | cons d' ds' =>
        cases ds with
        | nil => simp at this
        | cons d ds => simp at hl this; simp only [List.map_cons, conforms_cons, DimTy.fits_dyn, true_and]; exact ih hl this

theorem reverse_reverse (ty : ShapeTy) : ty.reverse.reverse = ty := by
  cases ty <;> simp [reverse]

theorem prepend_ne_nil (x : DimTy) (ty : ShapeTy) : ty.prepend x ≠ .static [] := by
  cases ty <;> simp [prepend]
  split <;> simp

theorem layout_dense {ty : ShapeTy} {L : Layout} (h : ty.layout L = .dense) :
    ty = .static [] ∧ L = .dense := by
  cases ty with
  | dynRank => simp [layout] at h
  | static l => cases l <;> simp_all [layout]

theorem reverse_eq_nil {ty : ShapeTy} (h : ty.reverse = .static []) : ty = .static [] := by
  cases ty <;> simp_all [reverse]

theorem tail_eq_nil {ty : ShapeTy} {ds} (h : ty.tail = .static []) (hc : ty.Conforms ds) :
    ds.length ≤ 1 := by
  cases ty with
  | dynRank => simp [tail] at h
  | static l =>
    have := conforms_static_length hc
    cases l with
    | nil => simp at this; omega
    | cons x l => simp [tail] at h; subst h; simp at this; omega

theorem wf_tail {ty : ShapeTy} (h : ty.WF) : ty.tail.WF := by
  cases ty with
  | dynRank => trivial
  | static l => simp [WF, tail] at *; omega

theorem wf_reverse {ty : ShapeTy} (h : ty.WF) : ty.reverse.WF := by
  cases ty with
  | dynRank => trivial
  | static l => simpa [WF, reverse] using h

theorem wf_prepend (x : DimTy) (ty : ShapeTy) : (ty.prepend x).WF := by
  cases ty with
  | dynRank => trivial
  | static l =>
    simp only [prepend]; split
    · simp [WF]; omega
    · trivial

theorem wf_toDyn {ty : ShapeTy} (h : ty.WF) : ty.toDyn.WF := by
  cases ty with
  | dynRank => trivial
  | static l => simpa [WF, toDyn] using h

end ShapeTy

namespace Axis
open ShapeTy

theorem constDim_fits {n : Nat} {ty : ShapeTy} {ds : List Nat} (h : ty.Conforms ds)
    (hn : n < ds.length) : (constDim n ty).Fits ds[n] := by
  induction n generalizing ty ds with
  | zero =>
    cases ds with
    | nil => simp at hn
    | cons d ds => exact conforms_head h
  | succ n ih =>
    cases ds with
    | nil => simp at hn
    | cons d ds => simp only [constDim, List.getElem_cons_succ]; exact ih (conforms_tail h) (by simpa using hn)

theorem constRemove_conforms {n : Nat} {ty : ShapeTy} {ds : List Nat} (h : ty.Conforms ds)
    (hn : n < ds.length) : (constRemove n ty).Conforms (ds.eraseIdx n) := by
  induction n generalizing ty ds with
  | zero =>
    cases ds with
    | nil => simp at hn
    | cons d ds => exact conforms_tail h
  | succ n ih =>
    cases ds with
    | nil => simp at hn
    | cons d ds =>
      simp only [constRemove, List.eraseIdx_cons_succ]
      exact conforms_prepend (conforms_head h) (ih (conforms_tail h) (by simpa using hn))

theorem constInsert_conforms {n : Nat} {ty : ShapeTy} {ds : List Nat} {x : DimTy} {a : Nat}
    (h : ty.Conforms ds) (hx : x.Fits a)
    (hn : n ≤ ds.length) : (constInsert x n ty).Conforms (ds.insertIdx n a) := by
  induction n generalizing ty ds with
  | zero => simp only [constInsert, List.insertIdx_zero]; exact conforms_prepend hx h
  | succ n ih =>
    cases ds with
    | nil => simp at hn
    | cons d ds =>
      simp only [constInsert, List.insertIdx_succ_cons]
      exact conforms_prepend (conforms_head h) (ih (conforms_tail h) (by simpa using hn))

theorem constInit_nil {n : Nat} {ty : ShapeTy} (h : constInit n ty = .static []) : n = 0 := by
  cases n with
  | zero => rfl
  | succ n => exact absurd h (prepend_ne_nil _ _)

theorem constRest_nil {n : Nat} {ty : ShapeTy} {ds : List Nat} (h : constRest n ty = .static [])
    (hc : ty.Conforms ds) : ds.length ≤ n + 1 := by
  induction n generalizing ty ds with
  | zero => exact tail_eq_nil h hc
  | succ n ih =>
    cases ds with
    | nil => simp
    | cons d ds =>
      have := ih h (conforms_tail hc)
      simp; omega

theorem wf_constRemove {n : Nat} {ty : ShapeTy} (h : ty.WF) : (constRemove n ty).WF := by
  cases n with
  | zero => exact wf_tail h
  | succ n => exact wf_prepend _ _

theorem wf_constInsert {x} {n : Nat} {ty : ShapeTy} : (constInsert x n ty).WF := by
  cases n <;> exact wf_prepend _ _

theorem wf_remove (a : Axis) {ty : ShapeTy} (h : ty.WF) : (a.remove ty).WF := by
  cases a with
  | const n => exact wf_constRemove h
  | cols => exact wf_reverse (wf_constRemove (wf_reverse h))
  | rows => exact wf_reverse (wf_constRemove (wf_reverse h))
  | dyn i => exact wf_toDyn (wf_tail h)

theorem wf_resizeTy (a : Axis) {ty : ShapeTy} : (a.resizeTy ty).WF := by
  cases a with
  | const n => exact wf_constInsert
  | cols => exact wf_reverse wf_constInsert
  | rows => exact wf_reverse wf_constInsert
  | dyn i => exact wf_prepend _ _

/-- Position of the axis counted from the end. -/
theorem index_lt {a : Axis} {r p : Nat} (h : a.index r = some p) : p < r := by
  cases a <;> simp only [index] at h <;> split at h <;> simp at h <;> omega

theorem reverse_eraseIdx (l : List Nat) (k : Nat) (h : k < l.length) :
    (l.reverse.eraseIdx k).reverse = l.eraseIdx (l.length - 1 - k) := by
  apply List.ext_getElem?
  intro i
  have hl : (l.reverse.eraseIdx k).length = l.length - 1 := by simp [List.length_eraseIdx, h]
  by_cases hi : i < l.length - 1
  · rw [List.getElem?_reverse (by omega), hl, List.getElem?_eraseIdx, List.getElem?_eraseIdx]
    by_cases h1 : l.length - 1 - 1 - i < k
    · rw [if_pos h1, List.getElem?_reverse (by omega), if_neg (by omega)]
      congr 1; omega
    · rw [if_neg h1, List.getElem?_reverse (by omega), if_pos (by omega)]
      congr 1; omega
  · rw [List.getElem?_eq_none (by simp [List.length_eraseIdx]; split <;> omega),
      List.getElem?_eq_none (by simp [List.length_eraseIdx]; split <;> omega)]

theorem reverse_insertIdx (l : List Nat) (k a : Nat) (h : k ≤ l.length) :
    (l.reverse.insertIdx k a).reverse = l.insertIdx (l.length - k) a := by
  have hl : (l.reverse.insertIdx k a).length = l.length + 1 := by
    rw [List.length_insertIdx]; simp [h]
  apply List.ext_getElem?
  intro i
  by_cases hi : i < l.length + 1
  · rw [List.getElem?_reverse (by omega), hl, List.getElem?_insertIdx, List.getElem?_insertIdx]
    rcases Nat.lt_trichotomy i (l.length - k) with h1 | h1 | h1
    · rw [if_neg (by omega), if_neg (by omega), if_pos h1, List.getElem?_reverse (by omega)]
      congr 1; omega
    · have : l.length + 1 - 1 - i = k := by omega
      rw [if_neg (by omega), if_pos this, if_pos (by rw [List.length_reverse]; omega),
        if_neg (by omega), if_pos h1, if_pos (by omega)]
    · rw [if_pos (by omega), if_neg (by omega), if_neg (by omega), List.getElem?_reverse (by omega)]
      congr 1; omega
  · rw [List.getElem?_eq_none (by simp [hl]; omega),
      List.getElem?_eq_none (by rw [List.length_insertIdx]; split <;> omega)]

theorem remove_conforms {a : Axis} {ty : ShapeTy} {ds : List Nat} {p : Nat} (h : ty.Conforms ds)
    (hp : a.index ds.length = some p) : (a.remove ty).Conforms (ds.eraseIdx p) := by
  have hlt := index_lt hp
  have hrev := conforms_reverse h
  cases a with
  | const n =>
    simp only [index] at hp; split at hp <;> simp at hp
    subst hp; exact constRemove_conforms h hlt
  | cols =>
    simp only [index] at hp; split at hp <;> simp at hp
    have := conforms_reverse (constRemove_conforms (n := 1) hrev (by simp; omega))
    rw [reverse_eraseIdx _ _ (by omega)] at this
    have e : ds.length - 1 - 1 = p := by omega
    rwa [e] at this
  | rows =>
    simp only [index] at hp; split at hp <;> simp at hp
    have := conforms_reverse (constRemove_conforms (n := 0) hrev (by simp; omega))
    rw [reverse_eraseIdx _ _ (by omega)] at this
    have e : ds.length - 1 - 0 = p := by omega
    rwa [e] at this
  | dyn i =>
    cases ds with
    | nil => simp at hlt
    | cons d ds =>
      exact conforms_toDyn (conforms_tail h) (by rw [List.length_eraseIdx, if_pos hlt]; simp)

theorem insert_conforms {a : Axis} {ty : ShapeTy} {ds : List Nat} {p x : Nat} (h : ty.Conforms ds)
    (hp : a.index (ds.length + 1) = some p) : (a.insert .dyn ty).Conforms (ds.insertIdx p x) := by
  have hlt := index_lt hp
  have hrev := conforms_reverse h
  cases a with
  | const n =>
    simp only [index] at hp; split at hp <;> simp at hp
    subst hp; exact constInsert_conforms h trivial (by omega)
  | cols =>
    simp only [index] at hp; split at hp <;> simp at hp
    have := conforms_reverse (constInsert_conforms (n := 1) (x := .dyn) (a := x) hrev trivial (by simp; omega))
    rw [reverse_insertIdx _ _ _ (by omega)] at this
    have e : ds.length - 1 = p := by omega
    rwa [e] at this
  | rows =>
    simp only [index] at hp; split at hp <;> simp at hp
    have := conforms_reverse (constInsert_conforms (n := 0) (x := .dyn) (a := x) hrev trivial (by simp))
    rw [reverse_insertIdx _ _ _ (by omega)] at this
    have e : ds.length - 0 = p := by omega
    rwa [e] at this
  | dyn i =>
    have hl : (ds.insertIdx p x).length = ds.length + 1 := by
      rw [List.length_insertIdx]; rw [if_pos (by omega)]
    cases he : ds.insertIdx p x with
    | nil => rw [he] at hl; simp at hl
    | cons d ds' =>
      rw [he] at hl
      exact conforms_prepend trivial (conforms_toDyn h (by simpa using hl))

theorem resizeTy_conforms {a : Axis} {ty : ShapeTy} {ds : List Nat} {p x : Nat} (h : ty.Conforms ds)
    (hp : a.index ds.length = some p) : (a.resizeTy ty).Conforms (ds.set p x) := by
  have hlt := index_lt hp
  have e : (ds.eraseIdx p).length + 1 = ds.length := by
    rw [List.length_eraseIdx]; simp [hlt]; omega
  have := insert_conforms (a := a) (p := p) (x := x) (remove_conforms h hp) (by rw [e]; exact hp)
  have e2 : (ds.eraseIdx p).insertIdx p x = ds.set p x := by
    apply List.ext_getElem?
    intro i
    rw [List.getElem?_insertIdx, List.getElem?_set, List.getElem?_eraseIdx, List.getElem?_eraseIdx]
    rcases Nat.lt_trichotomy i p with h1 | h1 | h1
    · rw [if_pos h1, if_pos h1, if_neg (by omega)]
    · rw [if_neg (by omega), if_pos h1, if_pos (by omega), if_pos hlt, if_pos]
      subst h1; omega
    · rw [if_neg (by omega), if_neg (by omega), if_neg (by omega), if_neg (by omega)]
      congr 1; omega
  rwa [e2] at this

theorem dimTy_fits {a : Axis} {ty : ShapeTy} {ds : List Nat} {p : Nat} (h : ty.Conforms ds)
    (hp : a.index ds.length = some p) (hlt : p < ds.length) : (a.dimTy ty).Fits ds[p] := by
  have hrev := conforms_reverse h
  cases a with
  | const n =>
    simp only [index] at hp; split at hp <;> simp at hp
    subst hp; exact constDim_fits h hlt
  | cols =>
    simp only [index] at hp; split at hp <;> simp at hp
    have := constDim_fits (n := 1) hrev (by simp; omega)
    rw [List.getElem_reverse] at this
    subst hp; simpa only [dimTy] using this
  | rows =>
    simp only [index] at hp; split at hp <;> simp at hp
    have := constDim_fits (n := 0) hrev (by simp; omega)
    rw [List.getElem_reverse] at this
    subst hp; exact this
  | dyn i => trivial

theorem split_dense {a : Axis} {ty : ShapeTy} {ds : List Nat} {p : Nat} {L : Layout}
    (h : ty.Conforms ds) (hp : a.index ds.length = some p) (hs : a.split ty L = .dense) :
    L = .dense ∧ p = 0 := by
  obtain ⟨h1, h2⟩ := layout_dense hs
  refine ⟨h2, ?_⟩
  have hrev := conforms_reverse h
  cases a with
  | const n =>
    simp only [index] at hp; split at hp <;> simp at hp
    have := constInit_nil h1; omega
  | cols =>
    simp only [index] at hp; split at hp <;> simp at hp
    have := constRest_nil (reverse_eq_nil h1) hrev
    simp at this; omega
  | rows =>
    simp only [index] at hp; split at hp <;> simp at hp
    have := constRest_nil (reverse_eq_nil h1) hrev
    simp at this; omega
  | dyn i => simp [init] at h1

theorem keep_dense {a : Axis} {ty : ShapeTy} {ds : List Nat} {p : Nat} {L : Layout}
    (h : ty.Conforms ds) (hp : a.index ds.length = some p) (hs : a.keep ty L = .dense) :
    L = .dense ∧ p + 1 = ds.length := by
  have hlt := index_lt hp
  obtain ⟨h1, h2⟩ := layout_dense hs
  refine ⟨h2, ?_⟩
  cases a with
  | const n =>
    simp only [index] at hp; split at hp <;> simp at hp
    have := constRest_nil h1 h; omega
  | cols =>
    have h1' : (constInit 1 ty.reverse).reverse = .static [] := h1
    exact absurd (constInit_nil (reverse_eq_nil h1')) (by omega)
  | rows =>
    simp only [index] at hp; split at hp <;> simp at hp
    omega
  | dyn i => simp [rest] at h1

end Axis

namespace Perm
open ShapeTy

theorem mergeStatic_len {a : List DimTy} {s : ShapeTy} {l : List DimTy}
    (h : mergeStatic a s = .static l) : a.length ≤ l.length ∧ ∃ b, s = .static b ∧ b.length ≤ l.length := by
  induction a generalizing s l with
  | nil => simp [mergeStatic] at h; exact ⟨by simp, l, h, le_refl _⟩
  | cons x a ih =>
    simp only [mergeStatic] at h
    cases hm : mergeStatic a s.tail with
    | dynRank => rw [hm] at h; simp [prepend] at h
    | static l' =>
      rw [hm] at h
      simp only [prepend] at h
      split at h
      · simp at h; subst h
        obtain ⟨h1, b, h2, h3⟩ := ih hm
        cases s with
        | dynRank => simp [tail] at h2
        | static b0 =>
          simp [tail] at h2
          refine ⟨by simp; omega, b0, rfl, ?_⟩
          simp
          have : b0.length ≤ b.length + 1 := by rw [← h2]; simp; omega
          omega
      · simp at h

theorem constInit_unit_len {n : Nat} {l : List DimTy} {s : ShapeTy}
    (h : Axis.constInit n s = .static l) : l.length = n := by
  induction n generalizing l s with
  | zero => simp [Axis.constInit] at h; simp [h]
  | succ n ih =>
    simp only [Axis.constInit] at h
    cases hm : Axis.constInit n s.tail with
    | dynRank => rw [hm] at h; simp [prepend] at h
    | static l' =>
      rw [hm] at h
      simp only [prepend] at h
      split at h
      · simp at h; rw [← h]; simp [ih hm]
      · simp at h

theorem toAxis_init {x : DimTy} {l} (h : (toAxis x).init (.static []) = .static l) :
    x = .const l.length := by
  cases x with
  | const n => simp only [toAxis, Axis.init] at h; rw [constInit_unit_len h]
  | dyn => simp [toAxis, Axis.init] at h

/-- If the type-level prefix shape of a permutation has at most `k` dimensions, entry `i` is a
constant of at most `i + k`. -/
theorem init_bound {xs : List DimTy} {l : List DimTy} {k : Nat} (h : init xs = .static l)
    (hk : l.length ≤ k) : ∀ i (hi : i < xs.length), ∃ c, xs[i] = .const c ∧ c ≤ i + k := by
  induction xs generalizing l k with
  | nil => simp
  | cons x rest ih =>
    cases rest with
    | nil =>
      intro i hi
      simp at hi; subst hi
      simp only [init] at h
      exact ⟨l.length, toAxis_init h, by omega⟩
    | cons y rest =>
      simp only [init] at h
      cases hr : init (y :: rest) with
      | dynRank => rw [hr] at h; simp [tail, merge] at h
      | static l' =>
        rw [hr] at h
        simp only [tail, merge] at h
        obtain ⟨h1, b, h2, h3⟩ := mergeStatic_len h
        intro i hi
        cases i with
        | zero => exact ⟨b.length, toAxis_init h2, by omega⟩
        | succ i =>
          simp at h1
          obtain ⟨c, hc1, hc2⟩ := ih (k := k+1) hr (by omega) i (by simpa using hi)
          exact ⟨c, by simpa using hc1, by omega⟩

theorem eq_range_of_le {p : List Nat} (hn : p.Nodup) (h : ∀ i (hi : i < p.length), p[i] ≤ i) :
    p = List.range p.length := by
  have key : ∀ i (hi : i < p.length), p[i] = i := by
    intro i
    induction i using Nat.strong_induction_on with
    | _ i ih =>
      intro hi
      have h1 := h i hi
      by_contra hne
      have hlt : p[i] < i := by omega
      have h2 := ih _ hlt (by omega)
      have := (List.Nodup.getElem_inj_iff hn).1 (h2)
      omega
  apply List.ext_getElem (by simp)
  intro i h1 h2
  simp [key i h1]

/-- A statically dense permutation is the identity. -/
theorem layout_dense {perm : Shape} {L : Layout} (hw : perm.WF) (h : layout perm.ty L = .dense)
    (hp : perm.dims.Perm (List.range perm.dims.length)) :
    L = .dense ∧ perm.dims = List.range perm.dims.length := by
  obtain ⟨ty, p⟩ := perm
  simp only [Shape.WF] at hw hp h ⊢
  have hn : p.Nodup := hp.nodup_iff.2 List.nodup_range
  cases ty with
  | dynRank => simp [layout] at h
  | static xs =>
    have hlen := conforms_static_length hw
    match xs, h with
    | [], h =>
      simp at hw; subst hw
      exact ⟨(ShapeTy.layout_dense (ty := .static []) h).2, rfl⟩
    | [x], h =>
      simp [layout] at h
      refine ⟨h, ?_⟩
      match p, hlen with
      | [a], _ => simpa using hp
    | x :: y :: rest, h =>
      obtain ⟨h1, h2⟩ := ShapeTy.layout_dense h
      refine ⟨h2, eq_range_of_le hn ?_⟩
      intro i hi
      obtain ⟨c, hc1, hc2⟩ := init_bound h1 (k := 0) (by simp) i (by omega)
      have hf : ((x :: y :: rest)[i]'(by omega)).Fits p[i] := by
        have := (List.forall₂_iff_get.1 hw).2 i (by omega) hi
        simpa using this
      rw [hc1] at hf
      simp at hf
      omega

theorem shapeStatic_conforms {xs : List DimTy} {p : List Nat} {ty : ShapeTy} {ds : List Nat}
    (hw : (ShapeTy.static xs).Conforms p) (hc : ty.Conforms ds) (hlt : ∀ i ∈ p, i < ds.length) :
    (shapeStatic xs ty).Conforms (p.map fun i => ds.getD i 0) := by
  have hfit : ∀ x i, x.Fits i → i < ds.length → ((toAxis x).dimTy ty).Fits (ds.getD i 0) := by
    intro x i hx hi
    cases x with
    | dyn => trivial
    | const n =>
      simp at hx; subst hx
      have := Axis.constDim_fits (n := i) hc hi
      have e : ds.getD i 0 = ds[i] := by simp [List.getD, List.getElem?_eq_getElem hi]
      rw [e]; exact this
  induction xs generalizing p with
  | nil => simp at hw; subst hw; simp [shapeStatic]
  | cons x rest ih =>
    cases p with
    | nil => simp at hw
    | cons i p =>
      have h1 := conforms_cons.1 hw
      have hx := hfit x i h1.1 (hlt i (by simp))
      cases rest with
      | nil =>
        have h2 := h1.2
        simp at h2; subst h2
        simp only [shapeStatic, List.map_cons, List.map_nil, conforms_cons, conforms_nil, and_true]
        exact hx
      | cons y rest =>
        have := ih h1.2 (fun j hj => hlt j (by simp [hj]))
        exact conforms_prepend hx this

theorem shapeTy_conforms {perm : Shape} {ty : ShapeTy} {ds : List Nat} (hw : perm.WF)
    (hc : ty.Conforms ds) (hp : perm.dims.Perm (List.range ds.length)) :
    (shapeTy perm.ty ty).Conforms (perm.dims.map fun i => ds.getD i 0) := by
  obtain ⟨pty, p⟩ := perm
  have hlt : ∀ i ∈ p, i < ds.length := fun i hi => List.mem_range.1 (hp.mem_iff.1 hi)
  cases pty with
  | dynRank =>
    apply conforms_toDyn hc
    simpa using hp.length_eq
  | static xs => exact shapeStatic_conforms hw hc hlt

theorem wf_shapeTy {pty ty : ShapeTy} (hty : ty.WF) : (shapeTy pty ty).WF := by
  cases pty with
  | dynRank => exact wf_toDyn hty
  | static xs =>
    match xs with
    | [] => simp [shapeTy, shapeStatic, ShapeTy.WF]
    | [x] => simp [shapeTy, shapeStatic, ShapeTy.WF]
    | x :: y :: rest => exact wf_prepend _ _

end Perm
end Model
