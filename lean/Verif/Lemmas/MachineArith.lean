import Verif.Model.Machine
import Verif.Lemmas.Overflow

/-! Machine arithmetic on values that fit, and the functions on mappings for non-empty arrays. -/

namespace Model
open Spec
namespace Machine

theorem retI_fit {checks x} (h : FitsI x) : retI checks x = some x := if_pos h

theorem retU_fit {checks x} (h : x ≤ usizeMax) : retU checks x = some x := if_pos h

theorem bmod_range (x : Int) : FitsI (Int.bmod x (2 ^ 64)) := by
  have h1 := Int.le_bmod (x := x) (m := 2 ^ 64) (by norm_num)
  have h2 := Int.bmod_lt (x := x) (m := 2 ^ 64) (by norm_num)
  norm_num at h1 h2
  exact ⟨by omega, by omega⟩

theorem bmod_fit {x : Int} (h : FitsI x) : Int.bmod x (2 ^ 64) = x := by
  apply Int.bmod_eq_of_le
  · have := h.1; norm_num; omega
  · have := h.2; norm_num; omega

theorem retI_fits {checks x y} (h : retI checks x = some y) : FitsI y := by
  unfold retI at h
  split at h
  · simp at h; subst h; assumption
  · cases checks
    · simp at h; subst h; exact bmod_range x
    · simp at h

theorem castI_fits (n : Nat) : FitsI (castI n) := bmod_range _

theorem fitsI_nat {n : Nat} (h : n < 9223372036854775808) : FitsI (n : Int) := ⟨by omega, by omega⟩

theorem castI_ok {n : Nat} (h : n < 9223372036854775808) : castI n = n := bmod_fit (fitsI_nat h)

theorem castU_ok {k : Int} (h0 : 0 ≤ k) (h : FitsI k) : castU k = k.toNat := by
  unfold castU
  rw [Int.emod_eq_of_lt h0 (by have := h.2; norm_num; omega)]

theorem fits_zero : FitsI 0 := ⟨by omega, by omega⟩

/-- Product of the dimensions with zeros replaced by one. -/
def bsize (l : List Nat) : Nat := size (l.map (max 1))

@[simp] theorem bsize_nil : bsize [] = 1 := rfl
@[simp] theorem bsize_cons (d : Nat) (l) : bsize (d :: l) = max 1 d * bsize l := by simp [bsize]

theorem bsize_pos (l : List Nat) : 0 < bsize l := by
  induction l with
  | nil => simp
  | cons d l ih => rw [bsize_cons]; positivity

theorem size_le_bsize (l : List Nat) : size l ≤ bsize l := by
  induction l with
  | nil => simp
  | cons d l ih => rw [bsize_cons, size_cons]; exact Nat.mul_le_mul (by omega) ih

theorem bsize_eq {l : List Nat} (h : 0 < size l) : bsize l = size l := by
  induction l with
  | nil => rfl
  | cons d l ih =>
    rw [size_cons] at h
    have hd := Nat.pos_of_mul_pos_right h
    have hl := Nat.pos_of_mul_pos_left h
    rw [bsize_cons, size_cons, ih hl, Nat.max_eq_right hd]

theorem bsize_drop_le (l : List Nat) (t : Nat) : bsize (l.drop t) ≤ bsize l := by
  induction l generalizing t with
  | nil => simp
  | cons d l ih =>
    cases t with
    | zero => simp
    | succ t =>
      rw [List.drop_succ_cons, bsize_cons]
      exact (ih t).trans (Nat.le_mul_of_pos_left _ (by omega))

theorem le_bsize {l : List Nat} {d : Nat} (h : d ∈ l) : d ≤ bsize l := by
  induction l with
  | nil => simp at h
  | cons e l ih =>
    rw [bsize_cons]
    rcases List.mem_cons.1 h with rfl | h
    · exact le_trans (by omega) (Nat.le_mul_of_pos_right _ (bsize_pos l))
    · exact (ih h).trans (Nat.le_mul_of_pos_left _ (by omega))

theorem bsize_set_le {l : List Nat} {p n : Nat} (hp : p < l.length) (h : n ≤ l[p]) :
    bsize (l.set p n) ≤ bsize l := by
  induction l generalizing p with
  | nil => simp at hp
  | cons d l ih =>
    cases p with
    | zero =>
      simp at h
      rw [List.set_cons_zero, bsize_cons, bsize_cons]
      exact Nat.mul_le_mul_right _ (by omega)
    | succ p =>
      rw [List.set_cons_succ, bsize_cons, bsize_cons]
      exact Nat.mul_le_mul_left _ (ih (by simpa using hp) (by simpa using h))

theorem bsize_eraseIdx_le (l : List Nat) (p : Nat) : bsize (l.eraseIdx p) ≤ bsize l := by
  induction l generalizing p with
  | nil => simp
  | cons d l ih =>
    cases p with
    | zero => rw [List.eraseIdx_cons_zero, bsize_cons]; exact Nat.le_mul_of_pos_left _ (by omega)
    | succ p => rw [List.eraseIdx_cons_succ, bsize_cons, bsize_cons]; exact Nat.mul_le_mul_left _ (ih p)

theorem product_aux (checks : Bool) (l : List Nat) (a : Nat) (h : a * bsize l ≤ usizeMax) :
    l.foldlM (fun acc x => retU checks (acc * x)) a = some (a * size l) := by
  induction l generalizing a with
  | nil => simp
  | cons d l ih =>
    rw [bsize_cons] at h
    have h1 : a * d * bsize l ≤ usizeMax := by
      refine le_trans ?_ h
      rw [← mul_assoc]
      exact Nat.mul_le_mul_right _ (Nat.mul_le_mul_left _ (by omega))
    have h2 : a * d ≤ usizeMax := le_trans (Nat.le_mul_of_pos_right _ (bsize_pos l)) h1
    rw [List.foldlM_cons, retU_fit h2]
    simp only [Option.bind_eq_bind, Option.bind_some]
    rw [ih _ h1, size_cons, mul_assoc]

theorem product_eq {checks : Bool} {l : List Nat} (h : bsize l ≤ usizeMax) :
    product checks l = some (size l) := by
  have := product_aux checks l 1 (by simpa using h)
  simpa [product] using this

theorem product_zero_aux (checks : Bool) (l : List Nat) :
    l.foldlM (fun acc x => retU checks (acc * x)) 0 = some 0 := by
  induction l with
  | nil => rfl
  | cons d l ih =>
    rw [List.foldlM_cons, Nat.zero_mul, retU_fit (Nat.zero_le _)]
    exact ih

theorem product_zero_aux' (checks : Bool) (l : List Nat) (a n : Nat) (h : 0 ∈ l)
    (hn : l.foldlM (fun acc x => retU checks (acc * x)) a = some n) : n = 0 := by
  induction l generalizing a with
  | nil => simp at h
  | cons d l ih =>
    rw [List.foldlM_cons] at hn
    rcases List.mem_cons.1 h with rfl | h
    · rw [Nat.mul_zero, retU_fit (Nat.zero_le _)] at hn
      simp only [Option.bind_eq_bind, Option.bind_some] at hn
      rw [product_zero_aux] at hn
      simpa using hn.symm
    · cases hr : retU checks (a * d) with
      | none => rw [hr] at hn; simp at hn
      | some b => rw [hr] at hn; exact ih b h hn

theorem size_eq_zero_iff {l : List Nat} : size l = 0 ↔ 0 ∈ l := by
  induction l with
  | nil => simp
  | cons d l ih => rw [size_cons, Nat.mul_eq_zero, ih]; simp [eq_comm]

/-- The length of an empty array is zero in either build, if it can be computed. -/
theorem product_zero {checks : Bool} {l : List Nat} {n : Nat} (h : size l = 0)
    (hn : product checks l = some n) : n = 0 :=
  product_zero_aux' checks l 1 n (size_eq_zero_iff.1 h) hn

theorem usizeMax_lt {n : Nat} (h : n < 9223372036854775808) : n ≤ usizeMax := by
  unfold usizeMax; omega

theorem len_eq {checks : Bool} {s : Shape} (h : bsize s.dims ≤ usizeMax) : len checks s = some s.len := by
  rw [Shape.len_eq]; exact product_eq h

theorem isEmpty_eq {checks : Bool} {s : Shape} (h : bsize s.dims ≤ usizeMax) :
    isEmpty checks s = some s.isEmpty := by
  unfold isEmpty; rw [len_eq h]; rfl

theorem denseCalls_eq (checks : Bool) (ds : List Nat) (k : Nat)
    (h : bsize ds < 9223372036854775808) :
    (ds.zipIdx k).foldr (fun x acc => do
      let ((calls : List (Nat × Int)), (stride : Nat)) ← acc
      let stride' ← retU checks (stride * x.1)
      pure (calls ++ [(x.2, castI stride)], stride')) (some ([], 1)) =
    some ((ds.zipIdx k).foldr (fun x (acc : List (Nat × Int) × Nat) =>
      (acc.1 ++ [(x.2, (acc.2 : Int))], acc.2 * x.1)) ([], 1)) := by
  induction ds generalizing k with
  | nil => rfl
  | cons d ds ih =>
    have h1 : bsize ds < 9223372036854775808 := lt_of_le_of_lt (bsize_drop_le (d :: ds) 1) h
    have h2 := lt_of_le_of_lt (size_le_bsize _) h
    have h3 := lt_of_le_of_lt (size_le_bsize _) h1
    rw [size_cons] at h2
    rw [List.zipIdx_cons, List.foldr_cons, List.foldr_cons, ih (k + 1) h1, Mapping.denseCalls_aux]
    have e1 : retU checks (size ds * d) = some (size ds * d) :=
      retU_fit (usizeMax_lt (by rw [mul_comm]; exact h2))
    simp only [Option.bind_eq_bind, Option.bind_some, e1, castI_ok h3, Option.pure_def]

theorem calls_eq {checks : Bool} {m : Mapping} (h : bsize m.dims < 9223372036854775808) :
    calls checks m = some m.forEachStride := by
  cases m with
  | strided s st => rfl
  | dense s =>
    have := denseCalls_eq checks s.dims 0 h
    unfold calls
    dsimp only
    rw [this]; rfl

theorem stride_eq {checks : Bool} {m : Mapping} (h : bsize m.dims < 9223372036854775808) (i : Nat) :
    stride checks m i = m.stride i := by
  unfold stride Mapping.stride
  cases m with
  | strided s st => rfl
  | dense s =>
    rw [check_bind, check_bind]
    split
    · dsimp only
      have h1 : bsize (s.dims.drop (i + 1)) < 9223372036854775808 :=
        lt_of_le_of_lt (bsize_drop_le _ _) h
      rw [product_eq (usizeMax_lt h1)]
      have h2 := lt_of_le_of_lt (size_le_bsize _) h1
      simp only [Option.map_some, castI_ok h2, Option.pure_def]
      simp [size, List.prod_eq_foldl]
    · rfl

theorem contigLoop_eq (checks : Bool) (l : List (Nat × Int)) (k : Nat)
    (hp : 0 < size (l.map (·.1))) (h : k * size (l.map (·.1)) < 9223372036854775808) :
    contigLoop checks l k = some (Mapping.contigLoop l k) := by
  induction l generalizing k with
  | nil => rfl
  | cons x l ih =>
    obtain ⟨d, s⟩ := x
    simp only [List.map_cons, size_cons] at hp h
    have hd := Nat.pos_of_mul_pos_right hp
    have hl := Nat.pos_of_mul_pos_left hp
    unfold contigLoop Mapping.contigLoop
    split
    · rfl
    · have h1 : k * d * size (l.map (·.1)) < 9223372036854775808 := by rw [mul_assoc]; exact h
      have h2 : k * d < 9223372036854775808 := lt_of_le_of_lt (Nat.le_mul_of_pos_right _ hl) h1
      rcases Nat.eq_zero_or_pos k with rfl | hk
      · have : retI checks ((0 : Nat) * castI d) = some 0 := by
          rw [Nat.cast_zero, zero_mul]; exact retI_fit fits_zero
        rw [this, Option.bind_some, Nat.cast_zero, zero_mul]
        have := ih 0 hl (by omega)
        simpa using this
      · have h3 : d < 9223372036854775808 := lt_of_le_of_lt (Nat.le_mul_of_pos_left _ hk) h2
        rw [castI_ok h3, ← Nat.cast_mul, retI_fit (fitsI_nat h2), Option.bind_some]
        rw [ih _ hl h1]

theorem size_perm {a b : List Nat} (h : a.Perm b) : size a = size b := h.prod_eq

theorem isContiguous_eq {checks : Bool} {m : Mapping} (hw : m.WF) (hp : 0 < size m.dims)
    (h : size m.dims < 9223372036854775808) : isContiguous checks m = some m.isContiguous := by
  cases m with
  | dense s => rfl
  | strided s st =>
    have e : size ((s.dims.zip st).reverse.map (·.1)) = size s.dims := by
      have hl : st.length = s.dims.length := hw.len
      rw [List.map_reverse, size_perm (List.reverse_perm _), List.map_fst_zip (by omega)]
    exact contigLoop_eq checks _ 1 (by rw [e]; exact hp) (by rw [e]; simpa using h)

section ops
variable {checks : Bool} {m : Mapping}

theorem remap_eq (hw : m.WF) (hp : 0 < size m.dims) (h : size m.dims < 9223372036854775808) (ty L) :
    remap checks m ty L = m.remap ty L := by
  cases L with
  | dense => unfold remap Mapping.remap; rw [isContiguous_eq hw hp h]; rfl
  | strided =>
    unfold remap Mapping.remap; rw [calls_eq (by rw [bsize_eq hp]; exact h)]; rfl

theorem remap_same (hb : bsize m.dims < 9223372036854775808) (ty) :
    remap checks m ty m.layout = m.remap ty m.layout := by
  cases m with
  | dense s => rfl
  | strided s st => show remap _ _ _ .strided = Mapping.remap _ _ .strided; unfold remap Mapping.remap; rw [calls_eq hb]; rfl

theorem permute_eq (hw : m.WF) (hp : 0 < size m.dims) (h : size m.dims < 9223372036854775808) (perm ty L) :
    permute checks m perm ty L = m.permute checks perm ty L := by
  cases L with
  | dense => unfold permute Mapping.permute; rw [remap_eq hw hp h]
  | strided => unfold permute Mapping.permute; rw [calls_eq (by rw [bsize_eq hp]; exact h)]; rfl

theorem prependDim_eq (h : bsize m.dims < 9223372036854775808) (n s ty L) :
    prependDim checks m n s ty L = m.prependDim n s ty L := by
  cases L with
  | dense =>
    unfold prependDim Mapping.prependDim
    rw [len_eq (usizeMax_lt h)]
    simp only [Option.bind_eq_bind, Option.bind_some]
    rw [castI_ok (by rw [Shape.len_eq]; exact lt_of_le_of_lt (size_le_bsize _) h)]
    rfl
  | strided => unfold prependDim Mapping.prependDim; rw [calls_eq h]; rfl

theorem removeDim_eq (h : bsize m.dims < 9223372036854775808) (i ty L) :
    removeDim checks m i ty L = m.removeDim i ty L := by
  cases L with
  | dense => rfl
  | strided => unfold removeDim Mapping.removeDim; rw [calls_eq h]; rfl

theorem reorder_eq (h : bsize m.dims < 9223372036854775808) (L) :
    reorder checks m L = m.reorder L := by
  cases L with
  | dense => rfl
  | strided => unfold reorder Mapping.reorder; rw [calls_eq h]; rfl

theorem resizeDim_eq (h : bsize m.dims < 9223372036854775808) (i n ty L) :
    resizeDim checks m i n ty L = m.resizeDim i n ty L := by
  cases L with
  | dense => rfl
  | strided => unfold resizeDim Mapping.resizeDim; rw [calls_eq h]; rfl

theorem removeMap_eq (h : bsize m.dims < 9223372036854775808) (a : Axis) :
    removeMap checks a m = a.removeMap m := by
  unfold removeMap Axis.removeMap; simp only [removeDim_eq h]

theorem resizeMap_eq (h : bsize m.dims < 9223372036854775808) (a : Axis) (n) :
    resizeMap checks a m n = a.resizeMap m n := by
  unfold resizeMap Axis.resizeMap; simp only [resizeDim_eq h]

theorem shapeReshape_eq {s : Shape} (h : bsize s.dims < 9223372036854775808) (ns) :
    shapeReshape checks s ns = s.reshape ns := by
  unfold shapeReshape Shape.reshape; rw [len_eq (usizeMax_lt h)]; rfl

end ops

end Machine
end Model
