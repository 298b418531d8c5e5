import Verif.Lemmas.MachineReshape

/-! View-producing calls with machine integers on non-empty views. -/

namespace Model
open Spec
namespace Machine

/-- Dimensions and strides of a non-empty array whose elements lie within `N` places of each other. -/
structure Fits (N : Nat) (ds : List Nat) (st : List Int) : Prop where
  len : st.length = ds.length
  pos : 0 < size ds
  sz : size ds ≤ N
  hN : N ≤ 4611686018427387904
  bd : ∀ i, Valid ds i → -(N : Int) < dot st i ∧ dot st i < N
  fit : ∀ s ∈ st, FitsI s

theorem Fits.bsize {N ds st} (h : Fits N ds st) : bsize ds < 9223372036854775808 := by
  rw [bsize_eq h.pos]; have := h.sz; have := h.hN; omega

theorem Fits.lt {N ds st} (h : Fits N ds st) : size ds < 9223372036854775808 := by
  have := h.sz; have := h.hN; omega

theorem Fits.single {N ds st} (h : Fits N ds st) {p x : Nat} (hp : p < ds.length) (hx : x < ds[p]) :
    -(N : Int) < st[p]'(by rw [h.len]; exact hp) * (x : Int) ∧
      st[p]'(by rw [h.len]; exact hp) * (x : Int) < N := by
  have hps : p < st.length := by rw [h.len]; exact hp
  have hz : Valid ds (List.replicate ds.length 0) := valid_zeros h.pos
  have hv := valid_set hz p x (by simpa [hp] using hx)
  have := h.bd _ hv
  rw [dot_set st _ p x (by simpa using hp) hps, dot_zeros] at this
  simpa using this

theorem Fits.dim_pos {N ds st} (h : Fits N ds st) {p : Nat} (hp : p < ds.length) : 0 < ds[p] := by
  by_contra hc
  have : size ds = 0 := size_eq_zero_iff.2 (by
    have e : ds[p] = 0 := by omega
    rw [← e]; exact List.getElem_mem _)
  have := h.pos; omega

theorem Fits.dim_le {N ds st} (h : Fits N ds st) {d : Nat} (hd : d ∈ ds) : d ≤ N := by
  have := le_bsize hd
  rw [bsize_eq h.pos] at this
  exact this.trans h.sz

theorem Fits.mul {N ds st} (h : Fits N ds st) {p x : Nat} (hp : p < ds.length) (hx : x ≤ ds[p]) :
    FitsI (st[p]'(by rw [h.len]; exact hp) * (x : Int)) := by
  have hps : p < st.length := by rw [h.len]; exact hp
  have hd := h.dim_pos hp
  have hN := h.hN
  by_cases h2 : ds[p] = 1
  · rcases (by omega : x = 0 ∨ x = 1) with rfl | rfl
    · simpa using fits_zero
    · simpa using h.fit _ (List.getElem_mem hps)
  · by_cases hxx : x < ds[p]
    · have := h.single hp hxx
      exact ⟨by omega, by omega⟩
    · have hx' : x = (x - 1) + 1 := by omega
      have b1 := h.single hp (x := x - 1) (by omega)
      have b2 := h.single hp (x := 1) (by omega)
      rw [hx']
      push_cast at b1 b2 ⊢
      constructor <;> (rw [mul_add]; omega)

theorem Fits.zip_fit {N ds st} (h : Fits N ds st) : ∀ x ∈ ds.zip st, FitsI (x.2 * (x.1 : Int)) := by
  intro x hx
  obtain ⟨p, hp, rfl⟩ := List.getElem_of_mem hx
  have hp' : p < ds.length := by simp at hp; omega
  rw [List.getElem_zip]
  exact h.mul hp' (le_refl _)

theorem Fits.tail {N d ds s st} (h : Fits N (d :: ds) (s :: st)) : Fits N ds st := by
  have hp := h.pos
  rw [size_cons] at hp
  have hd := Nat.pos_of_mul_pos_right hp
  refine ⟨by simpa using h.len, Nat.pos_of_mul_pos_left hp, ?_, h.hN, fun i hi => ?_,
    fun x hx => h.fit x (by simp [hx])⟩
  · have := h.sz
    rw [size_cons] at this
    exact (Nat.le_mul_of_pos_left _ hd).trans this
  · have := h.bd (0 :: i) (by simp [hd, hi])
    simpa using this

/-- `Fits` for a view. -/
def VFits (N : Nat) (v : View) : Prop := v.map.WF ∧ Fits N v.dims v.map.strides

section
variable {checks : Bool} {N : Nat} {v : View}

theorem viewRemap_eq (h : VFits N v) (ty L) : viewRemap checks v ty L = v.remap ty L := by
  unfold viewRemap View.remap; rw [remap_eq h.1 h.2.pos h.2.lt]

theorem viewPermute_eq (h : VFits N v) (perm) : viewPermute checks v perm = v.permute checks perm := by
  unfold viewPermute View.permute; rw [permute_eq h.1 h.2.pos h.2.lt]

theorem viewReorder_eq (h : VFits N v) : viewReorder checks v = v.reorder := by
  unfold viewReorder View.reorder; rw [reorder_eq h.2.bsize]

theorem reshape_eq {m : Mapping} (h : m.WF) (hf : Fits N m.dims m.strides) {ns : Shape} (hw : ns.WF) :
    reshape checks m ns = m.reshape ns := by
  unfold reshape Mapping.reshape
  rw [shapeReshape_eq hf.bsize]
  cases hs : m.shape.reshape ns with
  | none => rfl
  | some s' =>
    simp only [Option.bind_eq_bind, Option.bind_some]
    obtain ⟨_, _, hsz, _⟩ := Shape.reshape_result hw hs
    cases m with
    | dense s => rfl
    | strided s st =>
      dsimp only
      have := reshapeStrides_eq checks hf.len hf.pos hf.lt hsz hf.zip_fit
      simp only [Mapping.dims, Mapping.shape, Mapping.strides] at this
      rw [this]

theorem viewReshape_eq (h : VFits N v) {ns : Shape} (hw : ns.WF) : viewReshape checks v ns = v.reshape ns := by
  unfold viewReshape View.reshape; rw [reshape_eq h.1 h.2 hw]

theorem flatten_eq (h : VFits N v) : flatten checks v = v.flatten := by
  unfold flatten View.flatten
  rw [len_eq (usizeMax_lt h.2.bsize), Option.bind_eq_bind, Option.bind_some, viewReshape_eq h]
  · rfl
  · show (ShapeTy.static [.dyn]).Conforms _; simp

theorem axisAt_eq (h : VFits N v) (a : Axis) (i : Nat) : axisAt checks v a i = v.axisAt a i := by
  unfold axisAt View.axisAt
  cases hp : a.index v.map.rank with
  | none => rfl
  | some p =>
    have hlt : p < v.dims.length := Axis.index_lt hp
    simp only [Option.bind_eq_bind, Option.bind_some, Mapping.dim_eq]
    rw [List.getElem?_eq_getElem (show p < v.map.dims.length from hlt), Option.bind_some, Option.bind_some]
    by_cases hi : i < v.map.dims[p]
    swap
    · have : check (i < v.map.dims[p]) = none := if_neg hi
      rw [this]; rfl
    · have : check (i < v.map.dims[p]) = some () := if_pos hi
      rw [this, Option.bind_some, Option.bind_some, removeMap_eq h.2.bsize, stride_eq h.2.bsize]
      cases hm : a.removeMap v.map with
      | none => rfl
      | some m =>
        simp only [Option.bind_some]
        rw [Mapping.stride_eq _ h.1,
          List.getElem?_eq_getElem (show p < v.map.strides.length by rw [h.1.len]; exact hlt)]
        simp only [Option.bind_some]
        have hiN : i < 9223372036854775808 := by
          have := h.2.dim_le (List.getElem_mem hlt)
          have := h.2.hN
          have hi' : i < v.dims[p] := hi
          omega
        rw [castI_ok hiN, retI_fit (h.2.mul hlt (le_of_lt hi)), Option.bind_some]
        have hmd : m.dims = v.dims.eraseIdx p := by
          have := View.axisAt_eq v h.1 a i
          unfold Axis.removeMap at hm
          rw [hp] at hm
          simp only [Option.bind_eq_bind, Option.bind_some] at hm
          rw [Mapping.removeDim_eq _ h.1] at hm
          split at hm
          · simp at hm; subst hm; exact Mapping.mk_dims ..
          · simp at hm
        have hb : bsize m.shape.dims ≤ usizeMax := by
          apply usizeMax_lt
          show bsize m.dims < _
          rw [hmd]
          exact lt_of_le_of_lt (bsize_eraseIdx_le _ _) h.2.bsize
        rw [isEmpty_eq hb]
        rfl

theorem splitAxisAt_eq (h : VFits N v) (a : Axis) (mid : Nat) :
    splitAxisAt checks v a mid = v.splitAxisAt a mid := by
  unfold splitAxisAt View.splitAxisAt
  cases hp : a.index v.map.rank with
  | none => rfl
  | some p =>
    have hlt : p < v.dims.length := Axis.index_lt hp
    simp only [Option.bind_eq_bind, Option.bind_some, Mapping.dim_eq]
    rw [List.getElem?_eq_getElem (show p < v.map.dims.length from hlt), Option.bind_some, Option.bind_some]
    by_cases hi : mid ≤ v.map.dims[p]
    swap
    · have : check (mid ≤ v.map.dims[p]) = none := if_neg hi
      rw [this]; rfl
    · have : check (mid ≤ v.map.dims[p]) = some () := if_pos hi
      rw [this, Option.bind_some, Option.bind_some, resizeMap_eq h.2.bsize, resizeMap_eq h.2.bsize,
        stride_eq h.2.bsize, View.resizeMap_eq v h.1 mid hp, View.resizeMap_eq v h.1 _ hp]
      simp only [Option.bind_some]
      rw [Mapping.stride_eq _ h.1,
        List.getElem?_eq_getElem (show p < v.map.strides.length by rw [h.1.len]; exact hlt)]
      simp only [Option.bind_some]
      have hiN : mid < 9223372036854775808 := by
        have := h.2.dim_le (List.getElem_mem hlt)
        have := h.2.hN
        have hi' : mid ≤ v.dims[p] := hi
        omega
      rw [castI_ok hiN, retI_fit (h.2.mul hlt hi), Option.bind_some]
      have hb : bsize (Mapping.mk (a.resizeTy v.ty) (v.dims.set p (v.map.dims[p] - mid)) v.map.strides
          (a.split v.ty v.layout)).shape.dims ≤ usizeMax := by
        apply usizeMax_lt
        rw [Mapping.mk_shape]
        exact lt_of_le_of_lt (bsize_set_le hlt (Nat.sub_le _ _)) h.2.bsize
      rw [isEmpty_eq hb]
      rfl

end

/-! ### Indices -/

theorem foldCast (f : Int → Option Int) (cast : Nat → Int) (idx : List Nat)
    (h : ∀ (c : Nat) (i : Nat), idx[c]? = some i → cast i = i ∧ f (i : Int) = some (i : Int))
    (l : List (Nat × Int)) (a : Int) :
    l.foldlM (fun (off : Int) (c : Nat × Int) => do
      let i : Nat ← idx[c.1]?
      let p ← f (c.2 * cast i)
      f (off + p)) a =
    l.foldlM (fun (off : Int) (c : Nat × Int) => do
      let i : Nat ← idx[c.1]?
      let i' ← f (i : Int)
      let p ← f (c.2 * i')
      f (off + p)) a := by
  induction l generalizing a with
  | nil => rfl
  | cons c l ih =>
    rw [List.foldlM_cons, List.foldlM_cons]
    have e : (do
        let i : Nat ← idx[c.1]?
        let p ← f (c.2 * cast i)
        f (a + p)) = (do
        let i : Nat ← idx[c.1]?
        let i' ← f (i : Int)
        let p ← f (c.2 * i')
        f (a + p)) := by
      cases hi : idx[c.1]? with
      | none => rfl
      | some i =>
        obtain ⟨h1, h2⟩ := h _ _ hi
        simp only [Option.bind_eq_bind, Option.bind_some, h1, h2]
    rw [e]
    congr 1
    funext b
    exact ih b

theorem index_eq {checks : Bool} {N : Nat} {v : View} (h : VFits N v) (idx : List Nat) :
    index checks v idx = v.index idx := by
  unfold index View.index
  by_cases hl : idx.length = v.map.rank
  swap
  · rw [check_neg hl, check_neg hl]
  rw [check_pos hl, check_pos hl]
  cases hb : View.boundsLoop v.map idx with
  | none => rfl
  | some u =>
    have hv : Valid v.dims idx := (View.boundsLoop_isSome v.map idx hl).1 (by rw [hb]; rfl)
    have : offset checks v.map idx = v.map.offset idx := by
      unfold offset
      rw [calls_eq h.2.bsize]
      have hN := h.2.hN
      obtain ⟨r, h1, h2⟩ := Mapping.foldChk (retI checks) (fun h1 h2 => retI_fit ⟨h1, h2⟩) v.map.strides
        v.dims idx N (by omega) hv h.1.len h.2.bd (fun d hd => h.2.dim_le hd) v.map.forEachStride
        (fun c hc => Mapping.mem_forEachStride.1 hc) (Mapping.forEachStride_nodup _) 0
        (List.replicate v.dims.length 0) (valid_zeros hv.size_pos)
        (fun c hc => by
          have := (List.getElem?_eq_some_iff.1 (Mapping.mem_forEachStride.1 hc)).1
          rw [h.1.len] at this
          have hh : c.1 < v.dims.length := this
          simp [hh]) (dot_zeros _ _).symm
      unfold Mapping.offset
      rw [h2, ← h1]
      simp only [Option.bind_eq_bind, Option.bind_some]
      exact foldCast (retI checks) castI idx (fun c i hi => by
        obtain ⟨hlt, rfl⟩ := List.getElem?_eq_some_iff.1 hi
        have hltd : c < v.dims.length := by rw [← hv.length]; exact hlt
        have h1 := (valid_iff.1 hv).2 c hlt hltd
        have h2 := h.2.dim_le (List.getElem_mem hltd)
        have h3 : idx[c] < 9223372036854775808 := by omega
        exact ⟨castI_ok h3, retI_fit (fitsI_nat h3)⟩) _ _
    simp only [Option.bind_eq_bind, Option.bind_some]
    rw [this]

/-! ### View indices -/

/-- Combination of one argument with the result for the following axes, with machine integers. -/
def apConsM (checks : Bool) (s : Int) (r : Int × List Nat × List Int) :
    Nat × Option (Nat × Int) → Option (Int × List Nat × List Int)
  | (delta, none) => do
    let p ← retI checks (s * castI delta)
    let o ← retI checks (r.1 + p)
    pure (o, r.2.1, r.2.2)
  | (delta, some (len, mult)) => do
    let p ← retI checks (s * castI delta)
    let o ← retI checks (r.1 + p)
    let t ← retI checks (s * mult)
    pure (o, len :: r.2.1, t :: r.2.2)

/-- All arguments: total offset, dimensions, strides, with machine integers. -/
def apAllM (checks : Bool) : List DimIdx → List Nat → List Int → Option (Int × List Nat × List Int)
  | [], [], [] => some (0, [], [])
  | x :: xs, d :: ds, s :: ss => do
    let r ← apAllM checks xs ds ss
    let q ← ViewIdx.apSel x d
    apConsM checks s r q
  | _, _, _ => none

open ViewIdx in
/-- Selected progressions stay within the axis. -/
theorem apSel_bounds {x : DimIdx} {d : Nat} (hd : d ≤ usizeMax) :
    (∀ delta, apSel x d = some (delta, none) → delta < d) ∧
    ∀ delta len mult, apSel x d = some (delta, some (len, mult)) →
      len ≤ d ∧ delta ≤ d ∧ (0 < len → delta < d) ∧ (2 ≤ len → mult.natAbs < d) := by
  have := apSel_spec (x := x) hd
  constructor
  · intro delta e
    rw [e] at this
    cases hs : select x d with
    | none => rw [hs] at this; exact this.elim
    | some q =>
      rw [hs] at this
      cases q with
      | keep l => exact this.elim
      | drop i => have := this; omega
  · intro delta len mult e
    rw [e] at this
    cases hs : select x d with
    | none => rw [hs] at this; exact this.elim
    | some q =>
      rw [hs] at this
      cases q with
      | drop i => exact this.elim
      | keep l =>
        obtain ⟨hl, hj⟩ := this
        have hdl : len ≤ d ∧ delta ≤ d := by
          cases x with
          | int i => simp only [apSel] at e; split at e <;> simp at e
          | full => simp [apSel] at e; omega
          | range a b =>
            simp only [apSel] at e
            rw [rangeNorm_eq hd] at e
            split at e
            · simp at e; omega
            · simp at e
          | step a b s =>
            simp only [apSel] at e
            rw [rangeNorm_eq hd] at e
            split at e
            swap
            · simp at e
            rename_i hc
            by_cases h0 : s.natAbs ≠ 0
            swap
            · have e1 : check (s.natAbs ≠ 0) = none := if_neg h0
              rw [e1] at e
              simp at e
            have e1 : check (s.natAbs ≠ 0) = some () := if_pos h0
            simp only [Option.bind_eq_bind, Option.bind_some, e1, Option.pure_def, Option.some.injEq,
              Prod.mk.injEq] at e
            obtain ⟨e2, e3, e4⟩ := e
            have hle : (hi d b - lo a + s.natAbs - 1) / s.natAbs ≤ hi d b - lo a := by
              rw [Nat.div_le_iff_le_mul_add_pred (by omega)]
              have := Nat.mul_le_mul_right (hi d b - lo a) (show 1 ≤ s.natAbs by omega)
              omega
            split at e2 <;> omega
        refine ⟨hdl.1, hdl.2, fun h => ?_, fun h => ?_⟩
        · have := hj 0 (by omega)
          have h2 := this.2
          have h1 := this.1
          simp at h1
          omega
        · have h0 := hj 0 (by omega)
          have h1 := hj 1 (by omega)
          have a0 := h0.1; have a1 := h1.1
          simp at a0 a1
          have := h0.2; have := h1.2
          omega

open ViewIdx ShapeTy in
theorem viewIndex_eq {checks : Bool} {N : Nat} (m : Mapping) (hm : m.WF) (hf : Fits N m.dims m.strides)
    (xs : List DimIdx) :
    ∀ (sty : ShapeTy) (pd ds : List Nat) (ps ss : List Int),
      m.dims = pd ++ ds → m.strides = ps ++ ss → ds.length = xs.length → ss.length = xs.length →
      sty.Conforms ds →
      (viewIndex checks m xs sty = (apAllM checks xs ds ss).map fun r =>
        (r.1, Mapping.mk (shapeTy xs sty) r.2.1 r.2.2 (ViewIdx.layout m.layout xs))) ∧
      ∀ off nd ns, apAllM checks xs ds ss = some (off, nd, ns) →
        (shapeTy xs sty).Conforms nd ∧ ns.length = nd.length ∧
        (ViewIdx.layout m.layout xs = .dense → ns = denseStrides nd) ∧
        (outer m.layout xs = .dense → nd = ds ∧ off = 0) ∧
        FitsI off ∧ bsize nd ≤ bsize ds ∧ ∀ s ∈ ns, FitsI s := by
  induction xs with
  | nil =>
    intro sty pd ds ps ss hd hs hdl hsl hc
    have h1 : ds = [] := by simpa using hdl
    have h2 : ss = [] := by simpa using hsl
    subst h1 h2
    refine ⟨?_, ?_⟩
    · simp only [viewIndex, apAllM, Option.map_some, ViewIdx.layout]
      cases m.layout <;> rfl
    · intro off nd ns h
      simp [apAllM] at h
      obtain ⟨rfl, rfl, rfl⟩ := h
      simp [shapeTy, denseStrides, fits_zero]
  | cons x xs ih =>
    intro sty pd ds ps ss hd hs hdl hsl hc
    cases ds with
    | nil => simp at hdl
    | cons d ds =>
    cases ss with
    | nil => simp at hsl
    | cons s ss =>
    simp at hdl hsl
    obtain ⟨ih1, ih2⟩ := ih sty.tail (pd ++ [d]) ds (ps ++ [s]) ss (by simp [hd]) (by simp [hs]) hdl hsl
      (conforms_tail hc)
    have hlen : pd.length = ps.length := by
      have := hm.2
      rw [hd, hs] at this; simp at this; omega
    have hpos : m.rank - 1 - xs.length = pd.length := by
      show m.dims.length - 1 - xs.length = _
      rw [hd]; simp; omega
    have hstride : stride checks m pd.length = some s := by
      rw [stride_eq hf.bsize, hlen]; exact stride_append hm hs
    have hdim : m.dim pd.length = some d := dim_append hd
    have hdense : m.layout = .dense → ss = denseStrides ds ∧ s = (size ds : Int) := by
      intro hl
      have := Mapping.strides_of_dense hl
      rw [hd, hs, Mapping.denseStrides_append] at this
      have h3 := (List.append_inj this (by simp [hlen])).2
      simp [denseStrides] at h3
      exact ⟨h3.2, h3.1⟩
    have hfs : FitsI s := hf.fit s (by rw [hs]; simp)
    have hd' : m.dims.drop (pd.length + 1) = ds := by rw [hd]; simp
    have hbs : bsize ds < 9223372036854775808 := by
      rw [← hd']; exact lt_of_le_of_lt (bsize_drop_le _ _) hf.bsize
    have hdu : d ≤ usizeMax := by
      apply usizeMax_lt
      have := hf.dim_le (d := d) (by rw [hd]; simp)
      have := hf.hN
      omega
    simp only [viewIndex, hpos, ih1, apAllM]
    cases hr : apAllM checks xs ds ss with
    | none => simp
    | some r =>
      obtain ⟨off, nd, ns⟩ := r
      obtain ⟨c1, c2, c3, c4, c5, c6, c7⟩ := ih2 off nd ns hr
      have hwf : (Mapping.mk (shapeTy xs sty.tail) nd ns (ViewIdx.layout m.layout xs)).WF := Mapping.mk_wf c1 c2
      have hst : (Mapping.mk (shapeTy xs sty.tail) nd ns (ViewIdx.layout m.layout xs)).strides = ns :=
        Mapping.mk_strides c3
      have hbm : bsize (Mapping.mk (shapeTy xs sty.tail) nd ns (ViewIdx.layout m.layout xs)).dims <
          9223372036854775808 := by rw [Mapping.mk_dims]; omega
      have hle : ∀ n, n ≤ d → bsize (n :: nd) ≤ bsize (d :: ds) := by
        intro n hn
        rw [bsize_cons, bsize_cons]
        exact Nat.mul_le_mul (by omega) c6
      simp only [Option.map_some, Option.bind_eq_bind, Option.bind_some, hdim, hstride]
      cases x with
      | int i =>
        have hl : ViewIdx.layout m.layout (DimIdx.int i :: xs) = ViewIdx.layout m.layout xs := rfl
        have ht : shapeTy (DimIdx.int i :: xs) sty = shapeTy xs sty.tail := rfl
        have hre : remap checks (Mapping.mk (shapeTy xs sty.tail) nd ns (ViewIdx.layout m.layout xs))
            (shapeTy xs sty.tail) (ViewIdx.layout m.layout xs)
            = some (Mapping.mk (shapeTy xs sty.tail) nd ns (ViewIdx.layout m.layout xs)) := by
          have := remap_same (checks := checks) hbm (shapeTy xs sty.tail)
          rw [Mapping.mk_layout] at this
          rw [this, Mapping.remap_eq _ hwf, if_pos, Mapping.mk_dims, hst]
          refine ⟨by rw [Mapping.mk_dims]; exact c1, ?_⟩
          intro hh; rw [Mapping.isContiguous_iff hwf, hst, Mapping.mk_dims]; exact c3 hh
        simp only [hl, ht, hre, apSel]
        by_cases hi : i < d
        swap
        · refine ⟨?_, ?_⟩
          · simp only [if_neg hi, Option.bind_none, Option.map_none]
            show (check _ >>= _) = _
            rw [check_neg hi]
          · intro off' nd' ns' h; simp [hi] at h
        simp only [if_pos hi, Option.bind_some, apConsM, Option.bind_eq_bind]
        have e1 : check (i < d) = some () := if_pos hi
        cases hp : retI checks (s * castI i) with
        | none => simp [e1]
        | some p =>
          cases ho : retI checks (off + p) with
          | none => simp [e1, ho]
          | some o =>
            refine ⟨by simp [e1, ho], ?_⟩
            intro off' nd' ns' h
            simp [ho] at h
            obtain ⟨rfl, rfl, rfl⟩ := h
            refine ⟨c1, c2, c3, by simp [outer], retI_fits ho, ?_, c7⟩
            rw [bsize_cons]
            exact c6.trans (Nat.le_mul_of_pos_left _ (by omega))
      | full =>
        have hl : ViewIdx.layout m.layout (DimIdx.full :: xs) = outer m.layout xs := rfl
        have ht : shapeTy (DimIdx.full :: xs) sty = (shapeTy xs sty.tail).prepend sty.head := rfl
        have hcf : ((shapeTy xs sty.tail).prepend sty.head).Conforms (d :: nd) :=
          conforms_prepend (conforms_head hc) c1
        have hpre : prependDim checks (Mapping.mk (shapeTy xs sty.tail) nd ns (ViewIdx.layout m.layout xs)) d s
            ((shapeTy xs sty.tail).prepend sty.head) (outer m.layout xs)
            = some (Mapping.mk ((shapeTy xs sty.tail).prepend sty.head) (d :: nd) (s :: ns)
                (outer m.layout xs)) := by
          rw [prependDim_eq hbm, Mapping.prependDim_eq _ hwf, if_pos, Mapping.mk_dims, hst]
          rw [Mapping.mk_dims]
          refine ⟨hcf, ?_⟩
          intro hh
          rw [Mapping.mk_layout]
          exact ⟨(outer_dense hh).2, by rw [(hdense (outer_dense hh).1).2, (c4 hh).1]⟩
        have hc0 : castI 0 = 0 := castI_ok (by omega)
        simp only [hl, ht, hpre, apSel, apConsM, Option.bind_eq_bind, Option.bind_some, hc0, mul_zero,
          retI_fit fits_zero, add_zero, retI_fit c5, mul_one, retI_fit hfs]
        refine ⟨by simp, ?_⟩
        intro off' nd' ns' h
        simp at h
        obtain ⟨rfl, rfl, rfl⟩ := h
        refine ⟨hcf, by simp [c2], ?_, ?_, c5, hle d (le_refl _), by simpa using ⟨hfs, c7⟩⟩
        · intro hh
          have h4 := c4 hh
          rw [c3 (outer_dense hh).2]
          simp [denseStrides, h4.1, (hdense (outer_dense hh).1).2]
        · intro hh
          have h4 := c4 hh
          exact ⟨by rw [h4.1], h4.2⟩
      | range a b =>
        have hl : ViewIdx.layout m.layout (DimIdx.range a b :: xs) = outer m.layout xs := rfl
        have ht : shapeTy (DimIdx.range a b :: xs) sty = (shapeTy xs sty.tail).prepend .dyn := rfl
        cases hrn : rangeNorm a b d with
        | none =>
          simp only [apSel, hrn]
          exact ⟨rfl, by simp⟩
        | some se =>
          obtain ⟨st, en⟩ := se
          have hcf : ((shapeTy xs sty.tail).prepend .dyn).Conforms ((en - st) :: nd) :=
            conforms_prepend trivial c1
          have hpre : prependDim checks (Mapping.mk (shapeTy xs sty.tail) nd ns (ViewIdx.layout m.layout xs)) (en - st) s
              ((shapeTy xs sty.tail).prepend .dyn) (outer m.layout xs)
              = some (Mapping.mk ((shapeTy xs sty.tail).prepend .dyn) ((en - st) :: nd) (s :: ns)
                  (outer m.layout xs)) := by
            rw [prependDim_eq hbm, Mapping.prependDim_eq _ hwf, if_pos, Mapping.mk_dims, hst]
            rw [Mapping.mk_dims]
            refine ⟨hcf, ?_⟩
            intro hh
            rw [Mapping.mk_layout]
            exact ⟨(outer_dense hh).2, by rw [(hdense (outer_dense hh).1).2, (c4 hh).1]⟩
          have hled : en - st ≤ d := ((apSel_bounds (x := .range a b) hdu).2 st (en - st) 1
            (by simp [apSel, hrn])).1
          simp only [hl, ht, apSel, apConsM, hrn, Option.map_some, Option.bind_some, hpre,
            Option.bind_eq_bind, mul_one, retI_fit hfs]
          cases hp : retI checks (s * castI st) with
          | none => simp
          | some p =>
            cases ho : retI checks (off + p) with
            | none => simp [ho]
            | some o =>
              refine ⟨by simp [ho], ?_⟩
              intro off' nd' ns' h
              simp [ho] at h
              obtain ⟨rfl, rfl, rfl⟩ := h
              refine ⟨hcf, by simp [c2], ?_, by simp [outer], retI_fits ho, hle _ hled,
                by simpa using ⟨hfs, c7⟩⟩
              intro hh
              have h4 := c4 hh
              rw [c3 (outer_dense hh).2]
              simp [denseStrides, h4.1, (hdense (outer_dense hh).1).2]
      | step a b k =>
        have hl : ViewIdx.layout m.layout (DimIdx.step a b k :: xs) = .strided := rfl
        have ht : shapeTy (DimIdx.step a b k :: xs) sty = (shapeTy xs sty.tail).prepend .dyn := rfl
        cases hrn : rangeNorm a b d with
        | none =>
          simp only [apSel, hrn]
          exact ⟨rfl, by simp⟩
        | some se =>
          obtain ⟨st, en⟩ := se
          by_cases hk : k.natAbs ≠ 0
          swap
          · simp only [apSel, hrn, Option.bind_some, Option.bind_eq_bind]
            have e1 : check (k.natAbs ≠ 0) = none := if_neg hk
            simp only [e1, Option.bind_none, Option.map_none]
            exact ⟨trivial, fun _ _ _ h => by simp at h⟩
          have e1 : check (k.natAbs ≠ 0) = some () := if_pos hk
          have hcf : ((shapeTy xs sty.tail).prepend .dyn).Conforms
              (((en - st + k.natAbs - 1) / k.natAbs) :: nd) := conforms_prepend trivial c1
          have hpre : ∀ t, prependDim checks (Mapping.mk (shapeTy xs sty.tail) nd ns (ViewIdx.layout m.layout xs))
              ((en - st + k.natAbs - 1) / k.natAbs) t
              ((shapeTy xs sty.tail).prepend .dyn) .strided
              = some (Mapping.mk ((shapeTy xs sty.tail).prepend .dyn)
                  (((en - st + k.natAbs - 1) / k.natAbs) :: nd) (t :: ns) .strided) := by
            intro t
            rw [prependDim_eq hbm, Mapping.prependDim_eq _ hwf, if_pos, Mapping.mk_dims, hst]
            rw [Mapping.mk_dims]
            exact ⟨hcf, by simp⟩
          have hled := ((apSel_bounds (x := .step a b k) hdu).2
            (if k < 0 ∧ st < en then en - 1 else st) ((en - st + k.natAbs - 1) / k.natAbs) k
            (by simp only [apSel, hrn, Option.bind_eq_bind, Option.bind_some, e1]; rfl)).1
          simp only [hl, ht, apSel, apConsM, hrn, Option.bind_some, hpre, e1, Option.bind_eq_bind,
            Option.pure_def]
          cases hp : retI checks (s * castI (if k < 0 ∧ st < en then en - 1 else st)) with
          | none => simp
          | some p =>
            cases ho : retI checks (off + p) with
            | none => simp [ho]
            | some o =>
              cases htt : retI checks (s * k) with
              | none => simp [ho]
              | some t =>
                refine ⟨by simp [ho], ?_⟩
                intro off' nd' ns' h
                simp [ho] at h
                obtain ⟨rfl, rfl, rfl⟩ := h
                exact ⟨hcf, by simp [c2], by simp, by simp [outer], retI_fits ho, hle _ hled,
                  by simpa using ⟨retI_fits htt, c7⟩⟩

/-! ### View indices with and without bounds on the integers -/

theorem Fits.head {N d ds s st} (h : Fits N (d :: ds) (s :: st)) {x : Nat} (hx : x ≤ d) :
    FitsI (s * (x : Int)) := h.mul (p := 0) (by simp) (by simpa using hx)

theorem Fits.head_step {N d ds s st} (h : Fits N (d :: ds) (s :: st)) {k : Int} (hk : k.natAbs < d) :
    FitsI (s * k) := by
  have h1 := h.single (p := 0) (x := k.natAbs) (by simp) (by simpa using hk)
  have hN := h.hN
  simp only [List.getElem_cons_zero] at h1
  rcases (by omega : k = (k.natAbs : Int) ∨ k = -(k.natAbs : Int)) with e | e
  · rw [e]; exact ⟨by omega, by omega⟩
  · rw [e, mul_neg]; exact ⟨by omega, by omega⟩

theorem Fits.head_cast {N d ds s st} (h : Fits N (d :: ds) (s :: st)) {x : Nat} (hx : x ≤ d) :
    castI x = x := by
  apply castI_ok
  have := h.dim_le (d := d) (by simp)
  have := h.hN
  omega

theorem Fits.head_usize {N d ds s st} (h : Fits N (d :: ds) (s :: st)) : d ≤ usizeMax := by
  apply usizeMax_lt
  have := h.dim_le (d := d) (by simp)
  have := h.hN
  omega

theorem dot_cons_nil (s : Int) (st : List Int) : dot (s :: st) [] = 0 := by simp [dot]

open ViewIdx in
/-- What the machine integers give is what unbounded integers give. -/
theorem apAllM_sound {checks : Bool} {N : Nat} (xs : List DimIdx) :
    ∀ (ds : List Nat) (ss : List Int), Fits N ds ss →
      ∀ off nd ns, apAllM checks xs ds ss = some (off, nd, ns) →
        ∃ off' ns', apAll xs ds ss = some (off', nd, ns') ∧ ns'.length = nd.length ∧
          ns.length = nd.length ∧ (∀ j, Valid nd j → dot ns j = dot ns' j) ∧
          (0 < size nd → off = off' ∧ ∃ b, Valid ds b ∧ off' = dot ss b) := by
  induction xs with
  | nil =>
    intro ds ss hf off nd ns h
    cases ds with
    | cons d ds => simp [apAllM] at h
    | nil =>
      cases ss with
      | cons s ss => simp [apAllM] at h
      | nil =>
        simp [apAllM] at h
        obtain ⟨rfl, rfl, rfl⟩ := h
        exact ⟨0, [], rfl, rfl, rfl, fun _ _ => rfl, fun _ => ⟨rfl, [], by simp, by simp⟩⟩
  | cons x xs ih =>
    intro ds ss hf off nd ns h
    cases ds with
    | nil => simp [apAllM] at h
    | cons d ds =>
    cases ss with
    | nil => simp [apAllM] at h
    | cons s ss =>
    simp only [apAllM] at h
    cases hr : apAllM checks xs ds ss with
    | none => simp [hr] at h
    | some r =>
    obtain ⟨off₁, nd₁, ns₁⟩ := r
    obtain ⟨off₁', ns₁', g1, g2, g2', g3, g4⟩ := ih ds ss hf.tail _ _ _ hr
    cases hq : apSel x d with
    | none => simp [hr, hq] at h
    | some q =>
    obtain ⟨hb1, hb2⟩ := apSel_bounds (x := x) hf.head_usize
    obtain ⟨delta, k⟩ := q
    simp only [hr, hq, Option.bind_eq_bind, Option.bind_some] at h
    have key : ∀ {p o}, delta ≤ d → retI checks (s * castI delta) = some p →
        retI checks (off₁ + p) = some o → delta < d → 0 < size nd₁ →
        o = off₁' + s * (delta : Int) ∧ ∃ b, Valid (d :: ds) b ∧ off₁' + s * (delta : Int) = dot (s :: ss) b := by
      intro p o hle hp ho hlt hpos
      obtain ⟨e1, b, hb, e2⟩ := g4 hpos
      have hb' : Valid (d :: ds) (delta :: b) := by simp [hlt, hb]
      have e3 : off₁' + s * (delta : Int) = dot (s :: ss) (delta :: b) := by rw [dot_cons, e2]; ring
      rw [hf.head_cast hle, retI_fit (hf.head hle)] at hp
      obtain rfl : _ = p := by simpa using hp
      have hN := hf.hN
      have hbd := hf.bd _ hb'
      rw [e1, retI_fit (by rw [e3]; exact ⟨by omega, by omega⟩)] at ho
      exact ⟨by simpa using ho.symm, _, hb', e3⟩
    cases k with
    | none =>
      have hlt := hb1 delta hq
      simp only [apConsM, Option.bind_eq_bind] at h
      cases hp : retI checks (s * castI delta) with
      | none => simp [hp] at h
      | some p =>
      cases ho : retI checks (off₁ + p) with
      | none => simp [hp, ho] at h
      | some o =>
      simp [hp, ho] at h
      obtain ⟨rfl, rfl, rfl⟩ := h
      refine ⟨off₁' + s * (delta : Int), ns₁', ?_, g2, g2', g3, fun hpos => key (by omega) hp ho hlt hpos⟩
      simp only [apAll, g1, hq]; rfl
    | some lm =>
      obtain ⟨len, mult⟩ := lm
      obtain ⟨b1, b2, b3, b4⟩ := hb2 delta len mult hq
      simp only [apConsM, Option.bind_eq_bind] at h
      cases hp : retI checks (s * castI delta) with
      | none => simp [hp] at h
      | some p =>
      cases ho : retI checks (off₁ + p) with
      | none => simp [hp, ho] at h
      | some o =>
      cases ht : retI checks (s * mult) with
      | none => simp [hp, ho, ht] at h
      | some t =>
      simp [hp, ho, ht] at h
      obtain ⟨rfl, rfl, rfl⟩ := h
      refine ⟨off₁' + s * (delta : Int), s * mult :: ns₁', ?_, by simp [g2], by simp [g2'], ?_, ?_⟩
      · simp only [apAll, g1, hq]; rfl
      · intro j hj
        cases j with
        | nil => rw [dot_cons_nil, dot_cons_nil]
        | cons j js =>
          rw [valid_cons] at hj
          rw [dot_cons, dot_cons, g3 js hj.2]
          by_cases h2 : 2 ≤ len
          · rw [retI_fit (hf.head_step (b4 h2))] at ht
            obtain rfl : _ = t := by simpa using ht
            rfl
          · have : j = 0 := by omega
            subst this; simp
      · intro hpos
        rw [size_cons] at hpos
        have hl := Nat.pos_of_mul_pos_right hpos
        exact key b2 hp ho (b3 hl) (Nat.pos_of_mul_pos_left hpos)

open ViewIdx in
/-- The base of a non-empty selection is an element of the array. -/
theorem apAll_base (xs : List DimIdx) :
    ∀ (ds : List Nat) (ss : List Int), (∀ d ∈ ds, d ≤ usizeMax) →
      ∀ off nd ns, apAll xs ds ss = some (off, nd, ns) → 0 < size nd →
        ∃ b, Valid ds b ∧ off = dot ss b := by
  induction xs with
  | nil =>
    intro ds ss _ off nd ns h _
    cases ds with
    | cons d ds => simp [apAll] at h
    | nil =>
      cases ss with
      | cons s ss => simp [apAll] at h
      | nil =>
        simp [apAll] at h
        obtain ⟨rfl, rfl, rfl⟩ := h
        exact ⟨[], by simp, by simp⟩
  | cons x xs ih =>
    intro ds ss hu off nd ns h hpos
    cases ds with
    | nil => simp [apAll] at h
    | cons d ds =>
    cases ss with
    | nil => simp [apAll] at h
    | cons s ss =>
    simp only [apAll] at h
    cases hr : apAll xs ds ss with
    | none => simp [hr] at h
    | some r =>
    obtain ⟨off₁, nd₁, ns₁⟩ := r
    cases hq : apSel x d with
    | none => simp [hr, hq] at h
    | some q =>
    obtain ⟨hb1, hb2⟩ := apSel_bounds (x := x) (hu d (by simp))
    obtain ⟨delta, k⟩ := q
    simp only [hr, hq, Option.bind_eq_bind, Option.bind_some] at h
    have key : delta < d → 0 < size nd₁ → ∃ b, Valid (d :: ds) b ∧ off₁ + s * (delta : Int) = dot (s :: ss) b := by
      intro hlt hp
      obtain ⟨b, hb, e⟩ := ih ds ss (fun d hd => hu d (by simp [hd])) _ _ _ hr hp
      exact ⟨delta :: b, by simp [hlt, hb], by rw [dot_cons, e]; ring⟩
    cases k with
    | none =>
      simp [apCons] at h
      obtain ⟨rfl, rfl, rfl⟩ := h
      exact key (hb1 delta hq) hpos
    | some lm =>
      obtain ⟨len, mult⟩ := lm
      obtain ⟨b1, b2, b3, b4⟩ := hb2 delta len mult hq
      simp [apCons] at h
      obtain ⟨rfl, rfl, rfl⟩ := h
      rw [size_cons] at hpos
      exact key (b3 (Nat.pos_of_mul_pos_right hpos)) (Nat.pos_of_mul_pos_left hpos)

open ViewIdx in
/-- Non-empty selections with representable strides are found with machine integers. -/
theorem apAllM_complete {checks : Bool} {N : Nat} (xs : List DimIdx) :
    ∀ (ds : List Nat) (ss : List Int), Fits N ds ss →
      ∀ off nd ns, apAll xs ds ss = some (off, nd, ns) → 0 < size nd → (∀ s ∈ ns, FitsI s) →
        apAllM checks xs ds ss = some (off, nd, ns) := by
  induction xs with
  | nil =>
    intro ds ss hf off nd ns h _ _
    cases ds with
    | cons d ds => simp [apAll] at h
    | nil =>
      cases ss with
      | cons s ss => simp [apAll] at h
      | nil => exact h
  | cons x xs ih =>
    intro ds ss hf off nd ns h hpos hfit
    have hbase := apAll_base (x :: xs) ds ss (fun d hd => by
      apply usizeMax_lt
      have := hf.dim_le hd
      have := hf.hN
      omega) off nd ns h hpos
    cases ds with
    | nil => simp [apAll] at h
    | cons d ds =>
    cases ss with
    | nil => simp [apAll] at h
    | cons s ss =>
    simp only [apAll] at h
    cases hr : apAll xs ds ss with
    | none => simp [hr] at h
    | some r =>
    obtain ⟨off₁, nd₁, ns₁⟩ := r
    cases hq : apSel x d with
    | none => simp [hr, hq] at h
    | some q =>
    obtain ⟨hb1, hb2⟩ := apSel_bounds (x := x) hf.head_usize
    obtain ⟨delta, k⟩ := q
    simp only [hr, hq, Option.bind_eq_bind, Option.bind_some] at h
    have hoff : FitsI off := by
      obtain ⟨b, hb, e⟩ := hbase
      have := hf.bd b hb
      have := hf.hN
      exact ⟨by omega, by omega⟩
    cases k with
    | none =>
      simp [apCons] at h
      obtain ⟨rfl, rfl, rfl⟩ := h
      have hlt := hb1 delta hq
      simp only [apAllM, ih ds ss hf.tail _ _ _ hr hpos hfit, hq, Option.bind_eq_bind, Option.bind_some,
        apConsM, hf.head_cast (le_of_lt hlt), retI_fit (hf.head (le_of_lt hlt)), retI_fit hoff]
      rfl
    | some lm =>
      obtain ⟨len, mult⟩ := lm
      obtain ⟨b1, b2, b3, b4⟩ := hb2 delta len mult hq
      simp [apCons] at h
      obtain ⟨rfl, rfl, rfl⟩ := h
      rw [size_cons] at hpos
      simp only [apAllM, ih ds ss hf.tail _ _ _ hr (Nat.pos_of_mul_pos_left hpos)
        (fun s hs => hfit s (by simp [hs])), hq, Option.bind_eq_bind, Option.bind_some,
        apConsM, hf.head_cast b2, retI_fit (hf.head b2), retI_fit hoff, retI_fit (hfit (s * mult) (by simp))]
      rfl

end Machine
end Model
