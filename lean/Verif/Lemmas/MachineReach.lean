import Verif.Lemmas.MachineAny
import Verif.Lemmas.Reach
import Verif.Spec.Machine

/-! View calls with machine integers on views of an array. -/

namespace Model
open Spec
namespace Machine

theorem SameView.refl (w : View) : SameView w w := ⟨rfl, rfl, rfl, rfl, fun _ => rfl⟩

theorem index_same {w w' : View} (hw : w.map.WF) (hw' : w'.map.WF) (hp : w.ptr = w'.ptr) (hd : w.dims = w'.dims)
    (h : ∀ j, Valid w'.dims j → dot w.map.strides j = dot w'.map.strides j) (j : List Nat) :
    w.index j = w'.index j := by
  rw [View.index_eq _ hw, View.index_eq _ hw', hd, hp]
  by_cases hj : Valid w'.dims j
  · rw [if_pos hj, if_pos hj, h j hj]
  · rw [if_neg hj, if_neg hj]

theorem SameView.good {w w' v : View} (h : SameView w w') (hw : w.map.WF) (hg : View.Good w' v) : View.Good w v := by
  obtain ⟨h1, h2, pb, h3, h4⟩ := hg
  refine ⟨hw, by rw [h.dims]; exact h2, pb, fun j hj => ?_, fun j j' hj hj' e => ?_⟩
  · rw [h.dims] at hj
    rw [h.index]; exact h3 j hj
  · rw [h.dims] at hj hj'; exact h4 j j' hj hj' e

theorem sound_of_eq {a b : Option View} (h : a = b) : SoundResult a b := fun w hw => ⟨w, h ▸ hw, SameView.refl w⟩

theorem complete_of_eq {a b : Option View} (h : a = b) : CompleteResult a b := fun w hw _ _ => h ▸ hw

theorem stridesFit {w : View} (hw : w.map.WF) (h : StridesFit w) : ∀ s ∈ w.map.strides, FitsI s := fun s hs => by
  obtain ⟨i, hi, e⟩ := List.getElem_of_mem hs
  obtain ⟨h1, h2⟩ := h i s (by rw [Mapping.stride_eq _ hw, List.getElem?_eq_getElem hi, e])
  norm_num at h1 h2
  exact ⟨h1, h2⟩

theorem Mapping_len_pos {ty : ShapeTy} {nd : List Nat} {ns : List Int} {L : Layout} :
    (Mapping.mk ty nd ns L).isEmpty = true ↔ size nd = 0 := by
  rw [Mapping.isEmpty_iff, Mapping.mk_dims]

section
variable {checks : Bool} {N : Nat} {v : View}

theorem isEmpty_mk {ty : ShapeTy} {nd : List Nat} {ns : List Int} {L : Layout}
    (h : bsize nd < 9223372036854775808) :
    isEmpty checks (Mapping.mk ty nd ns L).shape = some (Mapping.mk ty nd ns L).isEmpty := by
  rw [isEmpty_eq (by rw [Mapping.mk_shape]; exact usizeMax_lt h)]; rfl

theorem view_machine (h : VFits N v) {xs : List DimIdx} (hx : v.dims.length = xs.length) :
    view checks v xs = (apAllM checks xs v.dims v.map.strides).map fun r =>
      ⟨v.ptr + (if size r.2.1 = 0 then 0 else r.1),
        Mapping.mk (ViewIdx.shapeTy xs v.ty) r.2.1 r.2.2 (ViewIdx.layout v.layout xs)⟩ := by
  have hs : v.map.strides.length = xs.length := by rw [h.1.len]; exact hx
  obtain ⟨e, he⟩ := viewIndex_eq (checks := checks) v.map h.1 h.2 xs v.ty [] v.dims [] v.map.strides rfl rfl
    hx hs h.1.1
  unfold view
  rw [e]
  cases ha : apAllM checks xs v.dims v.map.strides with
  | none => rfl
  | some r =>
    obtain ⟨off, nd, ns⟩ := r
    obtain ⟨_, _, _, _, _, hb, _⟩ := he off nd ns ha
    simp only [Option.map_some, Option.bind_eq_bind, Option.bind_some]
    rw [isEmpty_mk (lt_of_le_of_lt hb h.2.bsize), Option.bind_some]
    by_cases h0 : size nd = 0
    · rw [if_pos h0, Mapping_len_pos.2 h0]; rfl
    · rw [if_neg h0, if_neg (fun hh => h0 (Mapping_len_pos.1 hh))]; rfl

theorem view_exact (h : v.map.WF) {xs : List DimIdx} (hx : v.dims.length = xs.length) :
    v.view xs = (ViewIdx.apAll xs v.dims v.map.strides).map fun r =>
      ⟨v.ptr + (if size r.2.1 = 0 then 0 else r.1),
        Mapping.mk (ViewIdx.shapeTy xs v.ty) r.2.1 r.2.2 (ViewIdx.layout v.layout xs)⟩ := by
  have hs : v.map.strides.length = xs.length := by rw [h.len]; exact hx
  obtain ⟨e, he⟩ := ViewIdx.viewIndex_eq v.map h xs v.ty [] v.dims [] v.map.strides rfl rfl hx hs h.1
  unfold View.view
  rw [e]
  cases ha : ViewIdx.apAll xs v.dims v.map.strides with
  | none => rfl
  | some r =>
    obtain ⟨off, nd, ns⟩ := r
    simp only [Option.map_some, Option.bind_eq_bind, Option.bind_some]
    by_cases h0 : size nd = 0
    · rw [if_pos h0, Mapping_len_pos.2 h0]; rfl
    · rw [if_neg h0, if_neg (fun hh => h0 (Mapping_len_pos.1 hh))]; rfl

theorem view_sound (h : VFits N v) {xs : List DimIdx} (hx : v.dims.length = xs.length) :
    SoundResult (view checks v xs) (v.view xs) := by
  intro w hw
  have hs : v.map.strides.length = xs.length := by rw [h.1.len]; exact hx
  rw [view_machine h hx, Option.map_eq_some_iff] at hw
  obtain ⟨⟨off, nd, ns⟩, hr, rfl⟩ := hw
  obtain ⟨off', ns', g1, g2, g2', g3, g4⟩ := apAllM_sound xs v.dims v.map.strides h.2 off nd ns hr
  obtain ⟨_, he⟩ := viewIndex_eq (checks := checks) v.map h.1 h.2 xs v.ty [] v.dims [] v.map.strides rfl rfl
    hx hs h.1.1
  obtain ⟨c1, c2, hd, _⟩ := he off nd ns hr
  obtain ⟨_, he'⟩ := ViewIdx.viewIndex_eq v.map h.1 xs v.ty [] v.dims [] v.map.strides rfl rfl hx hs h.1.1
  obtain ⟨c1', c2', hd', _⟩ := he' off' nd ns' g1
  refine ⟨_, by rw [view_exact h.1 hx, g1, Option.map_some], ?_⟩
  have hptr : v.ptr + (if size nd = 0 then 0 else off) = v.ptr + (if size nd = 0 then 0 else off') := by
    by_cases h0 : size nd = 0
    · simp [h0]
    · simp only [if_neg h0]; rw [(g4 (by omega)).1]
  have hdims : (Mapping.mk (ViewIdx.shapeTy xs v.ty) nd ns (ViewIdx.layout v.layout xs)).dims =
      (Mapping.mk (ViewIdx.shapeTy xs v.ty) nd ns' (ViewIdx.layout v.layout xs)).dims := by
    rw [Mapping.mk_dims, Mapping.mk_dims]
  refine ⟨hptr, ?_, ?_, hdims, index_same (Mapping.mk_wf c1 c2) (Mapping.mk_wf c1' c2') hptr hdims ?_⟩
  · show (Mapping.mk ..).shape.ty = (Mapping.mk ..).shape.ty
    rw [Mapping.mk_shape, Mapping.mk_shape]
  · show (Mapping.mk ..).layout = (Mapping.mk ..).layout
    rw [Mapping.mk_layout, Mapping.mk_layout]
  · intro j hj
    have hj : Valid nd j := by
      have : Valid (Mapping.mk (ViewIdx.shapeTy xs v.ty) nd ns' (ViewIdx.layout v.layout xs)).dims j := hj
      rwa [Mapping.mk_dims] at this
    show dot (Mapping.mk ..).strides j = dot (Mapping.mk ..).strides j
    rw [Mapping.mk_strides hd, Mapping.mk_strides hd', g3 j hj]

theorem view_complete (h : VFits N v) {xs : List DimIdx} (hx : v.dims.length = xs.length) :
    CompleteResult (view checks v xs) (v.view xs) := by
  intro w' hw hp hf
  have hs : v.map.strides.length = xs.length := by rw [h.1.len]; exact hx
  rw [view_exact h.1 hx, Option.map_eq_some_iff] at hw
  obtain ⟨⟨off, nd, ns⟩, hr, rfl⟩ := hw
  obtain ⟨_, he'⟩ := ViewIdx.viewIndex_eq v.map h.1 xs v.ty [] v.dims [] v.map.strides rfl rfl hx hs h.1.1
  obtain ⟨c1, c2, hd', _⟩ := he' off nd ns hr
  have hp : 0 < size nd := by
    have : 0 < size (Mapping.mk (ViewIdx.shapeTy xs v.ty) nd ns (ViewIdx.layout v.layout xs)).dims := hp
    rwa [Mapping.mk_dims] at this
  have hf := stridesFit (Mapping.mk_wf c1 c2) hf
  have hf : ∀ s ∈ ns, FitsI s := by
    have : ∀ s ∈ (Mapping.mk (ViewIdx.shapeTy xs v.ty) nd ns (ViewIdx.layout v.layout xs)).strides, FitsI s := hf
    rwa [Mapping.mk_strides hd'] at this
  rw [view_machine h hx, apAllM_complete xs _ _ h.2 off nd ns hr hp hf]
  rfl

/-! Diagonals. -/

/-- Offset and length of a diagonal with unbounded integers. -/
def diagExact (k : Int) (d0 d1 : Nat) (s0 s1 : Int) : Option (Int × Nat) :=
  if 0 ≤ k then do
    check (k.toNat ≤ d1)
    pure (k * s1, min d0 (d1 - k.toNat))
  else do
    check ((-k).toNat ≤ d0)
    pure (-k * s0, min d1 (d0 - (-k).toNat))

theorem diagPart_eq {k : Int} {d0 d1 : Nat} {s0 s1 : Int} (hk : FitsI k) (h0 : d0 < 9223372036854775808)
    (f0 : ∀ x : Nat, x ≤ d0 → FitsI (s0 * (x : Int))) (f1 : ∀ x : Nat, x ≤ d1 → FitsI (s1 * (x : Int))) :
    diagPart checks k d0 d1 s0 s1 = diagExact k d0 d1 s0 s1 := by
  unfold diagPart diagExact
  by_cases h : 0 ≤ k
  · rw [if_pos h, if_pos h, castU_ok h hk]
    by_cases hc : k.toNat ≤ d1
    swap
    · rw [check_neg hc, check_neg hc]
    rw [check_pos hc, check_pos hc]
    have := f1 k.toNat hc
    rw [Int.toNat_of_nonneg h, mul_comm] at this
    rw [retI_fit this]; rfl
  · rw [if_neg h, if_neg h]
    by_cases hm : k = -9223372036854775808
    · have hc : ¬ (-k).toNat ≤ d0 := by omega
      rw [check_neg hc]
      subst hm
      cases checks
      · have e : retI false (-(-9223372036854775808)) = some (-9223372036854775808) := by decide
        have e2 : castU (-9223372036854775808) = 9223372036854775808 := by decide
        rw [e]
        simp only [Option.bind_eq_bind, Option.bind_some, e2]
        have hc2 : ¬ 9223372036854775808 ≤ d0 := by omega
        have : check (9223372036854775808 ≤ d0) = none := if_neg hc2
        rw [this]; rfl
      · have e : retI true (-(-9223372036854775808)) = none := by decide
        rw [e]; rfl
    · have hf : FitsI (-k) := by obtain ⟨a, b⟩ := hk; exact ⟨by omega, by omega⟩
      rw [retI_fit hf]
      simp only [Option.bind_eq_bind, Option.bind_some]
      rw [castU_ok (by omega) hf]
      by_cases hc : (-k).toNat ≤ d0
      swap
      · have e : check ((-k).toNat ≤ d0) = none := if_neg hc
        rw [e]; rfl
      have e : check ((-k).toNat ≤ d0) = some () := if_pos hc
      rw [e]
      have := f0 (-k).toNat hc
      rw [Int.toNat_of_nonneg (by omega), mul_comm] at this
      simp only [Option.bind_some, retI_fit this]

theorem diag_form (v : View) (k : Int) : v.diag k = (do
    check (v.map.rank = 2)
    let d0 ← v.map.dim 0
    let d1 ← v.map.dim 1
    let s0 ← v.map.stride 0
    let s1 ← v.map.stride 1
    let (offset, len) ← diagExact k d0 d1 s0 s1
    let count := if len > 0 then offset else 0
    let m ← Mapping.newStrided ⟨.static [.dyn], [len]⟩ [s0 + s1]
    pure ⟨v.ptr + count, m⟩) := by
  unfold View.diag diagExact
  by_cases h : 0 ≤ k
  · simp only [if_pos h, Option.bind_eq_bind, Option.bind_assoc, Option.pure_def, Option.bind_some]
  · simp only [if_neg h, Option.bind_eq_bind, Option.bind_assoc, Option.pure_def, Option.bind_some]

/-- Both kinds of diagonal, for a view with two dimensions. -/
theorem diag_both (h : VFits N v) {k : Int} (hk : FitsI k) :
    (diag checks v k = none ∧ v.diag k = none) ∨
    ∃ (r c : Nat) (s0 s1 off : Int) (len : Nat), v.dims = [r, c] ∧ v.map.strides = [s0, s1] ∧
      (2 ≤ len → FitsI (s0 + s1)) ∧
      v.diag k = some ⟨v.ptr + off, .strided ⟨.static [.dyn], [len]⟩ [s0 + s1]⟩ ∧
      diag checks v k = (retI checks (s0 + s1)).map fun s =>
        ⟨v.ptr + off, .strided ⟨.static [.dyn], [len]⟩ [s]⟩ := by
  by_cases hr : v.map.rank = 2
  swap
  · left
    rw [diag_form]
    unfold diag
    rw [check_neg hr, check_neg hr]
    exact ⟨rfl, rfl⟩
  have hl := h.1.len
  obtain ⟨r, c, hrc⟩ : ∃ r c, v.map.dims = [r, c] := by
    have : v.map.dims.length = 2 := hr
    match hd : v.map.dims, this with
    | [r, c], _ => exact ⟨r, c, rfl⟩
  obtain ⟨s0, s1, hss⟩ : ∃ s0 s1, v.map.strides = [s0, s1] := by
    have : v.map.strides.length = 2 := by rw [hl]; exact hr
    match hd : v.map.strides, this with
    | [r, c], _ => exact ⟨r, c, rfl⟩
  have hf : Fits N [r, c] [s0, s1] := by
    have := h.2
    rw [hss, show v.dims = [r, c] from hrc] at this
    exact this
  have hN := hf.hN
  have f0 : ∀ x : Nat, x ≤ r → FitsI (s0 * (x : Int)) := fun x hx =>
    hf.mul (p := 0) (by simp) (by simpa using hx)
  have f1 : ∀ x : Nat, x ≤ c → FitsI (s1 * (x : Int)) := fun x hx =>
    hf.mul (p := 1) (by simp) (by simpa using hx)
  have hr0 : r < 9223372036854775808 := by have := hf.dim_le (d := r) (by simp); omega
  have em : diag checks v k = (diagExact k r c s0 s1).bind fun p => (retI checks (s0 + s1)).map fun s =>
      ⟨v.ptr + (if p.2 > 0 then p.1 else 0), .strided ⟨.static [.dyn], [p.2]⟩ [s]⟩ := by
    unfold diag
    rw [check_pos hr, stride_eq h.2.bsize, stride_eq h.2.bsize]
    simp only [Mapping.dim_eq, Mapping.stride_eq _ h.1, hrc, hss, List.getElem?_cons_zero,
      List.getElem?_cons_succ, Option.bind_eq_bind, Option.bind_some]
    rw [diagPart_eq hk hr0 f0 f1]
    cases diagExact k r c s0 s1 with
    | none => rfl
    | some p =>
      simp only [Option.bind_some]
      cases retI checks (s0 + s1) with
      | none => rfl
      | some s => rfl
  have eu : v.diag k = (diagExact k r c s0 s1).map fun p =>
      ⟨v.ptr + (if p.2 > 0 then p.1 else 0), .strided ⟨.static [.dyn], [p.2]⟩ [s0 + s1]⟩ := by
    rw [diag_form, check_pos hr]
    simp only [Mapping.dim_eq, Mapping.stride_eq _ h.1, hrc, hss, List.getElem?_cons_zero,
      List.getElem?_cons_succ, Option.bind_eq_bind, Option.bind_some]
    cases diagExact k r c s0 s1 with
    | none => rfl
    | some p => rfl
  cases hd : diagExact k r c s0 s1 with
  | none => left; rw [em, eu, hd]; exact ⟨rfl, rfl⟩
  | some p =>
    right
    obtain ⟨o, len⟩ := p
    refine ⟨r, c, s0, s1, _, len, hrc, hss, fun h2 => ?_, by rw [eu, hd]; rfl, by rw [em, hd]; rfl⟩
    have hrc2 : 2 ≤ r ∧ 2 ≤ c := by
      unfold diagExact at hd
      split at hd
      · rw [check_bind] at hd
        split at hd
        · simp at hd; omega
        · simp at hd
      · rw [check_bind] at hd
        split at hd
        · simp at hd; omega
        · simp at hd
    have := hf.bd [1, 1] (by simp; omega)
    simp at this
    exact ⟨by omega, by omega⟩

theorem diag_wf (len : Nat) (s : Int) : (Mapping.strided ⟨.static [.dyn], [len]⟩ [s]).WF := by
  refine ⟨?_, rfl⟩
  show (ShapeTy.static [.dyn]).Conforms _; simp

theorem diag_sound (h : VFits N v) {k : Int} (hk : FitsI k) : SoundResult (diag checks v k) (v.diag k) := by
  intro w hw
  rcases diag_both (checks := checks) h hk with ⟨e, _⟩ | ⟨r, c, s0, s1, off, len, _, _, h2, eu, em⟩
  · rw [e] at hw; simp at hw
  rw [em, Option.map_eq_some_iff] at hw
  obtain ⟨s, hs, rfl⟩ := hw
  refine ⟨_, eu, ⟨rfl, rfl, rfl, rfl, index_same (diag_wf len s) (diag_wf len (s0 + s1)) rfl rfl fun j hj => ?_⟩⟩
  have hj : Valid [len] j := hj
  show dot [s] j = dot [s0 + s1] j
  obtain ⟨i, is, rfl, hi, hj2⟩ := valid_cons'.1 hj
  by_cases hl : 2 ≤ len
  · rw [retI_fit (h2 hl)] at hs
    obtain rfl : _ = s := by simpa using hs
    rfl
  · have : i = 0 := by omega
    subst this
    simp at hj2; subst hj2; simp

theorem diag_complete (h : VFits N v) {k : Int} (hk : FitsI k) : CompleteResult (diag checks v k) (v.diag k) := by
  intro w' hw _ hf
  rcases diag_both (checks := checks) h hk with ⟨_, e⟩ | ⟨r, c, s0, s1, off, len, _, _, h2, eu, em⟩
  · rw [e] at hw; simp at hw
  rw [eu] at hw
  obtain rfl := Option.some.inj hw
  rw [em, retI_fit (stridesFit (diag_wf len (s0 + s1)) hf (s0 + s1) (by show _ ∈ [s0 + s1]; simp))]; rfl

end

/-! ### Views of an array -/

theorem denseStrides_le (ds : List Nat) : ∀ x ∈ denseStrides ds, ∃ n : Nat, x = n ∧ n ≤ bsize ds := by
  induction ds with
  | nil => simp [denseStrides]
  | cons d ds ih =>
    intro x hx
    simp only [denseStrides, List.mem_cons] at hx
    have hb : bsize ds ≤ bsize (d :: ds) := by
      rw [bsize_cons]; exact Nat.le_mul_of_pos_left _ (by omega)
    rcases hx with rfl | hx
    · exact ⟨_, rfl, (size_le_bsize ds).trans hb⟩
    · obtain ⟨n, e, hn⟩ := ih x hx
      exact ⟨n, e, hn.trans hb⟩

theorem vfits_of_good {s : Shape} (hw : s.WF) (hs : size s.dims ≤ 4611686018427387904) {v : View}
    (hg : View.Good v (whole s)) (hf : FitM v.map) (hp : 0 < size v.dims) : VFits (size s.dims) v := by
  have hle : size v.dims ≤ size s.dims := hg.2.2.size_le
  have hidx : ∀ j, Valid v.dims j → 0 ≤ v.ptr + dot v.map.strides j ∧ v.ptr + dot v.map.strides j < size s.dims := by
    intro j hj
    obtain ⟨pb, h1, _⟩ := hg.2.2
    obtain ⟨h2, h3⟩ := h1 j hj
    have h2' : Valid s.dims (pb j) := h2
    rw [View.index_whole hw, if_pos h2', View.index_eq _ hg.1, if_pos hj] at h3
    have := rowMajor_lt h2
    have e := Option.some.inj h3
    have h4 : rowMajor (whole s).dims (pb j) < size s.dims := this
    have h5 : rowMajor s.dims (pb j) < size s.dims := h4
    omega
  have h0 := hidx _ (valid_zeros hp)
  rw [dot_zeros] at h0
  refine ⟨hg.1, hg.1.len, hp, hle, hs, fun i hi => ?_, ?_⟩
  · have := hidx i hi
    omega
  · cases hm : v.map with
    | strided s' st => rw [hm] at hf; exact hf
    | dense s' =>
      intro x hx
      obtain ⟨n, rfl, hn⟩ := denseStrides_le _ x hx
      apply fitsI_nat
      have e : s'.dims = v.dims := by show _ = v.map.dims; rw [hm]
      have h1 : bsize s'.dims = size v.dims := by rw [e]; exact bsize_eq hp
      omega

section
variable {checks : Bool}

theorem stride_any {m : Mapping} (hm : FitM m) {i s} (h : stride checks m i = some s) : FitsI s := by
  unfold stride at h
  rw [Option.bind_eq_bind, Option.bind_eq_some_iff] at h
  obtain ⟨_, _, h⟩ := h
  cases m with
  | dense sh =>
    simp only [Option.map_eq_some_iff] at h
    obtain ⟨n, _, rfl⟩ := h
    exact castI_fits n
  | strided sh st => exact hm _ (List.mem_of_getElem? h)

open ViewIdx in
theorem viewIndex_any {m : Mapping} (hm : FitM m) (hu : Usize m.dims) (xs : List DimIdx) :
    ∀ (sty : ShapeTy) (pd ds : List Nat) (off : Int) (m' : Mapping), m.dims = pd ++ ds → ds.length = xs.length →
      viewIndex checks m xs sty = some (off, m') →
      FitM m' ∧ m'.WF ∧ Usize m'.dims ∧ (0 ∈ ds → 0 ∈ m'.dims) := by
  induction xs with
  | nil =>
    intro sty pd ds off m' hd hl h
    have hds : ds = [] := by simpa using hl
    subst hds
    simp only [viewIndex, Option.some.injEq, Prod.mk.injEq] at h
    obtain ⟨_, rfl⟩ := h
    refine ⟨?_, ?_, ?_, by simp⟩
    · cases m.layout <;> simp [unitMapping, FitM]
    · cases m.layout
      · exact Mapping.wf_dense.2 (show (ShapeTy.static []).Conforms [] by simp)
      · exact ⟨show (ShapeTy.static []).Conforms [] by simp, rfl⟩
    · cases m.layout <;> (intro d hd; simp [unitMapping, Mapping.dims, Mapping.shape] at hd)
  | cons x xs ih =>
    intro sty pd ds off m' hd hl h
    cases ds with
    | nil => simp at hl
    | cons d ds =>
    simp at hl
    have hpos : m.rank - 1 - xs.length = pd.length := by
      show m.dims.length - 1 - xs.length = _
      rw [hd]; simp; omega
    have hdim : m.dim pd.length = some d := dim_append hd
    have hdu : d ≤ usizeMax := hu d (by rw [hd]; simp)
    simp only [viewIndex, hpos, hdim, Option.bind_eq_bind, Option.bind_eq_some_iff] at h
    obtain ⟨⟨off₁, m₁⟩, h1, _, hd2, s, hs, h⟩ := h
    obtain rfl := Option.some.inj hd2
    have hfs := stride_any hm hs
    obtain ⟨g1, g2, g3, g4⟩ := ih sty.tail (pd ++ [d]) ds off₁ m₁ (by simp [hd]) hl h1
    obtain ⟨b1, b2⟩ := apSel_bounds (x := x) hdu
    have fin : ∀ (delta len : Nat) (mult s' : Int) (ty : ShapeTy) (L : Layout) (r : Mapping),
        apSel x d = some (delta, some (len, mult)) → FitsI s' → prependDim checks m₁ len s' ty L = some r →
        FitM r ∧ r.WF ∧ Usize r.dims ∧ (0 ∈ d :: ds → 0 ∈ r.dims) := by
      intro delta len mult s' ty L r ha hs' hr
      obtain ⟨p1, p2, p3⟩ := prependDim_any g1 hs' hr
      have hle := (b2 delta len mult ha).1
      refine ⟨p3, p1, ?_, fun h0 => ?_⟩
      · rw [p2]
        intro y hy
        rcases List.mem_cons.1 hy with rfl | hy
        · exact hle.trans hdu
        · exact g3 y hy
      · rw [p2]
        rcases List.mem_cons.1 h0 with h0 | h0
        · have : len = 0 := by omega
          simp [this]
        · simp [g4 h0]
    cases x with
    | int i =>
      simp only [Option.bind_eq_bind, Option.bind_eq_some_iff] at h
      obtain ⟨_, hc, _, _, _, _, r, hr, h⟩ := h
      have hc := check_some hc
      obtain ⟨_, rfl⟩ : _ ∧ r = m' := by simpa using h
      obtain ⟨p1, p2, p3⟩ := remap_any g1 hr
      refine ⟨p3, p1, by rw [p2]; exact g3, fun h0 => ?_⟩
      rw [p2]
      rcases List.mem_cons.1 h0 with h0 | h0
      · omega
      · exact g4 h0
    | full =>
      simp only [Option.bind_eq_bind, Option.bind_eq_some_iff] at h
      obtain ⟨r, hr, h⟩ := h
      obtain ⟨_, rfl⟩ : _ ∧ r = m' := by simpa using h
      exact fin 0 d 1 s _ _ r rfl hfs hr
    | range a b =>
      simp only [Option.bind_eq_bind, Option.bind_eq_some_iff] at h
      obtain ⟨⟨st, en⟩, hrn, _, _, _, _, r, hr, h⟩ := h
      obtain ⟨_, rfl⟩ : _ ∧ r = m' := by simpa using h
      exact fin st (en - st) 1 s _ _ r (by simp [apSel, hrn]) hfs hr
    | step a b k =>
      simp only [Option.bind_eq_bind, Option.bind_eq_some_iff] at h
      obtain ⟨⟨st, en⟩, hrn, _, hc, _, _, _, _, t, ht, r, hr, h⟩ := h
      obtain ⟨_, rfl⟩ : _ ∧ r = m' := by simpa using h
      refine fin (if k < 0 ∧ st < en then en - 1 else st) ((en - st + k.natAbs - 1) / k.natAbs) k t _ _ r
        ?_ (retI_fits ht) hr
      simp only [apSel, hrn, Option.bind_eq_bind, Option.bind_some]
      rw [hc]; rfl

/-- Results on any view of `usize` sizes: stored strides are `isize` values; and from an empty view, the
result is an empty view. -/
def Any (v w : View) : Prop :=
  FitM w.map ∧ (size v.dims = 0 → w.map.WF ∧ Usize w.dims ∧ size w.dims = 0)

theorem usize_zero {l l' : List Nat} (h : Usize l) (h' : ∀ d ∈ l', d ∈ l) : Usize l' := fun d hd => h d (h' d hd)

variable {v w : View}

theorem axisAt_any (hm : FitM v.map) (hu : Usize v.dims) {a i} (h : axisAt checks v a i = some w) : Any v w := by
  simp only [axisAt, Option.bind_eq_bind, Option.bind_eq_some_iff] at h
  obtain ⟨p, hp, d, hd, _, hc, m, hr, _, _, _, _, _, _, h⟩ := h
  have hc := check_some hc
  simp at h; subst h
  unfold removeMap at hr
  rw [hp] at hr
  simp only [Option.bind_eq_bind, Option.bind_some] at hr
  obtain ⟨e1, e2, e3, e4⟩ := removeDim_any hm hr
  refine ⟨e4, fun h0 => ⟨e1, ?_, ?_⟩⟩
  · show Usize m.dims
    rw [e3]; exact usize_zero hu fun d hd => List.eraseIdx_subset hd
  · show size m.dims = 0
    rw [e3]
    rw [size_eq_zero_iff] at h0 ⊢
    obtain ⟨q, hq, e⟩ := List.getElem_of_mem h0
    rw [Mapping.dim_eq, List.getElem?_eq_getElem e2] at hd
    have hd := Option.some.inj hd
    have hne : q ≠ p := by
      rintro rfl
      have : v.map.dims[q] = 0 := e
      omega
    rw [List.mem_eraseIdx_iff_getElem]
    exact ⟨q, hq, hne, e⟩

theorem resize_any (hm : FitM v.map) (hu : Usize v.dims) {a : Axis} {p n : Nat} {m : Mapping}
    (hp : a.index v.map.rank = some p) {d : Nat} (hd : v.map.dim p = some d) (hn : n ≤ d)
    (hr : resizeMap checks a v.map n = some m) (ptr : Int) : Any v ⟨ptr, m⟩ := by
  unfold resizeMap at hr
  rw [hp] at hr
  simp only [Option.bind_eq_bind, Option.bind_some] at hr
  obtain ⟨e1, e2, e3, e4⟩ := resizeDim_any hm hr
  rw [Mapping.dim_eq, List.getElem?_eq_getElem e2] at hd
  have hd := Option.some.inj hd
  refine ⟨e4, fun h0 => ⟨e1, ?_, ?_⟩⟩
  · show Usize m.dims
    rw [e3]
    intro x hx
    rcases List.mem_or_eq_of_mem_set hx with hx | rfl
    · exact hu x hx
    · exact hn.trans (hd ▸ hu _ (List.getElem_mem _))
  · show size m.dims = 0
    rw [e3]
    rw [size_eq_zero_iff] at h0 ⊢
    obtain ⟨q, hq, e⟩ := List.getElem_of_mem h0
    have hq' : q < v.map.dims.length := hq
    have e' : v.map.dims[q] = 0 := e
    by_cases hqp : p = q
    · subst hqp
      have : n = 0 := by omega
      subst this
      exact List.mem_iff_getElem.2 ⟨p, by simpa using e2, by simp⟩
    · exact List.mem_iff_getElem.2 ⟨q, by simpa using hq', by rw [List.getElem_set_ne hqp]; exact e'⟩

theorem split_any (hm : FitM v.map) (hu : Usize v.dims) {a mid w₁ w₂}
    (h : splitAxisAt checks v a mid = some (w₁, w₂)) : Any v w₁ ∧ Any v w₂ := by
  simp only [splitAxisAt, Option.bind_eq_bind, Option.bind_eq_some_iff] at h
  obtain ⟨p, hp, d, hd, _, hc, m₁, hr₁, m₂, hr₂, _, _, _, _, _, _, h⟩ := h
  have hc := check_some hc
  simp at h
  obtain ⟨rfl, rfl⟩ := h
  exact ⟨resize_any hm hu hp hd hc hr₁ _, resize_any hm hu hp hd (Nat.sub_le _ _) hr₂ _⟩

theorem view_any (hm : FitM v.map) (hu : Usize v.dims) {xs} (hx : v.dims.length = xs.length)
    (h : view checks v xs = some w) : Any v w := by
  simp only [view, Option.bind_eq_bind, Option.bind_eq_some_iff] at h
  obtain ⟨⟨off, m⟩, h1, _, _, h⟩ := h
  simp at h; subst h
  obtain ⟨g1, g2, g3, g4⟩ := viewIndex_any hm hu xs v.ty [] v.dims off m rfl hx h1
  exact ⟨g1, fun h0 => ⟨g2, g3, size_eq_zero_iff.2 (g4 (size_eq_zero_iff.1 h0))⟩⟩

theorem remapV_any (hm : FitM v.map) (hu : Usize v.dims) {ty L} (h : viewRemap checks v ty L = some w) :
    Any v w := by
  simp only [viewRemap, Option.bind_eq_bind, Option.bind_eq_some_iff] at h
  obtain ⟨m, h1, h⟩ := h
  simp at h; subst h
  obtain ⟨g1, g2, g3⟩ := remap_any hm h1
  exact ⟨g3, fun h0 => ⟨g1, by show Usize m.dims; rw [g2]; exact hu, by show size m.dims = 0; rw [g2]; exact h0⟩⟩

theorem permuteV_any (hm : FitM v.map) (hu : Usize v.dims) (hr : checks = true ∨ v.dims.length < 64) {perm}
    (h : viewPermute checks v perm = some w) : Any v w := by
  simp only [viewPermute, Option.bind_eq_bind, Option.bind_eq_some_iff] at h
  obtain ⟨m, h1, h⟩ := h
  simp at h; subst h
  obtain ⟨g1, g2, g3, g4⟩ := permute_any hm hr h1
  have key : (List.map (fun p => v.map.dims.getD p 0) perm.dims).Perm v.map.dims := by
    have := g3.map fun p => v.map.dims.getD p 0
    refine this.trans (List.Perm.of_eq ?_)
    apply List.ext_getElem
    · simp
    · intro i h1 h2; simp [List.getD, h2]
  refine ⟨g4, fun h0 => ⟨g1, ?_, ?_⟩⟩
  · show Usize m.dims
    rw [g2]; exact usize_zero hu fun d hd => key.mem_iff.1 hd
  · show size m.dims = 0
    rw [g2, size_perm key]; exact h0

theorem reorderV_any (hm : FitM v.map) (hu : Usize v.dims) (h : viewReorder checks v = some w) : Any v w := by
  simp only [viewReorder, Option.bind_eq_bind, Option.bind_eq_some_iff] at h
  obtain ⟨m, h1, h⟩ := h
  simp at h; subst h
  obtain ⟨g1, g2, g3⟩ := reorder_any hm h1
  refine ⟨g3, fun h0 => ⟨g1, ?_, ?_⟩⟩
  · show Usize m.dims
    rw [g2]; exact usize_zero hu fun d hd => List.mem_reverse.1 hd
  · show size m.dims = 0
    rw [g2, size_perm (List.reverse_perm _)]; exact h0

theorem reshapeV_any (hm : FitM v.map) {ns : Shape} (hw : ns.WF) (hn : Usize ns.dims)
    (h : viewReshape checks v ns = some w) :
    Any v w ∧ ∃ s', shapeReshape checks v.map.shape ns = some s' ∧ w.map.shape = s' := by
  simp only [viewReshape, Option.bind_eq_bind, Option.bind_eq_some_iff] at h
  obtain ⟨m, h1, h⟩ := h
  simp at h; subst h
  obtain ⟨s', hs', e, g1, g2⟩ := reshape_any hm h1
  refine ⟨⟨g2, fun h0 => ?_⟩, s', hs', e⟩
  have := shapeReshape_empty h0 hs'
  obtain ⟨_, r1, r2, _, r3⟩ := Shape.reshape_result hw this
  have e0 : size v.map.shape.dims = 0 := h0
  refine ⟨g1 r1, ?_, ?_⟩
  · show Usize m.dims
    have : m.dims = s'.dims := by rw [← e]
    rw [this]
    exact View.resolves_usize r3 (by rw [e0]; exact Nat.zero_le _) hn
  · show size m.shape.dims = 0
    rw [e, r2, e0]

theorem flatten_any (hm : FitM v.map) (h : flatten checks v = some w) : Any v w := by
  simp only [flatten, Option.bind_eq_bind, Option.bind_eq_some_iff] at h
  obtain ⟨n, hn, h⟩ := h
  refine ⟨?_, fun h0 => ?_⟩
  · have : FitM w.map := by
      simp only [viewReshape, Option.bind_eq_bind, Option.bind_eq_some_iff] at h
      obtain ⟨m, h1, h⟩ := h
      simp at h; subst h
      obtain ⟨_, _, _, _, g2⟩ := reshape_any hm h1
      exact g2
    exact this
  · obtain rfl : n = 0 := product_zero h0 hn
    exact (reshapeV_any hm (ns := ⟨.static [.dyn], [0]⟩) (show (ShapeTy.static [.dyn]).Conforms [0] by simp)
      (fun d hd => by simp at hd; subst hd; exact Nat.zero_le _) h).1.2 h0

theorem line_parts {v w : View} {xs : List DimIdx} (hv : line checks v xs = some w) :
    ∃ u ns, ns.WF ∧ ns.dims = v.dims ∧ ns.ty = .static [v.ty.head, v.ty.tail.head] ∧
      Shape.fromDims (.static [v.ty.head, v.ty.tail.head]) v.dims = some ns ∧
      viewReshape checks v ns = some u ∧ view checks u xs = some w := by
  simp only [line, Option.bind_eq_bind, Option.bind_eq_some_iff] at hv
  obtain ⟨ns, h1, u, h2, h3⟩ := hv
  obtain ⟨a, b, c⟩ := fromDims_any h1
  exact ⟨u, ns, a, b, c, h1, h2, h3⟩

theorem diag_any (h : diag checks v k = some w) : Any v w := by
  simp only [diag, Option.bind_eq_bind, Option.bind_eq_some_iff] at h
  obtain ⟨_, hr, d0, hd0, d1, hd1, s0, _, s1, _, ⟨off, len⟩, hp, s, hs, m, hm, h⟩ := h
  simp at h; subst h
  have hr := check_some hr
  unfold Mapping.newStrided at hm
  rw [Option.bind_eq_bind, Option.bind_eq_some_iff] at hm
  obtain ⟨_, _, hm⟩ := hm
  simp at hm; subst hm
  refine ⟨by intro x hx; simp at hx; subst hx; exact retI_fits hs, fun h0 => ⟨diag_wf len s, ?_⟩⟩
  have hlen : len ≤ d0 ∧ len ≤ d1 := by
    unfold diagPart at hp
    split at hp
    · simp only [Option.bind_eq_bind, Option.bind_eq_some_iff] at hp
      obtain ⟨_, _, _, _, hp⟩ := hp
      simp at hp; omega
    · simp only [Option.bind_eq_bind, Option.bind_eq_some_iff] at hp
      obtain ⟨_, _, _, _, _, _, hp⟩ := hp
      simp at hp; omega
  have hz : d0 = 0 ∨ d1 = 0 := by
    rw [size_eq_zero_iff] at h0
    obtain ⟨q, hq, e⟩ := List.getElem_of_mem h0
    rw [Mapping.dim_eq] at hd0 hd1
    have hl : v.map.dims.length = 2 := hr
    have hq' : q < v.map.dims.length := hq
    have e' : v.map.dims[q] = 0 := e
    rcases (by omega : q = 0 ∨ q = 1) with rfl | rfl
    · rw [List.getElem?_eq_getElem hq'] at hd0
      left; have := Option.some.inj hd0; omega
    · rw [List.getElem?_eq_getElem hq'] at hd1
      right; have := Option.some.inj hd1; omega
  have : len = 0 := by omega
  subst this
  refine ⟨?_, ?_⟩
  · intro d hd
    have : d ∈ [0] := hd
    simp at this; subst this; exact Nat.zero_le _
  · show size [0] = 0
    simp

end

/-! ### One call on a view of an array -/

theorem index_none {checks : Bool} (v : View) (j : List Nat) (h : ¬ Valid v.dims j) : index checks v j = none := by
  unfold index
  by_cases hl : j.length = v.map.rank
  swap
  · rw [check_neg hl]
  rw [check_pos hl]
  have : View.boundsLoop v.map j = none := by
    rw [← Option.not_isSome_iff_eq_none]
    exact fun hh => h ((View.boundsLoop_isSome v.map j hl).1 hh)
  rw [this]; rfl


section
variable {checks : Bool} {v w : View}

theorem view_wf (hm : FitM v.map) (hu : Usize v.dims) {xs} (hx : v.dims.length = xs.length)
    (h : view checks v xs = some w) : w.map.WF := by
  simp only [view, Option.bind_eq_bind, Option.bind_eq_some_iff] at h
  obtain ⟨⟨off, m⟩, h1, _, _, h⟩ := h
  simp at h; subst h
  exact (viewIndex_any hm hu xs v.ty [] v.dims off m rfl hx h1).2.1

theorem diag_wf' (h : diag checks v k = some w) : w.map.WF := by
  simp only [diag, Option.bind_eq_bind, Option.bind_eq_some_iff] at h
  obtain ⟨_, hr, d0, hd0, d1, hd1, s0, _, s1, _, ⟨off, len⟩, hp, s, hs, m, hm, h⟩ := h
  simp at h; subst h
  unfold Mapping.newStrided at hm
  rw [Option.bind_eq_bind, Option.bind_eq_some_iff] at hm
  obtain ⟨_, _, hm⟩ := hm
  simp at hm; subst hm
  exact diag_wf len s

theorem good_empty {root : View} (h1 : w.map.WF) (h2 : Usize w.dims) (h3 : size w.dims = 0) :
    View.Good w root :=
  ⟨h1, h2, id, fun j hj => by have := hj.size_pos; omega, fun j _ hj _ _ => by have := hj.size_pos; omega⟩

/-- What is known of a view reached from an array of shape `s`. -/
structure Known (s : Shape) (v : View) : Prop where
  wf : s.WF
  usize : Usize s.dims
  size : size s.dims ≤ 4611686018427387904
  good : View.Good v (whole s)
  fit : FitM v.map

variable {s : Shape}

theorem Known.inv (h : Known s v) : v.Inv :=
  h.good.inv (View.inv_whole h.wf h.usize (by have := h.size; unfold usizeMax; omega))

theorem Known.vfits (h : Known s v) (hp : 0 < Spec.size v.dims) : VFits (Spec.size s.dims) v :=
  vfits_of_good h.wf h.size h.good h.fit hp

theorem Known.step (h : Known s v) (hg : View.Good w v) (hf : FitM w.map) : Known s w :=
  ⟨h.wf, h.usize, h.size, hg.trans h.good, hf⟩

theorem Known.empty (h : Known s v) (h0 : Spec.size v.dims = 0) (ha : Any v w) : Known s w := by
  obtain ⟨a, b⟩ := ha
  obtain ⟨b1, b2, b3⟩ := b h0
  exact ⟨h.wf, h.usize, h.size, good_empty b1 b2 b3, a⟩

theorem Known.view (h : Known s v) {xs : List DimIdx} (hx : v.dims.length = xs.length)
    (hv : view checks v xs = some w) : Known s w := by
  have ha := view_any h.fit h.inv.usize hx hv
  rcases Nat.eq_zero_or_pos (Spec.size v.dims) with h0 | hp
  · exact h.empty h0 ha
  · obtain ⟨w', hw', hs⟩ := view_sound (h.vfits hp) hx w hv
    exact h.step (SameView.good hs (view_wf h.fit h.inv.usize hx hv) (View.good_view h.inv hx hw')) ha.1

theorem Known.reshape (h : Known s v) {ns : Shape} (hw : ns.WF) (hu : Usize ns.dims)
    (hv : viewReshape checks v ns = some w) : Known s w ∧ w.ty = ns.ty := by
  obtain ⟨ha, s', hs', e⟩ := reshapeV_any h.fit hw hu hv
  rcases Nat.eq_zero_or_pos (Spec.size v.dims) with h0 | hp
  · have := Shape.reshape_result hw (shapeReshape_empty h0 hs')
    refine ⟨h.empty h0 ha, ?_⟩
    show w.map.shape.ty = _
    rw [e]; exact this.1
  · have hv' := hv
    rw [viewReshape_eq (h.vfits hp) hw] at hv'
    refine ⟨h.step (View.good_reshape h.inv hw hu hv') ha.1, ?_⟩
    have := h.vfits hp
    rw [shapeReshape_eq this.2.bsize] at hs'
    show w.map.shape.ty = _
    rw [e]; exact (Shape.reshape_result hw hs').1

theorem Known.lineParts (h : Known s v) {xs : List DimIdx} (hv : line checks v xs = some w) :
    ∃ u ns, ns.WF ∧ Shape.fromDims (.static [v.ty.head, v.ty.tail.head]) v.dims = some ns ∧
      viewReshape checks v ns = some u ∧ Machine.view checks u xs = some w ∧ Known s u ∧ u.dims.length = 2 := by
  obtain ⟨u, ns, hw, hd, ht, hn, hr, hv⟩ := line_parts hv
  obtain ⟨hk, ht'⟩ := h.reshape hw (by rw [hd]; exact h.inv.usize) hr
  refine ⟨u, ns, hw, hn, hr, hv, hk, ?_⟩
  have hc : u.ty.Conforms u.dims := hk.inv.wf.1
  rw [ht', ht] at hc
  rw [← ShapeTy.conforms_static_length hc]; rfl

theorem Known.line (h : Known s v) {xs : List DimIdx} (hx : xs.length = 2) (hv : line checks v xs = some w) :
    Known s w := by
  obtain ⟨u, ns, _, _, _, hv, hk, hl⟩ := h.lineParts hv
  exact hk.view (by rw [hl, hx]) hv

/-- `row` and `col` with unbounded integers. -/
def lineExact (v : View) (xs : List DimIdx) : Option View := do
  let shape ← Shape.fromDims (.static [v.ty.head, v.ty.tail.head]) v.dims
  let w ← v.reshape shape
  w.view xs

theorem Known.lineSound (h : Known s v) (hp : 0 < Spec.size v.dims) {xs : List DimIdx} (hx : xs.length = 2) :
    SoundResult (Machine.line checks v xs) (lineExact v xs) := by
  intro w hv
  obtain ⟨u, ns, hw, hn, hr, hv, hk, hl⟩ := h.lineParts hv
  have hr' := hr
  rw [viewReshape_eq (h.vfits hp) hw] at hr'
  have hpu : 0 < Spec.size u.dims := by
    have := (View.reshape_spec h.inv.wf hw hr').2.2.2.1
    rw [this]; exact hp
  obtain ⟨w', hw', hs⟩ := view_sound (hk.vfits hpu) (by rw [hl, hx]) w hv
  refine ⟨w', ?_, hs⟩
  unfold lineExact
  rw [hn]
  simp only [Option.bind_eq_bind, Option.bind_some, hr']
  exact hw'

theorem Known.lineComplete (h : Known s v) (hp : 0 < Spec.size v.dims) {xs : List DimIdx} (hx : xs.length = 2) :
    CompleteResult (Machine.line checks v xs) (lineExact v xs) := by
  intro w' hv hpw hf
  unfold lineExact at hv
  simp only [Option.bind_eq_bind, Option.bind_eq_some_iff] at hv
  obtain ⟨ns, hn, u, hr, hv⟩ := hv
  obtain ⟨hw, hd, ht⟩ := fromDims_any hn
  rw [← viewReshape_eq (checks := checks) (h.vfits hp) hw] at hr
  obtain ⟨hk, ht'⟩ := h.reshape hw (by rw [hd]; exact h.inv.usize) hr
  have hl : u.dims.length = 2 := by
    have hc : u.ty.Conforms u.dims := hk.inv.wf.1
    rw [ht', ht] at hc
    rw [← ShapeTy.conforms_static_length hc]; rfl
  have hpu : 0 < Spec.size u.dims := by
    rw [viewReshape_eq (h.vfits hp) hw] at hr
    have := (View.reshape_spec h.inv.wf hw hr).2.2.2.1
    rw [this]; exact hp
  unfold Machine.line
  rw [hn]
  simp only [Option.bind_eq_bind, Option.bind_some, hr]
  exact view_complete (hk.vfits hpu) (by rw [hl, hx]) w' hv hpw hf

theorem Known.call (h : Known s v) (hr : checks = true ∨ v.dims.length < 64) (hc : CallM checks v w) :
    Known s w := by
  have hu := h.inv.usize
  cases hc with
  | axisAt hv =>
    have ha := axisAt_any h.fit hu hv
    rcases Nat.eq_zero_or_pos (Spec.size v.dims) with h0 | hp
    · exact h.empty h0 ha
    · rw [axisAt_eq (h.vfits hp)] at hv
      exact h.step (View.good_axisAt h.inv hv) ha.1
  | splitFst hv =>
    have ha := (split_any h.fit hu hv).1
    rcases Nat.eq_zero_or_pos (Spec.size v.dims) with h0 | hp
    · exact h.empty h0 ha
    · rw [splitAxisAt_eq (h.vfits hp)] at hv
      exact h.step (View.good_split h.inv hv).1 ha.1
  | splitSnd hv =>
    have ha := (split_any h.fit hu hv).2
    rcases Nat.eq_zero_or_pos (Spec.size v.dims) with h0 | hp
    · exact h.empty h0 ha
    · rw [splitAxisAt_eq (h.vfits hp)] at hv
      exact h.step (View.good_split h.inv hv).2 ha.1
  | view hx hv => exact h.view hx hv
  | permute _ hv =>
    have ha := permuteV_any h.fit hu hr hv
    rcases Nat.eq_zero_or_pos (Spec.size v.dims) with h0 | hp
    · exact h.empty h0 ha
    · rw [viewPermute_eq (h.vfits hp)] at hv
      exact h.step (View.good_permute h.inv hr hv) ha.1
  | reorder hv =>
    have ha := reorderV_any h.fit hu hv
    rcases Nat.eq_zero_or_pos (Spec.size v.dims) with h0 | hp
    · exact h.empty h0 ha
    · rw [viewReorder_eq (h.vfits hp)] at hv
      exact h.step (View.good_reorder h.inv hv) ha.1
  | reshape hw hu hv => exact (h.reshape hw hu hv).1
  | flatten hv =>
    have ha := flatten_any h.fit hv
    rcases Nat.eq_zero_or_pos (Spec.size v.dims) with h0 | hp
    · exact h.empty h0 ha
    · rw [flatten_eq (h.vfits hp)] at hv
      exact h.step (View.good_flatten h.inv hv) ha.1
  | remap hv =>
    have ha := remapV_any h.fit hu hv
    rcases Nat.eq_zero_or_pos (Spec.size v.dims) with h0 | hp
    · exact h.empty h0 ha
    · rw [viewRemap_eq (h.vfits hp)] at hv
      exact h.step (View.good_remap h.inv hv) ha.1
  | row hv => exact h.line (xs := [_, _]) rfl hv
  | col hv => exact h.line (xs := [_, _]) rfl hv
  | diag hk hv =>
    have ha := diag_any hv
    rcases Nat.eq_zero_or_pos (Spec.size v.dims) with h0 | hp
    · exact h.empty h0 ha
    · obtain ⟨w', hw', hs⟩ := diag_sound (h.vfits hp) hk w hv
      exact h.step (SameView.good hs (diag_wf' hv) (View.good_diag h.inv hw')) ha.1

theorem known_whole (hw : s.WF) (hu : Usize s.dims) (hs : Spec.size s.dims ≤ 4611686018427387904) :
    Known s (whole s) :=
  ⟨hw, hu, hs, ⟨Mapping.wf_dense.2 hw, hu, .refl _⟩, trivial⟩

theorem known_reach (hw : s.WF) (hu : Usize s.dims) (hs : Spec.size s.dims ≤ 4611686018427387904)
    (h : ReachM checks (whole s) v) : Known s v := by
  induction h with
  | refl => exact known_whole hw hu hs
  | call _ hr hc ih => exact ih.call hr hc

end

/-! ### Builds without overflow checks -/

theorem sameResult {a b : Option View} (h1 : SoundResult a b) (h2 : b.isSome → a.isSome) : SameResult a b := by
  cases a with
  | some w =>
    obtain ⟨w', e, hs⟩ := h1 w rfl
    exact .inr ⟨w, w', rfl, e, hs⟩
  | none =>
    cases b with
    | none => exact .inl ⟨rfl, rfl⟩
    | some w => simp at h2


theorem retI_false (x : Int) : (retI false x).isSome := by
  unfold retI
  split <;> simp

open ViewIdx in
theorem apAllM_release (xs : List DimIdx) : ∀ (ds : List Nat) (ss : List Int),
    (apAll xs ds ss).isSome → (apAllM false xs ds ss).isSome := by
  induction xs with
  | nil => intro ds ss h; cases ds <;> cases ss <;> simp_all [apAll, apAllM]
  | cons x xs ih =>
    intro ds ss h
    cases ds with
    | nil => simp [apAll] at h
    | cons d ds =>
    cases ss with
    | nil => simp [apAll] at h
    | cons s ss =>
    simp only [apAll] at h
    cases hr : apAll xs ds ss with
    | none => rw [hr] at h; simp at h
    | some r =>
    obtain ⟨r', hr'⟩ := Option.isSome_iff_exists.1 (ih ds ss (by rw [hr]; rfl))
    rw [hr] at h
    cases hq : apSel x d with
    | none => rw [hq] at h; simp at h
    | some q =>
    simp only [apAllM, hr', hq, Option.bind_eq_bind, Option.bind_some]
    obtain ⟨delta, k⟩ := q
    obtain ⟨p, hp⟩ := Option.isSome_iff_exists.1 (retI_false (s * castI delta))
    obtain ⟨o, ho⟩ := Option.isSome_iff_exists.1 (retI_false (r'.1 + p))
    cases k with
    | none => simp only [apConsM, hp, ho, Option.bind_eq_bind, Option.bind_some]; rfl
    | some lm =>
      obtain ⟨len, mult⟩ := lm
      obtain ⟨t, ht⟩ := Option.isSome_iff_exists.1 (retI_false (s * mult))
      simp only [apConsM, hp, ho, ht, Option.bind_eq_bind, Option.bind_some]; rfl

theorem view_release {N : Nat} {v : View} (h : VFits N v) {xs : List DimIdx} (hx : v.dims.length = xs.length)
    (hv : (v.view xs).isSome) : (view false v xs).isSome := by
  rw [view_exact h.1 hx, Option.isSome_map] at hv
  rw [view_machine h hx, Option.isSome_map]
  exact apAllM_release xs _ _ hv

theorem diag_release {N : Nat} {v : View} (h : VFits N v) {k : Int} (hk : FitsI k)
    (hv : (v.diag k).isSome) : (diag false v k).isSome := by
  rcases diag_both (checks := false) h hk with ⟨_, e⟩ | ⟨r, c, s0, s1, off, len, _, _, _, _, em⟩
  · rw [e] at hv; simp at hv
  · rw [em, Option.isSome_map]; exact retI_false _

theorem Known.lineRelease {s : Shape} {v : View} (h : Known s v) (hp : 0 < Spec.size v.dims) {xs : List DimIdx}
    (hx : xs.length = 2) (hv : (lineExact v xs).isSome) : (Machine.line false v xs).isSome := by
  obtain ⟨w', hv⟩ := Option.isSome_iff_exists.1 hv
  unfold lineExact at hv
  simp only [Option.bind_eq_bind, Option.bind_eq_some_iff] at hv
  obtain ⟨ns, hn, u, hr, hv⟩ := hv
  obtain ⟨hw, hd, ht⟩ := fromDims_any hn
  have hr' := hr
  rw [← viewReshape_eq (checks := false) (h.vfits hp) hw] at hr
  obtain ⟨hk, ht'⟩ := h.reshape hw (by rw [hd]; exact h.inv.usize) hr
  have hl : u.dims.length = 2 := by
    have hc : u.ty.Conforms u.dims := hk.inv.wf.1
    rw [ht', ht] at hc
    rw [← ShapeTy.conforms_static_length hc]; rfl
  have hpu : 0 < Spec.size u.dims := by
    have := (View.reshape_spec h.inv.wf hw hr').2.2.2.1
    rw [this]; exact hp
  unfold Machine.line
  rw [hn]
  simp only [Option.bind_eq_bind, Option.bind_some, hr]
  exact view_release (hk.vfits hpu) (by rw [hl, hx]) (by rw [hv]; rfl)

end Machine
end Model
