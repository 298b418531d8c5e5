import Verif.Spec.MachineIter
import Verif.Lemmas.MachineReach
import Verif.Lemmas.Pointer
import Verif.Lemmas.ViewOps

/-! Iteration with 64-bit integers. -/

namespace Model
open Spec
namespace Machine
variable {σ : Type} {α : Type}

theorem Fits.erase {N ds st} (h : Fits N ds st) {p : Nat} (hp : p < ds.length) :
    Fits N (ds.eraseIdx p) (st.eraseIdx p) := by
  have hps : p < st.length := by rw [h.len]; exact hp
  have hpos : 0 < size (ds.eraseIdx p) := by
    rw [size_pos_iff]
    intro d hd
    exact size_pos_iff.1 h.pos d ((List.eraseIdx_subset) hd)
  refine ⟨?_, hpos, ?_, h.hN, ?_, ?_⟩
  · rw [List.length_eraseIdx, List.length_eraseIdx, h.len]
  · have := bsize_eraseIdx_le ds p
    rw [bsize_eq h.pos, bsize_eq hpos] at this
    exact this.trans h.sz
  · intro i hi
    have hv : Valid ds (i.insertIdx p 0) := (valid_insertIdx hp).2 ⟨h.dim_pos hp, hi⟩
    have := h.bd _ hv
    rw [dot_insertIdx hps (by
      rw [hi.length, List.length_eraseIdx, if_pos hp]; omega)] at this
    simpa using this
  · intro s hs
    exact h.fit s (List.eraseIdx_subset hs)

/-- The offset of a position of the outer loop. -/
theorem Fits.outer {N : Nat} {m : Mapping} (h : Fits N m.dims m.strides) {D pos : List Nat} {O : Nat}
    (hs : m.dims = D.drop (D.length - m.dims.length)) (hD : 0 < size D) (hp : Valid (D.take O) pos) :
    -(N : Int) < dot m.strides (pos.drop (D.length - m.dims.length)) ∧
      dot m.strides (pos.drop (D.length - m.dims.length)) < N := by
  have hfull : Valid D (pos ++ List.replicate (D.length - O) 0) :=
    Iter.valid_take_zeros (size_pos_iff.1 hD) hp
  have hj := hfull.drop (D.length - m.dims.length)
  rw [← hs, List.drop_append, List.drop_replicate] at hj
  have := h.bd _ hj
  rwa [Iter.dot_append_zeros] at this

theorem Fits.fitI {N ds st} (h : Fits N ds st) {x : Int} (h1 : -(N : Int) < x) (h2 : x < N) : FitsI x := by
  have := h.hN
  exact ⟨by omega, by omega⟩

/-- The offset of an item of a row. -/
theorem Fits.inner {checks : Bool} {N : Nat} {m : Mapping} (h : Fits N m.dims m.strides) (hm : m.WF)
    {D : List Nat} {O c : Nat} (hs : m.dims = D.drop (D.length - m.dims.length))
    (hi : ∀ k, Expr.mapInnerRank m = some k → D.length - O ≤ k) (hO : O ≤ D.length)
    (hD : 0 < size D) (hc : c < size (D.drop O)) :
    retI checks (m.innerStride * castI c) = some (m.innerStride * (c : Int)) := by
  have hz : m.innerStride = 0 ∨ c = 0 →
      retI checks (m.innerStride * castI c) = some (m.innerStride * (c : Int)) := by
    rintro (h0 | rfl)
    · rw [h0, zero_mul, zero_mul]; exact retI_fit fits_zero
    · rw [castI_ok (by omega), Nat.cast_zero, mul_zero]; exact retI_fit fits_zero
  have hdot := Expr.own_dot hm (pos := List.replicate O 0) hs hi hO (by simp) hc
  rw [List.drop_replicate, dot_zeros, zero_add] at hdot
  have hv : Valid D (List.replicate O 0 ++ unrank (D.drop O) c) := by
    conv_lhs => rw [← List.take_append_drop O D]
    have ht : 0 < size (D.take O) := size_pos_iff.2 fun d hd => size_pos_iff.1 hD d (List.mem_of_mem_take hd)
    have hz := valid_zeros ht
    rw [List.length_take, Nat.min_eq_left hO] at hz
    exact (valid_append hz.length).2 ⟨hz, unrank_valid hc⟩
  have hv' := hv.drop (D.length - m.dims.length)
  rw [← hs] at hv'
  obtain ⟨b1, b2⟩ := h.bd _ hv'
  rw [hdot] at b1 b2
  by_cases h0 : m.innerStride = 0 ∨ c = 0
  · exact hz h0
  · have hcl : c < 9223372036854775808 := by
      have h1 : c ≤ (m.innerStride * (c : Int)).natAbs := by
        rw [Int.natAbs_mul, Int.natAbs_natCast]
        exact Nat.le_mul_of_pos_left _ (Int.natAbs_pos.2 (by tauto))
      have := h.hN
      omega
    rw [castI_ok hcl]
    exact retI_fit (h.fitI b1 b2)

/-- The views of an expression fit in memory, and strides of iterated views can be negated or wrap around. -/
def Ok64 (checks : Bool) : {α : Type} → Expr σ α → Prop
  | _, .view _ v => ∃ N, VFits N v ∧ (checks = true → ∀ s ∈ v.map.strides, FitsI (-s))
  | _, .axis _ v _ _ _ => ∃ N, VFits N v
  | _, .lanes _ v _ _ _ => ∃ N, VFits N v
  | _, .map e _ => Ok64 checks e
  | _, .enumerate e _ => Ok64 checks e
  | _, .zip a b _ => Ok64 checks a ∧ Ok64 checks b
  | _, _ => True


section
variable {checks : Bool} {D pos : List Nat} {O c n i : Nat}

theorem dim_le_usize (hD : 0 < size D) (hu : size D ≤ usizeMax) {i : Nat} : D.getD i 0 ≤ usizeMax := by
  by_cases h : i < D.length
  · rw [List.getD_eq_getElem?_getD, List.getElem?_eq_getElem h]
    have := le_bsize (List.getElem_mem h)
    rw [bsize_eq hD] at this
    exact this.trans hu
  · rw [List.getD_eq_getElem?_getD, List.getElem?_eq_none (by omega)]
    exact Nat.zero_le _

theorem suffix_getD {ds : List Nat} (hs : ds = D.drop (D.length - ds.length))
    (h : D.length - ds.length ≤ i) : ds.getD (i - (D.length - ds.length)) 0 = D.getD i 0 := by
  generalize D.length - ds.length = k at *
  subst hs
  rw [List.getD_eq_getElem?_getD, List.getD_eq_getElem?_getD, List.getElem?_drop]
  congr 2; omega

theorem valid_modify_take (hO : O ≤ D.length) (hp : Valid (D.take O) pos) (hi : i < O)
    (hx : pos.getD i 0 + 1 < D.getD i 0) : Valid (D.take O) (pos.modify i (· + 1)) := by
  have hpl : pos.length = O := by rw [hp.length, List.length_take]; omega
  have e : pos.modify i (· + 1) = pos.set i (pos.getD i 0 + 1) := by
    apply List.ext_getElem?
    intro k
    rw [List.getElem?_modify, List.getElem?_set]
    by_cases hk : i = k
    · subst hk; simp [List.getD_eq_getElem?_getD, hpl, hi]
    · simp [hk]
  rw [e]
  apply valid_set hp
  rw [List.getD_eq_getElem?_getD (l := D.take O), List.getElem?_take, if_pos hi]
  rwa [List.getD_eq_getElem?_getD (l := D)] at hx

theorem valid_reset_take (hp : Valid (D.take O) pos) (hD : 0 < size D) : Valid (D.take O) (pos.set i 0) := by
  by_cases h : i < pos.length
  · have h' : i < (D.take O).length := by rw [← hp.length]; exact h
    apply valid_set hp
    rw [List.getD_eq_getElem?_getD, List.getElem?_eq_getElem h', Option.getD_some, List.getElem_take]
    exact size_pos_iff.1 hD _ (List.getElem_mem _)
  · rw [List.set_eq_of_length_le (by omega)]; exact hp

theorem stepDim_eq {e : Expr σ α} (hw : e.Wf) (h64 : Ok64 checks e) (hf : Expr.Fit e D O) (hO : O ≤ D.length)
    (hp : Valid (D.take O) pos) (hD : 0 < size D) (hu : size D ≤ usizeMax) (hi : i < O)
    (hx : pos.getD i 0 + 1 < D.getD i 0) (h : D.length - e.dims.length ≤ i) :
    stepDim checks (Expr.adv D.length pos c n e) (i - (D.length - e.dims.length)) =
      (Expr.adv D.length pos c n e).stepDim (i - (D.length - e.dims.length)) := by
  have hpl : pos.length = O := by rw [hp.length, List.length_take]; omega
  induction e with
  | view r v =>
    obtain ⟨N, hv, -⟩ := h64
    simp only [Expr.adv, stepDim, Expr.stepDim]
    rw [stride_eq hv.2.bsize]
  | axis r v a m off =>
    obtain ⟨N, hv⟩ := h64
    obtain ⟨p, hp1, hp2, hmd, -, hin, hmw⟩ := Expr.axis_dims hw.1 hw.2.1
    have hlen : (Expr.axis r v a m off : Expr σ View).dims.length = 1 := by
      change m.dims.length = 1; rw [hmd]; rfl
    have hge : 1 ≤ D.length := hlen ▸ hf.le
    have hsuf := suffix_getD hf.suffix h
    rw [hlen] at hsuf h
    obtain rfl : i = D.length - 1 := by omega
    rw [Nat.sub_self] at hsuf
    change m.dims.getD 0 0 = _ at hsuf
    rw [hmd] at hsuf
    simp only [Expr.adv, stepDim, Expr.stepDim]
    have hg : (pos.drop (D.length - 1)).getD 0 0 = pos.getD (D.length - 1) 0 := by
      simp [List.getD_eq_getElem?_getD]
    rw [hg]
    have hp3 : p < v.map.strides.length := by rw [hv.2.len]; exact hp2
    have hlt : pos.getD (D.length - 1) 0 + 1 < v.dims[p] := by
      rw [← hsuf] at hx
      simpa [List.getD_eq_getElem?_getD, hp2] using hx
    have hb := hv.2.single hp2 hlt
    have he : m.innerStride = v.map.strides[p] := by
      rw [hin, List.getD_eq_getElem?_getD, List.getElem?_eq_getElem hp3]; rfl
    rw [← he] at hb
    rw [retI_fit (hv.2.fitI (x := m.innerStride * (pos.getD (D.length - 1) 0 : Nat) + m.innerStride) ?_ ?_)]
    · rfl
    · have := hb.1; push_cast at this; rw [mul_add, mul_one] at this; exact this
    · have := hb.2; push_cast at this; rw [mul_add, mul_one] at this; exact this
  | lanes r v a m off =>
    obtain ⟨N, hv⟩ := h64
    obtain ⟨p, hp1, hp2, hmd, hms, hmw⟩ := Expr.lanes_dims hw.1 hw.2.1
    have hF : Fits N m.dims m.strides := by rw [hmd, hms]; exact hv.2.erase hp2
    have hl : m.strides.length = m.dims.length := hmw.len
    have hle : m.dims.length ≤ D.length := hf.le
    change D.length - m.dims.length ≤ i at h
    simp only [Expr.adv, stepDim, Expr.stepDim]
    rw [stride_eq hF.bsize, Mapping.stride_eq _ hmw]
    change (m.strides[i - (D.length - m.dims.length)]?).bind _ = (m.strides[i - (D.length - m.dims.length)]?).map _
    have hb := hF.outer hf.suffix hD (valid_modify_take hO hp hi hx)
    rw [← hl] at hb h ⊢
    rw [Expr.dot_drop_modify (by omega) (by omega) (by omega) h] at hb
    rw [List.getElem?_eq_getElem (by omega)]
    simp only [Option.bind_some, Option.map_some]
    rw [retI_fit (hF.fitI hb.1 hb.2)]
    rfl
  | fill f => rfl
  | fromElem s f => rfl
  | fromFn s idx f =>
    have hle : s.dims.length ≤ D.length := hf.le
    change D.length - s.dims.length ≤ i at h
    have hql : (pos.drop (D.length - s.dims.length)).length ≤ s.dims.length := by
      rw [List.length_drop]; omega
    simp only [Expr.adv, stepDim, Expr.stepDim, fromFnStep]
    change (if i - (D.length - s.dims.length) + 1 < s.dims.length then _ else _) =
      (if i - (D.length - s.dims.length) + 1 < s.dims.length then _ else _)
    by_cases hlt : i - (D.length - s.dims.length) + 1 < s.dims.length
    · rw [if_pos hlt, if_pos hlt]
      change Option.bind ((Expr.ownIdx s.dims.length (pos.drop (D.length - s.dims.length)) c)[
        i - (D.length - s.dims.length)]?) _ = match (Expr.ownIdx s.dims.length (pos.drop (D.length - s.dims.length)) c)[
        i - (D.length - s.dims.length)]? with | some k => _ | none => _
      rw [Expr.ownIdx_getElem? hql, if_pos (by omega), if_neg (by omega)]
      have hg : (pos.drop (D.length - s.dims.length)).getD (i - (D.length - s.dims.length)) 0 = pos.getD i 0 := by
        rw [List.getD_eq_getElem?_getD, List.getD_eq_getElem?_getD, List.getElem?_drop]
        congr 2; omega
      simp only [Option.bind_some, Nat.add_zero, hg]
      rw [retU_fit (by have := dim_le_usize (i := i) hD hu; omega)]
      rfl
    · rw [if_neg hlt, if_neg hlt]
  | intoExpr s buf idx => rfl
  | map e f ih =>
    simp only [Expr.adv, stepDim, Expr.stepDim]
    exact congrArg _ (ih hw h64 ⟨hf.suffix, hf.inner, hf.rep⟩ h)
  | enumerate e k ih =>
    simp only [Expr.adv, stepDim, Expr.stepDim]
    exact congrArg _ (ih hw.1 h64 ⟨hf.suffix, hf.inner, hf.rep⟩ h)
  | zip a b s iha ihb =>
    obtain ⟨ha, hb, hz⟩ := hw
    obtain ⟨fa, fb⟩ := hf.zip hz
    have ea := iha ha h64.1 fa
    have eb := ihb hb h64.2 fb
    have la := fa.le
    have lb := fb.le
    have hle : s.dims.length ≤ D.length := hf.le
    change D.length - s.dims.length ≤ i at h
    have hda : (Expr.adv D.length pos c n a).rank = a.dims.length := by simp [Expr.rank]
    have hdb : (Expr.adv D.length pos c n b).rank = b.dims.length := by simp [Expr.rank]
    simp only [Expr.adv, stepDim, Expr.stepDim]
    rw [hda, hdb, show (Expr.zip a b s).dims.length = s.dims.length from rfl]
    have key : ∀ {γ : Type} (x : Expr σ γ), (D.length - x.dims.length ≤ i →
        stepDim checks (Expr.adv D.length pos c n x) (i - (D.length - x.dims.length)) =
          (Expr.adv D.length pos c n x).stepDim (i - (D.length - x.dims.length))) →
        x.dims.length ≤ D.length →
        (if s.dims.length - (i - (D.length - s.dims.length)) ≤ x.dims.length then
          stepDim checks (Expr.adv D.length pos c n x)
            (x.dims.length - (s.dims.length - (i - (D.length - s.dims.length))))
          else some (Expr.adv D.length pos c n x)) =
        (if s.dims.length - (i - (D.length - s.dims.length)) ≤ x.dims.length then
          (Expr.adv D.length pos c n x).stepDim
            (x.dims.length - (s.dims.length - (i - (D.length - s.dims.length))))
          else some (Expr.adv D.length pos c n x)) := by
      intro γ x hx hl
      by_cases hh : s.dims.length - (i - (D.length - s.dims.length)) ≤ x.dims.length
      · rw [if_pos hh, if_pos hh,
          show x.dims.length - (s.dims.length - (i - (D.length - s.dims.length))) =
            i - (D.length - x.dims.length) by omega]
        exact hx (by omega)
      · rw [if_neg hh, if_neg hh]
    rw [key a ea la]
    have e2 := key b eb lb
    congr 1
    funext a'
    exact congrArg _ e2

/-- Negating and multiplying gives the product if it fits, also if the negation wraps around. -/
theorem retI_neg_mul {β : Type} {s y : Int} (h : checks = true → FitsI (-s)) (hy : FitsI (-s * y))
    (k : Int → Option β) :
    ((retI checks (-s)).bind fun t => (retI checks (t * y)).bind k) = k (-s * y) := by
  by_cases hs : FitsI (-s)
  · rw [retI_fit hs, Option.bind_some, retI_fit hy, Option.bind_some]
  · have hc : checks = false := by
      cases checks
      · rfl
      · exact absurd (h rfl) hs
    subst hc
    have h1 : retI false (-s) = some (Int.bmod (-s) (2 ^ 64)) := by simp [retI, hs]
    rw [h1, Option.bind_some]
    have h2 : Int.bmod (Int.bmod (-s) (2 ^ 64) * y) (2 ^ 64) = -s * y := by
      rw [Int.bmod_mul_bmod]
      exact bmod_fit hy
    unfold retI
    split
    · rename_i hf
      rw [← h2, bmod_fit hf, Option.bind_some]
    · rw [h2, if_neg (by simp), Option.bind_some]

theorem resetDim_eq {e : Expr σ α} (hw : e.Wf) (h64 : Ok64 checks e) (hf : Expr.Fit e D O) (hO : O ≤ D.length)
    (hp : Valid (D.take O) pos) (hD : 0 < size D)
    (hi : i < D.length) (h : D.length - e.dims.length ≤ i) :
    resetDim checks (Expr.adv D.length pos c n e) (i - (D.length - e.dims.length)) (pos.getD i 0) =
      (Expr.adv D.length pos c n e).resetDim (i - (D.length - e.dims.length)) (pos.getD i 0) := by
  have hpl : pos.length = O := by rw [hp.length, List.length_take]; omega
  have hlt : pos.getD i 0 < D.getD i 0 := by
    rw [List.getD_eq_getElem?_getD (l := D), List.getElem?_eq_getElem hi]
    by_cases hiO : i < O
    · have := List.Forall₂.get hp (i := i) (by omega) (by simp; omega)
      rw [List.getD_eq_getElem?_getD, List.getElem?_eq_getElem (by omega)]
      simpa using this
    · rw [List.getD_eq_getElem?_getD, List.getElem?_eq_none (by omega)]
      exact size_pos_iff.1 hD _ (List.getElem_mem _)
  -- the stride times the position
  have hmul : ∀ {N : Nat} {m : Mapping} (hF : Fits N m.dims m.strides)
      (hs : m.dims = D.drop (D.length - m.dims.length)) (hh : D.length - m.dims.length ≤ i)
      (hi' : i - (D.length - m.dims.length) < m.strides.length),
      castI (pos.getD i 0) = (pos.getD i 0 : Nat) ∧
      -(N : Int) < m.strides[i - (D.length - m.dims.length)] * (pos.getD i 0 : Nat) ∧
        m.strides[i - (D.length - m.dims.length)] * (pos.getD i 0 : Nat) < (N : Int) := by
    intro N m hF hs hh hi'
    have hi2 : i - (D.length - m.dims.length) < m.dims.length := by have := hF.len; omega
    have hd := suffix_getD hs hh
    have hlt' : pos.getD i 0 < m.dims[i - (D.length - m.dims.length)] := by
      rw [← hd] at hlt
      rw [List.getD_eq_getElem?_getD (l := m.dims), List.getElem?_eq_getElem hi2] at hlt
      exact hlt
    refine ⟨castI_ok ?_, hF.single hi2 hlt'⟩
    have := hF.dim_le (List.getElem_mem hi2)
    have := hF.hN
    omega
  induction e with
  | view r v =>
    obtain ⟨N, hv, hs⟩ := h64
    have hl : v.map.strides.length = v.map.dims.length := hw.len
    have hle : v.map.dims.length ≤ D.length := hf.le
    change D.length - v.map.dims.length ≤ i at h
    have hi' : i - (D.length - v.map.dims.length) < v.map.strides.length := by omega
    obtain ⟨h1, h2, h3⟩ := hmul hv.2 hf.suffix h hi'
    simp only [Expr.adv, resetDim, Expr.resetDim, viewReset]
    rw [stride_eq hv.2.bsize, Mapping.stride_eq _ hw]
    change Option.map _ (Option.bind (v.map.strides[i - (D.length - v.map.dims.length)]?) _) =
      Option.map _ (v.map.strides[i - (D.length - v.map.dims.length)]?)
    rw [List.getElem?_eq_getElem hi', h1]
    simp only [Option.bind_some, Option.bind_eq_bind, Option.map_some]
    have hfit : FitsI (-v.map.strides[i - (D.length - v.map.dims.length)] * (pos.getD i 0 : Nat)) := by
      rw [neg_mul]
      exact hv.2.fitI (by omega) (by omega)
    rw [retI_neg_mul (fun hc => hs hc _ (List.getElem_mem hi')) hfit]
    rfl
  | axis r v a m off => rfl
  | lanes r v a m off =>
    obtain ⟨N, hv⟩ := h64
    obtain ⟨p, hp1, hp2, hmd, hms, hmw⟩ := Expr.lanes_dims hw.1 hw.2.1
    have hF : Fits N m.dims m.strides := by rw [hmd, hms]; exact hv.2.erase hp2
    have hl : m.strides.length = m.dims.length := hmw.len
    have hle : m.dims.length ≤ D.length := hf.le
    change D.length - m.dims.length ≤ i at h
    have hi' : i - (D.length - m.dims.length) < m.strides.length := by omega
    obtain ⟨h1, h2, h3⟩ := hmul hF hf.suffix h hi'
    simp only [Expr.adv, resetDim, Expr.resetDim, lanesReset]
    rw [stride_eq hF.bsize, Mapping.stride_eq _ hmw]
    change Option.map _ (Option.bind (m.strides[i - (D.length - m.dims.length)]?) _) =
      Option.map _ (m.strides[i - (D.length - m.dims.length)]?)
    have hb := hF.outer hf.suffix hD (valid_reset_take (i := i) hp hD)
    rw [List.getElem?_eq_getElem hi', h1]
    simp only [Option.bind_some, Option.bind_eq_bind, Option.map_some]
    rw [retI_fit (hF.fitI h2 h3), Option.bind_some]
    rw [retI_fit]
    · rfl
    · refine hF.fitI ?_ ?_
      · have := hb.1
        simp only [← hl] at this h ⊢
        rwa [Expr.dot_drop_set (by omega) (by omega) h] at this
      · have := hb.2
        simp only [← hl] at this h ⊢
        rwa [Expr.dot_drop_set (by omega) (by omega) h] at this
  | fill f => rfl
  | fromElem s f => rfl
  | fromFn s idx f => rfl
  | intoExpr s buf idx => rfl
  | map e f ih =>
    simp only [Expr.adv, resetDim, Expr.resetDim]
    exact congrArg _ (ih hw h64 ⟨hf.suffix, hf.inner, hf.rep⟩ h)
  | enumerate e k ih =>
    simp only [Expr.adv, resetDim, Expr.resetDim]
    exact congrArg _ (ih hw.1 h64 ⟨hf.suffix, hf.inner, hf.rep⟩ h)
  | zip a b s iha ihb =>
    obtain ⟨ha, hb, hz⟩ := hw
    obtain ⟨fa, fb⟩ := hf.zip hz
    have ea := iha ha h64.1 fa
    have eb := ihb hb h64.2 fb
    have la := fa.le
    have lb := fb.le
    have hle : s.dims.length ≤ D.length := hf.le
    change D.length - s.dims.length ≤ i at h
    have hda : (Expr.adv D.length pos c n a).rank = a.dims.length := by simp [Expr.rank]
    have hdb : (Expr.adv D.length pos c n b).rank = b.dims.length := by simp [Expr.rank]
    simp only [Expr.adv, resetDim, Expr.resetDim]
    rw [hda, hdb, show (Expr.zip a b s).dims.length = s.dims.length from rfl]
    have key : ∀ {γ : Type} (x : Expr σ γ), (D.length - x.dims.length ≤ i →
        resetDim checks (Expr.adv D.length pos c n x) (i - (D.length - x.dims.length)) (pos.getD i 0) =
          (Expr.adv D.length pos c n x).resetDim (i - (D.length - x.dims.length)) (pos.getD i 0)) →
        x.dims.length ≤ D.length →
        (if s.dims.length - (i - (D.length - s.dims.length)) ≤ x.dims.length then
          resetDim checks (Expr.adv D.length pos c n x)
            (x.dims.length - (s.dims.length - (i - (D.length - s.dims.length)))) (pos.getD i 0)
          else some (Expr.adv D.length pos c n x)) =
        (if s.dims.length - (i - (D.length - s.dims.length)) ≤ x.dims.length then
          (Expr.adv D.length pos c n x).resetDim
            (x.dims.length - (s.dims.length - (i - (D.length - s.dims.length)))) (pos.getD i 0)
          else some (Expr.adv D.length pos c n x)) := by
      intro γ x hx hl
      by_cases hh : s.dims.length - (i - (D.length - s.dims.length)) ≤ x.dims.length
      · rw [if_pos hh, if_pos hh,
          show x.dims.length - (s.dims.length - (i - (D.length - s.dims.length))) =
            i - (D.length - x.dims.length) by omega]
        exact hx (by omega)
      · rw [if_neg hh, if_neg hh]
    rw [key a ea la]
    have e2 := key b eb lb
    congr 1
    funext a'
    exact congrArg _ e2


theorem axisGet_eq {m : Mapping} (h : bsize m.dims < 9223372036854775808) (a : Axis) :
    axisGet checks a m = a.get m := by
  unfold axisGet Axis.get
  simp only [stride_eq h, prependDim_eq (m := Mapping.dense ⟨.static [], []⟩)
    (show bsize [] < 9223372036854775808 by simp)]

theorem get_bsize {N : Nat} {v : View} {a : Axis} {item : Mapping} (hw : v.map.WF) (hv : VFits N v)
    (hg : a.get v.map = some item) : bsize item.shape.dims ≤ usizeMax := by
  obtain ⟨q, -, hq2, hmd', -⟩ := Expr.axis_dims hw hg
  change bsize item.dims ≤ usizeMax
  rw [hmd', bsize_cons, bsize_nil, mul_one]
  have h1 := hv.2.dim_pos hq2
  have := hv.2.dim_le (List.getElem_mem hq2)
  have := hv.2.hN
  rw [List.getD_eq_getElem?_getD, List.getElem?_eq_getElem hq2, Option.getD_some]
  exact usizeMax_lt (by omega)

theorem get_eq {e : Expr σ α} (hw : e.Wf) (h64 : Ok64 checks e) (hf : Expr.Fit e D O) (hO : O ≤ D.length)
    (hp : Valid (D.take O) pos) (hD : 0 < size D) (hu : size D ≤ usizeMax)
    (hc : c < size (D.drop O)) (hn : n + 1 ≤ usizeMax) :
    get checks (Expr.adv D.length pos c n e) c = (Expr.adv D.length pos c n e).get c := by
  have hpl : pos.length = O := by rw [hp.length, List.length_take]; omega
  have hJ : Valid D (pos ++ unrank (D.drop O) c) := by
    conv_lhs => rw [← List.take_append_drop O D]
    exact (valid_append hp.length).2 ⟨hp, unrank_valid hc⟩
  induction e with
  | view r v =>
    obtain ⟨N, hv, -⟩ := h64
    simp only [Expr.adv, get, Expr.get]
    rw [hv.2.inner (m := v.map) hw hf.suffix hf.inner hO hD hc, M.lift_some, M.pure_bind]
  | axis r v a m off =>
    obtain ⟨N, hv⟩ := h64
    obtain ⟨p, hp1, hp2, hmd, -, hin, hmw⟩ := Expr.axis_dims hw.1 hw.2.1
    have hi : D.length - O ≤ 1 := hf.inner 1 rfl
    have hlen : (Expr.axis r v a m off : Expr σ View).dims.length = 1 := by
      change m.dims.length = 1; rw [hmd]; rfl
    have hge : 1 ≤ D.length := hlen ▸ hf.le
    have hk : ((pos ++ unrank (D.drop O) c).drop (D.length - 1)).getD 0 0 =
        (pos.drop (D.length - 1)).getD 0 0 + c := by
      by_cases h : O = D.length
      · have e : D.drop O = [] := List.drop_eq_nil_of_le (by omega)
        rw [e] at hc ⊢
        have : c = 0 := by simpa using hc
        subst this
        simp [unrank]
      · have e : D.drop O = [D[O]'(by omega)] := by
          rw [List.drop_eq_getElem_cons (by omega), List.drop_eq_nil_of_le (by omega)]
        rw [e, drop_append_le _ _ (by omega)]
        have : pos.drop (D.length - 1) = [] := List.drop_eq_nil_of_le (by omega)
        rw [this]; simp [unrank]
    have hJd := hJ.drop (D.length - 1)
    have hs : m.dims = D.drop (D.length - 1) := by
      have := hf.suffix; rw [hlen] at this; exact this
    rw [← hs, hmd] at hJd
    have hJ' : (pos.drop (D.length - 1)).getD 0 0 + c < v.dims[p] := by
      rw [← hk]
      generalize (pos ++ unrank (D.drop O) c).drop (D.length - 1) = J at *
      obtain ⟨i, is, rfl, hi', -⟩ := valid_cons'.1 hJd
      simpa [List.getD_eq_getElem?_getD, hp2] using hi'
    have hp3 : p < v.map.strides.length := by rw [hv.2.len]; exact hp2
    have he : m.innerStride = v.map.strides[p] := by
      rw [hin, List.getD_eq_getElem?_getD, List.getElem?_eq_getElem hp3]; rfl
    generalize hxx : (pos.drop (D.length - 1)).getD 0 0 = x at *
    have b1 := hv.2.single hp2 (x := c) (by omega)
    have b2 := hv.2.single hp2 hJ'
    rw [← he] at b1 b2
    have hcc : castI c = c := castI_ok (by
      have := hv.2.dim_le (List.getElem_mem hp2)
      have := hv.2.hN
      omega)
    simp only [Expr.adv, get, Expr.get, axisItem, hxx]
    rw [hcc, retI_fit (hv.2.fitI b1.1 b1.2), removeMap_eq hv.2.bsize]
    simp only [Option.bind_eq_bind, Option.bind_some]
    rw [retI_fit (hv.2.fitI (x := m.innerStride * (x : Int) + m.innerStride * (c : Int)) ?_ ?_)]
    · rfl
    · have := b2.1; push_cast at this; rw [mul_add] at this; exact this
    · have := b2.2; push_cast at this; rw [mul_add] at this; exact this
  | lanes r v a m off =>
    obtain ⟨N, hv⟩ := h64
    obtain ⟨p, hp1, hp2, hmd, hms, hmw⟩ := Expr.lanes_dims hw.1 hw.2.1
    have hF : Fits N m.dims m.strides := by rw [hmd, hms]; exact hv.2.erase hp2
    simp only [Expr.adv, get, Expr.get, lanesItem]
    rw [hF.inner hmw hf.suffix hf.inner hO hD hc, axisGet_eq hv.2.bsize]
    simp only [Option.bind_eq_bind, Option.bind_some]
    cases hg : a.get v.map with
    | none => rfl
    | some item =>
      simp only [Option.bind_some]
      rw [isEmpty_eq (get_bsize hw.1 hv hg)]
      rfl
  | fill f => rfl
  | fromElem s f => rfl
  | fromFn s idx f =>
    have hle : s.dims.length ≤ D.length := hf.le
    have hsuf : s.dims = D.drop (D.length - s.dims.length) := hf.suffix
    simp only [Expr.adv, get, Expr.get, fromFnCount]
    by_cases h0 : s.dims.length > 0
    · have hi : D.length - O ≤ 1 := hf.inner 1 (by simp [Expr.innerRank, h0])
      obtain ⟨h1, -⟩ := Expr.ownIdx_get hle h0 hi hO hpl hc
      rw [← h1]
      have hv := hJ.drop (D.length - s.dims.length)
      rw [← hsuf] at hv
      generalize (pos ++ unrank (D.drop O) c).drop (D.length - s.dims.length) = J at *
      have hJl := hv.length
      have hlt := List.Forall₂.get hv (i := s.dims.length - 1) (by omega) (by omega)
      simp only [List.get_eq_getElem] at hlt
      simp only [if_pos h0, List.getElem?_eq_getElem (show s.dims.length - 1 < J.length by omega), Option.bind_some]
      have hbd : s.dims[s.dims.length - 1]'(by omega) ≤ usizeMax := by
        have h2 := suffix_getD (i := D.length - 1) hsuf (by omega)
        rw [show D.length - 1 - (D.length - s.dims.length) = s.dims.length - 1 by omega,
          List.getD_eq_getElem?_getD, List.getElem?_eq_getElem (by omega), Option.getD_some] at h2
        rw [h2]; exact dim_le_usize hD hu
      rw [retU_fit (by omega)]
      rfl
    · simp only [if_neg h0]
      rfl
  | intoExpr s buf idx =>
    simp only [Expr.adv, get, Expr.get]
    rw [retU_fit hn, M.lift_some, M.pure_bind]
    rfl
  | map e f ih =>
    simp only [Expr.adv, get, Expr.get]
    rw [ih hw h64 ⟨hf.suffix, hf.inner, hf.rep⟩]
  | enumerate e k ih =>
    simp only [Expr.adv, get, Expr.get]
    rw [ih hw.1 h64 ⟨hf.suffix, hf.inner, hf.rep⟩, retU_fit hn, M.lift_some, M.pure_bind]
  | zip a b s iha ihb =>
    obtain ⟨ha, hb, hz⟩ := hw
    obtain ⟨fa, fb⟩ := hf.zip hz
    simp only [Expr.adv, get, Expr.get]
    rw [iha ha h64.1 fa, ihb hb h64.2 fb]

/-- The expression after a move with 64-bit integers. -/
def afterM (checks : Bool) : Move σ α → Option (Expr σ α)
  | .step e i => stepDim checks e i
  | .reset e i n => resetDim checks e i n

theorem stepLoop_eq {limit : List Nat} (i : Nat) (e : Expr σ α) (oi : List Nat)
    (h : ∀ m ∈ loopMoves limit i e oi, afterM checks m = m.after) (ho : ∀ x ∈ oi, x + 1 ≤ usizeMax) :
    stepLoop checks limit i e oi = Iter.stepLoop limit i e oi := by
  induction i generalizing e oi with
  | zero => rfl
  | succ i ih =>
    unfold stepLoop Iter.stepLoop
    unfold loopMoves at h
    cases hx : oi[i]? with
    | none => rfl
    | some x =>
      rw [hx] at h
      simp only [Option.bind_some]
      rw [retU_fit (ho x (List.mem_of_getElem? hx)), Option.bind_some]
      cases hl : limit[i]? with
      | none => rfl
      | some l =>
        rw [hl] at h
        simp only [Option.bind_some] at h ⊢
        by_cases hlt : x + 1 < l
        · rw [if_pos hlt] at h ⊢
          rw [if_pos hlt, show stepDim checks e i = e.stepDim i from h (.step e i) (by simp)]
        · rw [if_neg hlt] at h ⊢
          rw [if_neg hlt, show resetDim checks e i x = e.resetDim i x from h (.reset e i x) (by simp)]
          cases hr : e.resetDim i x with
          | none => rfl
          | some e' =>
            rw [hr] at h
            simp only [Option.bind_some]
            refine ih e' _ (fun m hm => h m (by simp [hm])) ?_
            intro y hy
            rcases List.mem_or_eq_of_mem_set hy with hy | rfl
            · exact ho y hy
            · unfold usizeMax; omega

theorem stepOuter_eq {it : Iter σ α} (h : ∀ m ∈ moves it, afterM checks m = m.after)
    (ho : ∀ x ∈ it.outerIndex, x + 1 ≤ usizeMax) : stepOuter checks it = it.stepOuter := by
  unfold stepOuter Iter.stepOuter
  unfold moves at h
  by_cases hlt : it.expr.outerRank < it.expr.rank
  · rw [if_pos hlt] at h
    simp only [if_pos hlt]
    rw [show resetDim checks it.expr (it.expr.rank - 1) 0 = it.expr.resetDim (it.expr.rank - 1) 0 from
      h (.reset _ _ _) (by simp)]
    cases hr : it.expr.resetDim (it.expr.rank - 1) 0 with
    | none => rfl
    | some e' =>
      rw [hr] at h
      simp only [Option.bind_some]
      rw [stepLoop_eq _ _ _ (fun m hm => h m (List.mem_cons_of_mem _ hm)) ho]
  · rw [if_neg hlt] at h
    simp only [if_neg hlt, Option.bind_some]
    rw [stepLoop_eq _ _ _ h ho]

end

section
variable {checks : Bool} {e : Expr σ α} (hw : e.Wf) (h64 : Ok64 checks e) (hD : 0 < size e.dims)
  (hu : size e.dims ≤ usizeMax)
include hw h64 hD hu
open Iter

theorem afterM_from {m : Move σ α} (h : From e m) :
    afterM checks m = m.after := by
  obtain ⟨pos, c, n, hv, hb, hm⟩ := h
  have hO := outerRank_le e
  rw [lims_eq hD] at hv
  cases m with
  | step e' i =>
    change e' = _ at hb
    subst hb
    have := stepDim_eq (checks := checks) (c := c) (n := n) hw h64 (Expr.fit_self e) hO hv hD hu hm.1 hm.2
      (by omega)
    rw [Nat.sub_self, Nat.sub_zero] at this
    exact this
  | reset e' i k =>
    change e' = _ at hb
    subst hb
    obtain ⟨h1, rfl⟩ := hm
    have := resetDim_eq (checks := checks) (c := c) (n := n) (i := i) hw h64 (Expr.fit_self e) hO hv hD
      (by omega) (by omega)
    rw [Nat.sub_self, Nat.sub_zero] at this
    exact this

theorem stepOuter_at {q c n k : Nat} (hq : q < rows e)
    (hc : e.outerRank = e.dims.length → 0 < e.dims.length → c = 1 ∨ ∀ d ∈ e.dims.take e.outerRank, d ≤ 1) :
    stepOuter checks { iterAt e q c n with innerIndex := k } =
      Iter.stepOuter { iterAt e q c n with innerIndex := k } := by
  apply stepOuter_eq
  · intro m hm
    exact afterM_from hw h64 hD hu (moves_here hw (k := k) hq hc m hm).2
  · intro x hx
    change x ∈ (if e.outerRank > 0 then _ else _) at hx
    split at hx
    · rw [List.mem_append] at hx
      rcases hx with hx | hx
      · have hv : Valid (lims e.dims e.outerRank) (unrank (lims e.dims e.outerRank) q) := unrank_valid hq
        rw [lims_eq hD] at hv hx
        obtain ⟨i, hi, rfl⟩ := List.getElem_of_mem hx
        have hi' : i < (e.dims.take e.outerRank).length := by rw [← hv.length]; exact hi
        have h1 := List.Forall₂.get hv hi hi'
        simp only [List.get_eq_getElem] at h1
        have h2 := le_bsize (List.mem_of_mem_take (List.getElem_mem hi'))
        rw [bsize_eq hD] at h2
        omega
      · rw [List.eq_of_mem_replicate hx]; unfold usizeMax; omega
    · simp at hx

theorem get_at {q c : Nat} (hq : q < rows e) (hc : c < Iter.row e) :
    get checks (Expr.adv e.dims.length (unrank (lims e.dims e.outerRank) q) c (q * Iter.row e + c) e) c =
      (Expr.adv e.dims.length (unrank (lims e.dims e.outerRank) q) c (q * Iter.row e + c) e).get c := by
  have hv : Valid (lims e.dims e.outerRank) (unrank (lims e.dims e.outerRank) q) := unrank_valid hq
  rw [lims_eq hD] at hv
  rw [lims_eq hD]
  refine get_eq hw h64 (Expr.fit_self e) (outerRank_le e) hv hD hu hc ?_
  have h1 := size_split hD
  have h2 : q * Iter.row e + Iter.row e ≤ rows e * Iter.row e := by
    rw [← Nat.succ_mul]; exact Nat.mul_le_mul_right _ hq
  omega

variable (hb : ¬ BadFn e)
include hb

theorem innerLoop_eq {τ : Type} (f : τ → α → M σ τ) {q : Nat} (hq : q < rows e) :
    ∀ (k c : Nat) (acc : τ), c + k ≤ Iter.row e →
    innerLoop checks f (List.range' c k)
      (Expr.adv e.dims.length (unrank (lims e.dims e.outerRank) q) c (q * Iter.row e + c) e) acc =
    Iter.innerLoop f (List.range' c k)
      (Expr.adv e.dims.length (unrank (lims e.dims e.outerRank) q) c (q * Iter.row e + c) e) acc := by
  intro k
  induction k with
  | zero => intro c acc _; rfl
  | succ k ih =>
    intro c acc hc
    rw [List.range'_succ]
    unfold innerLoop Iter.innerLoop
    rw [get_at hw h64 hD hu hq (by omega), Iter.get_rawAt hw hb hq (by omega)]
    simp only [M.bind_assoc, M.pure_bind]
    congr 1
    funext x
    congr 1
    funext acc'
    exact ih (c + 1) acc' (by omega)

theorem foldLoop_eq {τ : Type} (f : τ → α → M σ τ) :
    ∀ (fuel q c : Nat) (acc : τ), q < rows e → c ≤ Iter.row e →
    foldLoop checks f fuel (iterAt e q c (q * Iter.row e + c)) acc =
      Iter.foldLoop f fuel (iterAt e q c (q * Iter.row e + c)) acc := by
  intro fuel
  induction fuel with
  | zero => intro q c acc _ _; rfl
  | succ fuel ih =>
    intro q c acc hq hc
    have hin := innerLoop_gen (G := fun k => rawItem (e.dims.length - e.outerRank) e k (unrank (visited e) k))
      (fun q c => Iter.get_rawAt hw hb) f hq (Iter.row e - c) c acc (by omega)
    have hin' := innerLoop_eq (checks := checks) hw h64 hD hu hb f hq (Iter.row e - c) c acc (by omega)
    unfold foldLoop Iter.foldLoop
    change M.bind (innerLoop checks f (List.range' c (Iter.row e - c)) (Expr.adv e.dims.length
        (unrank (lims e.dims e.outerRank) q) c (q * Iter.row e + c) e) acc) _ =
      M.bind (Iter.innerLoop f (List.range' c (Iter.row e - c)) (Expr.adv e.dims.length
        (unrank (lims e.dims e.outerRank) q) c (q * Iter.row e + c) e) acc) _
    rw [hin', hin]
    simp only [M.bind_assoc, M.pure_bind]
    congr 1
    funext acc'
    rw [show c + (Iter.row e - c) = Iter.row e by omega, show q * Iter.row e + c + (Iter.row e - c) = q * Iter.row e + Iter.row e by omega]
    have hitr : ({ iterAt e q c (q * Iter.row e + c) with
        expr := Expr.adv e.dims.length (unrank (lims e.dims e.outerRank) q) (Iter.row e) (q * Iter.row e + Iter.row e) e } :
          Iter σ α) = { iterAt e q (Iter.row e) (q * Iter.row e + Iter.row e) with innerIndex := c } := rfl
    have hcr : e.outerRank = e.dims.length → 0 < e.dims.length →
        Iter.row e = 1 ∨ ∀ d ∈ e.dims.take e.outerRank, d ≤ 1 := by
      intro h _
      left; unfold Iter.row; rw [h]; simp
    rw [hitr, stepOuter_at hw h64 hD hu hq hcr, stepOuter_spec hw hq hcr]
    by_cases hl : q + 1 < size (lims e.dims e.outerRank)
    · rw [if_pos hl]
      simp only [M.lift_some, M.pure_bind, if_true]
      have := ih (q + 1) 0 acc' hl (Nat.zero_le _)
      rw [Nat.add_zero, Nat.add_mul, Nat.one_mul] at this
      exact this
    · rw [if_neg hl]
      rfl

omit hw h64 hb in
theorem iterNew_eq : iterNew checks e = some (Iter.new e) := by
  unfold iterNew
  rw [product_eq (by
    refine (bsize_drop_le _ _).trans ?_
    rw [bsize_eq hD]; exact hu)]
  unfold Iter.new
  simp [size, List.prod_eq_foldl]

theorem exprFold_eq {τ : Type} (f : τ → α → M σ τ) (acc : τ) : exprFold checks e acc f = e.fold acc f := by
  unfold exprFold Expr.fold fold Iter.fold
  rw [iterNew_eq hD hu, M.lift_some, M.pure_bind,
    new_eq_of (Expr.adv_init_raw hw hb (outerRank_le e) (le_refl _))]
  have := foldLoop_eq (checks := checks) hw h64 hD hu hb f (iterAt e 0 0 0).outerCount 0 0 acc (rows_pos e)
    (Nat.zero_le _)
  rwa [Nat.zero_mul] at this

theorem fold_occurs {τ : Type} (f : τ → α → M σ τ) (acc : τ) {it : Iter σ α} (h : Occurs e it) :
    fold checks it acc f = it.fold acc f := by
  obtain ⟨q, c, hq, hc, rfl⟩ := occurs_iterAt hw hb (.inl hD) h
  exact foldLoop_eq hw h64 hD hu hb f _ q c acc hq hc

omit hw h64 hb in
theorem row_le : Iter.row e ≤ usizeMax := by
  have := Nat.le_mul_of_pos_left (Iter.row e) (rows_pos e)
  rw [← size_split hD] at this
  omega

theorem next_occurs {it : Iter σ α} (h : Occurs e it) : next checks it = it.next := by
  obtain ⟨q, c, hq, hc, rfl⟩ := occurs_iterAt hw hb (.inl hD) h
  have hr := row_le hD hu
  have hrp : 0 < Iter.row e := by
    have := hD
    rw [size_split hD] at this
    exact Nat.pos_of_mul_pos_left this
  have htake : ∀ q c, q < rows e → c < Iter.row e → take checks (iterAt e q c (q * Iter.row e + c)) =
      M.bind ((iterAt e q c (q * Iter.row e + c)).expr.get c) fun p =>
        M.pure (some p.1, { iterAt e q c (q * Iter.row e + c) with expr := p.2, innerIndex := c + 1 }) := by
    intro q c hq hc
    unfold take
    rw [show (iterAt e q c (q * Iter.row e + c)).innerIndex = c from rfl, retU_fit (by omega), M.lift_some, M.pure_bind]
    congr 1
    exact get_at hw h64 hD hu hq hc
  unfold next Iter.next
  by_cases hl : c = Iter.row e
  · have hl' : (iterAt e q c (q * Iter.row e + c)).innerIndex = (iterAt e q c (q * Iter.row e + c)).innerLimit := hl
    rw [if_pos hl', if_pos hl']
    have hcr : e.outerRank = e.dims.length → 0 < e.dims.length →
        c = 1 ∨ ∀ d ∈ e.dims.take e.outerRank, d ≤ 1 := by
      intro h _
      left; rw [hl]; unfold Iter.row; rw [h]; simp
    have h1 := stepOuter_at (checks := checks) (n := q * Iter.row e + c) (k := c) hw h64 hD hu hq hcr
    have h2 := stepOuter_spec (n := q * Iter.row e + c) (k := c) hw hq hcr
    rw [show ({ iterAt e q c (q * Iter.row e + c) with innerIndex := c } : Iter σ α) =
      iterAt e q c (q * Iter.row e + c) from rfl] at h1 h2
    rw [h1, h2]
    by_cases hl2 : q + 1 < size (lims e.dims e.outerRank)
    · rw [if_pos hl2]
      simp only [M.lift_some, M.pure_bind, if_true]
      have := htake (q + 1) 0 hl2 hrp
      rw [Nat.add_zero, Nat.add_mul, Nat.one_mul] at this
      rw [hl]
      exact this
    · rw [if_neg hl2]
      rfl
  · have hl' : ¬ (iterAt e q c (q * Iter.row e + c)).innerIndex = (iterAt e q c (q * Iter.row e + c)).innerLimit := hl
    rw [if_neg hl', if_neg hl']
    exact htake q c hq (by omega)

end

/-! With a `from_fn` of dynamic rank the first item panics. -/

theorem bind_never.{u} {γ : Type u} {β : Type} {m : M σ γ} (h : ∀ s x t, m s ≠ .ok x t) (f g : γ → M σ β) :
    M.bind m f = M.bind m g := by
  funext s
  unfold M.bind
  split
  · exact absurd (by assumption) (h _ _ _)
  all_goals rfl

theorem get_zero {checks : Bool} {e : Expr σ α} (hw : e.Wf) (h64 : Ok64 checks e) : get checks e 0 = e.get 0 := by
  have h0 : castI 0 = 0 := castI_ok (n := 0) (by omega)
  induction e with
  | view r v =>
    simp only [get, Expr.get, h0, mul_zero, Nat.cast_zero]
    rw [retI_fit fits_zero, M.lift_some, M.pure_bind]
  | axis r v a m off =>
    obtain ⟨N, hv⟩ := h64
    obtain ⟨-, -, rfl⟩ := hw
    simp only [get, Expr.get, axisItem, h0, mul_zero, Nat.cast_zero]
    rw [retI_fit fits_zero, removeMap_eq hv.2.bsize]
    simp only [Option.bind_eq_bind, Option.bind_some, add_zero]
    rw [retI_fit fits_zero]
    rfl
  | lanes r v a m off =>
    obtain ⟨N, hv⟩ := h64
    simp only [get, Expr.get, lanesItem, h0, mul_zero, Nat.cast_zero]
    rw [retI_fit fits_zero, axisGet_eq hv.2.bsize]
    simp only [Option.bind_eq_bind, Option.bind_some]
    cases hg : a.get v.map with
    | none => rfl
    | some item =>
      simp only [Option.bind_some]
      rw [isEmpty_eq (get_bsize hw.1 hv hg)]
      rfl
  | fill f => rfl
  | fromElem s f => rfl
  | fromFn s idx f =>
    obtain ⟨-, rfl⟩ := hw
    simp only [get, Expr.get, fromFnCount]
    by_cases hl : s.dims.length > 0
    · simp only [if_pos hl]
      congr 1
      funext x
      cases hx : (dimsDefault s.ty)[s.dims.length - 1]? with
      | none => rfl
      | some k =>
        have : k = 0 := by
          have := List.mem_of_getElem? hx
          revert this
          cases s.ty <;> simp [dimsDefault]
        subst this
        simp only [Option.bind_some]
        rw [retU_fit (by unfold usizeMax; omega)]
        rfl
    · simp only [if_neg hl]
      rfl
  | intoExpr s buf idx =>
    obtain ⟨-, -, rfl⟩ := hw
    simp only [get, Expr.get]
    rw [retU_fit (by unfold usizeMax; omega), M.lift_some, M.pure_bind]
    rfl
  | map e f ih =>
    simp only [get, Expr.get]
    rw [ih hw h64]
  | enumerate e k ih =>
    obtain ⟨hw, rfl⟩ := hw
    simp only [get, Expr.get]
    rw [ih hw h64, retU_fit (by unfold usizeMax; omega), M.lift_some, M.pure_bind]
  | zip a b s iha ihb =>
    simp only [get, Expr.get]
    rw [iha hw.1 h64.1, ihb hw.2.1 h64.2]

section
variable {checks : Bool} {e : Expr σ α} (hw : e.Wf) (h64 : Ok64 checks e) (hD : 0 < size e.dims) (hb : BadFn e)
include hw hD hb
open Iter

theorem get_never (s : σ) (x t) : e.get 0 s ≠ .ok x t := by
  have hr : 0 < Iter.row e := by
    have := hD
    rw [size_split hD] at this
    exact Nat.pos_of_mul_pos_left this
  rw [Expr.get_bad hw hb (Expr.fit_self e) (outerRank_le e) hr (fun x => M.pure (x, e))]
  intro h
  have hbad := Expr.rawItem_bad (K := e.dims.length - e.outerRank) hb 0 (List.replicate e.dims.length 0)
  unfold M.bind at h
  split at h
  · exact hbad _ _ _ (by assumption)
  all_goals simp at h

include h64

theorem fold_bad {τ : Type} (f : τ → α → M σ τ) (acc : τ) :
    fold checks (Iter.new e) acc f = (Iter.new e).fold acc f := by
  have hr : 0 < Iter.row e := by
    have := hD
    rw [size_split hD] at this
    exact Nat.pos_of_mul_pos_left this
  unfold fold Iter.fold
  rw [outerCount_new]
  obtain ⟨k, hk⟩ := Nat.exists_eq_succ_of_ne_zero (show rows e ≠ 0 by have := rows_pos e; omega)
  rw [hk]
  unfold foldLoop Iter.foldLoop
  rw [innerLimit_new]
  obtain ⟨l, hl⟩ := Nat.exists_eq_succ_of_ne_zero (show Iter.row e ≠ 0 by omega)
  change M.bind (innerLoop checks f (List.range' 0 (Iter.row e)) e acc) _ =
    M.bind (Iter.innerLoop f (List.range' 0 (Iter.row e)) e acc) _
  rw [hl, List.range'_succ]
  unfold innerLoop Iter.innerLoop
  rw [get_zero hw h64, M.bind_assoc, M.bind_assoc]
  exact bind_never (get_never hw hD hb) _ _

omit hb in
theorem next_bad : next checks (Iter.new e) = (Iter.new e).next := by
  have hr : 0 < Iter.row e := by
    have := hD
    rw [size_split hD] at this
    exact Nat.pos_of_mul_pos_left this
  have hne : ¬ (Iter.new e).innerIndex = (Iter.new e).innerLimit := by
    rw [innerLimit_new]; change ¬ 0 = _; omega
  unfold next Iter.next
  rw [if_neg hne, if_neg hne]
  unfold take
  change M.bind (M.lift (retU checks (0 + 1))) (fun k => M.bind (get checks e 0) _) = M.bind (e.get 0) _
  rw [retU_fit (by unfold usizeMax; omega), M.lift_some, M.pure_bind, get_zero hw h64]
  rfl

end

theorem ok64_of_fitsMemory {checks : Bool} {e : Expr σ α} (hw : e.Wf) (h : FitsMemory checks e) {D : List Nat}
    (hs : e.dims = D.drop (D.length - e.dims.length)) (hD : 0 < size D) : Ok64 checks e := by
  have hne : ∀ ds : List Nat, ds = D.drop (D.length - ds.length) → 0 < size ds := by
    intro ds h
    rw [size_pos_iff]
    intro d hd
    rw [h] at hd
    exact size_pos_iff.1 hD d (List.mem_of_mem_drop hd)
  have hv : ∀ {v : View}, InMemory checks v → 0 < size v.dims → ∃ N, VFits N v := by
    intro v ⟨s, b, h1, h2, h3, h4⟩ h0
    have := (known_reach h1 h2 (by norm_num at h3; exact h3) h4).vfits h0
    exact ⟨_, this⟩
  induction e with
  | view r v =>
    obtain ⟨N, hN⟩ := hv h.1 (hne _ hs)
    refine ⟨N, hN, ?_⟩
    intro hc s hs'
    obtain ⟨i, hi, rfl⟩ := List.getElem_of_mem hs'
    have h1 := h.2 hc i (v.map.strides[i]) (by rw [Mapping.stride_eq _ hw, List.getElem?_eq_getElem hi])
    have h2 := hN.2.fit _ (List.getElem_mem hi)
    norm_num at h1
    obtain ⟨h3, h4⟩ := h2
    exact ⟨by omega, by omega⟩
  | axis r v a m off => exact hv h.1 h.2
  | lanes r v a m off => exact hv h.1 h.2
  | map e f ih => exact ih hw h hs
  | enumerate e k ih => exact ih hw.1 h hs
  | zip a b s iha ihb =>
    obtain ⟨ha, hb, hz⟩ := hw
    obtain ⟨-, sa, sb, -, -⟩ := Expr.zipShape_spec hz
    exact ⟨iha ha h.1 (Expr.drop_suffix sa hs), ihb hb h.2 (Expr.drop_suffix sb hs)⟩
  | _ => trivial

theorem size_of_fitsMemory {checks : Bool} {e : Expr σ α} (hb : Built e) (h : FitsMemory checks e)
    (hD : 0 < size e.dims) : size e.dims ≤ usizeMax := by
  have hv : ∀ {v : View}, InMemory checks v → 0 < size v.dims → size v.dims ≤ usizeMax := by
    intro v ⟨s, b, h1, h2, h3, h4⟩ h0
    have := (known_reach h1 h2 (by norm_num at h3; exact h3) h4).vfits h0
    exact usizeMax_lt this.2.lt
  have hck : ∀ {s : Shape} {k}, s.checkedLen = some k → size s.dims ≤ usizeMax := by
    intro s k hk
    rw [Shape.checkedLen_eq] at hk
    split at hk
    · rename_i hno
      by_cases h0 : size s.dims = 0
      · rw [h0]; exact Nat.zero_le _
      · exact hno.size_le
    · simp at hk
  induction hb with
  | view hw => exact hv h.1 hD
  | @axis r v a e hw he =>
    simp only [Expr.axisNew, Option.map_eq_some_iff] at he
    obtain ⟨m, hm, rfl⟩ := he
    obtain ⟨p, -, hp2, hmd, -⟩ := Expr.axis_dims hw hm
    change size m.dims ≤ usizeMax
    obtain ⟨s, b, h1, h2, h3, h4⟩ := h.1
    have hF := ((known_reach h1 h2 (by norm_num at h3; exact h3) h4).vfits h.2).2
    have := hF.dim_le (List.getElem_mem hp2)
    have := hF.hN
    rw [hmd, size_cons, size_nil, mul_one, List.getD_eq_getElem?_getD, List.getElem?_eq_getElem hp2, Option.getD_some]
    exact usizeMax_lt (by omega)
  | @lanes r v a e hw he =>
    simp only [Expr.lanesNew, Option.bind_eq_some_iff, Option.map_eq_some_iff] at he
    obtain ⟨m, hm, k, hk, rfl⟩ := he
    exact hck hk
  | fill => change size [] ≤ usizeMax; rw [size_nil]; unfold usizeMax; omega
  | fromElem _ he =>
    simp only [Expr.fromElemNew, Option.map_eq_some_iff] at he
    obtain ⟨_, hk, rfl⟩ := he
    exact hck hk
  | fromFn _ he =>
    simp only [Expr.fromFnNew, Option.map_eq_some_iff] at he
    obtain ⟨_, hk, rfl⟩ := he
    exact hck hk
  | intoExpr => exact h
  | map _ ih => exact ih h hD
  | enumerate _ ih => exact ih h hD
  | zip _ _ he iha ihb =>
    simp only [Expr.zipNew, Option.map_eq_some_iff] at he
    obtain ⟨s, hs, rfl⟩ := he
    obtain ⟨h1, -⟩ := Expr.zipShape_spec hs
    change 0 < size s.dims at hD
    change size s.dims ≤ usizeMax
    rw [h1] at hD ⊢
    split at hD
    · rename_i hlt; rw [if_pos hlt]; exact ihb h.2 hD
    · rename_i hlt; rw [if_neg hlt]; exact iha h.1 hD

end Machine
end Model
