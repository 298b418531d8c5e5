import Verif.Lemmas.Index
import Verif.Lemmas.Post
import Verif.Lemmas.ShapeReshape
import Verif.Spec.UserShape

/-!
Shapes defined outside of the crate.
-/

namespace Model
open Spec

variable {σ τ : Type}

namespace UserShape

theorem foldl_size (ds : List Nat) : ds.foldl (· * ·) 1 = size ds := (List.prod_eq_foldl ..).symm

section
variable {u : UserShape σ} {val : σ → List Nat} (h : LawfulShape u val) {ds : List Nat}
include h

theorem post_dims {w : σ} (hw : val w = ds) :
    M.Post u.dims w (fun es w' => es = ds ∧ val w' = ds) fun _ => ¬QuietShape u := by
  have := h.dims w
  unfold M.Post at this ⊢
  cases e : u.dims w with
  | ok es w' => rw [e] at this; exact ⟨this.1.trans hw, this.2.trans hw⟩
  | panic w' => exact fun hq => hq w w' e
  | ub => rw [e] at this; exact this
  | abort => rw [e] at this; exact this

theorem post_rank {w : σ} (hw : val w = ds) :
    M.Post u.rank w (fun r w' => r = ds.length ∧ val w' = ds) fun _ => ¬QuietShape u := by
  refine (post_dims h hw).bind ?_
  rintro es w' ⟨rfl, e⟩
  exact ⟨rfl, e⟩

theorem post_len {w : σ} (hw : val w = ds) :
    M.Post u.len w (fun r w' => r = size ds ∧ val w' = ds) fun _ => ¬QuietShape u := by
  refine (post_dims h hw).bind ?_
  rintro es w' ⟨rfl, e⟩
  exact ⟨foldl_size _, e⟩

theorem post_dim {w : σ} (hw : val w = ds) (i : Nat) :
    M.Post (u.dim i) w (fun d w' => ds[i]? = some d ∧ val w' = ds) fun _ => QuietShape u → ds.length ≤ i := by
  refine ((post_rank h hw).mono (fun _ _ q => q) fun _ q hq => absurd hq q).bind ?_
  rintro r w ⟨rfl, hw⟩
  refine M.post_bind (M.post_lift (fun _ ei => ?_) fun en _ => ?_)
  · refine ((post_dims h hw).mono (fun _ _ q => q) fun _ q hq => absurd hq q).bind ?_
    rintro es w ⟨rfl, hw⟩
    exact M.post_lift (fun d ed => ⟨ed, hw⟩) fun en _ => List.getElem?_eq_none_iff.1 en
  · by_contra hc
    rw [show check (i < ds.length) = some () from if_pos (by omega)] at en
    simp at en

/-- The bounds checks from dimension `i` on. -/
theorem post_checkLoop (xs : List Nat) : ∀ (i : Nat) (w : σ), val w = ds → i + xs.length = ds.length →
    M.Post (u.checkLoop i xs) w (fun _ w' => Valid (ds.drop i) xs ∧ val w' = ds)
      fun _ => QuietShape u → ¬Valid (ds.drop i) xs := by
  induction xs with
  | nil =>
    intro i w hw hi
    rw [List.drop_eq_nil_of_le (by simp at hi; omega)]
    exact ⟨valid_nil, hw⟩
  | cons x xs ih =>
    intro i w hw hi
    rw [List.length_cons] at hi
    have hlt : i < ds.length := by omega
    have hdrop : ds.drop i = ds[i] :: ds.drop (i + 1) := List.drop_eq_getElem_cons hlt
    rw [hdrop]
    refine ((post_dim h hw i).mono (fun _ _ q => q) fun _ q hq => absurd (q hq) (by omega)).bind ?_
    rintro d w ⟨hd, hw⟩
    have hd : ds[i] = d := by rw [List.getElem?_eq_getElem hlt] at hd; injection hd
    rw [hd]
    by_cases hx : x < d
    · rw [if_pos hx]
      refine (ih (i + 1) w hw (by omega)).mono ?_ ?_
      · rintro _ w ⟨hv, hw⟩
        exact ⟨valid_cons.2 ⟨hx, hv⟩, hw⟩
      · exact fun _ hn hq hv => hn hq (valid_cons.1 hv).2
    · rw [if_neg hx]
      refine M.Post.bind (P := fun _ _ => True) ((post_dim h hw i).mono (fun _ _ _ => trivial) ?_) ?_
      · exact fun _ _ _ hv => hx (valid_cons.1 hv).1
      · exact fun _ _ _ => M.post_panic fun _ hv => hx (valid_cons.1 hv).1

theorem post_dimCheck {dbg : Bool} {idx : List Nat} (hv : Valid ds idx) {i : Nat} (hi : i < ds.length) {w : σ}
    (hw : val w = ds) :
    M.Post (u.dimCheck dbg idx i) w (fun _ w' => val w' = ds) fun _ => ¬QuietShape u := by
  unfold dimCheck
  cases dbg with
  | false => exact hw
  | true =>
    have hl : i < idx.length := by rw [hv.length]; exact hi
    rw [if_pos rfl, List.getElem?_eq_getElem hl]
    refine M.post_bind (show M.Post (M.pure idx[i]) w _ _ from ?_)
    refine M.post_pure (((post_dim h hw i).mono (fun _ _ q => q) fun _ q hq => absurd (q hq) (by omega)).bind ?_)
    rintro d w ⟨hd, hw⟩
    have hd : ds[i] = d := by rw [List.getElem?_eq_getElem hi] at hd; injection hd
    have hlt : idx[i] < d := by
      have := (List.forall₂_iff_get.1 hv).2 i hl hi
      rw [← hd]; exact this
    rw [show check (idx[i] < d) = some () from if_pos hlt]
    exact hw

theorem post_offsetLoop {dbg : Bool} {idx : List Nat} (hv : Valid ds idx) : ∀ (i : Nat) (w : σ), i ≤ ds.length →
    val w = ds →
    M.Post (u.offsetLoop dbg idx i (size (ds.drop i)) (rowMajor (ds.drop i) (idx.drop i))) w
      (fun p w' => p = rowMajor ds idx ∧ val w' = ds) fun _ => ¬QuietShape u := by
  intro i
  induction i with
  | zero => exact fun w _ hw => ⟨by rw [List.drop_zero, List.drop_zero], hw⟩
  | succ i ih =>
    intro w hi hw
    have hlt : i < ds.length := by omega
    have hl : i < idx.length := by rw [hv.length]; exact hlt
    refine (post_dimCheck h hv hlt hw).bind fun _ w hw => ?_
    rw [List.getElem?_eq_getElem hl]
    refine M.post_bind (show M.Post (M.pure idx[i]) w _ _ from ?_)
    refine M.post_pure (((post_dim h hw i).mono (fun _ _ q => q) fun _ q hq => absurd (q hq) (by omega)).bind ?_)
    rintro d w ⟨hd, hw⟩
    have hd : ds[i] = d := by rw [List.getElem?_eq_getElem hlt] at hd; injection hd
    have := ih w (by omega) hw
    rw [List.drop_eq_getElem_cons hlt, List.drop_eq_getElem_cons hl] at this
    have e1 : size (ds[i] :: ds.drop (i + 1)) = size (ds.drop (i + 1)) * d := by
      rw [← hd, Nat.mul_comm]; exact List.prod_cons
    have e2 : rowMajor (ds[i] :: ds.drop (i + 1)) (idx[i] :: idx.drop (i + 1)) =
        rowMajor (ds.drop (i + 1)) (idx.drop (i + 1)) + size (ds.drop (i + 1)) * idx[i] := by
      simp [rowMajor, Nat.mul_comm, Nat.add_comm]
    rw [e1, e2] at this
    exact this

theorem post_offset {dbg : Bool} {idx : List Nat} (hv : Valid ds idx) {w : σ} (hw : val w = ds) :
    M.Post (u.offset dbg idx) w (fun p w' => p = rowMajor ds idx ∧ val w' = ds) fun _ => ¬QuietShape u := by
  refine M.Post.bind (P := fun _ w' => val w' = ds) ?_ ?_
  · unfold rankCheck
    cases dbg with
    | false => exact hw
    | true =>
      refine (post_rank h hw).bind ?_
      rintro r w ⟨rfl, hw⟩
      rw [show check (idx.length = ds.length) = some () from if_pos hv.length]
      exact hw
  · intro _ w hw
    refine (post_rank h hw).bind ?_
    rintro r w ⟨rfl, hw⟩
    have := post_offsetLoop h hv (dbg := dbg) ds.length w (Nat.le_refl _) hw
    rw [List.drop_length, List.drop_eq_nil_of_le (by rw [hv.length])] at this
    exact this

theorem post_index {dbg : Bool} {idx : List Nat} {w : σ} (hw : val w = ds) :
    M.Post (u.index dbg (size ds) idx) w (fun p w' => Valid ds idx ∧ p = rowMajor ds idx ∧ val w' = ds)
      fun _ => QuietShape u → ¬Valid ds idx := by
  refine ((post_rank h hw).mono (fun _ _ q => q) fun _ q hq => absurd hq q).bind ?_
  rintro r w ⟨rfl, hw⟩
  by_cases hl : idx.length = ds.length
  swap
  · rw [show check (idx.length = ds.length) = none from if_neg hl]
    exact fun _ hv => hl hv.length
  rw [show check (idx.length = ds.length) = some () from if_pos hl]
  refine M.post_bind (M.post_pure (a := ()) ?_)
  have := post_checkLoop h idx 0 w hw (by omega)
  rw [List.drop_zero] at this
  refine this.bind ?_
  rintro _ w ⟨hv, hw⟩
  refine ((post_offset h hv hw).mono (fun _ _ q => q) fun _ q hq => absurd hq q).bind ?_
  rintro p w ⟨rfl, hw⟩
  unfold elem
  rw [if_pos (rowMajor_lt hv)]
  exact ⟨hv, rfl, hw⟩

theorem post_linear {dbg : Bool} {k : Nat} {w : σ} (hw : val w = ds) :
    M.Post (u.linear dbg (size ds) k) w (fun p w' => k < size ds ∧ p = k ∧ val w' = ds)
      fun _ => QuietShape u → size ds ≤ k := by
  refine ((post_len h hw).mono (fun _ _ q => q) fun _ q hq => absurd hq q).bind ?_
  rintro l w ⟨rfl, hw⟩
  by_cases hk : k < size ds
  · rw [if_pos hk]
    refine M.Post.bind (P := fun _ w' => val w' = ds) ?_ ?_
    · unfold linearCheck
      cases dbg with
      | false => exact hw
      | true =>
        refine ((post_len h hw).mono (fun _ _ q => q) fun _ q hq => absurd hq q).bind ?_
        rintro l w ⟨rfl, hw⟩
        rw [show check (k < size ds) = some () from if_pos hk]
        exact hw
    · intro _ w hw
      unfold elem
      rw [if_pos hk]
      exact ⟨hk, rfl, hw⟩
  · rw [if_neg hk]
    refine M.Post.bind (P := fun _ _ => True) ((post_len h hw).mono (fun _ _ _ => trivial) ?_) ?_
    · exact fun _ _ _ => by omega
    · exact fun _ _ _ => M.post_panic fun _ => by omega

theorem post_withMutDims {f : List Nat → Option (List Nat × τ)} {w : σ} (hw : val w = ds) :
    M.Post (u.withMutDims f) w (fun x w' => ∃ es, f ds = some (es, x) ∧ val w' = es)
      fun _ => OpenShape u → f ds = none := by
  refine M.Post.bind (P := fun es w' => es = ds ∧ val w' = ds) ?_ ?_
  · have := h.dimsMut w
    unfold M.Post at this ⊢
    cases e : u.dimsMut w with
    | ok es w' => rw [e] at this; exact ⟨this.1.trans hw, this.2.trans hw⟩
    | panic w' => exact fun hq => absurd e (hq.2.1 w w')
    | ub => rw [e] at this; exact this
    | abort => rw [e] at this; exact this
  rintro es w' ⟨rfl, e⟩
  refine M.post_bind (M.post_lift (fun q eq => ?_) fun e _ => e)
  refine M.Post.bind (P := fun _ w' => val w' = q.1) ?_ fun _ w hw => ⟨q.1, eq, hw⟩
  have := h.store q.1 w'
  unfold M.Post at this ⊢
  cases e : u.store q.1 w' with
  | ok _ w'' => rw [e] at this; exact this
  | panic w'' => exact fun hq => absurd e (hq.2.2 q.1 w' w'')
  | ub => rw [e] at this; exact this
  | abort => rw [e] at this; exact this

omit h in
theorem filled_of_none {es : List Nat} (hn : Shape.inferLoop ds = none) : ¬Filled ds es := by
  rintro (⟨h1, -⟩ | ⟨a, b, x, ha, hb, rfl, -⟩)
  · rw [Shape.inferLoop_none h1] at hn; simp at hn
  · rw [Shape.inferLoop_split a b ha, if_neg hb] at hn; simp at hn

theorem post_reshape {n : Nat} {w : σ} (hw : val w = ds) :
    M.Post (u.reshape n) w (fun _ w' => size (val w') = n ∧ Filled ds (val w'))
      fun _ => OpenShape u → ¬∃! es, Filled ds es ∧ size es = n := by
  refine ((post_withMutDims h hw).mono (fun _ _ q => q) ?_).bind ?_
  · rintro _ hn hq ⟨es, ⟨hf, -⟩, -⟩
    exact filled_of_none (hn hq) hf
  rintro inf w ⟨es, ef, hw⟩
  refine ((post_len h hw).mono (fun _ _ q => q) fun _ q hq => absurd hq.1 q).bind ?_
  rintro l w ⟨rfl, hw⟩
  by_cases hm : usizeMax ∈ ds
  · obtain ⟨a, b, rfl, ha⟩ := Shape.split_first hm
    rw [Shape.inferLoop_split a b ha] at ef
    split at ef
    · simp at ef
    rename_i hb
    injection ef with ef
    injection ef with e1 e2
    subst e1 e2
    have hs : ∀ x, size (a ++ x :: b) = size (a ++ 1 :: b) * x := fun x => by
      simp [size]; ring
    have hfill : ∀ x, Filled (a ++ usizeMax :: b) (a ++ x :: b) := fun x => Or.inr ⟨a, b, x, ha, hb, rfl, rfl⟩
    refine M.post_bind (M.post_lift (fun _ ec => ?_) fun ec _ => ?_)
    · have hc : size (a ++ 1 :: b) ≠ 0 ∧ n % size (a ++ 1 :: b) = 0 := by
        by_contra hc
        rw [show check (size (a ++ 1 :: b) ≠ 0 ∧ n % size (a ++ 1 :: b) = 0) = none from if_neg hc] at ec
        simp at ec
      have hset : setM (a ++ 1 :: b) a.length (n / size (a ++ 1 :: b)) =
          some (a ++ (n / size (a ++ 1 :: b)) :: b) := by
        unfold setM
        rw [if_pos (by simp)]
        simp
      refine (post_withMutDims h hw).mono ?_ ?_
      · rintro _ w ⟨fs, e, hw⟩
        rw [hset] at e
        have e : a ++ (n / size (a ++ 1 :: b)) :: b = fs := by simpa using e
        rw [hw, ← e]
        refine ⟨?_, hfill _⟩
        rw [hs, Nat.mul_div_cancel' (Nat.dvd_of_mod_eq_zero hc.2)]
      · intro _ hn hq
        have := hn hq
        rw [hset] at this
        simp at this
    · rintro ⟨es, ⟨hf, hsz⟩, huniq⟩
      have hc : ¬(size (a ++ 1 :: b) ≠ 0 ∧ n % size (a ++ 1 :: b) = 0) := fun hc => by
        rw [show check (size (a ++ 1 :: b) ≠ 0 ∧ n % size (a ++ 1 :: b) = 0) = some () from if_pos hc] at ec
        simp at ec
      rcases hf with ⟨h1, -⟩ | ⟨a', b', x, ha', hb', e, rfl⟩
      · exact h1 hm
      have hab : a' = a ∧ b' = b := by
        have h1 := Shape.inferLoop_split a b ha
        have h2 := Shape.inferLoop_split a' b' ha'
        rw [e, h2, if_neg hb', if_neg hb] at h1
        injection h1 with h1
        injection h1 with h1 h3
        injection h3 with h3
        have := List.append_inj h1 h3
        exact ⟨this.1, by injection this.2⟩
      obtain ⟨rfl, rfl⟩ := hab
      rw [hs] at hsz
      by_cases hz : size (a' ++ 1 :: b') = 0
      · rw [hz, Nat.zero_mul] at hsz
        have h2 : a' ++ (x + 1) :: b' = a' ++ x :: b' :=
          huniq _ ⟨hfill _, by rw [hs, hz, Nat.zero_mul, hsz]⟩
        have := List.append_cancel_left h2
        injection this with h3
        omega
      · exact hc ⟨hz, by rw [← hsz]; exact Nat.mul_mod_right ..⟩
  · rw [Shape.inferLoop_none hm] at ef
    injection ef with ef
    injection ef with e1 e2
    subst e1 e2
    refine M.post_lift (fun _ ec => ?_) fun ec _ => ?_
    · refine ⟨?_, Or.inl ⟨hm, hw⟩⟩
      rw [hw]
      by_contra hc
      rw [show check (size ds = n) = none from if_neg hc] at ec
      simp at ec
    · rintro ⟨es, ⟨hf, hsz⟩, -⟩
      rcases hf with ⟨-, rfl⟩ | ⟨a, b, x, -, -, rfl, -⟩
      · rw [show check (size es = n) = some () from if_pos hsz] at ec
        simp at ec
      · exact hm (by simp)

end

end UserShape
end Model
