import Verif.Lemmas.Post
import Verif.Lemmas.Zip
import Verif.Model.Assign
import Verif.Spec.Assign

/-! Lemmas on loops that write to the elements of a view. -/

namespace Model
open Spec Expr Iter

variable {σ T α β γ : Type}

theorem readMem_eq {s : σ} {m : List T} {p : Nat} {x : T} (h : m[p]? = some x) :
    readMem (p : Int) (s, m) = .ok x (s, m) := by
  simp [readMem, h]

theorem writeMem_eq {s : σ} {m : List T} {p : Nat} (h : p < m.length) (x : T) :
    writeMem (p : Int) x (s, m) = .ok () (s, m.set p x) := by
  simp [writeMem, h]

theorem written_nil (v : View) (m : List T) : Written v m [] m :=
  ⟨rfl, fun j _ y h => by simp at h, fun _ _ => rfl⟩

theorem _root_.Spec.Written.snoc {v : View} {m m' ys : List T} (hw : Written v m ys m')
    (hv : Exclusive v m.length) {p : Nat} (hn : ys.length < size v.dims)
    (hp : v.index (unrank v.dims ys.length) = some (p : Int)) (y : T) :
    Written v m (ys ++ [y]) (m'.set p y) := by
  have hvn : Valid v.dims (unrank v.dims ys.length) := unrank_valid hn
  have hpl : p < m'.length := by
    obtain ⟨q, hq, hq'⟩ := hv.2.1 _ hvn
    rw [hp] at hq'
    have : p = q := by injection hq' with h; omega
    rw [hw.1]; omega
  refine ⟨by rw [List.length_set, hw.1], ?_, ?_⟩
  · intro j hj x hx
    by_cases hlt : rowMajor v.dims j < ys.length
    · rw [List.getElem?_append_left hlt] at hx
      obtain ⟨q, hq, hq'⟩ := hw.2.1 j hj x hx
      refine ⟨q, hq, ?_⟩
      rw [List.getElem?_set_ne, hq']
      intro e
      subst e
      have := hv.2.2 _ _ hj hvn (hq.trans hp.symm)
      rw [this, rowMajor_unrank hn] at hlt
      omega
    · have hlen : rowMajor v.dims j = ys.length := by
        by_contra hne
        rw [List.getElem?_eq_none (by rw [List.length_append, List.length_singleton]; omega)] at hx
        cases hx
      rw [hlen, List.getElem?_append_right (le_refl _), Nat.sub_self] at hx
      injection hx with hx
      subst hx
      have hj' : j = unrank v.dims ys.length := by rw [← hlen, unrank_rowMajor hj]
      refine ⟨p, by rw [hj', hp], ?_⟩
      rw [List.getElem?_set_self hpl]
  · intro q hq
    rw [List.length_append, List.length_singleton] at hq
    have : q ≠ p := by
      intro e
      subst e
      exact hq _ hvn (by rw [rowMajor_unrank hn]; omega) hp
    rw [List.getElem?_set_ne this.symm]
    exact hw.2.2 q fun j hj hl => hq j hj (by omega)

theorem _root_.Spec.Written.elem {v : View} {m m' ys : List T} (hw : Written v m ys m')
    (hv : Exclusive v m.length) {p : Nat} (hn : ys.length < size v.dims)
    (hp : v.index (unrank v.dims ys.length) = some (p : Int)) : m'[p]? = m[p]? := by
  apply hw.2.2
  intro j hj hl e
  have := hv.2.2 _ _ hj (unrank_valid hn) (e.trans hp.symm)
  rw [this, rowMajor_unrank hn] at hl
  omega

/-- The general loop: in each iteration a value is computed and written to the next element. -/
theorem write_loop {v : View} {m : List T} (hv : Exclusive v m.length) {z : Expr σ γ}
    (hb : Built z) (hs : Sound z) (hp : size z.dims = 0 → size (z.dims.drop z.outerRank) = 0)
    (hd : z.dims = v.dims) {body : γ → M (σ × List T) Unit} {step : Nat → M σ T}
    (ht : ∀ n, n < size v.dims → (step n).Tame)
    (hstep : ∀ n, n < size v.dims → ∀ (p : Nat), v.index (unrank v.dims n) = some (p : Int) →
      ∀ (s : σ) (m' : List T), m'[p]? = m[p]? →
        M.bind (M.up (item z n (unrank v.dims n))) body (s, m') =
          M.bind (M.up (step n)) (fun x => writeMem (p : Int) x) (s, m'))
    (s : σ) :
    M.Post ((z.up : Expr (σ × List T) γ).forEach body) (s, m)
      (fun _ t => ∃ ys, Ran step (size v.dims) s ys t.1 ∧ Written v m ys t.2)
      fun t => ∃ k ys, Stopped step (size v.dims) s k ys t.1 ∧ Written v m ys t.2 := by
  have := post_fold_up (ρ := List T) (τ := Unit) hb hs hp (f := fun _ x => body x)
    (R := fun t => ∃ k ys, Stopped step (size v.dims) s k ys t.1 ∧ Written v m ys t.2)
    (I := fun n _ t => ∃ ys, Ran step n s ys t.1 ∧ Written v m ys t.2)
    (by
      rintro n hn - ⟨t, m'⟩ ⟨ys, hr, hw⟩
      rw [hd] at hn
      have hlen := hr.length
      obtain ⟨p, hpl, hpi⟩ := hv.2.1 _ (unrank_valid hn)
      subst hlen
      have hpm := hw.elem hv hn hpi
      have key := hstep _ hn p hpi t m' hpm
      have hpost : M.Post (M.bind (M.up (item z ys.length (unrank z.dims ys.length))) body) (t, m')
          (fun _ u => ∃ ys', Ran step (ys.length + 1) s ys' u.1 ∧ Written v m ys' u.2)
          (fun u => ∃ k ys, Stopped step (size v.dims) s k ys u.1 ∧ Written v m ys u.2) := by
        unfold M.Post
        rw [hd, key]
        change M.Post (M.bind (M.up (step ys.length)) fun x => writeMem (p : Int) x) (t, m') _ _
        refine M.Post.bind (P := fun x u => step ys.length t = .ok x u.1 ∧ u.2 = m') (M.post_up
          (((ht _ hn).post t).mono (fun x t' h => ⟨h, rfl⟩)
            fun t' h => ⟨ys.length, ys, ⟨hn, t, hr, h⟩, hw⟩)) ?_
        rintro x ⟨t', m''⟩ ⟨hx, rfl⟩
        unfold M.Post
        rw [writeMem_eq (by rw [hw.1]; exact hpl)]
        exact ⟨ys ++ [x], hr.succ hx, hw.snoc hv hn hpi x⟩
      exact M.post_bind_iff.1 hpost)
    (acc := ()) (s := (s, m)) ⟨[], ran_zero, written_nil v m⟩
  rw [hd] at this
  exact this

theorem zipNew_view_isSome {v : View} (hv : v.map.WF) {e : Expr σ α} (hb : Built e) :
    (zipNew (view false v) e).isSome ↔ CanCast e v.dims := by
  unfold zipNew
  rw [Option.isSome_map, zipShape_eq (show (view false v : Expr σ Int).shape.WF from hv.1)
    (shape_wf (wf_of_built hb))]
  have key : (v.dims.drop ((if v.dims.length < e.dims.length then e.dims else v.dims).length -
      e.dims.length) = e.dims.drop ((if v.dims.length < e.dims.length then e.dims else v.dims).length -
      v.dims.length) ∧ (false = true ∨ e.dims.length ≤ v.dims.length) ∧
      (e.repeatable = true ∨ v.dims.length ≤ e.dims.length)) ↔ CanCast e v.dims := by
    unfold CanCast
    rw [List.suffix_iff_eq_drop]
    constructor
    · rintro ⟨h1, h2, h3⟩
      have h2 : e.dims.length ≤ v.dims.length := by simpa using h2
      rw [if_neg (by omega), Nat.sub_self, List.drop_zero] at h1
      refine ⟨h1.symm, fun hr => ?_⟩
      have h3 : v.dims.length ≤ e.dims.length := by simpa [hr] using h3
      rw [← h1, show v.dims.length - e.dims.length = 0 by omega, List.drop_zero]
    · rintro ⟨h1, h2⟩
      have hl : e.dims.length ≤ v.dims.length := by
        rw [h1, List.length_drop]; omega
      refine ⟨?_, Or.inr hl, ?_⟩
      · rw [if_neg (by omega), Nat.sub_self, List.drop_zero, ← h1]
      · cases hr : e.repeatable with
        | true => exact Or.inl rfl
        | false => right; rw [h2 hr]
  split
  · rename_i h
    exact ⟨fun _ => key.1 ⟨trailing_iff.1 h.1, h.2⟩, fun _ => rfl⟩
  · rename_i h
    exact ⟨fun h' => by simp at h', fun h' => absurd ⟨trailing_iff.2 (key.2 h').1, (key.2 h').2⟩ h⟩

theorem zip_view {v : View} {e : Expr σ α} {z} (hz : zipNew (view false v) e = some z) :
    z.dims = v.dims ∧ ∀ n p, v.index (unrank v.dims n) = some p →
      item z n (unrank v.dims n) = M.bind (castItem v.dims e n) fun y => M.pure (p, y) := by
  obtain ⟨s, rfl, h1, h2, h3, -⟩ := zip_trailing hz
  have hd : v.dims = s.dims := h3 rfl
  refine ⟨hd.symm, ?_⟩
  intro n p hp
  rw [item]
  rw [show (view false v : Expr σ Int).dims = v.dims from rfl, hd, Nat.sub_self, List.drop_zero,
    item, ← hd, hp]
  rfl

end Model
