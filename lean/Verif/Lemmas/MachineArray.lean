import Verif.Model.MachineArray
import Verif.Lemmas.MachineStorage
import Verif.Lemmas.Storage

/-! Lemmas for arrays with 64-bit integers. -/

namespace Model

namespace Iter
variable {σ ν α τ : Type} {v : σ → ν}

/-- Two closures that agree in all states with the same `v` give the same result, if `v` is kept. -/
theorem innerLoop_congr {f g : τ → α → M σ τ} {n : ν} (hfg : ∀ acc x s, v s = n → f acc x s = g acc x s)
    (hf : ∀ acc x, Keeps v (f acc x)) {is : List Nat} {e : Expr σ α} (h : e.Keep v) (acc : τ) {s : σ} (hs : v s = n) :
    innerLoop f is e acc s = innerLoop g is e acc s := by
  induction is generalizing e acc s with
  | nil => rfl
  | cons i is ih =>
    simp only [innerLoop]
    have h1 := Expr.keep_get h i s
    unfold M.bind
    cases hx : e.get i s with
    | ok p t =>
      simp only [hx] at h1 ⊢
      rw [← hfg acc p.1 t (h1.1.trans hs)]
      have h2 := hf acc p.1 t
      cases hy : f acc p.1 t with
      | ok a u =>
        simp only [hy] at h2 ⊢
        exact ih h1.2 a (h2.trans (h1.1.trans hs))
      | _ => rfl
    | _ => rfl

theorem foldLoop_congr {f g : τ → α → M σ τ} {n : ν} (hfg : ∀ acc x s, v s = n → f acc x s = g acc x s)
    (hf : ∀ acc x, Keeps v (f acc x)) {fuel : Nat} {it : Iter σ α} (h : it.expr.Keep v) (acc : τ) {s : σ}
    (hs : v s = n) : foldLoop f fuel it acc s = foldLoop g fuel it acc s := by
  induction fuel generalizing it acc s with
  | zero => rfl
  | succ k ih =>
    simp only [foldLoop]
    have h1 := keep_innerLoop hf (is := List.range' it.innerIndex (it.innerLimit - it.innerIndex)) h acc s
    conv_lhs => unfold M.bind
    conv_rhs => unfold M.bind
    rw [← innerLoop_congr hfg hf h acc hs]
    cases hx : innerLoop f (List.range' it.innerIndex (it.innerLimit - it.innerIndex)) it.expr acc s with
    | ok p t =>
      simp only [hx] at h1 ⊢
      cases hq : stepOuter { it with expr := p.2 } with
      | none => rfl
      | some q =>
        show (if q.1 = true then foldLoop f k { q.2 with innerIndex := 0 } p.1 else M.pure p.1) t =
          (if q.1 = true then foldLoop g k { q.2 with innerIndex := 0 } p.1 else M.pure p.1) t
        split
        · exact ih (it := { q.2 with innerIndex := 0 }) (keep_stepOuter (it := { it with expr := p.2 }) h1.2 hq) _
            (h1.1.trans hs)
        · rfl
    | _ => rfl

end Iter

theorem Expr.forEach_congr {σ ν α : Type} {v : σ → ν} {e : Expr σ α} (h : e.Keep v) {f g : α → M σ Unit} {n : ν}
    (hfg : ∀ x s, v s = n → f x s = g x s) (hf : ∀ x, Keeps v (f x)) {s : σ} (hs : v s = n) :
    e.forEach f s = e.forEach g s :=
  Iter.foldLoop_congr (fun _ x => hfg x) (fun _ x => hf x) h () hs

namespace Machine
open Spec

variable {σ T : Type} {checks : Bool}

theorem checkedLen_none {s : Shape} (h : ¬ NoOverflow usizeMax s.dims) : s.checkedLen = none := by
  rw [Shape.checkedLen_eq, if_neg h]

theorem noOverflow_fits {l : List Nat} (h : NoOverflow usizeMax l) : LenFits checks l := by
  refine ⟨?_, fun _ => h⟩
  have := h l.length le_rfl
  rwa [List.take_length] at this

theorem arrayLen_eq {s : Shape} (h : NoOverflow usizeMax s.dims) : arrayLen checks s = some (size s.dims) := by
  unfold arrayLen
  rw [Shape.checkedLen_eq, if_pos h]
  exact product_fits (noOverflow_fits h)

theorem arrayLen_none {s : Shape} (h : ¬ NoOverflow usizeMax s.dims) : arrayLen checks s = none := by
  unfold arrayLen
  rw [checkedLen_none h]
  rfl

theorem default_const (dims : List Nat) : Shape.default (constTy dims) = ⟨constTy dims, dims⟩ := by
  show (⟨_, _⟩ : Shape) = _
  congr 1
  rw [List.map_map]
  exact List.map_id dims

/-- The condition in `into_shape`. -/
theorem intoShape_check {ty : ShapeTy} {s : Shape} :
    ((do
      let new ← len checks (Shape.default ty)
      let old ← arrayLen checks s
      check (new = old)) : Option Unit) =
    check ((checks = true → NoOverflow usizeMax (Shape.default ty).dims) ∧ NoOverflow usizeMax s.dims ∧
      size (Shape.default ty).dims % 2 ^ 64 = size s.dims) := by
  by_cases h2 : NoOverflow usizeMax s.dims
  · have hlt : size s.dims < 2 ^ 64 := by
      have := (noOverflow_fits (checks := true) h2).1
      unfold usizeMax at this; omega
    rw [arrayLen_eq h2]
    cases checks with
    | false =>
      rw [show len false (Shape.default ty) = some (size (Shape.default ty).dims % 2 ^ 64) from product_false _]
      show check _ = check _
      by_cases h3 : size (Shape.default ty).dims % 2 ^ 64 = size s.dims
      · rw [show check _ = some () from if_pos h3, show check _ = some () from if_pos ⟨nofun, h2, h3⟩]
      · rw [show check _ = none from if_neg h3, show check _ = none from if_neg fun h => h3 h.2.2]
    | true =>
      by_cases h1 : NoOverflow usizeMax (Shape.default ty).dims
      · have hf := noOverflow_fits (checks := true) h1
        rw [show len true (Shape.default ty) = some (size (Shape.default ty).dims) from product_fits hf]
        have e : size (Shape.default ty).dims % 2 ^ 64 = size (Shape.default ty).dims := by
          have := hf.1
          unfold usizeMax at this
          exact Nat.mod_eq_of_lt (by omega)
        rw [e]
        show check _ = check _
        by_cases h3 : size (Shape.default ty).dims = size s.dims
        · rw [show check _ = some () from if_pos h3, show check _ = some () from if_pos ⟨fun _ => h1, h2, h3⟩]
        · rw [show check _ = none from if_neg h3, show check _ = none from if_neg fun h => h3 h.2.2]
      · rw [show len true (Shape.default ty) = none from product_bad h1,
          show check _ = none from if_neg fun h => h1 (h.1 rfl)]
        rfl
  · rw [arrayLen_none h2, show check _ = none from if_neg fun h => h2 h.2.1]
    cases len checks (Shape.default ty) <;> rfl

theorem post_arrayIntoShape {s : σ} {o : Own T} {xs : List T} (ty : ShapeTy) (h : Holds o xs) :
    M.Post (arrayIntoShape checks ty) (s, o)
      (fun _ t => t = (s, { o with shape := Shape.default ty }) ∧
        (checks = true → NoOverflow usizeMax (Shape.default ty).dims) ∧ NoOverflow usizeMax o.shape.dims ∧
        size (Shape.default ty).dims % 2 ^ 64 = xs.length)
      (fun t => t.1 = s ∧ t.2.log = o.log ++ xs ∧
        ¬ ((checks = true → NoOverflow usizeMax (Shape.default ty).dims) ∧ NoOverflow usizeMax o.shape.dims ∧
        size (Shape.default ty).dims % 2 ^ 64 = xs.length)) := by
  show M.Post (M.bind (M.onPanic (M.lift _) (dropCells 0 o.shape.len)) _) (s, o) _ _
  rw [intoShape_check, ← h.2.1]
  refine M.Post.bind (M.Post.mono (post_checkDrop h) (fun _ _ h => h) ?_) ?_
  · rintro t ⟨h1, h2, h3⟩
    exact ⟨h1, h3, h2⟩
  · rintro - t ⟨rfl, h1⟩
    exact M.post_of_eq (x := upd _) (a := ()) rfl ⟨rfl, h1⟩

theorem noOverflow_of_pos {l : List Nat} (h : 0 < size l) (h2 : size l ≤ usizeMax) : NoOverflow usizeMax l := by
  intro k hk
  have e : size l = size (l.take k) * size (l.drop k) := by rw [← size_append, List.take_append_drop]
  have : 0 < size (l.drop k) := Nat.pos_of_mul_pos_left (a := size (l.take k)) (by rwa [← e])
  calc size (l.take k) ≤ size (l.take k) * size (l.drop k) := Nat.le_mul_of_pos_right _ this
    _ = size l := e.symm
    _ ≤ _ := h2

theorem arrayIntoScalar_eq {s : σ} {o : Own T} {xs : List T} (h : Holds o xs) :
    arrayIntoScalar checks (s, o) = Model.arrayIntoScalar (s, o) := by
  have hsz : o.shape.len = size o.shape.dims := Shape.len_eq _
  show M.bind (M.onPanic (M.lift _) (dropCells 0 o.shape.len)) _ (s, o) =
    M.bind (M.onPanic (M.lift (check (o.shape.len = 1))) (dropCells 0 o.shape.len)) _ (s, o)
  have e : ((do
      let n ← arrayLen checks o.shape
      check (n = 1)) : Option Unit) = check (o.shape.len = 1) := by
    by_cases h1 : NoOverflow usizeMax o.shape.dims
    · rw [arrayLen_eq h1, hsz]; rfl
    · rw [arrayLen_none h1, show check (o.shape.len = 1) = none from if_neg fun h => h1 ?_]
      · rfl
      · exact noOverflow_of_pos (by omega) (by rw [← hsz, h]; decide)
  rw [e]
  by_cases h1 : o.shape.len = 1
  · rw [show check (o.shape.len = 1) = some () from if_pos h1]
    show M.bind (arrayIntoShape checks (.static [])) _ (s, o) = M.bind (Model.arrayIntoShape (.static [])) _ (s, o)
    have e2 : (arrayIntoShape checks (.static []) : M (σ × Own T) Unit) (s, o) =
        Model.arrayIntoShape (.static []) (s, o) := by
      show M.bind (M.onPanic (M.lift _) (dropCells 0 o.shape.len)) _ (s, o) =
        M.bind (M.onPanic (M.lift (check ((Shape.default (.static [])).len = o.shape.len))) _) _ (s, o)
      rw [intoShape_check, h1]
      have hd : size o.shape.dims = 1 := by rw [← hsz, h1]
      rw [show check (_ ∧ _) = some () from if_pos ⟨fun _ => by decide, noOverflow_of_pos (by rw [hd]; decide) (by rw [hd]; decide),
        by rw [hd]; decide⟩]
      rfl
    unfold M.bind
    rw [e2]
  · rw [show check (o.shape.len = 1) = none from if_neg h1]
    refine bind_congr_at fun a t ht => ?_
    unfold M.onPanic M.lift M.panic at ht
    simp only at ht
    split at ht <;> cases ht

theorem arrayPush_eq (x : T) {t : σ × Own T} (h : t.2.cells.length ≤ usizeMax) :
    arrayPush checks x t = vecAppend x t := by
  show M.bind (writeCell t.2.len x) _ t = M.bind (writeCell t.2.len x) _ t
  unfold M.bind writeCell
  by_cases h1 : t.2.len < t.2.cells.length
  · simp only [if_pos h1]
    rw [show M.lift (retU checks (t.2.len + 1)) = M.pure (t.2.len + 1) from by rw [retU_fit (by omega)]; rfl]
    rfl
  · simp only [if_neg h1]

theorem arrayPush_keeps (x : T) :
    Keeps (fun t : σ × Own T => t.2.cells.length) (arrayPush checks x) := by
  intro t
  unfold arrayPush M.bind own writeCell
  by_cases h1 : t.2.len < t.2.cells.length
  · simp only [if_pos h1]
    cases retU checks (t.2.len + 1) <;> simp [M.lift, M.pure, M.panic, upd]
  · simp only [if_neg h1]

theorem arrayFromExpr_eq (ty : ShapeTy) {e : Expr σ T} (h : size e.dims ≤ usizeMax) (t : σ × Own T) :
    arrayFromExpr checks ty e t = Model.arrayFromExpr ty e t := by
  unfold arrayFromExpr Model.arrayFromExpr
  simp only [M.bind_eq, M.pure_eq]
  refine bind_congr_at fun s u hu => ?_
  obtain ⟨hs, rfl⟩ : Shape.fromDims ty e.dims = some s ∧ u = t := by
    cases hf : Shape.fromDims ty e.dims with
    | none => rw [hf] at hu; cases hu
    | some s' => rw [hf] at hu; cases hu; exact ⟨rfl, rfl⟩
  refine bind_congr_at fun _ u hu => ?_
  cases hu
  have hl : s.len ≤ usizeMax := by
    rw [Shape.fromDims_eq] at hs
    split at hs
    · cases hs
      rw [Shape.len_eq]; exact h
    · cases hs
  have key : ∀ w : σ × Own T, w.2.cells.length ≤ usizeMax →
      (e.up.forEach (arrayPush checks)) w = (e.up.forEach vecAppend) w := fun w hw =>
    Expr.forEach_congr (v := fun t : σ × Own T => t.2.cells.length) (n := w.2.cells.length)
      (Expr.keep_up (keep_const 0 e) fun _ _ _ _ => rfl) (fun x s hs => arrayPush_eq x (by rw [hs]; exact hw))
      (fun x => arrayPush_keeps x) rfl
  unfold M.bind M.onPanic
  rw [key _ (by simpa using hl)]

end Machine
end Model
