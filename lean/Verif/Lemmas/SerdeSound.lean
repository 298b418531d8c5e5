import Verif.Lemmas.Serde

/-! Reading nested data without any conditions on it: whatever is returned is right. -/

namespace Model
open Spec

variable {σ A T : Type} {de : Val A → Option T}

/-- What reading a row does if it does not panic. -/
def RowSound (row : Val A → Option (Option (Shape × List T))) (ty : ShapeTy)
    (P : Val A → List Nat → List T → Prop) (x : Val A) : Prop :=
  ∀ r, row x = some r → ∀ s ys, r = some (s, ys) ↔ s.ty = ty ∧ P x s.dims ys

theorem RowSound.spec {row : Val A → Option (Option (Shape × List T))} {ty : ShapeTy}
    {P : Val A → List Nat → List T → Prop} {x : Val A} (h : RowSound row ty P x) {r} (hr : row x = some r) :
    RowSpec row ty P x := ⟨r, hr, h r hr⟩

theorem reshape_same {s s' : Shape} {n : Nat} (hw : s.WF) (hs : size s.dims = n) {ty : ShapeTy}
    (h : Shape.reshape ⟨ty, [n]⟩ s = some s') : s' = s := by
  by_cases hm : usizeMax ∈ s.dims
  · obtain ⟨a, b, he, ha⟩ := Shape.split_first hm
    by_cases hb : usizeMax ∈ b
    · rw [Shape.reshape_many _ _ a b he ha hb] at h
      cases h
    · rw [Shape.reshape_infer_eq _ _ a b he ha hb] at h
      split at h
      · rename_i hc
        injection h with h
        subst h
        obtain ⟨sty, sd⟩ := s
        simp only at he
        subst he
        have hn : size [n] = usizeMax * size (a ++ b) := by
          rw [show size [n] = n by simp, ← hs]
          simp only [size_append, size_cons]
          ring
        rw [hn, Nat.mul_div_cancel _ (Nat.pos_of_ne_zero hc.2.2.1)]
      · cases h
  · rw [Shape.reshape_none_eq _ _ hw hm] at h
    split at h
    · injection h with h
      exact h.symm
    · cases h

theorem visitEnd_sound {t : DimTy} {ts : List DimTy} {ds : List Nat} {n : Nat} {vec : List T}
    (hc : (ShapeTy.static ts).Conforms ds) (h : t.Fits n → size (n :: ds) = vec.length) {r}
    (hr : visitEnd t ⟨.static (t :: ts), t.default :: ds⟩ n vec = some r) :
    r = if t.Fits n then some (⟨.static (t :: ts), n :: ds⟩, vec) else none := by
  have hre : t.Fits n → ∀ ty s', Shape.reshape ⟨ty, [vec.length]⟩ ⟨.static (t :: ts), n :: ds⟩ = some s' →
      s' = ⟨.static (t :: ts), n :: ds⟩ := fun ht ty s' hs =>
    reshape_same (by unfold Shape.WF; simp only [ShapeTy.conforms_cons]; exact ⟨ht, hc⟩) (h ht) hs
  cases t with
  | dyn =>
    unfold visitEnd at hr
    simp only [Shape.withMutDims_eq, Option.bind_some, List.set_cons_zero, ShapeTy.conforms_cons] at hr
    rw [if_pos ⟨trivial, hc⟩, Option.bind_some, Option.map_eq_some_iff] at hr
    obtain ⟨s', hs, rfl⟩ := hr
    rw [if_pos (show DimTy.dyn.Fits n from trivial), hre trivial _ _ hs]
  | const m =>
    unfold visitEnd at hr
    simp only [Shape.dim, List.getElem?_cons_zero, Option.bind_some, DimTy.default] at hr
    by_cases hn : n = m
    · subst hn
      rw [if_neg (by simp), Option.map_eq_some_iff] at hr
      obtain ⟨s', hs, rfl⟩ := hr
      rw [if_pos (show (DimTy.const n).Fits n from rfl), hre rfl _ _ hs]
    · rw [if_pos hn] at hr
      injection hr with hr
      rw [if_neg (show ¬ (DimTy.const m).Fits n from hn), hr]

theorem elemLoop_sound (limit : Nat) (de : Val A → Option T) (xs : List (Val A)) (vec : List T) {r}
    (h : elemLoop limit de xs vec = some r) : r = (xs.mapM de).map (vec ++ ·) := by
  induction xs generalizing vec with
  | nil => simp [elemLoop] at h; simp [← h]
  | cons x xs ih =>
    rw [elemLoop] at h
    rw [List.mapM_cons]
    cases hx : de x with
    | none => rw [hx] at h; simp at h; simp [← h]
    | some a =>
      rw [hx] at h
      simp only [Option.bind_eq_some_iff] at h
      obtain ⟨_, -, h⟩ := h
      rw [ih _ h]
      cases xs.mapM de <;> simp

theorem rowLoop_sound {limit hint : Nat} {row : Val A → Option (Option (Shape × List T))} {ty : ShapeTy}
    {P : Val A → List Nat → List T → Prop} (shape : Shape) :
    ∀ (xs : List (Val A)) (n : Nat) (vec : List T), (∀ x ∈ xs, RowSound row ty P x) → 0 < n →
    ∀ r, rowLoop limit hint row xs shape n vec = some r → ∀ res, r = some res ↔
      ∃ yss, List.Forall₂ (fun x ys => P x (shape.dims.drop 1) ys) xs yss ∧
        res = (shape, n + xs.length, vec ++ yss.flatten) := by
  intro xs
  induction xs with
  | nil =>
    intro n vec _ _ r hr res
    rw [rowLoop] at hr
    injection hr with hr
    subst hr
    constructor
    · intro h
      injection h with h
      exact ⟨[], .nil, by simp [← h]⟩
    · rintro ⟨yss, h, rfl⟩
      cases h
      simp
  | cons x xs ih =>
    intro n vec hrow hn r hr res
    rw [rowLoop, Option.bind_eq_some_iff] at hr
    obtain ⟨r₀, hr₀, hr⟩ := hr
    have hspec := hrow x (by simp) r₀ hr₀
    rcases r₀ with _ | ⟨src, ys⟩
    · injection hr with hr
      subst hr
      simp only [reduceCtorEq, false_iff]
      rintro ⟨yss, h, -⟩
      cases h with
      | @cons _ ys _ yss h1 h2 =>
        have := (hspec ⟨ty, shape.dims.drop 1⟩ ys).2 ⟨rfl, h1⟩
        simp at this
    · have hP := ((hspec src ys).1 rfl)
      simp only [if_neg (show ¬ n = 0 by omega)] at hr
      by_cases hd : src.dims = shape.dims.drop 1
      · rw [if_pos hd, Option.bind_eq_some_iff] at hr
        obtain ⟨_, -, hr⟩ := hr
        rw [ih (n + 1) (vec ++ ys) (fun x hx => hrow x (by simp [hx])) (by omega) r hr res]
        constructor
        · rintro ⟨yss, h, rfl⟩
          exact ⟨ys :: yss, .cons (hd ▸ hP.2) h, by simp; omega⟩
        · rintro ⟨yss, h, rfl⟩
          cases h with
          | @cons _ zs _ yss h1 h2 =>
            have := (hspec ⟨ty, shape.dims.drop 1⟩ zs).2 ⟨rfl, h1⟩
            injection this with this
            injection this with _ this
            subst this
            exact ⟨yss, h2, by simp; omega⟩
      · rw [if_neg hd] at hr
        injection hr with hr
        subst hr
        simp only [reduceCtorEq, false_iff]
        rintro ⟨yss, h, -⟩
        cases h with
        | @cons _ zs _ yss h1 h2 =>
          have := (hspec ⟨ty, shape.dims.drop 1⟩ zs).2 ⟨rfl, h1⟩
          injection this with this
          injection this with this _
          exact hd (by rw [this])

theorem deserRank_sound {limit : Nat} : ∀ (tys : List DimTy) (v : Val A),
    RowSound (deserRank limit de tys) (.static tys) (Rect de tys) v
  | [], v => by
    intro r hr s ys
    rw [deserRank] at hr
    cases hv : de v with
    | none =>
      rw [hv] at hr
      injection hr with hr
      subst hr
      simp only [reduceCtorEq, false_iff]
      rintro ⟨-, -, x, hx, -⟩
      rw [hv] at hx
      simp at hx
    | some x =>
      have : Shape.reshape ⟨.static [.const 1], [1]⟩ (Shape.default (.static [])) =
          some ⟨.static [], []⟩ := by decide
      rw [hv] at hr
      simp only [this, Option.map_some, Option.some.injEq] at hr
      subst hr
      constructor
      · intro h
        injection h with h
        injection h with h1 h2
        subst h1; subst h2
        exact ⟨rfl, rfl, x, hv, rfl⟩
      · rintro ⟨h1, h2, y, hy, rfl⟩
        rw [hv] at hy
        injection hy with hy
        subst hy
        obtain ⟨ty, dims⟩ := s
        simp only at h1 h2
        rw [h1, h2]
  | t :: ts, .leaf a => by
    intro r hr s ys
    have : deserRank limit de (t :: ts) (.leaf a) = some none := by cases ts <;> rfl
    rw [this] at hr
    injection hr with hr
    subst hr
    simp only [reduceCtorEq, false_iff]
    rintro ⟨-, h⟩
    exact h.elim
  | [t], .seq hint xs => by
    intro r hr s zs
    rw [deserRank] at hr
    have hR : ∀ s ys, s = (⟨.static [t], [xs.length]⟩ : Shape) ∧ t.Fits xs.length ∧
        xs.mapM de = some ys ↔ s.ty = .static [t] ∧ Rect de [t] (.seq hint xs) s.dims ys := by
      intro s ys
      constructor
      · rintro ⟨rfl, h1, h2⟩
        obtain ⟨yss, rfl, h⟩ := mapM_rect.1 h2
        exact ⟨rfl, [], yss, rfl, rfl, h1, h.imp fun _ _ h => ⟨rfl, h⟩, fun _ => rfl⟩
      · rintro ⟨h1, ds', yss, h2, rfl, h3, h4, h5⟩
        have : ds' = [] := by
          cases h4 with
          | nil => exact h5 rfl
          | cons h _ => exact h.1
        subst this
        obtain ⟨ty, dims⟩ := s
        simp only at h1 h2
        exact ⟨by rw [h1, h2], h3, mapM_rect.2 ⟨yss, rfl, h4.imp fun _ _ h => h.2⟩⟩
    simp only [Option.bind_eq_some_iff] at hr
    obtain ⟨_, -, r₀, hr₀, hr⟩ := hr
    rw [elemLoop_sound _ _ _ _ hr₀] at hr
    rw [← hR]
    cases hx : xs.mapM de with
    | none =>
      rw [hx] at hr
      injection hr with hr
      subst hr
      simp
    | some ys =>
      rw [hx] at hr
      simp only [Option.map_some, List.nil_append] at hr
      have hl : ys.length = xs.length := by
        obtain ⟨yss, rfl, h⟩ := mapM_rect.1 hx
        rw [length_flatten_eq_sum (g := fun _ => 1) (by rintro x _ ⟨y, -, rfl⟩; rfl) h]
        simp
      have hve := visitEnd_sound (t := t) (ts := []) (ds := []) (n := xs.length) (vec := ys) (by simp)
        (fun _ => by simp [size, hl]) hr
      rw [hve]
      by_cases hf : t.Fits xs.length
      · rw [if_pos hf]
        constructor
        · intro h
          injection h with h
          injection h with h1 h2
          exact ⟨h1.symm, hf, by rw [h2]⟩
        · rintro ⟨rfl, -, h⟩
          injection h with h
          rw [h]
      · rw [if_neg hf]
        simp [hf]
  | t :: t' :: ts, .seq hint xs => by
    have ih : ∀ x ∈ xs, RowSound (deserRank limit de (t' :: ts)) (.static (t' :: ts))
        (Rect de (t' :: ts)) x := fun x hx => deserRank_sound (t' :: ts) x
    intro r hr s zs
    rw [deserRank] at hr
    cases xs with
    | nil =>
      rw [rowLoop, Option.bind_some] at hr
      have hR : t.Fits 0 → Rect de (t :: t' :: ts) (.seq hint []) (0 :: (t' :: ts).map DimTy.default) [] :=
        fun h => ⟨_, [], rfl, rfl, h, .nil, fun _ => rfl⟩
      have hve := visitEnd_sound (t := t) (ts := t' :: ts) (ds := (t' :: ts).map DimTy.default) (n := 0)
        (vec := ([] : List T)) (default_conforms _) (fun h => rect_size (hR h)) hr
      rw [hve]
      by_cases hf : t.Fits 0
      · rw [if_pos hf]
        constructor
        · intro h
          injection h with h
          injection h with h1 h2
          subst h1; subst h2
          exact ⟨rfl, hR hf⟩
        · rintro ⟨h1, ds', yss, h2, rfl, h3, h4, h5⟩
          cases h4
          obtain ⟨ty, dims⟩ := s
          simp only at h1 h2
          rw [h1, h2, h5 rfl]
          rfl
      · rw [if_neg hf]
        simp only [reduceCtorEq, false_iff]
        rintro ⟨-, ds', yss, -, -, h3, -, -⟩
        exact hf h3
    | cons x xs =>
      rw [rowLoop] at hr
      simp only [Option.bind_eq_some_iff] at hr
      obtain ⟨r₁, ⟨r₀, hr₀, hr₁⟩, hr⟩ := hr
      have hspec := ih x (by simp) r₀ hr₀
      rcases r₀ with _ | ⟨src, ys⟩
      · injection hr₁ with hr₁
        subst hr₁
        injection hr with hr
        subst hr
        simp only [reduceCtorEq, false_iff]
        rintro ⟨-, ds', yss, -, -, -, h, -⟩
        cases h with
        | @cons _ ys _ yss h1 h2 =>
          have := (hspec ⟨_, ds'⟩ ys).2 ⟨rfl, h1⟩
          simp at this
      · have hP := (hspec src ys).1 rfl
        have hc := rect_conforms hP.2
        have hset : (Shape.default (.static (t :: t' :: ts))).withMutDims (fun dims =>
            (Shape.copyFromSlice (dims.drop 1) src.dims).map (dims.take 1 ++ ·)) =
            some ⟨.static (t :: t' :: ts), t.default :: src.dims⟩ := by
          rw [Shape.withMutDims_eq]
          have hl : (t' :: ts).length = src.dims.length := ShapeTy.conforms_static_length hc
          have : Shape.copyFromSlice ((Shape.default (.static (t :: t' :: ts))).dims.drop 1) src.dims =
              some src.dims := by
            unfold Shape.copyFromSlice
            rw [if_pos]
            simp only [Shape.default, List.map_cons, List.drop_succ_cons, List.drop_zero]
            simpa using hl
          rw [this]
          simp only [Option.map_some, Option.bind_some]
          rw [if_pos]
          · rfl
          · show (ShapeTy.static (t :: t' :: ts)).Conforms (t.default :: src.dims)
            rw [ShapeTy.conforms_cons]
            exact ⟨by simp, hc⟩
        simp only [if_true, List.length_nil, Nat.zero_add] at hr₁
        rw [hset] at hr₁
        simp only [Option.bind_eq_some_iff, Option.some.injEq] at hr₁
        obtain ⟨_, -, _, rfl, _, -, hr₁⟩ := hr₁
        have hs' := rowLoop_sound (limit := limit) (hint := hint)
          (row := deserRank limit de (t' :: ts)) ⟨.static (t :: t' :: ts), t.default :: src.dims⟩ xs 1 ([] ++ ys)
          (fun x hx => ih x (by simp [hx])) (by omega) r₁ hr₁
        have hR : ∀ (s : Shape) (zs : List T), (s.ty = .static (t :: t' :: ts) ∧
            Rect de (t :: t' :: ts) (.seq hint (x :: xs)) s.dims zs) ↔
            (s = ⟨.static (t :: t' :: ts), (xs.length + 1) :: src.dims⟩ ∧ t.Fits (xs.length + 1) ∧
              ∃ yss, List.Forall₂ (fun x ys => Rect de (t' :: ts) x src.dims ys) xs yss ∧
                zs = ys ++ yss.flatten) := by
          intro s zs
          constructor
          · rintro ⟨h1, ds', yss, h2, rfl, h3, h, -⟩
            cases h with
            | @cons _ ys' _ yss h4 h5 =>
              have := (hspec ⟨.static (t' :: ts), ds'⟩ ys').2 ⟨rfl, h4⟩
              injection this with this
              injection this with e1 e2
              subst e2
              have e3 : src.dims = ds' := by rw [e1]
              subst e3
              obtain ⟨ty, dims⟩ := s
              simp only at h1 h2
              exact ⟨by rw [h1, h2]; rfl, h3, yss, h5, rfl⟩
          · rintro ⟨rfl, h1, yss, h2, rfl⟩
            exact ⟨rfl, src.dims, ys :: yss, rfl, rfl, h1, .cons hP.2 h2, by simp⟩
        rw [hR]
        rcases r₁ with _ | ⟨shape, n, vec⟩
        · injection hr with hr
          subst hr
          simp only [reduceCtorEq, false_iff]
          rintro ⟨-, -, yss, h, -⟩
          have := (hs' (⟨.static (t :: t' :: ts), t.default :: src.dims⟩, 1 + xs.length,
            ([] ++ ys) ++ yss.flatten)).2 ⟨yss, h, rfl⟩
          simp at this
        · obtain ⟨yss, h1, h2⟩ := (hs' _).1 rfl
          injection h2 with e1 h2
          injection h2 with e2 e3
          subst e1
          rw [List.nil_append] at e3
          have e2 : n = xs.length + 1 := by omega
          subst e2
          subst e3
          have hRect : t.Fits (xs.length + 1) → Rect de (t :: t' :: ts) (.seq hint (x :: xs))
              ((xs.length + 1) :: src.dims) (ys ++ yss.flatten) := fun h =>
            ((hR ⟨_, _⟩ _).2 ⟨rfl, h, yss, h1, rfl⟩).2
          have hve := visitEnd_sound (t := t) (ts := t' :: ts) (ds := src.dims) (n := xs.length + 1)
            (vec := ys ++ yss.flatten) hc (fun h => rect_size (hRect h)) hr
          rw [hve]
          by_cases hf : t.Fits (xs.length + 1)
          · rw [if_pos hf]
            constructor
            · intro h
              injection h with h
              injection h with e1 e2
              exact ⟨e1.symm, hf, yss, h1, e2.symm⟩
            · rintro ⟨rfl, -, yss', h', rfl⟩
              have := (hs' (⟨.static (t :: t' :: ts), t.default :: src.dims⟩, 1 + xs.length,
                ([] ++ ys) ++ yss'.flatten)).2 ⟨yss', h', rfl⟩
              injection this with this
              injection this with _ this
              injection this with _ this
              rw [this, List.nil_append]
          · rw [if_neg hf]
            simp [hf]

end Model
