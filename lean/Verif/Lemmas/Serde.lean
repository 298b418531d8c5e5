import Verif.Spec.Serde
import Verif.Lemmas.ShapeReshape
import Mathlib.Data.List.Forall2

namespace Model
open Spec

variable {σ A T : Type} {de : Val A → Option T}

theorem length_flatten_eq_sum {xs : List (Val A)} {yss : List (List T)} {g : Val A → Nat}
    {P : Val A → List T → Prop} (hP : ∀ x ys, P x ys → ys.length = g x)
    (h : List.Forall₂ P xs yss) : yss.flatten.length = (xs.map g).sum := by
  induction h with
  | nil => rfl
  | cons h _ ih => simp [hP _ _ h, ih]

theorem rect_length : ∀ {tys : List DimTy} {v : Val A} {ds : List Nat} {ys : List T},
    Rect de tys v ds ys → ys.length = width tys.length v
  | [], v, ds, ys, h => by
    obtain ⟨-, x, -, rfl⟩ := h
    rfl
  | _ :: _, .leaf _, _, _, h => h.elim
  | t :: ts, .seq hint xs, ds, ys, h => by
    obtain ⟨ds', yss, -, rfl, -, h, -⟩ := h
    exact length_flatten_eq_sum (fun x ys h => rect_length h) h

theorem rect_conforms : ∀ {tys : List DimTy} {v : Val A} {ds : List Nat} {ys : List T},
    Rect de tys v ds ys → (ShapeTy.static tys).Conforms ds
  | [], v, ds, ys, h => by
    obtain ⟨rfl, -⟩ := h
    simp
  | _ :: _, .leaf _, _, _, h => h.elim
  | t :: ts, .seq hint xs, ds, ys, h => by
    obtain ⟨ds', yss, rfl, rfl, ht, h, he⟩ := h
    rw [ShapeTy.conforms_cons]
    refine ⟨ht, ?_⟩
    cases h with
    | nil =>
      rw [he rfl]
      clear he ht
      induction ts with
      | nil => simp
      | cons t ts ih => rw [List.map_cons, ShapeTy.conforms_cons]; exact ⟨by simp, ih⟩
    | cons h _ => exact rect_conforms h

theorem rect_size : ∀ {tys : List DimTy} {v : Val A} {ds : List Nat} {ys : List T},
    Rect de tys v ds ys → size ds = ys.length
  | [], v, ds, ys, h => by
    obtain ⟨rfl, x, -, rfl⟩ := h
    rfl
  | _ :: _, .leaf _, _, _, h => h.elim
  | t :: ts, .seq hint xs, ds, ys, h => by
    obtain ⟨ds', yss, rfl, rfl, -, h, -⟩ := h
    rw [size_cons, length_flatten_eq_sum (g := fun _ => size ds')
      (fun x ys h => (rect_size h).symm) h]
    simp

theorem rect_take : ∀ {tys : List DimTy} {v : Val A} {ds : List Nat} {ys : List T} {k : Nat},
    Rect de tys v ds ys → k ≤ tys.length → size (ds.take k) ≤ width k v
  | _, _, _, _, 0, _, _ => by simp [width, size]
  | [], _, _, _, k + 1, _, hk => by simp at hk
  | _ :: _, .leaf _, _, _, _, h, _ => h.elim
  | t :: ts, .seq hint xs, ds, ys, k + 1, h, hk => by
    obtain ⟨ds', yss, rfl, rfl, -, h, -⟩ := h
    rw [List.take_succ_cons, size_cons, width]
    have hk' : k ≤ ts.length := by simpa using hk
    induction h with
    | nil => simp
    | @cons x ys xs yss h _ ih =>
      have := rect_take h hk'
      rw [List.length_cons, List.map_cons, List.sum_cons, Nat.succ_mul]
      omega

theorem rect_noOverflow {limit : Nat} {tys : List DimTy} {v : Val A} {ds : List Nat} {ys : List T}
    (h : Rect de tys v ds ys) (hm : Modest limit tys.length v) : NoOverflow usizeMax ds := by
  have hl := ShapeTy.conforms_static_length (rect_conforms h)
  intro k hk
  refine le_trans (rect_take h (by omega)) ?_
  cases tys with
  | nil => obtain ⟨rfl, -⟩ := h; simp at hk; subst hk; simp [width, usizeMax]
  | cons t ts =>
    cases v with
    | leaf _ => exact h.elim
    | seq hint xs =>
      rw [List.length_cons, Modest] at hm
      exact hm.2.2.1 k (by simp at hl; omega)

theorem default_ne_max {tys : List DimTy} (h : .const usizeMax ∉ tys) :
    usizeMax ∉ tys.map DimTy.default := by
  intro hm
  obtain ⟨t, ht, he⟩ := List.mem_map.1 hm
  cases t with
  | const n => simp only [DimTy.default] at he; subst he; exact h ht
  | dyn => simp [DimTy.default, usizeMax] at he

theorem rect_noMax {limit : Nat} : ∀ {tys : List DimTy} {v : Val A} {ds : List Nat} {ys : List T},
    Rect de tys v ds ys → Modest limit tys.length v → .const usizeMax ∉ tys → usizeMax ∉ ds
  | [], v, ds, ys, h, _, _ => by
    obtain ⟨rfl, -⟩ := h
    simp
  | _ :: _, .leaf _, _, _, h, _, _ => h.elim
  | t :: ts, .seq hint xs, ds, ys, h, hm, ht => by
    obtain ⟨ds', yss, rfl, rfl, -, h, he⟩ := h
    rw [List.length_cons, Modest] at hm
    have ht' : .const usizeMax ∉ ts := fun h => ht (by simp [h])
    intro hmem
    rcases List.mem_cons.1 hmem with h0 | h0
    · have := hm.1; omega
    · cases h with
      | nil => rw [he rfl] at h0; exact default_ne_max ht' h0
      | cons h _ => exact rect_noMax h (hm.2.2.2.2 _ (by simp)) ht' h0

/-- Reshaping the vector of elements succeeds. -/
theorem reshape_flat {s : Shape} {n : Nat} (hw : s.WF) (hm : usizeMax ∉ s.dims)
    (hn : NoOverflow usizeMax s.dims) (hs : size s.dims = n) (ty : ShapeTy) :
    Shape.reshape ⟨ty, [n]⟩ s = some s := by
  rw [Shape.reshape_none_eq _ _ hw hm, if_pos ⟨hn, by rw [hs]; simp [size]⟩]

theorem elemLoop_eq (limit : Nat) (de : Val A → Option T) (xs : List (Val A)) (vec : List T)
    (h : vec.length + xs.length ≤ limit) :
    elemLoop limit de xs vec = some ((xs.mapM de).map (vec ++ ·)) := by
  induction xs generalizing vec with
  | nil => simp [elemLoop]
  | cons x xs ih =>
    rw [elemLoop]
    cases hx : de x with
    | none => simp [hx]
    | some a =>
      simp only [List.length_cons] at h
      rw [show check (vec.length + 1 ≤ limit) = some () from if_pos (by omega)]
      simp only [Option.bind_some]
      rw [ih _ (by simp; omega)]
      simp only [List.mapM_cons, hx, Option.bind_eq_bind, Option.bind_some]
      cases xs.mapM de <;> simp

theorem mapM_rect {xs : List (Val A)} {ys : List T} :
    xs.mapM de = some ys ↔ ∃ yss : List (List T), ys = yss.flatten ∧
      List.Forall₂ (fun x zs => ∃ y, de x = some y ∧ zs = [y]) xs yss := by
  induction xs generalizing ys with
  | nil =>
    constructor
    · intro h
      simp at h
      exact ⟨[], by simp [← h], .nil⟩
    · rintro ⟨yss, rfl, h⟩
      cases h
      rfl
  | cons x xs ih =>
    rw [List.mapM_cons]
    constructor
    · intro h
      simp only [Option.bind_eq_bind, Option.bind_eq_some_iff] at h
      obtain ⟨y, hy, zs, hzs, h⟩ := h
      obtain ⟨yss, rfl, hyss⟩ := ih.1 hzs
      injection h with h
      exact ⟨[y] :: yss, by simp [← h], .cons ⟨y, hy, rfl⟩ hyss⟩
    · rintro ⟨yss, rfl, h⟩
      cases h with
      | cons h1 h2 =>
        obtain ⟨y, hy, rfl⟩ := h1
        rw [hy, ih.2 ⟨_, rfl, h2⟩]
        rfl

/-- What reading a row does, in terms of a specification `P`. -/
def RowSpec (row : Val A → Option (Option (Shape × List T))) (ty : ShapeTy)
    (P : Val A → List Nat → List T → Prop) (x : Val A) : Prop :=
  ∃ r, row x = some r ∧ ∀ s ys, r = some (s, ys) ↔ s.ty = ty ∧ P x s.dims ys

theorem rowLoop_rest {limit hint : Nat} {row : Val A → Option (Option (Shape × List T))} {ty : ShapeTy}
    {P : Val A → List Nat → List T → Prop} {g : Val A → Nat}
    (hg : ∀ x ds ys, P x ds ys → ys.length = g x) (shape : Shape) :
    ∀ (xs : List (Val A)) (n : Nat) (vec : List T), (∀ x ∈ xs, RowSpec row ty P x) → 0 < n →
    vec.length + (xs.map g).sum ≤ limit →
    ∃ r, rowLoop limit hint row xs shape n vec = some r ∧ ∀ res, r = some res ↔
      ∃ yss, List.Forall₂ (fun x ys => P x (shape.dims.drop 1) ys) xs yss ∧
        res = (shape, n + xs.length, vec ++ yss.flatten) := by
  intro xs
  induction xs with
  | nil =>
    intro n vec _ _ _
    refine ⟨_, rfl, fun res => ?_⟩
    constructor
    · intro h
      injection h with h
      exact ⟨[], .nil, by simp [← h]⟩
    · rintro ⟨yss, h, rfl⟩
      cases h
      simp
  | cons x xs ih =>
    intro n vec hrow hn hlim
    obtain ⟨r, hr, hspec⟩ := hrow x (by simp)
    rw [rowLoop, hr, Option.bind_some]
    rcases r with _ | ⟨src, ys⟩
    · refine ⟨none, rfl, fun res => ?_⟩
      simp only [reduceCtorEq, false_iff]
      rintro ⟨yss, h, -⟩
      cases h with
      | @cons _ ys _ yss h1 h2 =>
        have := (hspec ⟨ty, shape.dims.drop 1⟩ ys).2 ⟨rfl, h1⟩
        simp at this
    · have hP := ((hspec src ys).1 rfl)
      simp only [List.map_cons, List.sum_cons] at hlim
      have hlen := hg _ _ _ hP.2
      simp only [if_neg (show ¬ n = 0 by omega)]
      by_cases hd : src.dims = shape.dims.drop 1
      · rw [if_pos hd, show check (vec.length + ys.length ≤ limit) = some () from if_pos (by omega),
          Option.bind_some]
        obtain ⟨r', hr', hs'⟩ := ih (n + 1) (vec ++ ys) (fun x hx => hrow x (by simp [hx])) (by omega)
          (by simp; omega)
        refine ⟨r', hr', fun res => ?_⟩
        rw [hs']
        constructor
        · rintro ⟨yss, h, rfl⟩
          exact ⟨ys :: yss, .cons (hd ▸ hP.2) h, by simp; omega⟩
        · rintro ⟨yss, h, rfl⟩
          cases h with
          | @cons _ zs _ yss h1 h2 =>
            have := (hspec ⟨ty, shape.dims.drop 1⟩ zs).2 ⟨rfl, h1⟩
            injection this with this
            injection this with _ this
            subst this
            exact ⟨yss, h2, by simp; omega⟩
      · rw [if_neg hd]
        refine ⟨none, rfl, fun res => ?_⟩
        simp only [reduceCtorEq, false_iff]
        rintro ⟨yss, h, -⟩
        cases h with
        | @cons _ zs _ yss h1 h2 =>
          have := (hspec ⟨ty, shape.dims.drop 1⟩ zs).2 ⟨rfl, h1⟩
          injection this with this
          injection this with this _
          exact hd (by rw [this])

theorem visitEnd_eq {t : DimTy} {ts : List DimTy} {ds : List Nat} {n : Nat} {vec : List T}
    (hc : (ShapeTy.static ts).Conforms ds)
    (h : t.Fits n → usizeMax ∉ n :: ds ∧ NoOverflow usizeMax (n :: ds) ∧ size (n :: ds) = vec.length) :
    visitEnd t ⟨.static (t :: ts), t.default :: ds⟩ n vec =
      some (if t.Fits n then some (⟨.static (t :: ts), n :: ds⟩, vec) else none) := by
  have hre : t.Fits n → ∀ ty, Shape.reshape ⟨ty, [vec.length]⟩ ⟨.static (t :: ts), n :: ds⟩ =
      some ⟨.static (t :: ts), n :: ds⟩ := by
    intro ht ty
    obtain ⟨h1, h2, h3⟩ := h ht
    exact reshape_flat (s := ⟨.static (t :: ts), n :: ds⟩)
      (by unfold Shape.WF; simp only [ShapeTy.conforms_cons]; exact ⟨ht, hc⟩) h1 h2 h3 ty
  cases t with
  | dyn =>
    unfold visitEnd
    simp only [Shape.withMutDims_eq, Option.bind_some, List.set_cons_zero, ShapeTy.conforms_cons]
    rw [if_pos ⟨trivial, hc⟩, Option.bind_some, hre trivial, if_pos (show DimTy.dyn.Fits n from trivial)]
    rfl
  | const m =>
    unfold visitEnd
    simp only [Shape.dim, List.getElem?_cons_zero, Option.bind_some, DimTy.default]
    by_cases hn : n = m
    · subst hn
      rw [if_neg (by simp), if_pos (show (DimTy.const n).Fits n from rfl), hre rfl]
      rfl
    · rw [if_pos hn, if_neg (show ¬ (DimTy.const m).Fits n from hn)]

theorem default_conforms (ts : List DimTy) : (ShapeTy.static ts).Conforms (ts.map DimTy.default) := by
  induction ts with
  | nil => simp
  | cons t ts ih => rw [List.map_cons, ShapeTy.conforms_cons]; exact ⟨by simp, ih⟩

theorem deserRank_spec {limit : Nat} (hlim : limit ≤ usizeMax) : ∀ (tys : List DimTy) (v : Val A),
    Modest limit tys.length v → .const usizeMax ∉ tys →
    RowSpec (deserRank limit de tys) (.static tys) (Rect de tys) v
  | [], v, _, _ => by
    unfold RowSpec
    rw [deserRank]
    cases hv : de v with
    | none =>
      refine ⟨none, rfl, fun s ys => ?_⟩
      simp only [reduceCtorEq, false_iff]
      rintro ⟨-, -, x, hx, -⟩
      rw [hv] at hx
      simp at hx
    | some x =>
      have : Shape.reshape ⟨.static [.const 1], [1]⟩ (Shape.default (.static [])) =
          some ⟨.static [], []⟩ := by decide
      refine ⟨some (⟨.static [], []⟩, [x]), by simp [this], fun s ys => ?_⟩
      constructor
      · intro h
        injection h with h
        injection h with h1 h2
        subst h1; subst h2
        exact ⟨rfl, rfl, x, hv, rfl⟩
      · rintro ⟨h1, h2, y, hy, rfl⟩
        rw [hv] at hy
        injection hy with hy
        subst hy
        obtain ⟨ty, dims⟩ := s
        simp only at h1 h2
        rw [h1, h2]
  | t :: ts, .leaf a, _, _ => by
    refine ⟨none, by cases ts <;> rfl, fun s ys => ?_⟩
    simp only [reduceCtorEq, false_iff]
    rintro ⟨-, h⟩
    exact h.elim
  | [t], .seq hint xs, hm, ht => by
    unfold RowSpec
    rw [deserRank]
    have hR : ∀ s ys, s = (⟨.static [t], [xs.length]⟩ : Shape) ∧ t.Fits xs.length ∧
        xs.mapM de = some ys ↔ s.ty = .static [t] ∧ Rect de [t] (.seq hint xs) s.dims ys := by
      intro s ys
      constructor
      · rintro ⟨rfl, h1, h2⟩
        obtain ⟨yss, rfl, h⟩ := mapM_rect.1 h2
        exact ⟨rfl, [], yss, rfl, rfl, h1, h.imp fun _ _ h => ⟨rfl, h⟩, fun _ => rfl⟩
      · rintro ⟨h1, ds', yss, h2, rfl, h3, h4, h5⟩
        have : ds' = [] := by
          cases h4 with
          | nil => exact h5 rfl
          | cons h _ => exact h.1
        subst this
        obtain ⟨ty, dims⟩ := s
        simp only at h1 h2
        exact ⟨by rw [h1, h2], h3, mapM_rect.2 ⟨yss, rfl, h4.imp fun _ _ h => h.2⟩⟩
    have hm' := hm
    rw [List.length_cons, List.length_nil, Modest, if_pos rfl] at hm
    obtain ⟨hm1, hm2, -, hm3, -⟩ := hm
    have hw : width (0 + 1) (Val.seq hint xs) = xs.length := by
      simp [width]
    rw [show check (hint ≤ limit) = some () from if_pos hm3, Option.bind_some,
      elemLoop_eq _ _ _ _ (by simp only [List.length_nil]; omega), Option.bind_some]
    cases hx : xs.mapM de with
    | none =>
      refine ⟨none, rfl, fun s ys => ?_⟩
      rw [← hR, hx]
      simp
    | some ys =>
      simp only [Option.map_some, List.nil_append]
      have hl : ys.length = xs.length := by
        obtain ⟨yss, rfl, h⟩ := mapM_rect.1 hx
        rw [length_flatten_eq_sum (g := fun _ => 1) (by rintro x _ ⟨y, -, rfl⟩; rfl) h]
        simp
      have hve := visitEnd_eq (t := t) (ts := []) (ds := []) (n := xs.length) (vec := ys) (by simp)
        (fun _ => ⟨by simp; omega, by
          intro k hk
          have : size ([xs.length].take k) ≤ max 1 xs.length := by
            cases k with
            | zero => simp [size]
            | succ k => simp [size]
          refine le_trans this (max_le (by decide) (by omega)), by simp [size, hl]⟩)
      refine ⟨_, hve, fun s zs => ?_⟩
      rw [← hR, hx]
      by_cases hf : t.Fits xs.length
      · rw [if_pos hf]
        constructor
        · intro h
          injection h with h
          injection h with h1 h2
          exact ⟨h1.symm, hf, by rw [h2]⟩
        · rintro ⟨rfl, -, h⟩
          injection h with h
          rw [h]
      · rw [if_neg hf]
        simp [hf]
  | t :: t' :: ts, .seq hint xs, hm, ht => by
    have ht' : .const usizeMax ∉ t' :: ts := fun h => ht (by rw [List.mem_cons]; exact Or.inr h)
    have hm' := hm
    rw [List.length_cons, Modest] at hm
    obtain ⟨hm1, hm2, -, hm4, hm5⟩ := hm
    rw [if_neg (by simp)] at hm4
    have ih : ∀ x ∈ xs, RowSpec (deserRank limit de (t' :: ts)) (.static (t' :: ts))
        (Rect de (t' :: ts)) x := fun x hx => deserRank_spec hlim (t' :: ts) x (hm5 x hx) ht'
    rw [width] at hm2
    unfold RowSpec
    rw [deserRank]
    cases xs with
    | nil =>
      rw [rowLoop, Option.bind_some]
      have hR : t.Fits 0 → Rect de (t :: t' :: ts) (.seq hint []) (0 :: (t' :: ts).map DimTy.default) [] :=
        fun h => ⟨_, [], rfl, rfl, h, .nil, fun _ => rfl⟩
      have hve := visitEnd_eq (t := t) (ts := t' :: ts) (ds := (t' :: ts).map DimTy.default) (n := 0)
        (vec := ([] : List T)) (default_conforms _) (fun h =>
          ⟨rect_noMax (hR h) hm' ht, rect_noOverflow (hR h) hm', rect_size (hR h)⟩)
      refine ⟨_, hve, fun s ys => ?_⟩
      by_cases hf : t.Fits 0
      · rw [if_pos hf]
        constructor
        · intro h
          injection h with h
          injection h with h1 h2
          subst h1; subst h2
          exact ⟨rfl, hR hf⟩
        · rintro ⟨h1, ds', yss, h2, rfl, h3, h4, h5⟩
          cases h4
          obtain ⟨ty, dims⟩ := s
          simp only at h1 h2
          rw [h1, h2, h5 rfl]
          rfl
      · rw [if_neg hf]
        simp only [reduceCtorEq, false_iff]
        rintro ⟨-, ds', yss, -, -, h3, -, -⟩
        exact hf h3
    | cons x xs =>
      obtain ⟨r, hr, hspec⟩ := ih x (by simp)
      rw [rowLoop, hr, Option.bind_some]
      rcases r with _ | ⟨src, ys⟩
      · refine ⟨none, rfl, fun s zs => ?_⟩
        simp only [reduceCtorEq, false_iff]
        rintro ⟨-, ds', yss, -, -, -, h, -⟩
        cases h with
        | @cons _ ys _ yss h1 h2 =>
          have := (hspec ⟨_, ds'⟩ ys).2 ⟨rfl, h1⟩
          simp at this
      · have hP := (hspec src ys).1 rfl
        have hc := rect_conforms hP.2
        have hlen := rect_length hP.2
        have hsz := rect_size hP.2
        simp only [List.map_cons, List.sum_cons] at hm2
        have hm4' := hm4 x (by simp)
        simp only [if_true, List.length_nil, Nat.zero_add]
        rw [show check (src.len * hint ≤ limit) = some () from if_pos (by
            rw [Shape.len_eq, hsz, hlen]; exact hm4'), Option.bind_some]
        have hset : (Shape.default (.static (t :: t' :: ts))).withMutDims (fun dims =>
            (Shape.copyFromSlice (dims.drop 1) src.dims).map (dims.take 1 ++ ·)) =
            some ⟨.static (t :: t' :: ts), t.default :: src.dims⟩ := by
          rw [Shape.withMutDims_eq]
          have hl : (t' :: ts).length = src.dims.length := ShapeTy.conforms_static_length hc
          have : Shape.copyFromSlice ((Shape.default (.static (t :: t' :: ts))).dims.drop 1) src.dims =
              some src.dims := by
            unfold Shape.copyFromSlice
            rw [if_pos]
            simp only [Shape.default, List.map_cons, List.drop_succ_cons, List.drop_zero]
            simpa using hl
          rw [this]
          simp only [Option.map_some, Option.bind_some]
          rw [if_pos]
          · rfl
          · show (ShapeTy.static (t :: t' :: ts)).Conforms (t.default :: src.dims)
            rw [ShapeTy.conforms_cons]
            exact ⟨by simp, hc⟩
        rw [hset, Option.bind_some, show check (ys.length ≤ limit) = some () from if_pos (by
          rw [hlen]; omega), Option.bind_some]
        obtain ⟨r', hr', hs'⟩ := rowLoop_rest (limit := limit) (hint := hint)
          (row := deserRank limit de (t' :: ts)) (g := width (t' :: ts).length)
          (fun x ds ys h => rect_length h) ⟨.static (t :: t' :: ts), t.default :: src.dims⟩ xs 1 ([] ++ ys)
          (fun x hx => ih x (by simp [hx])) (by omega) (by simp only [List.nil_append]; omega)
        rw [hr', Option.bind_some]
        have hR : ∀ (s : Shape) (zs : List T), (s.ty = .static (t :: t' :: ts) ∧
            Rect de (t :: t' :: ts) (.seq hint (x :: xs)) s.dims zs) ↔
            (s = ⟨.static (t :: t' :: ts), (xs.length + 1) :: src.dims⟩ ∧ t.Fits (xs.length + 1) ∧
              ∃ yss, List.Forall₂ (fun x ys => Rect de (t' :: ts) x src.dims ys) xs yss ∧
                zs = ys ++ yss.flatten) := by
          intro s zs
          constructor
          · rintro ⟨h1, ds', yss, h2, rfl, h3, h, -⟩
            cases h with
            | @cons _ ys' _ yss h4 h5 =>
              have := (hspec ⟨.static (t' :: ts), ds'⟩ ys').2 ⟨rfl, h4⟩
              injection this with this
              injection this with e1 e2
              subst e2
              have e3 : src.dims = ds' := by rw [e1]
              subst e3
              obtain ⟨ty, dims⟩ := s
              simp only at h1 h2
              exact ⟨by rw [h1, h2]; rfl, h3, yss, h5, rfl⟩
          · rintro ⟨rfl, h1, yss, h2, rfl⟩
            exact ⟨rfl, src.dims, ys :: yss, rfl, rfl, h1, .cons hP.2 h2, by simp⟩
        rcases r' with _ | ⟨shape, n, vec⟩
        · refine ⟨none, rfl, fun s zs => ?_⟩
          rw [hR]
          simp only [reduceCtorEq, false_iff]
          rintro ⟨-, -, yss, h, -⟩
          have := (hs' (⟨.static (t :: t' :: ts), t.default :: src.dims⟩, 1 + xs.length,
            ([] ++ ys) ++ yss.flatten)).2 ⟨yss, h, rfl⟩
          simp at this
        · obtain ⟨yss, h1, h2⟩ := (hs' _).1 rfl
          injection h2 with e1 h2
          injection h2 with e2 e3
          subst e1
          rw [List.nil_append] at e3
          have e2 : n = xs.length + 1 := by omega
          subst e2
          subst e3
          have hRect : t.Fits (xs.length + 1) → Rect de (t :: t' :: ts) (.seq hint (x :: xs))
              ((xs.length + 1) :: src.dims) (ys ++ yss.flatten) := fun h =>
            ((hR ⟨_, _⟩ _).2 ⟨rfl, h, yss, h1, rfl⟩).2
          have hve := visitEnd_eq (t := t) (ts := t' :: ts) (ds := src.dims) (n := xs.length + 1)
            (vec := ys ++ yss.flatten) hc (fun h => ⟨rect_noMax (hRect h) hm' ht,
              rect_noOverflow (hRect h) hm', rect_size (hRect h)⟩)
          refine ⟨_, hve, fun s zs => ?_⟩
          rw [hR]
          by_cases hf : t.Fits (xs.length + 1)
          · rw [if_pos hf]
            constructor
            · intro h
              injection h with h
              injection h with e1 e2
              exact ⟨e1.symm, hf, yss, h1, e2.symm⟩
            · rintro ⟨rfl, -, yss', h', rfl⟩
              have := (hs' (⟨.static (t :: t' :: ts), t.default :: src.dims⟩, 1 + xs.length,
                ([] ++ ys) ++ yss'.flatten)).2 ⟨yss', h', rfl⟩
              injection this with this
              injection this with _ this
              injection this with _ this
              rw [this, List.nil_append]
          · rw [if_neg hf]
            simp [hf]

end Model
