import Verif.Model.UserZip
import Verif.Lemmas.UserFold
import Verif.Lemmas.UserExprOwn
import Verif.Lemmas.Assign
import Verif.Lemmas.Pointer

/-!
A mutable view together with an expression defined outside of the crate.
-/

namespace Model
open Spec

variable {σ ρ T α : Type}

namespace UserExpr

theorem getD_take {l : List Nat} {n i : Nat} (h : i < n) : (l.take n).getD i 0 = l.getD i 0 := by
  simp only [List.getD]
  rw [List.getElem?_take_of_lt h]

/-- The outer digits form an index of the outer dimensions. -/
theorem outer_valid {D oi : List Nat} (hD : 0 < size D) {O : Nat} (hO : O ≤ D.length) (h : Outer D O oi) :
    Valid (D.take O) (oi.take O) ∧ value D oi O = rowMajor (D.take O) (oi.take O) := by
  obtain ⟨h1, h2, -⟩ := h
  have hpos := size_pos_iff.1 hD
  induction O with
  | zero => exact ⟨valid_nil, rfl⟩
  | succ O ih =>
    obtain ⟨ih1, ih2⟩ := ih (by omega) (by omega) fun i hi => h2 i (by omega)
    have hl : O < D.length := hO
    have hl' : O < oi.length := h1
    have hd : D.getD O 0 = D[O] := by simp [List.getD, hl]
    have ho : oi.getD O 0 = oi[O] := by simp [List.getD, hl']
    have hp := hpos D[O] (List.getElem_mem hl)
    have hlt := h2 O (by omega)
    rw [hd, ho] at hlt
    have e1 : D.take (O + 1) = D.take O ++ [D[O]] := by
      rw [List.take_add_one, List.getElem?_eq_getElem hl]; rfl
    have e2 : oi.take (O + 1) = oi.take O ++ [oi[O]] := by
      rw [List.take_add_one, List.getElem?_eq_getElem hl']; rfl
    rw [e1, e2]
    refine ⟨(valid_append ih1.length).2 ⟨ih1, by simp; omega⟩, ?_⟩
    rw [rowMajor_append ih1.length, value, ih2, hd, ho, show max D[O] 1 = D[O] by omega]
    simp [size, rowMajor]

theorem outer_dot {D oi : List Nat} {O : Nat} (h : Outer D O oi) (st : List Int) :
    dot st oi = dot st (oi.take O) := by
  have : oi = oi.take O ++ List.replicate (oi.length - O) 0 := by
    apply List.ext_getElem?
    intro i
    by_cases hi : i < O
    · have := h.1
      rw [List.getElem?_append_left (by rw [List.length_take]; omega), List.getElem?_take_of_lt hi]
    · have hl : (oi.take O).length = O := by rw [List.length_take]; have := h.1; omega
      rw [List.getElem?_append_right (by omega), hl, List.getElem?_replicate]
      by_cases hi' : i < oi.length
      · rw [if_pos (by omega)]
        have := h.2.2 i (by omega)
        simp only [List.getD, List.getElem?_eq_getElem hi', Option.getD_some] at this
        rw [List.getElem?_eq_getElem hi', this]
      · rw [if_neg (by omega), List.getElem?_eq_none (by omega)]
  conv_lhs => rw [this]
  rw [Iter.dot_append_zeros]

theorem dot_all_zero {st : List Int} {l : List Nat} (h : ∀ i, l.getD i 0 = 0) : dot st l = 0 := by
  have := outer_dot (D := []) (O := 0) (oi := l) ⟨Nat.zero_le _, fun i hi => absurd hi (by omega), fun i _ => h i⟩ st
  rw [this, List.take_zero, dot_nil_right]

theorem zipRank_le {m : Mapping} {k j : Nat} (h : Expr.mapInnerRank m = some j) : zipRank m k ≤ j := by
  unfold zipRank
  rw [h]
  exact Nat.min_le_left _ _

/-- The position of item `i` in a row. -/
theorem index_outer {v : View} (hv : v.map.WF) {k i : Nat} {oi : List Nat}
    (hsz : 0 < size v.dims) (h : Outer v.dims (v.dims.length - zipRank v.map k) oi)
    (hi : i < size (v.dims.drop (v.dims.length - zipRank v.map k))) :
    v.index (unrank v.dims (value v.dims oi (v.dims.length - zipRank v.map k) *
      size (v.dims.drop (v.dims.length - zipRank v.map k)) + i)) =
      some (v.ptr + dot v.map.strides oi + v.map.innerStride * (i : Int)) := by
  generalize hO : v.dims.length - zipRank v.map k = O at *
  have hOl : O ≤ v.dims.length := by omega
  obtain ⟨h1, h2⟩ := outer_valid hsz hOl h
  have hlt := rowMajor_lt h1
  obtain ⟨b1, b2⟩ := unrank_block (A := v.dims.take O) (B := v.dims.drop O) hlt hi
  rw [List.take_append_drop] at b1 b2
  rw [h2, b2, unrank_rowMajor h1, View.index_eq v hv, if_pos, outer_dot h, Int.add_assoc]
  · congr 2
    have := Expr.own_dot (m := v.map) hv (D := v.dims) (pos := oi.take O) (O := O) (c := i)
      (by show v.dims = v.dims.drop (v.dims.length - v.dims.length); simp)
      (fun j hj => by have := zipRank_le (k := k) hj; omega) hOl (by rw [List.length_take]; have := h.1; omega) hi
    have e : v.dims.length - v.map.dims.length = 0 := Nat.sub_self _
    rw [e, List.drop_zero, List.drop_zero] at this
    exact this
  · conv_lhs => rw [← List.take_append_drop O v.dims]
    exact (valid_append h1.length).2 ⟨h1, unrank_valid hi⟩

section
variable {v : View} {S su : Shape} {u : UserExpr σ α} {k : Nat} {J : σ × ρ → Prop} {R : σ × ρ → Prop}

theorem post_upJ {x : M σ α} {w : (σ × ρ) × Int} {Q : α → σ × ρ → Prop}
    (h : M.Post (M.up x : M (σ × ρ) α) w.1 Q R) :
    M.Post (M.up (M.up x)) w (fun a w' => w'.2 = w.2 ∧ Q a w'.1) fun w' => R w'.1 := by
  obtain ⟨w, p⟩ := w
  exact M.post_up (h.mono (fun _ _ q => ⟨rfl, q⟩) fun _ q => q)

theorem up_rank : (M.up u.rank : M (σ × ρ) Nat) = u.up.rank := by
  funext w
  show M.up (M.bind u.shape _) w = M.bind (M.up u.shape) _ w
  unfold M.up M.bind
  dsimp only
  cases u.shape w.1 <;> rfl

theorem post_down {x : M σ α} {w : σ} {r : ρ} {Q : α → σ × ρ → Prop} (h : M.Post (M.up x) (w, r) Q R) :
    M.Post x w (fun a w' => Q a (w', r)) fun w' => R (w', r) := by
  unfold M.Post M.up at *
  dsimp only at h
  cases hx : x w <;> simp only [hx] at h ⊢ <;> exact h

theorem Runs.down (h : Runs u.up su k J R) (r : ρ) : Runs u su k (fun w => J (w, r)) fun w => R (w, r) where
  shape w hw := post_down (h.shape (w, r) hw)
  innerRank w hw := post_down (h.innerRank (w, r) hw)
  resetDim i n w hw := post_down (h.resetDim i n (w, r) hw)
  stepDim i w hw := post_down (h.stepDim i (w, r) hw)
  panic _ hw := h.panic _ hw

/-- What `Zip::new` ensures, for an expression which does not change its shape. -/
theorem post_zipNew {u : UserExpr σ α} {J R : σ → Prop} (hr : Runs u su k J R) (rep : Bool) {w : σ} (hw : J w) :
    M.Post (u.zipNew v rep) w (fun s w' => (su.dims <:+ v.dims ∧ (rep = false → su.dims = v.dims)) ∧
      s.dims = v.dims ∧ J w') R := by
  refine M.Post.bind (hr.rank hw) ?_
  rintro r w ⟨rfl, hw⟩
  refine M.Post.bind (P := fun _ w' => su.rank ≤ v.map.rank ∧ J w')
    (M.post_lift (fun _ h => ⟨check_eq_some.1 h, hw⟩) fun _ => hr.panic _ hw) ?_
  rintro _ w ⟨h1, hw⟩
  refine M.Post.bind (P := fun _ w' => (rep = false → v.map.rank ≤ su.rank) ∧ J w') ?_ ?_
  · unfold zipCheck
    cases rep with
    | true => exact ⟨nofun, hw⟩
    | false =>
      refine M.Post.bind (hr.rank hw) ?_
      rintro r w ⟨rfl, hw⟩
      exact M.post_lift (fun _ h => ⟨fun _ => check_eq_some.1 h, hw⟩) fun _ => hr.panic _ hw
  rintro _ w ⟨h2, hw⟩
  refine M.Post.bind (hr.shape w hw) ?_
  rintro t w ⟨rfl, hw⟩
  have h1 : t.dims.length ≤ v.dims.length := h1
  rw [if_neg (by omega)]
  refine M.Post.bind (P := fun _ w' => v.dims.drop (v.dims.length - t.dims.length) = t.dims ∧ J w')
    (M.post_lift (fun _ h => ⟨?_, hw⟩) fun _ => hr.panic _ hw) ?_
  · have := check_eq_some.1 h
    rwa [Nat.sub_self, List.drop_zero] at this
  rintro _ w ⟨h3, hw⟩
  refine M.post_lift (fun s h => ⟨⟨?_, fun hf => ?_⟩, ?_, hw⟩) fun _ => hr.panic _ hw
  · rw [List.suffix_iff_eq_drop]; exact h3.symm
  · have h2 : v.dims.length ≤ t.dims.length := h2 hf
    rw [← h3, show v.dims.length - t.dims.length = 0 by omega, List.drop_zero]
  · rw [Shape.fromDims_eq] at h
    split at h
    · injection h with h
      rw [← h]
    · cases h

theorem post_zipDim (hr : Runs u.up su k J R) (hS : S.dims = v.dims) (hv : v.map.WF) {i : Nat} (hi : i < v.dims.length)
    {f : Nat → M σ Unit} (hf : ∀ j w, J w → M.Post (M.up (f j)) w (fun _ w' => J w') R) (n : Int)
    {w : (σ × ρ) × Int} (hw : J w.1) :
    M.Post (zipDim v S u i n f) w
      (fun _ w' => w'.2 = w.2 + v.map.strides.getD i 0 * n ∧ J w'.1) fun w' => R w'.1 := by
  have hrank : v.map.rank = v.dims.length := rfl
  have hSr : S.rank = v.dims.length := by show S.dims.length = _; rw [hS]
  have hst : v.map.stride i = some (v.map.strides.getD i 0) := by
    have hl : i < v.map.strides.length := by rw [hv.len]; exact hi
    rw [Mapping.stride_eq _ hv, List.getElem?_eq_getElem hl]
    simp [List.getD, hl]
  have hrk : ∀ w : (σ × ρ) × Int, J w.1 → M.Post (M.up (M.up u.rank)) w
      (fun a w' => w'.2 = w.2 ∧ a = su.rank ∧ J w'.1) fun w' => R w'.1 := by
    intro w hw
    refine post_upJ (Q := fun a w' => a = su.rank ∧ J w') ?_
    rw [up_rank]
    exact hr.rank hw
  unfold zipDim
  rw [hSr, hrank, if_pos (Nat.sub_le _ _), show v.dims.length - (v.dims.length - i) = i by omega]
  show M.Post (M.bind (zipMove v i n) fun _ => M.bind (M.up (M.up u.rank)) _) w _ _
  refine M.Post.bind (P := fun _ w' => w'.2 = w.2 + v.map.strides.getD i 0 * n ∧ J w'.1) ?_ ?_
  · unfold M.Post zipMove
    rw [hst]
    exact ⟨rfl, hw⟩
  rintro _ w1 ⟨e1, hw1⟩
  refine M.Post.bind (hrk w1 hw1) ?_
  rintro r w2 ⟨e2, rfl, hw2⟩
  by_cases hc : v.dims.length - i ≤ su.rank
  · show M.Post (if v.dims.length - i ≤ su.rank then _ else _ : M ((σ × ρ) × Int) Unit) w2 _ _
    rw [if_pos hc]
    refine M.Post.bind (hrk w2 hw2) ?_
    rintro r w3 ⟨e3, rfl, hw3⟩
    rw [show check (v.dims.length - i ≤ su.rank) = some () from if_pos hc]
    show M.Post (M.up (M.up (f _))) w3 _ _
    refine (post_upJ (hf _ _ hw3)).mono ?_ fun _ q => q
    rintro _ w4 ⟨e4, hw4⟩
    exact ⟨by rw [e4, e3, e2, e1], hw4⟩
  · show M.Post (if v.dims.length - i ≤ su.rank then _ else _ : M ((σ × ρ) × Int) Unit) w2 _ _
    rw [if_neg hc]
    exact ⟨by rw [e2, e1], hw2⟩

end

section
variable {v : View} {S su : Shape} {u : UserExpr σ α} {k : Nat} {J : Nat → σ × ρ → Prop} {R : σ × ρ → Prop}

/-- `zipView` never changes its shape and inner rank. -/
theorem runs_zip (h : SafeCode u) (hk : ∀ w a w', u.innerRank w = .ok a w' → a = k) :
    Runs (zipView v S u : UserExpr ((σ × ρ) × Int) (Int × α)) S (zipRank v.map k) (fun _ => True) fun _ => True := by
  have up : ∀ {β : Type} {x : M σ β} (_ : x.Tame) (w : (σ × ρ) × Int),
      M.Post (M.up (M.up x)) w (fun _ _ => True) fun _ => True := by
    rintro β x hx ⟨⟨w, r⟩, p⟩
    exact M.post_up (M.post_up ((hx w).mono (fun _ _ _ => trivial) fun _ _ => trivial))
  have dim : ∀ i n (f : Nat → M σ Unit), (∀ j, (f j).Tame) → ∀ w : (σ × ρ) × Int,
      M.Post (zipDim v S u i n f) w (fun _ _ => True) fun _ => True := by
    intro i n f hf w
    have rank : ∀ w : (σ × ρ) × Int, M.Post (M.up (M.up u.rank)) w (fun _ _ => True) fun _ => True :=
      up fun w => SafeCode.rank h w
    have rest : ∀ w : (σ × ρ) × Int, M.Post (M.bind (M.up (M.up u.rank)) fun r =>
        if S.rank - i ≤ r then M.bind (M.up (M.up u.rank)) fun r => M.bind (M.lift (check (S.rank - i ≤ r))) fun _ =>
          M.up (M.up (f (r - (S.rank - i)))) else M.pure ()) w (fun _ _ => True) fun _ => True := by
      intro w
      refine M.Post.bind (rank w) fun r w _ => ?_
      split
      · refine M.Post.bind (rank w) fun r w _ => M.Post.bind (P := fun _ _ => True)
          (M.post_lift (fun _ _ => trivial) fun _ => trivial) fun _ w _ => up (hf _) w
      · trivial
    unfold zipDim
    dsimp only
    split
    · refine M.Post.bind (P := fun _ _ => True) ?_ fun _ w _ => rest w
      unfold M.Post zipMove
      cases v.map.stride (v.map.rank - (S.rank - i)) <;> trivial
    · exact rest w
  refine ⟨fun w _ => ⟨rfl, trivial⟩, ?_, fun i n w _ => dim _ _ _ (fun j => h.resetDim j n) w,
    fun i w _ => dim _ _ _ h.stepDim w, fun _ _ => trivial⟩
  rintro ⟨⟨w, r⟩, p⟩ -
  refine M.Post.bind (P := fun a _ => a = k) ?_ fun a w e => ⟨by rw [e], trivial⟩
  refine M.post_up (M.post_up (((h.innerRank).post w).mono (fun a w' e => hk _ _ _ e) fun _ _ => trivial))

/-- The view and the expression are evaluated together: the pointer follows the outer index. -/
theorem runsAt_zip (h : SafeCode u) (hk : ∀ w a w', u.innerRank w = .ok a w' → a = k) (hv : v.map.WF)
    (hS : S.dims = v.dims) (hr : ∀ n, Runs u.up su k (J n) R) :
    RunsAt (zipView v S u : UserExpr ((σ × ρ) × Int) (Int × α)) S (zipRank v.map k)
      (fun n oi w => w.2 = v.ptr + dot v.map.strides oi ∧ J n w.1) fun w => R w.1 where
  run := runs_zip h hk
  shape n oi w hw := hw
  innerRank := by
    rintro n oi w ⟨e, hw⟩
    refine M.Post.bind (post_upJ ((hr n).innerRank w.1 hw)) ?_
    rintro a w' ⟨e', -, hw'⟩
    exact ⟨by rw [e', e], hw'⟩
  same := by
    rintro n oi w hpos ⟨e, hw⟩
    have hpos : 0 < S.dims.length := hpos
    rw [hS] at hpos
    have hlt : S.rank - 1 < v.dims.length := by show S.dims.length - 1 < _; rw [hS]; omega
    refine (post_zipDim (hr n) hS hv hlt (fun j w hw => (hr n).resetDim j 0 w hw) (-((0 : Nat) : Int)) hw).mono ?_
      fun _ q => q
    rintro _ w' ⟨e', hw'⟩
    refine ⟨?_, hw'⟩
    rw [e', e]
    simp
  resetDim := by
    rintro n oi i w hi hl ⟨e, hw⟩
    have hi : i < S.dims.length := hi
    rw [hS] at hi
    refine (post_zipDim (hr n) hS hv hi (fun j w hw => (hr n).resetDim j _ w hw) _ hw).mono ?_ fun _ q => q
    rintro _ w' ⟨e', hw'⟩
    refine ⟨?_, hw'⟩
    have hs : i < v.map.strides.length := by rw [hv.len]; exact hi
    rw [e', e, dot_set _ _ _ _ hl hs]
    simp [List.getD, hl, hs]
    ring
  stepDim := by
    rintro n oi i w hi hl ⟨e, hw⟩
    have hi : i < S.dims.length := hi
    rw [hS] at hi
    refine (post_zipDim (hr n) hS hv hi (fun j w hw => (hr n).stepDim j w hw) 1 hw).mono ?_ fun _ q => q
    rintro _ w' ⟨e', hw'⟩
    refine ⟨?_, hw'⟩
    have hs : i < v.map.strides.length := by rw [hv.len]; exact hi
    rw [e', e, dot_set _ _ _ _ hl hs]
    simp [List.getD, hl, hs]
    ring
  panic n oi w hw := (hr n).panic _ hw.2


variable {f : Int × α → M (σ × ρ) Unit}

/-- The closure of `for_each` is called with the position of each element of the view in turn. -/
theorem post_zipForEach (h : SafeCode u) (hk : ∀ w a w', u.innerRank w = .ok a w' → a = k) (hv : v.map.WF) (rep : Bool)
    (hp : size v.dims = 0 → size (v.dims.drop (v.dims.length - zipRank v.map k)) = 0)
    (hr : ∀ n, Runs u.up su k (J n) R)
    (hb : ∀ n, n < size v.dims → ∀ p, v.index (unrank v.dims n) = some p → ∀ i w, J n w →
      M.Post (M.bind (M.up (u.get i)) fun x => f (p, x)) w (fun _ w' => J (n + 1) w') R)
    {w : σ × ρ} (hw : J 0 w) :
    M.Post (u.zipForEach v rep f) w (fun _ w' => (su.dims <:+ v.dims ∧ (rep = false → su.dims = v.dims)) ∧
      J (size v.dims) w') R := by
  obtain ⟨w, r⟩ := w
  refine M.Post.bind (M.post_up (r := r) (Q := fun s w' => (su.dims <:+ v.dims ∧ (rep = false → su.dims = v.dims)) ∧
      s.dims = v.dims ∧ J 0 w') (R := R) (post_zipNew ((hr 0).down r) rep hw)) ?_
  rintro S w ⟨hsu, hS, hw⟩
  have hSr : S.rank = v.dims.length := by show S.dims.length = _; rw [hS]
  refine M.Post.bind (P := fun _ w' => J (size v.dims) w') ?_ fun _ w hw => ⟨hsu, hw⟩
  refine M.post_scope ?_
  have hc : calls S (zipRank v.map k) = size v.dims := by
    rw [calls_eq, hS]
    rw [hSr, hS]; exact hp
  refine (post_foldAt (u := (zipView v S u : UserExpr ((σ × ρ) × Int) (Int × α))) (runsAt_zip h hk hv hS hr)
    (f := fun x => M.up (f x)) ?_ ?_ (w := (w, v.ptr)) ?_).mono ?_ fun _ q => q
  · rintro oi oi' w h1 h2 ⟨e, hw⟩
    refine ⟨?_, hw⟩
    rw [e, dot_all_zero h1, dot_all_zero h2]
  · rw [hSr, hS]
    rintro oi ho i ⟨w, p⟩ hi ⟨e, hw⟩
    have hsz : 0 < size v.dims := Nat.pos_of_ne_zero fun hz => by rw [hp hz] at hi; omega
    have hidx := index_outer hv hsz ho hi
    generalize hn : value v.dims oi (v.dims.length - zipRank v.map k) *
      size (v.dims.drop (v.dims.length - zipRank v.map k)) + i = n at *
    have e : p = v.ptr + dot v.map.strides oi := e
    have hlt : n < size v.dims := by
      obtain ⟨o1, o2⟩ := outer_valid hsz (Nat.sub_le _ _) ho
      have := (unrank_block (A := v.dims.take (v.dims.length - zipRank v.map k))
        (B := v.dims.drop (v.dims.length - zipRank v.map k)) (rowMajor_lt o1) hi).1
      rw [List.take_append_drop, ← o2, hn] at this
      exact this
    have hbody := hb n hlt _ hidx i w hw
    rw [← e] at hbody ⊢
    have hg : M.bind ((zipView v S u : UserExpr ((σ × ρ) × Int) (Int × α)).get i) (fun x => M.up (f x)) (w, p) =
        M.up (M.bind (M.up (u.get i)) fun x => f (p + v.map.innerStride * (i : Int), x)) (w, p) := by
      rw [M.up_bind]
      show M.bind (fun w => M.bind (M.up (M.up (u.get i)))
        (fun x => M.pure (w.2 + v.map.innerStride * (i : Int), x)) w) _ (w, p) = _
      unfold M.bind M.up M.pure
      dsimp only
      cases u.get i w.1 <;> rfl
    unfold M.Post
    rw [hg]
    exact M.post_up (hbody.mono (fun _ w' q => ⟨rfl, q⟩) fun _ q => q)
  · exact ⟨by rw [dot_nil_right, Int.add_zero], hw⟩
  · rintro _ ⟨w, p⟩ ⟨oi, -, q⟩
    rw [← hc]; exact q

end
end UserExpr
end Model
