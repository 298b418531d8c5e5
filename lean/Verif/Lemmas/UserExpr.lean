import Verif.Spec.UserExpr
import Verif.Lemmas.TensorOps

/-!
Evaluating expressions defined outside of the crate.
-/

namespace Model
open Spec

variable {σ ρ T α : Type}

namespace UserExpr

/-! The outer index as a number. -/

/-- The outer index as a number, from its first `n` digits. -/
def value (limit : List Nat) (oi : List Nat) : Nat → Nat
  | 0 => 0
  | n + 1 => value limit oi n * max (limit.getD n 0) 1 + oi.getD n 0

/-- The number of values of the first `n` digits. -/
def count (limit : List Nat) : Nat → Nat
  | 0 => 1
  | n + 1 => count limit n * max (limit.getD n 0) 1

/-- All digits are within the limits. -/
def Digits (limit oi : List Nat) : Prop := ∀ i, oi.getD i 0 < max (limit.getD i 0) 1

theorem value_congr {limit a b : List Nat} {n : Nat} (h : ∀ i, i < n → a.getD i 0 = b.getD i 0) :
    value limit a n = value limit b n := by
  induction n with
  | zero => rfl
  | succ n ih =>
    rw [value, value, ih fun i hi => h i (by omega), h n (by omega)]

theorem value_lt {limit oi : List Nat} (h : Digits limit oi) (n : Nat) :
    value limit oi n < count limit n := by
  induction n with
  | zero => exact Nat.one_pos
  | succ n ih =>
    rw [value, count]
    have := h n
    calc value limit oi n * max (limit.getD n 0) 1 + oi.getD n 0
        < value limit oi n * max (limit.getD n 0) 1 + max (limit.getD n 0) 1 := by omega
      _ = (value limit oi n + 1) * max (limit.getD n 0) 1 := by rw [Nat.add_mul, Nat.one_mul]
      _ ≤ _ := Nat.mul_le_mul_right _ ih

theorem value_mono {limit a b : List Nat} {n m : Nat} (hm : n ≤ m) (hv : value limit a n < value limit b n)
    (h : ∀ i, n ≤ i → a.getD i 0 = b.getD i 0) : value limit a m < value limit b m := by
  induction m with
  | zero => have : n = 0 := by omega
            subst this; exact hv
  | succ m ih =>
    by_cases hn : n = m + 1
    · subst hn; exact hv
    · have := ih (by omega)
      rw [value, value, h m (by omega)]
      have h1 : 0 < max (limit.getD m 0) 1 := by omega
      have := Nat.mul_lt_mul_of_pos_right this h1
      omega

theorem getD_set {l : List Nat} {i j x : Nat} (hi : i < l.length) :
    (l.set i x).getD j 0 = if j = i then x else l.getD j 0 := by
  by_cases h : j = i
  · subst h; simp [List.getD, hi]
  · rw [if_neg h]
    simp only [List.getD]
    rw [List.getElem?_set_ne (by omega)]

theorem getD_map_zero (l : List Nat) (i : Nat) : (l.map fun _ => 0).getD i 0 = 0 := by
  simp only [List.getD, List.getElem?_map]
  cases l[i]? <;> rfl

/-- What `step_outer` does with the first `n` digits. -/
def Stepped (limit oi : List Nat) (n : Nat) (q : Bool × List Nat) : Prop :=
  q.2.length = oi.length ∧ Digits limit q.2 ∧ n ≤ oi.length ∧ n ≤ limit.length ∧
    if q.1 then value limit q.2 n = value limit oi n + 1 ∧ ∀ i, n ≤ i → q.2.getD i 0 = oi.getD i 0
    else value limit oi n + 1 = count limit n

theorem post_stepLoop {u : UserExpr σ α} {limit : List Nat} {I : σ → Prop} {R : σ → Prop}
    (hr : ∀ i n w, I w → M.Post (u.resetDim i n) w (fun _ w' => I w') R)
    (hs : ∀ i w, I w → M.Post (u.stepDim i) w (fun _ w' => I w') R)
    (hp : ∀ w, I w → R w) (n : Nat) :
    ∀ (oi : List Nat) (w : σ), Digits limit oi → I w →
      M.Post (u.stepLoop limit n oi) w (fun q w' => Stepped limit oi n q ∧ I w') R := by
  induction n with
  | zero =>
    intro oi w hd hw
    refine ⟨⟨by simp, fun i => ?_, Nat.zero_le _, Nat.zero_le _, ?_⟩, hw⟩
    · show (oi.map fun _ => 0).getD i 0 < _
      rw [getD_map_zero]; omega
    · show 0 + 1 = 1; rfl
  | succ n ih =>
    intro oi w hd hw
    refine M.Post.bind (P := fun x w' => w' = w ∧ oi[n]? = some x)
      (M.post_lift (fun x h => ⟨rfl, h⟩) fun _ => hp _ hw) ?_
    rintro x _ ⟨rfl, hx⟩
    rename_i w
    refine M.Post.bind (P := fun x w' => w' = w ∧ limit[n]? = some x)
      (M.post_lift (fun x h => ⟨rfl, h⟩) fun _ => hp _ hw) ?_
    rintro l _ ⟨rfl, hl⟩
    rename_i w
    have hn : n < oi.length := (List.getElem?_eq_some_iff.1 hx).1
    have hn' : n < limit.length := (List.getElem?_eq_some_iff.1 hl).1
    have hxd : oi.getD n 0 = x := by simp [List.getD, hx]
    have hld : limit.getD n 0 = l := by simp [List.getD, hl]
    have hlt := hd n
    rw [hxd, hld] at hlt
    by_cases hc : x + 1 < l
    · rw [if_pos hc]
      refine M.Post.bind (hs n w hw) fun _ w' hw' => ?_
      refine ⟨⟨by simp, fun i => ?_, hn, hn', ?_, ?_⟩, hw'⟩
      · show (oi.set n (x + 1)).getD i 0 < _
        rw [getD_set hn]
        split
        · subst_vars; omega
        · exact hd i
      · show value limit (oi.set n (x + 1)) (n + 1) = _
        rw [value, value, getD_set hn, if_pos rfl, hxd, value_congr (b := oi) fun i hi => by
          rw [getD_set hn, if_neg (by omega)]]
        omega
      · intro i hi
        show (oi.set n (x + 1)).getD i 0 = _
        rw [getD_set hn, if_neg (by omega)]
    · rw [if_neg hc]
      refine M.Post.bind (hr n x w hw) fun _ w' hw' => ?_
      have hd0 : Digits limit (oi.set n 0) := by
        intro i
        rw [getD_set hn]
        split
        · omega
        · exact hd i
      refine (ih (oi.set n 0) w' hd0 hw').mono ?_ fun _ h => h
      rintro ⟨b, q⟩ w'' ⟨⟨h1, h2, -, -, h3⟩, h4⟩
      refine ⟨⟨by simpa using h1, h2, hn, hn', ?_⟩, h4⟩
      have hv : value limit (oi.set n 0) n = value limit oi n :=
        value_congr fun i hi => by rw [getD_set hn, if_neg (by omega)]
      have hL : max l 1 = x + 1 := by omega
      cases b with
      | true =>
        obtain ⟨h3, h5⟩ := h3
        refine ⟨?_, fun i hi => ?_⟩
        · have e := h5 n (Nat.le_refl n)
          rw [getD_set hn, if_pos rfl] at e
          show value limit q (n + 1) = _
          dsimp only at h3 e
          rw [value, value, h3, hv, e, hxd, hld, hL, Nat.add_mul]
          omega
        · have e := h5 i (by omega)
          rw [getD_set hn, if_neg (by omega)] at e
          exact e
      | false =>
        show value limit oi (n + 1) + 1 = count limit (n + 1)
        have h3 : value limit (oi.set n 0) n + 1 = count limit n := h3
        rw [value, count, ← h3, hv, hxd, hld, hL, Nat.add_mul]
        omega

/-! Expressions which do not change their shape. -/

/-- The functions of the expression keep `I`, where those about the shape return `s` and `k`. -/
structure Runs (u : UserExpr σ α) (s : Shape) (k : Nat) (I : σ → Prop) (R : σ → Prop) : Prop where
  shape : ∀ w, I w → M.Post u.shape w (fun a w' => a = s ∧ I w') R
  innerRank : ∀ w, I w → M.Post u.innerRank w (fun a w' => a = k ∧ I w') R
  resetDim : ∀ i n w, I w → M.Post (u.resetDim i n) w (fun _ w' => I w') R
  stepDim : ∀ i w, I w → M.Post (u.stepDim i) w (fun _ w' => I w') R
  panic : ∀ w, I w → R w

section
variable {u : UserExpr σ α} {s : Shape} {k : Nat} {I : σ → Prop} {R : σ → Prop}

theorem Runs.rank (h : Runs u s k I R) {w : σ} (hw : I w) :
    M.Post u.rank w (fun a w' => a = s.rank ∧ I w') R := by
  refine M.Post.bind (h.shape w hw) ?_
  rintro a w' ⟨rfl, hw'⟩
  exact ⟨rfl, hw'⟩

theorem Runs.len (h : Runs u s k I R) {w : σ} (hw : I w) :
    M.Post u.len w (fun a w' => a = s.len ∧ I w') R := by
  refine M.Post.bind (h.shape w hw) ?_
  rintro a w' ⟨rfl, hw'⟩
  exact ⟨rfl, hw'⟩

theorem Runs.outerRank (h : Runs u s k I R) {w : σ} (hw : I w) :
    M.Post u.outerRank w (fun a w' => a = s.rank - k ∧ I w') R := by
  refine M.Post.bind (h.rank hw) ?_
  rintro a w' ⟨rfl, hw'⟩
  refine M.Post.bind (h.innerRank w' hw') ?_
  rintro a w' ⟨rfl, hw'⟩
  exact ⟨rfl, hw'⟩

theorem Runs.stepOuter (h : Runs u s k I R) {limit oi : List Nat} {w : σ} (hd : Digits limit oi) (hw : I w) :
    M.Post (u.stepOuter limit oi) w (fun q w' => Stepped limit oi (s.rank - k) q ∧ I w') R := by
  refine M.Post.bind (h.outerRank hw) ?_
  rintro a w' ⟨rfl, hw'⟩
  refine M.Post.bind (h.rank hw') ?_
  rintro a w' ⟨rfl, hw'⟩
  have key : ∀ w, I w → M.Post (u.stepLoop limit (s.rank - k) oi) w
      (fun q w' => Stepped limit oi (s.rank - k) q ∧ I w') R := fun w hw =>
    post_stepLoop h.resetDim h.stepDim h.panic _ oi w hd hw
  by_cases hc : s.rank - k < s.rank
  · simp only [if_pos hc]
    refine M.Post.bind (h.rank hw') ?_
    rintro a w' ⟨rfl, hw'⟩
    rw [show check (0 < s.rank) = some () from if_pos (by omega)]
    show M.Post (M.bind (u.resetDim (s.rank - 1) 0) fun _ => u.stepLoop limit (s.rank - k) oi) w' _ _
    exact M.Post.bind (h.resetDim _ _ w' hw') fun _ w hw => key w hw
  · simp only [if_neg hc]
    exact key w' hw'

end

theorem count_le (limit : List Nat) {n m : Nat} (h : n ≤ m) : count limit n ≤ count limit m := by
  induction m with
  | zero => have : n = 0 := by omega
            subst this; exact Nat.le_refl _
  | succ m ih =>
    by_cases hn : n = m + 1
    · subst hn; exact Nat.le_refl _
    · refine Nat.le_trans (ih (by omega)) ?_
      rw [count]
      exact Nat.le_mul_of_pos_right _ (by omega)

theorem foldl_mul (l : List Nat) (a : Nat) : l.foldl (· * ·) a = a * size l := by
  induction l generalizing a with
  | nil => simp [size]
  | cons x l ih => rw [List.foldl_cons, ih]; simp [size, Nat.mul_assoc]

theorem count_eq (limit : List Nat) (n : Nat) (hn : n ≤ limit.length) :
    count limit n = size ((limit.take n).map fun d => max d 1) := by
  induction n with
  | zero => rfl
  | succ n ih =>
    have hn' : n < limit.length := hn
    rw [count, ih (by omega), List.take_add_one, List.map_append]
    simp only [List.getElem?_eq_getElem hn', List.getD, Option.getD_some, Option.toList_some, List.map_cons, List.map_nil]
    simp [size]

/-- Number of calls of `get_unchecked` when an expression with shape `s` and inner rank `k` is evaluated. -/
def calls (s : Shape) (k : Nat) : Nat :=
  count s.dims (s.rank - k) * size (s.dims.drop (s.rank - k))

theorem outerCount_eq (it : UserIter) :
    outerCount it = count it.outerLimit (min it.outerIndex.length it.outerLimit.length) := by
  unfold outerCount
  rw [foldl_mul, Nat.one_mul, count_eq _ _ (Nat.min_le_right _ _)]
  congr 2
  rcases Nat.le_total it.outerIndex.length it.outerLimit.length with h | h
  · rw [Nat.min_eq_left h]
  · rw [Nat.min_eq_right h, List.take_of_length_le h, List.take_length]

theorem count_pos (limit : List Nat) (n : Nat) : 0 < count limit n := count_le limit (Nat.zero_le n)

section
variable {u : UserExpr σ α} {s : Shape} {k : Nat} {I : Nat → σ → Prop} {R : σ → Prop} {f : α → M σ Unit} {N : Nat}

theorem post_innerLoop (hb : ∀ n, n < N → ∀ i w, I n w →
      M.Post (M.bind (u.get i) f) w (fun _ w' => I (n + 1) w') R) (is : List Nat) :
    ∀ n w, n + is.length ≤ N → I n w →
      M.Post (innerLoop u (fun _ x => f x) is ()) w (fun _ w' => I (n + is.length) w') R := by
  induction is with
  | nil => intro n w _ hw; exact hw
  | cons i is ih =>
    intro n w hn hw
    rw [List.length_cons] at hn
    show M.Post (M.bind (u.get i) fun x => M.bind (f x) fun acc => innerLoop u (fun _ x => f x) is acc) w _ _
    rw [← M.bind_assoc]
    refine M.Post.bind (hb n (by omega) i w hw) fun _ w' hw' => (ih (n + 1) w' (by omega) hw').mono ?_ fun _ h => h
    intro _ w h
    rw [List.length_cons, Nat.add_comm is.length 1, ← Nat.add_assoc]
    exact h

theorem post_foldLoop (hu : ∀ n, Runs u s k (I n) R) {limit : List Nat} {r : Nat}
    (hN : N = count limit (s.rank - k) * r)
    (hb : ∀ n, n < N → ∀ i w, I n w → M.Post (M.bind (u.get i) f) w (fun _ w' => I (n + 1) w') R) (fuel : Nat) :
    ∀ oi w, Digits limit oi → count limit (s.rank - k) ≤ fuel + value limit oi (s.rank - k) →
      I (value limit oi (s.rank - k) * r) w →
      M.Post (foldLoop u (fun _ x => f x) fuel ⟨0, r, oi, limit⟩ ()) w (fun _ w' => I N w') R := by
  induction fuel with
  | zero =>
    intro oi w hd hf
    have := value_lt hd (s.rank - k)
    omega
  | succ fuel ih =>
    intro oi w hd hf hw
    have hv := value_lt hd (s.rank - k)
    have hle : (value limit oi (s.rank - k) + 1) * r ≤ N := by rw [hN]; exact Nat.mul_le_mul_right _ hv
    rw [Nat.add_mul, Nat.one_mul] at hle
    refine M.Post.bind (post_innerLoop hb (List.range' 0 (r - 0)) _ w (by simpa using hle) hw) fun _ w hw => ?_
    rw [List.length_range', Nat.sub_zero] at hw
    refine M.Post.bind ((hu _).stepOuter hd hw) ?_
    rintro ⟨b, oi'⟩ w' ⟨⟨-, h1, -, -, h2⟩, hw'⟩
    cases b with
    | true =>
      obtain ⟨h2, -⟩ := h2
      have h2 : value limit oi' (s.rank - k) = value limit oi (s.rank - k) + 1 := h2
      refine ih oi' w' h1 (by omega) ?_
      rw [h2, Nat.add_mul, Nat.one_mul]
      exact hw'
    | false =>
      have h2 : value limit oi (s.rank - k) + 1 = count limit (s.rank - k) := h2
      show I N w'
      rw [hN, ← h2, Nat.add_mul, Nat.one_mul]
      exact hw'

theorem getD_replicate_zero (n i : Nat) : (List.replicate n 0).getD i 0 = 0 := by
  simp only [List.getD, List.getElem?_replicate]
  split <;> rfl

theorem value_zero {limit oi : List Nat} (h : ∀ i, oi.getD i 0 = 0) (n : Nat) : value limit oi n = 0 := by
  induction n with
  | zero => rfl
  | succ n ih => rw [value, ih, h]; simp

theorem getD_defaultDims (ty : ShapeTy) (i : Nat) : (defaultDims ty).getD i 0 = 0 := by
  cases ty with
  | static ds =>
    simp only [defaultDims, List.getD, List.getElem?_map]
    cases ds[i]? <;> rfl
  | dynRank => rfl

/-- Evaluating an expression which does not change its shape: an invariant indexed by the number of items. -/
theorem post_fold (hu : ∀ n, Runs u s k (I n) R)
    (hb : ∀ n, n < calls s k → ∀ i w, I n w → M.Post (M.bind (u.get i) f) w (fun _ w' => I (n + 1) w') R)
    {w : σ} (hw : I 0 w) : M.Post (u.fold () fun _ x => f x) w (fun _ w' => I (calls s k) w') R := by
  have h := hu 0
  have key : ∀ it w, it.innerIndex = 0 → it.innerLimit = size (s.dims.drop (s.rank - k)) →
      (∀ i, it.outerIndex.getD i 0 = 0) → count it.outerLimit (s.rank - k) = count s.dims (s.rank - k) →
      count s.dims (s.rank - k) ≤ outerCount it → I 0 w →
      M.Post (u.foldLoop (fun _ x => f x) (outerCount it) it ()) w (fun _ w' => I (calls s k) w') R := by
    rintro ⟨ii, il, oi, ol⟩ w h1 h2 h3 h4 h5 hw
    dsimp only at h1 h2 h3 h4
    subst h1
    subst h2
    have hz := value_zero (limit := ol) h3 (s.rank - k)
    refine post_foldLoop (s := s) (k := k) (N := calls s k) hu (by rw [h4]; rfl) hb _ oi w
      (fun i => by rw [h3]; omega) (by rw [h4]; omega) ?_
    rw [hz, Nat.zero_mul]
    exact hw
  show M.Post (M.bind (M.bind u.outerRank _) _) w _ _
  rw [M.bind_assoc]
  refine M.Post.bind (h.outerRank hw) ?_
  rintro o w' ⟨rfl, hw'⟩
  show M.Post (M.bind (M.bind u.shape _) _) w' _ _
  rw [M.bind_assoc]
  refine M.Post.bind (h.shape w' hw') ?_
  rintro a w' ⟨rfl, hw'⟩
  rw [show check (a.rank - k ≤ a.dims.length) = some () from if_pos (Nat.sub_le _ _)]
  have hl : (a.dims.drop (a.rank - k)).foldl (· * ·) 1 = size (a.dims.drop (a.rank - k)) := by
    rw [foldl_mul, Nat.one_mul]
  by_cases ho : a.rank - k > 0
  · show M.Post (M.bind (if a.rank - k > 0 then _ else _ : M σ UserIter) _) w' _ _
    rw [if_pos ho]
    show M.Post (M.bind (M.bind u.rank _) _) w' _ _
    rw [M.bind_assoc]
    refine M.Post.bind (h.rank hw') ?_
    rintro r w' ⟨rfl, hw'⟩
    show M.Post (M.bind (M.bind u.shape _) _) w' _ _
    rw [M.bind_assoc]
    refine M.Post.bind (h.shape w' hw') ?_
    rintro b w' ⟨rfl, hw'⟩
    refine key _ w' rfl hl (getD_replicate_zero _) rfl ?_ hw'
    rw [outerCount_eq]
    refine count_le _ ?_
    show _ ≤ min (List.replicate b.rank 0).length b.dims.length
    rw [List.length_replicate]
    show b.dims.length - k ≤ min b.dims.length b.dims.length
    omega
  · show M.Post (M.bind (if a.rank - k > 0 then _ else _ : M σ UserIter) _) w' _ _
    rw [if_neg ho]
    have ho : a.rank - k = 0 := by omega
    refine key _ w' rfl hl (getD_defaultDims _) (by rw [ho]; rfl) ?_ hw'
    rw [ho, outerCount_eq]
    exact count_pos _ _

end

end UserExpr
end Model
