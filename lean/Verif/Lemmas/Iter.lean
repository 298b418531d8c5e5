import Verif.Lemmas.Expr

/-! Iteration: the nested loops visit the items in row-major order. -/

namespace Model
open Spec

theorem take_succ_snoc {α} (l : List α) (i : Nat) (h : i < l.length) :
    l.take (i + 1) = l.take i ++ [l[i]] := by
  rw [List.take_succ, List.getElem?_eq_getElem h]; rfl

theorem exists_snoc {p : List Nat} {i : Nat} (h : p.length = i + 1) :
    ∃ q x, p = q ++ [x] ∧ q.length = i := by
  refine ⟨p.take i, p[i], ?_, by rw [List.length_take]; omega⟩
  rw [← take_succ_snoc p i (by omega), List.take_of_length_le (by omega)]

theorem unrank_snoc {L : List Nat} {m k : Nat} (h : k < size (L ++ [m])) :
    unrank (L ++ [m]) k = unrank L (k / m) ++ [k % m] := by
  rw [unrank_append _ _ _ h]; simp [unrank]

theorem size_snoc (L : List Nat) (m : Nat) : size (L ++ [m]) = size L * m := by
  rw [size_append]; simp

theorem rowMajor_snoc {L q : List Nat} {m x : Nat} (h : q.length = L.length) :
    rowMajor (L ++ [m]) (q ++ [x]) = rowMajor L q * m + x := by
  rw [rowMajor_append h]; simp [rowMajor]

theorem modify_mid (q : List Nat) (x : Nat) (r : List Nat) (f : Nat → Nat) :
    (q ++ [x] ++ r).modify q.length f = q ++ [f x] ++ r := by
  induction q with
  | nil => simp
  | cons y q ih => simpa using ih

namespace Iter
variable {σ α : Type}
open Expr

/-- Outer limits as they act: a zero limit still gives one pass. -/
def lims (D : List Nat) (O : Nat) : List Nat := (D.take O).map fun d => max d 1

theorem length_lims {D : List Nat} {O : Nat} (h : O ≤ D.length) : (lims D O).length = O := by
  simp [lims]; omega

theorem lims_pos (D : List Nat) (O : Nat) : 0 < size (lims D O) := by
  rw [size_pos_iff]; intro d hd
  simp only [lims, List.mem_map] at hd
  obtain ⟨x, -, rfl⟩ := hd
  omega

theorem lims_eq {D : List Nat} {O : Nat} (h : 0 < size D) : lims D O = D.take O := by
  rw [size_pos_iff] at h
  unfold lims
  conv_rhs => rw [← List.map_id (D.take O)]
  apply List.map_congr_left
  intro d hd
  have := h d (List.mem_of_mem_take hd)
  simp; omega

theorem stepLoop_spec {e : Expr σ α} (hw : e.Wf) {O n : Nat} (hf : Fit e e.dims O)
    (hO : O ≤ e.dims.length) :
    ∀ (i : Nat) (p : List Nat) (c : Nat), i ≤ O → p.length = i → Valid ((lims e.dims O).take i) p →
    ((i < e.dims.length ∧ c = 0) ∨ (i = e.dims.length ∧
      (0 < e.dims.length → c = 1 ∨ ∀ d ∈ e.dims.take O, d ≤ 1))) →
    stepLoop e.dims i (adv e.dims.length (p ++ List.replicate (O - i) 0) c n e)
      (p ++ List.replicate (e.dims.length - i) 0) =
    if rowMajor ((lims e.dims O).take i) p + 1 < size ((lims e.dims O).take i) then
      some (true, adv e.dims.length
        (unrank ((lims e.dims O).take i) (rowMajor ((lims e.dims O).take i) p + 1) ++
          List.replicate (O - i) 0) 0 n e,
        unrank ((lims e.dims O).take i) (rowMajor ((lims e.dims O).take i) p + 1) ++
          List.replicate (e.dims.length - i) 0)
    else some (false, adv e.dims.length (List.replicate O 0) (if i = 0 then c else 0) n e,
        List.replicate e.dims.length 0) := by
  intro i
  induction i with
  | zero =>
    intro p c _ hp _ _
    have : p = [] := by simpa using hp
    subst this
    simp [stepLoop, rowMajor]
  | succ i ih =>
    intro p c hi hp hv hc
    obtain ⟨q, x, rfl, hq⟩ := exists_snoc hp
    have hiL : i < (lims e.dims O).length := by rw [length_lims hO]; omega
    have hiD : i < e.dims.length := by omega
    have hm : (lims e.dims O)[i] = max (e.dims[i]) 1 := by simp [lims]
    rw [take_succ_snoc _ _ hiL, hm] at hv ⊢
    have hqL : q.length = ((lims e.dims O).take i).length := by rw [List.length_take]; omega
    obtain ⟨hvq, hvx⟩ := (valid_append hqL).1 hv
    have hx : x < max (e.dims[i]) 1 := by simpa using hvx
    rw [rowMajor_snoc hqL, size_snoc]
    generalize hL : (lims e.dims O).take i = L at *
    generalize hmm : max (e.dims[i]) 1 = m at *
    have hrm : rowMajor L q < size L := rowMajor_lt hvq
    unfold stepLoop
    have h1 : (q ++ [x] ++ List.replicate (e.dims.length - (i + 1)) 0)[i]? = some x := by
      simp [← hq]
    rw [h1, List.getElem?_eq_getElem hiD]
    simp only [Option.bind_some]
    have hgd : (q ++ [x] ++ List.replicate (O - (i + 1)) 0).getD i 0 = x := by
      rw [List.getD_eq_getElem?_getD]; simp [← hq]
    have hsz : (q ++ [x] ++ List.replicate (O - (i + 1)) 0).length = O := by
      simp; omega
    have hsetL : ∀ (k y : Nat), (q ++ [x] ++ List.replicate k 0).set i y =
        q ++ [y] ++ List.replicate k 0 := by
      intro k y; subst hq; simp
    by_cases hlt : x + 1 < e.dims[i]
    · have hlt' : x + 1 < m := by omega
      have hno : ¬ ∀ d ∈ e.dims.take O, d ≤ 1 := by
        intro h
        have := h (e.dims[i]) (List.mem_take_iff_getElem.2 ⟨i, by omega, rfl⟩)
        omega
      simp only [hno, or_false] at hc
      rw [if_pos hlt]
      have hstep := step_adv (n := n) hw hf hO hsz (i := i) (c := c) (by omega) (by omega)
      rw [Nat.sub_self, if_pos (Nat.zero_le _), Nat.sub_zero] at hstep
      rw [hstep]
      have hk : rowMajor L q * m + x + 1 < size L * m := by
        calc rowMajor L q * m + x + 1 < rowMajor L q * m + m := by omega
          _ = (rowMajor L q + 1) * m := by ring
          _ ≤ _ := Nat.mul_le_mul_right _ hrm
      rw [if_pos hk]
      have hu : unrank (L ++ [m]) (rowMajor L q * m + x + 1) = q ++ [x + 1] := by
        rw [unrank_snoc (by rw [size_snoc]; exact hk), Nat.add_assoc, Nat.add_comm]
        rw [Nat.add_mul_div_right _ _ (by omega), Nat.div_eq_of_lt hlt', Nat.add_mul_mod_self_right,
          Nat.mod_eq_of_lt hlt', Nat.zero_add, unrank_rowMajor hvq]
      rw [hu]
      have hmod : (q ++ [x] ++ List.replicate (O - (i + 1)) 0).modify i (· + 1) =
          q ++ [x + 1] ++ List.replicate (O - (i + 1)) 0 := by
        subst hq
        exact modify_mid q x _ _
      rw [hmod, hsetL]
      rfl
    · have hxe : x + 1 = m := by omega
      rw [if_neg hlt]
      have hreset := reset_adv (n := n) hw hf hO hsz (i := i) (c := c) (by omega)
      rw [Nat.sub_self, if_pos (Nat.zero_le _), Nat.sub_zero, hgd] at hreset
      rw [hreset]
      simp only [Option.bind_some]
      rw [hsetL, hsetL]
      have e1 : ∀ k, q ++ [0] ++ List.replicate k 0 = q ++ List.replicate (k + 1) 0 := by
        intro k; rw [List.append_assoc, List.replicate_succ]; rfl
      rw [e1, e1, show O - (i + 1) + 1 = O - i by omega,
        show e.dims.length - (i + 1) + 1 = e.dims.length - i by omega]
      rw [ih q 0 (by omega) hq hvq (by omega)]
      have hk : rowMajor L q * m + x + 1 = (rowMajor L q + 1) * m := by rw [Nat.add_mul]; omega
      rw [hk]
      have hmp : 0 < m := by omega
      by_cases hlast : rowMajor L q + 1 < size L
      · rw [if_pos hlast, if_pos (Nat.mul_lt_mul_of_pos_right hlast hmp)]
        have hu : unrank (L ++ [m]) ((rowMajor L q + 1) * m) = unrank L (rowMajor L q + 1) ++ [0] := by
          rw [unrank_snoc (by rw [size_snoc]; exact Nat.mul_lt_mul_of_pos_right hlast hmp),
            Nat.mul_div_cancel _ hmp, Nat.mul_mod_left]
        rw [hu]
        have e2 : ∀ k, unrank L (rowMajor L q + 1) ++ [0] ++ List.replicate k 0 =
            unrank L (rowMajor L q + 1) ++ List.replicate (k + 1) 0 := by
          intro k; rw [List.append_assoc, List.replicate_succ]; rfl
        rw [e2, e2, show O - (i + 1) + 1 = O - i by omega,
          show e.dims.length - (i + 1) + 1 = e.dims.length - i by omega]
      · rw [if_neg hlast, if_neg (fun h => hlast (Nat.lt_of_mul_lt_mul_right h))]
        simp

/-- The iterator of `e` in row `q` of the outer loop, after `c` items of this row and `n` items
altogether. -/
def iterAt (e : Expr σ α) (q c n : Nat) : Iter σ α :=
  { expr := adv e.dims.length (unrank (lims e.dims e.outerRank) q) c n e
    innerIndex := c
    innerLimit := size (e.dims.drop e.outerRank)
    outerIndex := if e.outerRank > 0 then unrank (lims e.dims e.outerRank) q ++
      List.replicate (e.dims.length - e.outerRank) 0 else []
    outerLimit := if e.outerRank > 0 then e.dims else [] }

theorem outerRank_le (e : Expr σ α) : e.outerRank ≤ e.dims.length := by
  unfold outerRank; split
  · omega
  · exact Nat.sub_le _ _

theorem new_eq {e : Expr σ α} (hw : e.Wf) (hR : Sound e) : Iter.new e = iterAt e 0 0 0 := by
  unfold Iter.new iterAt
  have h0 : unrank (lims e.dims e.outerRank) 0 = List.replicate e.outerRank 0 := by
    rw [unrank_zero, length_lims (outerRank_le e)]
  simp only [h0, ← List.replicate_add]
  rw [adv_init hw hR (outerRank_le e) (le_refl _)]
  have : e.outerRank + (e.dims.length - e.outerRank) = e.dims.length := by
    have := outerRank_le e; omega
  rw [this]
  congr 1
  · simp [size, List.prod_eq_foldl]
  · simp

theorem stepOuter_spec {e : Expr σ α} (hw : e.Wf) {q c n k : Nat}
    (hq : q < size (lims e.dims e.outerRank))
    (hc : e.outerRank = e.dims.length → 0 < e.dims.length →
      c = 1 ∨ ∀ d ∈ e.dims.take e.outerRank, d ≤ 1) :
    stepOuter { iterAt e q c n with innerIndex := k } =
      if q + 1 < size (lims e.dims e.outerRank) then
        some (true, { iterAt e (q + 1) 0 n with innerIndex := k })
      else some (false,
        { iterAt e 0 (if e.dims = [] then c else 0) n with innerIndex := k }) := by
  have hO := outerRank_le e
  have hf := fit_self e
  have hul : (unrank (lims e.dims e.outerRank) q).length = e.outerRank := by
    rw [length_unrank, length_lims hO]
  have htk : (lims e.dims e.outerRank).take e.outerRank = lims e.dims e.outerRank :=
    List.take_of_length_le (by rw [length_lims hO])
  have h00 : unrank (lims e.dims e.outerRank) 0 = List.replicate e.outerRank 0 := by
    rw [unrank_zero, length_lims hO]
  unfold stepOuter
  simp only [iterAt, adv_outerRank]
  have hrk : (adv e.dims.length (unrank (lims e.dims e.outerRank) q) c n e).rank = e.dims.length := by
    simp [rank]
  rw [hrk]
  -- the initial reset
  obtain ⟨c', hc', hstart⟩ : ∃ c', ((e.outerRank < e.dims.length ∧ c' = 0) ∨
      (e.outerRank = e.dims.length ∧ c' = c)) ∧
      (if e.outerRank < e.dims.length then
        (adv e.dims.length (unrank (lims e.dims e.outerRank) q) c n e).resetDim (e.dims.length - 1) 0
        else some (adv e.dims.length (unrank (lims e.dims e.outerRank) q) c n e)) =
      some (adv e.dims.length (unrank (lims e.dims e.outerRank) q) c' n e) := by
    by_cases h : e.outerRank < e.dims.length
    · refine ⟨0, Or.inl ⟨h, rfl⟩, ?_⟩
      have hr := reset_adv (n := n) hw hf hO hul (i := e.dims.length - 1) (c := c) (by omega)
      rw [Nat.sub_self, if_pos (Nat.zero_le _), Nat.sub_zero] at hr
      have hg : (unrank (lims e.dims e.outerRank) q).getD (e.dims.length - 1) 0 = 0 := by
        rw [List.getD_eq_getElem?_getD, List.getElem?_eq_none (by omega)]; rfl
      rw [hg, List.set_eq_of_length_le (by omega)] at hr
      rw [if_pos h, hr]
    · exact ⟨c, Or.inr ⟨by omega, rfl⟩, if_neg h⟩
  rw [hstart]
  simp only [Option.bind_some]
  by_cases hpos : 0 < e.outerRank
  · simp only [gt_iff_lt, if_pos hpos]
    have := stepLoop_spec (n := n) hw hf hO e.outerRank (unrank (lims e.dims e.outerRank) q) c'
      (le_refl _) hul (by rw [htk]; exact unrank_valid hq) (by
        rcases hc' with ⟨h1, h2⟩ | ⟨h1, rfl⟩
        · exact Or.inl ⟨h1, h2⟩
        · exact Or.inr ⟨h1, hc h1⟩)
    rw [Nat.sub_self, List.replicate_zero, List.append_nil, htk, rowMajor_unrank hq,
      if_neg (show ¬ e.outerRank = 0 by omega), List.append_nil] at this
    rw [this]
    have hne : e.dims ≠ [] := by
      intro h; rw [h] at hO; simp at hO; omega
    rw [if_neg hne]
    by_cases hl : q + 1 < size (lims e.dims e.outerRank)
    · simp only [if_pos hl, Option.map_some]
    · simp only [if_neg hl, Option.map_some]
      rw [h00, ← List.replicate_add]
      have : e.outerRank + (e.dims.length - e.outerRank) = e.dims.length := by omega
      rw [this]
  · have h0 : e.outerRank = 0 := by omega
    have hs : lims e.dims e.outerRank = [] := by rw [h0]; rfl
    have hq0 : q = 0 := by rw [hs] at hq; simpa using hq
    subst hq0
    simp only [h0] at *
    have hs' : ¬ (0 + 1 < size (lims e.dims 0)) := by rw [hs]; simp
    simp only [stepLoop, gt_iff_lt, lt_self_iff_false, if_false, Option.map_some, List.map_nil, hs']
    by_cases hd : e.dims = []
    · rw [if_pos hd]
      have hl0 : e.dims.length = 0 := by rw [hd]; rfl
      rcases hc' with ⟨h, -⟩ | ⟨-, rfl⟩
      · omega
      · rfl
    · rw [if_neg hd]
      have hl0 : 0 < e.dims.length := List.length_pos_of_ne_nil hd
      rcases hc' with ⟨-, rfl⟩ | ⟨h, -⟩
      · rfl
      · omega

/-- Number of items of one row. -/
def row (e : Expr σ α) : Nat := size (e.dims.drop e.outerRank)

/-- Number of rows. -/
def rows (e : Expr σ α) : Nat := size (lims e.dims e.outerRank)

theorem size_split {e : Expr σ α} (hs : 0 < size e.dims) : size e.dims = rows e * row e := by
  unfold rows row
  rw [lims_eq hs, ← size_append, List.take_append_drop]

/-- One call of `get_unchecked`. -/
theorem get_iterAt {e : Expr σ α} (hw : e.Wf) (hR : Sound e) (hs : 0 < size e.dims) {q c : Nat}
    (hq : q < rows e) (hc : c < row e) :
    (adv e.dims.length (unrank (lims e.dims e.outerRank) q) c (q * row e + c) e).get c =
      M.bind (item e (q * row e + c) (unrank e.dims (q * row e + c))) fun x =>
        M.pure (x, adv e.dims.length (unrank (lims e.dims e.outerRank) q) (c + 1)
          (q * row e + c + 1) e) := by
  have hl := lims_eq (O := e.outerRank) hs
  unfold rows at hq
  rw [hl] at hq ⊢
  obtain ⟨h1, h2⟩ := unrank_block hq hc
  rw [List.take_append_drop] at h1 h2
  have := get_adv hw (fit_self e) hR (outerRank_le e) (unrank_valid hq) hc
  rw [Nat.sub_self, List.drop_zero, ← h2, rowMajor_unrank h1] at this
  exact this

/-- The step of the specification for the `n`-th item. -/
def visit {τ : Type} (e : Expr σ α) (f : τ → α → M σ τ) (acc : τ) (n : Nat) : M σ τ :=
  M.bind (item e n (unrank e.dims n)) fun x => f acc x

theorem innerLoop_spec {τ : Type} {e : Expr σ α} (hw : e.Wf) (hR : Sound e) (hs : 0 < size e.dims)
    (f : τ → α → M σ τ) {q : Nat} (hq : q < rows e) :
    ∀ (k c : Nat) (acc : τ), c + k ≤ row e →
    innerLoop f (List.range' c k)
      (adv e.dims.length (unrank (lims e.dims e.outerRank) q) c (q * row e + c) e) acc =
    M.bind ((List.range' (q * row e + c) k).foldlM (visit e f) acc) fun acc' =>
      M.pure (acc', adv e.dims.length (unrank (lims e.dims e.outerRank) q) (c + k)
        (q * row e + c + k) e) := by
  intro k
  induction k with
  | zero => intro c acc _; rfl
  | succ k ih =>
    intro c acc hc
    simp only [List.range'_succ, innerLoop, List.foldlM_cons, M.bind_eq]
    rw [get_iterAt hw hR hs hq (by omega)]
    simp only [M.bind_assoc, M.pure_bind, visit]
    congr 1
    funext x
    congr 1
    funext acc'
    have := ih (c + 1) acc' (by omega)
    rw [← Nat.add_assoc] at this
    rw [this]
    congr 1
    funext acc''
    rw [show c + 1 + k = c + (k + 1) by omega,
      show q * row e + c + 1 + k = q * row e + c + (k + 1) by omega]

/-- Iteration without phantom rows: an empty array has empty rows. -/
def NoPhantom (e : Expr σ α) : Prop := size e.dims = 0 → row e = 0

theorem foldLoop_spec {τ : Type} {e : Expr σ α} (hw : e.Wf) (hR : Sound e) (hp : NoPhantom e)
    (f : τ → α → M σ τ) :
    ∀ (fuel q c : Nat) (acc : τ), q < rows e → c ≤ row e → rows e - q ≤ fuel →
    foldLoop f fuel (iterAt e q c (q * row e + c)) acc =
      (List.range' (q * row e + c) ((rows e - q) * row e - c)).foldlM (visit e f) acc := by
  intro fuel
  induction fuel with
  | zero => intro q c acc hq _ hfu; omega
  | succ fuel ih =>
    intro q c acc hq hc hfu
    have hin : innerLoop f (List.range' c (row e - c))
        (adv e.dims.length (unrank (lims e.dims e.outerRank) q) c (q * row e + c) e) acc =
      M.bind ((List.range' (q * row e + c) (row e - c)).foldlM (visit e f) acc) fun acc' =>
        M.pure (acc', adv e.dims.length (unrank (lims e.dims e.outerRank) q) (row e)
          (q * row e + row e) e) := by
      rcases Nat.eq_zero_or_pos (size e.dims) with h0 | h0
      · have h1 : row e = 0 := hp h0
        have h2 : c = 0 := by omega
        subst h2
        rw [h1]; rfl
      · have := innerLoop_spec hw hR h0 f hq (row e - c) c acc (by omega)
        rw [show c + (row e - c) = row e by omega,
          show q * row e + c + (row e - c) = q * row e + row e by omega] at this
        exact this
    unfold foldLoop
    change M.bind (innerLoop f (List.range' c (row e - c)) _ acc) _ = _
    rw [show (iterAt e q c (q * row e + c)).expr =
      adv e.dims.length (unrank (lims e.dims e.outerRank) q) c (q * row e + c) e from rfl, hin]
    simp only [M.bind_assoc, M.pure_bind]
    have hstep := stepOuter_spec hw (q := q) (c := row e) (n := q * row e + row e) (k := c) hq (by
      intro h _
      left; unfold row; rw [h]; simp)
    have hitr : ({ iterAt e q c (q * row e + c) with
        expr := adv e.dims.length (unrank (lims e.dims e.outerRank) q) (row e) (q * row e + row e) e } :
          Iter σ α) = { iterAt e q (row e) (q * row e + row e) with innerIndex := c } := rfl
    rw [hitr, hstep]
    have hk : (rows e - q) * row e - c = (row e - c) + (rows e - (q + 1)) * row e := by
      have : rows e - q = (rows e - (q + 1)) + 1 := by omega
      rw [this, Nat.add_mul, Nat.one_mul]; omega
    rw [hk, ← List.range'_append_1, List.foldlM_append]
    simp only [M.bind_eq]
    congr 1
    funext acc'
    by_cases hl : q + 1 < size (lims e.dims e.outerRank)
    · rw [if_pos hl]
      simp only [M.lift_some, M.pure_bind, if_true]
      have hih := ih (q + 1) 0 acc' hl (Nat.zero_le _) (by omega)
      rw [Nat.add_mul, Nat.one_mul, Nat.add_zero, Nat.sub_zero] at hih
      rw [show q * row e + c + (row e - c) = q * row e + row e by omega]
      exact hih
    · rw [if_neg hl]
      have : rows e - (q + 1) = 0 := by unfold rows; omega
      simp [this]

theorem outerCount_iterAt (e : Expr σ α) (q c n : Nat) : (iterAt e q c n).outerCount = rows e := by
  unfold outerCount iterAt rows lims
  simp only [adv_outerRank, size, List.prod_eq_foldl]
  by_cases h : e.outerRank > 0
  · rw [if_pos h]
  · have : e.outerRank = 0 := by omega
    rw [if_neg h, this]; simp

/-- `fold` of an iterator that has already produced items visits the rest. -/
theorem fold_iterAt {τ : Type} {e : Expr σ α} (hw : e.Wf) (hR : Sound e) (hp : NoPhantom e)
    (f : τ → α → M σ τ) (acc : τ) {q c : Nat} (hq : q < rows e) (hc : c ≤ row e) :
    (iterAt e q c (q * row e + c)).fold acc f =
      (List.range' (q * row e + c) (size e.dims - (q * row e + c))).foldlM (visit e f) acc := by
  unfold fold
  rw [outerCount_iterAt, foldLoop_spec hw hR hp f _ q c acc hq hc (Nat.sub_le _ _)]
  congr 2
  rw [Nat.mul_sub_right_distrib, Nat.sub_sub]
  rcases Nat.eq_zero_or_pos (size e.dims) with h0 | h0
  · have h1 : row e = 0 := hp h0
    simp [h0, h1]
  · rw [size_split h0]

theorem foldItems_eq {τ : Type} (e : Expr σ α) (f : τ → α → M σ τ) (acc : τ) :
    foldItems e f acc = (List.range (size e.dims)).foldlM (visit e f) acc := by
  have hz : (allIdx e.dims).zipIdx = (List.range (size e.dims)).map fun n => (unrank e.dims n, n) := by
    rw [allIdx_eq_map_unrank, List.zipIdx_map]
    apply List.ext_getElem?
    intro n
    simp only [List.getElem?_map, List.getElem?_zipIdx]
    by_cases h : n < size e.dims
    · simp [h]
    · simp [h]
  unfold foldItems
  rw [hz, List.foldlM_map]
  rfl

theorem fold_eq {τ : Type} {e : Expr σ α} (hb : Built e) (hR : Sound e) (hp : NoPhantom e)
    (f : τ → α → M σ τ) (acc : τ) : e.fold acc f = foldItems e f acc := by
  have hw := wf_of_built hb
  unfold Expr.fold
  rw [new_eq hw hR]
  have := fold_iterAt hw hR hp f acc (q := 0) (c := 0) (lims_pos _ _) (Nat.zero_le _)
  rw [Nat.zero_mul, Nat.add_zero, Nat.sub_zero, ← List.range_eq_range'] at this
  rw [this, foldItems_eq]

/-- `next` within a row. -/
theorem next_inner {e : Expr σ α} (hw : e.Wf) (hR : Sound e) (hs : 0 < size e.dims) {q c : Nat}
    (hq : q < rows e) (hc : c < row e) :
    (iterAt e q c (q * row e + c)).next =
      M.bind (item e (q * row e + c) (unrank e.dims (q * row e + c))) fun x =>
        M.pure (some x, iterAt e q (c + 1) (q * row e + (c + 1))) := by
  unfold next
  have : ¬ (iterAt e q c (q * row e + c)).innerIndex = (iterAt e q c (q * row e + c)).innerLimit := by
    change ¬ c = row e; omega
  rw [if_neg this]
  change M.bind ((adv e.dims.length (unrank (lims e.dims e.outerRank) q) c (q * row e + c) e).get c) _ = _
  rw [get_iterAt hw hR hs hq hc]
  simp only [M.bind_assoc, M.pure_bind]
  rfl

/-- `next` at the end of a row that is not the last. -/
theorem next_outer {e : Expr σ α} (hw : e.Wf) (hR : Sound e) (hs : 0 < size e.dims) {q : Nat}
    (hq : q + 1 < rows e) :
    (iterAt e q (row e) (q * row e + row e)).next =
      M.bind (item e ((q + 1) * row e) (unrank e.dims ((q + 1) * row e))) fun x =>
        M.pure (some x, iterAt e (q + 1) 1 ((q + 1) * row e + 1)) := by
  have hrow : 0 < row e := by
    rw [size_split hs] at hs; exact Nat.pos_of_mul_pos_left hs
  unfold next
  rw [if_pos (show (iterAt e q (row e) (q * row e + row e)).innerIndex =
    (iterAt e q (row e) (q * row e + row e)).innerLimit from rfl)]
  have hstep := stepOuter_spec hw (q := q) (c := row e) (n := q * row e + row e) (k := row e)
    (by unfold rows at hq; omega) (by
      intro h _
      left; unfold row; rw [h]; simp)
  rw [if_pos (show q + 1 < size (lims e.dims e.outerRank) from hq)] at hstep
  have hitr : ({ iterAt e q (row e) (q * row e + row e) with innerIndex := row e } : Iter σ α) =
    iterAt e q (row e) (q * row e + row e) := rfl
  rw [hitr] at hstep
  rw [hstep]
  simp only [M.lift_some, M.pure_bind, if_true]
  have hg := get_iterAt hw hR hs hq hrow
  simp only [Nat.add_zero] at hg
  change M.bind ((adv e.dims.length (unrank (lims e.dims e.outerRank) (q + 1)) 0
    (q * row e + row e) e).get 0) _ = _
  rw [show q * row e + row e = (q + 1) * row e by ring, hg]
  simp only [M.bind_assoc, M.pure_bind]
  rfl

/-- `next` at the end. -/
theorem next_end {e : Expr σ α} (hw : e.Wf) {q n : Nat} (hq : q + 1 = rows e) :
    (iterAt e q (row e) n : Iter σ α).next =
      M.pure (none, { iterAt e 0 (if e.dims = [] then row e else 0) n with innerIndex := row e }) := by
  unfold next
  rw [if_pos (show (iterAt e q (row e) n).innerIndex = (iterAt e q (row e) n).innerLimit from rfl)]
  have hstep := stepOuter_spec hw (q := q) (c := row e) (n := n) (k := row e)
    (by unfold rows at hq; omega) (by
      intro h _
      left; unfold row; rw [h]; simp)
  rw [if_neg (show ¬ q + 1 < size (lims e.dims e.outerRank) by unfold rows at hq; omega)] at hstep
  have hitr : ({ iterAt e q (row e) n with innerIndex := row e } : Iter σ α) =
    iterAt e q (row e) n := rfl
  rw [hitr] at hstep
  rw [hstep]
  rfl

theorem hintLoop_spec {ls is : List Nat} (hv : Valid ls is) :
    ∀ len : Nat, 0 < len → hintLoop len ls is = some (len * size ls - rowMajor ls is) ∧
      rowMajor ls is < len * size ls := by
  induction hv with
  | nil => intro len h; simp [hintLoop, rowMajor, h]
  | @cons i l is ls h1 h2 ih =>
    intro len hlen
    have hil : i < len * l := by
      calc i < l := h1
        _ = 1 * l := by ring
        _ ≤ _ := Nat.mul_le_mul_right _ hlen
    obtain ⟨e1, e2⟩ := ih (len * l - i) (by omega)
    simp only [hintLoop, if_pos (Nat.le_of_lt hil), e1, rowMajor, size_cons]
    rw [Nat.mul_sub_right_distrib] at e2 ⊢
    rw [← Nat.mul_assoc]
    refine ⟨by congr 1; omega, by omega⟩

theorem sizeHint_iterAt {e : Expr σ α} (hs : 0 < size e.dims) {q c n : Nat} (hq : q < rows e)
    (hc : c ≤ row e) : (iterAt e q c n).sizeHint = some (size e.dims - (q * row e + c)) := by
  have hl := lims_eq (O := e.outerRank) hs
  have hO := outerRank_le e
  have hlen : (unrank (lims e.dims e.outerRank) q).length = e.outerRank := by
    rw [length_unrank, length_lims hO]
  have h1 : hintLoop 1 ((iterAt e q c n).outerLimit.take e.outerRank)
      ((iterAt e q c n).outerIndex.take e.outerRank) = some (rows e - q) := by
    simp only [iterAt]
    by_cases h : e.outerRank > 0
    · rw [if_pos h, if_pos h]
      have ht : (unrank (lims e.dims e.outerRank) q ++
          List.replicate (e.dims.length - e.outerRank) 0).take e.outerRank =
          unrank (lims e.dims e.outerRank) q := by
        rw [List.take_append_of_le_length (by omega), List.take_of_length_le (by omega)]
      rw [ht, ← hl]
      obtain ⟨e1, e2⟩ := hintLoop_spec (unrank_valid hq) 1 (by omega)
      rw [e1, Nat.one_mul, rowMajor_unrank hq]; rfl
    · have h0 : e.outerRank = 0 := by omega
      have hr : rows e = 1 := by unfold rows lims; rw [h0]; rfl
      rw [if_neg h, if_neg h]
      have : q = 0 := by omega
      rw [hr, this]; simp [hintLoop]
  unfold sizeHint
  simp only [show (iterAt e q c n).expr.outerRank = e.outerRank by simp [iterAt], h1,
    Option.bind_eq_bind, Option.bind_some]
  have h2 : c ≤ (rows e - q) * row e := by
    calc c ≤ row e := hc
      _ = 1 * row e := by ring
      _ ≤ _ := Nat.mul_le_mul_right _ (by omega)
  have h3 : check ((iterAt e q c n).innerIndex ≤ (rows e - q) * (iterAt e q c n).innerLimit) = some () :=
    if_pos h2
  rw [h3]
  simp only [Option.bind_some, Option.pure_def, Option.some.injEq]
  change (rows e - q) * row e - c = _
  rw [size_split hs, Nat.mul_sub_right_distrib, Nat.sub_sub]

end Iter
end Model
