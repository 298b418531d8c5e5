import Verif.Spec.Phantom
import Verif.Lemmas.IterSeq

/-! Iteration including phantom rows. -/

namespace Model
open Spec

namespace Expr
variable {σ : Type} {α β : Type}

theorem get_raw {e : Expr σ α} (hw : e.Wf) (he : ¬ BadFn e) {D pos : List Nat} {O c n : Nat}
    (hf : Fit e D O) (hO : O ≤ D.length) (hpl : pos.length = O) (hc : c < size (D.drop O)) :
    (adv D.length pos c n e).get c =
      M.bind (rawItem (D.length - O) e n ((pos ++ unrank (D.drop O) c).drop (D.length - e.dims.length)))
      fun x => M.pure (x, adv D.length pos (c + 1) (n + 1) e) := by
  induction e with
  | view r v =>
    have hd := own_dot (m := v.map) hw hf.suffix hf.inner hO hpl hc
    simp only [adv, get, rawItem, M.pure_bind]
    change M.pure (v.ptr + dot v.map.strides (pos.drop (D.length - v.map.dims.length)) +
      v.map.innerStride * (c : Int), _) = M.pure (v.ptr + dot v.map.strides
        ((pos ++ unrank (D.drop O) c).drop (D.length - v.map.dims.length)), _)
    rw [hd, Int.add_assoc]
  | axis r v a m off =>
    obtain ⟨hv, hm, -⟩ := hw
    obtain ⟨p, hp1, hp2, hmd, hms, hin, hmw⟩ := axis_dims hv hm
    have hd := own_dot (m := m) hmw hf.suffix (fun k hk => by
      have : D.length - O ≤ 1 := hf.inner 1 rfl
      unfold mapInnerRank at hk
      have hr : m.rank = 1 := by change m.dims.length = 1; rw [hmd]; rfl
      split at hk
      · split at hk
        · cases hk
        · injection hk with hk; omega
      · rw [if_pos (by omega)] at hk; injection hk with hk; omega) hO hpl hc
    have hlen : m.dims.length = 1 := by rw [hmd]; rfl
    have hpd : dot m.strides (pos.drop (D.length - 1)) =
        m.innerStride * (((pos.drop (D.length - 1)).getD 0 0 : Nat) : Int) := by
      have hl : (pos.drop (D.length - 1)).length ≤ 1 := by rw [List.length_drop]; omega
      rw [hms, hin]
      match hpo : pos.drop (D.length - 1), hl with
      | [], _ => simp [dot_nil_right]
      | [x], _ => simp
    rw [hlen, hpd] at hd
    simp only [adv, get, rawItem]
    rw [show (axis r v a m off : Expr σ View).dims.length = 1 from hlen, hd]
    cases hrm : a.removeMap v.map with
    | none => rfl
    | some w =>
      simp only [Option.bind_eq_bind, Option.bind_some, Shape.checkedLen_eq]
      by_cases hno : NoOverflow usizeMax w.dims
      · rw [if_pos (show NoOverflow usizeMax w.shape.dims from hno), if_pos hno]
        rfl
      · rw [if_neg (show ¬ NoOverflow usizeMax w.shape.dims from hno), if_neg hno]
        rfl
  | lanes r v a m off =>
    obtain ⟨hv, hm, -⟩ := hw
    obtain ⟨p, hp1, hp2, hmd, hms, hmw⟩ := lanes_dims hv hm
    have hd := own_dot (m := m) hmw hf.suffix hf.inner hO (pos := List.replicate O 0) (by simp) hc
    rw [List.drop_replicate, dot_zeros, zero_add] at hd
    have hle : m.dims.length ≤ D.length := hf.le
    have hJ : (List.replicate O 0 ++ unrank (D.drop O) c).drop (D.length - m.dims.length) =
        List.replicate (m.dims.length - (D.length - O)) 0 ++
          ((pos ++ unrank (D.drop O) c).drop (D.length - m.dims.length)).drop
            (m.dims.length - (D.length - O)) := by
      rw [List.drop_append, List.drop_replicate, List.length_replicate, List.drop_drop,
        List.drop_append, hpl, List.drop_eq_nil_of_le (as := pos) (by omega), List.nil_append,
        show O - (D.length - m.dims.length) = m.dims.length - (D.length - O) by omega,
        show D.length - m.dims.length + (m.dims.length - (D.length - O)) - O =
          D.length - m.dims.length - O by omega]
    rw [hJ] at hd
    simp only [adv, get, rawItem]
    change _ = (M.lift ((a.get v.map).map fun w =>
      (⟨v.ptr + if size w.dims = 0 then 0 else dot m.strides
        (List.replicate (m.dims.length - (D.length - O)) 0 ++
          ((pos ++ unrank (D.drop O) c).drop (D.length - m.dims.length)).drop
            (m.dims.length - (D.length - O))), w⟩ : View))).bind _
    rw [hd]
    cases hg : a.get v.map with
    | none => rfl
    | some w =>
      simp only [Option.bind_eq_bind, Option.bind_some, Option.map_some, Option.pure_def, M.lift_some,
        M.pure_bind]
      by_cases h0 : size w.dims = 0
      · rw [if_pos h0, if_pos (Mapping.isEmpty_iff.2 h0)]
      · rw [if_neg h0, if_neg (fun h => h0 (Mapping.isEmpty_iff.1 h))]
  | fill f => simp [adv, get, rawItem]
  | fromElem s f => simp [adv, get, rawItem]
  | fromFn s idx f =>
    have hle : s.dims.length ≤ D.length := hf.le
    simp only [adv, get, rawItem]
    rw [if_neg (show ¬ (s.ty = .dynRank ∧ s.dims ≠ []) from he)]
    change _ = M.bind (f ((pos ++ unrank (D.drop O) c).drop (D.length - s.dims.length))) _
    by_cases h0 : 0 < s.dims.length
    · have hi : D.length - O ≤ 1 := hf.inner 1 (by simp only [innerRank]; exact if_pos h0)
      obtain ⟨h1, h2⟩ := ownIdx_get hle h0 hi hO hpl hc
      rw [h1, h2]
      congr 1
      funext x
      rw [if_pos h0]
      have : s.dims.length - 1 < (ownIdx s.dims.length (pos.drop (D.length - s.dims.length)) c).length := by
        simp [ownIdx]; omega
      rw [List.getD_eq_getElem?_getD, List.getElem?_eq_getElem this]; rfl
    · have hz : s.dims.length = 0 := by omega
      have e1 : (pos ++ unrank (D.drop O) c).drop (D.length - s.dims.length) = [] := by
        apply List.drop_eq_nil_of_le; rw [hz]; simp; omega
      have e2 : pos.drop (D.length - s.dims.length) = [] := by
        apply List.drop_eq_nil_of_le; rw [hz]; omega
      have e3 : ∀ k, ownIdx s.dims.length (pos.drop (D.length - s.dims.length)) k = [] := by
        intro k; rw [e2, hz]; rfl
      rw [e1, e3, e3]
      simp [hz]
  | intoExpr s buf idx =>
    simp only [adv, get, rawItem]
    cases buf[n]? <;> rfl
  | map e f ih =>
    have := ih hw he ⟨hf.suffix, hf.inner, hf.rep⟩
    simp only [adv, get, rawItem, this, M.bind_assoc, M.pure_bind]
    rfl
  | enumerate e k ih =>
    have := ih hw.1 he ⟨hf.suffix, hf.inner, hf.rep⟩
    simp only [adv, get, rawItem, this, M.bind_assoc, M.pure_bind]
    rfl
  | zip a b s iha ihb =>
    obtain ⟨ha, hb, hz⟩ := hw
    obtain ⟨fa, fb⟩ := hf.zip hz
    obtain ⟨-, sa, sb, -, -⟩ := zipShape_spec hz
    have hle : s.dims.length ≤ D.length := hf.le
    have la : a.dims.length ≤ s.dims.length := by
      have := congrArg List.length sa; rw [List.length_drop] at this; omega
    have lb : b.dims.length ≤ s.dims.length := by
      have := congrArg List.length sb; rw [List.length_drop] at this; omega
    have ea := iha ha (fun h => he (Or.inl h)) fa
    have eb := ihb hb (fun h => he (Or.inr h)) fb
    have hd : (Expr.zip a b s).dims = s.dims := rfl
    simp only [adv, get, rawItem, ea, eb, M.bind_assoc, M.pure_bind]
    rw [hd, List.drop_drop, List.drop_drop,
      show D.length - s.dims.length + (s.dims.length - a.dims.length) = D.length - a.dims.length by omega,
      show D.length - s.dims.length + (s.dims.length - b.dims.length) = D.length - b.dims.length by omega]

theorem adv_init_raw {e : Expr σ α} (hw : e.Wf) {R O : Nat} (hR : ¬ BadFn e) (hO : O ≤ R)
    (hr : e.dims.length ≤ R) : adv R (List.replicate O 0) 0 0 e = e := by
  induction e with
  | view r v => simp [adv, dot_zeros]
  | axis r v a m off =>
    obtain ⟨-, -, rfl⟩ := hw
    simp only [adv, List.drop_replicate]
    cases O - (R - 1) <;> simp [List.replicate_succ]
  | lanes r v a m off =>
    obtain ⟨-, -, rfl⟩ := hw
    simp [adv, dot_zeros]
  | fill f => rfl
  | fromElem s f => rfl
  | fromFn s idx f =>
    obtain ⟨hs, rfl⟩ := hw
    simp only [adv, ownIdx, List.drop_replicate]
    congr 1
    have hz : ∀ (k : Nat) (l : List Nat), l.modify k (· + 0) = l := by
      intro k l; apply List.ext_getElem?; intro n
      rw [List.getElem?_modify]; simp
    rw [hz, List.length_replicate, ← List.replicate_add]
    cases hty : s.ty with
    | static ds =>
      have hl : ds.length = s.dims.length := by
        have hs' : s.ty.Conforms s.dims := hs
        rw [hty] at hs'
        exact ShapeTy.conforms_static_length hs'
      have hle : s.dims.length ≤ R := hr
      simp only [dimsDefault, List.map_const', hl]
      congr 1; omega
    | dynRank =>
      have hd : s.dims = [] := by
        by_contra h
        exact hR ⟨hty, h⟩
      simp [dimsDefault, hd]; omega
  | intoExpr s buf idx =>
    obtain ⟨-, -, rfl⟩ := hw
    rfl
  | map e f ih => simp only [adv]; rw [ih hw hR hr]
  | enumerate e k ih =>
    obtain ⟨hw, rfl⟩ := hw
    simp only [adv]; rw [ih hw hR hr]
  | zip a b s iha ihb =>
    obtain ⟨ha, hb, hz⟩ := hw
    obtain ⟨-, sa, sb, -, -⟩ := zipShape_spec hz
    have hle : s.dims.length ≤ R := hr
    have la : a.dims.length ≤ s.dims.length := by
      have := congrArg List.length sa; rw [List.length_drop] at this; omega
    have lb : b.dims.length ≤ s.dims.length := by
      have := congrArg List.length sb; rw [List.length_drop] at this; omega
    simp only [adv]; rw [iha ha (fun h => hR (Or.inl h)) (by omega), ihb hb (fun h => hR (Or.inr h)) (by omega)]

/-- A computation that never returns. -/
def NeverOk (x : M σ α) : Prop := ∀ (s : σ) (a : α) (t : σ), x s ≠ .ok a t

theorem NeverOk.bind_eq {β : Type*} {x : M σ α} (h : NeverOk x) (f g : α → M σ β) : M.bind x f = M.bind x g := by
  funext s
  unfold M.bind
  cases hx : x s with
  | ok a t => exact absurd hx (h s a t)
  | _ => rfl

theorem NeverOk.bind {x : M σ α} (h : NeverOk x) (f : α → M σ β) : NeverOk (M.bind x f) := by
  intro s a t
  unfold M.bind
  cases hx : x s with
  | ok a t => exact absurd hx (h s a t)
  | _ => simp

theorem neverOk_bind {x : M σ α} {f : α → M σ β} (h : ∀ a, NeverOk (f a)) : NeverOk (M.bind x f) := by
  intro s a t
  unfold M.bind
  cases hx : x s with
  | ok a' t' => exact h a' _ _ _
  | _ => simp

theorem rawItem_bad {K : Nat} {e : Expr σ α} (h : BadFn e) (n : Nat) (j : List Nat) :
    NeverOk (rawItem K e n j) := by
  induction e generalizing n j with
  | fromFn s idx f =>
    unfold rawItem
    rw [if_pos (show s.ty = .dynRank ∧ s.dims ≠ [] from h)]
    exact neverOk_bind fun _ s a t => by simp [M.panic]
  | map e f ih => exact (ih h n j).bind _
  | enumerate e k ih => exact (ih h n j).bind _
  | zip a b s iha ihb =>
    rcases h with h | h
    · exact (iha h n _).bind _
    · exact neverOk_bind fun _ => (ihb h n _).bind _
  | _ => exact h.elim

/-- The first call of `get_unchecked`. -/
theorem get_bad {e : Expr σ α} (hw : e.Wf) (hb : BadFn e) {D : List Nat} {O : Nat}
    (hf : Fit e D O) (hO : O ≤ D.length) (hc : 0 < size (D.drop O)) (k : α → M σ (α × Expr σ α)) :
    e.get 0 = M.bind (rawItem (D.length - O) e 0 (List.replicate e.dims.length 0)) k := by
  have hz : unrank (D.drop O) 0 = List.replicate (D.length - O) 0 := by
    rw [unrank_zero, List.length_drop]
  induction e with
  | fromFn s idx f =>
    obtain ⟨-, rfl⟩ := hw
    simp only [get, rawItem]
    obtain ⟨h1, h2⟩ := hb
    rw [if_pos ⟨h1, h2⟩, M.bind_assoc, h1]
    simp only [gt_iff_lt, List.length_pos_of_ne_nil h2, if_true]
    rfl
  | map e f ih =>
    simp only [get, rawItem, M.bind_assoc]
    rw [ih hw hb ⟨hf.suffix, hf.inner, hf.rep⟩ (fun x => M.pure (x, e)), M.bind_assoc]
    exact (rawItem_bad (e := e) hb _ _).bind_eq _ _
  | enumerate e c ih =>
    simp only [get, rawItem, M.bind_assoc]
    rw [ih hw.1 hb ⟨hf.suffix, hf.inner, hf.rep⟩ (fun x => M.pure (x, e)), M.bind_assoc]
    exact (rawItem_bad (e := e) hb _ _).bind_eq _ _
  | zip a b s iha ihb =>
    obtain ⟨ha, hb', hz'⟩ := hw
    obtain ⟨fa, fb⟩ := hf.zip hz'
    obtain ⟨-, sa, sb, -, -⟩ := zipShape_spec hz'
    have la : a.dims.length ≤ s.dims.length := by
      have := congrArg List.length sa; rw [List.length_drop] at this; omega
    have lb : b.dims.length ≤ s.dims.length := by
      have := congrArg List.length sb; rw [List.length_drop] at this; omega
    simp only [get, rawItem, M.bind_assoc]
    rw [show (zip a b s : Expr σ _).dims = s.dims from rfl, List.drop_replicate, List.drop_replicate,
      Nat.sub_sub_self la, Nat.sub_sub_self lb]
    by_cases hba : BadFn a
    · rw [iha ha hba fa (fun x => M.pure (x, a)), M.bind_assoc]
      exact (rawItem_bad hba _ _).bind_eq _ _
    · have hbb : BadFn b := hb.resolve_left hba
      have ga := get_raw (n := 0) (c := 0) ha hba fa hO (pos := List.replicate O 0) (by simp) hc
      rw [adv_init_raw ha hba hO fa.le, hz, ← List.replicate_add, Nat.add_sub_cancel' hO,
        List.drop_replicate, Nat.sub_sub_self fa.le] at ga
      rw [ga, ihb hb' hbb fb (fun x => M.pure (x, b)), M.bind_assoc]
      congr 1
      funext x
      rw [M.pure_bind, M.bind_assoc]
      exact (rawItem_bad hbb _ _).bind_eq _ _
  | _ => exact hb.elim

/-- Resetting the last dimension at first. -/
theorem reset_bad {e : Expr σ α} (hw : e.Wf) (hb : BadFn e) (n : Nat) :
    0 < e.dims.length ∧ e.resetDim (e.dims.length - 1) n = none := by
  induction e with
  | fromFn s idx f =>
    obtain ⟨-, rfl⟩ := hw
    obtain ⟨h1, h2⟩ := hb
    refine ⟨List.length_pos_of_ne_nil h2, ?_⟩
    simp [resetDim, h1, dimsDefault]
  | map e f ih =>
    obtain ⟨h1, h2⟩ := ih hw hb
    refine ⟨h1, ?_⟩
    simp only [resetDim]
    rw [show (map e f).dims = e.dims from rfl, h2]
    rfl
  | enumerate e c ih =>
    obtain ⟨h1, h2⟩ := ih hw.1 hb
    refine ⟨h1, ?_⟩
    simp only [resetDim]
    rw [show (enumerate e c).dims = e.dims from rfl, h2]
    rfl
  | zip a b s iha ihb =>
    obtain ⟨ha, hb', hz'⟩ := hw
    obtain ⟨-, sa, sb, -, -⟩ := zipShape_spec hz'
    have la : a.dims.length ≤ s.dims.length := by
      have := congrArg List.length sa; rw [List.length_drop] at this; omega
    have lb : b.dims.length ≤ s.dims.length := by
      have := congrArg List.length sb; rw [List.length_drop] at this; omega
    have hd : (zip a b s : Expr σ _).dims = s.dims := rfl
    rcases hb with hb | hb
    · obtain ⟨h1, h2⟩ := iha ha hb
      refine ⟨by rw [hd]; omega, ?_⟩
      simp only [resetDim, hd]
      rw [show s.dims.length - (s.dims.length - 1) = 1 by omega, if_pos (show 1 ≤ a.rank from h1),
        show a.rank - 1 = a.dims.length - 1 from rfl, h2]
      rfl
    · obtain ⟨h1, h2⟩ := ihb hb' hb
      refine ⟨by rw [hd]; omega, ?_⟩
      simp only [resetDim, hd]
      rw [show s.dims.length - (s.dims.length - 1) = 1 by omega,
        if_pos (show 1 ≤ b.rank from h1), show b.rank - 1 = b.dims.length - 1 from rfl, h2]
      simp
  | _ => exact hb.elim

end Expr

namespace Iter
variable {σ α : Type}
open Expr

theorem visited_eq (e : Expr σ α) : visited e = lims e.dims e.outerRank ++ e.dims.drop e.outerRank := rfl

theorem size_visited (e : Expr σ α) : size (visited e) = rows e * row e := by
  rw [visited_eq, size_append]; rfl

theorem get_rawAt {e : Expr σ α} (hw : e.Wf) (he : ¬ BadFn e) {q c n : Nat}
    (hq : q < rows e) (hc : c < row e) :
    (adv e.dims.length (unrank (lims e.dims e.outerRank) q) c n e).get c =
      M.bind (rawItem (e.dims.length - e.outerRank) e n (unrank (visited e) (q * row e + c))) fun x =>
        M.pure (x, adv e.dims.length (unrank (lims e.dims e.outerRank) q) (c + 1) (n + 1) e) := by
  have := get_raw (n := n) hw he (fit_self e) (outerRank_le e)
    (pos := unrank (lims e.dims e.outerRank) q)
    (by rw [length_unrank, length_lims (outerRank_le e)]) hc
  rw [Nat.sub_self, List.drop_zero] at this
  rw [this, visited_eq]
  rw [show row e = size (e.dims.drop e.outerRank) from rfl, (unrank_block hq hc).2]

/-- Iteration of an expression whose `n`-th item is `G n`. -/
theorem innerLoop_gen {τ : Type} {e : Expr σ α} {G : Nat → M σ α}
    (hG : ∀ q c, q < rows e → c < row e →
      (adv e.dims.length (unrank (lims e.dims e.outerRank) q) c (q * row e + c) e).get c =
        M.bind (G (q * row e + c)) fun x =>
          M.pure (x, adv e.dims.length (unrank (lims e.dims e.outerRank) q) (c + 1) (q * row e + c + 1) e))
    (f : τ → α → M σ τ) {q : Nat} (hq : q < rows e) :
    ∀ (k c : Nat) (acc : τ), c + k ≤ row e →
    innerLoop f (List.range' c k)
      (adv e.dims.length (unrank (lims e.dims e.outerRank) q) c (q * row e + c) e) acc =
    M.bind ((List.range' (q * row e + c) k).foldlM (fun acc n => M.bind (G n) (f acc)) acc) fun acc' =>
      M.pure (acc', adv e.dims.length (unrank (lims e.dims e.outerRank) q) (c + k)
        (q * row e + c + k) e) := by
  intro k
  induction k with
  | zero => intro c acc _; rfl
  | succ k ih =>
    intro c acc hc
    simp only [List.range'_succ, innerLoop, List.foldlM_cons, M.bind_eq]
    rw [hG q c hq (by omega)]
    simp only [M.bind_assoc, M.pure_bind]
    congr 1
    funext x
    congr 1
    funext acc'
    have := ih (c + 1) acc' (by omega)
    rw [← Nat.add_assoc] at this
    rw [this]
    congr 1
    funext acc''
    rw [show c + 1 + k = c + (k + 1) by omega,
      show q * row e + c + 1 + k = q * row e + c + (k + 1) by omega]

theorem foldLoop_gen {τ : Type} {e : Expr σ α} (hw : e.Wf) {G : Nat → M σ α}
    (hG : ∀ q c, q < rows e → c < row e →
      (adv e.dims.length (unrank (lims e.dims e.outerRank) q) c (q * row e + c) e).get c =
        M.bind (G (q * row e + c)) fun x =>
          M.pure (x, adv e.dims.length (unrank (lims e.dims e.outerRank) q) (c + 1) (q * row e + c + 1) e))
    (f : τ → α → M σ τ) :
    ∀ (fuel q : Nat) (acc : τ), q < rows e → rows e - q ≤ fuel →
    foldLoop f fuel (iterAt e q 0 (q * row e)) acc =
      (List.range' (q * row e) ((rows e - q) * row e)).foldlM (fun acc n => M.bind (G n) (f acc)) acc := by
  intro fuel
  induction fuel with
  | zero => intro q acc hq hfu; omega
  | succ fuel ih =>
    intro q acc hq hfu
    have hin := innerLoop_gen hG f hq (row e) 0 acc (by omega)
    rw [Nat.add_zero, Nat.zero_add] at hin
    unfold foldLoop
    change M.bind (innerLoop f (List.range' 0 (row e - 0)) _ acc) _ = _
    rw [show (iterAt e q 0 (q * row e)).expr =
      adv e.dims.length (unrank (lims e.dims e.outerRank) q) 0 (q * row e) e from rfl, Nat.sub_zero, hin]
    simp only [M.bind_assoc, M.pure_bind]
    have hstep := stepOuter_spec hw (q := q) (c := row e) (n := q * row e + row e) (k := 0) hq (by
      intro h _
      left; unfold row; rw [h]; simp)
    have hitr : ({ iterAt e q 0 (q * row e) with
        expr := adv e.dims.length (unrank (lims e.dims e.outerRank) q) (row e) (q * row e + row e) e } :
          Iter σ α) = { iterAt e q (row e) (q * row e + row e) with innerIndex := 0 } := rfl
    rw [hitr, hstep]
    have hk : (rows e - q) * row e = row e + (rows e - (q + 1)) * row e := by
      have : rows e - q = (rows e - (q + 1)) + 1 := by omega
      rw [this, Nat.add_mul, Nat.one_mul]; omega
    rw [hk, ← List.range'_append_1, List.foldlM_append]
    simp only [M.bind_eq]
    congr 1
    funext acc'
    by_cases hl : q + 1 < size (lims e.dims e.outerRank)
    · rw [if_pos hl]
      simp only [M.lift_some, M.pure_bind, if_true]
      have hih := ih (q + 1) acc' hl (by omega)
      rw [Nat.add_mul, Nat.one_mul] at hih
      exact hih
    · rw [if_neg hl]
      have : rows e - (q + 1) = 0 := by unfold rows; omega
      simp [this]

theorem fold_gen {τ : Type} {e : Expr σ α} (hw : e.Wf) (hnew : Iter.new e = iterAt e 0 0 0)
    {G : Nat → M σ α}
    (hG : ∀ q c, q < rows e → c < row e →
      (adv e.dims.length (unrank (lims e.dims e.outerRank) q) c (q * row e + c) e).get c =
        M.bind (G (q * row e + c)) fun x =>
          M.pure (x, adv e.dims.length (unrank (lims e.dims e.outerRank) q) (c + 1) (q * row e + c + 1) e))
    (f : τ → α → M σ τ) (acc : τ) :
    e.fold acc f = (List.range (rows e * row e)).foldlM (fun acc n => M.bind (G n) (f acc)) acc := by
  unfold Expr.fold fold
  rw [hnew, outerCount_iterAt]
  have := foldLoop_gen hw hG f (rows e) 0 acc (rows_pos e) (Nat.sub_le _ _)
  rw [Nat.zero_mul, Nat.sub_zero, ← List.range_eq_range'] at this
  exact this

/-- The step for the `n`-th item. -/
def visitRaw {τ : Type} (e : Expr σ α) (f : τ → α → M σ τ) (acc : τ) (n : Nat) : M σ τ :=
  M.bind (rawNth e n) fun x => f acc x

theorem new_eq_of {e : Expr σ α}
    (h : adv e.dims.length (List.replicate e.outerRank 0) 0 0 e = e) : Iter.new e = iterAt e 0 0 0 := by
  unfold Iter.new iterAt
  have h0 : unrank (lims e.dims e.outerRank) 0 = List.replicate e.outerRank 0 := by
    rw [unrank_zero, length_lims (outerRank_le e)]
  simp only [h0, ← List.replicate_add]
  rw [h]
  have : e.outerRank + (e.dims.length - e.outerRank) = e.dims.length := by
    have := outerRank_le e; omega
  rw [this]
  congr 1
  · simp [size, List.prod_eq_foldl]
  · simp

theorem outerCount_new (e : Expr σ α) : (Iter.new e).outerCount = rows e := by
  unfold outerCount Iter.new rows lims
  simp only [size, List.prod_eq_foldl]
  by_cases h : e.outerRank > 0
  · simp [h]
  · simp [show e.outerRank = 0 by omega]

theorem innerLimit_new (e : Expr σ α) : (Iter.new e).innerLimit = row e := by
  simp [Iter.new, row, size, List.prod_eq_foldl]

theorem fold_bad {τ : Type} {e : Expr σ α} (hw : e.Wf) (he : BadFn e) (hr : 0 < row e)
    (f : τ → α → M σ τ) (acc : τ) :
    e.fold acc f = (List.range (size (visited e))).foldlM (visitRaw e f) acc := by
  have hv : 0 < size (visited e) := by
    rw [size_visited]; exact Nat.mul_pos (rows_pos e) hr
  obtain ⟨N, hN⟩ : ∃ N, size (visited e) = N + 1 := ⟨_, (Nat.succ_pred_eq_of_pos hv).symm⟩
  have hz : rawNth e 0 = rawItem (e.dims.length - e.outerRank) e 0 (List.replicate e.dims.length 0) := by
    unfold rawNth
    rw [visited_eq, unrank_zero, List.length_append, length_lims (outerRank_le e), List.length_drop,
      Nat.add_sub_cancel' (outerRank_le e)]
  rw [hN, List.range_succ_eq_map, List.foldlM_cons]
  have hg := get_bad hw he (fit_self e) (outerRank_le e) hr (fun x => M.pure (x, e))
  rw [← hz] at hg
  have hbad : NeverOk (rawNth e 0) := rawItem_bad he _ _
  unfold Expr.fold fold
  have hcount : (Iter.new e).outerCount = (Iter.new e).outerCount - 1 + 1 := by
    have := rows_pos e
    rw [outerCount_new]; omega
  rw [hcount]
  unfold foldLoop
  have hlim := innerLimit_new e
  rw [show (Iter.new e).innerIndex = 0 from rfl, hlim, Nat.sub_zero]
  obtain ⟨r, hr'⟩ : ∃ r, row e = r + 1 := ⟨_, (Nat.succ_pred_eq_of_pos hr).symm⟩
  rw [hr', List.range'_succ]
  simp only [innerLoop]
  rw [show (Iter.new e).expr = e from rfl, hg]
  simp only [M.bind_assoc, visitRaw, M.bind_eq]
  exact hbad.bind_eq _ _

theorem fold_bad_zero {τ : Type} {e : Expr σ α} (hw : e.Wf) (he : BadFn e) (hr : row e = 0)
    (f : τ → α → M σ τ) (acc : τ) : e.fold acc f = M.panic := by
  unfold Expr.fold fold
  have hcount : (Iter.new e).outerCount = (Iter.new e).outerCount - 1 + 1 := by
    have := rows_pos e
    rw [outerCount_new]; omega
  rw [hcount]
  unfold foldLoop
  have hlim := innerLimit_new e
  rw [show (Iter.new e).innerIndex = 0 from rfl, hlim, hr]
  simp only [Nat.sub_zero, List.range'_zero, innerLoop, M.pure_bind]
  have hlt : e.outerRank < e.dims.length := by
    by_contra h
    unfold row at hr
    rw [List.drop_eq_nil_of_le (by omega)] at hr
    simp at hr
  have : stepOuter (Iter.new e) = none := by
    unfold stepOuter
    change (if e.outerRank < e.dims.length then e.resetDim (e.dims.length - 1) 0 else some e).bind _ = none
    rw [if_pos hlt, (reset_bad hw he 0).2]
    rfl
  change (M.lift (stepOuter { Iter.new e with innerIndex := 0, innerLimit := 0 })).bind _ = _
  have h2 : stepOuter { Iter.new e with innerIndex := 0, innerLimit := 0 } =
      (stepOuter (Iter.new e)).map fun q => (q.1, { q.2 with innerIndex := 0, innerLimit := 0 }) := by
    unfold stepOuter
    simp [Option.map_bind, Function.comp_def]
  rw [h2, this]
  rfl

theorem fold_raw {τ : Type} {e : Expr σ α} (hw : e.Wf) (he : BadFn e → 0 < row e)
    (f : τ → α → M σ τ) (acc : τ) :
    e.fold acc f = (List.range (size (visited e))).foldlM (visitRaw e f) acc := by
  by_cases hb : BadFn e
  · exact fold_bad hw hb (he hb) f acc
  · rw [fold_gen hw (new_eq_of (adv_init_raw hw hb (outerRank_le e) (le_refl _))) (G := fun n => rawNth e n)
      (fun q c hq hc => get_rawAt hw hb hq hc) f acc, size_visited]
    rfl

theorem fold_raw' {τ : Type} {e : Expr σ α} (hw : e.Wf) (he : BadFn e → 0 < row e)
    (f : τ → α → M σ τ) (acc : τ) :
    e.fold acc f = (allIdx (visited e)).zipIdx.foldlM
      (fun acc jn => M.bind (rawItem (e.dims.length - e.outerRank) e jn.2 jn.1) fun x => f acc x) acc := by
  rw [fold_raw hw he, zipIdx_allIdx, List.foldlM_map]
  rfl

/-- `next` within a row. -/
theorem next_raw_inner {e : Expr σ α} (hw : e.Wf) (he : ¬ BadFn e) {q c n : Nat}
    (hq : q < rows e) (hc : c < row e) :
    (iterAt e q c n).next = M.bind (rawItem (e.dims.length - e.outerRank) e n (unrank (visited e) (q * row e + c))) fun x =>
      M.pure (some x, iterAt e q (c + 1) (n + 1)) := by
  unfold next
  rw [if_neg (show ¬ (iterAt e q c n).innerIndex = (iterAt e q c n).innerLimit from
    Nat.ne_of_lt hc)]
  change M.bind ((adv e.dims.length (unrank (lims e.dims e.outerRank) q) c n e).get c) _ = _
  rw [get_rawAt hw he hq hc]
  simp only [M.bind_assoc, M.pure_bind]
  rfl

/-- Lanes: the outer position is ignored. -/
theorem fold_lanes {τ : Type} {r : Bool} {v : View} {a : Axis} {m : Mapping}
    (hv : v.map.WF) (hm : a.removeMap v.map = some m)
    (h0 : 0 < size (lanes r v a m 0 : Expr σ View).dims) (f : τ → View → M σ τ) (acc : τ) :
    (lanes r v a m 0 : Expr σ View).fold acc f =
      (List.range (size m.dims)).foldlM (fun acc n => M.bind
        (orUb (laneAt v a (List.replicate (lanes r v a m 0 : Expr σ View).outerRank 0 ++
          (unrank m.dims n).drop (lanes r v a m 0 : Expr σ View).outerRank))) (f acc)) acc := by
  have hw : (lanes r v a m 0 : Expr σ View).Wf := ⟨hv, hm, rfl⟩
  obtain ⟨p, hp1, hp2, hmd, hms, hmw⟩ := lanes_dims hv hm
  generalize hO : (lanes r v a m 0 : Expr σ View).outerRank = O
  have hOle : O ≤ m.dims.length := hO ▸ outerRank_le (lanes r v a m 0 : Expr σ View)
  have hdims : (lanes r v a m 0 : Expr σ View).dims = m.dims := rfl
  have hnew : Iter.new (lanes r v a m 0 : Expr σ View) = iterAt (lanes r v a m 0 : Expr σ View) 0 0 0 :=
    new_eq_of (adv_init_raw hw (fun h => h)
      (outerRank_le (lanes r v a m 0 : Expr σ View)) (le_refl _))
  have hsplit := size_split h0
  rw [hdims] at hsplit
  rw [hdims] at h0
  rw [fold_gen hw hnew (G := fun n => orUb (laneAt v a (List.replicate O 0 ++ (unrank m.dims n).drop O))) ?_ f acc,
    ← hsplit]
  intro q c hq hc
  unfold rows at hq
  unfold row at hc ⊢
  rw [hdims, hO] at hq hc ⊢
  have hlims : lims m.dims O = m.dims.take O := lims_eq h0
  rw [hlims] at hq ⊢
  have hblk := unrank_block hq hc
  rw [List.take_append_drop] at hblk
  have hl : (unrank (m.dims.take O) q).length = O := by
    rw [length_unrank, List.length_take]; omega
  have hdrop : (unrank m.dims (q * size (m.dims.drop O) + c)).drop O = unrank (m.dims.drop O) c := by
    rw [hblk.2, List.drop_left' hl]
  rw [hdrop]
  have hf := fit_self (lanes r v a m 0 : Expr σ View)
  rw [hdims, hO] at hf
  have hd := own_dot (m := m) hmw hf.suffix hf.inner hOle (pos := List.replicate O 0) (by simp) hc
  have hz : dot m.strides ((List.replicate O 0).drop (m.dims.length - m.dims.length)) = 0 := by
    rw [Nat.sub_self, List.drop_zero, dot_zeros]
  rw [hz, Nat.sub_self, List.drop_zero, zero_add] at hd
  have hJd : Valid m.dims (List.replicate O 0 ++ unrank (m.dims.drop O) c) := by
    have h1 : Valid (m.dims.take O) (List.replicate O 0) := by
      have := unrank_valid (ds := m.dims.take O) (k := 0) (by
        rw [← hlims]; exact lims_pos _ _)
      rw [unrank_zero, List.length_take, Nat.min_eq_left hOle] at this
      exact this
    conv_lhs => rw [← List.take_append_drop O m.dims]
    exact (valid_append h1.length).2 ⟨h1, unrank_valid hc⟩
  simp only [adv, Expr.get]
  generalize List.replicate O 0 ++ unrank (m.dims.drop O) c = J at *
  rw [Axis.get_eq a _ hv, show axisPos a v.map.dims.length = some p from hp1]
  simp only [laneAt, Axis.get_eq a _ hv, hp1,
    Option.bind_eq_bind, Option.bind_some, Option.pure_def]
  have hem : (Mapping.mk (.static [a.dimTy v.map.shape.ty]) [v.map.dims.getD p 0]
      [v.map.strides.getD p 0] (a.keep v.map.shape.ty v.map.layout)).isEmpty = true ↔
      v.dims.getD p 0 = 0 := by
    rw [Mapping.isEmpty_iff, Mapping.mk_dims, size_cons, size_nil, Nat.mul_one]
  by_cases h0 : v.dims.getD p 0 = 0
  · rw [if_pos h0, if_pos (hem.2 h0)]
    simp [orUb]
  · rw [if_neg h0, if_neg (fun h => h0 (hem.1 h))]
    have hgd : v.dims.getD p 0 = v.dims[p] := by
      rw [List.getD_eq_getElem?_getD, List.getElem?_eq_getElem hp2]; rfl
    have hva : Valid v.dims (J.insertIdx p 0) :=
      (valid_insertIdx hp2).2 ⟨by omega, hmd ▸ hJd⟩
    have hJl : p ≤ J.length := by
      rw [hJd.length, hmd, List.length_eraseIdx, if_pos hp2]; omega
    rw [View.index_eq v hv, if_pos hva, dot_insertIdx (by rw [hv.len]; exact hp2) hJl, ← hms, hd]
    simp [orUb]

end Iter
end Model
