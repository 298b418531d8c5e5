import Verif.Lemmas.UserAssign
import Verif.Lemmas.UserExprOwn
import Verif.Lemmas.Zip

/-!
Views without elements combined with expressions defined outside of the crate.
-/

namespace Model
open Spec

variable {σ ρ T α : Type}

namespace UserExpr

section
variable {u : UserExpr σ α} {s : Shape} {k : Nat} {v : View} (h : NeverPanics u)
  (hs : Steady { u with forEach := none } s k)
include h hs

theorem user_shape (w : σ) : ∃ w', u.shape w = .ok s w' := by
  obtain ⟨a, w', e⟩ := h.shape w
  have := hs.shape _ _ _ e
  subst this
  exact ⟨w', e⟩

theorem user_rank (w : σ) : ∃ w', u.rank w = .ok s.rank w' := by
  obtain ⟨w', e⟩ := user_shape h hs w
  exact ⟨w', bind_ok e⟩

/-- `Zip::new` succeeds if the dimensions match. -/
theorem zipNew_ok (hv : v.map.WF) {rep : Bool} (hd : s.dims <:+ v.dims) (hr : rep = false → s.dims = v.dims) (w : σ) :
    ∃ S w', u.zipNew v rep w = .ok S w' ∧ S.dims = v.dims := by
  have hle : s.dims.length ≤ v.dims.length := hd.length_le
  have hdrop : v.dims.drop (v.dims.length - s.dims.length) = s.dims := (List.suffix_iff_eq_drop.1 hd).symm
  obtain ⟨w1, e1⟩ := user_rank h hs w
  have hc : ∃ w2, u.zipCheck v rep w1 = .ok () w2 := by
    unfold zipCheck
    cases rep with
    | true => exact ⟨w1, rfl⟩
    | false =>
      obtain ⟨w2, e2⟩ := user_rank h hs w1
      refine ⟨w2, (bind_ok e2).trans ?_⟩
      rw [show check (v.map.rank ≤ s.rank) = some () from if_pos (by
        show v.dims.length ≤ s.dims.length
        rw [hr rfl])]
      rfl
  obtain ⟨w2, e2⟩ := hc
  obtain ⟨w3, e3⟩ := user_shape h hs w2
  refine ⟨⟨Expr.zipTy v.map.shape.ty u.ty, v.dims⟩, w3, (bind_ok e1).trans ?_, rfl⟩
  rw [show check (s.rank ≤ v.map.rank) = some () from if_pos hle]
  refine (bind_ok e2).trans ((bind_ok e3).trans ?_)
  rw [if_neg (by omega), Nat.sub_self, List.drop_zero,
    show check (v.dims.drop (v.dims.length - s.dims.length) = s.dims) = some () from if_pos hdrop]
  have hcf := Expr.zipTy_conforms (r := v.map.shape.ty) (s := u.ty) (ds := v.dims) (es := s.dims) hv.1
    (hs.ty ▸ hs.wf) fun i _ hi => by
      obtain ⟨p, hp⟩ := hd
      rw [← hp, List.reverse_append, List.getElem?_append_left (by rw [List.length_reverse]; exact hi)]
  rw [if_neg (by omega)] at hcf
  show M.lift (Shape.fromDims _ _) w3 = _
  rw [Shape.fromDims_eq, if_pos hcf]
  rfl

/-- The first item is the start of the view, also if there are no elements. -/
theorem zipForEach_ub (hv : v.map.WF) {rep : Bool} (hd : s.dims <:+ v.dims) (hr : rep = false → s.dims = v.dims)
    (hp : 0 < size (v.dims.drop (v.dims.length - zipRank v.map k))) {f : Int × α → M (σ × ρ) Unit} {r : ρ}
    (hf : ∀ x w, f (v.ptr, x) (w, r) = .ub) (w : σ) : u.zipForEach v rep f (w, r) = .ub := by
  obtain ⟨S, w1, e1, hS⟩ := zipNew_ok h hs hv hd hr w
  have e1' : M.up (u.zipNew v rep) (w, r) = .ok S (w1, r) := by unfold M.up; dsimp only; rw [e1]
  refine (bind_ok e1').trans (bind_ub ?_)
  have key : ((u.zipView v S).runForEach fun x => M.up (f x)) ((w1, r), v.ptr) = .ub := by
    obtain ⟨a, w2, e2⟩ := h.innerRank w1
    have := hs.innerRank _ _ _ e2
    subst this
    have e2' : (zipView v S u : UserExpr ((σ × ρ) × Int) (Int × α)).outerRank ((w1, r), v.ptr) =
        .ok (S.rank - zipRank v.map a) ((w2, r), v.ptr) := by
      show M.bind (M.bind (M.up (M.up u.innerRank)) _) _ ((w1, r), v.ptr) = _
      unfold M.bind M.up
      dsimp only
      rw [e2]
      rfl
    obtain ⟨oi, ol, e3⟩ : ∃ oi ol, (zipView v S u : UserExpr ((σ × ρ) × Int) (Int × α)).iter ((w1, r), v.ptr) =
        .ok ⟨0, size (S.dims.drop (S.rank - zipRank v.map a)), oi, ol⟩ ((w2, r), v.ptr) := by
      have hl : (S.dims.drop (S.rank - zipRank v.map a)).foldl (· * ·) 1 =
          size (S.dims.drop (S.rank - zipRank v.map a)) := by
        rw [foldl_mul, Nat.one_mul]
      have hck : check (S.rank - zipRank v.map a ≤ S.dims.length) = some () := if_pos (Nat.sub_le _ _)
      by_cases ho : S.rank - zipRank v.map a > 0
      · refine ⟨List.replicate S.rank 0, S.dims, (bind_ok e2').trans ?_⟩
        show M.bind (M.lift (check (S.rank - zipRank v.map a ≤ S.dims.length))) _ _ = _
        rw [hck]
        show (if S.rank - zipRank v.map a > 0 then _ else _ : M ((σ × ρ) × Int) UserIter) _ = _
        rw [if_pos ho, ← hl]
        rfl
      · refine ⟨defaultDims S.ty, defaultDims S.ty, (bind_ok e2').trans ?_⟩
        show M.bind (M.lift (check (S.rank - zipRank v.map a ≤ S.dims.length))) _ _ = _
        rw [hck]
        show (if S.rank - zipRank v.map a > 0 then _ else _ : M ((σ × ρ) × Int) UserIter) _ = _
        rw [if_neg ho, ← hl]
        rfl
    refine (bind_ok e3).trans ?_
    have hSr : S.rank = v.dims.length := congrArg List.length hS
    rw [hSr, hS]
    obtain ⟨n, hn⟩ : ∃ n, outerCount ⟨0, size (v.dims.drop (v.dims.length - zipRank v.map a)), oi, ol⟩ = n + 1 :=
      ⟨_, (Nat.succ_pred_eq_of_pos (by rw [outerCount_eq]; exact count_pos _ _)).symm⟩
    obtain ⟨m, hm⟩ : ∃ m, size (v.dims.drop (v.dims.length - zipRank v.map a)) = m + 1 :=
      ⟨_, (Nat.succ_pred_eq_of_pos hp).symm⟩
    rw [hn]
    refine bind_ub ?_
    show innerLoop (zipView v S u) (fun _ x => M.up (f x)) (List.range' 0
      (size (v.dims.drop (v.dims.length - zipRank v.map a)) - 0)) () ((w2, r), v.ptr) = .ub
    rw [hm, Nat.sub_zero, List.range'_succ]
    obtain ⟨x, w3, e4⟩ := h.get 0 w2
    have e5 : (zipView v S u : UserExpr ((σ × ρ) × Int) (Int × α)).get 0 ((w2, r), v.ptr) =
        .ok (v.ptr, x) ((w3, r), v.ptr) := by
      show M.bind (M.up (M.up (u.get 0))) (fun x => M.pure (v.ptr + v.map.innerStride * ((0 : Nat) : Int), x)) _ = _
      unfold M.bind M.up
      dsimp only
      rw [e4]
      simp [M.pure]
    refine (bind_ok e5).trans (bind_ub ?_)
    unfold M.up
    dsimp only
    rw [hf]
  unfold M.scope
  rw [key]

end
end UserExpr
end Model
