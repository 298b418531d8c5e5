import Verif.Lemmas.UserZip
import Verif.Spec.UserZip

/-!
Assigning expressions defined outside of the crate.
-/

namespace Model
open Spec

variable {σ ρ T α : Type}

namespace UserExpr

theorem rowRank_eq (v : View) (k : Nat) : rowRank v k = zipRank v.map k := by
  unfold rowRank zipRank Expr.mapInnerRank
  cases v.map with
  | dense s =>
    by_cases h : s.ty.rank? = some 0
    · simp [Mapping.isDense, Mapping.shape, h]
    · simp [Mapping.isDense, Mapping.shape, h, Mapping.rank, Shape.rank]
  | strided s st =>
    by_cases h : s.dims.length = 0
    · simp [Mapping.isDense, Mapping.shape, h, Mapping.rank, Shape.rank]
    · have : 0 < s.dims.length := by omega
      simp [Mapping.isDense, Mapping.shape, Mapping.rank, Shape.rank, this, h]

/-- All values handed out since world `w₀` are `ys`, for which `P` holds. -/
def Handed (u : UserExpr σ α) (w₀ : σ) (P : List α → ρ → Prop) (N n : Nat) (t : σ × ρ) : Prop :=
  n ≤ N ∧ ∃ ys, ys.length = n ∧ HandedOut u w₀ ys t.1 ∧ P ys t.2

section
variable {u : UserExpr σ α} {s : Shape} {k N : Nat} {w₀ : σ} {P : List α → ρ → Prop}

theorem runs_handed (h : SafeCode u) (hs : Steady { u with forEach := none } s k) (n : Nat) :
    Runs u.up s k (Handed u w₀ P N n) fun t => ∃ n, Handed u w₀ P N n t where
  shape := by
    rintro ⟨w, t⟩ ⟨hn, ys, h1, h2, h3⟩
    refine M.post_up ((post_all h.shape fun g (hg : Notes u g) => hg.shape w).mono ?_ ?_)
    · rintro a w' ⟨e, hg⟩
      exact ⟨hs.shape _ _ _ e, hn, ys, h1, handed_keep h2 hg, h3⟩
    · intro w' hg
      exact ⟨n, hn, ys, h1, handed_keep h2 hg, h3⟩
  innerRank := by
    rintro ⟨w, t⟩ ⟨hn, ys, h1, h2, h3⟩
    refine M.post_up ((post_all h.innerRank fun g (hg : Notes u g) => hg.innerRank w).mono ?_ ?_)
    · rintro a w' ⟨e, hg⟩
      exact ⟨hs.innerRank _ _ _ e, hn, ys, h1, handed_keep h2 hg, h3⟩
    · intro w' hg
      exact ⟨n, hn, ys, h1, handed_keep h2 hg, h3⟩
  resetDim := by
    rintro i c ⟨w, t⟩ ⟨hn, ys, h1, h2, h3⟩
    refine M.post_up ((post_all (h.resetDim i c) fun g (hg : Notes u g) => hg.resetDim i c w).mono ?_ ?_)
    · rintro a w' ⟨e, hg⟩
      exact ⟨hn, ys, h1, handed_keep h2 hg, h3⟩
    · intro w' hg
      exact ⟨n, hn, ys, h1, handed_keep h2 hg, h3⟩
  stepDim := by
    rintro i ⟨w, t⟩ ⟨hn, ys, h1, h2, h3⟩
    refine M.post_up ((post_all (h.stepDim i) fun g (hg : Notes u g) => hg.stepDim i w).mono ?_ ?_)
    · rintro a w' ⟨e, hg⟩
      exact ⟨hn, ys, h1, handed_keep h2 hg, h3⟩
    · intro w' hg
      exact ⟨n, hn, ys, h1, handed_keep h2 hg, h3⟩
  panic _ hw := ⟨n, hw⟩

/-- A closure which does not panic is called for each element with the values handed out. -/
theorem post_zipHanded {v : View} (h : SafeCode u) (hs : Steady { u with forEach := none } s k) (hv : v.map.WF)
    (rep : Bool) (hp : EmptyRows v k) {f : Int × α → M (σ × ρ) Unit}
    (hb : ∀ ys r, ys.length < size v.dims → P ys r → ∀ p, v.index (unrank v.dims ys.length) = some p → ∀ x w,
      ∃ r', f (p, x) (w, r) = .ok () (w, r') ∧ P (ys ++ [x]) r')
    {w : σ} {r : ρ} (hw : P [] r) :
    M.Post (u.zipForEach v rep f) (w, r)
      (fun _ t => (s.dims <:+ v.dims ∧ (rep = false → s.dims = v.dims)) ∧
        ∃ ys, ys.length = size v.dims ∧ HandedOut u w ys t.1 ∧ P ys t.2)
      fun t => ∃ ys, ys.length ≤ size v.dims ∧ HandedOut u w ys t.1 ∧ P ys t.2 := by
  unfold EmptyRows at hp
  rw [rowRank_eq] at hp
  refine (post_zipForEach (J := Handed u w P (size v.dims)) h hs.innerRank hv rep hp (runs_handed h hs) ?_
    (w := (w, r)) ⟨Nat.zero_le _, [], rfl, handed_nil u w, hw⟩).mono ?_ ?_
  · rintro n hn p hpos i ⟨w', r'⟩ ⟨-, ys, rfl, h2, h3⟩
    refine M.Post.bind (P := fun x t => t.2 = r' ∧ HandedOut u w (ys ++ [x]) t.1)
      (M.post_up ((post_all (h.get i) fun g (hg : Notes u g) => hg.get i w').mono ?_ ?_)) ?_
    · rintro x w'' ⟨-, hg⟩
      exact ⟨rfl, handed_snoc h2 hg⟩
    · intro w'' hg
      exact ⟨_, Nat.le_of_lt hn, ys, rfl, handed_keep h2 hg, h3⟩
    · rintro x ⟨w'', r''⟩ ⟨rfl, hx⟩
      obtain ⟨r', e, hP⟩ := hb ys _ hn h3 p hpos x w''
      unfold M.Post
      rw [e]
      exact ⟨hn, ys ++ [x], by simp, hx, hP⟩
  · rintro _ t ⟨hc, -, q⟩
    exact ⟨hc, q⟩
  · rintro t ⟨n, hn, ys, rfl, q⟩
    exact ⟨ys, hn, q⟩

end
end UserExpr
end Model
