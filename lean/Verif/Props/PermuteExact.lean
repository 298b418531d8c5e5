import Verif.Lemmas.PermuteExact
import Verif.Props.Safety

/-! What `permute` accepts for rank 64 and more (C51). -/

namespace Props
open Spec Model

/-- The code as it is, exactly, for rank 64 and more, which only dynamic ranks have: with overflow checks `permute`
always panics. Without them, the argument is accepted if all its entries are less than the rank and their remainders
modulo 64 are exactly the numbers below the remainder of the rank. In both builds each actual permutation is
rejected, so that whatever is accepted for rank 64 and more is wrong. -/
theorem C51_exact (v : View) (hv : v.ty = .dynRank) (hr : 64 ≤ v.dims.length) (perm : Shape)
    (hp : perm.ty = .dynRank) :
    v.permute true perm = none ∧
    ((v.permute false perm).isSome ↔ perm.dims.length = v.dims.length ∧ (∀ p ∈ perm.dims, p < v.dims.length) ∧
      ∀ r < 64, (∃ p ∈ perm.dims, p % 64 = r) ↔ r < v.dims.length % 64) ∧
    ∀ checks, perm.dims.Perm (List.range v.dims.length) → v.permute checks perm = none := by
  have e : ∀ checks, (v.permute checks perm).isSome = (v.map.permute checks perm.dims .dynRank .strided).isSome := by
    intro checks
    have h1 : Perm.shapeTy perm.ty v.ty = .dynRank := by rw [hp, hv]; rfl
    have h2 : Perm.layout perm.ty v.layout = .strided := by rw [hp]; rfl
    unfold View.permute
    rw [h1, h2]
    cases v.map.permute checks perm.dims .dynRank .strided <;> rfl
  have hr' : 64 ≤ v.map.dims.length := hr
  have h1 : v.permute true perm = none := by
    rw [← Option.not_isSome_iff_eq_none, e]
    intro h
    obtain ⟨m, hm⟩ := Option.isSome_iff_exists.1 h
    exact absurd (Mapping.permute_strided_checked hm) (by omega)
  have h2 := Mapping.permute_release_isSome v.map perm.dims (by omega)
  rw [← e] at h2
  refine ⟨h1, h2, fun checks h => ?_⟩
  cases checks with
  | true => exact h1
  | false =>
    rw [← Option.not_isSome_iff_eq_none]
    intro hs
    have := ((h2.1 hs).2.2 63 (by omega)).1 ⟨63, h.mem_iff.2 (List.mem_range.2 (by omega)), rfl⟩
    omega

/-- 70 axes with the entries 0 to 5 and 64 to 69 only. -/
example :
    let v := whole ⟨.dynRank, List.replicate 70 1⟩
    let perm : Shape := ⟨.dynRank, List.replicate 58 5 ++ [0, 1, 2, 3, 4, 5, 64, 65, 66, 67, 68, 69]⟩
    v.ty = .dynRank ∧ 64 ≤ v.dims.length ∧ (v.permute false perm).isSome ∧
      ¬ perm.dims.Perm (List.range 70) := by
  refine ⟨rfl, by decide, by decide +kernel, fun hp => ?_⟩
  exact absurd (hp.nodup_iff.2 List.nodup_range) (by decide +kernel)

end Props
