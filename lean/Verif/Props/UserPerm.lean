import Verif.Lemmas.UserPerm
import Verif.Spec.UserPerm

/-!
C96: permutations of types defined outside of the crate.
-/

namespace Props
open Model Spec

variable {σ : Type}

/-- `permute` panics or gives the view with its dimensions in the order given by `into_dims`, with the promised shape
and layout types, whatever these are. For ranks below 64 it panics only if `into_dims` panics, or if the order is not a
permutation or the types cannot represent the result. -/
theorem C96 (p : UserPerm σ) (h : SafePerm p) (checks : Bool) (v : View) (hv : v.map.WF)
    (hr : checks = true ∨ v.dims.length < 64) (w : σ) :
    M.Post (p.permute checks v) w
      (fun v' t => ∃ ds w', p.dims w = .ok ds w' ∧ p.after w' = .ok () t ∧ Permuted v ds v' ∧
        v'.ty = p.shape v.ty ∧ v'.layout = p.layout v.layout)
      (fun t => p.dims w = .panic t ∨ ∃ ds w', p.dims w = .ok ds w' ∧
        (p.after w' = .panic t ∨ (v.dims.length < 64 → ¬ Fitting p v ds))) := by
  refine M.Post.bind ((h.1.post w).mono (fun _ _ h => h) fun _ h => .inl h) ?_
  intro ds w' hd
  refine M.post_bind (M.post_lift (fun m hm => ?_) fun hn => .inr ⟨ds, w', hd, .inr fun hr ⟨h1, h2, h3⟩ => ?_⟩)
  · refine M.post_bind ((h.2.post w').mono (fun _ t ht => ?_) fun t ht => .inr ⟨ds, w', hd, .inl ht⟩)
    obtain ⟨h1, h2, h3, h4, h5, h6⟩ := View.permuted_parts hv hr hm
    refine ⟨ds, w', hd, ht, ⟨h1, h2, h3, h6, fun j hj => ?_⟩, h4, h5⟩
    have hl : j.length = v.dims.length := by
      have hw : View.index ⟨v.ptr, m⟩ j = _ := View.index_eq ⟨v.ptr, m⟩ h2 j
      rw [hw] at hj
      have hj : Valid m.dims j := by
        by_contra hc
        exact hj (if_neg hc)
      rw [hj.length, h3, List.length_map, h1.length_eq, List.length_range]
    obtain ⟨i, hi, e⟩ := View.gather_surj h1 hl
    exact ⟨i, hi, e.symm⟩
  · have := View.permuted_isSome (checks := checks) hv hr h1 h2 h3
    rw [hn] at this
    cases this

/-- For the shapes of the crate this is the model used elsewhere. -/
theorem C96_own (s : Shape) (checks : Bool) (v : View) :
    (UserPerm.ofShape (σ := σ) s).permute checks v = M.lift (v.permute checks s) := by
  show M.bind (M.lift (v.map.permute checks s.dims (Perm.shapeTy s.ty v.ty) (Perm.layout s.ty v.layout))) _ =
    M.lift ((v.map.permute checks s.dims (Perm.shapeTy s.ty v.ty) (Perm.layout s.ty v.layout)).bind _)
  cases v.map.permute checks s.dims (Perm.shapeTy s.ty v.ty) (Perm.layout s.ty v.layout) <;> rfl

/-- A type that rotates the dimensions further in each call, and claims result types. -/
def rotating (ty : ShapeTy) (l : Layout) : UserPerm Nat where
  shape _ := ty
  layout _ := l
  dims n := .ok [n % 3, (n + 1) % 3, (n + 2) % 3] (n + 1)
  after n := if n = 8 then .panic n else .ok () n

/-- A dense array of rank 3. -/
def block : View := ⟨0, .dense ⟨.static [.dyn, .dyn, .dyn], [2, 3, 4]⟩⟩

/-- Rotated once; a wrong size, a wrong rank and a dense result that is reordered are refused; a dense result that is
not; and a panic after the closure was called. -/
example : block.map.WF ∧ SafePerm (rotating .dynRank .dense) ∧
    (match (rotating (.static [.dyn, .const 4, .dyn]) .strided).permute true block 1 with
      | .ok v w => some (v.dims, v.index [1, 2, 1], w)
      | _ => none) = some ([3, 4, 2], block.index [1, 1, 2], 2) ∧
    (rotating (.static [.dyn, .const 5, .dyn]) .strided).permute true block 1 = .panic 2 ∧
    (rotating (.static [.dyn, .dyn]) .strided).permute false block 1 = .panic 2 ∧
    (rotating .dynRank .dense).permute false block 1 = .panic 2 ∧
    (match (rotating .dynRank .dense).permute true block 3 with
      | .ok v w => some (v.dims, v.index [1, 2, 1], w)
      | _ => none) = some ([2, 3, 4], block.index [1, 2, 1], 4) ∧
    (rotating .dynRank .strided).permute true block 7 = .panic 8 := by
  refine ⟨by decide, ⟨fun _ => trivial, fun w => ?_⟩, by decide +kernel, by decide +kernel, by decide +kernel,
    by decide +kernel, by decide +kernel, by decide +kernel⟩
  unfold M.Post rotating
  by_cases e : w = 8 <;> simp [e]

end Props
