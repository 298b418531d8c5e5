import Verif.Spec.Expr

/-!
What iteration does for any expression, including those with the known defects: a zero outer dimension
(phantom rows, see DESIGN.md, B2), lanes (B1), `from_fn` with a dynamic rank (B4) and subarrays whose size
overflows (B13). This vocabulary is used to state exactly what happens when the code is wrong, and that
memory safety does not depend on the latter three.
-/

namespace Spec
open Model

/-- Some part of the expression is a `from_fn` with a dynamic rank other than 0. -/
def BadFn {σ : Type} : {α : Type} → Expr σ α → Prop
  | _, .fromFn s _ _ => s.ty = .dynRank ∧ s.dims ≠ []
  | _, .map e _ => BadFn e
  | _, .enumerate e _ => BadFn e
  | _, .zip a b _ => BadFn a ∨ BadFn b
  | _, _ => False

/-- The item at the multi-index `j`, as the `n`-th item of an iteration with `inner` inner dimensions,
without any check that `j` is a valid index: the address is computed from the strides, and an owned buffer
is just read further. Lanes ignore the coordinates of outer dimensions. Subarrays are only given out if
their size does not overflow. -/
def rawItem {σ : Type} (inner : Nat) : {α : Type} → Expr σ α → (n : Nat) → (j : List Nat) → M σ α
  | _, .view _ v, _, j => M.pure (v.ptr + dot v.map.strides j)
  | _, .axis _ v a m _, _, j => M.lift ((a.removeMap v.map).bind fun w =>
      if NoOverflow usizeMax w.dims then
        some ⟨v.ptr + if size w.dims = 0 then 0 else dot m.strides j, w⟩
      else none)
  | _, .lanes _ v a m _, _, j => M.lift ((a.get v.map).map fun w =>
      ⟨v.ptr + if size w.dims = 0 then 0 else dot m.strides
        (List.replicate (m.dims.length - inner) 0 ++ j.drop (m.dims.length - inner)), w⟩)
  | _, .fill f, _, _ => f
  | _, .fromElem _ f, _, _ => f
  | _, .fromFn s _ f, _, j =>
    if s.ty = .dynRank ∧ s.dims ≠ [] then M.bind (f []) fun _ => M.panic else f j
  | _, .intoExpr _ buf _, n, _ => orUb buf[n]?
  | _, .map e f, n, j => M.bind (rawItem inner e n j) f
  | _, .enumerate e _, n, j => M.bind (rawItem inner e n j) fun x => M.pure (n, x)
  | _, .zip a b s, n, j =>
    M.bind (rawItem inner a n (j.drop (s.dims.length - a.dims.length))) fun x =>
      M.bind (rawItem inner b n (j.drop (s.dims.length - b.dims.length))) fun y => M.pure (x, y)

/-- The dimensions that are iterated: zero outer dimensions count as one. -/
def visited {σ : Type} {α : Type} (e : Expr σ α) : List Nat :=
  (e.dims.take e.outerRank).map (fun d => max d 1) ++ e.dims.drop e.outerRank

/-- The `n`-th item of the iteration of `e`. -/
def rawNth {σ : Type} {α : Type} (e : Expr σ α) (n : Nat) : M σ α :=
  rawItem (e.dims.length - e.outerRank) e n (unrank (visited e) n)

/-- The dimensions that are iterated for a view. -/
def visitedDims (v : View) : List Nat :=
  match v.layout with
  | .dense => v.dims
  | .strided => v.dims.dropLast.map (fun d => max d 1) ++ v.dims.getLast?.toList

end Spec
