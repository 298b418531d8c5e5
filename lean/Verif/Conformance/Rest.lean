import Verif.Conformance.Base
import Verif.Model.Ops
import Verif.Model.SerdeCalls

/-!
The remaining tests of `tests/test.rs`, and the examples in the documentation of the source files, evaluated on the
model; see `Conformance/Base.lean`. The texts of `Debug` are in `Conformance/Debug.lean`. Not covered: conversions that
keep the address (`test_traits`), and the alignment of a custom allocator.
-/

namespace Conformance
open Model Spec

/-! ### `test_expr`. -/

/-- The elements of a borrowed tensor as an expression. -/
def ref (o : Own Nat) : Expr Unit Nat := .map (.view true (all o)) fun p => M.lift (memory o p)

/-- `eval()` of a lazy expression. -/
def evalTo {T : Type} (e : Option (Expr Unit T)) : Option (List Nat × List T) :=
  match e with
  | none => none
  | some e => (run (eval e) ⟨[], 0, e.shape, [], 10 ^ 6⟩).bind show'

/-- Tensor given by an operator. -/
def outcome {T : Type} (x : M Unit (Own T)) : Option (List Nat × List T) := (result x).bind show'

-- tests/test.rs:354-355
example : outcome (binOp (10 ^ 6) (fun x y => M.pure (x + y)) (.expr (ref t23)) (.expr (ref (tens [3] [1, 2, 3])))) =
    some ([2, 3], [2, 4, 6, 5, 7, 9]) := by decide +kernel
example : outcome (binOp (10 ^ 6) (fun x y => M.pure (x + y)) (.expr (ref (tens [3] [1, 2, 3]))) (.expr (ref t23))) =
    some ([2, 3], [2, 4, 6, 5, 7, 9]) := by decide +kernel
-- tests/test.rs:385-387
example : evalTo (some (.map (ref t23) fun x => M.pure (x + 3))) = some ([2, 3], [4, 5, 6, 7, 8, 9]) := by
  decide +kernel

/-- tests/test.rs:389. -/
def c32 : Own Nat := tens [3, 2] [1, 2, 3, 4, 5, 6]

-- tests/test.rs:391-394
example : ((run (expand (.intoExpr ⟨dynTy 2, [2, 2]⟩ [7, 8, 9, 10] 0) M.pure) c32).bind fun c =>
    (run (expand (ref (tens [1, 2] [11, 12])) M.pure) c).bind show') =
    some ([6, 2], [1, 2, 3, 4, 5, 6, 7, 8, 9, 10, 11, 12]) := by decide +kernel

/-- The memory after `assign` to a dense array. -/
def assigned (ds : List Nat) (e : Expr Unit Nat) : Option (List Nat) :=
  match assign (whole ⟨dynTy ds.length, ds⟩) e M.pure ((), List.replicate (ds.foldl (· * ·) 1) 0) with
  | .ok _ w => some w.2
  | _ => none

-- tests/test.rs:396-402
example : assigned [6, 2] (.intoExpr ⟨dynTy 2, [6, 2]⟩ (List.replicate 12 1) 0) = some (List.replicate 12 1) := by
  decide +kernel
example : assigned [6, 2] (ref (tens [6, 2] (List.replicate 12 2))) = some (List.replicate 12 2) := by decide +kernel

-- tests/test.rs:404, 407
example : (evalTo (match Expr.zipNew (ref (tens [2, 2] [1, 2, 3, 4])) (ref (tens [2] [5, 6])) with
    | none => none
    | some z => some z)) = some ([2, 2], [(1, 5), (2, 6), (3, 5), (4, 6)]) := by decide +kernel
-- tests/test.rs:405, 408
example : evalTo (some (Expr.enumerateNew (.intoExpr ⟨dynTy 2, [3, 2]⟩ (List.replicate 6 1) 0))) =
    some ([3, 2], [(0, 1), (1, 1), (2, 1), (3, 1), (4, 1), (5, 1)]) := by decide +kernel

/-- The items of `lanes(axis)`. -/
def lanesOf (o : Own Nat) (ax : Axis) : Option (List (List Nat × List Nat)) :=
  copies o (Expr.lanesNew true (all o) ax)

-- tests/test.rs:410-417
example : lanesOf t23 .cols = some [([2], [1, 4]), ([2], [2, 5]), ([2], [3, 6])] := by decide +kernel
example : lanesOf t23 (.const 0) = some [([2], [1, 4]), ([2], [2, 5]), ([2], [3, 6])] := by decide +kernel
example : lanesOf t23 (.dyn 1) = some [([3], [1, 2, 3]), ([3], [4, 5, 6])] := by decide +kernel
example : lanesOf t23 .rows = some [([3], [1, 2, 3]), ([3], [4, 5, 6])] := by decide +kernel

/-! ### `test_hash`. -/

-- tests/test.rs:421-431: the numbers that the hasher gets
example : (match viewHash (σ := List Nat) (fun n s => .ok () (s ++ [n]))
      (fun p s => .ok () (s ++ (memory (tens [1, 2, 3] [4, 5, 6, 7, 8, 9]) p).toList))
      (all (tens [1, 2, 3] [4, 5, 6, 7, 8, 9])) [] with
    | .ok _ s => s
    | _ => []) = (List.range 9).map (· + 1) := by decide +kernel

/-! ### `test_index`. -/

/-- Rank and layout of the type of a view of a `1 × 1` array with layout `l`, tests/test.rs:52-76. -/
def viewTy (l : Layout) (xs : List DimIdx) : Option (Option Nat × Layout) :=
  ((whole ⟨dynTy 2, [1, 1]⟩).remap (dynTy 2) l).bind fun v => (v.view xs).map fun w => (w.ty.rank?, w.layout)

/-- `step(.., 2)`. -/
def sr : DimIdx := .step .unbounded .unbounded 2

/-- The arguments in the order of the test, with the rank and the layout that the type must have
(`none`: the layout of the array). -/
def viewCases : List (List DimIdx × Nat × Option Layout) :=
  [([.int 0, .int 0], 0, none), ([.full, .int 0], 1, some .strided), ([from' 1, .int 0], 1, some .strided),
   ([sr, .int 0], 1, some .strided), ([.int 0, .full], 1, none), ([.full, .full], 2, none),
   ([from' 1, .full], 2, none), ([sr, .full], 2, some .strided), ([.int 0, from' 1], 1, none),
   ([.full, from' 1], 2, some .strided), ([from' 1, from' 1], 2, some .strided), ([sr, from' 1], 2, some .strided),
   ([.int 0, sr], 1, some .strided), ([.full, sr], 2, some .strided), ([from' 1, sr], 2, some .strided),
   ([sr, sr], 2, some .strided)]

-- tests/test.rs:56-75, 435-438
example : ∀ l ∈ [Layout.dense, Layout.strided],
    ∀ x ∈ viewCases, viewTy l x.1 = some (some x.2.1, x.2.2.getD l) := by decide +kernel

/-! ### `test_macros`. -/

-- tests/test.rs:470-482
example : ∀ n ∈ List.range 6,
    (run (tensorFromArray (dynTy (n + 1)) (List.replicate n 1 ++ [0])
      (Nat.repeat (fun x => Arr.arr [x]) n (Arr.arr []))) (fresh (dynTy (n + 1)))).map (·.shape.dims) =
        some (List.replicate n 1 ++ [0]) ∧
    (viewFromArray (dynTy (n + 1)) (List.replicate n 1 ++ [0])).map (·.dims) = some (List.replicate n 1 ++ [0]) := by
  decide +kernel
-- tests/test.rs:484-496
example : (run (tensorFromArray (dynTy 3) [1, 2, 3]
      (Arr.arr [.arr [.arr [.elem 1, .elem 2, .elem 3], .arr [.elem 4, .elem 5, .elem 6]]])) (fresh (dynTy 3))).bind show' =
    some ([1, 2, 3], [1, 2, 3, 4, 5, 6]) := by decide +kernel
-- tests/test.rs:498-510
example : (run (tensorRepeat [1, 2, 3, 4] (M.pure 0)) (fresh (dynTy 4))).bind show' =
    some ([4, 3, 2, 1], List.replicate 24 0) := by decide +kernel

/-! ### `test_mapping`. -/

/-- tests/test.rs:515. -/
def dm : Mapping := .dense ⟨.static [.const 1, .dyn, .const 3], [1, 2, 3]⟩
/-- tests/test.rs:516. -/
def sm : Option Mapping := (Shape.fromDims .dynRank [1, 2, 3]).bind fun s => Mapping.newStrided s [4, 5, 6]

-- tests/test.rs:518-526
example : dm.isContiguous = true ∧ sm.map (·.isEmpty) = some false ∧ dm.len = 6 ∧ sm.map (·.rank) = some 3 ∧
    dm.dim 2 = some 3 ∧ sm.map (·.dims) = some [1, 2, 3] ∧ dm.stride 0 = some 6 ∧
    (sm.bind fun m => (List.range 3).mapM m.stride) = some [4, 5, 6] := by decide +kernel

/-! ### `test_ops`. -/

/-- A tensor with two dimensions. -/
def tensInt (ty : ShapeTy) (xs : List Int) : Own Int := ⟨xs.map some, 0, ⟨ty, [2, 3]⟩, [], 10 ^ 6⟩

/-- tests/test.rs:537-538. -/
def b0 : Own Int := tensInt (dynTy 2) [9, 8, 7, 6, 5, 4]

/-- The elements of a borrowed tensor. -/
def refInt (o : Own Int) : Expr Unit Int := .map (.view true (all o)) fun p => M.lift (memory o p)

/-- `a -= e`. -/
def subAssign (o : Own Int) (e : Expr Unit Int) : Option (Own Int) :=
  match opAssign (all o) e (fun x y => M.pure (x - y)) ((), o.cells.filterMap id) with
  | .ok _ w => some { o with cells := w.2.map some }
  | _ => none

/-- Subtract three expressions in turn. -/
def sub3 (o : Own Int) : Option (Own Int) :=
  (subAssign o (.fill (M.pure 1))).bind fun o => (subAssign o (refInt b0)).bind fun o => subAssign o (refInt b0)

-- tests/test.rs:540-548
example : (sub3 (tensInt (dynTy 2) [1, 2, 3, 4, 5, 6])).bind (fun o => (sub3 o).bind show') =
    some ([2, 3], [-37, -32, -27, -22, -17, -12]) := by decide +kernel

/-- An owned tensor as an operand. -/
def ownOp (o : Own Int) : Operand Unit Int := .tensor o.shape (o.cells.filterMap id)
/-- `x - y`. -/
def minus (x y : Operand Unit Int) : M Unit (Own Int) := binOp (10 ^ 6) (fun x y => M.pure (x - y)) x y
/-- `expr::fill(1)`. -/
def one : Operand Unit Int := .expr (.fill (M.pure 1))

-- tests/test.rs:550-558
example : outcome (do
      let a ← minus (ownOp (tensInt (dynTy 2) [-37, -32, -27, -22, -17, -12])) one
      let a ← minus (ownOp a) (.expr (refInt b0))
      let a ← minus (ownOp a) (.expr (refInt b0))
      let a ← minus one (ownOp a)
      let a ← minus (.expr (refInt b0)) (ownOp a)
      minus (.expr (refInt b0)) (ownOp a)) = some ([2, 3], [57, 50, 43, 36, 29, 22]) := by decide +kernel

/-- tests/test.rs:560: the shape has a dynamic rank from here. -/
def a1 : Option (Own Int) :=
  (ShapeArg.intoShape (.slice [2, 3])).bind fun s => run (tensorIntoShape s) (tensInt (dynTy 2) [57, 50, 43, 36, 29, 22])

-- tests/test.rs:562-567
example : a1.map (·.shape.ty) = some .dynRank ∧ (a1.bind fun a => outcome (do
      let a ← minus (.expr (refInt a)) (.expr (refInt b0))
      let a ← minus (.expr (refInt a)) (.expr (refInt b0))
      let a ← minus (.expr (refInt a)) (.expr (refInt b0))
      minus (.expr (refInt a)) (.expr (refInt b0)))) = some ([2, 3], [21, 18, 15, 12, 9, 6]) := by decide +kernel
-- tests/test.rs:569-575
example : outcome (do
      let a ← minus (.expr (refInt (tensInt .dynRank [21, 18, 15, 12, 9, 6]))) one
      let a ← minus (.expr (refInt a)) one
      let a ← minus one (.expr (refInt a))
      minus one (.expr (refInt a))) = some ([2, 3], [19, 16, 13, 10, 7, 4]) := by decide +kernel
-- tests/test.rs:577-581
example : outcome (do
      let a ← unOp (10 ^ 6) (fun x => M.pure (-x)) (ownOp (tensInt .dynRank [19, 16, 13, 10, 7, 4]))
      let a ← unOp (10 ^ 6) (fun x => M.pure (-x)) (.expr (refInt a))
      unOp (10 ^ 6) (fun x => M.pure (-x)) (.expr (refInt a))) = some ([2, 3], [-19, -16, -13, -10, -7, -4]) := by
  decide +kernel
-- tests/test.rs:583-586
example : result (viewEq (fun p q => M.pure (p == q)) (whole ⟨.dynRank, [2, 3]⟩) (whole ⟨.dynRank, [2, 3]⟩)) =
    some true := by decide +kernel
-- tests/test.rs:588-591
example : (match Expr.fromElemNew ⟨dynTy 2, [3, 2]⟩ (M.pure 4 : M Unit Nat) with
    | none => none
    | some f => match Expr.zipNew f (.fill (M.pure 1)) with
      | none => none
      | some z => match Expr.fromFnNew ⟨dynTy 2, [3, 2]⟩ fun i => (M.pure (i[0]! + i[1]!) : M Unit Nat) with
        | none => none
        | some g => outcome (binOp (10 ^ 6) (fun x y => M.pure (x + y))
            (.expr (.map z fun p => M.pure (p.2 + p.1))) (.expr g))) = some ([3, 2], [5, 6, 6, 7, 7, 8]) := by
  decide +kernel

/-! ### `test_serde`. -/

/-- Tokens of the test. -/
inductive Token
  | seq (len : Nat)
  | i32 (n : Nat)
  | seqEnd
  deriving DecidableEq

/-- Tokens that a tensor is serialised to. -/
def tokens (o : Own Nat) : List Token :=
  match serializeCalls (σ := List Token) (ε := Unit) (fun call s =>
      match call with
      | .start n => .ok none (s ++ [.seq n])
      | .leaf p => .ok none (s ++ ((memory o p).map Token.i32).toList)
      | .stop => .ok none (s ++ [.seqEnd])
      | .element => .ok none s
      | .finish => .ok none s) (all o) [] with
  | .ok none s => s
  | _ => []

/-- Shape and elements that are read back; the format knows the length of each sequence. -/
def reads (ty : ShapeTy) (v : Val Nat) : Option (Option (List Nat × List Nat)) :=
  (deserialize (10 ^ 6) (fun x => match x with
    | .leaf n => some n
    | .seq _ _ => none) ty v).map fun r => r.map fun p => (p.1.dims, p.2)

/-- A tensor of any shape type. -/
def tensTy (ty : ShapeTy) (ds xs : List Nat) : Own Nat := ⟨xs.map some, 0, ⟨ty, ds⟩, [], 10 ^ 6⟩

/-- A sequence of known length. -/
def seqOf (xs : List (Val Nat)) : Val Nat := .seq xs.length xs

-- tests/test.rs:597, 635
example : tokens (tens [] [123]) = [.i32 123] ∧ reads (.static []) (.leaf 123) = some (some ([], [123])) := by
  decide +kernel
-- tests/test.rs:599
example : tokens (tensTy (.static [.const 0, .const 3]) [0, 3] []) = [.seq 0, .seqEnd] ∧
    reads (.static [.const 0, .const 3]) (seqOf []) = some (some ([0, 3], [])) := by decide +kernel
-- tests/test.rs:601-613
example : tokens (tensTy (.static [.const 3, .const 0]) [3, 0] []) =
      [.seq 3, .seq 0, .seqEnd, .seq 0, .seqEnd, .seq 0, .seqEnd, .seqEnd] ∧
    reads (.static [.const 3, .const 0]) (seqOf [seqOf [], seqOf [], seqOf []]) = some (some ([3, 0], [])) := by
  decide +kernel
-- tests/test.rs:615-633
example : tokens (tensTy (.static [.const 1, .const 2, .const 3]) [1, 2, 3] [4, 5, 6, 7, 8, 9]) =
      [.seq 1, .seq 2, .seq 3, .i32 4, .i32 5, .i32 6, .seqEnd, .seq 3, .i32 7, .i32 8, .i32 9, .seqEnd, .seqEnd,
        .seqEnd] ∧
    reads (.static [.const 1, .const 2, .const 3])
      (seqOf [seqOf [seqOf [.leaf 4, .leaf 5, .leaf 6], seqOf [.leaf 7, .leaf 8, .leaf 9]]]) =
        some (some ([1, 2, 3], [4, 5, 6, 7, 8, 9])) := by decide +kernel
-- tests/test.rs:637
example : (Shape.default (.static [.dyn, .const 3])).dims = [0, 3] ∧
    tokens (tensTy (.static [.dyn, .const 3]) [0, 3] []) = [.seq 0, .seqEnd] ∧
    reads (.static [.dyn, .const 3]) (seqOf []) = some (some ([0, 3], [])) := by decide +kernel
-- tests/test.rs:639-651
example : (Shape.default (.static [.const 3, .dyn])).dims = [3, 0] ∧
    tokens (tensTy (.static [.const 3, .dyn]) [3, 0] []) =
      [.seq 3, .seq 0, .seqEnd, .seq 0, .seqEnd, .seq 0, .seqEnd, .seqEnd] ∧
    reads (.static [.const 3, .dyn]) (seqOf [seqOf [], seqOf [], seqOf []]) = some (some ([3, 0], [])) := by
  decide +kernel
-- tests/test.rs:653-671
example : tokens (tens [1, 2, 3] [4, 5, 6, 7, 8, 9]) =
      [.seq 1, .seq 2, .seq 3, .i32 4, .i32 5, .i32 6, .seqEnd, .seq 3, .i32 7, .i32 8, .i32 9, .seqEnd, .seqEnd,
        .seqEnd] ∧
    reads (dynTy 3) (seqOf [seqOf [seqOf [.leaf 4, .leaf 5, .leaf 6], seqOf [.leaf 7, .leaf 8, .leaf 9]]]) =
        some (some ([1, 2, 3], [4, 5, 6, 7, 8, 9])) := by decide +kernel

/-! ### Examples in the documentation. -/

-- src/view.rs:188, src/slice.rs:454, src/tensor.rs:243
example : copy t23 ((all t23).reshape ⟨dynTy 2, [2 ^ 64 - 1, 2]⟩) = some ([3, 2], [1, 2, 3, 4, 5, 6]) := by
  decide +kernel
example : (run (tensorIntoShape ⟨dynTy 2, [2 ^ 64 - 1, 2]⟩) t23).bind show' = some ([3, 2], [1, 2, 3, 4, 5, 6]) := by
  decide +kernel
-- src/ops.rs:42-43
example : copy (iota 10) ((all (iota 10)).view [.step (.included 0) (.excluded 10) 2]) =
    some ([5], [0, 2, 4, 6, 8]) := by decide +kernel
example : copy (iota 10) ((all (iota 10)).view [.step (.included 0) (.excluded 10) (-2)]) =
    some ([5], [9, 7, 5, 3, 1]) := by decide +kernel
-- src/expr/sources.rs:82, 99
example : assigned [3] (.fill (M.pure 1)) = some [1, 1, 1] := by decide +kernel
-- src/expr/sources.rs:112
example : evalTo (Expr.fromElemNew ⟨dynTy 2, [2, 3]⟩ (M.pure 1)) = some ([2, 3], [1, 1, 1, 1, 1, 1]) := by
  decide +kernel
-- src/expr/sources.rs:125
example : evalTo (Expr.fromFnNew ⟨dynTy 2, [2, 3]⟩ fun i => M.pure (3 * i[0]! + i[1]! + 1)) =
    some ([2, 3], [1, 2, 3, 4, 5, 6]) := by decide +kernel
-- src/expr/mod.rs:28
example : result ((ref (tens [3] [0, 1, 2])).fold 0 fun acc x => M.pure (acc + x)) = some 3 := by decide +kernel
-- src/expr/adapters.rs:50, 65, 80, 95, 115
example : evalTo (some (ref (tens [3] [0, 1, 2]))) = some ([3], [0, 1, 2]) := by decide +kernel
example : evalTo (some (Expr.enumerateNew (.intoExpr ⟨dynTy 1, [3]⟩ [3, 4, 5] 0))) =
    some ([3], [(0, 3), (1, 4), (2, 5)]) := by decide +kernel
example : evalTo (some (.map (ref (tens [3] [0, 1, 2])) fun x => M.pure (2 * x))) = some ([3], [0, 2, 4]) := by
  decide +kernel
example : evalTo (Expr.zipNew (Expr.intoExpr ⟨dynTy 1, [3]⟩ [0, 1, 2] 0) (.intoExpr ⟨dynTy 1, [3]⟩ [3, 4, 5] 0)) =
    some ([3], [(0, 3), (1, 4), (2, 5)]) := by decide +kernel

end Conformance
