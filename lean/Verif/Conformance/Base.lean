import Verif.Model.Slice
import Verif.Model.Compare
import Verif.Model.Storage
import Verif.Spec.Reach

/-!
The assertions of the project's own test suite (`tests/test.rs`), evaluated on the model.

These are tests of the model, not proofs of properties: the values on the right hand sides come from the test
suite, which passes for the real code, so they are evidence, independent of the author of the model, that
the model computes what the code computes. Each example cites its line. The kernel evaluates the model
functions. This file has the helper functions and `test_base`.
-/

namespace Conformance
open Model Spec

/-- A type of rank `n` with dynamic sizes (`Rank<n>`). -/
def dynTy (n : Nat) : ShapeTy := .static (List.replicate n .dyn)

/-- A tensor without elements and without memory (`Tensor::default()`). -/
def fresh (ty : ShapeTy) : Own Nat := ⟨[], 0, Shape.default ty, [], 10 ^ 6⟩

/-- A tensor (`tensor![..]`): sizes and elements. -/
def tens (ds xs : List Nat) : Own Nat := ⟨xs.map some, 0, ⟨dynTy ds.length, ds⟩, [], 10 ^ 6⟩

/-- Result of a call on a tensor. -/
def run {T α : Type} (x : M (Unit × Own T) α) (o : Own T) : Option (Own T) :=
  match x ((), o) with
  | .ok _ s => some s.2
  | _ => none

/-- Value of a call on a tensor. -/
def value {T α : Type} (x : M (Unit × Own T) α) (o : Own T) : Option α :=
  match x ((), o) with
  | .ok a _ => some a
  | _ => none

/-- Value of a computation without a tensor. -/
def result {α : Type} (x : M Unit α) : Option α :=
  match x () with
  | .ok a _ => some a
  | _ => none

/-- Sizes and elements of a tensor, as `[..]` gives them. -/
def show' {T : Type} (o : Own T) : Option (List Nat × List T) :=
  ((o.cells.take o.shape.len).mapM id).map fun xs => (o.shape.dims, xs)

/-- The memory of a tensor. -/
def memory {T : Type} (o : Own T) (p : Int) : Option T := if 0 ≤ p then (o.cells[p.toNat]?).join else none

/-- `to_slice!` and comparisons with a tensor, tests/test.rs:42-46: copy a view into a new tensor. -/
def copy {T : Type} (o : Own T) (v : Option View) : Option (List Nat × List T) :=
  v.bind fun v => (run (toTensor v (memory o) M.pure) ⟨[], 0, Shape.default v.ty, [], 10 ^ 6⟩).bind show'

/-- All items of an expression that are views, copied. -/
def copies {T : Type} (o : Own T) (e : Option (Expr Unit View)) : Option (List (List Nat × List T)) :=
  match e with
  | none => none
  | some e => (result (e.fold [] fun xs v => M.pure (xs ++ [v]))).bind fun vs => vs.mapM fun v => copy o (some v)

/-- A view of the whole tensor. -/
def all {T : Type} (o : Own T) : View := whole o.shape

/-- `a..`. -/
def from' (a : Nat) : DimIdx := .range (.included a) .unbounded
/-- `..b`. -/
def to' (b : Nat) : DimIdx := .range .unbounded (.excluded b)
/-- `a..b`. -/
def range' (a b : Nat) : DimIdx := .range (.included a) (.excluded b)

/-! ### `test_base`. -/

/-- Assign through an index, as `a[[i, j, k]] = x`. -/
def setAt (o : Own Nat) (idx : List Nat) (x : Nat) : Option (Own Nat) :=
  ((all o).index idx).map fun p => { o with cells := o.cells.set p.toNat (some x) }

/-- All indices of the loops in tests/test.rs:98-100. -/
def loops : List (Nat × Nat × Nat) :=
  (List.range 3).flatMap fun i => (List.range 4).flatMap fun j => (List.range 5).map fun k => (i, j, k)

/-- tests/test.rs:83, 89, 98-105: resize an empty tensor and assign to all elements. -/
def a? : Option (Own Nat) :=
  (run (resizeWith [3, 4, 5] (M.pure 0)) (fresh (dynTy 3))).bind fun a =>
    loops.foldlM (fun a (i, j, k) => setAt a [i, j, k] (1000 + 100 * i + 10 * j + k)) a

/-- tests/test.rs:85, 90, 98-105: the same for the other tensor, with capacity 60, reading the first one by a
linear index. -/
def b? : Option (Own Nat) :=
  a?.bind fun a => (run (tensorWithCapacity (dynTy 3) 60) (fresh (dynTy 3))).bind fun b =>
    (run (resizeWith [5, 4, 3] (M.pure 0)) b).bind fun b =>
      loops.foldlM (fun b (i, j, k) =>
        ((all a).linIndex (20 * i + 5 * j + k)).bind fun p => (memory a p).bind fun x => setAt b [k, j, i] x) b

/-- The first tensor. -/
def a : Own Nat := tens [3, 4, 5] (loops.map fun (i, j, k) => 1000 + 100 * i + 10 * j + k)
/-- The second tensor. -/
def b : Own Nat := tens [5, 4, 3] ((List.range 5).flatMap fun k => (List.range 4).flatMap fun j =>
  (List.range 3).map fun i => 1000 + 100 * i + 10 * j + k)

example : a?.bind show' = show' a ∧ b?.bind show' = show' b := by decide +kernel

-- tests/test.rs:92-96
example : (all a).map.dim 1 = some 4 ∧ (all a).dims = [3, 4, 5] ∧ (all a).map.len = 60 ∧ (all a).map.rank = 3 ∧
    (all a).map.stride 1 = some 5 := by decide +kernel
-- tests/test.rs:108
example : ((all a).index [2, 3, 4]).bind (memory a) = some 1234 := by decide +kernel

-- tests/test.rs:113-115
example : copy a ((all a).view [.full, .int 2, .int 3]) = some ([3], [1023, 1123, 1223]) := by decide +kernel
example : copy a ((all a).view [.int 1, from' 1, .int 3]) = some ([3], [1113, 1123, 1133]) := by decide +kernel
example : copy a ((all a).view [.int 1, .int 2, from' 2]) = some ([3], [1122, 1123, 1124]) := by decide +kernel
-- tests/test.rs:117-118
example : copy a ((all a).view [from' 1, to' 2, .int 4]) = some ([2, 2], [1104, 1114, 1204, 1214]) := by decide +kernel
example : copy b ((all b).view [.int 4, to' 2, from' 1]) = some ([2, 2], [1104, 1204, 1114, 1214]) := by decide +kernel

/-- The tree printed by `{:?}`, as sizes and elements of a nested array. -/
def printed (o : Own Nat) (v : Option View) (ds : List Nat) : Option (List Nat) :=
  v.bind fun v => (result (debug (fun p => M.lift (memory o p)) v)).map (Arr.flat ds)

-- tests/test.rs:120-121
example : printed a ((all a).view [.int 2, range' 1 3, to' 2]) [2, 2] = some [1210, 1211, 1220, 1221] := by
  decide +kernel
example : printed b ((all b).view [to' 2, range' 1 3, .int 2]) [2, 2] = some [1210, 1220, 1211, 1221] := by
  decide +kernel

/-- `==` of a view of a tensor and a view of another memory: the positions of the second are moved behind the
first one, so that one function reads both. -/
def eqTo (o : Own Nat) (v : Option View) (ds xs : List Nat) : Option Bool :=
  v.bind fun v => result (viewEq (fun p q => M.lift ((memory o p).bind fun x =>
    (memory (tens ds xs) q).map fun y => x == y)) v (all (tens ds xs)))

-- tests/test.rs:123-127
example : eqTo a ((all a).view [.int 2, .int 1, .full]) [5] [1210, 1211, 1212, 1213, 1214] = some true := by
  decide +kernel
example : eqTo b ((all b).view [.int 2, .int 1, .full]) [3] [1012, 1112, 1212] = some true := by decide +kernel
example : eqTo a ((all a).view [.int 1, range' 2 3, from' 3]) [1, 2] [1123, 1124] = some true := by decide +kernel
example : eqTo b ((all b).view [from' 3, range' 2 3, .int 1]) [2, 1] [1123, 1124] = some true := by decide +kernel

/-- `Tensor::from_fn`. -/
def fromFn (ds : List Nat) (f : List Nat → Nat) : Option (List Nat × List Nat) :=
  match Expr.fromFnNew ⟨dynTy ds.length, ds⟩ fun i => M.pure (f i) with
  | none => none
  | some e => (run (tensorFromExpr e) (fresh (dynTy ds.length))).bind show'

-- tests/test.rs:129
example : ((match Expr.fromElemNew ⟨dynTy 3, [3, 4, 5]⟩ (M.pure 1) with
    | none => none
    | some e => run (tensorFromExpr e) (fresh (dynTy 3))).bind show') = some ([3, 4, 5], List.replicate 60 1) := by
  decide +kernel
-- tests/test.rs:131-132
example : show' a = fromFn [3, 4, 5] fun i => 1000 + 100 * i[0]! + 10 * i[1]! + i[2]! := by decide +kernel
example : show' b = fromFn [5, 4, 3] fun i => 1000 + 100 * i[2]! + 10 * i[1]! + i[0]! := by decide +kernel

/-- The item after skipping 2 of `axis_expr(axis)`. -/
def third (o : Own Nat) (ax : Axis) : Option (List Nat × List Nat) :=
  (copies o (Expr.axisNew true (all o) ax)).bind fun xs => xs[2]?

-- tests/test.rs:134-144
example : copy a ((all a).view [.int 2, .full, .full]) = third a (.dyn 0) ∧ (third a (.dyn 0)).isSome := by
  decide +kernel
example : copy b ((all b).view [.int 2, .full, .full]) = third b (.const 0) ∧ (third b (.const 0)).isSome := by
  decide +kernel
example : copy b ((all b).view [.full, .int 2, .full]) = third b (.const 1) ∧ (third b (.const 1)).isSome := by
  decide +kernel
example : copy a ((all a).view [.full, .int 2, .full]) = third a (.dyn 1) ∧ (third a (.dyn 1)).isSome := by
  decide +kernel
example : copy a ((all a).view [.full, .full, .int 2]) = third a (.dyn 2) ∧ (third a (.dyn 2)).isSome := by
  decide +kernel
example : copy b ((all b).view [.full, .full, .int 2]) = third b (.const 2) ∧ (third b (.const 2)).isSome := by
  decide +kernel

/-- `contains`. -/
def has (o : Own Nat) (v : Option View) (x : Nat) : Option Bool :=
  v.bind fun v => result (viewContains (fun p => M.lift ((memory o p).map (· == x))) v)

-- tests/test.rs:146-147
example : has a (some (all a)) 1111 = some true := by decide +kernel
example : has a ((all a).view [.int 1, from' 1, from' 1]) 9999 = some false := by decide +kernel

-- tests/test.rs:149-151
example : copy a (((all a).view [from' 1, from' 2, .int 3]).bind fun v => v.diag 0) = some ([2], [1123, 1233]) := by
  decide +kernel
example : copy a (((all a).view [.int 2, from' 1, .full]).bind fun v => v.diag 0) =
    some ([3], [1210, 1221, 1232]) := by decide +kernel
example : copy a (((all a).view [.int 1, from' 2, from' 3]).bind fun v => v.diag 0) = some ([2], [1123, 1134]) := by
  decide +kernel
-- tests/test.rs:153-155
example : copy a (((all a).view [.int 2, .full, .full]).bind fun v => v.col 1) =
    some ([4], [1201, 1211, 1221, 1231]) := by decide +kernel
example : copy a (((all a).view [.full, .full, .int 1]).bind fun v => v.col 2) =
    some ([3], [1021, 1121, 1221]) := by decide +kernel
-- tests/test.rs:157-159
example : copy a (((all a).view [.int 2, .full, .full]).bind fun v => v.row 1) =
    some ([5], [1210, 1211, 1212, 1213, 1214]) := by decide +kernel
example : copy a (((all a).view [.full, .full, .int 1]).bind fun v => v.row 2) =
    some ([4], [1201, 1211, 1221, 1231]) := by decide +kernel

-- tests/test.rs:161-165
example : copy a ((all a).view [.int 1, .full, .full]) = copy a ((all a).at' 1) := by decide +kernel
example : copy b ((all b).view [.int 2, .full, .full]) = copy b ((all b).intoDyn.bind fun v => v.at' 2) := by
  decide +kernel
example : copy a ((all a).view [.int 2, .full, .full]) = copy a ((all a).intoDyn.bind fun v => v.at' 2) := by
  decide +kernel
example : copy b ((all b).view [.int 1, .full, .full]) = copy b ((all b).at' 1) := by decide +kernel
-- tests/test.rs:167-171
example : copy a ((all a).view [.full, .int 2, .full]) =
    copy a ((all a).intoDyn.bind fun v => v.axisAt (.dyn 1) 2) := by decide +kernel
example : copy b ((all b).view [.full, .full, .int 1]) = copy b ((all b).axisAt (.const 2) 1) := by decide +kernel
example : copy a ((all a).view [.full, .int 2, .full]) = copy a ((all a).axisAt (.dyn 1) 2) := by decide +kernel
example : copy b ((all b).view [.full, .full, .int 1]) =
    copy b ((all b).intoDyn.bind fun v => v.axisAt (.const 2) 1) := by decide +kernel
-- tests/test.rs:173-176
example : (Axis.dyn 1).index 3 = some 1 ∧ (Axis.const 2).index 3 = some 2 ∧ Axis.cols.index 3 = some 1 ∧
    Axis.rows.index 3 = some 2 := by decide +kernel

/-- `array![[1, 2, 3], [4, 5, 6]]`. -/
def arr23 : Own Nat := ⟨[1, 2, 3, 4, 5, 6].map some, 0, ⟨.static [.const 2, .const 3], [2, 3]⟩, [], 10 ^ 6⟩

-- tests/test.rs:178-182
example : (run (viewArray (all arr23) [.int 1, .full] (memory arr23) M.pure) (fresh (.static []))).bind show' =
    some ([3], [4, 5, 6]) := by decide +kernel
example : (((all arr23).view [.full, .int 1]).bind fun v =>
    (run (toArray v (memory arr23) M.pure) (fresh (.static []))).bind show') = some ([2], [2, 5]) := by decide +kernel
example : (run (toOwned (all arr23) (memory arr23) M.pure) (fresh (.static []))).bind show' =
    some ([2, 3], [1, 2, 3, 4, 5, 6]) := by decide +kernel
example : (run (toOwned (all (tens [2, 3] [1, 2, 3, 4, 5, 6])) (memory arr23) M.pure) (fresh (.static []))).bind show' =
    some ([2, 3], [1, 2, 3, 4, 5, 6]) := by decide +kernel

/-- tests/test.rs:184. -/
def r : Own Nat := (run (tensorIntoShape ⟨dynTy 3, [5, 4, 3]⟩) a).getD (fresh (dynTy 3))
/-- tests/test.rs:185-189. -/
def s : Own Nat := { b with shape := ⟨dynTy 3, [3, 4, 5]⟩ }
/-- tests/test.rs:191. -/
def a' : Own Nat := (run (resizeWith [4, 4, 4] (M.pure 9999)) a).getD (fresh (dynTy 3))
/-- tests/test.rs:192. -/
def b' : Own Nat := (run (resizeWith [4, 4, 4] (M.pure 9999)) b).getD (fresh (dynTy 3))

/-- The sum of the elements of `flatten()`. -/
def total (o : Own Nat) : Option Nat := (copy o (all o).flatten).map fun x => x.2.foldl (· + ·) 0

-- tests/test.rs:194-195
example : total a' = some 213576 ∧ total b' = some 213576 := by decide +kernel

/-- `.view(1.., 1.., 1..)`. -/
def inner (o : Own Nat) : Option View := (all o).view [from' 1, from' 1, from' 1]

-- tests/test.rs:197-204
example : (inner r).map (·.dims) = some [4, 3, 2] ∧ (inner s).map (·.dims) = some [2, 3, 4] := by decide +kernel
example : (inner r).bind (fun v => (List.range 3).mapM v.map.stride) = some [12, 3, 1] ∧
    (inner s).bind (fun v => (List.range 3).mapM v.map.stride) = some [20, 5, 1] := by decide +kernel
example : (inner r).bind (fun v => (v.view [.int 2, .int 1, .int 0]).bind fun w => (w.index []).bind (memory r)) =
    some 1203 := by decide +kernel
example : (inner s).bind (fun v => (v.view [.int 0, .int 1, .int 2]).bind fun w => (w.index []).bind (memory s)) =
    some 1032 := by decide +kernel

/-- `Tensor::from_iter(0..n)`. -/
def iota (n : Nat) : Own Nat := (run (tensorFromIter n fun i => M.pure i) (fresh (dynTy 1))).getD (fresh (dynTy 1))

-- tests/test.rs:206-210
example : copy (iota 10) ((all (iota 10)).view [.step .unbounded .unbounded 2]) = some ([5], [0, 2, 4, 6, 8]) := by
  decide +kernel
example : copy (iota 10) ((all (iota 10)).view [.step .unbounded .unbounded (-2)]) =
    some ([5], [9, 7, 5, 3, 1]) := by decide +kernel
example : ((all (iota 10)).view [.step .unbounded (.excluded 0) (2 ^ 63 - 1)]).map (·.map.isEmpty) = some true := by
  decide +kernel
example : ((all (iota 10)).view [.step .unbounded (.excluded 0) (-2 ^ 63)]).map (·.map.isEmpty) = some true := by
  decide +kernel

-- tests/test.rs:212-214
example : (run (zipWith (.fill (M.pure ())) fun x _ => M.pure (10 * x)) (iota 3)).bind show' =
    some ([3], [0, 10, 20]) := by decide +kernel
example : (run (tensorFromExpr (.map (.intoExpr (iota 3).shape [0, 1, 2] 0) fun x => M.pure (10 * x)))
    (fresh (dynTy 1))).bind show' = some ([3], [0, 10, 20]) := by decide +kernel
example : (run (zipWith (.view true (all (tens [3] [3, 4, 5]))) fun x (p : Int) => M.pure (x + (p.toNat + 3)))
    (iota 3)).bind show' = some ([3], [3, 5, 7]) := by decide +kernel

-- tests/test.rs:216-217
example : copy a' (((all a').view [.full, to' 2, to' 2]).bind fun v => (v.splitAt 1).map (·.1)) =
    some ([1, 2, 2], [1000, 1001, 1010, 1011]) := by decide +kernel
example : copy a' (((all a').view [to' 2, .full, to' 2]).bind fun v => (v.splitAxisAt (.const 1) 3).map (·.2)) =
    some ([2, 1, 2], [1030, 1031, 1130, 1131]) := by decide +kernel
-- tests/test.rs:219-221
example : (run (tensorTruncate 2) a').bind (fun a => copy a ((all a).view [.full, to' 2, to' 2])) =
    some ([2, 2, 2], [1000, 1001, 1010, 1011, 1100, 1101, 1110, 1111]) := by decide +kernel

/-- tests/test.rs:223-224: double all elements. -/
def double (o : Own Nat) : Own Nat :=
  match (Expr.view (σ := Unit × List Nat) true (all o)).forEach
      (fun p => M.bind (readMem p) fun x => writeMem p (2 * x)) ((), o.cells.filterMap id) with
  | .ok _ w => { o with cells := w.2.map some }
  | _ => fresh (dynTy 3)

-- tests/test.rs:226-227
example : total (double r) = some 134040 ∧ total (double s) = some 134040 := by decide +kernel

/-- `tensor![[1, 2, 3], [4, 5, 6]]`. -/
def t23 : Own Nat := tens [2, 3] [1, 2, 3, 4, 5, 6]

-- tests/test.rs:229-230
example : (run tensorIntoFlat t23).bind show' = some ([6], [1, 2, 3, 4, 5, 6]) := by decide +kernel
example : copy t23 (all t23).flatten = some ([6], [1, 2, 3, 4, 5, 6]) := by decide +kernel
-- tests/test.rs:232-236
example : ((run (tensorIntoMapping .dynRank) t23).bind show' = some ([2, 3], [1, 2, 3, 4, 5, 6])) ∧
    (run (tensorIntoMapping .dynRank) t23).map (·.shape.ty) = some .dynRank := by decide +kernel
example : copy t23 (all t23).intoDyn = some ([2, 3], [1, 2, 3, 4, 5, 6]) ∧
    (all t23).intoDyn.map (·.map.shape) = some ⟨.dynRank, [2, 3]⟩ := by decide +kernel
-- tests/test.rs:238-242
example : (run (tensorIntoMapping (.static [.const 1, .dyn])) (tens [1, 3] [1, 2, 3])).bind show' =
    some ([1, 3], [1, 2, 3]) := by decide +kernel
example : copy (tens [1, 3] [1, 2, 3]) ((all (tens [1, 3] [1, 2, 3])).remap (.static [.dyn, .const 3]) .dense) =
    some ([1, 3], [1, 2, 3]) := by decide +kernel
example : copy (tens [1, 3] [1, 2, 3]) ((all (tens [1, 3] [1, 2, 3])).remap (.static [.const 1, .dyn]) .dense) =
    some ([1, 3], [1, 2, 3]) := by decide +kernel

-- tests/test.rs:244-251
example : (run tensorClear r).map (fun o => (o.shape.isEmpty, decide (0 < tensorCapacity o))) = some (true, true) := by
  decide +kernel
example : ((run tensorClear r).bind fun o => (run (tensorShrinkTo 0) o).map tensorCapacity) = some 0 := by
  decide +kernel
-- tests/test.rs:253-267; the capacities are the ones that the model chooses
example : ((run (tensorReserve 60) s).bind fun o => (tensorSpare o).map fun x =>
    (decide (120 ≤ tensorCapacity o), decide (x.2 = tensorCapacity o - o.shape.len))) = some (true, true) := by
  decide +kernel
example : ((run (tensorReserve 60) s).bind fun o => (run (tensorShrinkTo 60) o).map fun o =>
    decide (tensorCapacity o < 120)) = some true := by decide +kernel
example : value (tensorTryReserve (2 ^ 64 - 1)) s = some false ∧ value (tensorTryReserve 60) s = some true := by
  decide +kernel
/-- `x.append(&mut y)`. -/
def appended (x y : Own Nat) : Option (List Nat × List Nat) :=
  match tensorAppend (((), y), x) with
  | .ok _ w => show' w.2
  | _ => none

-- tests/test.rs:269-272: `append` and `expand` give the same
example : (appended s s).map (·.2) =
    ((run (expand (Expr.view true (all s)) fun p => M.lift (memory s p)) s).bind show').map (·.2) ∧
    ((run (expand (Expr.view true (all s)) fun p => M.lift (memory s p)) s).bind show').map (·.1) =
      some [6, 4, 5] := by decide +kernel

/-- tests/test.rs:274. -/
def d : Own Nat := tens [3, 2] [1, 2, 3, 4, 5, 6]

-- tests/test.rs:275-281
example : (run (drainRun (.included 1) (.excluded 2) 2 false) d).bind show' = some ([2, 2], [1, 2, 5, 6]) ∧
    value (drainRun (.included 1) (.excluded 2) 2 false) d = some [3, 4] := by decide +kernel
-- tests/test.rs:283-286, 294-302
example : ((value (tensorTryArray [2, 2]) (tens [2, 2] [1, 2, 5, 6])).bind id).map (Arr.flat [2, 2]) =
    some [1, 2, 5, 6] := by decide +kernel
example : ((value (tensorTryArray [1, 2]) (tens [1, 2] [3, 4])).bind id).map (Arr.flat [1, 2]) = some [3, 4] := by
  decide +kernel
example : (viewTryArray [2, 2] (all (tens [2, 2] [1, 2, 5, 6])) [1, 2, 5, 6]).map (Arr.flat [2, 2]) =
    some [1, 2, 5, 6] := by decide +kernel
-- tests/test.rs:304
example : value tensorIntoScalar (tens [1] [123]) = some 123 := by decide +kernel
-- tests/test.rs:306-307
example : ((run (tensorFromArray (dynTy 3) [0, 3, 0] (.arr [])) (fresh (dynTy 3))).map (·.shape.dims)) =
    some [0, 3, 0] := by decide +kernel
example : ((run (tensorFromArray (dynTy 3) [3, 0, 3] (.arr [.arr [], .arr [], .arr []])) (fresh (dynTy 3))).map
    (·.shape.dims)) = some [3, 0, 3] := by decide +kernel

-- tests/test.rs:309
example : copy (tens [3] [1, 2, 3]) ((all (tens [3] [1, 2, 3])).permute true ⟨.static [.const 0], [0]⟩) =
    some ([3], [1, 2, 3]) := by decide +kernel
-- tests/test.rs:311-312
example : copy t23 ((all t23).permute true ⟨.static [.const 0, .dyn], [0, 1]⟩) =
    some ([2, 3], [1, 2, 3, 4, 5, 6]) := by decide +kernel
example : copy t23 ((all t23).permute true ⟨.static [.dyn, .const 0], [1, 0]⟩) =
    some ([3, 2], [1, 4, 2, 5, 3, 6]) := by decide +kernel

/-- tests/test.rs:314. -/
def v : Own Nat := tens [1, 2, 3] [1, 2, 3, 4, 5, 6]

-- tests/test.rs:316-321
example : copy v ((all v).permute true ⟨dynTy 3, [0, 1, 2]⟩) = some ([1, 2, 3], [1, 2, 3, 4, 5, 6]) := by decide +kernel
example : copy v ((all v).permute true ⟨dynTy 3, [0, 2, 1]⟩) = some ([1, 3, 2], [1, 4, 2, 5, 3, 6]) := by decide +kernel
example : copy v ((all v).permute true ⟨.dynRank, [1, 0, 2]⟩) = some ([2, 1, 3], [1, 2, 3, 4, 5, 6]) := by
  decide +kernel
example : copy v ((all v).permute true ⟨.dynRank, [1, 2, 0]⟩) = some ([2, 3, 1], [1, 2, 3, 4, 5, 6]) := by
  decide +kernel
example : copy v ((all v).permute true ⟨.dynRank, [2, 0, 1]⟩) = some ([3, 1, 2], [1, 4, 2, 5, 3, 6]) := by
  decide +kernel
example : copy v ((all v).permute true ⟨.dynRank, [2, 1, 0]⟩) = some ([3, 2, 1], [1, 4, 2, 5, 3, 6]) := by
  decide +kernel

/-- `array![1, 2, 3]`. -/
def arr3 : Own Nat := ⟨[1, 2, 3].map some, 0, ⟨.static [.const 3], [3]⟩, [], 10 ^ 6⟩

-- tests/test.rs:323-325
example : value arrayIntoScalar ⟨[some 123], 0, ⟨.static [], []⟩, [], 10 ^ 6⟩ = some 123 := by decide +kernel
example : (run (arrayIntoShape (.static [.const 1, .const 3])) arr3).bind show' = some ([1, 3], [1, 2, 3]) := by
  decide +kernel
example : (run (arrayIntoShape (.static [.const 3, .const 1])) arr3).bind show' = some ([3, 1], [1, 2, 3]) := by
  decide +kernel
-- tests/test.rs:328-329
example : copy t23 (all t23).reorder = some ([3, 2], [1, 4, 2, 5, 3, 6]) := by decide +kernel

end Conformance
