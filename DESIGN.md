# Formal model of mdarray in Lean 4

This directory holds a Lean 4 model of the Rust crate in `/repo` (mdarray) and proofs of the
properties in `properties.jsonl`. `MANIFEST.json` maps each property to the theorems that prove it.

## Layout

* `lean/Verif/Spec/*`   – specification vocabulary written without reference to the model
  (multi-indices, row-major rank/unrank, the lexicographic list of all indices, list surgery,
  nested sequences).
* `lean/Verif/Model/*`  – the model of the code, function by function; each definition cites the
  file and lines it models.
* `lean/Verif/Lemmas/*` – helper lemmas.
* `lean/Verif/Props/*`  – the property theorems (named `Cxx_...`), each with an `example` showing its
  hypotheses are met by a concrete non-trivial case.

## Modelling conventions

* `usize`/`isize` are modelled by `Nat`/`Int`; where the code uses checked arithmetic
  (`checked_len`, `checked_mul`) the bound `2^64-1` is modelled explicitly. Outside of
  `Model/Machine.lean` wrap-around of unchecked arithmetic is not modelled; `Model/Machine.lean` repeats
  the view-producing functions and indexing with 64-bit integers, which panic on overflow or wrap around
  depending on the build. C68 and C69 prove that on arrays of at most `2^62` elements both versions agree
  on non-empty views, and that views never leave the array even if an operation wraps around.
  `Model/MachineIter.lean` and `Model/MachineHint.lean` do the same for iteration (C71), `Model/MachineStorage.lean` for the operations on
  tensors (C77), `Model/MachineArray.lean` for arrays with constant dimensions (C78).
* A Rust panic of pure code is `none` of `Option`. Code with observable effects (closures, drops)
  lives in the monad `M σ` (`Model/Monad.lean`) over a world `σ`, with the outcomes `ok`, `panic`
  (which keeps the world) and `ub` (undefined behaviour: read of an uninitialised cell, write past
  the capacity, out-of-range pointer) and `abort` (a panic in a destructor while unwinding), so a
  theorem "the outcome is `ok`" excludes the others. `M.Post x s Q R` says: a result satisfies `Q`, a
  panic satisfies `R`, and neither `ub` nor `abort` happens; `M.PostA` permits `abort` if a condition
  holds.
* Where debug and release builds differ (overflow checks) the model has a `checks` flag.
* Simplification: outside of `Model/DynRank.lean` the two representations of rank 1 of `DynRank`
  (`One(n)` / `Dyn([n])`) are identified; C56 proves that they cannot be told apart.
* Types: a shape type is a list of `const n`/`dyn` dimensions of length at most 6, or `dynRank`
  (`src/shape.rs`). Trait-level functions (`Head`, `Tail`, `Reverse`, `Prepend`, `Merge`, `Layout`,
  `Keep`, `Split`, `Insert`, ...) are Lean functions on these; run-time constructors check their
  result against the type (`Const::from_size`), so a mismatch is a panic in the model.
* A view is a base position (`ptr : Int`, in units of elements of the original allocation) and a
  mapping (dense shape, or strided shape + integer strides).
* Expressions are modelled by their state machine (`get_unchecked`, `inner_rank`, `reset_dim`,
  `step_dim`), driven by the model of `Iter`. A simulation contract ties a state machine to the
  function from multi-indices to items; every source/adapter of the crate is proved to satisfy it.
* Ownership: a buffer is a list of optional elements plus a log of dropped values, so double drop,
  use-after-move and leaks are expressible.

## Disagreements between code and intended property (found while modelling)

For each of them the model follows the code; the negation is proved with a concrete witness and the
property is kept as a `_partial` theorem with the precise extra hypothesis.

* B1 `Lanes::get_unchecked` (src/expr/sources.rs:441-449) never adds the running `offset`: with two or
  more remaining dimensions and a non-dense split layout the same lanes are returned repeatedly
  (C28; for `lanes_mut` this hands out aliasing `&mut`).
* B2 `Iter` (src/expr/iter.rs) does not check emptiness of outer dimensions: iterating a strided view
  (or `from_fn`, or a broadcast zip) of shape (0,3) visits 3 elements (C19, C26, C44, ...).
* B3 `Iter::step_outer` resets its counters on exhaustion (iter.rs:60), so `next()` after `None`
  restarts: not fused (C21), wrong `size_hint` after exhaustion (C20). If an owned array takes part,
  elements beyond its end are read, from safe code (C73). For all expressions with more than one row:
  `C21_rows_exact`, `C73_called_exact`.
* B4 `FromFn::new` builds its index buffer with `Dims::default()`, which is empty for `DynRank`:
  `from_fn` with a dynamic rank > 0 calls `f(&[])` and then panics (C26).
* B5 `Tensor::zip_with`: a panic while evaluating the *operand* at element k >= 1 leaks element k-1
  (C40).
* B6 serde: dynamic dimensions after a zero dimension are lost in a round trip (C46).
* B7 `size_hint` is wrong in the situation of B2 (0 although items follow, then a subtraction below
  zero, which without overflow checks wraps around to 2^64 - 1) and after `None` (C20).
* B8 `StridedMapping::reshape` rejects some reshapes that a strided view could represent when unit
  dimensions carry odd strides (C13: soundness is unaffected). So `flatten` panics for an array with
  dimensions `[2, 2, 1]` whose last two dimensions are swapped, although its elements are adjacent (C65; `C65_exact` says exactly when it succeeds).
* B9 `permute` uses a `usize` bit mask: without overflow checks and with rank 65 or more it accepts
  index lists that are no permutations (C51).
* B10 `row`/`col` of an array with a dimension equal to `usize::MAX` treat it as a placeholder (C16).
* B11 `view` with a huge step computes `stride * step` unchecked (src/index/view.rs:158): a legal
  selection of at most one element can panic in builds with overflow checks (C06, `C69_step_panics`; `C69_exact`
  says when).
* B12 `next()` on an empty strided view such as `[2, 0]` yields an item although `fold` yields none
  (C22). It even never ends: the inner index runs past its limit and is only compared for equality
  (`C22_exact_view`).
* B13 `axis_expr` computes the checked length of every subarray and panics if it overflows, which is
  possible for empty arrays only (C27).
* B14 `resize_with` on a tensor whose shape type has only constant dimensions: if the dimensions do not
  match or the closure panics while the length is wrong, the guard asserts that the default length is
  zero (src/raw_tensor.rs:167-187), which panics during unwinding and aborts the process (C34; `C34_exact` says exactly when).
* B15 `len()` multiplies the dimensions without checks (src/shape.rs): for an empty view with dimensions
  like `[2^40, 2^40, 0]`, obtainable by permuting, the product overflows before it becomes zero, which
  panics in builds with overflow checks (`C69_empty_panics`). The strides of a dense array with dimensions
  like `[0, 2^40, 2^40]` overflow as well, so `reorder` and others panic there. Without overflow checks the
  product is 0, as in the other parts of the model. These panics are the only difference (`C69_empty`), except that
  without overflow checks wrapped strides can make an empty strided view pass as contiguous (`C69_remap_violated`).
* B16 serde: an untrusted size hint is used for reserving memory, and `value.len() * size_hint` is not
  checked, so input can cause a panic instead of an error; a `Const<usize::MAX>` dimension is taken as a
  placeholder (C47). Panicking is the only deviation: whatever is returned is right (`C47_sound`).
* B17 `IntoExpr` keeps its elements as `ManuallyDrop`, and its `clone` and `clone_from` (src/expr/into_expr.rs)
  are those of the buffer: `clone_from` never drops the old elements of the target, and clones made before a
  panic are lost. This is a leak, not undefined behaviour (C64).
* B18 Iterating over an empty view with two or more rows steps through the rows although they have no elements
  (src/expr/iter.rs:47-57). Views that are empty keep the pointer they had (src/view.rs:478-479), so with a
  negative stride, as in `a.view(StepRange { range: .., step: -1 }, 0..0)`, `ptr.offset` leaves the allocation,
  which is undefined behaviour even though nothing is read (C70).
* B19 `reset_dim` of a view computes `-stride * count` (src/view.rs:373). A view of one element selected with a
  step of `isize::MIN` has this stride on an axis of unit stride, so that iterating over it panics at the end in
  builds with overflow checks (C71).
* B20 after a panic of its closure that is caught, `from_fn` calls it with the same index again
  (src/expr/sources.rs:372-381), and in `zip` (src/expr/adapters.rs:355) the second expression has not gone on if
  the first one panics: later items are paired with the wrong elements of an owned array (C74;
  `C74_from_fn_exact` and `C74_zip_exact` say which items come, `C74_count` that their number is right).
* B21 with the `nightly` feature the guard of `with_mut_parts` (src/raw_tensor.rs:220-234) lacks the check of the
  default length. A failed `resize` of a tensor with only constant dimensions leaves an array that claims elements
  already dropped, where the other build aborts (C76).
* B22 `resize` of an empty tensor computes the products of the old dimensions (`old_stride`, src/raw_tensor.rs:352)
  although there is nothing to copy. If the dimensions behind the zero are too large together, as in
  `[0, 2^40, 2^40]`, a resize to `[1, 1, 1]` panics in builds with overflow checks (C77).
* B23 `Array::into_shape` compares `I::default().len()`, which is not checked for overflow, with the old length
  (src/array.rs:55). Without overflow checks `Array::<T, (Const<0>,)>::from([]).into_shape::<(Const<A>, Const<B>)>()`
  with `A * B = 2^64` returns an array of `2^64` elements made from nothing, for any type `T` without size, from safe
  code. For a type without values this is undefined behaviour (C78).
* B24 `Iter::new` multiplies the dimensions of a row from the left (src/expr/iter.rs:23). For an array without elements
  whose other dimensions are large, such as `[2^40, 2^40, 0]`, iterating panics with overflow checks, though there is
  nothing to iterate over (C71).
* B25 with debug assertions and without overflow checks, `Tensor::from_expr` of an expression without elements whose
  dimensions in front of the zero are too large together, such as `[2^40, 2^40, 0]`, panics in the assertion of
  `from_parts` (src/raw_tensor.rs:67), which compares with `checked_len`. With overflow checks it panics before, in
  `len` (C82).
* B26 `Expression` is a safe trait, but evaluating an expression relies on its results: an implementation in safe code
  whose `shape` returns different shapes in different calls (through a `Cell`), or which overrides `for_each`, makes
  `from_expr` and `expand` write past the allocation or give arrays with uninitialised elements (src/tensor.rs:401-408,
  src/array.rs:67-95, src/expr/expression.rs:172-182) (C83). If only `inner_rank` changes, `assign` to a plain array
  writes outside of it (src/expr/iter.rs:20, 38). If the rank changes between the assertions of `Zip::new` and the
  computation of the shape, a mutable view is repeated, so that `expr_mut().zip(expr)` hands out two mutable references
  to one element (src/expr/adapters.rs:317-330) (C84).
* B27 `Buffer` is a safe trait, and `IntoExpr<B>` of any implementation can be created with `Default`
  (src/expr/into_expr.rs:64-68). If `as_slice` and `as_mut_slice` do not always return the same slice, elements are moved
  out twice, or memory outside of the slice is read or dropped (src/expr/into_expr.rs:70-98). Even if they do, the
  elements that have been moved out are still there for the destructor of the buffer, which can use them in safe code with
  `ManuallyDrop::into_inner` (C92).
* B28 `Axis` is a safe trait. If `index` returns different values in different calls (through a global counter),
  `axis_at` and `split_axis_at` check the size of one dimension and offset along another, so that the views have elements
  outside of the array (src/view.rs:248-298), and `axis_expr_mut` hands out views that overlap
  (src/expr/sources.rs:137-174) (C93). The hidden functions `get`, `remove` and `resize` could be overridden too.
* B29 `Shape` and `Dim` are safe traits. If the sizes change between calls (through a global counter), the number of
  elements that `into_shape` compares and the bounds that indexing checks are not those used for the offset, so that
  elements outside of the array are accessed (src/shape.rs:126-152, src/index/slice.rs:40-50, src/mapping.rs:95-107)
  (C94).
* B2 continued: `Tensor::from_fn([0, 3], f)` calls `f` and writes 3 elements past an empty allocation
  (C48). Hashing an empty strided view reads elements that do not exist (C44).
* B13 continued: `==` and `contains` panic for some empty strided views (C43, C45), and so does serialising
  (C46, C80).
* Notes without a property: a failed `append` drops all elements of the other tensor. A failed
  `resize_with` to dimensions with the same product that violate a constant dimension keeps the old
  shape with rearranged elements.

## Per-property plan

| id | what is modelled, how it is proved |
|----|------------------------------------|
| C01 | `SliceIndex` for `[usize]`, `offset`; iff-characterisation of success, value = dot product |
| C02 | `DenseMapping` strides/offset; equality with the spec row-major rank; rank/unrank inverse |
| C03 | `linear_offset` (mod/div loop) = offset of spec unrank; induction over dims |
| C04, C05 | inductive closure of all view operations; every step has a "pullback" law; images/injectivity by induction on the history |
| C06, C07 | `DimIndex`/`ViewIndex::view_index` recursion; law `loc v' j = loc v (select args j)`; panic iff |
| C08, C09 | `Axis` get/remove/resize, `Mapping::remove_dim/resize_dim`; pullback laws, disjoint + cover |
| C10, C11 | permute bit-mask loop, reorder; pullback laws; inverse law |
| C12 | `Shape::reshape` inference; dense reshape keeps linear position |
| C13, C14 | region merging algorithm with loop invariant; `is_contiguous`; remap |
| C15, C16 | `into_diag`, `into_row`, `into_col` |
| C17, C18 | type-level functions; "typed operations are total": success iff documented conditions |
| C19–C22 | `Iter` new/step_outer/next/fold; counter invariant; simulation |
| C23–C25 | `Zip::new`, `Zip`, `Map`, `Cloned`, `Copied`, `Enumerate` simulation proofs |
| C26–C28 | `FromFn`, `AxisExpr`, `Lanes` |
| C29–C31 | memory as list; assign / op-assign / eval on top of iteration |
| C32–C42 | buffer cells with drop log; each operation proved against list-of-rows spec, all panic points |
| C43–C45 | recursive comparison, hash feed, contains |
| C46, C47 | serde nested values |
| C81 | `Model/RawParts.lean`: the unsafe interface to the storage, with undefined behaviour if the contract is not met |
| C80 | `Model/SerdeCalls.lean`: the calls to a serialiser that may fail; equal to making the calls of a list until one fails (`serCallsRank_eq`); a strict acceptor of the protocol as specification |
| C82 | `Model/DebugAssert.lean` repeats the operations on tensors and indexing with the `debug_assert!`s of raw_tensor.rs and mapping.rs; the other files leave them out. Proved equal to the operations without, by an invariant at each place (`Lemmas/DebugAssert.lean`). The assertion at src/expr/into_expr.rs:91 is modelled as undefined behaviour everywhere; those at 24 and 35 (`as_mut`, `as_ref`) can be reached with an index other than 0 only through the debug output of an iterator, where it is proved that they hold (`C82_shown`), as expressions change only while they are iterated |
| C83 | `Model/UserExpr.lean`: an arbitrary implementation of `Expression`, each function a computation on the world, with `Iter`, `from_expr` and `expand` for it. `Iter::fold` ends for arbitrary results since the outer index grows lexicographically within its limits, whatever the rank is in each step. For constant `shape` and `inner_rank` an invariant counts the items (`Lemmas/UserExprOwn`); the values handed out are those in any record that the expression keeps. Violated otherwise (B26). |
| C84 | `Model/UserZip.lean`: `Zip` of a mutable view with an arbitrary implementation of `Expression`, and `assign`. The pointer of the view is the one given by the outer index (`Lemmas/UserFold`: invariants that depend on the outer index; `Lemmas/UserZip`), so that each call of the closure gets the next position. `C84_exact`: a view without elements hands out an item exactly if there are elements in a row. Violated if the rank or the inner rank change (B26). |
| C85 | `Model/Markers.lean`: `Send` and `Sync` of the types of the crate, by the fields and the explicit implementations. `Spec/Markers.lean`: what a thread obtains from a value by the interface. Soundness: each step keeps `MaySend`; exactness by induction on the type. Trusted: the list of steps of the interface, the rules of std for references, `PhantomData` and `ManuallyDrop`. |
| C86 | `Model/Alloc.lean`: a heap of allocator values and blocks; moves copy bits, and the heap decides if a drop or a release is allowed. Each function keeps an exact account of the heap (`Tally`, up to the order) for the tensor and any others; invariant over programs with caught panics. Trusted: the functions marked as `std`. |
| C87 | `Model/Borrow.lean`: programs that hold many values (arrays, views, references to elements). Each value knows what it has been borrowed from; a use ends the values that conflict with it, which is what the borrow checker demands. The signatures (receiver, mutability and lifetime of the result) are a table `sig`. Invariant (`Lemmas/BorrowRun`): values that share elements are borrowed from each other or read-only. The disjointness of parts comes from C05, C09 and C55, and `Inside` from the histories of C04. |
| C88 | `Model/Matmul.lean`: the example program in the documentation, with `for` loops as repeated calls of `next`. All its expressions have rank 1 and so a single row (`Line`, `Lemmas/Matmul`), for which iteration is right in all cases; invariant on the memory (`Rep`) through the three loops, with the disjointness of elements from C05. The product of Mathlib (`Matrix`) is the specification for exact arithmetic. |
| C89 | `Model/Variance.lean`: the variance of the types of the crate in their parameters, by the fields. `Spec/Variance.lean`: what a program gets from a value by the steps of C85 and by uses as supertypes, over any preorder of types. Soundness: a step has no more demands than what it starts from; exactness by induction on the type. Borrowing what is owned is not a step, since the owner has the type by which the value was moved to it. Trusted: the list of steps of the interface, the rules of the language for variance. |
| C90 | `Model/Format.lean`: the builders of `Debug` in std and the implementations of the crate, as functions of the texts of entries; `Spec/Format.lean` gives the texts of both formats directly from dimensions and elements. Identification by induction on the nesting: a text with matching brackets ends at the first comma or bracket outside (`Lemmas/Format.lean`); indentation is undone by shifting lines |
| C91 | `Model/Keys.lean`: shapes and mappings as they are represented, with the derived and written implementations of `PartialEq`, `Ord`, `Hash` and `Clone`; `Spec/Keys.lean` gives the represented mapping of the other models |
| C92 | `Model/UserBuffer.lean`: `IntoExpr` of an arbitrary implementation of `Buffer` as an expression of Model/UserExpr, with a record of the elements moved out and dropped. Violated unless the slices stay the same (B27); the invariant of `Lemmas/UserBuffer` counts the elements handed out and those left out by a panic. `Model/UserBufferIter.lean`: stepping through the iterator with `next` and dropping it |
| C93 | `Model/UserAxis.lean`: `axis_at`, `split_axis_at` and `axis_expr` for an arbitrary implementation of `Axis`, with each call of `index` made separately and arbitrary associated types. Violated unless `index` returns the same dimension (B28); then the checks of `Mapping` at run time suffice. `Lanes` and overridden hidden functions are not modelled |
| C94 | `Model/UserShape.lean`: `into_shape` of a dense view and indexing for an arbitrary implementation of `Shape` (or tuples of arbitrary implementations of `Dim`), with each call of `with_dims` and `with_mut_dims` made separately. Violated unless the shape behaves like a list of sizes (B29), by a value `val` of the state that reading keeps and storing replaces. Other functions than these, strided views and associated types are not modelled |
| C95 | `Model/UserRange.lean`: `view` with stepped ranges and `drain` for an arbitrary implementation of `RangeBounds<usize>`, with each call of its functions made separately; `Spec/UserRange.lean` notes the answers. The build without `nightly`; with `nightly` the bounds are read by `slice::range` of std, which is not modelled for such ranges |
| C96 | `Model/UserPerm.lean`: `permute` for arbitrary implementations of `IntoShape` and `Permutation`. That `into_dims` calls its closure exactly once if it returns follows from its type (the result type is a parameter), which is part of the model, not proved. The associated types are types of the crate |
| C48, C49 | exact conditions on partial products; stored length; checked addressing |
| C50 | nested arrays as nested lists, memory as their flattening; flatten/unflatten inverse, row-major positions |
| C51 | the bit-mask check of `permute` with and without overflow checks |
| C29, C30 | also all operator impls of src/ops.rs (`Model/Ops.lean`): which operand is consumed, borrowed or reused |
| C55 | the items of runs of `next` on the iterators of reachable views: positions are distinct and in range, subarrays share no element; from injectivity of `index` (C08) and the exact behaviour of iteration |
| C56 | both representations of `DynRank`, sequences of operations on shape variables against plain lists |
| C57 | reflexivity, symmetry and transitivity from the characterisation of `==` in C43 |
| C24, C25 | `Lemmas/Adapt.lean`: each state of the iterator of `e.map(g)` and `e.enumerate()` is that of the iterator of `e` with the adapter on top, so that the adapters are correct also where iteration of `e` is not |
| `Cxx_exact` | what the code does when the condition of a `_partial` theorem fails; shows that the condition is necessary |
| C32, C31, C35, C40, C42 | any expression without phantom rows folds like a well-behaved one that yields the items `rawNth` (`Lemmas/Raw.lean`), so memory safety does not depend on the defects B1, B4, B13 |
| C52–C54 | `clone`, `clone_from`, conversions and capacity operations on the storage model |
| C58 | range arguments of `Index` on dense arrays, the slice of all elements |
| C59 | the recursion of `Debug` over outer dimensions = the specification's nested list |
| C60 | `IntoShape` for each argument kind, both representations of `DynRank` |
| C61 | copies of views through `cloned` and the evaluation theorems of C31; `clone_into` through assignment (C29) |
| C62 | `Shape::Owned` as recursion over the dimensions; `eval`; repeat form of `tensor!` |
| C63 | addresses of `&Slice`: of an element, or of a descriptor in a list of live ones |
| C65 | `flatten` as a reshape to one dimension; uniform distance of elements |
| C66, C67 | the type-level recursion for layouts and shape types against list surgery on dimension types (`Spec/ResultTypes.lean`) |
| C68, C69 | `Model/Machine.lean` against `Model/Mapping.lean`, `Model/View.lean`: no operation overflows if all elements lie within `2^62` places; strides that may overflow belong to axes with at most one index; invariant over histories of calls; on empty views a simulation that ignores strides |
| C70 | pointers of views by the invariant of C68; the moves of `step_outer` as a list, all leading to states of the odometer; states reached by `next` and `fold` as an inductive relation (`Spec/Pointer.lean`); exactly these are reached (C70_exact) |
| C71 | `Model/MachineIter.lean` against `Model/Expr.lean`: in every state of the odometer the offsets and counters are those of existing elements, hence within `2^62` places; per leaf, lifted through adapters and loops; for empty expressions and all strides a simulation (same outcome, or a panic because of an overflow check) in which offsets of axes and lanes of empty views are left free |
| C72 | `Model/Unwind.lean` repeats the operations that drop elements, with destructors that may panic, and is proved equal to `Model/Tensor.lean` if none does. Where all drops come last or after a failure, an execution is the one without panics, with its outcome replaced (`withDestructors`), by a relation between the two programs that is closed under sequencing and handlers (`Lemmas/Unwind.lean`). `resize_with` and `clone_from` drop elements in between; there invariants say where each element is (`Lemmas/UnwindResize.lean`, `Lemmas/UnwindClone.lean`) |
| C73, C74 | `Model/ExprPanic.lean` repeats expressions and `Iter` with the state after a panic, and is proved equal to `Model/Expr.lean` otherwise. The position of the iterator bounds the index of each owned array (`At`, `Later` in `Lemmas/Resume.lean`); states after caught panics are an inductive relation (`After`, `Called` in `Spec/Resume.lean`) |
| C75 | `Model/Owned.lean` repeats the operations that take an expression by value with the state in which it is dropped, and is proved equal to `Model/Tensor.lean` and `Model/Assign.lean` otherwise. An induction rule for `fold` that links the number of elements moved out to the item (`foldE_ends` in `Lemmas/Owned.lean`); for loops with an exclusive view the rule of C73, and for the number of elements moved out together with the elements written `write_loopE` (`Lemmas/OwnedAssign.lean`) |
| C76 | `Model/Nightly.lean` repeats the operations with the other guard. They are equal to the others by invariants of the storage that hold whatever the closures do: the shape type is unchanged, or shape and length are (`Lemmas/Nightly.lean`) |
| C77 | `Model/MachineStorage.lean` repeats the operations on tensors with 64-bit integers. Each function is equal to its exact version on tensors that satisfy `Fits64`, and keeps `Fits64` whatever the closures do; histories by induction (`Lemmas/MachineStorage.lean`) |
| C78 | `Model/MachineArray.lean`; the comparison in `into_shape` as a condition on the products; `from_expr` by a congruence rule for `fold` with an invariant (`Lemmas/MachineArray.lean`) |
| C79 | `Model/Update.lean`: the change of an element is a computation on the world and the element, so that it can panic halfway; dropped values are logged. The loop rule of C75 with the two kinds of panic (`update_loopE`); the balance of values by a permutation argument (`written_perm`) |
| C64 | `Clone` of `IntoExpr` on the storage model with dropping disabled; `Debug` of `Iter` |

## Wrong programs

`seeded/LOG.jsonl` lists edits of the model as realistic bugs would make them, each built in a scratch
copy. `failed_directly` are the theorems whose proofs fail first, `theorems_failed` the property theorems
that depend on them. A property theorem that fails only through a lemma is no longer proved, which does
not show by itself that its statement is false for the edited model.

## Coverage by source file

"Wrapper" means a function whose body only forwards to a modelled one; these are covered by the
definition they forward to and have no definition of their own.

| file | modelled in | wrappers, not modelled separately | not modelled |
|------|-------------|-----------------------------------|--------------|
| shape.rs, dim.rs | Model/Shape, DynRank, Format, UserShape | trait method declarations, conversions of one `Dim` | |
| mapping.rs, layout.rs | Model/Mapping, Machine, Format, Keys | accessors | |
| index/*.rs | Model/View, Machine, Slice, UserAxis, UserRange, UserPerm | the `_mut` twins (same address computation) | panic message texts |
| slice.rs, view.rs, raw_slice.rs | Model/View, Machine, Slice, Assign, Update, Compare, Markers, Variance, Borrow | `_mut` twins, `iter`, `apply`, `Borrow`, `AsRef` | lifetimes, except as in Model/Borrow and Model/Variance |
| expr/iter.rs, adapters.rs, sources.rs, expression.rs | Model/Expr, UserExpr, UserZip, ExprPanic, MachineIter, MachineHint, Lift, Format | `into_iter`, constructors `map`, `zip`, … | |
| expr/into_expr.rs, buffer.rs | Model/Storage, UserBuffer, UserBufferIter | slice accessors | |
| tensor.rs, raw_tensor.rs | Model/Tensor, Storage, RawParts, DebugAssert, Unwind, Owned, Nightly, MachineStorage, Alloc | the `_in` variants of constructors | |
| array.rs, traits.rs, macros.rs | Model/Tensor, Convert, Slice, MachineArray | `Borrow`, `AsRef`, `Index` | token level of macros |
| ops.rs | Model/Ops, Assign, Update | the operator traits other than the ones named in the comments (one macro), the constructor `step` | |
| serde.rs | Model/Serde, SerdeCalls | `serialize` of views and tensors | texts of error messages |
| lib.rs, expr/mod.rs | Model/Matmul (the example) | re-exports, free functions `fold`, `for_each` | |

## Trusted base

* Lean 4.33.0 kernel; theorems use at most the standard axioms `propext`, `Classical.choice`,
  `Quot.sound`. No `sorry`, `native_decide`, `bv_decide`, or added axioms.
* Assumptions of the storage model: dropping an element does not panic, except in `Model/Unwind.lean` (C72)
  and `Model/Update.lean` (C79), where any set of values may have destructors that do; an allocation fails exactly for
  requests above a limit (arbitrary, part of the state); `Vec` is modelled by the functions in
  `Model/Tensor.lean` that are marked as `std`.
* In `Model/ExprPanic.lean` the drop of values that are in flight while unwinding (the first part of a pair,
  the argument of a closure) is not modelled; these belong to the closure or to the caller.
* A nested array `[[T; B]; A]` is stored without gaps in row-major order (guaranteed by the language);
  `serialize_element` of a serialiser calls `serialize` for its argument exactly once (C80).
* The transcription of the Rust source to the model (see the comments in `lean/Verif/Model`). As evidence for it,
  `lean/Verif/Conformance` evaluates the assertions of the project's own tests (`tests/test.rs`) and of its documentation
  examples on the model, in the kernel; all of them hold. These are tests of the model with expected values that are not
  chosen by its author; no property rests on them. Not covered: `test_traits` (addresses of `Vec`), alignment of a custom allocator.
* In `Model/Borrow.lean` the rules of the borrow checker are part of the trusted base: a value can be used until something it has
  been borrowed from is used in a conflicting way. Expressions and closures hold views like variables do; references to
  elements are not borrowed again; owning expressions (`Drain`, `IntoExpr`) are left out.
* In `Model/Alloc.lean` elements are only counted; what is done with them is arbitrary user code. Out-of-memory aborts
  the process (`handle_alloc_error`), except in `try_reserve`.
* Not modelled: what is inside of allocators (the code of the `nightly` feature is in `Model/Nightly.lean` and
  `Model/Alloc.lean`), trait
  coherence/type inference of the Rust compiler, borrow checking (but see C87), the Rust standard
  library (`Vec`, iterators, `Hasher`) beyond the functions used,
  errors of the formatter in `Debug` (C90 models the builders of std), the token level of macros (what they
  expand to is modelled).
