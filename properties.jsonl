{"id": "C01", "title": "Checked element access is exact", "statement": "Indexing an array or view with a multi-index (`a[[i0,..,ik]]` or a `&[usize]`) succeeds exactly when the number of indices equals the rank and every index is smaller than its dimension; on success it addresses the element at (base position + sum of index*stride), and in every other case it panics without touching memory.", "quantifier": "every rank, every dimension list, both layouts, every index list of any length", "why_tests_cant": "The set of shapes, strides and index lists is unbounded; a test can only try a few of them.", "anchors": ["src/index/slice.rs: SliceIndex for &[usize]", "src/index/slice.rs: SliceIndex for [usize; N]", "src/mapping.rs: Mapping::offset"]}
{"id": "C02", "title": "Row-major storage is a bijection", "statement": "In a dense array of any shape, the valid multi-indices correspond one-to-one with the positions 0..len, the correspondence is row-major (last index fastest), and no two distinct multi-indices share an element.", "quantifier": "every rank and dimension list, every pair of valid multi-indices, every position below len", "why_tests_cant": "Injectivity and surjectivity range over all pairs of indices of all shapes.", "anchors": ["src/mapping.rs: DenseMapping::for_each_stride", "src/mapping.rs: DenseMapping::stride", "src/mapping.rs: Mapping::offset"]}
{"id": "C03", "title": "Linear indexing agrees with multi-indexing", "statement": "For every array or view of either layout, `v[k]` with an integer k succeeds exactly when k < len, and then addresses the same element as the k-th multi-index in row-major order of the shape of v.", "quantifier": "every view (any rank, dims, strides including zero and negative), every k", "why_tests_cant": "Linear indexing of strided views divides by every dimension; correctness must hold for all strides and shapes.", "anchors": ["src/index/slice.rs: SliceIndex for usize", "src/mapping.rs: StridedMapping::linear_offset", "src/mapping.rs: DenseMapping::linear_offset"]}
{"id": "C04", "title": "No view ever reaches outside its array", "statement": "Start from a dense array with n elements and apply any finite sequence of the safe view-producing methods (view, at/axis_at, split_at/split_axis_at, permute, reorder, reshape, flatten, remap, row, col, diag, into_dyn). Every valid multi-index of the resulting view addresses one of the n elements of the original array.", "quantifier": "every initial shape and every finite history of view operations with arbitrary arguments that do not panic; in builds without overflow checks, views of rank up to 63 (see C51)", "why_tests_cant": "Memory safety of the unsafe pointer arithmetic must hold for every composition of operations, an infinite set.", "anchors": ["src/view.rs: impl_view!", "src/view.rs: impl_into_view!", "src/slice.rs: Slice", "src/mapping.rs: StridedMapping"]}
{"id": "C05", "title": "Mutable views never alias themselves", "statement": "For every view obtained from a dense array by any finite sequence of safe view-producing methods, two different valid multi-indices address two different elements, so handing out `&mut` to each position of a mutable view is sound.", "quantifier": "every initial shape, every finite history of view operations (in builds without overflow checks, views of rank up to 63, see C51), every pair of valid multi-indices", "why_tests_cant": "Absence of aliasing is a statement about all index pairs of all reachable views.", "anchors": ["src/view.rs: ViewMut", "src/view.rs: split_axis_at", "src/mapping.rs: StridedMapping::reshape"]}
{"id": "C06", "title": "view() selects exactly the requested elements", "statement": "`a.view(i0,..,ik)` where each argument is an integer, a full range, any other range or a stepped range panics exactly when some integer is not below its dimension or some range is not within its dimension (or a step is zero); otherwise element j of the result is the element of `a` whose coordinate along each axis is: the integer; or range.start + j; in axis order, with the integer axes removed from the shape.", "quantifier": "every rank, dims, strides, layout, every combination of index kinds per axis and every valid index of the result", "why_tests_cant": "Combinatorially many mixes of index kinds, shapes and layouts; correctness must hold for all.", "anchors": ["src/index/view.rs: DimIndex", "src/index/view.rs: ViewIndex::view_index", "src/view.rs: into_view", "src/index/mod.rs: range"]}
{"id": "C07", "title": "Stepped ranges enumerate the right indices", "statement": "A `step(range, s)` argument with s > 0 selects start, start+s, start+2s, ... below end; with s < 0 it selects end-1, end-1-|s|, ... down to at least start; the number of selected indices is ceil(len/|s|), every selected index lies inside the range, and none inside the range at that spacing is missed.", "quantifier": "every range within any dimension and every nonzero signed step", "why_tests_cant": "Off-by-one errors in ceil division and reversed starts depend on arithmetic relations between start, end and step that no finite sample covers.", "anchors": ["src/index/view.rs: DimIndex for StepRange", "src/ops.rs: step"]}
{"id": "C08", "title": "Indexing one axis fixes that coordinate", "statement": "`axis_at(axis, i)` (and `at`) panics exactly when the axis does not exist or i is not below that dimension; otherwise element (j...) of the result is the element of the original whose coordinates are (j...) with i inserted at the axis, and the shape is the original with that dimension removed.", "quantifier": "every rank, dims, strides, layout, every axis kind (constant, Cols, Rows, dynamic), every index", "why_tests_cant": "Unbounded shapes and strides.", "anchors": ["src/view.rs: axis_at", "src/index/axis.rs: Axis::remove", "src/mapping.rs: Mapping::remove_dim"]}
{"id": "C09", "title": "Splitting partitions an array", "statement": "`split_axis_at(axis, mid)` (and `split_at`, and the mut versions) panics exactly when the axis does not exist or mid exceeds the dimension; otherwise the first part holds the elements with axis coordinate < mid, the second those with coordinate >= mid shifted by mid, the two parts share no element, and together they hold every element.", "quantifier": "every rank, dims, strides, layout, axis and split point", "why_tests_cant": "Disjointness (needed for two simultaneous &mut) is a statement over all pairs of indices.", "anchors": ["src/view.rs: split_axis_at", "src/index/axis.rs: Axis::resize", "src/mapping.rs: Mapping::resize_dim"]}
{"id": "C10", "title": "Permutation of dimensions", "statement": "`permute(p)` panics exactly when p is not a permutation of 0..rank; otherwise the result has dims[i] = old dims[p[i]] and its element at index j is the original element at the index whose coordinate p[i] is j[i]; permuting afterwards with the inverse permutation restores the original element addressing.", "quantifier": "every rank up to 63, dims, strides, every list p", "why_tests_cant": "rank! permutations times all shapes; duplicate detection is done with a bit mask.", "anchors": ["src/mapping.rs: StridedMapping::permute", "src/mapping.rs: DenseMapping::permute", "src/slice.rs: permute"]}
{"id": "C11", "title": "Reordering reverses the axes", "statement": "`reorder()` never panics, has the reversed shape, its element at index j is the original element at reversed(j), and reordering twice addresses the same elements as the original.", "quantifier": "every rank, dims, strides and layout, every valid index", "why_tests_cant": "Universal over shapes and layouts.", "anchors": ["src/mapping.rs: Mapping::reorder", "src/slice.rs: reorder", "src/view.rs: into_reordered"]}
{"id": "C12", "title": "Reshape keeps the row-major sequence (dense) and infers at most one dimension", "statement": "Reshaping a dense array of length n to new dimensions panics exactly when: two or more dims are the placeholder usize::MAX; or there is no placeholder and the product differs from n; or there is one placeholder and the product m of the other dims is 0 or does not divide n (or overflows, or a constant-size dimension does not match). Otherwise the placeholder becomes n/m, the new length is n, and the k-th element in row-major order is unchanged for every k.", "quantifier": "every old shape, every new dimension list, every k below n", "why_tests_cant": "All shapes and all placeholder positions.", "anchors": ["src/shape.rs: Shape::reshape", "src/mapping.rs: DenseMapping::reshape", "src/tensor.rs: into_shape"]}
{"id": "C13", "title": "Strided reshape is sound", "statement": "Whenever reshaping a strided view does not panic, the result has the requested shape and its k-th element in row-major order is the k-th element of the original view for every k < len. It never silently returns a wrong layout. Conversely, for a view without dimensions of size one, the reshape succeeds whenever some strided view with the requested dimensions has the elements in this order; reshaping to the own dimensions always succeeds.", "quantifier": "every strided view with arbitrary integer strides, every target shape", "why_tests_cant": "The region-merging algorithm has many interacting cases (unit dims, non-divisible partial products, broadcast strides); only an invariant covers all.", "anchors": ["src/mapping.rs: StridedMapping::reshape", "src/slice.rs: reshape", "src/slice.rs: flatten"]}
{"id": "C14", "title": "Contiguity and remapping", "statement": "If `is_contiguous()` holds, the row-major k-th element lies exactly k positions after the first one; remapping to the dense layout panics exactly when the view is not contiguous (or a static shape does not match) and remapping never changes which element any index addresses; a contiguous view can be reshaped to every shape of the same length; `into_dyn` always succeeds and keeps the layout.", "quantifier": "every view, every target layout and shape", "why_tests_cant": "Universal over strides and shapes.", "anchors": ["src/mapping.rs: StridedMapping::is_contiguous", "src/mapping.rs: DenseMapping::remap", "src/mapping.rs: StridedMapping::remap", "src/mapping.rs: StridedMapping::reshape"]}
{"id": "C15", "title": "Diagonals", "statement": "For a rank-2 array with r rows and c columns, `diag(k)` panics exactly when k > c or -k > r; otherwise it has length min(r, c-k) for k >= 0 or min(c, r+k) for k < 0, and its i-th element is a[i, i+k] for k >= 0 or a[i-k, i] for k < 0.", "quantifier": "every r, c, strides, layout and every integer k, every i", "why_tests_cant": "All rectangular shapes and offsets.", "anchors": ["src/view.rs: into_diag", "src/slice.rs: diag"]}
{"id": "C16", "title": "Rows and columns", "statement": "For a rank-2 array without a dimension equal to usize::MAX, `row(i)` gives a[i,0..c] and `col(j)` gives a[0..r,j]; they panic exactly when the rank is not 2 or the index is out of bounds (in particular the internal same-shape reshape never fails).", "quantifier": "every r, c below usize::MAX, strides, layout, index", "why_tests_cant": "The implementation goes through a strided reshape whose success for every stride pattern must be shown.", "anchors": ["src/slice.rs: row", "src/slice.rs: col", "src/view.rs: into_row", "src/view.rs: into_col"]}
{"id": "C17", "title": "Statically chosen layouts never fail at run time", "statement": "Whenever the type system promises that an operation (axis_at, split_axis_at, axis_expr, lanes, view, permute with a valid permutation, reorder) returns a dense view, the run-time consistency checks of the dense mapping hold: no such call panics for a reason other than the documented out-of-bounds / invalid-argument ones.", "quantifier": "every static or dynamic shape type up to rank 6, every axis, every mix of index kinds, every run-time size", "why_tests_cant": "The layout is computed by trait-level functions; their agreement with the run-time assertions must hold for every instantiation.", "anchors": ["src/index/axis.rs: Keep, Split", "src/index/view.rs: DimIndex::Layout", "src/index/permutation.rs: Permutation::Layout", "src/mapping.rs: DenseMapping::prepend_dim, remove_dim, resize_dim, reorder, permute"]}
{"id": "C18", "title": "Statically chosen shapes never fail at run time", "statement": "Whenever an operation succeeds in its documented sense, the constant-size dimensions and the static rank promised by the result type agree with the run-time dimensions, so no internal size assertion fires (axis_at, split, view, permute, reorder, zip of broadcastable expressions).", "quantifier": "every shape type (any mix of constant and dynamic dimensions up to rank 6, or dynamic rank), every run-time size", "why_tests_cant": "Type-level functions (Merge, Reverse, Prepend, Insert, Remove, ...) must agree with run-time list surgery for every instantiation.", "anchors": ["src/shape.rs: Shape::{Merge,Reverse,Prepend,Tail,Head}", "src/index/axis.rs: Axis::{Remove,Insert,Dim}", "src/expr/adapters.rs: Zip::Shape", "src/index/permutation.rs: Permutation::Shape"]}
{"id": "C19", "title": "Iteration visits every element once, in row-major order", "statement": "Iterating an array, view or expression (for_each, fold, iterator) yields exactly len items: the element of every valid multi-index exactly once, in row-major order; in particular an empty array yields nothing.", "quantifier": "every rank, dims, strides, layout and every composition of expression adapters", "why_tests_cant": "The nested counter logic must be right for all shapes; tests only sample shapes and rarely empty ones.", "anchors": ["src/expr/iter.rs: Iter::new, step_outer, fold, next", "src/view.rs: Expression for View", "src/expr/expression.rs: fold, for_each"]}
{"id": "C20", "title": "Reported iterator length is exact", "statement": "At every point of an iteration, `size_hint()`/`len()` of the iterator equals the number of items that the iterator will still yield.", "quantifier": "every expression, every number of items already taken (including all of them)", "why_tests_cant": "Must hold at every intermediate state of every iteration.", "anchors": ["src/expr/iter.rs: size_hint", "src/expr/iter.rs: ExactSizeIterator for Iter"]}
{"id": "C21", "title": "Iterators are fused", "statement": "After an iterator over an array or expression has returned None it keeps returning None for ever.", "quantifier": "every expression, every number of further calls", "why_tests_cant": "Infinite continuation after exhaustion.", "anchors": ["src/expr/iter.rs: FusedIterator for Iter", "src/expr/iter.rs: step_outer"]}
{"id": "C22", "title": "Internal and external iteration agree", "statement": "Taking any number of items with next() and then folding the rest sees exactly the same sequence of items as folding the whole expression.", "quantifier": "every expression and every split point of the sequence", "why_tests_cant": "All interleavings of external and internal iteration over all shapes.", "anchors": ["src/expr/iter.rs: next, fold"]}
{"id": "C23", "title": "Broadcast shape rule", "statement": "Zipping two expressions panics exactly when the trailing dimensions they share differ, or when an expression that cannot be repeated (mutable or by-value) has the smaller rank; otherwise the result has the shape of the operand with the larger rank.", "quantifier": "every pair of shapes and repeatability flags", "why_tests_cant": "All pairs of shapes.", "anchors": ["src/expr/adapters.rs: Zip::new"]}
{"id": "C24", "title": "Broadcast element rule", "statement": "In a zip of two (possibly differently laid out, possibly nested and adapted) expressions, the item at multi-index j pairs each operand's element at the trailing part of j that matches its rank, for every j in the result shape, in row-major order.", "quantifier": "every pair of expressions, every nesting of adapters, every index", "why_tests_cant": "The lock-step stepping/resetting of operands with different inner ranks must work for every combination.", "anchors": ["src/expr/adapters.rs: Zip::{get_unchecked,inner_rank,reset_dim,step_dim}", "src/expr/iter.rs: step_outer"]}
{"id": "C25", "title": "map, cloned, copied and enumerate are element-wise", "statement": "Mapping an expression calls the closure exactly once per element in row-major order and yields its results in that order; cloned/copied yield copies of the elements; enumerate pairs the k-th item (row-major) with k.", "quantifier": "every expression and closure (including closures with internal state)", "why_tests_cant": "All shapes, layouts and closures.", "anchors": ["src/expr/adapters.rs: Map, Cloned, Copied, Enumerate"]}
{"id": "C26", "title": "from_fn calls the function once per index", "statement": "Building an array with from_fn(shape, f) calls f exactly once for each valid multi-index of the shape, in row-major order, and stores f(j) at j.", "quantifier": "every shape (static, dynamic and dynamic rank, including empty shapes) and every function", "why_tests_cant": "All shapes including zero-size dimensions and dynamic rank.", "anchors": ["src/expr/sources.rs: FromFn", "src/tensor.rs: from_fn", "src/array.rs: from_fn"]}
{"id": "C27", "title": "Axis expressions yield the subarrays in order", "statement": "axis_expr(axis) (and outer_expr) yields, for i = 0,1,..,dim-1, exactly the subarray axis_at(axis, i).", "quantifier": "every view, axis and position", "why_tests_cant": "All shapes, strides, axes; correctness of the running offset.", "anchors": ["src/expr/sources.rs: AxisExpr, AxisExprMut"]}
{"id": "C28", "title": "Lanes yield each one-dimensional lane once", "statement": "lanes(axis) (rows(), cols() and the mut versions) yields, in row-major order of the remaining dimensions, the one-dimensional lane along the axis at each position of the remaining dimensions; different lanes share no element.", "quantifier": "every rank >= 1, dims, strides, layout and axis", "why_tests_cant": "All ranks and strides; the code has a running offset that must be applied.", "anchors": ["src/expr/sources.rs: Lanes, LanesMut"]}
{"id": "C29", "title": "assign and fill write exactly the view", "statement": "`v.assign(expr)` (fill, fill_with likewise) sets the element at every valid index j of v to the broadcast value of expr at j, and leaves every element of the underlying array that is not addressed by v unchanged.", "quantifier": "every reachable view v, every broadcastable expression, every memory location", "why_tests_cant": "Frame condition over all memory locations and all views.", "anchors": ["src/slice.rs: assign, fill, fill_with"]}
{"id": "C30", "title": "Operators are element-wise with the written operand order", "statement": "For a binary operator, element j of `a op b` is (a at j) op (b at j) with broadcasting, in the written order also for non-commutative operators and for every combination of owned, borrowed and lazy operands; compound assignment updates x to x op y in place; an owned left or right tensor is reused without changing the result.", "quantifier": "every operator, every operand kind combination, every shape", "why_tests_cant": "Operand order is swapped internally for some operand kinds; all combinations and shapes must agree.", "anchors": ["src/ops.rs: impl_binary_op!", "src/ops.rs: impl_op_assign!", "src/ops.rs: impl_unary_op!", "src/tensor.rs: zip_with", "src/array.rs: zip_with"]}
{"id": "C31", "title": "Evaluation produces the right array", "statement": "Evaluating an expression (eval, to_tensor, to_array, from_expr, collect) gives an array with the shape of the expression whose element at each index is the expression's item at that index; the number of elements written never exceeds the allocated capacity.", "quantifier": "every expression whose shape is not of the form that triggers the known empty-outer-dimension defect", "why_tests_cant": "Unchecked writes into reserved capacity must match the computed length for all expressions.", "anchors": ["src/tensor.rs: from_expr", "src/expr/expression.rs: clone_into_vec", "src/array.rs: from_expr", "src/slice.rs: to_tensor"]}
{"id": "C32", "title": "A tensor's buffer always matches its shape", "statement": "After any finite history of tensor operations (expand, append, drain fully/partly consumed or leaked, truncate, clear, resize, extend, reserve, clone_from, into_shape, into_mapping), where user closures may panic at any point and the panic is caught, the number of initialised elements the tensor owns equals the product of its dimensions.", "quantifier": "every finite history, every panic point", "why_tests_cant": "All histories and all crash points.", "anchors": ["src/raw_tensor.rs: with_mut_parts", "src/tensor.rs: Tensor", "src/expr/buffer.rs: Drain"]}
{"id": "C33", "title": "resize keeps the overlapping block", "statement": "After `resize_with(new_dims, f)`, the element at j is the old element at j if j was valid before, and otherwise a freshly produced value; fresh values are produced once per new position in row-major order.", "quantifier": "every old shape, every new shape of the same rank, every index", "why_tests_cant": "Recursive block copy over all shape pairs.", "anchors": ["src/raw_tensor.rs: resize_with, copy_dim"]}
{"id": "C34", "title": "resize never loses or duplicates ownership", "statement": "During `resize_with`, whatever call of the closure panics (or none), every old element is either kept in the array or dropped exactly once, every new element produced by the closure is either in the array or dropped exactly once, and the array is afterwards usable.", "quantifier": "every pair of shapes and every panic point", "why_tests_cant": "All crash points of all shape pairs.", "anchors": ["src/raw_tensor.rs: DropGuard", "src/raw_tensor.rs: copy_dim", "src/raw_tensor.rs: with_mut_parts"]}
{"id": "C35", "title": "expand/append concatenate along the first axis", "statement": "expand(expr)/append(other) on a non-empty array with matching rank and inner dimensions gives the array whose first rows are the old ones followed by those of expr; on an empty array it takes the shape and contents of expr; append leaves `other` with zero rows.", "quantifier": "every array and every non-empty expression", "why_tests_cant": "All shapes and contents.", "anchors": ["src/tensor.rs: expand, append"]}
{"id": "C36", "title": "A failed expand leaves the array unchanged", "statement": "If expand panics because rank or inner dimensions do not match (or a constant dimension is violated), the array still has its old shape and elements.", "quantifier": "every array and every mismatching expression", "why_tests_cant": "All mismatching shape pairs.", "anchors": ["src/tensor.rs: expand", "src/raw_tensor.rs: with_mut_parts"]}
{"id": "C37", "title": "drain removes exactly the range", "statement": "drain(range) yields the rows in range in order; once the drain is dropped - however many items were taken - the array consists of the rows before the range followed by the rows after it.", "quantifier": "every array, every range within the first dimension, every number of items consumed", "why_tests_cant": "All ranges and all partial consumptions.", "anchors": ["src/tensor.rs: drain", "src/expr/buffer.rs: Drain::new", "src/expr/buffer.rs: Drop for Drain", "src/expr/into_expr.rs: Drop for IntoExpr"]}
{"id": "C38", "title": "drain is leak-safe and drops each element once", "statement": "If the drain is leaked after any number of items were taken, the array holds exactly the rows before the range and nothing is dropped twice; if it is dropped normally, each drained element was either handed to the caller or dropped exactly once.", "quantifier": "every array, range, number of items consumed, and both endings (dropped or leaked)", "why_tests_cant": "All interleavings of consumption and leak.", "anchors": ["src/expr/buffer.rs: Drain", "src/expr/into_expr.rs: IntoExpr"]}
{"id": "C39", "title": "truncate and clear", "statement": "truncate(n) keeps exactly the first min(n, rows) rows and drops the others once; clear() leaves an array of length zero and drops every element once.", "quantifier": "every array and n", "why_tests_cant": "All shapes.", "anchors": ["src/tensor.rs: truncate, clear"]}
{"id": "C40", "title": "In-place map/zip is panic safe", "statement": "Tensor map / owned operators process the buffer in place; if the closure or the operand's evaluation panics at any element, no element is dropped twice or used after being moved; if the closure panics, every element is dropped exactly once in total.", "quantifier": "every shape, operand and panic point", "why_tests_cant": "All crash points.", "anchors": ["src/tensor.rs: zip_with", "src/tensor.rs: map"]}
{"id": "C41", "title": "By-value iteration drops each element exactly once", "statement": "Consuming an owned array as an expression or iterator and stopping after any number of items hands out the first items in order and drops the rest exactly once.", "quantifier": "every array and every stopping point", "why_tests_cant": "All stopping points.", "anchors": ["src/expr/into_expr.rs: IntoExpr"]}
{"id": "C42", "title": "Evaluation into a new array is panic safe", "statement": "If producing some element panics while an expression is evaluated into an Array or Tensor, exactly the elements already produced are dropped, each once, and no uninitialised element is touched.", "quantifier": "every expression and panic point", "why_tests_cant": "All crash points.", "anchors": ["src/array.rs: from_expr", "src/tensor.rs: from_expr", "src/expr/expression.rs: clone_into_vec"]}
{"id": "C43", "title": "Equality is shape plus elements", "statement": "Two arrays or views compare equal exactly when their dimension lists are the same and all elements at equal indices compare equal, whatever their layouts, strides and shape types.", "quantifier": "every pair of views with any layouts, and every element equality", "why_tests_cant": "All pairs of layouts and shapes; the comparison takes different code paths per layout and rank.", "anchors": ["src/ops.rs: PartialEq for Slice"]}
{"id": "C44", "title": "Equal arrays hash equally", "statement": "If two arrays or views of the same element type compare equal then they feed the same data to the hasher, whatever their layouts (required by Hash and by Borrow-based lookup).", "quantifier": "every pair of views with any layouts", "why_tests_cant": "All pairs of layouts and shapes including empty ones.", "anchors": ["src/slice.rs: Hash for Slice", "src/ops.rs: PartialEq for Slice"]}
{"id": "C45", "title": "contains is existential", "statement": "contains(x) is true exactly when some valid index addresses an element equal to x.", "quantifier": "every view and value", "why_tests_cant": "All layouts and shapes.", "anchors": ["src/slice.rs: contains"]}
{"id": "C46", "title": "Serialisation round trip", "statement": "Deserialising the serialised form of an array of static rank gives back an array with the same shape and elements.", "quantifier": "every shape of static rank and all contents", "why_tests_cant": "All shapes including those with zero-size dimensions.", "anchors": ["src/serde.rs: Serialize for Slice", "src/serde.rs: TensorVisitor::visit_seq"]}
{"id": "C47", "title": "Deserialisation accepts exactly rectangular data", "statement": "Deserialising nested sequences succeeds exactly when all subsequences at each level have equal shapes that match the constant dimensions; then the array holds the leaves in order; ragged input gives an error, never a panic or a malformed array.", "quantifier": "every nested sequence of any depth and width", "why_tests_cant": "All nested inputs.", "anchors": ["src/serde.rs: TensorVisitor::visit_seq"]}
{"id": "C48", "title": "Array sizes never overflow silently", "statement": "from_elem, from_fn, reshape and resize reject (panic) every dimension list for which a partial product exceeds usize::MAX, and whenever they accept, the stored length is the exact product of the dimensions.", "quantifier": "every dimension list", "why_tests_cant": "All lists of 64-bit values.", "anchors": ["src/shape.rs: checked_len", "src/raw_tensor.rs: resize_with", "src/expr/sources.rs: FromElem::new, FromFn::new"]}
{"id": "C49", "title": "No arithmetic overflow while addressing", "statement": "For every reachable non-empty view of an array with at most isize::MAX elements, every intermediate value computed while turning a valid multi-index or linear index into an address fits in isize.", "quantifier": "every reachable view, every valid index, every partial sum", "why_tests_cant": "Universal over shapes, strides and indices.", "anchors": ["src/mapping.rs: Mapping::offset", "src/mapping.rs: StridedMapping::linear_offset"]}
{"id": "C50", "title": "Nested array conversion keeps positions", "statement": "Converting a nested array [[T; B]; A] (any depth) to a Tensor or view and indexing it at (i,j,..) gives the nested element [i][j]..; converting a tensor back to a nested array succeeds exactly when the dims match and gives back the same nesting.", "quantifier": "every nesting depth and size", "why_tests_cant": "All sizes and depths.", "anchors": ["src/tensor.rs: impl_from_array!", "src/tensor.rs: impl_try_from_array!"]}
{"id": "C51", "title": "permute rejects everything that is not a permutation", "statement": "`permute(p)` panics whenever p is not a permutation of 0..rank, for arrays of every rank including dynamic rank, in builds with and without overflow checks; so it never produces a view that addresses memory outside the array.", "quantifier": "every rank (also above 64), every dimension list, every list p, both build modes", "why_tests_cant": "The check uses a 64-bit mask, so wrong acceptance only appears for ranks of 65 and more and only in builds without overflow checks; no test uses such ranks.", "anchors": ["src/mapping.rs:324-356", "src/mapping.rs:187-195", "src/slice.rs:371-383"]}
{"id": "C52", "title": "Cloning gives an independent exact copy", "statement": "Tensor::clone gives a tensor with the same shape whose elements are the clones of the elements in order, each cloned exactly once; clone_from makes the target such a copy and drops each of its old elements exactly once. If a clone panics, no element is lost, leaked or dropped twice, and the target stays usable.", "quantifier": "every shape, every clone function, every panic point", "why_tests_cant": "All shapes and all panic points.", "anchors": ["src/raw_tensor.rs: impl Clone for RawTensor", "src/tensor.rs: impl Clone for Tensor"]}
{"id": "C53", "title": "Conversions of owned arrays keep the element sequence", "statement": "into_vec, From<Vec>, From<&[T]>, FromIterator, Extend, into_shape, into_mapping, into_dyn, into_flat, Array::into_shape keep the row-major sequence of elements and give the requested shape; into_scalar returns the only element. They panic exactly when the request cannot be met, and then every element is dropped exactly once.", "quantifier": "every array, every requested shape, every iterator and panic point", "why_tests_cant": "All shapes, requests and panic points.", "anchors": ["src/tensor.rs: into_vec, into_shape, into_scalar, into_mapping, From, FromIterator, Extend", "src/array.rs: into_shape, into_scalar"]}
{"id": "C54", "title": "Capacity operations change nothing but the capacity", "statement": "reserve, reserve_exact, try_reserve, shrink_to and shrink_to_fit keep elements and shape, and establish the promised capacity; a failure changes nothing. new and with_capacity give an empty array with the capacity asked for, or panic if the type has no empty array. The spare capacity starts behind the last element and never overlaps an element.", "quantifier": "every tensor, every requested capacity", "why_tests_cant": "All shapes and sizes.", "anchors": ["src/tensor.rs: reserve, try_reserve, shrink_to, spare_capacity_mut, new, with_capacity"]}
{"id": "C55", "title": "Mutable iteration never hands out the same element twice", "statement": "The elements yielded by one iter_mut of a view are distinct elements of that view. The subarrays yielded by axis_expr_mut, outer_expr_mut and lanes_mut are parts of the view and no two of them share an element, however often next is called. So safe callers never get two mutable references to one element.", "quantifier": "every view reachable from an owned array by safe operations, every axis, every number of calls of next", "why_tests_cant": "Overlap is undefined behaviour that a test does not observe, and it depends on rank, strides, empty dimensions and on how often the iterator is advanced.", "anchors": ["src/expr/iter.rs: Iter::next", "src/expr/sources.rs: AxisExprMut, LanesMut", "src/view.rs: ViewMut", "src/slice.rs: iter_mut, axis_expr_mut, lanes_mut, split_axis_at_mut"]}
{"id": "C56", "title": "The representation of a dynamic-rank shape is not observable", "statement": "A DynRank shape may hold its dimensions inline (One) or in a boxed slice (Dyn). Whatever sequence of new, default, clone, clone_from, from_dims and in-place updates produced two shapes, dims(), ==, cmp and hash depend only on the list of dimensions: equal dimensions give equal shapes with equal hashes, the order is lexicographic, and clone_from leaves exactly the dimensions of the source.", "quantifier": "every finite sequence of operations on any number of shape variables, every start representation", "why_tests_cant": "All sequences of operations, all ranks and dimensions, and every combination of representations.", "anchors": ["src/shape.rs: DynRank, Clone, PartialEq, Ord, Hash, with_mut_dims, new"]}
{"id": "C57", "title": "Equality of arrays is an equivalence relation", "statement": "If == on the elements is reflexive, symmetric and transitive then so is == on arrays, whatever mixture of layouts, shape types and storage the operands have: v == v, v == w implies w == v, and u == v, v == w imply u == w, and none of these comparisons panics.", "quantifier": "every triple of views with any shape types, layouts and memories", "why_tests_cant": "The relation must hold for all triples of views of any rank, size and stride pattern.", "anchors": ["src/ops.rs: PartialEq, Eq", "src/slice.rs: outer_expr, remap"]}
{"id": "C58", "title": "Ranges of a dense array select elements in row-major order", "statement": "array[range] of a dense array, for every kind of range, panics exactly if start > end or end > len(), and otherwise is the slice of the elements with row-major numbers start..end, in that order.", "quantifier": "every dense array of any rank and shape type, every kind of range with any bounds", "why_tests_cant": "All shapes and all pairs of bounds, including those at the limits of usize.", "anchors": ["src/index/slice.rs: impl_slice_index for Range types", "src/slice.rs: as_slice, flatten"]}
{"id": "C59", "title": "Debug output is the nested list of the elements", "statement": "Formatting an array with Debug formats each element exactly once, in row-major order, as nested lists whose nesting is that of the dimensions, for every layout and every rank, and does not panic unless an element does.", "quantifier": "every view, every formatting function", "why_tests_cant": "All ranks, layouts and strides including empty dimensions, by recursion over the rank.", "anchors": ["src/slice.rs: Debug for Slice", "src/slice.rs: outer_expr"]}
{"id": "C60", "title": "All kinds of shape arguments mean the same dimensions", "statement": "A shape argument given as shape, array, reference to an array, slice, boxed slice, vector, Const or number is always accepted, and gives a shape of the documented type whose dimensions are those of the argument, the same as seen by into_dims.", "quantifier": "every argument of every kind, any rank", "why_tests_cant": "All lengths and sizes for every kind of argument.", "anchors": ["src/shape.rs: IntoShape"]}
{"id": "C61", "title": "Copies of views contain the elements of the view", "statement": "to_tensor, to_array, to_vec, to_owned and clone_into, and tensor(..)/array(..) of a selection, produce an owned array of the shape of the view (of the selection), with each element cloned exactly once in row-major order and no other element accessed; if a clone panics the clones made so far are dropped once and the source is unchanged.", "quantifier": "every view of any layout into any memory, every clone function including panicking ones, every selection", "why_tests_cant": "All stride patterns and panic points; out-of-bounds accesses are not observed by tests.", "anchors": ["src/slice.rs: to_tensor, to_array, to_vec, to_owned, clone_into, array, tensor", "src/view.rs"]}
{"id": "C62", "title": "The owned type follows from the shape type", "statement": "eval, to_owned and the other operations that return an owned array give an Array exactly if all dimensions of the shape type are constant, otherwise a Tensor, always with the shape of the expression and its items in row-major order. The repeat form of tensor! makes a tensor whose first dimension is the one written last.", "quantifier": "every shape type, every expression without phantom rows", "why_tests_cant": "The type-level recursion ranges over all combinations of constant and dynamic dimensions.", "anchors": ["src/shape.rs: Shape::Owned", "src/dim.rs: Dim::Owned", "src/array.rs: Owned", "src/tensor.rs: Owned", "src/expr/expression.rs: eval", "src/macros.rs: tensor"]}
{"id": "C63", "title": "References to slices keep pointer and mapping", "statement": "A &Slice is a thin reference: it holds the address of the elements if the mapping type has no size, and otherwise the address of the descriptor. For every array, tensor and view, the pointer and the mapping read through the reference are those of the original, the assertion against zero-sized mappings never fires, and AsRef to a nested array gives the same elements.", "quantifier": "every shape type, layout, rank and set of live descriptors", "why_tests_cant": "Which representation is used depends on the size of a type; a wrong case is undefined behaviour.", "anchors": ["src/raw_slice.rs", "src/slice.rs: as_ptr, mapping, AsRef", "src/array.rs: Deref"]}
{"id": "C64", "title": "Copies and debug output of owning expressions never touch moved elements", "statement": "Cloning an owning expression that is in use panics; otherwise the copy has clones of all elements in order, and clone_from replaces the elements of the target, each old element being dropped once. The debug output of an iterator panics once an element was handed out, so it never shows an element that was moved out.", "quantifier": "every owning expression and clone function, every number of calls of next", "why_tests_cant": "All positions of the iterator and all panic points; access to moved elements and leaks are not observed by tests.", "anchors": ["src/expr/into_expr.rs: Clone, Debug", "src/expr/iter.rs: Debug"]}
{"id": "C65", "title": "Flattening", "statement": "`flatten` (and `into_flat` of views) gives a one-dimensional view of all elements in row-major order, of length len(). It panics exactly if the elements are not uniformly strided, i.e. if there is no constant distance between elements that follow each other in row-major order.", "quantifier": "every view with less than usize::MAX elements, with arbitrary integer strides", "why_tests_cant": "Merging of dimensions depends on all strides and sizes, and dimensions of size one have strides without meaning.", "anchors": ["src/view.rs: into_flat", "src/slice.rs: flatten", "src/mapping.rs: StridedMapping::reshape"]}
{"id": "C66", "title": "Results have the documented layout", "statement": "`axis_at`, `split_axis_at` (and `at`, `split_at`) along a dimension known to be the first one at compile time give views with the same layout as the input, and strided views otherwise; lanes along a dimension known to be the last one have the same layout as the input, and are strided otherwise; `view` keeps the layout exactly for integers followed by at most one range without step followed by full ranges; `permute` keeps it exactly for identity permutations known at compile time and for single dimensions; `reorder` keeps it exactly for at most one dimension.", "quantifier": "every view of any shape type and layout, every axis, list of view indices and permutation", "why_tests_cant": "The layout is the result of type-level recursion over the shape type, axis and index types; tests cover single instances only.", "anchors": ["src/index/axis.rs: Axis::Init, Rest, Split, Keep", "src/index/view.rs: ViewIndex::Layout, Outer", "src/index/permutation.rs: Permutation::Layout, Init", "src/slice.rs: axis_at, split_axis_at, lanes, permute, reorder"]}
{"id": "C67", "title": "Results keep constant-sized dimensions", "statement": "If the axis is known at compile time, `axis_at` removes one dimension from the shape type and keeps the others with their constant sizes, `split_axis_at` makes only the split dimension dynamic, and lanes have the type of the dimension; with a run-time axis all dimensions become dynamic. `view` keeps the constant size for `..` and gives a dynamic dimension for other ranges. `permute` takes constant sizes along for constant entries. `reorder` reverses the dimension types. `zip` aligns dimensions at the end, and a dimension has a constant size if it has one in either operand.", "quantifier": "every shape type up to rank 6 or with dynamic rank, every axis, list of view indices, permutation and pair of expressions", "why_tests_cant": "Type-level recursion over all shape types.", "anchors": ["src/index/axis.rs: Axis::Dim, Remove, Insert, Resize", "src/index/view.rs: ViewIndex::Shape", "src/index/permutation.rs: Permutation::Shape", "src/shape.rs: Shape::Merge, Reverse", "src/expr/adapters.rs: Zip"]}
{"id": "C68", "title": "Views stay inside of the array with 64-bit arithmetic", "statement": "With 64-bit `usize` and `isize`, and arithmetic that panics on overflow (builds with overflow checks) or wraps around (builds without), after any sequence of view calls that return, starting from an array of at most 2^62 elements: indexing the view with an index inside of its dimensions returns an element of the array, different indices different elements, and any other index panics. This holds for any arguments, including steps and offsets for which intermediate results wrap around.", "quantifier": "both kinds of builds, every shape with at most 2^62 elements (including empty shapes whose other dimensions have a product above 2^64), every finite sequence of calls of axis_at, split_axis_at, view, permute, reorder, reshape, flatten, remap, row, col, diag with any arguments, every index; rank below 64 in builds without overflow checks", "why_tests_cant": "Wrap-around happens only for extreme sizes and steps, and combines over sequences of calls; arrays of that size cannot be allocated in tests (except with empty dimensions or zero-sized types).", "anchors": ["src/mapping.rs: StridedMapping::reshape, is_contiguous, for_each_stride, stride, offset", "src/index/view.rs: view_index", "src/index/axis.rs: Axis::remove, resize", "src/view.rs: into_view, into_diag, axis_at, split_axis_at", "src/shape.rs: len, is_empty"]}
{"id": "C69", "title": "64-bit arithmetic gives the exact views", "statement": "With 64-bit `usize` and `isize`, every view call on a view of an array of at most 2^62 elements has the outcome it would have with unbounded integers: the same panic, or a view with the same shape, layout and elements. In particular no call panics because of an overflow.", "quantifier": "both kinds of builds, every view reached by any calls from an array of at most 2^62 elements, every view-producing function and all arguments", "why_tests_cant": "Overflow depends on combinations of sizes, strides and steps that tests do not reach.", "anchors": ["src/mapping.rs: StridedMapping::reshape, is_contiguous, for_each_stride, stride", "src/index/view.rs: view_index", "src/view.rs: into_view, into_diag, axis_at, split_axis_at", "src/shape.rs: len, is_empty"]}
{"id": "C70", "title": "Pointers stay inside of the array", "statement": "Pointers are moved with `offset`, which is only allowed within the array (or one past its end), even if nothing is read: the start of every view that is returned by any sequence of view calls, and every pointer that an iterator over an expression of views forms when it goes on to the next row or back to the start, stays inside of the array.", "quantifier": "both kinds of builds, every view reached by any calls from an array of at most 2^62 elements, including empty views; every expression of views, every state of an iterator reached by next and fold until the end", "why_tests_cant": "A pointer outside of the array is not noticed by tests as long as it is not used for reading.", "anchors": ["src/view.rs: axis_at, split_axis_at, into_view, into_diag, reset_dim, step_dim", "src/expr/iter.rs: step_outer"]}
{"id": "C71", "title": "64-bit arithmetic iterates exactly", "statement": "With 64-bit `usize` and `isize`, iterating over an expression of arrays of at most 2^62 elements (with `fold`, `next` or any mix of them) visits the same items in the same order, and has the same outcome, as with unbounded integers. The reported number of items to come is the same as well. In particular no iteration panics because of an overflow in the computation of offsets or counters.", "quantifier": "both kinds of builds, every expression built from views that are reached by any calls, axes, lanes, owned arrays, sources and adapters, every state of an iterator, every closure", "why_tests_cant": "Overflow depends on combinations of sizes, strides and positions that tests do not reach.", "anchors": ["src/expr/iter.rs: new, step_outer, fold, next, size_hint", "src/view.rs: get_unchecked, reset_dim, step_dim", "src/expr/sources.rs: AxisExpr, Lanes, FromFn", "src/expr/adapters.rs: Enumerate, Zip", "src/expr/into_expr.rs: get_unchecked"]}
{"id": "C72", "title": "Destructors that panic", "statement": "If the destructor of an element panics, every operation on owned arrays is still memory safe and drops no element twice. `clear`, `truncate`, draining, and dropping an array or an iterator over it drop all the elements they would drop otherwise and leave the same array, and the panic goes on afterwards. The same holds for the operations that drop elements only when they fail (`expand`, `append`, `extend`, conversions, evaluation, owned arithmetic). After a panic in `resize` or `clone_from` the array is valid, with the old shape or empty, and each old or new element was either dropped or is in the array. The process is aborted only if two destructors panic or one after another failure (or where it is aborted anyway).", "quantifier": "any set of values whose destructors panic, any contents, arguments, expressions and closures (which may panic as well)", "why_tests_cant": "The outcome depends on which destructors panic at which point of the unwinding, with any number of elements.", "anchors": ["src/raw_tensor.rs: with_mut_parts, resize_with, copy_dim, clone_from", "src/tensor.rs: clear, truncate, drain, expand, append, extend, into_shape, from_expr, zip_with", "src/array.rs: from_expr", "src/expr/into_expr.rs: drop", "src/tensor.rs: Drain::drop"]}
{"id": "C73", "title": "Owned arrays in expressions, with panics", "statement": "When the elements of owned arrays are moved out through an expression, each element is moved out or dropped exactly once, also if a closure panics: `next` that returns an item takes one element of each array, a call that panics takes at most one, and dropping the iterator drops exactly the elements that are left. A complete `fold` takes all elements; a `fold` that panics has taken the same number of each array, up to the current item, and the rest is dropped. No sequence of calls reads beyond the end of an array.", "quantifier": "every expression with any number of owned arrays, every sequence of calls of `next` with caught panics in any states of the world, then `fold` or drop, every closure", "why_tests_cant": "The state at a panic depends on the position in the expression tree and on how many elements were taken before; double drops and leaks need not be visible.", "anchors": ["src/expr/into_expr.rs: get_unchecked, drop", "src/expr/iter.rs: fold, next, step_outer", "src/expr/adapters.rs: Map, Enumerate, Zip"]}
{"id": "C74", "title": "Iteration goes on after a caught panic", "statement": "If a call of `next` panics because a closure panics and the caller catches the panic, then the iterator can be used further: the next call gives the following item, and the iteration ends after as many calls as there are items.", "quantifier": "every expression, every number of calls that return or panic, in any states of the world", "why_tests_cant": "Each combination of adapters has its own state at the point of the panic, and each position can be the one that panics.", "anchors": ["src/expr/iter.rs: next", "src/expr/sources.rs: FromFn", "src/expr/adapters.rs: Map, Enumerate, Zip", "src/expr/into_expr.rs: get_unchecked"]}
{"id": "C75", "title": "Owned arrays as operands, with panics", "statement": "An operation that takes an expression with owned arrays by value (conversion to `Tensor` or `Array`, `Array::map`, `apply` and `zip_with`, `Tensor::expand`, owned arithmetic, `assign`, compound assignment) moves out or drops each of their elements exactly once. If it returns, all elements have been moved out. If the shapes do not fit, nothing has been moved out and all elements are dropped. If a closure panics in item k, then k or k + 1 elements have been moved out of each array and the arrays drop exactly the rest; values made before that are dropped by the operation.", "quantifier": "every expression with any number of owned arrays of any sizes, every closure that may panic at any item, every target", "why_tests_cant": "Each combination of operation, expression tree and position of the panic has its own state at the time of unwinding; double drops and leaks need not be visible.", "anchors": ["src/expr/expression.rs: for_each, clone_into_vec", "src/expr/into_expr.rs: drop", "src/tensor.rs: from_expr, expand, zip_with", "src/array.rs: from_expr, map, apply, zip_with", "src/slice.rs: assign", "src/ops.rs: compound assignment"]}
{"id": "C76", "title": "Builds with the nightly feature", "statement": "With the `nightly` feature (custom allocators) every operation on owned arrays has the same outcome as without it: the same elements, shape and drops if it returns or panics. In particular the array is valid after a panic that is caught.", "quantifier": "every valid array of any type, every argument, expression and closure (which may panic at any call), every memory limit", "why_tests_cant": "The two builds have different guards that run only while unwinding, and they differ only in the state left behind, which need not be visible until the array is dropped.", "anchors": ["src/raw_tensor.rs: with_mut_parts (both variants), resize_with, clone_from", "src/tensor.rs: clear, truncate, expand, append, extend, reserve, try_reserve, shrink_to"]}
{"id": "C77", "title": "64-bit arithmetic in operations on owned arrays", "statement": "On a machine with 64-bit integers, with or without overflow checks, every operation on tensors (expand, append, drain, truncate, clear, resize, extend, reserve, shrink, clone, reshaping and conversions, zip_with, construction from an expression) has the same outcome as with exact integers: no length, index or capacity computation wraps around or panics where the exact one would not, and the tensors afterwards can exist on the machine, so this goes on for any sequence of operations.", "quantifier": "every sequence of operations on tensors whose length can be computed with 64-bit integers, every closure and expression, builds with and without overflow checks, every memory limit up to 2^64 - 1", "why_tests_cant": "Overflow needs dimensions near 2^64, which exist only for empty arrays or zero-sized elements, and builds with and without checks behave differently.", "anchors": ["src/raw_tensor.rs: resize_with, with_mut_parts, copy_dim, clone_from", "src/tensor.rs: expand, append, drain, truncate, extend, reserve, try_reserve, shrink_to, into_shape, from_expr", "src/tensor.rs: Drain", "src/shape.rs: len, checked_len"]}
{"id": "C78", "title": "64-bit arithmetic in operations on arrays with constant dimensions", "statement": "On a machine with 64-bit integers, with or without overflow checks, `Array::into_shape` returns an array with exactly the same elements or panics and drops each of them once, `into_scalar` returns the only element or panics and drops all, construction from an expression is not affected by overflow, and arrays that are consumed element by element have a length that fits in 64 bits. In particular no elements are made up or lost.", "quantifier": "every array of any dimensions and number of elements (elements may have no size), every new shape type, builds with and without overflow checks", "why_tests_cant": "Overflow needs types with at least 2^64 elements without size, and the builds with and without checks behave differently.", "anchors": ["src/array.rs: into_scalar, into_shape, from_expr, deref, into_expr", "src/shape.rs: len, checked_len"]}
{"id": "C79", "title": "Changing elements in place", "statement": "`assign`, `fill`, `fill_with`, compound assignment and `for_each` on mutable elements change each element of the array or view exactly once, in row-major order, with the matching item, and nothing else. If the change of an element panics, whatever it left in the element stays there, the elements before are changed and the others are not. Assigning drops the old value of each element exactly once, after the new one has been made, and no other value, also if a closure, a clone or a destructor panics: no value is leaked, duplicated or dropped twice.", "quantifier": "every array or view of any shape, every expression, every way to change an element (which may panic and leave any value), any set of values whose destructors panic", "why_tests_cant": "What is left after a panic depends on the layout, the position of the panic and the operands that own arrays; lost or doubly dropped values need not be visible.", "anchors": ["src/slice.rs: assign, fill, fill_with", "src/traits.rs: IntoCloned::clone_to", "src/ops.rs: impl_op_assign", "src/expr/expression.rs: for_each"]}
{"id": "C80", "title": "Calls to a serialiser", "statement": "Serialising an array or view makes exactly the calls of the serde protocol that describe it as nested sequences: each sequence is announced with its exact length, each element is serialised exactly once in row-major order, every sequence is ended. If a call returns an error, serialising stops at once and returns this error; if a call panics, no other call is made.", "quantifier": "every array or view of any shape and layout with a static rank, every serialiser (any state, any call may fail or panic)", "why_tests_cant": "Formats differ in which calls they look at; errors can occur at any of unboundedly many calls and views have arbitrary shapes and strides.", "anchors": ["src/serde.rs: impl Serialize for Slice, Array, Tensor, View, ViewMut"]}
{"id": "C81", "title": "Raw parts and set_mapping", "statement": "Taking an array apart with `into_raw_parts` and putting it together with `from_raw_parts` gives the same array with the same capacity, and no element is dropped, moved or duplicated. `from_raw_parts` with any parts that meet its safety contract gives the array of the elements in the allocation. Values written to `spare_capacity_mut` become the elements behind the existing ones once `set_mapping` includes them; until then the array is unchanged. `set_mapping` to a smaller shape forgets elements without dropping them.", "quantifier": "every tensor of any shape type, any capacity, any number of values written, with and without debug assertions", "why_tests_cant": "Leaks, double drops and uninitialised elements depend on lengths and capacities and are not visible in results.", "anchors": ["src/tensor.rs: from_raw_parts, into_raw_parts, from_raw_parts_in, into_raw_parts_with_alloc, set_mapping, spare_capacity_mut", "src/raw_tensor.rs: from_parts, into_parts, set_mapping"]}
{"id": "C82", "title": "Debug assertions never fail", "statement": "No safe operation makes a debug assertion of the crate fail: every operation on tensors that returns, panics or leaves a tensor in some state in a release build does the same in a build with debug assertions, also after caught panics of closures, clones and iterators, and indexing inside or outside the bounds returns or panics alike. In particular the length of the buffer equals the product of the dimensions whenever a tensor is assembled or a mutation ends. The debug output of an iterator shows an array whose elements are moved out only while all of them are still there.", "quantifier": "every history of operations on two tensors of any shape, every closure, clone and iterator, panics included; every view and every index", "why_tests_cant": "The assertions are internal and hold for the inputs of tests; that they hold at every place in every history, is an invariant.", "anchors": ["src/raw_tensor.rs: from_parts, set_mapping, with_mut_parts, copy_dim", "src/mapping.rs: offset, linear_offset", "src/expr/into_expr.rs: as_ref, as_mut"]}
{"id": "C83", "title": "Expressions of other crates", "statement": "`Expression` is a public trait that safe code in other crates can implement. Whatever the functions of such an implementation return in each call, and whenever they panic, iterating over it is memory safe and ends; evaluating it into a new array or appending it to a tensor never writes outside of the allocation and never gives an array with uninitialised elements; and each value that it has produced is then an element, in the order of production, or has been dropped exactly once.", "quantifier": "every implementation in safe code (any state, any results, panics in any call), every shape type, every tensor appended to", "why_tests_cant": "Tests use the expressions of the crate. The claim is about arbitrary foreign code called at unboundedly many points, including results that change from call to call.", "anchors": ["src/expr/expression.rs: trait Expression", "src/expr/iter.rs: Iter::new, step_outer, fold", "src/tensor.rs: from_expr, expand", "src/array.rs: from_expr"]}
{"id": "C84", "title": "Mutable views with expressions of other crates", "statement": "A mutable view combined with an expression that safe code of another crate implements (`expr_mut().zip(expr)`) hands out each element of the view at most once, in row-major order and each together with the next value of the expression, whatever the functions of the expression return and whenever they panic. `assign` of such an expression writes exactly the values that it has produced to the first elements of the view in row-major order, changes nothing else, and never writes outside of the array.", "quantifier": "every view in which different indices address different elements, every implementation in safe code (any state, any results, panics in any call), repeatable or not", "why_tests_cant": "Tests use the expressions of the crate. Mutable references to one element handed out twice, or outside of the array, depend on what foreign code returns in each of unboundedly many calls.", "anchors": ["src/expr/adapters.rs: Zip::new, get_unchecked, inner_rank, reset_dim, step_dim", "src/slice.rs: expr_mut, assign", "src/view.rs: get_unchecked, reset_dim, step_dim"]}
{"id": "C85", "title": "Sending and sharing between threads", "statement": "A value of any type of the crate, also of nested ones (arrays, tensors, views, draining and consuming expressions, expressions over axes and lanes, adapters, iterators), can be sent to or shared with another thread only if all that the other thread can get from it through the interface may be there: elements, allocators and closures that it can move or change are `Send`, and those that it can only read at the same time as other threads are `Sync`. Apart from shared references to `Drain`, nothing is refused without need.", "quantifier": "every type built from the types of the crate, every assignment of `Send` and `Sync` to the type parameters, every sequence of steps by which values are obtained", "why_tests_cant": "The implementations of `Send` and `Sync` for types with raw pointers are assertions by the author that the compiler does not check; data races through a wrong one show up only in particular schedules, and types can be nested without bound.", "anchors": ["src/view.rs: impl Send, Sync for View, ViewMut", "src/raw_tensor.rs: impl Send, Sync for RawTensor", "src/slice.rs: Slice", "src/expr/buffer.rs: Drain", "src/expr/sources.rs", "src/expr/adapters.rs", "src/expr/iter.rs"]}
{"id": "C86", "title": "Memory and allocators of tensors", "statement": "With the `nightly` feature, every allocator value given to a tensor or cloned by it is dropped exactly once and not used afterwards, and every memory block is released exactly once, through a value of the allocator that it came from and with the size that it was allocated with. This holds for all ways of making, cloning, resizing, converting, consuming and dropping tensors, also when closures, clones or destructors of elements, or the clone or destructor of the allocator, panic at any point. A tensor stays with its allocator, and only a resize of inner dimensions replaces the allocator value by a clone.", "quantifier": "every program that uses any number of tensors and allocators, every behaviour of user code including panics, elements with and without size, with and without debug assertions", "why_tests_cant": "Allocator values are moved with `ptr::read` and `ManuallyDrop`, so a value that is dropped twice or not at all is invisible for the default allocator and for values without state, and most paths need a panic at a particular point.", "anchors": ["src/raw_tensor.rs: from_parts, into_parts, resize_with, with_mut_parts, with_vec, clone, clone_from, drop", "src/tensor.rs: new_in, with_capacity_in, from_expr_in, from_raw_parts_in, into_raw_parts_with_alloc, into_mapping, into_shape, into_scalar, zip_with, into_expr", "src/expr/into_expr.rs: Drop", "src/slice.rs: to_tensor_in"]}
{"id": "C87", "title": "Views held at the same time", "statement": "In a safe program that holds any number of arrays, views and references to elements at the same time, every value that can be used refers to the present memory of an array that exists. If two values give access to the same element, one has been borrowed from the other one, or neither can change elements. As long as a read-only view exists its elements do not change; the elements of a mutable view are neither read nor changed except through it or through what has been borrowed from it. (Iterators over elements and lanes are meant as far as they are correct, see C55.)", "quantifier": "every program of calls of view-producing methods in all versions (`&self`, `&mut self`, `self`), with any arguments and with panics that are caught, accesses to elements, methods that reallocate, and drops, in any order that the borrow checker accepts; in builds without overflow checks, views of rank up to 63 (see C51)", "why_tests_cant": "Views are made from raw pointers, so it is only the signatures of the methods and the disjointness of the parts that rule out aliasing; a wrong lifetime or receiver compiles and passes all tests.", "anchors": ["src/view.rs: View, ViewMut and all into_ methods, Deref, Clone", "src/slice.rs: all view-producing methods", "src/expr/sources.rs: AxisExpr, AxisExprMut, Lanes, LanesMut", "src/raw_slice.rs"]}
{"id": "C88", "title": "The documented matrix multiplication", "statement": "The function matmul in the documentation of the crate, three nested for loops over rows_mut().zip(rows()), expr().zip(rows()) and expr_mut().zip(row), computes C = A * B + C: for an m by k matrix a, a k by n matrix b and an m by n matrix c, each element c[i, j] becomes the result of mul_add with a[i, 0] and b[0, j], then a[i, 1] and b[1, j], and so on in this order, and nothing else in memory changes. If the dimensions do not fit it panics before anything is changed, except that a mismatch in a loop that does not run is not noticed.", "quantifier": "all dimensions including 0, all element types and functions mul_add, arrays and views of any layout (transposed, stepped, reversed) for a, b and c, where a and b may share elements with each other but not with c", "why_tests_cant": "the documentation test runs one 3 by 2 by 2 case with dense arrays; correctness for all sizes, layouts, empty dimensions and mismatches needs an induction through three loops that combine lanes, zip, next and the addressing of views", "anchors": ["src/lib.rs:118-148", "src/slice.rs:509-520", "src/expr/adapters.rs:316-389", "src/expr/sources.rs:411-467", "src/expr/iter.rs:19-108"]}
{"id": "C89", "title": "Elements with lifetimes", "statement": "If the element type, the allocator or a closure contains lifetimes, the compiler lets a program use a view, an expression, an iterator or an owner as one of a supertype, for example a View<&'static str> as a View<&'a str>. Whatever a program then gets from it through the interface: what it reads has the type that it is taken to have, and what it can put in a place has the type that the lender of the place takes it to have, so that no reference that is too short-lived gets into an array. Handles that only read and owners can be used with a supertype of the element type, handles that change elements cannot. Apart from arrays, zip expressions, iterators and shared references to mutable handles, nothing is refused without need.", "quantifier": "every type built from the types of the crate, every ordering of the types of elements, allocators and closures, every sequence of uses as supertypes and steps by which values are obtained", "why_tests_cant": "The compiler derives the variance of types with raw pointers from marker fields that have no effect at run time; a wrong marker lets programs compile that should not, which no test of programs that compile can show, and types can be nested without bound.", "anchors": ["src/view.rs: View, ViewMut", "src/slice.rs: Slice", "src/raw_slice.rs: RawSlice", "src/raw_tensor.rs: RawTensor", "src/array.rs: Array", "src/expr/buffer.rs: Drain", "src/expr/into_expr.rs: IntoExpr", "src/expr/sources.rs", "src/expr/adapters.rs", "src/expr/iter.rs"]}
{"id": "C90", "title": "Debug texts identify what is shown", "statement": "The text that Debug gives for an array is, with {:?}, the nested list of its elements in one line and, with {:#?}, one line for each bracket and each element, indented by the depth (if formatting does not panic, see C59). In both formats the text identifies the array: two arrays of the same rank have the same text exactly if they have the same dimensions up to the first that is zero and at each index elements with the same text, provided that the texts of the elements have matching brackets and no comma outside of them, as those of numbers, tuples and structures do. The text of a mapping identifies the mapping including its type, and the text of an expression identifies all that it shows among expressions made of the same adapters, and also the adapters if its arrays have at least one dimension.", "quantifier": "all arrays and views of all ranks, layouts, shape types and origins, all mappings with static or dynamic shapes and any strides, all expressions of any depth, both formats, every function that formats elements", "why_tests_cant": "That no two different arrays have the same text is a statement about all pairs of arrays of all sizes; tests compare a few texts with literals.", "anchors": ["src/slice.rs: Debug for Slice", "src/mapping.rs: DenseMapping, StridedMapping", "src/shape.rs: Debug for DynRank", "src/dim.rs: Debug for Const", "src/expr/sources.rs", "src/expr/adapters.rs", "src/expr/iter.rs: Debug for Iter", "src/expr/into_expr.rs: Debug for IntoExpr"]}
{"id": "C91", "title": "Shapes and mappings as keys", "statement": "Shapes and mappings can be used as keys of maps and sets: mappings of the same type compare equal exactly if they have the same dimensions and strides, equal mappings feed the same numbers to a hasher and different ones do not, whatever is hashed after them. Shapes of the same type are ordered lexicographically by their dimensions, in agreement with equality. clone and clone_from give the mapping that is copied, whatever was in the target before. None of this depends on how a shape of dynamic rank is represented.", "quantifier": "all shapes of static and dynamic rank with any mix of constant and dynamic sizes, both representations of dynamic rank, all strides, all pairs of mappings of the same type, anything hashed afterwards", "why_tests_cant": "Agreement of equality, order and hash is a statement about all pairs of values, and the representations that have to agree come about only through particular histories of a shape.", "anchors": ["src/mapping.rs: DenseMapping, StridedMapping", "src/shape.rs: Hash, Ord, PartialEq, Clone for DynRank", "src/dim.rs: Const"]}
{"id": "C92", "title": "Buffers of other crates", "statement": "`Buffer` is a public trait that safe code in other crates can implement, and an `IntoExpr` of such a type can be created with `Default`. Whatever its functions return in each call, and whenever they or the closure panic, evaluating and dropping the expression is memory safe: only elements of the buffer are moved out or dropped, each at most once. If the functions always return the same slice, `for_each` moves out its elements once each in order, and if there is a panic the rest is dropped; stepping through an iterator returns the elements in order, and dropping the iterator drops the rest.", "quantifier": "every implementation in safe code (any state, any slices of its memory, panics in any call), all closures, builds with and without debug assertions", "why_tests_cant": "Tests use the buffers of the crate, whose functions always return the same slice. What other implementations may return depends on the number of the call, and an element that is moved out twice or left out shows only in its destructor.", "anchors": ["src/expr/buffer.rs: Buffer", "src/expr/into_expr.rs: IntoExpr, get_unchecked, Drop, Default", "src/expr/iter.rs: Iter::new, fold, next"]}
{"id": "C93", "title": "Axes of other crates", "statement": "`Axis` is a public trait that safe code in other crates can implement. Whatever the associated types are and whatever `index` returns in each call, `axis_at`, `split_axis_at` and `axis_expr` (and the `_mut` variants) panic or give views of elements of the array, where mutable views do not overlap. If `index` always returns the same dimension, the views are exactly those along this dimension, in order.", "quantifier": "every implementation of `index` in safe code (any state, any values, panics in any call) and every choice of associated types, all views of any rank and layout, all indices and closures", "why_tests_cant": "Tests use the axis types of the crate, whose associated types and indices are consistent. There are infinitely many other choices of associated types, and what `index` returns may depend on the number of the call.", "anchors": ["src/index/axis.rs: Axis, get, remove, resize", "src/view.rs: axis_at, split_axis_at", "src/expr/sources.rs: AxisExpr, AxisExprMut"]}
{"id": "C94", "title": "Shapes and dimensions of other crates", "statement": "`Shape` and `Dim` are public traits that safe code in other crates can implement. Whatever their functions return in each call, reshaping an array to such a shape (`into_shape`) and indexing the result panics or gives elements of the array. If the shape behaves like a list of sizes, reshaping keeps the number of elements and replaces only a placeholder, and it succeeds whenever there is exactly one such result (and no function of the shape panics); an index gives the element at its row-major position, different indices give different elements, and indexing panics exactly for indices out of bounds (or if a function of the shape panics).", "quantifier": "every implementation in safe code (any state, any sizes and ranks in each call, panics in any call), dense arrays of any size, all multidimensional and linear indices, builds with and without debug assertions", "why_tests_cant": "Tests use the shapes of the crate, whose sizes do not change. What other implementations return may depend on the number of the call, and there are infinitely many of them, for example dimensions that refuse some sizes.", "anchors": ["src/shape.rs: Shape, dim, len, rank, reshape, with_dims, with_mut_dims", "src/dim.rs: Dim", "src/index/slice.rs: SliceIndex for &[usize] and usize", "src/mapping.rs: Mapping::offset, DenseMapping"]}
{"id": "C95", "title": "Ranges of other crates", "statement": "`step(range, s)` as an argument of `view` and `drain(range)` accept every type that implements `RangeBounds<usize>`, also types of other crates whose bounds differ from call to call. Each range is asked exactly once for its start and then once for its end (in `view` the last argument first), and the result is exactly the one for the answers: the selected elements of the array, or the removal of the rows between the bounds. A view obtained in this way is one that can be obtained with the ranges of the standard library. If a bound function panics, or the answers are out of bounds, `drain` leaves the array as it was; and if no bound function panics, the call panics only when the answers so far are out of bounds, whatever the others would be (or when draining is not possible at all, or a step is zero).", "quantifier": "every implementation of the bounds in safe code (any state, any values in each call, panics in any call), all views of any rank and layout, every combination of arguments, every nonzero or zero step, all arrays and numbers of drained items, with the drain dropped or leaked", "why_tests_cant": "Tests use the ranges of the standard library, whose bounds do not change. That a bound is not read again after it was checked can only be seen with an implementation that answers differently the second time, and there are infinitely many of them.", "anchors": ["src/index/mod.rs: range", "src/index/view.rs: DimIndex for StepRange", "src/ops.rs: StepRange", "src/tensor.rs: Tensor::drain"]}
{"id": "C96", "title": "Permutations of other crates", "statement": "`permute` and `permute_mut` accept every type that implements `IntoShape` where the shape type implements `Permutation`; safe code in other crates can implement both, with associated types that do not match the numbers it gives. For arrays of rank below 64, or in builds with overflow checks, each call panics or gives the array with its dimensions in exactly the order that `into_dims` gave in this call, with the shape and layout types that were promised; each element of the array has exactly one index in the result. For ranks below 64 the call panics only if `into_dims` panics, the order is not a permutation, the sizes do not match the shape type, or the layout type is dense although the order is not the identity or the array is not contiguous.", "quantifier": "every implementation of `into_dims` in safe code (any state, any numbers in each call, panics before and after the closure is called), every choice of associated shape and layout types, all views of any rank (as stated), sizes and strides, builds with and without overflow checks", "why_tests_cant": "Tests use the permutation types of the crate, whose associated types are computed from the same numbers. For other types nothing but the checks at run time protects the elements, and there are infinitely many combinations of numbers and types.", "anchors": ["src/index/permutation.rs: Permutation", "src/shape.rs: IntoShape::into_dims", "src/view.rs: into_permuted", "src/mapping.rs: permute"]}
