{
 "claims": [
  {
   "property": "C01",
   "status": "proved",
   "theorems": [
    "Props.C01"
   ],
   "note": ""
  },
  {
   "property": "C02",
   "status": "proved",
   "theorems": [
    "Props.C02"
   ],
   "note": ""
  },
  {
   "property": "C03",
   "status": "proved",
   "theorems": [
    "Props.C03"
   ],
   "note": ""
  },
  {
   "property": "C04",
   "status": "proved",
   "theorems": [
    "Props.C04"
   ],
   "note": "Quantifier scoped: in builds without overflow checks, histories through views of rank below 64 (see C51)."
  },
  {
   "property": "C05",
   "status": "proved",
   "theorems": [
    "Props.C05"
   ],
   "note": "Same scope as C04."
  },
  {
   "property": "C06",
   "status": "proved",
   "theorems": [
    "Props.C06",
    "Props.C06_args"
   ],
   "note": "The product stride*step is mathematical; in builds with overflow checks a huge step can panic although the selection is legal (DESIGN.md, B11)."
  },
  {
   "property": "C07",
   "status": "proved",
   "theorems": [
    "Props.C07"
   ],
   "note": ""
  },
  {
   "property": "C08",
   "status": "proved",
   "theorems": [
    "Props.C08",
    "Props.C08_at"
   ],
   "note": ""
  },
  {
   "property": "C09",
   "status": "proved",
   "theorems": [
    "Props.C09_at",
    "Props.C09",
    "Props.C09_disjoint"
   ],
   "note": ""
  },
  {
   "property": "C10",
   "status": "proved",
   "theorems": [
    "Props.C10",
    "Props.C10_inverse"
   ],
   "note": ""
  },
  {
   "property": "C11",
   "status": "proved",
   "theorems": [
    "Props.C11"
   ],
   "note": ""
  },
  {
   "property": "C12",
   "status": "proved",
   "theorems": [
    "Props.C12",
    "Props.C12_resolves"
   ],
   "note": ""
  },
  {
   "property": "C13",
   "status": "proved",
   "theorems": [
    "Props.C13",
    "Props.C13_complete",
    "Props.C13_same",
    "Props.C13_incomplete"
   ],
   "note": "C13_incomplete records that completeness fails with dimensions of size one: some reshapes that exist are rejected."
  },
  {
   "property": "C14",
   "status": "proved",
   "theorems": [
    "Props.C14_into_dyn",
    "Props.C14",
    "Props.C14_strides",
    "Props.C14_remap",
    "Props.C14_reshape"
   ],
   "note": ""
  },
  {
   "property": "C15",
   "status": "proved",
   "theorems": [
    "Props.C15",
    "Props.C15_slice",
    "Props.C15_placeholder_dimension"
   ],
   "note": ""
  },
  {
   "property": "C16",
   "status": "proved",
   "theorems": [
    "Props.C16",
    "Props.C16_placeholder_dimension"
   ],
   "note": "C16_placeholder_dimension shows that the exclusion of usize::MAX dimensions is needed."
  },
  {
   "property": "C17",
   "status": "proved",
   "theorems": [
    "Props.C17"
   ],
   "note": ""
  },
  {
   "property": "C18",
   "status": "proved",
   "theorems": [
    "Props.C18",
    "Props.C23"
   ],
   "note": "C23 covers zip."
  },
  {
   "property": "C19",
   "status": "partial",
   "theorems": [
    "Props.C19_partial",
    "Props.C19_next_partial",
    "Props.C19_view",
    "Props.C19_dense",
    "Props.C19_violated",
    "Props.C19_exact",
    "Props.C19_exact_count",
    "Props.C19_exact_view",
    "Props.C19_exact_iff"
   ],
   "note": "Full for every non-empty array, view or expression and for dense arrays. Fails for empty strided views with a zero outer dimension (B2): C19_violated. C19_exact describes what happens in all cases; C19_exact_iff shows that the condition is necessary."
  },
  {
   "property": "C20",
   "status": "partial",
   "theorems": [
    "Props.C20_partial",
    "Props.C20_violated",
    "Props.C20_wraps",
    "Props.C20_exact"
   ],
   "note": "Missing: empty expressions with outer dimensions and the state after None, where the code is wrong (B7; C20_wraps: without overflow checks the length wraps around). C20_exact: for views the condition is necessary."
  },
  {
   "property": "C21",
   "status": "partial",
   "theorems": [
    "Props.C21_partial",
    "Props.C21_violated",
    "Props.C21_exact",
    "Props.C21_rows_exact"
   ],
   "note": "The code is not fused when an outer dimension exceeds one (B3): C21_violated. C21_exact, C21_rows_exact: for views, and for all expressions with items and with inner dimensions, the condition is necessary."
  },
  {
   "property": "C22",
   "status": "partial",
   "theorems": [
    "Props.C22_partial",
    "Props.C22_exact",
    "Props.C22_exact_view",
    "Props.C22_violated"
   ],
   "note": "Fails for empty expressions with outer dimensions (B12): C22_violated. C22_exact covers every expression, also where it yields wrong items, unless its rows are empty and there is more than one of them; C22_exact_view shows that then fold ends at once and next never does."
  },
  {
   "property": "C23",
   "status": "proved",
   "theorems": [
    "Props.C23",
    "Props.C23_repeatable"
   ],
   "note": ""
  },
  {
   "property": "C24",
   "status": "partial",
   "theorems": [
    "Props.C24_partial",
    "Props.C24_views",
    "Props.C24_exact",
    "Props.C24_violated"
   ],
   "note": "Missing only the cases where iteration itself is wrong (C19, C26, C28); C24_exact says what happens in all cases; C24_violated: pairs are produced for an empty strided view (B2)."
  },
  {
   "property": "C25",
   "status": "partial",
   "theorems": [
    "Props.C25_map_partial",
    "Props.C25_enumerate_partial",
    "Props.C25_map_exact",
    "Props.C25_map_next",
    "Props.C25_enumerate_exact",
    "Props.C25_enumerate_next",
    "Props.C25_violated"
   ],
   "note": "Missing only the cases where iteration itself is wrong (C19, C26, C28); the _exact and _next theorems need no hypothesis: the items of all expressions, right or wrong, are mapped and numbered correctly; C25_violated: the closure is called for an empty strided view (B2)."
  },
  {
   "property": "C26",
   "status": "partial",
   "theorems": [
    "Props.C26_partial",
    "Props.C26_violated",
    "Props.C26_exact",
    "Props.C26_exact_dyn"
   ],
   "note": "Full for static ranks with elements or rank at most 1; the code panics for dynamic rank above 0 (B4): C26_violated. C26_exact and C26_exact_dyn describe what happens in the other cases."
  },
  {
   "property": "C27",
   "status": "partial",
   "theorems": [
    "Props.C27_partial",
    "Props.C27_size",
    "Props.C27_violated",
    "Props.C27_exact"
   ],
   "note": "Full for non-empty views; fails for empty views with huge dimensions: C27_violated. C27_exact: it panics whenever the condition fails."
  },
  {
   "property": "C28",
   "status": "partial",
   "theorems": [
    "Props.C28_partial",
    "Props.C28_lane",
    "Props.C28_disjoint",
    "Props.C28_violated",
    "Props.C28_exact"
   ],
   "note": "The code repeats lanes when the remaining dimensions do not form a single loop (B1): C28_violated. C28_exact describes which lanes are returned in all non-empty cases."
  },
  {
   "property": "C29",
   "status": "partial",
   "theorems": [
    "Props.C29_reachable",
    "Props.C29_assign_partial",
    "Props.C29_fill_partial",
    "Props.C29_assign_exact",
    "Props.C29_fill_exact",
    "Props.C29_fill_iff",
    "Props.C29_violated"
   ],
   "note": "Full for non-empty views and for empty views without phantom rows; fails for empty strided views with a zero outer dimension (B2): C29_violated. C29_fill_exact and C29_assign_exact say what happens in all cases; C29_fill_iff: the condition is necessary."
  },
  {
   "property": "C30",
   "status": "partial",
   "theorems": [
    "Props.C30_binary_partial",
    "Props.C30_kinds_partial",
    "Props.C30_unary_partial",
    "Props.C30_assign_partial",
    "Props.C30_assign_exact",
    "Props.C30_phantom_exact",
    "Props.C30_violated"
   ],
   "note": "Binary and unary operators for all combinations of owned, borrowed and lazy operands, and compound assignment. Missing: operand combinations that run into the known iteration defects (Clean, Sound); C30_assign_exact says what compound assignment does in all cases; C30_violated shows wrong writes for empty strided views (B2), C30_phantom_exact that lazy operands with phantom rows are always undefined behaviour unless a step panics."
  },
  {
   "property": "C31",
   "status": "partial",
   "theorems": [
    "Props.C31_tensor_partial",
    "Props.C31_array_partial",
    "Props.C31_violated",
    "Props.C31_exact",
    "Props.C31_tensor_exact",
    "Props.C31_array_exact",
    "Props.C31_phantom_exact"
   ],
   "note": "Missing: expressions with known defects; for empty views with phantom rows the code writes past the allocation (B2): C31_violated, C31_exact, C31_phantom_exact. C31_tensor_exact and C31_array_exact: for all other expressions the memory is handled correctly and the elements are those that iteration produces."
  },
  {
   "property": "C32",
   "status": "proved",
   "theorems": [
    "Props.C32"
   ],
   "note": "All histories and panic points; expand with any expression. Histories may also contain zip_with and evaluation of expressions without phantom rows. The process may abort as in C34_violated."
  },
  {
   "property": "C33",
   "status": "proved",
   "theorems": [
    "Props.C33",
    "Props.C33_succeeds"
   ],
   "note": ""
  },
  {
   "property": "C34",
   "status": "partial",
   "theorems": [
    "Props.C34_partial",
    "Props.C34_exact",
    "Props.C34_violated"
   ],
   "note": "Full for all types with an empty default array. A failed resize of a type with only constant dimensions aborts the process (B14): C34_violated; C34_exact says when."
  },
  {
   "property": "C35",
   "status": "partial",
   "theorems": [
    "Props.C35_expand_partial",
    "Props.C35_expand_succeeds_partial",
    "Props.C35_append",
    "Props.C35_expand_exact",
    "Props.C35_violated"
   ],
   "note": "append is fully covered; expand for expressions without the known defects. C35_expand_exact says what happens for all expressions; C35_violated: from_fn with a dynamic rank panics (B4)."
  },
  {
   "property": "C36",
   "status": "proved",
   "theorems": [
    "Props.C36",
    "Props.C36_append"
   ],
   "note": ""
  },
  {
   "property": "C37",
   "status": "proved",
   "theorems": [
    "Props.C37",
    "Props.C37_rejects"
   ],
   "note": ""
  },
  {
   "property": "C38",
   "status": "proved",
   "theorems": [
    "Props.C38"
   ],
   "note": ""
  },
  {
   "property": "C39",
   "status": "proved",
   "theorems": [
    "Props.C39_truncate",
    "Props.C39_clear"
   ],
   "note": "clear panics without effect for types that have no empty array."
  },
  {
   "property": "C40",
   "status": "partial",
   "theorems": [
    "Props.C40_partial",
    "Props.C40_exact",
    "Props.C40_phantom_exact",
    "Props.C40_leaks",
    "Props.C40_violated"
   ],
   "note": "Missing: operands with known defects; an empty tensor combined with an empty strided view reads outside (B2): C40_violated, C40_phantom_exact. C40_leaks shows that a panic of the operand leaks one element (B5)."
  },
  {
   "property": "C41",
   "status": "proved",
   "theorems": [
    "Props.C41"
   ],
   "note": ""
  },
  {
   "property": "C42",
   "status": "partial",
   "theorems": [
    "Props.C42_tensor_partial",
    "Props.C42_array_partial",
    "Props.C31_tensor_exact",
    "Props.C31_array_exact",
    "Props.C31_violated"
   ],
   "note": "Holds for all expressions without phantom rows (C31_tensor_exact, C31_array_exact); with them the code writes past the allocation (C31_violated)."
  },
  {
   "property": "C43",
   "status": "partial",
   "theorems": [
    "Props.C43_partial",
    "Props.C43_steps_partial",
    "Props.C43_rows",
    "Props.C43_exact",
    "Props.C43_violated"
   ],
   "note": "Full for all non-empty views, rank below 2 and dense pairs; comparing some empty strided views panics because the size of a subarray overflows (B13): C43_violated. C43_exact covers all pairs: the answer is right or there is a panic, and says exactly when."
  },
  {
   "property": "C44",
   "status": "partial",
   "theorems": [
    "Props.C44_partial",
    "Props.C44_feed_partial",
    "Props.C44_violated",
    "Props.C44_exact"
   ],
   "note": "Full for views without phantom rows. Hashing an empty strided view such as [0, 3] reads elements that do not exist (B2): C44_violated; C44_exact says what is hashed in all cases."
  },
  {
   "property": "C45",
   "status": "partial",
   "theorems": [
    "Props.C45_partial",
    "Props.C45_steps_partial",
    "Props.C45_exact",
    "Props.C45_violated"
   ],
   "note": "As C43 (B13): C45_violated; C45_exact says exactly when it panics."
  },
  {
   "property": "C46",
   "status": "partial",
   "theorems": [
    "Props.C46_partial",
    "Props.C46_serialize",
    "Props.C46_same",
    "Props.C46_same_iff",
    "Props.C46_exact",
    "Props.C46_violated"
   ],
   "note": "Elements always come back; the shape does unless dimensions after a zero dimension are not the default ones (B6): C46_violated. C46_same_iff says exactly when."
  },
  {
   "property": "C47",
   "status": "partial",
   "theorems": [
    "Props.C47_partial",
    "Props.C47_wellformed",
    "Props.C47_dynRank",
    "Props.C47_violated",
    "Props.C47_hint_violated",
    "Props.C47_sound"
   ],
   "note": "Full for modest size hints and types without Const<usize::MAX>. Otherwise the code can panic (B16): C47_violated, C47_hint_violated. Deserialising with dynamic rank panics: C47_dynRank. C47_sound has no conditions: whenever reading does not panic, the result is right."
  },
  {
   "property": "C48",
   "status": "partial",
   "theorems": [
    "Props.C48_sources",
    "Props.C48_from_elem",
    "Props.C48_from_fn_partial",
    "Props.C48_from_fn_exact",
    "Props.C48_reshape",
    "Props.C48_resize",
    "Props.C48_violated"
   ],
   "note": "Rejection of overflowing sizes is fully covered. The stored length is exact except for from_fn with an empty shape whose last dimension is not 0, where the code writes outside of the allocation (B2): C48_violated, C48_from_fn_exact."
  },
  {
   "property": "C49",
   "status": "proved",
   "theorems": [
    "Props.C49"
   ],
   "note": ""
  },
  {
   "property": "C50",
   "status": "proved",
   "theorems": [
    "Props.C50_from",
    "Props.C50_back",
    "Props.C50_roundtrip",
    "Props.C50_view",
    "Props.C50_view_back"
   ],
   "note": ""
  },
  {
   "property": "C51",
   "status": "partial",
   "theorems": [
    "Props.C51_partial",
    "Props.C51_exact",
    "Props.C51_violated"
   ],
   "note": "False in builds without overflow checks for rank 65 and more: C51_violated gives a witness that addresses outside of the array. C51_exact says exactly what is accepted for rank 64 and more; actual permutations never are."
  },
  {
   "property": "C52",
   "status": "proved",
   "theorems": [
    "Props.C52_clone",
    "Props.C52_copy",
    "Props.C52_clone_from"
   ],
   "note": ""
  },
  {
   "property": "C53",
   "status": "proved",
   "theorems": [
    "Props.C53_into_vec",
    "Props.C53_from_vec",
    "Props.C53_from_slice",
    "Props.C53_from_iter",
    "Props.C53_extend",
    "Props.C53_into_shape",
    "Props.C53_into_mapping",
    "Props.C53_into_flat",
    "Props.C53_into_scalar",
    "Props.C53_array_into_shape"
   ],
   "note": ""
  },
  {
   "property": "C54",
   "status": "proved",
   "theorems": [
    "Props.C54_reserve",
    "Props.C54_try_reserve",
    "Props.C54_shrink",
    "Props.C54_spare",
    "Props.C54_with_capacity"
   ],
   "note": "Vec may allocate more than asked for; the model allocates exactly."
  },
  {
   "property": "C55",
   "status": "partial",
   "theorems": [
    "Props.C55_elements_partial",
    "Props.C55_axis",
    "Props.C55_lanes_partial",
    "Props.C55_elements_iff",
    "Props.C55_lanes_iff",
    "Props.C55_violated"
   ],
   "note": "The axis expressions are full. Missing: empty strided views, iterators of strided views used after None, and lanes with more than one outer loop; in these cases safe calls hand out overlapping mutable references (B1, B2, B3, B12): C55_violated. C55_elements_iff and C55_lanes_iff: the conditions are necessary."
  },
  {
   "property": "C56",
   "status": "proved",
   "theorems": [
    "Props.C56",
    "Props.C56_eq",
    "Props.C56_cmp"
   ],
   "note": ""
  },
  {
   "property": "C57",
   "status": "partial",
   "theorems": [
    "Props.C57_refl_partial",
    "Props.C57_refl_exact",
    "Props.C57_symm",
    "Props.C57_trans",
    "Props.C43_violated"
   ],
   "note": "Symmetry and transitivity in full. Reflexivity for all non-empty views, rank below 2 and dense views; an array compared with itself can panic (B13): C43_violated. C57_refl_exact says exactly when."
  },
  {
   "property": "C58",
   "status": "proved",
   "theorems": [
    "Props.C58"
   ],
   "note": ""
  },
  {
   "property": "C59",
   "status": "partial",
   "theorems": [
    "Props.C59_partial",
    "Props.C59_tree_partial",
    "Props.C59_exact",
    "Props.C59_violated"
   ],
   "note": "C59_exact says exactly when formatting panics. Missing: empty arrays with rows of more than usize::MAX elements, where formatting panics (B13): C59_violated."
  },
  {
   "property": "C60",
   "status": "proved",
   "theorems": [
    "Props.C60"
   ],
   "note": ""
  },
  {
   "property": "C61",
   "status": "partial",
   "theorems": [
    "Props.C61_tensor_partial",
    "Props.C61_array_partial",
    "Props.C61_vec_partial",
    "Props.C61_owned",
    "Props.C61_clone_into",
    "Props.C61_copy",
    "Props.C61_sub_partial",
    "Props.C61_sub_array_partial",
    "Props.C61_exact",
    "Props.C61_iff",
    "Props.C61_violated"
   ],
   "note": "to_owned and clone_into (dense slices) are full. Missing for the others: empty strided views with phantom rows, where copying is undefined behaviour (B2): C61_violated, C61_exact; C61_iff: the condition is necessary."
  },
  {
   "property": "C62",
   "status": "partial",
   "theorems": [
    "Props.C62",
    "Props.C62_eval_partial",
    "Props.C62_eval_exact",
    "Props.C62_repeat",
    "Props.C31_violated"
   ],
   "note": "The choice of type and the macro are full. Missing for eval: expressions with phantom rows (B2): C31_violated, C62_eval_exact."
  },
  {
   "property": "C63",
   "status": "proved",
   "theorems": [
    "Props.C63",
    "Props.C63_array",
    "Props.C63_as_ref"
   ],
   "note": ""
  },
  {
   "property": "C64",
   "status": "partial",
   "theorems": [
    "Props.C64_clone_partial",
    "Props.C64_clone_from_partial",
    "Props.C64_debug",
    "Props.C64_exact",
    "Props.C64_violated"
   ],
   "note": "Debug output is full. Missing: clone_from does not drop the old elements of the target, and a panicking clone leaks the clones made before (B17): C64_violated; C64_exact: in all cases with such elements."
  },
  {
   "property": "C65",
   "status": "partial",
   "theorems": [
    "Props.C65_partial",
    "Props.C65_exact",
    "Props.C65_violated"
   ],
   "note": "Soundness, and success for dense views and views without dimensions of size one, are full. Missing: uniformly strided views with dimensions of size one, for which the code may panic (B8): C65_violated. C65_exact says exactly when."
  },
  {
   "property": "C66",
   "status": "proved",
   "theorems": [
    "Props.C66"
   ],
   "note": ""
  },
  {
   "property": "C67",
   "status": "proved",
   "theorems": [
    "Props.C67",
    "Props.C67_zip"
   ],
   "note": ""
  },
  {
   "property": "C68",
   "status": "proved",
   "theorems": [
    "Props.C68"
   ],
   "note": ""
  },
  {
   "property": "C69",
   "status": "partial",
   "theorems": [
    "Props.C69_same",
    "Props.C69_partial",
    "Props.C69_release",
    "Props.C69_lines",
    "Props.C69_exact",
    "Props.C69_empty",
    "Props.C69_step_panics",
    "Props.C69_empty_panics",
    "Props.C69_remap_violated"
   ],
   "note": "Without overflow checks all functions agree, on empty views too, except that the conversion of an empty strided view to the dense layout can succeed where it should panic (C69_remap_violated). With overflow checks, on non-empty views all agree except view and diag: C69_exact says that a non-empty result (for diag any result) is returned if its strides are isize values and that the call panics otherwise; C69_step_panics gives a witness. With overflow checks, on empty views, C69_empty says that the outcome is the same or a panic from an overflow check, and C69_empty_panics that such panics happen. Not said exactly: which calls with an empty result panic."
  },
  {
   "property": "C70",
   "status": "partial",
   "theorems": [
    "Props.C70_views",
    "Props.C70_iter_partial",
    "Props.C70_moves",
    "Props.C70_next",
    "Props.C70_only",
    "Props.C70_exact",
    "Props.C70_view_exact",
    "Props.C70_violated"
   ],
   "note": "Full for the start of views. For iteration full unless the expression is empty with an outer dimension greater than 1: stepping through its rows can leave the array, C70_violated (B18). C70_only: only starts of rows are formed; C70_exact and C70_view_exact: with empty rows all of them are, so that the array is left exactly if one of these is outside."
  },
  {
   "property": "C71",
   "status": "partial",
   "theorems": [
    "Props.C71_fold_partial",
    "Props.C71_next_partial",
    "Props.C71_hint_partial",
    "Props.C71_outcome_partial",
    "Props.C71_release_partial",
    "Props.C71_drive_partial",
    "Props.C71_releaseDrive_partial",
    "Props.C71_hintEmpty",
    "Props.C71_violated",
    "Props.C71_empty_violated",
    "Props.C71_phantom_violated"
   ],
   "note": "Full for non-empty expressions with at most a stride of isize::MIN excluded. With all strides and with empty expressions the outcome is the same, or an overflow check panics (C71_outcome_partial, C71_drive_partial), so that it is the same in builds without overflow checks (C71_release_partial, C71_releaseDrive_partial). The panics do occur: negating isize::MIN, C71_violated (B19), and rows of empty arrays with large other dimensions, C71_empty_violated (B24). Excluded: phantom rows (B2), for which the claim is false, C71_phantom_violated, and axes and lanes of empty views whose other dimensions have a product of 2^63 or more."
  },
  {
   "property": "C72",
   "status": "proved",
   "theorems": [
    "Props.C72_none",
    "Props.C72_clear",
    "Props.C72_truncate",
    "Props.C72_drain",
    "Props.C72_into",
    "Props.C72_expand",
    "Props.C72_reserve",
    "Props.C72_extend",
    "Props.C72_convert",
    "Props.C72_tensor",
    "Props.C72_array",
    "Props.C72_zip_with",
    "Props.C72_append",
    "Props.C72_resize_ok",
    "Props.C72_resize",
    "Props.C72_clone_from_ok",
    "Props.C72_clone_from"
   ],
   "note": "The theorems C72_expand, C72_extend, C72_tensor, C72_array, C72_zip_with and C72_append refer to the outcome with destructors that do not panic, which the other properties describe; C72_expand, C72_tensor, C72_array and C72_zip_with have the same hypotheses on the expression (Sound, which excludes the known defects) as those. Values overwritten by assignments (assign, fill, compound assignment) are the subject of C79."
  },
  {
   "property": "C73",
   "status": "partial",
   "theorems": [
    "Props.C73_model",
    "Props.C73_next",
    "Props.C73_fold",
    "Props.C73_fold_rest",
    "Props.C73_called_partial",
    "Props.C73_called_exact",
    "Props.C73_phantom_exact",
    "Props.C73_violated"
   ],
   "note": "Full for calls of next that do not continue after None, and for fold. After None full if there is one row; otherwise the iteration starts again and reads beyond the end of an owned array, C73_violated, in all cases without panics, C73_called_exact (B3). Excluded are empty expressions that yield items (B2, C73_violated); C73_phantom_exact: with an owned array and without panics this is undefined behaviour in all cases."
  },
  {
   "property": "C74",
   "status": "partial",
   "theorems": [
    "Props.C74_partial",
    "Props.C74_count",
    "Props.C74_from_fn_exact",
    "Props.C74_zip_exact",
    "Props.C74_violated"
   ],
   "note": "Full for expressions in which from_fn does not panic and the first part of a zip does not panic unless the second one does not count. Otherwise violated (B20): from_fn repeats an index, zip pairs the wrong items. C74_count: the number of calls until the end is right in all cases; C74_from_fn_exact and C74_zip_exact say which items come after panics."
  },
  {
   "property": "C75",
   "status": "partial",
   "theorems": [
    "Props.C75_model",
    "Props.C75_tensor_partial",
    "Props.C75_array_partial",
    "Props.C75_expand",
    "Props.C75_zip_partial",
    "Props.C75_assign_partial",
    "Props.C75_opAssign_partial",
    "Props.C75_assign_item_partial",
    "Props.C75_opAssign_item_partial",
    "Props.C75_zip_item_partial",
    "Props.C75_violated",
    "Props.C75_phantom_exact",
    "Props.C75_operand_exact"
   ],
   "note": "Full for expressions without phantom rows, and for expand without conditions. Missing: empty expressions that yield items (B2), where elements beyond the end of an empty owned array are read, C75_violated; C75_phantom_exact and C75_operand_exact: in all cases without panics. The theorems named item tie the elements moved out by assign, compound assignment, zip_with and owned arithmetic to the item that panics and to the elements written, for views that are exclusive (C29_reachable)."
  },
  {
   "property": "C76",
   "status": "partial",
   "theorems": [
    "Props.C76_operations",
    "Props.C76_resize_partial",
    "Props.C76_resize_bad",
    "Props.C76_violated"
   ],
   "note": "Full for all operations but resize and resize_with, and for these if the type allows an empty array. For types with only non-zero constant dimensions violated (B21): where a failed resize aborts without the feature, it leaves an array whose destructor has undefined behaviour, C76_resize_bad and C76_violated."
  },
  {
   "property": "C77",
   "status": "partial",
   "theorems": [
    "Props.C77_operations_partial",
    "Props.C77_resize",
    "Props.C77_violated",
    "Props.C77_history",
    "Props.C77_other"
   ],
   "note": "Full for all operations but resize, for histories without exception. resize of an empty tensor whose dimensions behind the first zero are too large together panics with overflow checks (B22); C77_resize says exactly when and with what state, C77_violated gives a case."
  },
  {
   "property": "C78",
   "status": "partial",
   "theorems": [
    "Props.C78_into_shape_partial",
    "Props.C78_exact",
    "Props.C78_violated",
    "Props.C78_into_scalar",
    "Props.C78_from_expr",
    "Props.C78_into_expr"
   ],
   "note": "Full but for into_shape without overflow checks to a type with 2^64 or more elements: lengths are compared modulo 2^64 (C78_exact), so that elements are made up (B23, C78_violated)."
  },
  {
   "property": "C79",
   "status": "partial",
   "theorems": [
    "Props.C79_update_partial",
    "Props.C79_each_partial",
    "Props.C79_assign_drop_partial",
    "Props.C79_fill_drop_partial",
    "Props.C79_violated",
    "Props.C79_each_exact",
    "Props.C79_update_exact",
    "Props.C79_owned_exact"
   ],
   "note": "Full for views and expressions without phantom rows, with operands that own arrays. Missing: empty strided views with a zero outer dimension (B2), where elements are changed that are not in the view, C79_violated (C79_each_exact, C79_update_exact and C79_owned_exact say what happens then); destructors that panic while an expression is dropped after another panic (this aborts)."
  },
  {
   "property": "C80",
   "status": "partial",
   "theorems": [
    "Props.C80_partial",
    "Props.C80_protocol",
    "Props.C80_elements",
    "Props.C80_stops_partial",
    "Props.C80_exact",
    "Props.C80_violated"
   ],
   "note": "Full for arrays of static rank without overflowing rows, for all serialisers. Missing: empty arrays with rows of more than usize::MAX elements, where serialising panics after some calls (B13): C80_violated, C80_exact. A dynamic rank is not supported and panics before the first call."
  },
  {
   "property": "C81",
   "status": "proved",
   "theorems": [
    "Props.C81_from_raw_parts",
    "Props.C81_into_raw_parts",
    "Props.C81_set_mapping",
    "Props.C81_fill",
    "Props.C81_spare"
   ],
   "note": "Under the documented safety contract, with dimensions whose product does not overflow; with and without debug assertions."
  },
  {
   "property": "C82",
   "status": "partial",
   "theorems": [
    "Props.C82_operations_partial",
    "Props.C82_history",
    "Props.C82_other",
    "Props.C82_index",
    "Props.C82_shown",
    "Props.C82_long",
    "Props.C82_exact",
    "Props.C82_violated"
   ],
   "note": "Full for builds with overflow checks: where the length of an expression overflows, these panic before an assertion (C82_long). Missing: builds with debug assertions but without overflow checks, where from_expr of some empty expressions with too large dimensions fails in from_parts (B25): C82_violated; C82_exact: it panics for all expressions whose length overflows."
  },
  {
   "property": "C83",
   "status": "partial",
   "theorems": [
    "Props.C83_fold",
    "Props.C83_for_each",
    "Props.C83_tensor_partial",
    "Props.C83_array_partial",
    "Props.C83_expand_partial",
    "Props.C83_noting",
    "Props.C83_exact",
    "Props.C83_violated"
   ],
   "note": "Iterating is safe for every implementation. Evaluating into arrays is proved for implementations whose shape and inner rank do not change and which do not override for_each; without elements, the rows must have none either (C83_exact: otherwise undefined behaviour). Violated for shapes that change between calls and for overridden for_each (B26): C83_violated."
  },
  {
   "property": "C84",
   "status": "partial",
   "theorems": [
    "Props.C84_zip_partial",
    "Props.C84_assign_partial",
    "Props.C84_exact",
    "Props.C84_violated"
   ],
   "note": "Proved for implementations whose shape and inner rank do not change; views without elements must have no elements in a row, which is exactly what is needed (C84_exact). Violated for inner ranks that change between calls (writes outside of the array) and for ranks that change (two mutable references to one element) (B26): C84_violated."
  },
  {
   "property": "C85",
   "status": "proved",
   "theorems": [
    "Props.C85_sound",
    "Props.C85_exact",
    "Props.C85_drain"
   ],
   "note": "C85_exact excludes values that give shared references to Drain, which need Sync for the allocator though they do not give access to it (C85_drain); C85_sound covers all."
  },
  {
   "property": "C86",
   "status": "proved",
   "theorems": [
    "Props.C86_make",
    "Props.C86_clone",
    "Props.C86_mutate",
    "Props.C86_convert",
    "Props.C86_use",
    "Props.C86_same",
    "Props.C86_program",
    "Props.C86_leak"
   ],
   "note": ""
  },
  {
   "property": "C87",
   "status": "proved",
   "theorems": [
    "Props.C87_apart",
    "Props.C87_inside",
    "Props.C87_exclusive",
    "Props.C87_stable",
    "Props.C87_access"
   ],
   "note": "The rules of the borrow checker are part of the model (trusted base)."
  },
  {
   "property": "C88",
   "status": "proved",
   "theorems": [
    "Props.C88_result",
    "Props.C88_matrix",
    "Props.C88_panic",
    "Props.C88_for"
   ],
   "note": "C88_matrix: for exact arithmetic the result is the matrix product of Mathlib. C88_for holds under the conditions of C19 and C20, which the loops of the example always meet."
  },
  {
   "property": "C89",
   "status": "proved",
   "theorems": [
    "Props.C89_sound",
    "Props.C89_exact",
    "Props.C89_handles",
    "Props.C89_stiff"
   ],
   "note": "The lifetimes of the references in the handles themselves are not included. C89_stiff shows that the exceptions in C89_exact are refused without need."
  },
  {
   "property": "C90",
   "status": "proved",
   "theorems": [
    "Props.C90_text",
    "Props.C90_array",
    "Props.C90_mapping",
    "Props.C90_expr",
    "Props.C90_adapters",
    "Props.C90_lists"
   ],
   "note": "That formatting can panic for some arrays without elements is B13, see C59. The builders of the standard library (DebugList, DebugTuple, DebugStruct) are modelled, errors of the formatter are not."
  },
  {
   "property": "C91",
   "status": "proved",
   "theorems": [
    "Props.C91_eq",
    "Props.C91_hash",
    "Props.C91_consistent",
    "Props.C91_order",
    "Props.C91_clone"
   ],
   "note": "The hasher is given by the numbers that are fed to it; what std does for tuples and slices is part of the model."
  },
  {
   "property": "C92",
   "status": "partial",
   "theorems": [
    "Props.C92_partial",
    "Props.C92_next_partial",
    "Props.C92_used",
    "Props.C92_violated",
    "Props.C92_next_violated"
   ],
   "note": "Proved for buffers whose functions always return the same slice (or panic) and which are not used afterwards. Otherwise violated (B27): C92_violated, C92_used. Evaluation by for_each and stepping through an iterator until a panic are modelled (not using an iterator after a caught panic); destructors of elements do not panic."
  },
  {
   "property": "C93",
   "status": "partial",
   "theorems": [
    "Props.C93_at_partial",
    "Props.C93_split_partial",
    "Props.C93_expr_partial",
    "Props.C93_own",
    "Props.C93_violated"
   ],
   "note": "Proved for implementations whose index always returns the same dimension (or panics), for all associated types. Otherwise violated (B28): C93_violated. Lanes and implementations that override the hidden functions are not modelled; axis_expr is evaluated by for_each; sizes are not bounded."
  },
  {
   "property": "C94",
   "status": "partial",
   "theorems": [
    "Props.C94_reshape_partial",
    "Props.C94_index_partial",
    "Props.C94_linear_partial",
    "Props.C94_elements_partial",
    "Props.C94_own",
    "Props.C94_violated"
   ],
   "note": "Proved for shapes that behave like a list of sizes (or panic), which includes the shapes of the crate (C94_own). Otherwise violated (B29): C94_violated. Only into_shape of dense views and indexing are modelled for such shapes; sizes are not bounded."
  },
  {
   "property": "C95",
   "status": "proved",
   "theorems": [
    "Props.C95_view",
    "Props.C95_call",
    "Props.C95_drain"
   ],
   "note": "For the build without nightly, where the crate reads the bounds itself. Sizes and products with the step are not bounded (see C06, B11)."
  },
  {
   "property": "C96",
   "status": "proved",
   "theorems": [
    "Props.C96",
    "Props.C96_own"
   ],
   "note": "For ranks below 64, or any rank with overflow checks, as the statement says; for other ranks permute is defective also with the types of the crate (C51). The associated types are taken to be types of the crate; sizes are not bounded."
  }
 ]
}