{
 "claims": [
  {
   "property": "C01",
   "status": "proved",
   "theorems": [
    "NA.C01_broadcast_shapes_error_iff",
    "NA.C01_broadcast_shapes_error_kind",
    "NA.C01_broadcast_shapes_ok"
   ],
   "note": "All finite lists of genuine dicts."
  },
  {
   "property": "C02",
   "status": "proved",
   "theorems": [
    "NA.C02_order_and_repetition",
    "NA.C02_empty_neutral",
    "NA.C02_grouping"
   ],
   "note": "Permutation and repetition (equal sets of arguments), neutral empty shape, grouping of any contiguous part."
  },
  {
   "property": "C03",
   "status": "proved",
   "theorems": [
    "NA.C03_axis_order",
    "NA.C03_first_argument_prefix"
   ],
   "note": ""
  },
  {
   "property": "C04",
   "status": "proved",
   "theorems": [
    "NA.C04_ndindex_mem",
    "NA.C04_ndindex_nodup",
    "NA.C04_ndindex_sorted"
   ],
   "note": ""
  },
  {
   "property": "C05",
   "status": "proved",
   "theorems": [
    "NA.C05_type_array_some",
    "NA.C05_type_array_none"
   ],
   "note": ""
  },
  {
   "property": "C06",
   "status": "proved",
   "theorems": [
    "NA.SA.C06_constructor",
    "NA.SA.C06_ufunc_wf"
   ],
   "note": "Constructor characterised; the theorems about the other operations each state that their result is well formed."
  },
  {
   "property": "C07",
   "status": "proved",
   "theorems": [
    "NA.SA.C07_ufunc_values",
    "NA.SA.C07_ufunc_reads_in_range",
    "NA.SA.C07_ufunc_error",
    "NA.SA.C07_ufunc2_values",
    "NA.SA.C07_ufunc1_values"
   ],
   "note": ""
  },
  {
   "property": "C08",
   "status": "proved",
   "theorems": [
    "NA.SA.C08_axis_order_irrelevant",
    "NA.SA.C08_flip"
   ],
   "note": ""
  },
  {
   "property": "C09",
   "status": "proved",
   "theorems": [
    "NA.SA.C09_aligned_values",
    "NA.SA.C09_aligned_error"
   ],
   "note": ""
  },
  {
   "property": "C10",
   "status": "proved",
   "theorems": [
    "NA.SA.C10_add_axes",
    "NA.SA.C10_transpose_default",
    "NA.SA.C10_transpose",
    "NA.SA.C10_broadcast_to",
    "NA.SA.C10_broadcast_to_append"
   ],
   "note": ""
  },
  {
   "property": "C11",
   "status": "partial",
   "theorems": [
    "NA.SA.C11_combine_axes_partial",
    "NA.SA.C11_combine_axes_default",
    "NA.SA.C11_combine_axes_empty_rest"
   ],
   "note": "Proved when no remaining axis has size 0; C11_combine_axes_empty_rest proves that otherwise the code raises ValueError although the result is well defined (the size of the new axis is given to numpy as -1)."
  },
  {
   "property": "C12",
   "status": "proved",
   "theorems": [
    "NA.SA.C12_reshape",
    "NA.SA.C12_reshape_self",
    "NA.SA.C12_reshape_round_trip"
   ],
   "note": ""
  },
  {
   "property": "C13",
   "status": "proved",
   "theorems": [
    "NA.C13_slice_positions",
    "NA.C13_slice_positions_negative",
    "NA.SA.C13_getitem_basic",
    "NA.SA.C13_getitem_basic_error",
    "NA.SA.C13_getitem_ignores_absent",
    "NA.SA.C13_reads_in_range"
   ],
   "note": "All integers, slices (any sign of step) and None; errors characterised."
  },
  {
   "property": "C14",
   "status": "proved",
   "theorems": [
    "NA.SA.C14_getitem_arrays",
    "NA.SA.C14_getitem_arrays_error"
   ],
   "note": ""
  },
  {
   "property": "C15",
   "status": "proved",
   "theorems": [
    "NA.SA.C15_mask",
    "NA.SA.C15_mask_axis",
    "NA.SA.C15_mask_error"
   ],
   "note": ""
  },
  {
   "property": "C16",
   "status": "proved",
   "theorems": [
    "NA.SA.C16_setitem",
    "NA.SA.C16_setitem_basic",
    "NA.SA.C16_setitem_error",
    "NA.SA.C16_set_mask"
   ],
   "note": "Integer, slice, index-array and boolean-mask items; value broadcast by name."
  },
  {
   "property": "C17",
   "status": "proved",
   "theorems": [
    "NA.SA.C17_reduce",
    "NA.SA.C17_reduce_orderless",
    "NA.SA.C17_axis_order",
    "NA.SA.C17_axis_none",
    "NA.SA.C17_error",
    "NA.SA.C17_layout",
    "NA.SA.C17_out",
    "NA.SA.C17_out_mislabelled"
   ],
   "note": "Without out, with where; with an out array of the right named shape. C17_out_mislabelled records that a mislabelled out is accepted."
  },
  {
   "property": "C18",
   "status": "proved",
   "theorems": [
    "NA.SA.C18_successive",
    "NA.SA.C18_sum",
    "NA.SA.C18_min_max"
   ],
   "note": ""
  },
  {
   "property": "C19",
   "status": "partial",
   "theorems": [
    "NA.SA.C19_cumulative_partial",
    "NA.SA.C19_error",
    "NA.SA.C19_refuted"
   ],
   "note": "Proved without out, and with out when out.axes = a.axes; C19_refuted is a counterexample when out has the same named shape with permuted axes."
  },
  {
   "property": "C20",
   "status": "proved",
   "theorems": [
    "NA.SA.C20_arg",
    "NA.SA.C20_indexing",
    "NA.SA.C20_argmin",
    "NA.SA.C20_argmax",
    "NA.SA.C20_axis_none",
    "NA.SA.C20_error"
   ],
   "note": ""
  },
  {
   "property": "C21",
   "status": "proved",
   "theorems": [
    "NA.SA.C21_sort",
    "NA.SA.C21_argsort",
    "NA.SA.C21_argsort_none",
    "NA.SA.C21_sort_none",
    "NA.SA.C21_zero_dim",
    "NA.SA.C21_error"
   ],
   "note": ""
  },
  {
   "property": "C22",
   "status": "partial",
   "theorems": [
    "NA.SA.C22_nonzero_partial",
    "NA.SA.C22_nonzero_indexing_partial",
    "NA.SA.C22_unravel_index",
    "NA.SA.C22_unravel_index_error",
    "NA.SA.C22_zero_dim_limit"
   ],
   "note": "Proved for arrays with at least one axis; C22_zero_dim_limit shows that a 0-d array gives an index which does not equal mask indexing."
  },
  {
   "property": "C23",
   "status": "proved",
   "theorems": [
    "NA.SA.C23_stack",
    "NA.SA.C23_stack_error",
    "NA.SA.C23_stack_index"
   ],
   "note": ""
  },
  {
   "property": "C24",
   "status": "proved",
   "theorems": [
    "NA.SA.C24_concatenate",
    "NA.SA.C24_concatenate_error",
    "NA.SA.C24_concatenate_covers",
    "NA.SA.C24_concatenate_slice"
   ],
   "note": ""
  },
  {
   "property": "C25",
   "status": "partial",
   "theorems": [
    "NA.SA.C25_moveaxis_swap_refuted",
    "NA.SA.C25_moveaxis_partial",
    "NA.SA.C25_moveaxis_absent"
   ],
   "note": "Proved when no destination is a source listed later; C25_moveaxis_swap_refuted shows that swapping two names merges them and raises."
  },
  {
   "property": "C26",
   "status": "proved",
   "theorems": [
    "NA.SA.C26_debroadcast",
    "NA.SA.C26_debroadcast_lossless",
    "NA.SA.C26_debroadcast_idempotent"
   ],
   "note": ""
  },
  {
   "property": "C27",
   "status": "partial",
   "theorems": [
    "NA.SA.C27_array_equal_refuted",
    "NA.SA.C27_array_equal_partial",
    "NA.SA.C27_array_equiv",
    "NA.SA.C27_array_equiv_clash"
   ],
   "note": "array_equal compares raw ndarrays: proved for arrays with the same axes in the same order; C27_array_equal_refuted is a counterexample with different axis names. array_equiv is correct by name but raises on incompatible shapes."
  },
  {
   "property": "C28",
   "status": "partial",
   "theorems": [
    "NA.SA.C28_change_axis_index_refuted",
    "NA.SA.C28_change_axis_index_partial",
    "NA.SA.C28_change_axis_index_absent"
   ],
   "note": "Proved that the elements stay at their named index and that the position is right for the indices stated in the theorem; C28_change_axis_index_refuted gives a wrong position."
  },
  {
   "property": "C29",
   "status": "partial",
   "theorems": [
    "NA.C29_roundtrip",
    "NA.C29_pack_unpack_partial",
    "NA.C29_length_partial",
    "NA.C29_int_refuted",
    "NA.C29_short_refuted",
    "NA.C29_complex_refuted",
    "NA.C29_namedTuple_refuted"
   ],
   "note": "Round trip proved for all structures of dicts, lists, tuples, dataclasses and vectors with real leaves. The code violates the rest: python ints and bools are truncated, complex numbers lose their imaginary part, a NamedTuple cannot be rebuilt, and a too short flat array raises IndexError instead of ValueError for python numbers (all proved with witnesses)."
  },
  {
   "property": "C30",
   "status": "proved",
   "theorems": [
    "NA.C30_getitem",
    "NA.C30_shape"
   ],
   "note": "All finite nestings; arrays are scalars and vectors of any nesting. A NamedTuple comes back as a tuple, as documented."
  },
  {
   "property": "C31",
   "status": "proved",
   "theorems": [
    "NA.C31_interp",
    "NA.C31_no_position",
    "NA.C31_nodes",
    "NA.C31_linear",
    "NA.C31_bounds",
    "NA.C31_order"
   ],
   "note": "Exact arithmetic over any ordered field with a floor; positions are scalar arrays of any shapes which broadcast with the remaining axes."
  },
  {
   "property": "C32",
   "status": "proved",
   "theorems": [
    "NA.C32_cell_centers",
    "NA.C32_order",
    "NA.C32_linear",
    "NA.C32_random"
   ],
   "note": "Exact arithmetic over any field; also the random variant for every outcome of the generator."
  },
  {
   "property": "C33",
   "status": "partial",
   "theorems": [
    "NA.C33_linspace",
    "NA.C33_linspace_axis",
    "NA.C33_step",
    "NA.C33_endpoints_partial",
    "NA.C33_open",
    "NA.C33_centers_partial",
    "NA.C33_limit",
    "NA.C33_arange",
    "NA.C33_arange_error",
    "NA.C33_arange_num_partial",
    "NA.C33_arange_num_limit",
    "NA.C33_logspace",
    "NA.C33_geomspace",
    "NA.C33_geomspace_zero"
   ],
   "note": "Exact arithmetic. Proved for every number of points and both flags; logarithmic and geometric spaces over the reals. The code differs from the description in three corners, each proved with a witness: one point with the endpoint does not end at stop and has no step; cell centers without the endpoint are those of num + 1 cells; num of a reversed range is negative."
  },
  {
   "property": "C34",
   "status": "proved",
   "theorems": [
    "NA.C34_stratified",
    "NA.C34_sorted",
    "NA.C34_limit"
   ],
   "note": "For every outcome of the generator in [0, 1); if stop is below start the generator raises ValueError (C34_limit)."
  },
  {
   "property": "C35",
   "status": "partial",
   "theorems": [
    "NA.SA.C35_mean_trimmed_partial",
    "NA.SA.C35_bounds",
    "NA.SA.C35_order",
    "NA.SA.C35_zero_dim",
    "NA.SA.C35_empty",
    "NA.SA.C35_empty_rest",
    "NA.SA.C35_half"
   ],
   "note": "Proved for scalar arrays without empty axes and every q in [0, 1/2), for every line partition satisfying numpy contract; arrays with an empty axis raise ValueError (C35_empty, C35_empty_rest), q = 1/2 takes the mean of nothing for an even number of elements (C35_half). Exact arithmetic."
  },
  {
   "property": "C36",
   "status": "proved",
   "theorems": [
    "NA.Comp.C36_components",
    "NA.Comp.C36_scalar",
    "NA.Comp.C36_scalar_left",
    "NA.Comp.C36_at_path",
    "NA.Comp.C36_type_mismatch",
    "NA.Comp.C36_isOk",
    "NA.Comp.C36_shape",
    "NA.Comp.C36_extra_components_dropped",
    "NA.Comp.C36_nd_asymmetric_refuted"
   ],
   "note": "Vectors nested to any depth. Vectors with different component names (CartesianNd) are outside of the statement: C36_nd_asymmetric_refuted shows that components are dropped in one order and KeyError is raised in the other."
  },
  {
   "property": "C37",
   "status": "partial",
   "theorems": [
    "NA.Comp.C37_reduce",
    "NA.Comp.C37_reduce_none",
    "NA.Comp.C37_reduce_error",
    "NA.Comp.C37_mask",
    "NA.Comp.C37_getitem_partial",
    "NA.Comp.C37_getitem_singleton_refuted"
   ],
   "note": "Reductions and masks: all vectors nested to any depth (without out and where). Integers and slices: proved when no component has size 1 along an indexed axis where the vector has another size; C37_getitem_singleton_refuted shows the failure otherwise."
  },
  {
   "property": "C38",
   "status": "partial",
   "theorems": [
    "NA.Comp.C38_roundtrip_partial",
    "NA.Comp.C38_one_entry_per_leaf_partial",
    "NA.Comp.C38_entry_is_leaf_partial",
    "NA.Comp.C38_roundtrip_flat_partial",
    "NA.Comp.C38_missing_entry",
    "NA.Comp.C38_dots_refuted"
   ],
   "note": "Proved when no component name contains a dot; C38_dots_refuted is a counterexample otherwise (CartesianNd names are arbitrary strings)."
  },
  {
   "property": "C39",
   "status": "partial",
   "theorems": [
    "NA.C39_inverse_partial",
    "NA.C39_products_partial",
    "NA.C39_named_partial",
    "NA.C39_fails_order",
    "NA.C39_fails_class"
   ],
   "note": "Proved for 1, 2 and 3 rows over any field (and named arrays over it), rows nested to any depth, when all rows list their components in the same order and the class of the matrix can hold the row names. C39_fails_order and C39_fails_class refute the rest: with different orders a wrong matrix is returned, with other row names TypeError is raised. Four or more rows: C96."
  },
  {
   "property": "C40",
   "status": "proved",
   "theorems": [
    "NA.C40_determinant2",
    "NA.C40_determinant3",
    "NA.C40_determinant2_mul",
    "NA.C40_determinant3_mul",
    "NA.C40_identity_matrices",
    "NA.C40_fails_determinant_order",
    "NA.C40_transpose",
    "NA.C40_matVec",
    "NA.C40_matVec_class",
    "NA.C40_matMat",
    "NA.C40_vecMat",
    "NA.C40_dot",
    "NA.C40_dot_mismatch",
    "NA.C40_matVec_mismatch",
    "NA.C40_matMat_mismatch",
    "NA.C40_vecMat_mismatch",
    "NA.C40_transpose_involution",
    "NA.C40_assoc",
    "NA.C40_transpose_product",
    "NA.C40_matVec_assoc",
    "NA.C40_adjoint",
    "NA.C40_identity",
    "NA.C40_assoc_named",
    "NA.C40_transpose_product_named",
    "NA.C40_matVec_assoc_named",
    "NA.C40_matMat_named",
    "NA.C40_matVec_named"
   ],
   "note": "Any component names, nesting and order, over any commutative ring and named arrays over it; determinants for matrices whose rows list their components in the same order (C40_fails_determinant_order shows the limit)."
  },
  {
   "property": "C41",
   "status": "proved",
   "theorems": [
    "NA.C41_rotation",
    "NA.C41_compose",
    "NA.C41_commute",
    "NA.C41_orthogonal",
    "NA.C41_determinant",
    "NA.C41_inverse",
    "NA.C41_dot",
    "NA.C41_compose_numbers",
    "NA.C41_compose_named"
   ],
   "note": "All angles, numbers and named arrays of angles, all four rotation classes."
  },
  {
   "property": "C42",
   "status": "proved",
   "theorems": [
    "NA.C42_numbers",
    "NA.C42_named",
    "NA.C42_compose",
    "NA.C42_compose_none",
    "NA.C42_assoc"
   ],
   "note": "Identities, translations, linear and affine transformations (rotations are linear) and lists nested to any depth, vectors of any nested kind, over any commutative ring and named arrays over it; the vectors and matrices must have the kinds which the composition needs (Typed)."
  },
  {
   "property": "C43",
   "status": "partial",
   "theorems": [
    "NA.C43_inverse_partial",
    "NA.C43_named_partial"
   ],
   "note": "Proved for all lists nested to any depth whose linear parts are matrices which the package inverts correctly (1 to 3 rows, see C39; with more rows the inverse is transposed, see C96)."
  },
  {
   "property": "C44",
   "status": "proved",
   "theorems": [
    "NA.C44_numbers",
    "NA.C44_named",
    "NA.C44_list",
    "NA.C44_intrinsic",
    "NA.C44_extrinsic"
   ],
   "note": "Lists of any length nested to any depth, intrinsic or not."
  },
  {
   "property": "C45",
   "status": "partial",
   "theorems": [
    "NA.Optimize.C45_newton",
    "NA.Optimize.C45_root_partial",
    "NA.Optimize.C45_iterates",
    "NA.Optimize.C45_gives_up",
    "NA.Optimize.C45_scalar",
    "NA.Optimize.C45_first_iterate_refuted",
    "NA.Optimize.C45_elementwise"
   ],
   "note": "All functions, guesses and tolerances, scalars and vectors, arbitrary number operations (so rounding, nan and infinities are covered). If the function values at the guess already satisfy the tolerance, the returned array is the guess broadcast to their shape, so |f(x)| < max_abs_error needs a function which respects broadcasting; proved to fail otherwise (C45_first_iterate_refuted)."
  },
  {
   "property": "C46",
   "status": "partial",
   "theorems": [
    "NA.Optimize.C46_secant_partial",
    "NA.Optimize.C46_calls",
    "NA.Optimize.C46_step",
    "NA.Optimize.C46_gives_up",
    "NA.Optimize.C46_failures",
    "NA.Optimize.C46_nan_refuted"
   ],
   "note": "All functions, guesses, tolerances, dampings and numbers of iterations, scalar arrays, arbitrary number operations. The elements where function(guess - 10 * min_step_size) is nan or infinite are excluded: they are marked converged from the start and the guess is returned for them (C46_nan_refuted)."
  },
  {
   "property": "C47",
   "status": "proved",
   "theorems": [
    "NA.UA.C47_constructor",
    "NA.UA.C47_shape",
    "NA.UA.C47_ufunc",
    "NA.UA.C47_ufunc_error",
    "NA.UA.C47_ufunc_shape"
   ],
   "note": "All element functions, any number of plain or uncertain operands, every shape. Without out and where."
  },
  {
   "property": "C48",
   "status": "proved",
   "theorems": [
    "NA.UA.C48_reshape",
    "NA.UA.C48_no_samples",
    "NA.UA.C48_reserved"
   ],
   "note": "np.reshape of every uncertain scalar; the nominal value of a is replaced before its shape_distribution is read, which is why the sample axis ends up last and the samples are not mixed. Without samples KeyError (C48_no_samples)."
  },
  {
   "property": "C49",
   "status": "partial",
   "theorems": [
    "NA.SA.C49_scalar_partial",
    "NA.SA.C49_scalar_cast_refuted",
    "NA.SA.C49_scalar_cast_refuted'",
    "NA.UA.C49_copyto_partial",
    "NA.UA.C49_uncertain_mask_refuted",
    "NA.UA.C49_uncertain_mask_bool_refuted",
    "NA.UA.C49_uncertain_mask_plain_source"
   ],
   "note": "Proved for plain masks and allowed casts. An uncertain mask is not used at all: the source is used as the mask (C49_uncertain_mask_refuted), and if the cast is not allowed where is ignored and the whole array is replaced (C49_scalar_cast_refuted)."
  },
  {
   "property": "C50",
   "status": "partial",
   "theorems": [
    "NA.FA.C50_getitem_partial",
    "NA.FA.C50_negative_integer_refuted",
    "NA.FA.C50_last_refuted",
    "NA.FA.C50_negative_start_refuted",
    "NA.FA.C50_negative_stop_refuted",
    "NA.FA.C50_step_refuted",
    "NA.FA.C50_empty_refuted"
   ],
   "note": "Nonnegative integers in range and slices with nonnegative, ordered bounds and no step, along any number of axes at once. False for negative integers and bounds, other steps, and bounds out of order (the C50_..._refuted theorems give the wrong results)."
  },
  {
   "property": "C51",
   "status": "partial",
   "theorems": [
    "NA.FA.C51_values",
    "NA.FA.C51_input_error_partial",
    "NA.FA.C51_input_error_refuted",
    "NA.FA.C51_nan"
   ],
   "note": "All operands, any elementwise function with one result, without out and where. Inputs of shapes which do not broadcast raise ValueError, not InputValueError (C51_input_error_refuted); inputs are compared after broadcasting."
  },
  {
   "property": "C52",
   "status": "proved",
   "theorems": [
    "NA.FA.C52_mismatch",
    "NA.FA.C52_axes"
   ],
   "note": "All shapes of inputs and outputs, of any type (the code uses the shapes only)."
  },
  {
   "property": "C53",
   "status": "partial",
   "theorems": [
    "NA.FA.C53_vertex_partial",
    "NA.FA.C53_center_partial",
    "NA.FA.C53_missing_partial",
    "NA.FA.C53_vertex_constant",
    "NA.FA.C53_center_linear",
    "NA.FA.C53_linear",
    "NA.FA.C53_error",
    "NA.FA.C53_second_vertex_axis"
   ],
   "note": "Scalar inputs and outputs, one axis, without component. Raises ValueError if the scalar inputs are vertices along a second axis (C53_second_vertex_axis); outputs of size 1 along a longer center axis raise."
  },
  {
   "property": "C54",
   "status": "proved",
   "theorems": [
    "NA.Poly.C54_terms",
    "NA.Poly.C54_design_matrix",
    "NA.Poly.C54_design_matrix_error",
    "NA.Poly.C54_from_degree"
   ],
   "note": "Component names must be nonempty and without asterisks (with an asterisk two terms collide, shown by an example). The design matrix is modelled from the centered and broadcasted components on."
  },
  {
   "property": "C55",
   "status": "proved",
   "theorems": [
    "NA.Doppler.C55_velocity_wavelength",
    "NA.Doppler.C55_wavelength_velocity",
    "NA.Doppler.C55_from_velocity"
   ],
   "note": "All wavelengths, velocities and rest wavelengths whose shapes broadcast, over a field; a result of broadcasting is repeated along new axes. Units are not modelled (consistent units assumed)."
  },
  {
   "property": "C56",
   "status": "proved",
   "theorems": [
    "NA.C56_scalar_sum",
    "NA.C56_scalar_error",
    "NA.C56_area",
    "NA.C56_area_error",
    "NA.C56_affine",
    "NA.C56_translation",
    "NA.C56_rectangle",
    "NA.C56_total"
   ],
   "note": "Scalar grids and grids of two-dimensional vectors with scalar components along two different axes, over a field; also the sum of all cell areas is the area enclosed by the boundary. Three dimensions are C64."
  },
  {
   "property": "C57",
   "status": "proved",
   "theorems": [
    "NA.SA.C57_where",
    "NA.SA.C57_clip",
    "NA.SA.C57_clip_error",
    "NA.SA.C57_repeat",
    "NA.SA.C57_repeat_succeeds",
    "NA.SA.C57_repeat_uniform",
    "NA.SA.C57_repeat_error",
    "NA.SA.C57_diff",
    "NA.SA.C57_diff_error",
    "NA.SA.C57_diff_zero",
    "NA.SA.C57_diff_cumsum",
    "NA.SA.C57_take_along_axis",
    "NA.SA.C57_take_along_axis_error"
   ],
   "note": ""
  },
  {
   "property": "C58",
   "status": "partial",
   "theorems": [
    "NA.C58_histogram_partial",
    "NA.C58_default_partial",
    "NA.C58_histogram2d",
    "NA.C58_number_of_bins_refuted",
    "NA.C58_counts",
    "NA.C58_total",
    "NA.C58_density"
   ],
   "note": "Proved for given edges in any number of dimensions, with and without weights: every count is the sum of the weights of the samples of the slab in the bin (last bin closed), totals, densities. Dictionary bins: histogram2d has the number of bins asked for; histogram and histogramdd have one bin fewer than documented (C58_number_of_bins_refuted), proved as _partial theorems for the bins there are; without min/max no sample is lost. The summed axes must be axes of the samples. nan, infinities and units are not modelled; densities use field division (x/0 = 0)."
  },
  {
   "property": "C59",
   "status": "proved",
   "theorems": [
    "NA.Optimize.C59_descent",
    "NA.Optimize.C59_updates",
    "NA.Optimize.C59_first",
    "NA.Optimize.C59_zero_momentum",
    "NA.Optimize.C59_gives_up"
   ],
   "note": "All functions, gradients and parameters, vectors of any nesting, arbitrary number operations. The zero momentum formula uses 0 * z = 0 and 0 + g = g, which floating point numbers satisfy unless z is nan or infinite."
  },
  {
   "property": "C60",
   "status": "partial",
   "theorems": [
    "NA.UA.C60_arrays_partial",
    "NA.UA.C60_uncertain_index_refuted",
    "NA.UA.C60_getitem_partial",
    "NA.UA.C60_integer_refuted",
    "NA.UA.C60_slice_refuted",
    "NA.UA.C60_mask_value",
    "NA.UA.C60_mask",
    "NA.UA.C60_mask_error"
   ],
   "note": "Components of size 1 along an indexed axis are excluded: integers raise IndexError and slices give an array without shape (C60_integer_refuted, C60_slice_refuted). Index arrays, also uncertain ones: C60_arrays_partial; an uncertain index array without an entry for the sample axis raises ValueError (C60_uncertain_index_refuted)."
  },
  {
   "property": "C61",
   "status": "proved",
   "theorems": [
    "NA.UA.C61_reduce",
    "NA.UA.C61_error"
   ],
   "note": "All uncertain scalars, axes and masks, any reduction function. Elements along an axis which a component does not depend on are counted as often as the shape says. Without out."
  },
  {
   "property": "C62",
   "status": "proved",
   "theorems": [
    "NA.UA.C62_sort"
   ],
   "note": "All uncertain scalars, every mean and every argsort satisfying its contract. The nominal value itself need not be in order."
  },
  {
   "property": "C63",
   "status": "partial",
   "theorems": [
    "NA.UA.C63_setitem_partial",
    "NA.UA.C63_unknown_axis",
    "NA.UA.C63_mask_unknown_axis",
    "NA.UA.C63_failure",
    "NA.UA.C63_atomic_refuted",
    "NA.UA.C63_missing_axis_refuted",
    "NA.UA.C63_mask_partial"
   ],
   "note": "Not atomic: the nominal value stays written if the assignment to the samples raises (C63_atomic_refuted)."
  },
  {
   "property": "C64",
   "status": "partial",
   "theorems": [
    "NA.C64_volume_partial",
    "NA.C64_box_partial",
    "NA.C64_affine_partial",
    "NA.C64_flat_refuted"
   ],
   "note": "Missing: components of size 1 along a longer axis, and grids where all the faces across one pair of axes lie in planes through the origin; the latter raise IndexError (C64_flat_refuted)."
  },
  {
   "property": "C65",
   "status": "proved",
   "theorems": [
    "NA.UA.C65_arg",
    "NA.UA.C65_arg_none",
    "NA.UA.C65_argmin_argmax"
   ],
   "note": "With and without axis; hypotheses: no empty axis, no axis named like the joined names of the reduced axes, each component has each of its axes with the full size (otherwise indexing itself fails, see C60)."
  },
  {
   "property": "C66",
   "status": "partial",
   "theorems": [
    "NA.UA.C66_transpose",
    "NA.UA.C66_transpose_default",
    "NA.UA.C66_broadcast_to_partial",
    "NA.UA.C66_broadcast_to_refuted",
    "NA.UA.C66_broadcast_to_append"
   ],
   "note": "np.transpose is proved completely. na.broadcast_to does not raise if only the samples have an axis which is missing from the given shape, and the result has another shape (C66_broadcast_to_refuted)."
  },
  {
   "property": "C67",
   "status": "partial",
   "theorems": [
    "NA.C67_rankdata_partial",
    "NA.C67_rankdata_mask_partial",
    "NA.C67_method",
    "NA.C67_mask_error",
    "NA.C67_order",
    "NA.C67_bounds",
    "NA.C67_increasing",
    "NA.C67_total",
    "NA.C67_where_false_refuted",
    "NA.C67_empty_limit"
   ],
   "note": "Proved for all arrays without empty axes with where=True or an array as where, and all four methods; also that ranks preserve the order, lie between 1 and n, do not change under increasing functions and add up to n(n+1)/2 (average). Refuted: a python False as where is ignored (C67_where_false_refuted). Limit: an empty axis raises (C67_empty_limit). np.argsort is a parameter with the contract of a sorting permutation, nan last; the ranks of nan elements are not specified."
  },
  {
   "property": "C68",
   "status": "proved",
   "theorems": [
    "NA.C68_pearsonr",
    "NA.C68_missing_axis",
    "NA.C68_symmetric",
    "NA.C68_bounded",
    "NA.C68_affine",
    "NA.C68_undefined",
    "NA.C68_self"
   ],
   "note": "Over an exact ordered field with a square root (a parameter with its contract); x / 0 is nan in the model. axis=None needs x and y to have the same axes; an axis which one of the arrays lacks raises ValueError although the arrays broadcast (C68_missing_axis)."
  },
  {
   "property": "C69",
   "status": "proved",
   "theorems": [
    "NA.C69_spearmanr",
    "NA.C69_symmetric",
    "NA.C69_bounded",
    "NA.C69_increasing",
    "NA.C69_increasing_function",
    "NA.C69_decreasing_function"
   ],
   "note": "Over an exact ordered field with a square root and with np.argsort as a parameter with its contract. Nothing is said about slabs with a selected nan. The name of the flattened axis must be new."
  },
  {
   "property": "C70",
   "status": "partial",
   "theorems": [
    "NA.C70_argpercentile_partial",
    "NA.C70_increasing",
    "NA.C70_ends",
    "NA.C70_error",
    "NA.C70_all_refuted",
    "NA.C70_length_one_limit"
   ],
   "note": "For q = 100 the code returns -1 (C70_all_refuted). An axis of length one of a is not broadcast against q (C70_length_one_limit). Over an exact ordered field."
  },
  {
   "property": "C71",
   "status": "partial",
   "theorems": [
    "NA.C71_interp_partial",
    "NA.C71_segment",
    "NA.C71_node",
    "NA.C71_outside",
    "NA.C71_no_axis",
    "NA.C71_length_one_refuted"
   ],
   "note": "If the tables have an axis of length one along which x is longer, the elements after the first are uninitialised memory (C71_length_one_refuted). np.interp is a parameter in C71_interp_partial and modelled over an exact field by npInterp."
  },
  {
   "property": "C72",
   "status": "partial",
   "theorems": [
    "NA.C72_percentile_partial",
    "NA.C72_increasing",
    "NA.C72_median",
    "NA.C72_iqr",
    "NA.C72_all_refuted"
   ],
   "note": "For q = 100 the first edge is returned (C72_all_refuted). Axes of length one: see C70 and C71. Over an exact ordered field."
  },
  {
   "property": "C73",
   "status": "proved",
   "theorems": [
    "NA.C73_fwhm",
    "NA.C73_unique",
    "NA.C73_error",
    "NA.C73_edge_limit"
   ],
   "note": "The conditions on the ends are those of the documentation; without them a negative index wraps around or an IndexError is raised (C73_edge_limit). Over an exact ordered field, without empty axes."
  },
  {
   "property": "C74",
   "status": "partial",
   "theorems": [
    "NA.FA.C74_broadcasted",
    "NA.FA.C74_broadcast_to",
    "NA.FA.C74_transpose",
    "NA.FA.C74_transpose_default",
    "NA.FA.C74_reshape",
    "NA.FA.C74_vertex_error",
    "NA.FA.C74_repeat",
    "NA.FA.C74_take_along_axis",
    "NA.FA.C74_stack",
    "NA.FA.C74_stack_error",
    "NA.FA.C74_concatenate",
    "NA.FA.C74_moveaxis_partial",
    "NA.FA.C74_moveaxis_absent",
    "NA.FA.C74_moveaxis_refuted",
    "NA.FA.C74_stack_sizes_refuted"
   ],
   "note": "moveaxis raises ValueError if only the inputs or only the outputs have any of the moved axes (C74_moveaxis_refuted); stack does not compare the inputs of one function with the outputs of another one and can create a vertex axis (C74_stack_sizes_refuted). Inputs and outputs are scalar arrays."
  },
  {
   "property": "C75",
   "status": "partial",
   "theorems": [
    "NA.FA.C75_reduce",
    "NA.FA.C75_reduce_cells",
    "NA.FA.C75_error",
    "NA.FA.C75_keepdims",
    "NA.FA.C75_keepdims_refuted",
    "NA.FA.C75_cumulative",
    "NA.FA.C75_cumulative_error",
    "NA.FA.C75_absent_axis",
    "NA.FA.C75_sum_refuted"
   ],
   "note": "If the outputs lack the reduced axis, the sum is not the one over the points of the function (C75_absent_axis, C75_sum_refuted), whereas np.cumsum repeats the outputs. With keepdims=True (the default) the inputs keep their vertices and a vertex axis becomes a center axis with one point more (C75_keepdims_refuted). Without out, where, dtype and initial."
  },
  {
   "property": "C76",
   "status": "partial",
   "theorems": [
    "NA.Comp.C76_transpose",
    "NA.Comp.C76_transpose_default",
    "NA.Comp.C76_reshape",
    "NA.Comp.C76_repeat",
    "NA.Comp.C76_diff",
    "NA.Comp.C76_cumulative",
    "NA.Comp.C76_take_along_axis",
    "NA.Comp.C76_stack",
    "NA.Comp.C76_where",
    "NA.Comp.C76_concatenate",
    "NA.Comp.C76_moveaxis_partial",
    "NA.Comp.C76_moveaxis_refuted",
    "NA.Comp.C76_type_error",
    "NA.Comp.C76_missing_component",
    "NA.Comp.C76_missing_axis"
   ],
   "note": "Proved for all vectors and arguments, except np.moveaxis, where the new names must be new to the whole vector: C76_moveaxis_refuted shows that a new name which is an axis of another component is silently accepted and the grid collapses to one axis. np.diff is modelled without prepend and append, cumulative functions along one axis, take_along_axis with scalar indices; no out argument."
  },
  {
   "property": "C77",
   "status": "partial",
   "theorems": [
    "NA.Comp.C77_components",
    "NA.Comp.C77_elements",
    "NA.Comp.C77_mask",
    "NA.Comp.C77_type_error",
    "NA.Comp.C77_effects",
    "NA.Comp.C77_order",
    "NA.Comp.C77_missing_component",
    "NA.Comp.C77_atomic_refuted",
    "NA.Comp.C77_vector_mask_refuted",
    "NA.Comp.C77_ignored_refuted"
   ],
   "note": "Proved for vectors of any depth: success exactly if every component can be assigned, and then every component is what its own assignment gives (C77_components); element-wise form for integers and slices (C77_elements) and for filling by masks (C77_mask); type errors change nothing (C77_type_error); after any outcome each scalar is unchanged or completely assigned (C77_effects), components are assigned in order up to the first error (C77_order). Refuted: a failing assignment leaves earlier components modified, which happens for every vector with a component lacking the axis after one having it (C77_atomic_refuted); a vector as mask reads the elements where all components are true but writes each component where its own mask is true (C77_vector_mask_refuted); a vector as mask of a scalar component is ignored silently (C77_ignored_refuted). Components sharing memory and components which are plain numbers are not modelled."
  },
  {
   "property": "C78",
   "status": "partial",
   "theorems": [
    "NA.FA.C78_set_outputs",
    "NA.FA.C78_set_function",
    "NA.FA.C78_set_vertices",
    "NA.FA.C78_set_error",
    "NA.FA.C78_set_inputs_error",
    "NA.FA.C78_read_mask",
    "NA.FA.C78_set_mask",
    "NA.FA.C78_set_mask_function",
    "NA.FA.C78_other_inputs",
    "NA.FA.C78_write_back_refuted",
    "NA.FA.C78_atomic_refuted",
    "NA.FA.C78_other_axes_refuted"
   ],
   "note": "Proved for scalar inputs and outputs: reading with a mask (C78_read_mask), assignment of numbers, of functions on centers and of functions on vertices by integers and slices (C78_set_outputs, C78_set_function, C78_set_vertices), filling with a mask (C78_set_mask), errors (C78_set_error, C78_other_inputs). Refuted: a bin read by its number cannot be written back (C78_write_back_refuted); a failing assignment of a function leaves the inputs modified (C78_atomic_refuted); selecting with a mask replaces the edges by centers also along axes the mask lacks (C78_other_axes_refuted). Items which contain functions, and index arrays in assignments, are not covered."
  },
  {
   "property": "C79",
   "status": "partial",
   "theorems": [
    "NA.SA.C79_out_partial",
    "NA.SA.C79_out",
    "NA.SA.C79_in_place",
    "NA.SA.C79_shapes",
    "NA.SA.C79_where",
    "NA.SA.C79_inputs_error",
    "NA.SA.C79_order_refuted",
    "NA.SA.C79_scalar_out_refuted"
   ],
   "note": "Proved for one output array (C79_out, C79_in_place), for several outputs with the same axis order (C79_out_partial), for a mask without output array (C79_where), and errors (C79_shapes, C79_inputs_error). Refuted: two outputs with equal named shapes but different axis orders pass the check and the second one is silently transposed (C79_order_refuted); an output whose ndarray is a python scalar loses its element where the mask is false (C79_scalar_out_refuted). dtype casting, units and overlapping memory are not modelled."
  },
  {
   "property": "C80",
   "status": "partial",
   "theorems": [
    "NA.UA.C80_uncertain",
    "NA.UA.C80_uncertain_error_partial",
    "NA.UA.C80_number_nominal",
    "NA.UA.C80_uncertain_atomic_refuted",
    "NA.Comp.C80_vector_partial",
    "NA.Comp.C80_vector_effects",
    "NA.Comp.C80_type_error",
    "NA.Comp.C80_missing_component",
    "NA.Comp.C80_scalar_output",
    "NA.Comp.C80_vector_atomic_refuted",
    "NA.Comp.C80_number_refuted"
   ],
   "note": "Proved: C80_uncertain, C80_uncertain_error_partial, C80_number_nominal, C80_vector_partial (components which are named arrays), C80_vector_effects (whatever the outcome, each scalar component is either unchanged or completely updated), C80_type_error. Refuted: a failing operation leaves the nominal value (C80_uncertain_atomic_refuted) or the first components (C80_vector_atomic_refuted) modified; a vector whose components are plain numbers cannot be modified in place (C80_number_refuted). where for vectors and several outputs are not modelled."
  },
  {
   "property": "C81",
   "status": "proved",
   "theorems": [
    "NA.SA.C81_percentile",
    "NA.SA.C81_orderless",
    "NA.SA.C81_error",
    "NA.SA.C81_out",
    "NA.ND.C81_interpolates",
    "NA.ND.C81_single",
    "NA.ND.C81_order",
    "NA.ND.C81_monotone",
    "NA.ND.C81_extremes",
    "NA.ND.C81_affine"
   ],
   "note": "C81_percentile (axes, sizes and elements), C81_orderless (any enumeration of the slab), C81_out, C81_error; for lists C81_interpolates (which determines the percentile), C81_order, C81_monotone, C81_extremes, C81_affine, C81_single. The rule of numpy for percentiles of arrays and lists is part of the trusted base (exact arithmetic); arrays without elements are left out."
  },
  {
   "property": "C82",
   "status": "partial",
   "theorems": [
    "NA.SA.C82_fft",
    "NA.SA.C82_fft_error",
    "NA.SA.C82_round_trip",
    "NA.SA.C82_fftn",
    "NA.SA.C82_fftn_order",
    "NA.SA.C82_fftn_steps",
    "NA.SA.C82_rfftn_steps",
    "NA.SA.C82_irfftn_steps",
    "NA.SA.C82_fftn_error",
    "NA.SA.C82_fftn_collision",
    "NA.SA.C82_fftn_round_trip",
    "NA.SA.C82_dft_inverse",
    "NA.SA.C82_irfft",
    "NA.SA.C82_irfftn_size_refuted",
    "NA.SA.C82_irfftn_size"
   ],
   "note": "Proved: C82_fft, C82_fft_error, C82_round_trip, C82_irfft for one axis; C82_fftn, C82_fftn_order, C82_fftn_round_trip, C82_fftn_error, C82_fftn_collision for several axes; C82_fftn_steps, C82_rfftn_steps and C82_irfftn_steps reduce transforms along several axes to single ones; C82_dft_inverse: the discrete Fourier transform with primitive roots of unity satisfies the assumption of the round trips. Refuted: irfftn without s does not give back the number of points after rfftn (C82_irfftn_size_refuted), although irfft does for even numbers (C82_irfft). The definition of the transforms of lines is numpy's, part of the trusted base."
  },
  {
   "property": "C83",
   "status": "partial",
   "theorems": [
    "NA.UA.C83_where",
    "NA.UA.C83_repeat",
    "NA.UA.C83_repeat_error",
    "NA.UA.C83_diff_partial",
    "NA.UA.C83_diff_error",
    "NA.UA.C83_clip_partial",
    "NA.UA.C83_stack",
    "NA.UA.C83_concatenate",
    "NA.UA.C83_take_along_axis",
    "NA.UA.C83_take_along_axis_error",
    "NA.UA.C83_moveaxis_partial",
    "NA.UA.C83_moveaxis_refuted",
    "NA.UA.C83_clip_refuted",
    "NA.UA.C83_diff_refuted"
   ],
   "note": "Proved in full for where, repeat, take_along_axis, stack and concatenate. Refuted: moveaxis to a name which only the other component has merges the two axes silently (C83_moveaxis_refuted); clip raises when a bound has an axis which one component lacks, and always for a plain array with uncertain bounds (C83_clip_refuted); diff raises for uncertain ends of a plain array (C83_diff_refuted). The theorems C83_moveaxis_partial, C83_clip_partial and C83_diff_partial cover the other inputs."
  },
  {
   "property": "C84",
   "status": "partial",
   "theorems": [
    "NA.UA.C84_cumulative",
    "NA.UA.C84_cumulative_error",
    "NA.UA.C84_percentile_partial",
    "NA.UA.C84_percentile_error",
    "NA.UA.C84_percentile_refuted",
    "NA.UA.C84_fft",
    "NA.UA.C84_fft_error",
    "NA.UA.C84_fftn",
    "NA.UA.C84_fftn_error",
    "NA.UA.C84_nonzero_partial",
    "NA.UA.C84_nonzero_refuted"
   ],
   "note": "Proved in full for cumulative functions, fft and fftn (an absent axis of a cumulative function raises KeyError, elsewhere ValueError). Refuted: percentiles with samples of an array with samples always raise ValueError (C84_percentile_refuted); np.nonzero raises ValueError for every uncertain scalar whose distribution has no sample axis (C84_nonzero_refuted). Percentiles of arrays without elements or without samples are left out. np.nonzero is proved for an arithmetic in which a product is zero only if a factor is; in floating point the product of many small samples can underflow."
  },
  {
   "property": "C85",
   "status": "partial",
   "theorems": [
    "NA.Comp.C85_percentile",
    "NA.Comp.C85_percentile_error",
    "NA.Comp.C85_percentile_missing",
    "NA.Comp.C85_fft",
    "NA.Comp.C85_fft_error",
    "NA.Comp.C85_fftn",
    "NA.Comp.C85_fftn_error",
    "NA.Comp.C85_sort",
    "NA.Comp.C85_sort_zero_dim",
    "NA.Comp.C85_sort_error",
    "NA.Comp.C85_clip_partial",
    "NA.Comp.C85_clip_refuted"
   ],
   "note": "Proved in full for percentiles, fft, fftn and sort, including the exceptions. For clip C85_clip_partial covers limits which fit the component they apply to; C85_clip_refuted: a limit along an axis which the vector has but one component lacks raises ValueError. The out argument and percentiles of vectors without elements are not modelled here."
  },
  {
   "property": "C86",
   "status": "partial",
   "theorems": [
    "NA.SA.C86_allclose_scalars",
    "NA.Comp.C86_array_equal_partial",
    "NA.Comp.C86_array_equiv_partial",
    "NA.Comp.C86_equal_sound",
    "NA.Comp.C86_array_equal_refuted",
    "NA.Comp.C86_allclose_partial",
    "NA.Comp.C86_allclose_clash",
    "NA.Comp.C86_nonzero_partial",
    "NA.Comp.C86_nonzero_refuted",
    "NA.Comp.C86_unravel_index_partial",
    "NA.Comp.C86_unravel_index_refuted",
    "NA.UA.C86_uncertain_array_equal_partial",
    "NA.UA.C86_uncertain_array_equiv",
    "NA.UA.C86_uncertain_allclose"
   ],
   "note": "Proved for vectors with the same component names where the types are the same; C86_equal_sound holds for all vectors. Refuted (C86_array_equal_refuted): components which only the second CartesianNd vector has are ignored, in the other order KeyError; a scalar compared with a vector raises, in the other order it is False. np.nonzero is proved for vectors of booleans and refuted for numbers (True & 2 is 0, C86_nonzero_refuted); np.unravel_index raises KeyError unless all axes of the shape are axes of the indices (C86_unravel_index_refuted). nonzero and unravel_index of vectors of vectors are modelled but not covered by the theorems. np.array_equal of scalars ignores the names of the axes (C27)."
  },
  {
   "property": "C87",
   "status": "partial",
   "theorems": [
    "NA.Comp.C87_getitem",
    "NA.Comp.C87_argsort_partial",
    "NA.Comp.C87_argmin",
    "NA.Comp.C87_argsort_error",
    "NA.Comp.C87_argsort_zero_dim",
    "NA.Comp.C87_argmin_error",
    "NA.Comp.C87_type_error",
    "NA.Comp.C87_missing",
    "NA.Comp.C87_scalar",
    "NA.Comp.C87_argsort_refuted"
   ],
   "note": "The statement on np.argsort is proved for vectors none of whose components is stretched (C87_argsort_partial) and refuted for a component of size 1 along an axis where the vector is larger: np.sort and np.argsort succeed, but indexing with the result raises IndexError (C87_argsort_refuted). np.argmin is proved without this restriction, for every order of the keys of its result (which in python is that of a set), provided that no other axis has the name of the combined axes and that the vector is not empty. A vector in the index which lacks a component raises KeyError (C87_missing). The rest is proved in full."
  },
  {
   "property": "C88",
   "status": "partial",
   "theorems": [
    "NA.Comp.C88_copyto_partial",
    "NA.Comp.C88_error",
    "NA.Comp.C88_type_error",
    "NA.Comp.C88_vector_mask_refuted",
    "NA.Comp.C88_number",
    "NA.Comp.C88_structure",
    "NA.Comp.C88_missing",
    "NA.Comp.C88_number_refuted",
    "NA.Comp.C88_cast_refuted",
    "NA.Comp.C88_atomic_refuted"
   ],
   "note": "Proved for scalar masks and destinations whose components are all arrays, where numpy allows the casts (C88_copyto_partial, C88_error). The rest is false of the code: a mask which is a vector always raises TypeError (C88_vector_mask_refuted); a component which is a python number is replaced whatever the mask is (C88_number, C88_number_refuted); so is a component whose cast is not allowed (C88_cast_refuted) and a scalar component for which the source has a vector (C88_structure); ValueError can leave earlier components changed (C88_atomic_refuted); a component which the source lacks raises KeyError (C88_missing). That a replaced component is afterwards shared with the source is not modelled."
  },
  {
   "property": "C89",
   "status": "partial",
   "theorems": [
    "NA.FA.C89_percentile_partial",
    "NA.FA.C89_percentile_keepdims",
    "NA.FA.C89_same_inputs",
    "NA.FA.C89_percentile_error",
    "NA.FA.C89_copyto_bool",
    "NA.FA.C89_copyto_function_partial",
    "NA.FA.C89_copyto_error",
    "NA.FA.C89_vertex_refuted",
    "NA.FA.C89_axis_refuted",
    "NA.FA.C89_copyto_inputs_refuted",
    "NA.FA.C89_copyto_atomic_refuted"
   ],
   "note": "The outputs of percentiles are proved in full. Along axes on which the inputs are not vertices the inputs are proved to be those of any other reduction (C89_same_inputs); along vertex axes they are the means of the vertices instead of the centers (C89_percentile_partial, C89_vertex_refuted). Percentiles along an axis of the inputs are accepted and may give a function without a shape (C89_axis_refuted). np.copyto is proved for python booleans (C89_copyto_bool), and for functions as masks as far as the outputs go (C89_copyto_function_partial); the inputs are then replaced whatever the mask is (C89_copyto_inputs_refuted), and after ValueError the inputs may be changed although the outputs are not (C89_copyto_atomic_refuted). Functions without elements, with inputs or outputs which are python numbers or have boolean inputs, and the out argument are left out."
  },
  {
   "property": "C90",
   "status": "partial",
   "theorems": [
    "NA.Power2.C90_natural_partial",
    "NA.Power2.C90_inverse_partial",
    "NA.Power2.C90_add_partial",
    "NA.Power2.C90_root_partial",
    "NA.Power2.C90_types",
    "NA.Power2.C90_repeated_refuted",
    "NA.Power2.C90_singular_refuted",
    "NA.Power2.C90_negative_refuted",
    "NA.Power2.C90_power",
    "NA.Power2.C90_error",
    "NA.Power2.C90_elements_refuted"
   ],
   "note": "All laws are proved for matrices with different eigenvalues (C90_natural_partial, C90_inverse_partial, C90_add_partial, C90_root_partial, C90_types), where negative and fractional powers need a regular matrix and fractional powers positive eigenvalues or complex arithmetic. The rest is false of the code: with equal eigenvalues (for example of the identity matrix) every power is nan (C90_repeated_refuted), singular matrices have no powers below 1 (C90_singular_refuted), a negative eigenvalue makes fractional powers nan in real arithmetic (C90_negative_refuted), and whether this happens depends on the other elements of the array, since np.emath.sqrt converts the whole array to complex numbers if one argument is negative (C90_power, C90_elements_refuted). Real numbers are used in place of floating-point numbers; units, complex entries, rows other than Cartesian2dVectorArray and entries which are not scalars are left out."
  },
  {
   "property": "C91",
   "status": "partial",
   "theorems": [
    "NA.FA.C91_combine_partial",
    "NA.FA.C91_combine_error",
    "NA.FA.C91_combine_default",
    "NA.FA.C91_debroadcast",
    "NA.FA.C91_debroadcast_error",
    "NA.FA.C91_debroadcast_lossless",
    "NA.FA.C91_histogram_edges_partial",
    "NA.FA.C91_histogram_bins_partial",
    "NA.FA.C91_histogram_error",
    "NA.FA.C91_array_equiv",
    "NA.FA.C91_array_equiv_error",
    "NA.FA.C91_array_equal_partial",
    "NA.FA.C91_clip",
    "NA.FA.C91_clip_error",
    "NA.FA.C91_combine_refuted",
    "NA.FA.C91_histogram_refuted",
    "NA.FA.C91_array_equiv_refuted"
   ],
   "note": "debroadcast is proved completely (C91_debroadcast, C91_debroadcast_lossless, C91_debroadcast_error). C91_combine_partial needs every component which has one of the combined axes to have its full size along it: axes of size 1 are not broadcast first, so that six points can turn into two cells between three vertices without an error (C91_combine_refuted); the other axes must not be empty (as in C11). The histograms are proved for functions without axes on vertices (C91_histogram_edges_partial, C91_histogram_bins_partial); an axis on vertices raises ValueError if it is summed over or has at least two cells (C91_histogram_error), but with a single cell each output is counted twice (C91_histogram_refuted). array_equiv compares the components separately (C91_array_equiv, C91_array_equiv_error), so that a cell between two vertices is equivalent to two points (C91_array_equiv_refuted), and array_equal does not compare the names of the axes (C91_array_equal_partial, see C27). Vectors and uncertain scalars as inputs or outputs, nan and units are left out."
  },
  {
   "property": "C92",
   "status": "partial",
   "theorems": [
    "NA.SA.C92_samples",
    "NA.SA.C92_stream",
    "NA.SA.C92_samples_error",
    "NA.SA.C92_choice_partial",
    "NA.SA.C92_choice_refuted",
    "NA.UA.C92_uncertain",
    "NA.Comp.C92_vector",
    "NA.Comp.C92_seeds_partial",
    "NA.Comp.C92_nested_refuted",
    "NA.Comp.C92_uncertain_components_refuted"
   ],
   "note": "The samples are proved completely for scalars (C92_samples, C92_stream, C92_samples_error), for uncertain scalars and for vectors relative to the function for scalars (C92_uncertain, C92_vector). Different seeds are proved for vectors which are not nested (C92_seeds_partial); in nested vectors and in vectors of uncertain scalars seeds coincide, so that whole components are identical (C92_nested_refuted, C92_uncertain_components_refuted). C92_choice_partial describes choice completely for a generator with the property Picks (shown to be satisfiable by picks_pickFirst): elements of the result whose index outside axis is beyond the arrays are never written (C92_choice_refuted). The generator of numpy is a parameter; the statistical distribution, units, and calls without a seed in sequence are left out; for choice of uncertain scalars and vectors see C111."
  },
  {
   "property": "C93",
   "status": "partial",
   "theorems": [
    "NA.SA.C93_polygon",
    "NA.SA.C93_polygon_error",
    "NA.SA.C93_evaluate",
    "NA.SA.C93_evaluate_error",
    "NA.SA.C93_filter",
    "NA.SA.C93_filter_error",
    "NA.SA.C93_despike",
    "NA.SA.C93_despike_axis",
    "NA.SA.C93_despike_error",
    "NA.SA.C93_despike_kernel_refuted",
    "NA.SA.C93_despike_order_refuted"
   ],
   "note": "Proved for scalars: C93_polygon (with C93_polygon_error), C93_evaluate, C93_filter, C93_despike and the errors. Missing: despike depends on the order of the axes in memory. The point spread function is passed in the order of its own axes (C93_despike_kernel_refuted), the image in the order of the axes of the array (C93_despike_order_refuted), and the order of the argument axis has no effect (C93_despike_axis). If the array has size 1 along an axis outside of axis and the point spread function is longer there, only its first kernel is used (included in C93_despike). The packages regridding, numexpr, ndfilters and astroscrappy are parameters; units, and the versions for vectors, uncertain scalars and functions are left out."
  },
  {
   "property": "C94",
   "status": "partial",
   "theorems": [
    "NA.SA.C94_regrid_from_weights",
    "NA.SA.C94_weights_partial",
    "NA.SA.C94_regrid_partial",
    "NA.SA.C94_transpose_weights",
    "NA.SA.C94_adjoint",
    "NA.SA.C94_regrid_from_weights_error",
    "NA.SA.C94_linear",
    "NA.SA.C94_weights_error"
   ],
   "note": "Proved: C94_weights_partial, C94_regrid_partial, C94_regrid_from_weights, C94_linear, C94_transpose_weights, C94_adjoint (transpose_weights_conservative: see C113) and the errors. Missing: axis arguments in an order other than that of the axes of the coordinates (the package regridding decides in which order the images are flattened, and is not part of the repository), the argument weights_input, units, and vectors of values."
  },
  {
   "property": "C95",
   "status": "partial",
   "theorems": [
    "NA.SA.C95_convolve",
    "NA.SA.C95_convolve_error",
    "NA.UA.C95_uncertain_partial",
    "NA.Comp.C95_vector_partial",
    "NA.SA.C95_line",
    "NA.SA.C95_line_numbers",
    "NA.SA.C95_line_error",
    "NA.SA.C95_line_empty",
    "NA.SA.C95_line_lengths_refuted",
    "NA.UA.C95_uncertain_axis_error",
    "NA.UA.C95_uncertain_string_refuted",
    "NA.Comp.C95_vector_axis_error",
    "NA.Comp.C95_vector_string_refuted"
   ],
   "note": "C95_convolve and C95_convolve_error cover scalars completely, C95_uncertain_partial uncertain scalars and C95_vector_partial vectors with scalar components. Refuted: for uncertain scalars and vectors an axis given as a string is read character by character (C95_uncertain_string_refuted, C95_vector_string_refuted), and np.convolve of two lines of different lengths is a ValueError (C95_line_lengths_refuted). Missing: nested vectors, components in another order than the first vector, units, and what ndfilters computes for one image, which is a parameter."
  },
  {
   "property": "C96",
   "status": "partial",
   "theorems": [
    "NA.SA.C96_matrix_inverse",
    "NA.SA.C96_matrix_inverse_error",
    "NA.SA.C96_matrix_inverse_axes",
    "NA.SA.C96_determinant_partial",
    "NA.SA.C96_determinant_error",
    "NA.SA.C96_determinant_refuted",
    "NA.C96_inverse_transposed",
    "NA.C96_inverse_iff",
    "NA.C96_inverse_symmetric_partial",
    "NA.C96_inverse_small",
    "NA.C96_inverse_refuted"
   ],
   "note": "C96_matrix_inverse (with C96_matrix_inverse_error and C96_matrix_inverse_axes) covers scalar arrays. Matrices: C96_inverse_small reduces up to three rows to C39; for four or more rows C96_inverse_transposed says what is returned, the transpose of the inverse, so that C96_inverse_iff makes it right exactly for symmetric matrices (C96_inverse_symmetric_partial), and C96_inverse_refuted gives a matrix for which it is wrong. Determinants: right for two and three rows (C96_determinant_partial), for every other size the call fails (C96_determinant_refuted). np.linalg.inv is a parameter with the assumption Inverter; units are not modelled. matrix_multiply calls a method which does not exist, so that it always fails, and is not modelled."
  },
  {
   "property": "C97",
   "status": "partial",
   "theorems": [
    "NA.GridFunction.C97_weights_partial",
    "NA.GridFunction.C97_regrid_partial",
    "NA.GridFunction.C97_precomputed",
    "NA.GridFunction.C97_names_error",
    "NA.GridFunction.C97_separable_error",
    "NA.GridFunction.C97_axis_missing",
    "NA.GridFunction.C97_renamed_axis",
    "NA.GridFunction.C97_constant_components",
    "NA.GridFunction.C97_same_inputs_partial",
    "NA.SA.C97_conserved",
    "NA.GridFunction.C97_axis_string_refuted",
    "NA.GridFunction.C97_constant_mislabelled"
   ],
   "note": "C97_weights_partial and C97_regrid_partial assume, as C94, that the axes are named in the order of the coordinates and that the new coordinates have exactly the resampled axes; C97_same_inputs_partial treats weights at the vertices (multilinear) under the assumption that the weights between equal grids are the identity. C97_axis_string_refuted: with a string of several characters for axis the call is a KeyError, since set(axis) splits it. C97_renamed_axis: new inputs along an axis with another name always fail. C97_constant_mislabelled (with C97_constant_components): a new component which does not vary along the axes is put into the inputs of the result although the outputs are not resampled to it. The rule for the weights (regridding.weights) is a parameter."
  },
  {
   "property": "C98",
   "status": "partial",
   "theorems": [
    "NA.QA.C98_to",
    "NA.QA.C98_to_value",
    "NA.QA.C98_to_to",
    "NA.QA.C98_to_own",
    "NA.QA.C98_equivalency",
    "NA.QA.C98_mul_unit",
    "NA.QA.C98_mul_div_unit",
    "NA.QA.C98_shift_unit",
    "NA.QA.C98_value_unit",
    "NA.QA.C98_sum",
    "NA.QA.C98_sum_error",
    "NA.QA.C98_sum_zero",
    "NA.QA.C98_compare",
    "NA.QA.C98_product",
    "NA.Comp.C98_vector_to",
    "NA.Comp.C98_vector_to_value",
    "NA.Comp.C98_vector_to_error",
    "NA.Comp.C98_vector_mul_unit",
    "NA.Comp.C98_vector_shift_unit",
    "NA.Comp.C98_vector_value_unit",
    "NA.Comp.C98_unit_squeezed",
    "NA.QU.C98_uncertain_to",
    "NA.QU.C98_uncertain_to_value",
    "NA.QU.C98_uncertain_mul_unit",
    "NA.QU.C98_uncertain_value_unit_partial",
    "NA.QFunction.C98_function_to",
    "NA.C98_uncertain_unit_refuted",
    "NA.C98_uncertain_equivalencies_refuted"
   ],
   "note": "C98_uncertain_value_unit_partial assumes that nominal values and samples have the same unit; C98_uncertain_unit_refuted shows that otherwise value times unit is another array, since na.unit reads only the nominal value. C98_uncertain_equivalencies_refuted: equivalencies are not passed on to the samples, so that an uncertain scalar cannot be converted by them. The rules of astropy.units for plain arrays are modelled, not proved; logarithmic units and unit aliases are not modelled."
  },
  {
   "property": "C99",
   "status": "partial",
   "theorems": [
    "NA.UA.C99_uncertain_polygon",
    "NA.UA.C99_uncertain_evaluate",
    "NA.UA.C99_uncertain_filter",
    "NA.UA.C99_uncertain_despike",
    "NA.UA.C99_uncertain_reserved",
    "NA.UA.C99_uncertain_polygon_refuted",
    "NA.Comp.C99_vector_evaluate",
    "NA.Comp.C99_vector_filter",
    "NA.FA.C99_function_filter_partial",
    "NA.FA.C99_function_filter_error",
    "NA.FA.C99_function_filter_refuted",
    "NA.FA.C99_function_filter_empty_refuted",
    "NA.FA.C99_function_despike_partial",
    "NA.FA.C99_function_despike_refuted"
   ],
   "note": "C99_uncertain_polygon_refuted: the vertices must have their axis both in the nominal values and in the samples, otherwise a KeyError is raised. C99_function_filter_refuted: a mask with other inputs is refused only if the inputs differ at every index (np.all instead of np.any); C99_function_filter_empty_refuted: for an empty array a mask with the same inputs is refused. C99_function_despike_refuted: despike of a plain array with a mask which is a function returns the array unchanged. C99_function_filter_partial and C99_function_despike_partial assume that these cases do not occur. The packages ndfilters, numexpr, regridding and astroscrappy are parameters, as in C93."
  },
  {
   "property": "C100",
   "status": "partial",
   "theorems": [
    "NA.Val.C100_mixed",
    "NA.Val.C100_commutes",
    "NA.Val.C100_shape",
    "NA.Val.C100_type_error",
    "NA.Val.C100_function_left_partial",
    "NA.Val.C100_function_right_partial",
    "NA.Val.C100_functions",
    "NA.Val.C100_function_order_refuted",
    "NA.Val.C100_torn_vector_refuted",
    "NA.Val.C100_components_refuted"
   ],
   "note": "C100_function_left_partial and C100_function_right_partial assume, for a function and a scalar, that the shape of the scalar can be broadcast against that of the function: C100_function_order_refuted shows that otherwise a function on the left gives a function whose outputs do not fit its coordinates, while a scalar on the left raises ValueError. C100_mixed assumes that the operands have a shape (C100_torn_vector_refuted) and that the type of a vector decides its components (C100_components_refuted: among CartesianNdVectorArrays, components missing on the left are dropped). Functions whose outputs contain functions, `out`, `where`, units and dtypes are left out."
  },
  {
   "property": "C101",
   "status": "partial",
   "theorems": [
    "NA.Arr.C101_convert",
    "NA.Arr.C101_same_type",
    "NA.Arr.C101_idempotent",
    "NA.Arr.C101_alone",
    "NA.Arr.C101_type_error",
    "NA.Arr.C101_reserved",
    "NA.Arr.C101_from_scalar",
    "NA.Arr.C101_nominal",
    "NA.Arr.C101_nominal_convert",
    "NA.Arr.C101_zeros_like_partial",
    "NA.Arr.C101_zeros_like_function",
    "NA.Arr.C101_components_refuted",
    "NA.Arr.C101_missing_component_refuted",
    "NA.Arr.C101_from_scalar_refuted",
    "NA.Arr.C101_from_vector_refuted",
    "NA.Arr.C101_zeros_like_refuted"
   ],
   "note": "C101_convert and its companions assume that the type of a vector decides its components and that scalars do not have the axis reserved for samples (C101_reserved: ValueError). C101_components_refuted and C101_missing_component_refuted: among CartesianNdVectorArrays a component which like lacks is lost, and one which only like has is a KeyError. C101_from_scalar_refuted: from_scalar_array makes uncertain scalars which the constructor refuses. C101_from_vector_refuted: whether it refuses a vector depends on the components of like being numbers. C101_zeros_like_partial assumes that uncertain scalars have samples when a shape is given (C101_zeros_like_refuted: KeyError after converting a scalar to an uncertain scalar) and excludes functions (C101_zeros_like_function: TypeError). Dtypes and units appear only as the function applied to every element; the argument order is left out."
  },
  {
   "property": "C102",
   "status": "partial",
   "theorems": [
    "NA.UA.C102_uncertain_partial",
    "NA.UA.C102_axis_refuted",
    "NA.UA.C102_samples_refuted",
    "NA.UA.C102_reserved",
    "NA.Comp.C102_vector_partial",
    "NA.Comp.C102_nested_refuted",
    "NA.Comp.C102_bound_type",
    "NA.C102_nested_default_refuted"
   ],
   "note": "C102_uncertain_partial needs a table of positions with exactly one axis, nominally and in the samples, because the implementation does not pass axis on: C102_axis_refuted (ValueError for every axis if the positions have another number of axes) and C102_samples_refuted (no result for positions with samples of their own). C102_vector_partial needs bounds which are vectors of the same structure, or a table without nested vectors: C102_nested_refuted and C102_nested_default_refuted (KeyError for a vector of vectors with the default bounds). Also C102_reserved and C102_bound_type. The interpolation of one line is an arbitrary function; C71 has the properties of np.interp and the assumption about axes of length one which is repeated here. Units are not modelled; x and xp are scalar arrays if fp is a vector."
  },
  {
   "property": "C103",
   "status": "partial",
   "theorems": [
    "NA.C103_solid_angle_partial",
    "NA.C103_axes",
    "NA.C103_clash",
    "NA.C103_additive",
    "NA.C103_directions_partial",
    "NA.C103_rotation_partial",
    "NA.C103_orientation_partial",
    "NA.C103_degenerate_refuted"
   ],
   "note": "C103_solid_angle_partial and its corollaries C103_directions_partial, C103_rotation_partial and C103_orientation_partial assume that no component of size one is broadcast along a longer axis. The orientation needs triangles which are not degenerate (C103_degenerate_refuted: three directions around a great circle give 2 pi in both orientations). C103_additive is about the formula itself, for triangles which do not lie in a plane through the origin. C103_axes and C103_clash are the errors. np.sqrt, np.abs and np.arctan2 are arbitrary functions in the model and the exact real functions in the theorems about angles; units are not modelled."
  },
  {
   "property": "C104",
   "status": "partial",
   "theorems": [
    "NA.C104_linear_space",
    "NA.C104_linear_axes",
    "NA.C104_single_refuted",
    "NA.C104_stratified_refuted",
    "NA.C104_uniform_partial",
    "NA.C104_default_shape_refuted",
    "NA.C104_plane_partial",
    "NA.C104_plane_axes",
    "NA.C104_exchange_refuted",
    "NA.C104_numbers_refuted",
    "NA.C104_trapezoid_refuted",
    "NA.C104_uniform_area_partial",
    "NA.C104_uniform_order"
   ],
   "note": "C104_linear_space needs a step which is not a division by zero (C104_single_refuted: a space of one point). Stratified spaces return the step instead of the distances of their random elements (C104_stratified_refuted). Areas of spaces of vectors (C104_plane_partial) need an attribute which is a vector (C104_numbers_refuted: AttributeError with numbers only, as in the documentation), the axes in the order of the components (C104_exchange_refuted: the sign differs otherwise) and start and stop without these axes (C104_trapezoid_refuted). Uniform samples need a shape_random (C104_default_shape_refuted: TypeError by default). C104_linear_axes and C104_plane_axes: other axes and errors. Uncertain spaces, units and infinities from divisions of arrays by zero are not modelled."
  },
  {
   "property": "C105",
   "status": "partial",
   "theorems": [
    "NA.FA.C105_arg_indexing_partial",
    "NA.FA.C105_argmax_partial",
    "NA.FA.C105_argmin_partial",
    "NA.FA.C105_vertex_refuted",
    "NA.FA.C105_nonzero_partial",
    "NA.FA.C105_allclose",
    "NA.FA.C105_length",
    "NA.FA.C105_add_axes_partial",
    "NA.FA.C105_cell_centers",
    "NA.FA.C105_centers_affine",
    "NA.FA.C105_centers_vertex",
    "NA.FA.C105_matmul_partial",
    "NA.FA.C105_matmul_inputs",
    "NA.FA.C105_matmul_array_partial",
    "NA.FA.C105_matmul_zero_refuted",
    "NA.FA.C105_nonzero_name_refuted",
    "NA.FA.C105_add_axes_refuted",
    "NA.FA.C105_centers_refuted"
   ],
   "note": "C105_arg_indexing_partial, C105_argmax_partial, C105_argmin_partial and C105_nonzero_partial need inputs and outputs with the same sizes along shared axes: a function on vertices cannot be indexed with its own positions (C105_vertex_refuted: ValueError for every histogram), nor with nonzero if the inputs have another axis of the new name (C105_nonzero_name_refuted). C105_matmul_partial and C105_matmul_array_partial need outputs which do not vanish identically (C105_matmul_zero_refuted: the outputs lose their axes, and with an array on the left the result is a number instead of a function). C105_add_axes_partial needs axes which the inputs do not have (C105_add_axes_refuted: two inputs become the vertices of one cell). C105_centers_refuted: outputs broadcast along an axis have no centers. Scalar inputs and outputs only; random cell centers, out= and units are not modelled."
  },
  {
   "property": "C106",
   "status": "proved",
   "theorems": [
    "NA.Jac.C106_vector",
    "NA.Jac.C106_gradient",
    "NA.Jac.C106_scalar",
    "NA.Jac.C106_function_error",
    "NA.Jac.C106_affine",
    "NA.Jac.C106_transformation",
    "NA.Jac.C106_newton_step",
    "NA.Jac.C106_quadratic",
    "NA.Optimize.C106_newton_affine"
   ],
   "note": "C106_vector, C106_gradient and C106_scalar give the entries for all functions; C106_affine, C106_transformation and C106_quadratic the exact values; C106_newton_step (vectors, at most three components, via C43) and C106_newton_affine (scalars of any shape) are about the default Jacobian of root_newton. The number type is a field or any operations which are sound for it: rounding is not modelled, so the default step of 1e-10 is a step like any other. A vector function of a scalar, uncertain arrays and units are not covered."
  },
  {
   "property": "C107",
   "status": "partial",
   "theorems": [
    "NA.Optimize.C107_calls",
    "NA.Optimize.C107_step",
    "NA.Optimize.C107_secant_partial",
    "NA.Optimize.C107_failures",
    "NA.Optimize.C107_newton",
    "NA.Optimize.C107_jacobian",
    "NA.Optimize.C107_affine",
    "NA.Optimize.C107_newton_affine",
    "NA.Optimize.C107_nan_refuted"
   ],
   "note": "C107_calls, C107_step, C107_failures, C107_newton, C107_jacobian and C107_affine are complete for functions which return uncertain scalars. C107_secant_partial excludes elements at which 0 * function(guess - 10 * min_step_size) is not zero: as for plain scalars (C46) these are taken to be converged before the first iteration, and C107_nan_refuted shows a sample which is returned unchanged although the function is not small there. Units, side effects of the functions and the AttributeError raised if a later value of the function is not uncertain are not modelled."
  },
  {
   "property": "C108",
   "status": "partial",
   "theorems": [
    "NA.C108_counts",
    "NA.C108_bins_partial",
    "NA.C108_default_partial",
    "NA.C108_unknown_axis",
    "NA.C108_single",
    "NA.C108_vector_partial",
    "NA.C108_vector_bins_partial",
    "NA.C108_vector_default_partial",
    "NA.C108_vector_other_type",
    "NA.C108_no_samples_refuted",
    "NA.C108_pooled_refuted",
    "NA.C108_order_mislabelled",
    "NA.C108_nested_bounds_refuted"
   ],
   "note": "C108_counts, C108_single and C108_unknown_axis cover given edges of uncertain scalars, C108_bins_partial and C108_default_partial numbers of bins (bins={ax: n + 1} gives n bins, as in C58), the theorems C108_vector_partial, C108_vector_bins_partial and C108_vector_default_partial vectors whose bounds and edges have the same names in the same order. False of the code: C108_no_samples_refuted (given edges but no measurements is a ValueError for uncertain scalars only), C108_pooled_refuted (na.histogram2d of uncertain scalars without axis also sums over the samples), C108_order_mislabelled (bounds are matched to components by position), C108_nested_bounds_refuted (scalar bounds of vectors of vectors fail). Not proved: density=True for uncertain scalars and vectors, na.histogram2d of uncertain scalars with axis, vectors of uncertain scalars. Units are not modelled."
  },
  {
   "property": "C109",
   "status": "proved",
   "theorems": [
    "NA.C109_uncertain",
    "NA.Comp.C109_vector",
    "NA.C109_uncertain_default",
    "NA.C109_vector_default",
    "NA.C109_no_name",
    "NA.C109_no_shape",
    "NA.C109_elements",
    "NA.C109_add_vector",
    "NA.C109_add_uncertain"
   ],
   "note": "Complete for uncertain scalars and for vectors of scalars at any depth. That an empty remaining axis is a ValueError, although the result is well defined, is the limit of C11 (numpy gets -1 as the new size). Vectors of uncertain scalars are not modelled."
  },
  {
   "property": "C110",
   "status": "proved",
   "theorems": [
    "NA.SA.C110_vmr",
    "NA.SA.C110_vmr_out",
    "NA.SA.C110_rms",
    "NA.SA.C110_error",
    "NA.UA.C110_vmr",
    "NA.UA.C110_rms",
    "NA.Comp.C110_vmr",
    "NA.Comp.C110_rms",
    "NA.SA.C110_rms_mean_var",
    "NA.SA.C110_scale",
    "NA.SA.C110_range"
   ],
   "note": "var and mean are arbitrary functions of the elements which do not depend on their order (rounding does, slightly); the laws use exact arithmetic in an ordered field. An output array which shares memory with the input is not modelled (the variance would overwrite the input before the mean is taken). For vectors, where= and keepdims together with axis=None are left out."
  },
  {
   "property": "C111",
   "status": "partial",
   "theorems": [
    "NA.UA.C111_choice_partial",
    "NA.Comp.C111_vector_partial",
    "NA.UA.C111_uncertain_refuted",
    "NA.UA.C111_samples_refuted",
    "NA.Comp.C111_vector_refuted",
    "NA.UA.C111_error"
   ],
   "note": "False of the code: nominal value and samples are chosen with different seeds and every sample is chosen by itself (C111_uncertain_refuted, C111_samples_refuted), and every component of a vector is chosen with its own seed (C111_vector_refuted), so that a chosen element need not be an element of the array. Proved: nominal values are chosen among nominal values, the k-th samples among the k-th samples, components among components, each with the same index outside axis, nonzero weight and no repetition within its own array without replacement (C111_choice_partial, C111_vector_partial with C92_choice_partial). shape_random has no axes in common with those outside axis (for these see C92_choice_refuted); calls without a seed and vectors of uncertain scalars are left out. The generator is a parameter with the property Picks of C92; picks_pickNext shows that it can be met by the generator of the counterexamples."
  },
  {
   "property": "C112",
   "status": "partial",
   "theorems": [
    "NA.SA.C112_read",
    "NA.SA.C112_crop",
    "NA.SA.C112_write",
    "NA.SA.C112_loop",
    "NA.UA.C112_read_partial",
    "NA.UA.C112_read_error",
    "NA.UA.C112_uncertain_refuted",
    "NA.UA.C112_write_partial",
    "NA.UA.C112_uncertain_write_refuted",
    "NA.Comp.C112_vector_partial",
    "NA.Comp.C112_vector_refuted",
    "NA.FA.C112_function_partial",
    "NA.FA.C112_vertex_refuted"
   ],
   "note": "Holds for scalar arrays (C112_read, C112_crop, C112_write, C112_loop). False of the code if a component has size 1 along an axis of another component (UA.C112_read_error and C112_uncertain_refuted, Comp.C112_vector_refuted: IndexError), if the inputs of a function are on vertices, such as of any histogram (FA.C112_vertex_refuted: ValueError), and when assigning to an uncertain scalar one of whose components lacks an axis (UA.C112_uncertain_write_refuted). Otherwise it holds for them too (UA.C112_read_partial, UA.C112_write_partial, Comp.C112_vector_partial, FA.C112_function_partial). Axes are compared by name, not by order. Assigning to vectors and functions is left to C77 and C78."
  },
  {
   "property": "C113",
   "status": "partial",
   "theorems": [
    "NA.SA.C113_transpose_partial",
    "NA.SA.C113_back_partial",
    "NA.SA.C113_error"
   ],
   "note": "Proved: C113_transpose_partial, C113_back_partial (including the conservation of the total) and C113_error. Missing: resampled axes given in an order other than that of the axes of the coordinates, weights_input and units. How the weights of one pair of grids are renormalised is done by the package regridding and is a parameter; that the weights of each output cell add up to one is a hypothesis of the conservation."
  },
  {
   "property": "C114",
   "status": "partial",
   "theorems": [
    "NA.UA.C114_uniform",
    "NA.UA.C114_normal",
    "NA.UA.C114_correlated_partial",
    "NA.UA.C114_correlated_normal_partial",
    "NA.UA.C114_error",
    "NA.UA.C114_order_refuted"
   ],
   "note": "Proved: C114_uniform, C114_normal, C114_error and, for values whose shapes agree including the order of the axes, C114_correlated_partial and C114_correlated_normal_partial. False of the code if only the order of the axes differs (C114_order_refuted): numbers are drawn in the order of the axes, so that the samples of a transposed value with the same seed are not the transposed samples. Units are not modelled, and the generator of numpy is a parameter."
  },
  {
   "property": "C115",
   "status": "partial",
   "theorems": [
    "NA.Comp.C115_linspace_partial",
    "NA.Comp.C115_linspace_error",
    "NA.Comp.C115_arange_partial",
    "NA.Comp.C115_arange_grid",
    "NA.Comp.C115_arange_start_refuted",
    "NA.Comp.C115_same_axis_refuted"
   ],
   "note": "Proved: C115_linspace_partial (end points, not centres of cells), C115_linspace_error, C115_arange_partial and C115_arange_grid (start is the vector). False of the code for na.arange with a scalar start and a vector stop, which raises TypeError although np.linspace accepts it (C115_arange_start_refuted); and one axis for components of different lengths gives a vector without a shape instead of an error (C115_same_axis_refuted). Not modelled: centers=True, units, endpoint and dtype as vectors."
  },
  {
   "property": "C116",
   "status": "proved",
   "theorems": [
    "NA.UA.C116_linspace",
    "NA.UA.C116_step",
    "NA.UA.C116_error"
   ],
   "note": "C116_linspace, C116_step and C116_error (for points on the edges of cells). A space of one point has no step (division by zero, as in C33). Exact arithmetic instead of floating point; units are not modelled."
  },
  {
   "property": "C117",
   "status": "partial",
   "theorems": [
    "NA.SA.C117_partition",
    "NA.SA.C117_select",
    "NA.SA.C117_error",
    "NA.UA.C117_uncertain_partial",
    "NA.UA.C117_uncertain_error",
    "NA.UA.C117_elements_refuted"
   ],
   "note": "C117_partition, C117_select and C117_error for scalars are complete; C117_uncertain_partial and C117_uncertain_error for uncertain scalars. False of the code (C117_elements_refuted): unlike np.sort, np.partition of an uncertain scalar does not move an element together with its samples, so the nominal value and the samples at an index of the result may belong to different elements. Vectors and functions do not implement np.partition. kind and order are not modelled; NaN is left out by the linear order."
  },
  {
   "property": "C118",
   "status": "partial",
   "theorems": [
    "NA.C118_missing",
    "NA.C118_type_error",
    "NA.SA.C118_evaluate_partial",
    "NA.SA.C118_clash",
    "NA.SA.C118_keyword_refuted",
    "NA.SA.C118_constant_refuted",
    "NA.UA.C118_uncertain_partial",
    "NA.Comp.C118_vector_partial"
   ],
   "note": "C118_evaluate_partial and C118_clash for scalars, C118_uncertain_partial, C118_vector_partial, and C118_missing and C118_type_error for all of them. False of the code: a variable which is named like a keyword of the call (order, casting, ex, func, ...) raises TypeError (C118_keyword_refuted), and so does an expression without variables (C118_constant_refuted). Missing: functions (FunctionArray) as variables, units, the frames of the caller in place of the dicts, the dtypes and optimisations of numexpr."
  },
  {
   "property": "C119",
   "status": "proved",
   "theorems": [
    "NA.UA.C119_uncertain",
    "NA.UA.C119_error",
    "NA.UA.C119_smallest",
    "NA.Comp.C119_vectors"
   ],
   "note": "C119_uncertain, C119_smallest and C119_error for uncertain scalars, C119_vectors for vectors of scalars. Scalars are in C26 and functions in C91. NaN, which is not equal to itself, is left out by the decidable equality. Vectors of uncertain scalars are not modelled."
  },
  {
   "property": "C120",
   "status": "partial",
   "theorems": [
    "NA.SA.C120_product_partial",
    "NA.SA.C120_errors",
    "NA.SA.C120_rectangular",
    "NA.SA.C120_square",
    "NA.SA.C120_associative",
    "NA.SA.C120_identity",
    "NA.SA.C120_rectangular_refuted"
   ],
   "note": "C120_product_partial (elements and shape), C120_errors, C120_square, C120_associative and C120_identity. False for rectangular matrices: C120_rectangular_refuted shows that a matrix with 2 rows and 3 columns times one with 3 rows and 2 columns raises ValueError, because the shapes of the operands are broadcast before they are multiplied; C120_rectangular says that this happens for all rectangular matrices with at least two rows and columns. Units and uncertain operands are left out."
  },
  {
   "property": "C121",
   "status": "partial",
   "theorems": [
    "NA.Comp.C121_length_partial",
    "NA.Comp.C121_error",
    "NA.Comp.C121_components_partial",
    "NA.Comp.C121_normalized_partial",
    "NA.Comp.C121_dotted_refuted"
   ],
   "note": "C121_length_partial, C121_components_partial, C121_normalized_partial and C121_error, for component names without a dot. False otherwise: C121_dotted_refuted is a vector with the components x.y and x, of which the latter has a component y; the flattened vector has only one of the two scalars, and the length ignores the other. Units, None components, uncertain components and rounding are left out."
  },
  {
   "property": "C122",
   "status": "partial",
   "theorems": [
    "NA.UA.C122_coordinates_partial",
    "NA.UA.C122_error",
    "NA.UA.C122_no_axes_refuted"
   ],
   "note": "C122_coordinates_partial and C122_error, for shapes with at least one axis. False for the empty shape: C122_no_axes_refuted shows that every position is then accepted and {} returned, where the same call for a scalar raises ValueError. Negative positions and positions with units are left out."
  },
  {
   "property": "C123",
   "status": "partial",
   "theorems": [
    "NA.Clean.C123_copy",
    "NA.Clean.C123_in_place_partial",
    "NA.Clean.C123_error",
    "NA.Clean.C123_finite",
    "NA.Clean.C123_number_refuted",
    "NA.Clean.C123_atomic_refuted",
    "NA.Clean.C123_error_type_refuted"
   ],
   "note": "C123_copy, C123_finite, C123_error and C123_in_place_partial. False in place for scalars stored as numbers: C123_number_refuted, where numpy overwrites a temporary array and nan remains. C123_atomic_refuted: an error leaves the components before the implicit one overwritten. C123_error_type_refuted: an implicit scalar raises ValueError, an implicit uncertain scalar TypeError. Parts which share memory, read-only arrays, integers, complex numbers and units are left out; that numpy does not change a number in place is read from its documentation."
  },
  {
   "property": "C124",
   "status": "partial",
   "theorems": [
    "NA.C124_shape",
    "NA.C124_order",
    "NA.C124_application_partial",
    "NA.C124_zero_refuted"
   ],
   "note": "C124_shape, C124_order and C124_application_partial, which shows that the shape of the result broadcasts to the expected one if this has at least one element. It is not always equal to it: C124_zero_refuted is a matrix which vanishes along an axis, whose products are the number zero and do not have the axis. Units, uncertain components and None are left out."
  },
  {
   "property": "C125",
   "status": "partial",
   "theorems": [
    "NA.Comp.C125_broadcast_to",
    "NA.Comp.C125_append_partial",
    "NA.Comp.C125_append_refuted"
   ],
   "note": "C125_broadcast_to settles the case without append. C125_append_partial: with append=True the shape of the result, as a vector, is the promised one, and every scalar has the shape to which its own shape and the requested one broadcast. That every scalar has the promised shape is false: C125_append_refuted, components with fewer axes do not get the axes of the others. Vectors without scalars are excluded with append=True, units and uncertain components are left out."
  },
  {
   "property": "C126",
   "status": "partial",
   "theorems": [
    "NA.Str.C126_default_format",
    "NA.Str.C126_scalar_partial",
    "NA.Str.C126_vector_partial",
    "NA.Str.C126_error",
    "NA.Str.C126_percent_refuted"
   ],
   "note": "C126_scalar_partial and C126_vector_partial hold for pads and units without percent sign. False otherwise: C126_percent_refuted, the unit per cent makes the format string incomplete and raises ValueError. C126_error: an incomplete format raises its error if there is an element and no unit. The text of a number for one conversion is a parameter of the model; how astropy writes units is left out, and mapping keys and * widths of the % operator are not modelled."
  },
  {
   "property": "C127",
   "status": "proved",
   "theorems": [
    "NA.Str.C127_strings_mod",
    "NA.Str.C127_error"
   ],
   "note": "C127_strings_mod: shape and strings at every index. C127_error: an error is raised exactly if the shapes clash or one of the formats fails, and is one of their errors. The text of a number for one conversion is a parameter; mapping keys and * widths of the % operator, and the function for vectors, are not modelled."
  },
  {
   "property": "C128",
   "status": "proved",
   "theorems": [
    "NA.Emath.C128_values",
    "NA.Emath.C128_type",
    "NA.Emath.C128_error"
   ],
   "note": "C128_values, C128_type, C128_error. The domains and the real and complex functions are parameters, assumed to agree on the domain (Continues), which ignores rounding. Units, and the functions for vectors and uncertain scalars, which apply this one to components, are left out."
  },
  {
   "property": "C129",
   "status": "proved",
   "theorems": [
    "NA.Filter.C129_filter_median",
    "NA.Filter.C129_inner",
    "NA.Filter.C129_mirror",
    "NA.Filter.C129_identity"
   ],
   "note": "C129_filter_median, C129_identity, and C129_inner and C129_mirror for the positions within and outside of the array. The default mode reflect only; scipy's windows and rank are modelled from its documentation. Kernel sizes of zero, units and nan are left out. By C129_identity, axes of shape_kernel which the array does not have are ignored without an error."
  }
 ]
}