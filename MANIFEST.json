{
 "claims": [
  {
   "property": "C01",
   "status": "proved",
   "theorems": [
    "Vmml.C01_read_after_write",
    "Vmml.C01_checked_throws",
    "Vmml.C01_checked_aborts",
    "Vmml.C01_unchecked_ub",
    "Vmml.C01_fault_iff",
    "Vmml.C01_named_components"
   ],
   "note": ""
  },
  {
   "property": "C02",
   "status": "proved",
   "theorems": [
    "Vmml.C02_history_refines_store",
    "Vmml.C02_last_write_determines",
    "Vmml.C02_throws_iff"
   ],
   "note": ""
  },
  {
   "property": "C03",
   "status": "proved",
   "theorems": [
    "Vmml.C03_binary",
    "Vmml.C03_scalar",
    "Vmml.C03_compound",
    "Vmml.C03_negate",
    "Vmml.C03_compound_alias",
    "Vmml.C03_assign_alias"
   ],
   "note": ""
  },
  {
   "property": "C04",
   "status": "proved",
   "theorems": [
    "Vmml.C04_module_laws"
   ],
   "note": ""
  },
  {
   "property": "C05",
   "status": "proved",
   "theorems": [
    "Vmml.C05_dot_sum",
    "Vmml.C05_dot_bilinear",
    "Vmml.C05_length",
    "Vmml.C05_cauchy_schwarz",
    "Vmml.C05_triangle",
    "Vmml.C05_distance_metric",
    "Vmml.C05_distance_is_length"
   ],
   "note": ""
  },
  {
   "property": "C06",
   "status": "partial",
   "theorems": [
    "Vmml.C06_formula",
    "Vmml.C06_laws",
    "Vmml.C06_cross_noalias_partial",
    "Vmml.C06_cross_alias_violated",
    "Vmml.C06_cross_alias_this_left"
   ],
   "note": "The value, orthogonality, anticommutativity, Lagrange and Jacobi identities are proved for all vectors; the two-argument member form is proved for a target distinct from both operands, and shown wrong when the target is an operand (C06_cross_alias_violated)."
  },
  {
   "property": "C07",
   "status": "proved",
   "theorems": [
    "Vmml.C07_normalize",
    "Vmml.C07_normalize_zero",
    "Vmml.C07_normalize_idempotent"
   ],
   "note": ""
  },
  {
   "property": "C08",
   "status": "proved",
   "theorems": [
    "Vmml.C08_lt_is_lexicographic",
    "Vmml.C08_strict_total_order"
   ],
   "note": ""
  },
  {
   "property": "C09",
   "status": "partial",
   "theorems": [
    "Vmml.C09_memcmp_partial",
    "Vmml.C09_equivalence",
    "Vmml.C09_signed_zero_violated",
    "Vmml.C09_nan_violated",
    "Vmml.C09_float_partial"
   ],
   "note": "operator== is memcmp: proved to be representation equality (an equivalence) for every element type; the IEEE expectations (0.0 == -0.0, NaN != NaN) are refuted by C09_signed_zero_violated and C09_nan_violated."
  },
  {
   "property": "C10",
   "status": "proved",
   "theorems": [
    "Vmml.C10_equals_iff",
    "Vmml.C10_equals_laws"
   ],
   "note": ""
  },
  {
   "property": "C11",
   "status": "proved",
   "theorems": [
    "Vmml.C11_conversions",
    "Vmml.C11_round_trip",
    "Vmml.C11_scale_invariant"
   ],
   "note": ""
  },
  {
   "property": "C12",
   "status": "partial",
   "theorems": [
    "Vmml.C12_min_max",
    "Vmml.C12_abs_min",
    "Vmml.C12_abs_max_is_abs_min_violated",
    "Vmml.C12_abs_max_partial",
    "Vmml.C12_abs_max_witness_violated"
   ],
   "note": "find_min/find_max/find_*_index and find_abs_min_index are proved; find_abs_max(_index) is refuted: it returns the least absolute value."
  },
  {
   "property": "C13",
   "status": "proved",
   "theorems": [
    "Vmml.C13_clamp",
    "Vmml.C13_clamp_alias"
   ],
   "note": ""
  },
  {
   "property": "C14",
   "status": "proved",
   "theorems": [
    "Vmml.C14_getSub",
    "Vmml.C14_getSub_out_of_range",
    "Vmml.C14_subSet",
    "Vmml.C14_setVec",
    "Vmml.C14_append",
    "Vmml.C14_fill",
    "Vmml.C14_component_ctors",
    "Vmml.C14_component_ctors_mismatch"
   ],
   "note": ""
  },
  {
   "property": "C15",
   "status": "proved",
   "theorems": [
    "Vmml.C15_rodrigues",
    "Vmml.C15_isometry",
    "Vmml.C15_additive"
   ],
   "note": ""
  },
  {
   "property": "C16",
   "status": "proved",
   "theorems": [
    "Vmml.C16_distance_to_sphere",
    "Vmml.C16_project_onto_sphere",
    "Vmml.C16_distance_to_plane",
    "Vmml.C16_project_onto_plane"
   ],
   "note": ""
  },
  {
   "property": "C17",
   "status": "partial",
   "theorems": [
    "Vmml.C17_compute_normal",
    "Vmml.C17_plane_normal_never_unit_violated",
    "Vmml.C17_plane_partial",
    "Vmml.C17_plane_orientation"
   ],
   "note": "compute_normal is proved; compute_plane is refuted for the unit-normal clause (the normal is never normalised); points on plane and orientation are proved."
  },
  {
   "property": "C18",
   "status": "partial",
   "theorems": [
    "Vmml.C18_scale_to_partial",
    "Vmml.C18_scale_to_violated"
   ],
   "note": "scale_to is affine with the proved coefficients; the claimed mapping of [min,max] holds only when min = -max (C18_scale_to_violated)."
  },
  {
   "property": "C19",
   "status": "proved",
   "theorems": [
    "Vmml.C19_product",
    "Vmml.C19_nnz",
    "Vmml.C19_reciprocal",
    "Vmml.C19_sqrt_elementwise",
    "Vmml.C19_norm",
    "Vmml.C19_is_unit_vector"
   ],
   "note": ""
  },
  {
   "property": "C20",
   "status": "partial",
   "theorems": [
    "Vmml.C20_layout",
    "Vmml.C20_cells_bijective",
    "Vmml.C20_read_after_write",
    "Vmml.C20_checked_throws",
    "Vmml.C20_unchecked_row_wraps",
    "Vmml.C20_brackets_agree",
    "Vmml.C20_bracket_throws_partial",
    "Vmml.C20_bracket_row_M_violated",
    "Vmml.C20_int_index",
    "Vmml.C20_history"
   ],
   "note": "at() and operator() are proved in full (bounds, layout, store law, histories). operator[][] is proved for all indices except row == M, where the code tests row_index > M instead of >=: no exception is raised (C20_bracket_row_M_violated)."
  },
  {
   "property": "C21",
   "status": "proved",
   "theorems": [
    "Vmml.C21_construction",
    "Vmml.C21_identity_neutral"
   ],
   "note": ""
  },
  {
   "property": "C22",
   "status": "proved",
   "theorems": [
    "Vmml.C22_row_major",
    "Vmml.C22_row_major_round_trip",
    "Vmml.C22_col_major",
    "Vmml.C22_col_major_short_ub",
    "Vmml.C22_std_vector",
    "Vmml.C22_pointer"
   ],
   "note": ""
  },
  {
   "property": "C23",
   "status": "proved",
   "theorems": [
    "Vmml.C23_resize",
    "Vmml.C23_same_size"
   ],
   "note": ""
  },
  {
   "property": "C24",
   "status": "proved",
   "theorems": [
    "Vmml.C24_columns",
    "Vmml.C24_rows",
    "Vmml.C24_blocks",
    "Vmml.C24_errors"
   ],
   "note": ""
  },
  {
   "property": "C25",
   "status": "proved",
   "theorems": [
    "Vmml.C25_mul",
    "Vmml.C25_entrywise",
    "Vmml.C25_assoc",
    "Vmml.C25_distrib"
   ],
   "note": ""
  },
  {
   "property": "C26",
   "status": "partial",
   "theorems": [
    "Vmml.C26_mul_assign_partial",
    "Vmml.C26_self_multiplication_violated",
    "Vmml.C26_entrywise_alias"
   ],
   "note": "Proved for every right operand that is a different object; A *= A is refuted by a witness (the right operand is read while being overwritten). The entrywise compound operators are proved for aliased operands too."
  },
  {
   "property": "C27",
   "status": "proved",
   "theorems": [
    "Vmml.C27_mul_vec",
    "Vmml.C27_mul_vec_assoc",
    "Vmml.C27_homogeneous",
    "Vmml.C27_homogeneous_compose"
   ],
   "note": ""
  },
  {
   "property": "C28",
   "status": "proved",
   "theorems": [
    "Vmml.C28_transpose",
    "Vmml.C28_laws",
    "Vmml.C28_self_transpose_violated"
   ],
   "note": "The statement is proved in full (all sizes, distinct objects). C28_self_transpose_violated is an additional fact outside the statement: m.transpose_to(m) on one object does not transpose."
  },
  {
   "property": "C29",
   "status": "proved",
   "theorems": [
    "Vmml.C29_det",
    "Vmml.C29_laws"
   ],
   "note": ""
  },
  {
   "property": "C30",
   "status": "partial",
   "theorems": [
    "Vmml.C30_inverse",
    "Vmml.C30_boundary",
    "Vmml.C30_involutive",
    "Vmml.C30_inverse2_partial",
    "Vmml.C30_inverse2_singular_violated",
    "Vmml.C30_inverse3",
    "Vmml.C30_inverse4"
   ],
   "note": "3x3 and 4x4 proved in full, 2x2 for every positive tolerance; the 2x2 code uses < instead of <=, so with tolerance 0 a singular matrix is reported invertible (C30_inverse2_singular_violated). In-place use (target == operand) is covered by C86."
  },
  {
   "property": "C31",
   "status": "proved",
   "theorems": [
    "Vmml.C31_minor",
    "Vmml.C31_minor_value",
    "Vmml.C31_cofactors",
    "Vmml.C31_adjugate"
   ],
   "note": ""
  },
  {
   "property": "C32",
   "status": "partial",
   "theorems": [
    "Vmml.C32_tensor_partial",
    "Vmml.C32_tensor_violated",
    "Vmml.C32_tensor_nonsquare_violated",
    "Vmml.C32_tensor4"
   ],
   "note": "The code computes v[r]*u[c] (the transposed outer product): refuted; the value it does compute is proved for square matrices, and for M < N it is shown to read outside the vectors."
  },
  {
   "property": "C33",
   "status": "partial",
   "theorems": [
    "Vmml.C33_negate_partial",
    "Vmml.C33_negate_violated"
   ],
   "note": "Refuted: negate() ignores *this and returns minus the default-constructed matrix. What it returns is proved."
  },
  {
   "property": "C34",
   "status": "proved",
   "theorems": [
    "Vmml.C34_direct_sum",
    "Vmml.C34_diag",
    "Vmml.C34_kronecker",
    "Vmml.C34_khatri_rao",
    "Vmml.C34_index_convention"
   ],
   "note": ""
  },
  {
   "property": "C35",
   "status": "proved",
   "theorems": [
    "Vmml.C35_covariance",
    "Vmml.C35_symmetric_psd"
   ],
   "note": ""
  },
  {
   "property": "C36",
   "status": "proved",
   "theorems": [
    "Vmml.C36_rodrigues",
    "Vmml.C36_rotation",
    "Vmml.C36_additive",
    "Vmml.C36_vector_rotate"
   ],
   "note": ""
  },
  {
   "property": "C37",
   "status": "partial",
   "theorems": [
    "Vmml.C37_rotate",
    "Vmml.C37_pre_rotate_partial",
    "Vmml.C37_pre_rotate_violated",
    "Vmml.C37_additive",
    "Vmml.C37_undo",
    "Vmml.C37_axes"
   ],
   "note": "rotate_k proved in full; pre_rotate_k is proved to left-multiply by the rotation by the opposite angle, so the claim about pre_rotate_k is refuted."
  },
  {
   "property": "C38",
   "status": "proved",
   "theorems": [
    "Vmml.C38_scale",
    "Vmml.C38_translation_cells",
    "Vmml.C38_get_translation",
    "Vmml.C38_get_set",
    "Vmml.C38_get_translation_short_violated"
   ],
   "note": "Proved for 4x4 matrices (the only size for which the setters compile) and, for get_translation, all sizes with M >= N-1. C38_get_translation_short_violated is an additional fact: for fewer rows get_translation reads past the array."
  },
  {
   "property": "C39",
   "status": "proved",
   "theorems": [
    "Vmml.C39_history_rigid",
    "Vmml.C39_distance",
    "Vmml.C39_history_distance",
    "Vmml.C39_start"
   ],
   "note": ""
  },
  {
   "property": "C40",
   "status": "partial",
   "theorems": [
    "Vmml.C40_get_min",
    "Vmml.C40_get_max_partial",
    "Vmml.C40_get_max_violated",
    "Vmml.C40_get_abs"
   ],
   "note": "get_min, get_abs_min, get_abs_max proved; get_max proved if some element is >= 0, refuted for all-negative matrices (it starts from 0)."
  },
  {
   "property": "C41",
   "status": "proved",
   "theorems": [
    "Vmml.C41_sum_elements",
    "Vmml.C41_columnwise_sum",
    "Vmml.C41_frobenius",
    "Vmml.C41_p_norm",
    "Vmml.C41_nnz",
    "Vmml.C41_nnz_threshold",
    "Vmml.C41_threshold",
    "Vmml.C41_threshold_nnz"
   ],
   "note": ""
  },
  {
   "property": "C42",
   "status": "partial",
   "theorems": [
    "Vmml.C42_codes_in_range",
    "Vmml.C42_round_trip_unsigned_partial",
    "Vmml.C42_quantize_unsigned_partial",
    "Vmml.C42_signed_violated",
    "Vmml.C42_signed_symmetric_partial"
   ],
   "note": "Codes in range proved for every integer type; round-trip error bound proved for unsigned codes and for signed codes with symmetric bounds; refuted for signed codes in general."
  },
  {
   "property": "C43",
   "status": "partial",
   "theorems": [
    "Vmml.C43_convolve_partial",
    "Vmml.C43_nonsquare_violated",
    "Vmml.C43_nonsquare_kernel_violated"
   ],
   "note": "Proved for square matrices and square kernels; for other shapes the code is shown to compute with swapped bounds or read out of range."
  },
  {
   "property": "C44",
   "status": "proved",
   "theorems": [
    "Vmml.C44_sum_rows",
    "Vmml.C44_sum_columns",
    "Vmml.C44_total"
   ],
   "note": ""
  },
  {
   "property": "C45",
   "status": "proved",
   "theorems": [
    "Vmml.C45_dct"
   ],
   "note": ""
  },
  {
   "property": "C46",
   "status": "proved",
   "theorems": [
    "Vmml.C46_roundtrip",
    "Vmml.C46_matrix"
   ],
   "note": ""
  },
  {
   "property": "C47",
   "status": "partial",
   "theorems": [
    "Vmml.C47_roundtrip_partial",
    "Vmml.C47_written_file_partial",
    "Vmml.C47_suffix_violated",
    "Vmml.C47_path",
    "Vmml.C47_sizes",
    "Vmml.C47_large_violated"
   ],
   "note": "Proved for file names ending in raw, exactly when the first chunk (bytes modulo 2^31 - sizeof(T)) is a whole number of elements: always for sizes dividing 2^31 and for smaller data (C47_sizes). Refuted for other names (write appends .raw, read does not; C87 has the exact set of names) and for large data with other chunk sizes (elements come from the uninitialised buffer)."
  },
  {
   "property": "C48",
   "status": "proved",
   "theorems": [
    "Vmml.C48_eq",
    "Vmml.C48_eq_iff",
    "Vmml.C48_equals",
    "Vmml.C48_equals_cmp"
   ],
   "note": ""
  },
  {
   "property": "C49",
   "status": "partial",
   "theorems": [
    "Vmml.C49_rows_partial",
    "Vmml.C49_columns_partial",
    "Vmml.C49_rows_tol",
    "Vmml.C49_columns_tol",
    "Vmml.C49_signed_zero_violated",
    "Vmml.C49_initialisers"
   ],
   "note": "Tolerance forms proved in full; the exact forms are proved to compare representations (memcmp), which differs from value comparison for signed zeros (C49_signed_zero_violated)."
  },
  {
   "property": "C50",
   "status": "partial",
   "theorems": [
    "Vmml.C50_positive_definite_partial",
    "Vmml.C50_violated",
    "Vmml.C50_limit_zero_accepts_zero",
    "Vmml.C50_sound",
    "Vmml.C50_complete",
    "Vmml.C50_exact"
   ],
   "note": "Proved: true iff every leading principal minor is >= limit; hence, for symmetric matrices of any size (Sylvester's criterion is proved here), sound for every limit > 0 and complete for every limit <= 0; exact characterisation in C50_exact. With the default limit (-1e12) indefinite matrices are accepted (C50_violated)."
  },
  {
   "property": "C51",
   "status": "proved",
   "theorems": [
    "Vmml.C51_hamilton",
    "Vmml.C51_laws",
    "Vmml.C51_norm"
   ],
   "note": ""
  },
  {
   "property": "C52",
   "status": "proved",
   "theorems": [
    "Vmml.C52_conjugate",
    "Vmml.C52_inverse",
    "Vmml.C52_normalize"
   ],
   "note": ""
  },
  {
   "property": "C53",
   "status": "proved",
   "theorems": [
    "Vmml.C53_rotation",
    "Vmml.C53_homomorphism",
    "Vmml.C53_axis_angle",
    "Vmml.C53_embedded"
   ],
   "note": ""
  },
  {
   "property": "C54",
   "status": "partial",
   "theorems": [
    "Vmml.C54_from_matrix_partial",
    "Vmml.C54_witness_violated"
   ],
   "note": "Proved for the trace branch and characterised exactly on the fallback branches: there w gets the wrong sign unless the second diagonal element is largest (C54_witness_violated)."
  },
  {
   "property": "C55",
   "status": "proved",
   "theorems": [
    "Vmml.C55_slerp",
    "Vmml.C55_ends",
    "Vmml.C55_normalises"
   ],
   "note": ""
  },
  {
   "property": "C56",
   "status": "partial",
   "theorems": [
    "Vmml.C56_vector_ops_partial",
    "Vmml.C56_rotated_components_violated",
    "Vmml.C56_add_assign_violated",
    "Vmml.C56_witness_violated"
   ],
   "note": "+ and compound -=, *= proved; - and * are refuted (components passed in the order w,x,y,z), += refuted (adds z to y)."
  },
  {
   "property": "C57",
   "status": "proved",
   "theorems": [
    "Vmml.C57_componentwise",
    "Vmml.C57_division",
    "Vmml.C57_division_by_zero",
    "Vmml.C57_dot"
   ],
   "note": ""
  },
  {
   "property": "C58",
   "status": "partial",
   "theorems": [
    "Vmml.C58_cross_partial",
    "Vmml.C58_normal_violated"
   ],
   "note": "cross proved; the normal helpers are refuted (they discard the cross products)."
  },
  {
   "property": "C59",
   "status": "partial",
   "theorems": [
    "Vmml.C59_equality",
    "Vmml.C59_is_akin",
    "Vmml.C59_is_akin_double",
    "Vmml.C59_is_akin_double_violated"
   ],
   "note": "operator==/!= and is_akin for T = float proved in full. For double, is_akin narrows the differences to float first: proved within the relative rounding error (C59_is_akin_double), refuted exactly (C59_is_akin_double_violated)."
  },
  {
   "property": "C60",
   "status": "proved",
   "theorems": [
    "Vmml.C60_inside",
    "Vmml.C60_planes"
   ],
   "note": ""
  },
  {
   "property": "C61",
   "status": "proved",
   "theorems": [
    "Vmml.C61_ortho"
   ],
   "note": ""
  },
  {
   "property": "C62",
   "status": "proved",
   "theorems": [
    "Vmml.C62_adjust_near",
    "Vmml.C62_history"
   ],
   "note": ""
  },
  {
   "property": "C63",
   "status": "partial",
   "theorems": [
    "Vmml.C63_set_perspective_partial",
    "Vmml.C63_angle_violated"
   ],
   "note": "Near, far, symmetry and aspect proved; the vertical angle is the requested one iff near = 1/2 (C63_angle_violated)."
  },
  {
   "property": "C64",
   "status": "proved",
   "theorems": [
    "Vmml.C64_jitter"
   ],
   "note": ""
  },
  {
   "property": "C65",
   "status": "proved",
   "theorems": [
    "Vmml.C65_planes",
    "Vmml.C65_clip",
    "Vmml.C65_frustum"
   ],
   "note": ""
  },
  {
   "property": "C66",
   "status": "proved",
   "theorems": [
    "Vmml.C66_verdict",
    "Vmml.C66_sound",
    "Vmml.C66_exact"
   ],
   "note": ""
  },
  {
   "property": "C67",
   "status": "proved",
   "theorems": [
    "Vmml.C67_exact",
    "Vmml.C67_sound"
   ],
   "note": ""
  },
  {
   "property": "C68",
   "status": "partial",
   "theorems": [
    "Vmml.C68_planes_partial",
    "Vmml.C68_decisions_partial",
    "Vmml.C68_sphere_violated",
    "Vmml.C68_sphere_sound_partial"
   ],
   "note": "Planes, volume, box decisions and soundness for spheres proved; agreement of sphere decisions refuted for every frustum (normals shorter than 1)."
  },
  {
   "property": "C69",
   "status": "partial",
   "theorems": [
    "Vmml.C69_empty",
    "Vmml.C69_history",
    "Vmml.C69_smallest",
    "Vmml.C69_order",
    "Vmml.C69_neutral",
    "Vmml.C69_setEmpty_int_violated",
    "Vmml.C69_setEmpty_unsigned_violated"
   ],
   "note": "Proved for every history starting from the default-constructed box, every linearly ordered element type; setEmpty() of integer boxes is refuted as a starting point."
  },
  {
   "property": "C70",
   "status": "proved",
   "theorems": [
    "Vmml.C70_isIn",
    "Vmml.C70_isIn2d",
    "Vmml.C70_merge"
   ],
   "note": ""
  },
  {
   "property": "C71",
   "status": "partial",
   "theorems": [
    "Vmml.C71_isEmpty_partial",
    "Vmml.C71_default",
    "Vmml.C71_point_violated",
    "Vmml.C71_isEmpty_violated"
   ],
   "note": "isEmpty compares min z with max x: characterised exactly and refuted as emptiness test; default-constructed box proved empty; a single merged point is refuted as non-empty."
  },
  {
   "property": "C72",
   "status": "proved",
   "theorems": [
    "Vmml.C72_componentwise",
    "Vmml.C72_translation",
    "Vmml.C72_scaling",
    "Vmml.C72_equality"
   ],
   "note": ""
  },
  {
   "property": "C73",
   "status": "partial",
   "theorems": [
    "Vmml.C73_cube",
    "Vmml.C73_recover",
    "Vmml.C73_center_dimension",
    "Vmml.C73_unit",
    "Vmml.C73_int_center_violated"
   ],
   "note": "Proved over fields; getCenter of integer boxes returns the lower corner (0.5 converted to 0), C73_int_center_violated."
  },
  {
   "property": "C74",
   "status": "partial",
   "theorems": [
    "Vmml.C74_hit",
    "Vmml.C74_first_partial",
    "Vmml.C74_surface",
    "Vmml.C74_surface_violated",
    "Vmml.C74_zero_direction"
   ],
   "note": "Hit/miss and distance proved for every origin not on the surface; from the surface the far intersection is reported (C74_surface_violated). Zero direction covered by C74_zero_direction."
  },
  {
   "property": "C75",
   "status": "proved",
   "theorems": [
    "Vmml.C75_add",
    "Vmml.C75_weights",
    "Vmml.C75_history",
    "Vmml.C75_forgets",
    "Vmml.C75_undefined"
   ],
   "note": ""
  },
  {
   "property": "C76",
   "status": "proved",
   "theorems": [
    "Vmml.C76_convex",
    "Vmml.C76_bounds",
    "Vmml.C76_constant"
   ],
   "note": ""
  },
  {
   "property": "C77",
   "status": "proved",
   "theorems": [
    "Vmml.C77_qr",
    "Vmml.C77_square",
    "Vmml.C77_wide",
    "Vmml.C77_singular_violated",
    "Vmml.C77_unique",
    "Vmml.C77_fixed"
   ],
   "note": "Proved for all M >= N matrices with independent columns; the additional facts C77_wide and C77_singular_violated show what happens outside that hypothesis."
  },
  {
   "property": "C78",
   "status": "proved",
   "theorems": [
    "Vmml.C78_translation",
    "Vmml.C78_rotation",
    "Vmml.C78_scaling",
    "Vmml.C78_apply",
    "Vmml.C78_min_max",
    "Vmml.C78_manhattan",
    "Vmml.C78_zero_equals"
   ],
   "note": ""
  },
  {
   "property": "C79",
   "status": "proved",
   "theorems": [
    "Vmml.C79_squared_pythag",
    "Vmml.C79_sign",
    "Vmml.C79_abs_order"
   ],
   "note": ""
  },
  {
   "property": "C80",
   "status": "partial",
   "theorems": [
    "Vmml.C80_vector",
    "Vmml.C80_vector_range",
    "Vmml.C80_matrix_partial",
    "Vmml.C80_transposed_violated",
    "Vmml.C80_wide_violated"
   ],
   "note": "Vector traits proved; matrix traits are refuted (row and column exchanged), proved for the transposed cell."
  },
  {
   "property": "C81",
   "status": "proved",
   "theorems": [
    "Vmml.C81_dot",
    "Vmml.C81_squared_length",
    "Vmml.C81_matrix_product",
    "Vmml.C81_matrix_vector",
    "Vmml.C81_sum",
    "Vmml.C81_cross"
   ],
   "note": ""
  },
  {
   "property": "C82",
   "status": "partial",
   "theorems": [
    "Vmml.C82_matrix_equals",
    "Vmml.C82_propagate",
    "Vmml.C82_clamp_partial",
    "Vmml.C82_clamp_violated",
    "Vmml.C82_equals_violated",
    "Vmml.C82_isIn_violated",
    "Vmml.C82_isAkin_violated",
    "Vmml.C82_order_violated",
    "Vmml.C82_sphere_violated"
   ],
   "note": "Matrix equals and arithmetic propagation proved; the other predicates accept NaN: refuted one by one. clamp proved for non-NaN components."
  },
  {
   "property": "C83",
   "status": "partial",
   "theorems": [
    "Vmml.C83_frustum_violated",
    "Vmml.C83_frustum_partial",
    "Vmml.C83_print_partial",
    "Vmml.C83_flags_violated"
   ],
   "note": "Precision restored and flags superset proved; exact restoration of flags refuted when an adjustment flag other than right was set."
  },
  {
   "property": "C84",
   "status": "proved",
   "theorems": [
    "Vmml.C84_matrix_set_random",
    "Vmml.C84_perturb",
    "Vmml.C84_set_random",
    "Vmml.C84_iter_set",
    "Vmml.C84_cast"
   ],
   "note": ""
  },
  {
   "property": "C85",
   "status": "proved",
   "theorems": [
    "Vmml.C85_set",
    "Vmml.C85_default",
    "Vmml.C85_short_pointer"
   ],
   "note": ""
  },
  {
   "property": "C86",
   "status": "partial",
   "theorems": [
    "Vmml.C86_adjugate2_self_violated",
    "Vmml.C86_inverse2_self_violated",
    "Vmml.C86_inverse2_self_shear_violated",
    "Vmml.C86_inverse3_self_violated",
    "Vmml.C86_inverse3_self_singular_violated",
    "Vmml.C86_inverse4_self_violated"
   ],
   "note": "Refuted for every size: the exact set of 2x2 matrices for which it works is characterised; for 3x3 all invertible diagonal matrices are characterised; singular matrices are reported as inverted in 3x3 and 4x4."
  },
  {
   "property": "C87",
   "status": "partial",
   "theorems": [
    "Vmml.C87_paths",
    "Vmml.C87_write_csv_partial",
    "Vmml.C87_csv_roundtrip_violated"
   ],
   "note": "Names proved for all directories and names; the text and file written by write_csv_file proved; read_csv_file opens the file but never reads it, so the round trip is refuted."
  },
  {
   "property": "C88",
   "status": "proved",
   "theorems": [
    "Vmml.C88_vector",
    "Vmml.C88_matrix",
    "Vmml.C88_matrix_lines",
    "Vmml.C88_frustum",
    "Vmml.C88_quaternion",
    "Vmml.C88_box",
    "Vmml.C88_culler",
    "Vmml.C88_visibility"
   ],
   "note": ""
  },
  {
   "property": "C89",
   "status": "partial",
   "theorems": [
    "Vmml.C89_construction",
    "Vmml.C89_set_violated",
    "Vmml.C89_units"
   ],
   "note": "Everything proved except the order of the four-scalar set: declared as set( ww, xx, yy, zz ), defined as set( xx, yy, zz, ww )."
  },
  {
   "property": "C90",
   "status": "proved",
   "theorems": [
    "Vmml.C90_length",
    "Vmml.C90_distance",
    "Vmml.C90_normalize",
    "Vmml.C90_single_precision"
   ],
   "note": ""
  },
  {
   "property": "C91",
   "status": "proved",
   "theorems": [
    "Vmml.C91_sphere",
    "Vmml.C91_sphere_sound",
    "Vmml.C91_box"
   ],
   "note": ""
  },
  {
   "property": "C92",
   "status": "proved",
   "theorems": [
    "Vmml.C92_det",
    "Vmml.C92_det_bound",
    "Vmml.C92_quaternion_mul",
    "Vmml.C92_quaternion_normalize"
   ],
   "note": ""
  },
  {
   "property": "C93",
   "status": "proved",
   "theorems": [
    "Vmml.C93_order",
    "Vmml.C93_consistent"
   ],
   "note": ""
  },
  {
   "property": "C94",
   "status": "proved",
   "theorems": [
    "Vmml.C94_what",
    "Vmml.C94_what_nul",
    "Vmml.C94_report"
   ],
   "note": ""
  },
  {
   "property": "C95",
   "status": "partial",
   "theorems": [
    "Vmml.C95_agree",
    "Vmml.C95_agree_quaternion",
    "Vmml.C95_strong",
    "Vmml.C95_set_sub_matrix_effect",
    "Vmml.C95_set_sub_matrix_violated",
    "Vmml.C95_get_sub_matrix"
   ],
   "note": "Proved for all listed functions; refuted for set_sub_matrix, whose partial effect before the throw is stated exactly (C95_set_sub_matrix_effect)."
  },
  {
   "property": "C96",
   "status": "proved",
   "theorems": [
    "Vmml.C96_cells",
    "Vmml.C96_vector_construction",
    "Vmml.C96_vector_arithmetic",
    "Vmml.C96_vector_other",
    "Vmml.C96_matrix_arithmetic",
    "Vmml.C96_matrix_blocks",
    "Vmml.C96_matrix_inverse",
    "Vmml.C96_matrix_other",
    "Vmml.C96_io",
    "Vmml.C96_quaternion",
    "Vmml.C96_other"
   ],
   "note": ""
  },
  {
   "property": "C97",
   "status": "proved",
   "theorems": [
    "Vmml.C97_access",
    "Vmml.C97_other",
    "Vmml.C97_shapes",
    "Vmml.C97_checked"
   ],
   "note": ""
  },
  {
   "property": "C98",
   "status": "partial",
   "theorems": [
    "Vmml.C98_vector_iterate",
    "Vmml.C98_vector_write",
    "Vmml.C98_vector_range",
    "Vmml.C98_vector_pointer",
    "Vmml.C98_vector_from_pointer",
    "Vmml.C98_matrix_iterate",
    "Vmml.C98_matrix_pointer",
    "Vmml.C98_matrix_write",
    "Vmml.C98_default_tolerance",
    "Vmml.C98_default_tolerance_violated",
    "Vmml.C98_box_corners",
    "Vmml.C98_quaternion_assign",
    "Vmml.C98_quaternion_self_assign_violated",
    "Vmml.C98_frustum_assign",
    "Vmml.C98_frustum_self_assign_violated",
    "Vmml.C98_matrix_assign",
    "Vmml.C98_matrix_self_assign_violated"
   ],
   "note": "Iteration, pointers, sizes, corner references proved for all sizes. Refuted: equals() with the default tolerance of integer types (zero, strict comparison), and quaternion, matrix and frustum self-assignment (memcpy onto itself)."
  },
  {
   "property": "C99",
   "status": "proved",
   "theorems": [
    "Vmml.C99_dot",
    "Vmml.C99_squared_length",
    "Vmml.C99_matrix_product",
    "Vmml.C99_matrix_product_exact",
    "Vmml.C99_matrix_vector",
    "Vmml.C99_elementwise",
    "Vmml.C99_extremes",
    "Vmml.C99_cross",
    "Vmml.C99_det",
    "Vmml.C99_unsigned",
    "Vmml.C99_unsigned_det"
   ],
   "note": ""
  },
  {
   "property": "C100",
   "status": "proved",
   "theorems": [
    "Vmml.C100_world_sphere",
    "Vmml.C100_view_frustum",
    "Vmml.C100_sphere_in_sphere",
    "Vmml.C100_sphere_in_box",
    "Vmml.C100_box_in_box",
    "Vmml.C100_box_in_sphere"
   ],
   "note": ""
  },
  {
   "property": "C101",
   "status": "proved",
   "theorems": [
    "Vmml.C101_inverse",
    "Vmml.C101_flag",
    "Vmml.C101_error",
    "Vmml.C101_residual"
   ],
   "note": ""
  },
  {
   "property": "C102",
   "status": "proved",
   "theorems": [
    "Vmml.C102_op_assign",
    "Vmml.C102_op_assign_overlap",
    "Vmml.C102_op_assign_scalar",
    "Vmml.C102_assign",
    "Vmml.C102_from_homogeneous",
    "Vmml.C102_to_homogeneous",
    "Vmml.C102_normalize",
    "Vmml.C102_overlap_differs"
   ],
   "note": ""
  },
  {
   "property": "C103",
   "status": "partial",
   "theorems": [
    "Vmml.C103_release_once",
    "Vmml.C103_sum_rows",
    "Vmml.C103_sum_columns",
    "Vmml.C103_read_open_partial",
    "Vmml.C103_read_closed_violated",
    "Vmml.C103_leak_violated"
   ],
   "note": "Proved for sum_rows, sum_columns and read_from_raw of an openable file; refuted for read_from_raw of a file that cannot be opened: its buffer is never released. std::bad_alloc is not modelled."
  },
  {
   "property": "C104",
   "status": "proved",
   "theorems": [
    "Vmml.C104_vector",
    "Vmml.C104_matrix",
    "Vmml.C104_failed"
   ],
   "note": ""
  },
  {
   "property": "C105",
   "status": "partial",
   "theorems": [
    "Vmml.C105_set_corner",
    "Vmml.C105_merge_point",
    "Vmml.C105_merge_self",
    "Vmml.C105_set_partial",
    "Vmml.C105_set_violated"
   ],
   "note": "setMin, setMax, merge(point), merge(box) proved for all overlaps; set(pMin, pMax) proved unless pMax is the box's own lower corner and pMin is not; in exactly those cases it is refuted: set(p, b.getMin()) stores p in both corners."
  },
  {
   "property": "C106",
   "status": "proved",
   "theorems": [
    "Vmml.C106_constants",
    "Vmml.C106_rounded",
    "Vmml.C106_double",
    "Vmml.C106_perspective",
    "Vmml.C106_perspective_top",
    "Vmml.C106_dct"
   ],
   "note": ""
  },
  {
   "property": "C107",
   "status": "proved",
   "theorems": [
    "Vmml.C107_unset"
   ],
   "note": ""
  },
  {
   "property": "C108",
   "status": "proved",
   "theorems": [
    "Vmml.C108_dot",
    "Vmml.C108_squared_length",
    "Vmml.C108_matrix_product",
    "Vmml.C108_matrix_vector"
   ],
   "note": "On IEEE 754 values of any binary format (Model/Float.lean), with overflow, underflow, infinities and NaN."
  },
  {
   "property": "C109",
   "status": "proved",
   "theorems": [
    "Vmml.C109_overflow",
    "Vmml.C109_underflow",
    "Vmml.C109_nan",
    "Vmml.C109_length",
    "Vmml.C109_normalize"
   ],
   "note": "The code squares without scaling: for finite vectors of large (2^64 in float) or tiny components normalize gives the zero vector or does nothing (C109_overflow, C109_underflow); C109_normalize proves accuracy when the squared length is in the normal range."
  },
  {
   "property": "C110",
   "status": "proved",
   "theorems": [
    "Vmml.C110_det",
    "Vmml.C110_inverse",
    "Vmml.C110_flag",
    "Vmml.C110_error",
    "Vmml.C110_nonfinite",
    "Vmml.C110_overflow",
    "Vmml.C110_scaling"
   ],
   "note": "Accuracy, flag and finiteness proved in range (C110_det, C110_inverse, C110_flag, C110_error). Out of range, as the statement says: an overflowing determinant or a non-finite entry makes inverse return true with zeros and NaNs (C110_overflow, C110_nonfinite, C110_scaling)."
  },
  {
   "property": "C111",
   "status": "proved",
   "theorems": [
    "Vmml.C111_center",
    "Vmml.C111_center_overflow",
    "Vmml.C111_dimension",
    "Vmml.C111_merge",
    "Vmml.C111_isIn",
    "Vmml.C111_isIn_nan",
    "Vmml.C111_points",
    "Vmml.C111_bounding",
    "Vmml.C111_nan_corner"
   ],
   "note": "Exactness of merge, isIn and the bounding box, and the centre in range are proved, and the failures the statement names: the centre of a box whose extent overflows (C111_center_overflow), NaN points are in every box (C111_isIn_nan), NaN corners stay (C111_nan_corner)."
  },
  {
   "property": "C112",
   "status": "proved",
   "theorems": [
    "Vmml.C112_add",
    "Vmml.C112_history",
    "Vmml.C112_forgets",
    "Vmml.C112_nan"
   ],
   "note": ""
  },
  {
   "property": "C113",
   "status": "proved",
   "theorems": [
    "Vmml.C113_drift",
    "Vmml.C113_orthogonal",
    "Vmml.C113_assign"
   ],
   "note": ""
  },
  {
   "property": "C114",
   "status": "proved",
   "theorems": [
    "Vmml.C114_product",
    "Vmml.C114_drift",
    "Vmml.C114_normalize",
    "Vmml.C114_renormalized",
    "Vmml.C114_renormalized_drift"
   ],
   "note": ""
  },
  {
   "property": "C115",
   "status": "proved",
   "theorems": [
    "Vmml.C115_block",
    "Vmml.C115_rotation",
    "Vmml.C115_near_rotation",
    "Vmml.C115_history"
   ],
   "note": ""
  },
  {
   "property": "C116",
   "status": "proved",
   "theorems": [
    "Vmml.C116_quotient",
    "Vmml.C116_literals"
   ],
   "note": ""
  },
  {
   "property": "C117",
   "status": "partial",
   "theorems": [
    "Vmml.C117_sphere",
    "Vmml.C117_sphere_sound",
    "Vmml.C117_box",
    "Vmml.C117_nan_violated",
    "Vmml.C117_degenerate_violated",
    "Vmml.C117_far_violated"
   ],
   "note": "Accuracy of both verdicts proved for finite planes (C117_sphere, C117_sphere_sound, C117_box). Refuted for degenerate planes: a NaN plane makes test_aabb cull every box and is ignored by test_sphere (C117_nan_violated); it arises from every matrix whose third and fourth row agree (C117_degenerate_violated), in particular from every frustum with near < u/4 far (C117_far_violated)."
  },
  {
   "property": "C118",
   "status": "proved",
   "theorems": [
    "Vmml.C118_setup",
    "Vmml.C118_sphere",
    "Vmml.C118_box",
    "Vmml.C118_bounds"
   ],
   "note": ""
  },
  {
   "property": "C119",
   "status": "proved",
   "theorems": [
    "Vmml.C119_perspective",
    "Vmml.C119_ortho",
    "Vmml.C119_bound",
    "Vmml.C119_depth"
   ],
   "note": ""
  },
  {
   "property": "C120",
   "status": "partial",
   "theorems": [
    "Vmml.C120_residual",
    "Vmml.C120_unit",
    "Vmml.C120_orthogonality",
    "Vmml.C120_orthogonality_violated"
   ],
   "note": "Proved: factorisation error, triangularity, unit columns, and an orthogonality inequality that shows the loss is proportional to 1/R(j,j). Refuted: orthogonality to working accuracy (C120_orthogonality_violated), because the code is classical Gram-Schmidt."
  },
  {
   "property": "C121",
   "status": "partial",
   "theorems": [
    "Vmml.C121_hit",
    "Vmml.C121_which",
    "Vmml.C121_forward",
    "Vmml.C121_miss",
    "Vmml.C121_direction",
    "Vmml.C121_nan_violated",
    "Vmml.C121_overflow_violated",
    "Vmml.C121_far_violated"
   ],
   "note": "Proved: residual of a hit, absence of deep hits on a miss, accuracy of the stored direction. Refuted: accuracy relative to the radius (C121_far_violated), overflow (C121_overflow_violated), NaN (C121_nan_violated)."
  },
  {
   "property": "C122",
   "status": "proved",
   "theorems": [
    "Vmml.C122_residual",
    "Vmml.C122_accurate",
    "Vmml.C122_affine",
    "Vmml.C122_ndc",
    "Vmml.C122_clip",
    "Vmml.C122_overflow"
   ],
   "note": "IEEE 754 formats with any precision and exponent range; the sums and products have the room stated in Spec.HomFits. C122_overflow shows what happens without it: the last row overflows and the coordinate is 0 although the exact quotient is 1/2."
  },
  {
   "property": "C123",
   "status": "proved",
   "theorems": [
    "Vmml.C123_less",
    "Vmml.C123_weak_order",
    "Vmml.C123_min",
    "Vmml.C123_max",
    "Vmml.C123_clamp",
    "Vmml.C123_tolerance",
    "Vmml.C123_vector_equals",
    "Vmml.C123_equals_laws",
    "Vmml.C123_matrix_equals",
    "Vmml.C123_equal",
    "Vmml.C123_matrix_min_max"
   ],
   "note": "The statement describes the behaviour of the code, the treatment of NaN by Vector::equals and the 0 in get_max included (these contradict C82 and C40, where they are refuted)."
  },
  {
   "property": "C124",
   "status": "proved",
   "theorems": [
    "Vmml.C124_squared",
    "Vmml.C124_pythag",
    "Vmml.C124_symmetric",
    "Vmml.C124_special",
    "Vmml.C124_sign"
   ],
   "note": "Accuracy without spurious overflow or underflow, symmetry, special values (including the NaN of two infinities and the lost NaN), squared and sign, for every IEEE format."
  },
  {
   "property": "C125",
   "status": "proved",
   "theorems": [
    "Vmml.C125_commute",
    "Vmml.C125_product_transpose",
    "Vmml.C125_even",
    "Vmml.C125_identity",
    "Vmml.C125_identity_infinite",
    "Vmml.C125_neutral",
    "Vmml.C125_length_monotone",
    "Vmml.C125_axis_length",
    "Vmml.C125_component_le_length",
    "Vmml.C125_not_associative"
   ],
   "note": "Bitwise laws for all values, numeric laws for finite values, monotonicity and exactness of length; failure of associativity as a theorem for every format and dimension."
  },
  {
   "property": "C126",
   "status": "proved",
   "theorems": [
    "Vmml.C126_cross",
    "Vmml.C126_cross_swap",
    "Vmml.C126_cross_self",
    "Vmml.C126_normal",
    "Vmml.C126_plane_distance",
    "Vmml.C126_project_plane",
    "Vmml.C126_plane_contains",
    "Vmml.C126_sphere_distance",
    "Vmml.C126_project_sphere"
   ],
   "note": "Forward error and finiteness for every format; exact antisymmetry of cross; the normal is split into the accuracy of the edge product and of the division by its length."
  },
  {
   "property": "C127",
   "status": "proved",
   "theorems": [
    "Vmml.C127_perspective",
    "Vmml.C127_symmetric_matrix",
    "Vmml.C127_adjust_symmetric",
    "Vmml.C127_adjust_near",
    "Vmml.C127_adjust_order",
    "Vmml.C127_jitter",
    "Vmml.C127_size"
   ],
   "note": "tan is an arbitrary function; everything else is the IEEE operation prescribed by the language."
  },
  {
   "property": "C128",
   "status": "proved",
   "theorems": [
    "Vmml.C128_sum",
    "Vmml.C128_columnwise_sum",
    "Vmml.C128_norm",
    "Vmml.C128_norm_relative",
    "Vmml.C128_norm_overflow",
    "Vmml.C128_min",
    "Vmml.C128_max",
    "Vmml.C128_abs",
    "Vmml.C128_counts"
   ],
   "note": "Fp model; the conversion to double is the exact widening (float->double) or the identity (double)."
  },
  {
   "property": "C129",
   "status": "proved",
   "theorems": [
    "Vmml.C129_dot",
    "Vmml.C129_squared_length",
    "Vmml.C129_matrix_product",
    "Vmml.C129_matrix_vector",
    "Vmml.C129_sum",
    "Vmml.C129_cross",
    "Vmml.C129_det",
    "Vmml.C129_inverse",
    "Vmml.C129_associative",
    "Vmml.C129_every_integer",
    "Vmml.C129_sharp"
   ],
   "note": "Exact up to the sign of zero (the statement is on the represented number)."
  },
  {
   "property": "C130",
   "status": "proved",
   "theorems": [
    "Vmml.C130_plane_order",
    "Vmml.C130_radius",
    "Vmml.C130_point",
    "Vmml.C130_extreme_radius",
    "Vmml.C130_mirror_sphere",
    "Vmml.C130_mirror_box",
    "Vmml.C130_box_order",
    "Vmml.C130_box_grow"
   ],
   "note": ""
  },
  {
   "property": "C131",
   "status": "proved",
   "theorems": [
    "Vmml.C131_dot",
    "Vmml.C131_product",
    "Vmml.C131_length",
    "Vmml.C131_normalize",
    "Vmml.C131_distance",
    "Vmml.C131_cross",
    "Vmml.C131_sphere",
    "Vmml.C131_exists"
   ],
   "note": ""
  },
  {
   "property": "C132",
   "status": "proved",
   "theorems": [
    "Vmml.C132_matrix_sphere",
    "Vmml.C132_matrix_box",
    "Vmml.C132_frustum_sphere",
    "Vmml.C132_frustum_box",
    "Vmml.C132_clip_volume",
    "Vmml.C132_ortho",
    "Vmml.C132_world_sphere",
    "Vmml.C132_world_box"
   ],
   "note": ""
  },
  {
   "property": "C133",
   "status": "proved",
   "theorems": [
    "Vmml.C133_widen",
    "Vmml.C133_round_trip",
    "Vmml.C133_widen_compare",
    "Vmml.C133_narrow",
    "Vmml.C133_narrow_order",
    "Vmml.C133_narrow_lex"
   ],
   "note": "Widening copies are exact, keep comparisons and round-trip; narrowing copies are nearest and order-preserving per component; a witness family shows that the lexicographic order of vectors is not preserved (a limit of the data type, not a bug)."
  },
  {
   "property": "C134",
   "status": "proved",
   "theorems": [
    "Vmml.C134_call",
    "Vmml.C134_history",
    "Vmml.C134_stays_rotation",
    "Vmml.C134_correctly_rounded",
    "Vmml.C134_single"
   ],
   "note": "The sine and cosine of the library are a parameter of accuracy sigma; one call, any history of calls from any matrix, closeness to a rotation, and a figure for float. C134_correctly_rounded shows that the accuracy hypothesis can be met."
  },
  {
   "property": "C135",
   "status": "proved",
   "theorems": [
    "Vmml.C135_float_patterns",
    "Vmml.C135_float_compare",
    "Vmml.C135_float_equal",
    "Vmml.C135_float_versus_components",
    "Vmml.C135_float_order",
    "Vmml.C135_double_patterns",
    "Vmml.C135_double_equal",
    "Vmml.C135_double_versus_components"
   ],
   "note": "Full characterisation of memcmp equality for both formats; the deviation from IEEE equality is the one recorded as violated in C09."
  },
  {
   "property": "C136",
   "status": "proved",
   "theorems": [
    "Vmml.C136_convolve",
    "Vmml.C136_average",
    "Vmml.C136_identity"
   ],
   "note": "Square matrices and kernels, where convolve works (C43 records the others as violated)."
  },
  {
   "property": "C137",
   "status": "partial",
   "theorems": [
    "Vmml.C137_codes",
    "Vmml.C137_monotone",
    "Vmml.C137_endpoints",
    "Vmml.C137_round_trip",
    "Vmml.C137_quantize",
    "Vmml.C137_constant_violated",
    "Vmml.C137_signed_codes",
    "Vmml.C137_signed_round_trip",
    "Vmml.C137_signed_monotone"
   ],
   "note": "C137_constant_violated: quantize() of a constant non-negative matrix divides 0 by 0 and converts NaN to long (undefined behaviour). Everything else is proved, for unsigned and (C137_signed_*) signed code types; the loss with signed types is that of C42."
  },
  {
   "property": "C138",
   "status": "partial",
   "theorems": [
    "Vmml.C138_codes",
    "Vmml.C138_monotone",
    "Vmml.C138_ends",
    "Vmml.C138_power_of_two",
    "Vmml.C138_wide_violated",
    "Vmml.C138_top_violated"
   ],
   "note": "C138_top_violated: range -7..7, bytes: 7 gets 254. C138_wide_violated: float to 32-bit (double to 64-bit) integers: the upper end is out of range of the cast, undefined behaviour. Asymmetric ranges are wrong already in exact arithmetic (C18)."
  },
  {
   "property": "C139",
   "status": "partial",
   "theorems": [
    "Vmml.C139_reciprocal",
    "Vmml.C139_reciprocal_twice",
    "Vmml.C139_reciprocal_safe",
    "Vmml.C139_reciprocal_safe_violated",
    "Vmml.C139_sqrt",
    "Vmml.C139_set_random",
    "Vmml.C139_perturb"
   ],
   "note": "C139_reciprocal_safe_violated: the reciprocal of the smallest positive number is infinite, so reciprocal_safe() does not always give finite results."
  },
  {
   "property": "C140",
   "status": "partial",
   "theorems": [
    "Vmml.C140_minors",
    "Vmml.C140_verdict",
    "Vmml.C140_sound",
    "Vmml.C140_complete",
    "Vmml.C140_accept",
    "Vmml.C140_nan_violated"
   ],
   "note": "Verdict, soundness, completeness and acceptance with explicit error bounds are proved for all formats and sizes 1-3. C140_nan_violated: a matrix whose first entry is NaN is accepted with every limit (every computed minor is NaN, and NaN is not below the limit)."
  },
  {
   "property": "C141",
   "status": "proved",
   "theorems": [
    "Vmml.C141_recover",
    "Vmml.C141_half_turn",
    "Vmml.C141_either",
    "Vmml.C141_half_turn_bound",
    "Vmml.C141_sqrt",
    "Vmml.C141_round_trip"
   ],
   "note": "Proved for all formats with 9 <= p < emax. The sign of the real part in two of the half-turn cases is the known defect of C54; here it shows as the extra sqrt(threshold) in C141_half_turn_bound."
  },
  {
   "property": "C142",
   "status": "proved",
   "theorems": [
    "Vmml.C142_overwrites",
    "Vmml.C142_rotate",
    "Vmml.C142_quaternion",
    "Vmml.C142_identity",
    "Vmml.C142_correctly_rounded",
    "Vmml.C142_normalize",
    "Vmml.C142_normalized"
   ],
   "note": "std::sin, std::cos and std::pow enter only through their accuracy sigma (parameter L); the standard instance, which rounds correctly, meets it with sigma = 4 u."
  },
  {
   "property": "C143",
   "status": "proved",
   "theorems": [
    "Vmml.C143_arc",
    "Vmml.C143_slerp",
    "Vmml.C143_correctly_rounded"
   ],
   "note": "Library functions are parameters with a stated accuracy; C143_correctly_rounded shows a correctly rounded library qualifies with sigma = u."
  },
  {
   "property": "C144",
   "status": "proved",
   "theorems": [
    "Vmml.C144_rotate",
    "Vmml.C144_rotation"
   ],
   "note": "The axis has the element type of the vector (TT = T). Library sine and cosine are parameters; sqrt is correctly rounded."
  },
  {
   "property": "C145",
   "status": "proved",
   "theorems": [
    "Vmml.C145_entries",
    "Vmml.C145_orthonormal"
   ],
   "note": "All sizes; the accuracy of the library's cosine is a hypothesis (Spec.Trig), met by the correctly rounded library."
  },
  {
   "property": "C146",
   "status": "proved",
   "theorems": [
    "Vmml.C146_translate_point",
    "Vmml.C146_scale_point",
    "Vmml.C146_create",
    "Vmml.C146_create_rotation",
    "Vmml.C146_apply_translation",
    "Vmml.C146_translations_add"
   ],
   "note": "The rotation matrix itself is covered by C142 and C144; here create_rotation is only shown to be the same call."
  },
  {
   "property": "C147",
   "status": "proved",
   "theorems": [
    "Vmml.C147_covariance_product",
    "Vmml.C147_covariance",
    "Vmml.C147_variance",
    "Vmml.C147_covariance_psd",
    "Vmml.C147_kronecker",
    "Vmml.C147_khatri_rao",
    "Vmml.C147_sum_rows",
    "Vmml.C147_sum_columns",
    "Vmml.C147_set_random"
   ],
   "note": ""
  },
  {
   "property": "C148",
   "status": "proved",
   "theorems": [
    "Vmml.C148_top",
    "Vmml.C148_sides",
    "Vmml.C148_angle",
    "Vmml.C148_monotone",
    "Vmml.C148_library"
   ],
   "note": "std::tan enters only through its accuracy tau (Spec.TanLib) and, for monotonicity, its monotonicity; the correctly rounded tangent meets the former with tau = u (C148_library). That the requested angle only results for a near plane at 1/2 is the code's behaviour (C63)."
  },
  {
   "property": "C149",
   "status": "proved",
   "theorems": [
    "Vmml.C149_right_product",
    "Vmml.C149_left_product",
    "Vmml.C149_round_trip"
   ],
   "note": ""
  },
  {
   "property": "C150",
   "status": "proved",
   "theorems": [
    "Vmml.C150_chain",
    "Vmml.C150_vector"
   ],
   "note": ""
  },
  {
   "property": "C151",
   "status": "proved",
   "theorems": [
    "Vmml.C151_plane",
    "Vmml.C151_sphere",
    "Vmml.C151_sphere_sound",
    "Vmml.C151_box"
   ],
   "note": ""
  },
  {
   "property": "C152",
   "status": "proved",
   "theorems": [
    "Vmml.C152_history",
    "Vmml.C152_valid",
    "Vmml.C152_commute",
    "Vmml.C152_overwritten"
   ],
   "note": ""
  },
  {
   "property": "C153",
   "status": "proved",
   "theorems": [
    "Vmml.C153_vector_operators",
    "Vmml.C153_dot",
    "Vmml.C153_matrix_vector",
    "Vmml.C153_matrix_product",
    "Vmml.C153_sums",
    "Vmml.C153_frobenius",
    "Vmml.C153_convolve",
    "Vmml.C153_filter"
   ],
   "note": "Proved for every format and every operand; where one of the two results is NaN nothing is claimed. sum_elements, frobenius_norm and convolve with any accumulation format. convolve for all sizes: on non-square shapes, where it is broken (C43), both calls end alike."
  },
  {
   "property": "C154",
   "status": "proved",
   "theorems": [
    "Vmml.C154_isolated",
    "Vmml.C154_progress",
    "Vmml.C154_race_free",
    "Vmml.C154_const_calls",
    "Vmml.C154_writing_calls",
    "Vmml.C154_merge_call",
    "Vmml.C154_query_calls",
    "Vmml.C154_matrix_calls",
    "Vmml.C154_sequence",
    "Vmml.C154_shared_operand",
    "Vmml.C154_lost_update"
   ],
   "note": "Interleaving semantics element access by element access; that this is what C++ guarantees rests on the absence of data races, which C154_race_free proves under the same separation. C154_lost_update is the witness that the separation is needed (the library does no locking), not a defect. A selection of the calls is modelled at this level; each is proved to be the function of the other model files when it runs alone."
  },
  {
   "property": "C155",
   "status": "proved",
   "theorems": [
    "Vmml.C155_sphere",
    "Vmml.C155_box",
    "Vmml.C155_slope",
    "Vmml.C155_angle"
   ],
   "note": "set_perspective ignores the near distance in the extents (C63), so the pyramid it describes has the slope tan(fov/2)/(2 near); C155_angle: for near = 1/2 it is the requested angle. DeepInView and NearlyInView are the specification: a pyramid given by the arguments, no quantity computed by the library."
  },
  {
   "property": "C156",
   "status": "proved",
   "theorems": [
    "Vmml.C156_atomic",
    "Vmml.C156_exclusive",
    "Vmml.C156_finish",
    "Vmml.C156_finished",
    "Vmml.C156_merge",
    "Vmml.C156_sum"
   ],
   "note": "One lock held around each call; memory is sequentially consistent, one access per step, as in C154. The contrast without the lock is C154_lost_update."
  },
  {
   "property": "C157",
   "status": "proved",
   "theorems": [
    "Vmml.C157_sphere",
    "Vmml.C157_box"
   ],
   "note": "The slope of the described pyramid is tan(fov/2)/(2 near), as in C155, because set_perspective ignores the near distance (C63). The margins grow with the largest camera coordinates that objects of the given extent can reach."
  },
  {
   "property": "C158",
   "status": "proved",
   "theorems": [
    "Vmml.C158_mesh"
   ],
   "note": ""
  },
  {
   "property": "C159",
   "status": "partial",
   "theorems": [
    "Vmml.C159_exact",
    "Vmml.C159_sound",
    "Vmml.C159_complete",
    "Vmml.C159_complete_double",
    "Vmml.C159_tiny_violated",
    "Vmml.C159_huge_violated",
    "Vmml.C159_float"
   ],
   "note": "The exact criterion, soundness and completeness are proved. Violated with double elements: is_akin calls fabsf, so non-zero differences below half the smallest float are accepted with tolerance 0 (C159_tiny_violated) and differences beyond the range of float are rejected with any tolerance (C159_huge_violated)."
  },
  {
   "property": "C160",
   "status": "proved",
   "theorems": [
    "Vmml.C160_rows",
    "Vmml.C160_columns",
    "Vmml.C160_accepts_inverted",
    "Vmml.C160_margin",
    "Vmml.C160_nan"
   ],
   "note": "The functors with a tolerance at every IEEE format. C160_nan: a NaN passes against everything (the test is written `fabs(a-b) >= tolerance`), so the claim 'accepted matrices are close' needs finite entries, as stated in C160_margin."
  },
  {
   "property": "C161",
   "status": "proved",
   "theorems": [
    "Vmml.C161_product",
    "Vmml.C161_setup",
    "Vmml.C161_verdict",
    "Vmml.C161_culling",
    "Vmml.C161_merge_order",
    "Vmml.C161_mesh_order",
    "Vmml.C161_reciprocal"
   ],
   "note": "No hypothesis on the numbers: NaN and infinities included. C161_reciprocal shows that the relation is not trivial: another operation of the library separates the zeros."
  },
  {
   "property": "C162",
   "status": "proved",
   "theorems": [
    "Vmml.C162_cube",
    "Vmml.C162_complete",
    "Vmml.C162_sound",
    "Vmml.C162_monotone"
   ],
   "note": "Containment in the cube at every IEEE format, exact criterion and its consequences; overflowing corners included."
  },
  {
   "property": "C163",
   "status": "proved",
   "theorems": [
    "Vmml.C163_error",
    "Vmml.C163_zero",
    "Vmml.C163_signs"
   ],
   "note": "Error, lower bound, zero test and independence of signs for manhattan at every IEEE format."
  },
  {
   "property": "C164",
   "status": "proved",
   "theorems": [
    "Vmml.C164_min_max",
    "Vmml.C164_equals",
    "Vmml.C164_large",
    "Vmml.C164_small"
   ],
   "note": "FLT_EPSILON is 2 u of float; for double arguments the tolerance is still FLT_EPSILON, covered by C164_equals and C164_small with that eps."
  }
 ]
}