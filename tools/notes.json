{
 "C06": {
  "note": "The value, orthogonality, anticommutativity, Lagrange and Jacobi identities are proved for all vectors; the two-argument member form is proved for a target distinct from both operands, and shown wrong when the target is an operand (C06_cross_alias_violated)."
 },
 "C09": {
  "note": "operator== is memcmp: proved to be representation equality (an equivalence) for every element type; the IEEE expectations (0.0 == -0.0, NaN != NaN) are refuted by C09_signed_zero_violated and C09_nan_violated."
 },
 "C12": {
  "note": "find_min/find_max/find_*_index and find_abs_min_index are proved; find_abs_max(_index) is refuted: it returns the least absolute value."
 },
 "C17": {
  "note": "compute_normal is proved; compute_plane is refuted for the unit-normal clause (the normal is never normalised); points on plane and orientation are proved."
 },
 "C18": {
  "note": "scale_to is affine with the proved coefficients; the claimed mapping of [min,max] holds only when min = -max (C18_scale_to_violated)."
 },
 "C20": {
  "note": "at() and operator() are proved in full (bounds, layout, store law, histories). operator[][] is proved for all indices except row == M, where the code tests row_index > M instead of >=: no exception is raised (C20_bracket_row_M_violated)."
 },
 "C26": {
  "note": "Proved for every right operand that is a different object; A *= A is refuted by a witness (the right operand is read while being overwritten). The entrywise compound operators are proved for aliased operands too."
 },
 "C28": {
  "note": "The statement is proved in full (all sizes, distinct objects). C28_self_transpose_violated is an additional fact outside the statement: m.transpose_to(m) on one object does not transpose.",
  "status": "proved"
 },
 "C30": {
  "note": "3x3 and 4x4 proved in full, 2x2 for every positive tolerance; the 2x2 code uses < instead of <=, so with tolerance 0 a singular matrix is reported invertible (C30_inverse2_singular_violated). In-place use (target == operand) is covered by C86."
 },
 "C32": {
  "note": "The code computes v[r]*u[c] (the transposed outer product): refuted; the value it does compute is proved for square matrices, and for M < N it is shown to read outside the vectors."
 },
 "C33": {
  "note": "Refuted: negate() ignores *this and returns minus the default-constructed matrix. What it returns is proved."
 },
 "C37": {
  "note": "rotate_k proved in full; pre_rotate_k is proved to left-multiply by the rotation by the opposite angle, so the claim about pre_rotate_k is refuted."
 },
 "C38": {
  "note": "Proved for 4x4 matrices (the only size for which the setters compile) and, for get_translation, all sizes with M >= N-1. C38_get_translation_short_violated is an additional fact: for fewer rows get_translation reads past the array.",
  "status": "proved"
 },
 "C40": {
  "note": "get_min, get_abs_min, get_abs_max proved; get_max proved if some element is >= 0, refuted for all-negative matrices (it starts from 0)."
 },
 "C42": {
  "note": "Codes in range proved for every integer type; round-trip error bound proved for unsigned codes and for signed codes with symmetric bounds; refuted for signed codes in general."
 },
 "C43": {
  "note": "Proved for square matrices and square kernels; for other shapes the code is shown to compute with swapped bounds or read out of range."
 },
 "C47": {
  "note": "Proved for file names ending in raw, exactly when the first chunk (bytes modulo 2^31 - sizeof(T)) is a whole number of elements: always for sizes dividing 2^31 and for smaller data (C47_sizes). Refuted for other names (write appends .raw, read does not; C87 has the exact set of names) and for large data with other chunk sizes (elements come from the uninitialised buffer)."
 },
 "C49": {
  "note": "Tolerance forms proved in full; the exact forms are proved to compare representations (memcmp), which differs from value comparison for signed zeros (C49_signed_zero_violated)."
 },
 "C50": {
  "note": "Proved: true iff every leading principal minor is >= limit; hence, for symmetric matrices of any size (Sylvester's criterion is proved here), sound for every limit > 0 and complete for every limit <= 0; exact characterisation in C50_exact. With the default limit (-1e12) indefinite matrices are accepted (C50_violated)."
 },
 "C54": {
  "note": "Proved for the trace branch and characterised exactly on the fallback branches: there w gets the wrong sign unless the second diagonal element is largest (C54_witness_violated)."
 },
 "C56": {
  "note": "+ and compound -=, *= proved; - and * are refuted (components passed in the order w,x,y,z), += refuted (adds z to y)."
 },
 "C58": {
  "note": "cross proved; the normal helpers are refuted (they discard the cross products)."
 },
 "C63": {
  "note": "Near, far, symmetry and aspect proved; the vertical angle is the requested one iff near = 1/2 (C63_angle_violated)."
 },
 "C68": {
  "note": "Planes, volume, box decisions and soundness for spheres proved; agreement of sphere decisions refuted for every frustum (normals shorter than 1)."
 },
 "C69": {
  "note": "Proved for every history starting from the default-constructed box, every linearly ordered element type; setEmpty() of integer boxes is refuted as a starting point."
 },
 "C71": {
  "note": "isEmpty compares min z with max x: characterised exactly and refuted as emptiness test; default-constructed box proved empty; a single merged point is refuted as non-empty."
 },
 "C73": {
  "note": "Proved over fields; getCenter of integer boxes returns the lower corner (0.5 converted to 0), C73_int_center_violated."
 },
 "C74": {
  "note": "Hit/miss and distance proved for every origin not on the surface; from the surface the far intersection is reported (C74_surface_violated). Zero direction covered by C74_zero_direction."
 },
 "C77": {
  "note": "Proved for all M >= N matrices with independent columns; the additional facts C77_wide and C77_singular_violated show what happens outside that hypothesis.",
  "status": "proved"
 },
 "C80": {
  "note": "Vector traits proved; matrix traits are refuted (row and column exchanged), proved for the transposed cell."
 },
 "C82": {
  "note": "Matrix equals and arithmetic propagation proved; the other predicates accept NaN: refuted one by one. clamp proved for non-NaN components."
 },
 "C83": {
  "note": "Precision restored and flags superset proved; exact restoration of flags refuted when an adjustment flag other than right was set."
 },
 "C59": {
  "note": "operator==/!= and is_akin for T = float proved in full. For double, is_akin narrows the differences to float first: proved within the relative rounding error (C59_is_akin_double), refuted exactly (C59_is_akin_double_violated)."
 },
 "C86": {
  "note": "Refuted for every size: the exact set of 2x2 matrices for which it works is characterised; for 3x3 all invertible diagonal matrices are characterised; singular matrices are reported as inverted in 3x3 and 4x4."
 },
 "C87": {
  "note": "Names proved for all directories and names; the text and file written by write_csv_file proved; read_csv_file opens the file but never reads it, so the round trip is refuted."
 },
 "C89": {
  "note": "Everything proved except the order of the four-scalar set: declared as set( ww, xx, yy, zz ), defined as set( xx, yy, zz, ww )."
 },
 "C95": {
  "note": "Proved for all listed functions; refuted for set_sub_matrix, whose partial effect before the throw is stated exactly (C95_set_sub_matrix_effect)."
 },
 "C98": {
  "note": "Iteration, pointers, sizes, corner references proved for all sizes. Refuted: equals() with the default tolerance of integer types (zero, strict comparison), and quaternion, matrix and frustum self-assignment (memcpy onto itself)."
 },
 "C103": {
  "note": "Proved for sum_rows, sum_columns and read_from_raw of an openable file; refuted for read_from_raw of a file that cannot be opened: its buffer is never released. std::bad_alloc is not modelled."
 },
 "C105": {
  "note": "setMin, setMax, merge(point), merge(box) proved for all overlaps; set(pMin, pMax) proved unless pMax is the box's own lower corner and pMin is not; in exactly those cases it is refuted: set(p, b.getMin()) stores p in both corners."
 },
 "C108": {
  "note": "On IEEE 754 values of any binary format (Model/Float.lean), with overflow, underflow, infinities and NaN."
 },
 "C109": {
  "note": "The code squares without scaling: for finite vectors of large (2^64 in float) or tiny components normalize gives the zero vector or does nothing (C109_overflow, C109_underflow); C109_normalize proves accuracy when the squared length is in the normal range."
 },
 "C110": {
  "note": "Accuracy, flag and finiteness proved in range (C110_det, C110_inverse, C110_flag, C110_error). Out of range, as the statement says: an overflowing determinant or a non-finite entry makes inverse return true with zeros and NaNs (C110_overflow, C110_nonfinite, C110_scaling)."
 },
 "C111": {
  "note": "Exactness of merge, isIn and the bounding box, and the centre in range are proved, and the failures the statement names: the centre of a box whose extent overflows (C111_center_overflow), NaN points are in every box (C111_isIn_nan), NaN corners stay (C111_nan_corner)."
 },
 "C117": {
  "note": "Accuracy of both verdicts proved for finite planes (C117_sphere, C117_sphere_sound, C117_box). Refuted for degenerate planes: a NaN plane makes test_aabb cull every box and is ignored by test_sphere (C117_nan_violated); it arises from every matrix whose third and fourth row agree (C117_degenerate_violated), in particular from every frustum with near < u/4 far (C117_far_violated)."
 },
 "C120": {
  "note": "Proved: factorisation error, triangularity, unit columns, and an orthogonality inequality that shows the loss is proportional to 1/R(j,j). Refuted: orthogonality to working accuracy (C120_orthogonality_violated), because the code is classical Gram-Schmidt."
 },
 "C121": {
  "note": "Proved: residual of a hit, absence of deep hits on a miss, accuracy of the stored direction. Refuted: accuracy relative to the radius (C121_far_violated), overflow (C121_overflow_violated), NaN (C121_nan_violated)."
 },
 "C122": {
  "note": "IEEE 754 formats with any precision and exponent range; the sums and products have the room stated in Spec.HomFits. C122_overflow shows what happens without it: the last row overflows and the coordinate is 0 although the exact quotient is 1/2."
 },
 "C123": {
  "note": "The statement describes the behaviour of the code, the treatment of NaN by Vector::equals and the 0 in get_max included (these contradict C82 and C40, where they are refuted)."
 },
 "C124": {
  "note": "Accuracy without spurious overflow or underflow, symmetry, special values (including the NaN of two infinities and the lost NaN), squared and sign, for every IEEE format."
 },
 "C125": {
  "note": "Bitwise laws for all values, numeric laws for finite values, monotonicity and exactness of length; failure of associativity as a theorem for every format and dimension."
 },
 "C126": {
  "note": "Forward error and finiteness for every format; exact antisymmetry of cross; the normal is split into the accuracy of the edge product and of the division by its length."
 },
 "C127": {
  "note": "tan is an arbitrary function; everything else is the IEEE operation prescribed by the language."
 },
 "C128": {
  "note": "Fp model; the conversion to double is the exact widening (float->double) or the identity (double)."
 },
 "C129": {
  "note": "Exact up to the sign of zero (the statement is on the represented number)."
 },
 "C133": {
  "note": "Widening copies are exact, keep comparisons and round-trip; narrowing copies are nearest and order-preserving per component; a witness family shows that the lexicographic order of vectors is not preserved (a limit of the data type, not a bug)."
 },
 "C134": {
  "note": "The sine and cosine of the library are a parameter of accuracy sigma; one call, any history of calls from any matrix, closeness to a rotation, and a figure for float. C134_correctly_rounded shows that the accuracy hypothesis can be met."
 },
 "C135": {
  "note": "Full characterisation of memcmp equality for both formats; the deviation from IEEE equality is the one recorded as violated in C09."
 },
 "C136": {
  "note": "Square matrices and kernels, where convolve works (C43 records the others as violated)."
 },
 "C137": {
  "note": "C137_constant_violated: quantize() of a constant non-negative matrix divides 0 by 0 and converts NaN to long (undefined behaviour). Everything else is proved, for unsigned and (C137_signed_*) signed code types; the loss with signed types is that of C42."
 },
 "C138": {
  "note": "C138_top_violated: range -7..7, bytes: 7 gets 254. C138_wide_violated: float to 32-bit (double to 64-bit) integers: the upper end is out of range of the cast, undefined behaviour. Asymmetric ranges are wrong already in exact arithmetic (C18)."
 },
 "C139": {
  "note": "C139_reciprocal_safe_violated: the reciprocal of the smallest positive number is infinite, so reciprocal_safe() does not always give finite results."
 },
 "C140": {
  "note": "Verdict, soundness, completeness and acceptance with explicit error bounds are proved for all formats and sizes 1-3. C140_nan_violated: a matrix whose first entry is NaN is accepted with every limit (every computed minor is NaN, and NaN is not below the limit)."
 },
 "C141": {
  "note": "Proved for all formats with 9 <= p < emax. The sign of the real part in two of the half-turn cases is the known defect of C54; here it shows as the extra sqrt(threshold) in C141_half_turn_bound."
 },
 "C142": {
  "note": "std::sin, std::cos and std::pow enter only through their accuracy sigma (parameter L); the standard instance, which rounds correctly, meets it with sigma = 4 u."
 },
 "C143": {
  "note": "Library functions are parameters with a stated accuracy; C143_correctly_rounded shows a correctly rounded library qualifies with sigma = u."
 },
 "C144": {
  "note": "The axis has the element type of the vector (TT = T). Library sine and cosine are parameters; sqrt is correctly rounded."
 },
 "C145": {
  "note": "All sizes; the accuracy of the library's cosine is a hypothesis (Spec.Trig), met by the correctly rounded library."
 },
 "C146": {
  "note": "The rotation matrix itself is covered by C142 and C144; here create_rotation is only shown to be the same call."
 },
 "C148": {
  "note": "std::tan enters only through its accuracy tau (Spec.TanLib) and, for monotonicity, its monotonicity; the correctly rounded tangent meets the former with tau = u (C148_library). That the requested angle only results for a near plane at 1/2 is the code's behaviour (C63)."
 },
 "C153": {
  "note": "Proved for every format and every operand; where one of the two results is NaN nothing is claimed. sum_elements, frobenius_norm and convolve with any accumulation format. convolve for all sizes: on non-square shapes, where it is broken (C43), both calls end alike."
 },
 "C154": {
  "note": "Interleaving semantics element access by element access; that this is what C++ guarantees rests on the absence of data races, which C154_race_free proves under the same separation. C154_lost_update is the witness that the separation is needed (the library does no locking), not a defect. A selection of the calls is modelled at this level; each is proved to be the function of the other model files when it runs alone."
 },
 "C155": {
  "note": "set_perspective ignores the near distance in the extents (C63), so the pyramid it describes has the slope tan(fov/2)/(2 near); C155_angle: for near = 1/2 it is the requested angle. DeepInView and NearlyInView are the specification: a pyramid given by the arguments, no quantity computed by the library."
 },
 "C156": {
  "note": "One lock held around each call; memory is sequentially consistent, one access per step, as in C154. The contrast without the lock is C154_lost_update."
 },
 "C157": {
  "note": "The slope of the described pyramid is tan(fov/2)/(2 near), as in C155, because set_perspective ignores the near distance (C63). The margins grow with the largest camera coordinates that objects of the given extent can reach."
 },
 "C159": {
  "note": "The exact criterion, soundness and completeness are proved. Violated with double elements: is_akin calls fabsf, so non-zero differences below half the smallest float are accepted with tolerance 0 (C159_tiny_violated) and differences beyond the range of float are rejected with any tolerance (C159_huge_violated)."
 },
 "C160": {
  "note": "The functors with a tolerance at every IEEE format. C160_nan: a NaN passes against everything (the test is written `fabs(a-b) >= tolerance`), so the claim 'accepted matrices are close' needs finite entries, as stated in C160_margin."
 },
 "C161": {
  "note": "No hypothesis on the numbers: NaN and infinities included. C161_reciprocal shows that the relation is not trivial: another operation of the library separates the zeros."
 },
 "C162": {
  "note": "Containment in the cube at every IEEE format, exact criterion and its consequences; overflowing corners included."
 },
 "C163": {
  "note": "Error, lower bound, zero test and independence of signs for manhattan at every IEEE format."
 },
 "C164": {
  "note": "FLT_EPSILON is 2 u of float; for double arguments the tolerance is still FLT_EPSILON, covered by C164_equals and C164_small with that eps."
 }
}