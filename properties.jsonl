{"id": "C01", "title": "Vector element access: bounds, get/set law, frame", "statement": "Reading component i of a Vector<M,T> after writing x to component i gives x and leaves every other component unchanged; at(), operator() and (from the public API with index < M) operator[] agree. With VMMLIB_SAFE_ACCESSORS and VMMLIB_THROW_EXCEPTIONS an index >= M always raises an exception and changes nothing; without SAFE_ACCESSORS it is an out-of-bounds access, and an in-range index never faults under any configuration. x,y,z,w / r,g,b,a name components 0..3.", "quantifier": "every dimension M, element type T, vector, index, value and build configuration", "why_tests_cant": "infinitely many dimensions, types and index values; the fault behaviour differs per build configuration and UB is not observable by a test", "anchors": ["vmmlib/vector.hpp: at", "vmmlib/vector.hpp: operator()", "vmmlib/vector.hpp: x", "vmmlib/vector.hpp: y", "vmmlib/vector.hpp: z", "vmmlib/vector.hpp: w", "vmmlib/vector.hpp: r", "vmmlib/vector.hpp: g", "vmmlib/vector.hpp: b", "vmmlib/vector.hpp: a", "vmmlib/exception.hpp: VMMLIB_ERROR"]}
{"id": "C02", "title": "Vector as a store: any write history", "statement": "After any sequence of component writes the vector reads back, at every index, the last value written there (or the initial value), whatever the order and length of the history, and two histories whose writes agree index by index on last-write give equal vectors.", "quantifier": "every M, T, initial vector and every finite history of writes", "why_tests_cant": "unbounded histories", "anchors": ["vmmlib/vector.hpp: at", "vmmlib/vector.hpp: operator=", "vmmlib/vector.hpp: operator=="]}
{"id": "C03", "title": "Element-wise vector arithmetic", "statement": "v+w, v-w, v*w, v/w, v op scalar, unary minus and the compound forms compute exactly the componentwise operation for every component, never fault, and do not change their operands other than *this; compound forms give the same answer when the right operand is *this (v+=v, v-=v, v*=v, v/=v).", "quantifier": "every M, T, operands, including aliasing right operand", "why_tests_cant": "all dimensions and all values; aliasing patterns", "anchors": ["vmmlib/vector.hpp: operator+", "vmmlib/vector.hpp: operator-", "vmmlib/vector.hpp: operator*", "vmmlib/vector.hpp: operator/", "vmmlib/vector.hpp: operator+=", "vmmlib/vector.hpp: operator-=", "vmmlib/vector.hpp: operator*=", "vmmlib/vector.hpp: operator/=", "vmmlib/vector.hpp: negate"]}
{"id": "C04", "title": "Vector space laws", "statement": "Addition is commutative and associative with the zero vector neutral, v-v is zero, scalar multiplication distributes; (v+w)-w = v, -(-v)=v. Holds for all exact commutative-ring scalars (unsigned machine integers included).", "quantifier": "every M, every commutative ring of scalars, all vectors and scalars", "why_tests_cant": "algebraic identities over an infinite domain", "anchors": ["vmmlib/vector.hpp: operator+", "vmmlib/vector.hpp: operator-", "vmmlib/vector.hpp: operator*", "vmmlib/vector.hpp: negate"]}
{"id": "C05", "title": "dot, length, distance", "statement": "dot is the sum of componentwise products and is bilinear and symmetric; squared_length = v.dot(v) >= 0; length is its nonnegative square root, zero only for the zero vector; |v.w| <= length(v) length(w); triangle inequality; distance is a metric (symmetric, zero iff equal, triangle).", "quantifier": "every M and all real vectors", "why_tests_cant": "inequalities over an infinite domain and every dimension", "anchors": ["vmmlib/vector.hpp: dot", "vmmlib/vector.hpp: length", "vmmlib/vector.hpp: squared_length", "vmmlib/vector.hpp: distance", "vmmlib/vector.hpp: squared_distance"]}
{"id": "C06", "title": "Cross product", "statement": "cross(a,b) equals (ay bz - az by, az bx - ax bz, ax by - ay bx), is orthogonal to both operands, anticommutative, satisfies Lagrange and Jacobi; the one-argument member form gives the same result; the two-argument member form a.cross(b,c) gives b x c also when this is one of the operands.", "quantifier": "all 3-vectors over every commutative ring; all aliasing patterns of (this,a,b)", "why_tests_cant": "infinite domain; aliasing patterns", "anchors": ["vmmlib/vector.hpp: cross"]}
{"id": "C07", "title": "normalize", "statement": "For a nonzero vector normalize makes the length 1, keeps direction (v = len * unit) and returns the old length; the zero vector is unchanged and 0 is returned; a second normalize changes nothing.", "quantifier": "every M, all real vectors", "why_tests_cant": "infinite domain, every dimension", "anchors": ["vmmlib/vector.hpp: normalize"]}
{"id": "C08", "title": "operator< is a strict total order", "statement": "operator< is the lexicographic order on components: irreflexive, transitive, total (exactly one of a<b, a==b, b<a), so vectors can be used as std::set/std::map keys.", "quantifier": "every M and every linearly ordered scalar type", "why_tests_cant": "transitivity ranges over all triples", "anchors": ["vmmlib/vector.hpp: operator<"]}
{"id": "C09", "title": "operator== on vectors", "statement": "v==w iff all components have equal representation; it is an equivalence relation; != is its negation. For IEEE elements users expect value comparison: 0.0 == -0.0 and NaN != NaN.", "quantifier": "every M, T, all vectors; IEEE special values", "why_tests_cant": "all pairs; IEEE special values need a model of representation", "anchors": ["vmmlib/vector.hpp: operator==", "vmmlib/vector.hpp: operator!="]}
{"id": "C10", "title": "equals with tolerance", "statement": "v.equals(w,tol) holds iff every componentwise difference is smaller than tol in absolute value; reflexive for tol>0, symmetric, and approximate-transitive (tolerances add).", "quantifier": "every M, all vectors and tolerances", "why_tests_cant": "infinite domain", "anchors": ["vmmlib/vector.hpp: equals"]}
{"id": "C11", "title": "Homogeneous conversion round trip", "statement": "Assigning an (M-1)-vector to an M-vector appends 1; assigning an M-vector to an (M-1)-vector divides by the last component; converting up and then down gives back the original vector; scaling the homogeneous vector by k != 0 does not change the down-conversion.", "quantifier": "every M>=1 and all real vectors", "why_tests_cant": "infinite domain, every M", "anchors": ["vmmlib/vector.hpp: operator=( const Vector< N, T >& )", "vmmlib/vector.hpp: operator=( const Vector< M+1, T >& )"]}
{"id": "C12", "title": "find_min / find_max and index queries", "statement": "find_min/find_max return the least/greatest component; find_min_index/find_max_index return the first index attaining it; find_abs_min_index returns the first index of least absolute value and find_abs_max_index the first index of greatest absolute value.", "quantifier": "every M>=1, all vectors", "why_tests_cant": "all permutations and ties at every dimension", "anchors": ["vmmlib/vector.hpp: find_min", "vmmlib/vector.hpp: find_max", "vmmlib/vector.hpp: find_min_index", "vmmlib/vector.hpp: find_max_index", "vmmlib/vector.hpp: find_abs_min_index", "vmmlib/vector.hpp: find_abs_max_index"]}
{"id": "C13", "title": "clamp", "statement": "After clamp(lo,hi) with lo<=hi every component lies in [lo,hi], components already inside are unchanged, clamping is idempotent and monotone.", "quantifier": "every M, all vectors over any linear order, all bounds", "why_tests_cant": "infinite domain", "anchors": ["vmmlib/vector.hpp: clamp"]}
{"id": "C14", "title": "Sub-vectors and set", "statement": "get_sub_vector<N>(offset) returns components offset..offset+N-1 for every offset with offset+N<=M; set(Vector<N>) copies the first min(M,N) components and leaves the rest; Vector(vec,last) is the concatenation; set(fill) sets everything.", "quantifier": "every M,N, offset, vectors", "why_tests_cant": "all dimension pairs and offsets", "anchors": ["vmmlib/vector.hpp: get_sub_vector", "vmmlib/vector.hpp: set", "vmmlib/vector.hpp: Vector( const Vector< M-1, T >&, T )"]}
{"id": "C15", "title": "Vector rotate", "statement": "v.rotate(theta,axis) about a nonzero axis preserves length and the component along the axis, fixes the axis, agrees with the rotation matrix built by Matrix::rotate's formula, and composes additively in theta about the same axis.", "quantifier": "all angles, nonzero axes and real vectors", "why_tests_cant": "infinite domain", "anchors": ["vmmlib/vector.hpp: rotate"]}
{"id": "C16", "title": "Sphere and plane helpers", "statement": "distance_to_sphere is distance to centre minus radius; project_point_onto_sphere lies on the sphere and on the ray from the centre; distance_to_plane is the signed plane equation; project_point_onto_plane lies on the plane (for a unit normal) and the displacement is normal to it.", "quantifier": "all points, spheres, planes with unit normals", "why_tests_cant": "infinite domain", "anchors": ["vmmlib/vector.hpp: project_point_onto_sphere", "vmmlib/vector.hpp: distance_to_sphere", "vmmlib/vector.hpp: distance_to_plane", "vmmlib/vector.hpp: project_point_onto_plane"]}
{"id": "C17", "title": "compute_normal and compute_plane", "statement": "compute_normal(a,b,c) is the unit normal of the triangle; compute_plane(a,b,c) is a plane with unit normal on which a, b and c all lie.", "quantifier": "all non-degenerate triangles", "why_tests_cant": "infinite domain", "anchors": ["vmmlib/vector.hpp: compute_normal", "vmmlib/vector.hpp: compute_plane"]}
{"id": "C18", "title": "scale_to", "statement": "scale_to(result,min_value,max_value) maps every component affinely so that min_value goes to 0 and max_value goes to the greatest value of the target element type, and always returns a full result.", "quantifier": "every M, every vector, every range min_value < max_value", "why_tests_cant": "infinite domain", "anchors": ["vmmlib/vector.hpp: scale_to"]}
{"id": "C19", "title": "Small vector utilities", "statement": "product is the product of all components; nnz counts nonzero components; reciprocal/reciprocal_safe, sqrt_elementwise are componentwise; norm equals length; reciprocal is an involution on vectors without zero component.", "quantifier": "every M, all vectors", "why_tests_cant": "infinite domain", "anchors": ["vmmlib/vector.hpp: product", "vmmlib/vector.hpp: nnz", "vmmlib/vector.hpp: reciprocal", "vmmlib/vector.hpp: reciprocal_safe", "vmmlib/vector.hpp: sqrt_elementwise", "vmmlib/vector.hpp: norm", "vmmlib/vector.hpp: is_unit_vector"]}
{"id": "C20", "title": "Matrix element access, layout and bounds", "statement": "at(row,col) reads/writes exactly one cell, distinct (row,col) name distinct cells (column-major), reads after writes behave as a two-dimensional store; with SAFE_ACCESSORS+THROW_EXCEPTIONS every out-of-range row or column index raises an exception through at(), operator() and operator[][].", "quantifier": "every M,N, T, indices, configuration and write history", "why_tests_cant": "all sizes and indices; UB unobservable", "anchors": ["vmmlib/matrix.hpp: at", "vmmlib/matrix.hpp: operator()", "vmmlib/matrix.hpp: operator[]", "vmmlib/matrix.hpp: row_accessor"]}
{"id": "C21", "title": "Default construction and constants", "statement": "A default-constructed square matrix is the identity, a non-square one is zero; identity()/zero() set the matrix accordingly; IDENTITY and ZERO hold those values; A*IDENTITY = A = IDENTITY*A.", "quantifier": "every M,N, T", "why_tests_cant": "all sizes", "anchors": ["vmmlib/matrix.hpp: Matrix()", "vmmlib/matrix.hpp: zero", "vmmlib/matrix.hpp: identity", "vmmlib/matrix.hpp: ZERO", "vmmlib/matrix.hpp: IDENTITY"]}
{"id": "C22", "title": "Bulk construction from sequences", "statement": "set(begin,end,row_major=true) fills row by row from the sequence, row_major=false fills column by column, reading back row-major recovers the sequence; assigning an std::vector shorter than M*N raises an error and leaves the matrix unchanged; assignment from T* reads exactly M*N elements row-major.", "quantifier": "every M,N, sequence (any length), flag", "why_tests_cant": "all sizes and sequence lengths", "anchors": ["vmmlib/matrix.hpp: set( input_iterator_t, input_iterator_t, bool )", "vmmlib/matrix.hpp: operator=( const std::vector< T >& )", "vmmlib/matrix.hpp: operator=( const T* )", "vmmlib/matrix.hpp: operator=( T (&)[ M ][ N ] )"]}
{"id": "C23", "title": "Assignment between sizes", "statement": "Assigning a P x Q matrix to an M x N one copies the overlapping top-left block (casting each element) and fills the rest with zero.", "quantifier": "every M,N,P,Q, all matrices", "why_tests_cant": "all size combinations", "anchors": ["vmmlib/matrix.hpp: operator=( const Matrix< P, Q, U >& )"]}
{"id": "C24", "title": "Row, column and block access", "statement": "get_row/get_column/get_sub_matrix return what set_row/set_column/set_sub_matrix stored, setting one row/column/block changes no cell outside it, and out-of-range indices or blocks that do not fit raise an error when SAFE_ACCESSORS is on.", "quantifier": "every M,N,O,P, indices, matrices", "why_tests_cant": "all sizes, offsets", "anchors": ["vmmlib/matrix.hpp: get_row", "vmmlib/matrix.hpp: set_row", "vmmlib/matrix.hpp: get_column", "vmmlib/matrix.hpp: set_column", "vmmlib/matrix.hpp: get_sub_matrix", "vmmlib/matrix.hpp: set_sub_matrix"]}
{"id": "C25", "title": "Matrix multiplication", "statement": "multiply(A,B) and A*B compute the matrix product for every size M x P times P x N; associativity, identity neutral, distributes over +, transposes reverse.", "quantifier": "all sizes and all commutative semirings of scalars", "why_tests_cant": "all sizes and values", "anchors": ["vmmlib/matrix.hpp: multiply", "vmmlib/matrix.hpp: operator*"]}
{"id": "C26", "title": "In-place multiplication and aliasing", "statement": "A *= B leaves in A the product A*B of the values before the call, for every B including B being A itself.", "quantifier": "every square size, all matrices, aliasing or not", "why_tests_cant": "aliasing patterns and all values", "anchors": ["vmmlib/matrix.hpp: operator*=", "vmmlib/matrix.hpp: multiply"]}
{"id": "C27", "title": "Matrix-vector products", "statement": "A*v is the matrix-vector product for every M x N; (A*B)*v = A*(B*v); the homogeneous form for 4x4 times 3-vector appends 1, multiplies and divides by w, and is compatible with composition whenever the intermediate w is nonzero.", "quantifier": "all sizes, matrices, vectors", "why_tests_cant": "all sizes and values", "anchors": ["vmmlib/matrix.hpp: operator*( const Vector< N, T >& )", "vmmlib/matrix.hpp: operator*( const Vector< O, T >& )"]}
{"id": "C28", "title": "Transpose", "statement": "transpose_to and transpose(M) produce the transposed matrix; transposing twice is the identity; (AB)^T = B^T A^T.", "quantifier": "all sizes and values", "why_tests_cant": "all sizes", "anchors": ["vmmlib/matrix.hpp: transpose_to", "vmmlib/matrix.hpp: transpose"]}
{"id": "C29", "title": "Determinant", "statement": "det() of 1x1..4x4 matrices is the determinant: multiplicative, invariant under transpose, alternating in rows, 1 on the identity.", "quantifier": "all matrices of size 1..4 over any commutative ring", "why_tests_cant": "infinite domain", "anchors": ["vmmlib/matrix.hpp: compute_determinant", "vmmlib/matrix.hpp: det"]}
{"id": "C30", "title": "Inverse", "statement": "compute_inverse/inverse returns true exactly when |det| exceeds the tolerance, and then the result R satisfies A*R = R*A = I; when it returns false the caller's target must not be relied on (and for sizes other than 2x2 it is overwritten); a true result never comes from a singular matrix.", "quantifier": "all 2x2, 3x3, 4x4 real matrices and tolerances", "why_tests_cant": "infinite domain", "anchors": ["vmmlib/matrix.hpp: compute_inverse", "vmmlib/matrix.hpp: inverse"]}
{"id": "C31", "title": "Minors, cofactors, adjugate", "statement": "get_minor(M,r,c) drops row r and column c keeping the order of the others, for every r, c and size; get_adjugate times the matrix equals det times identity; get_cofactors matches the signed minors.", "quantifier": "every size, row, column; the 4x4 adjugate", "why_tests_cant": "all sizes; relies on size_t wrap-around", "anchors": ["vmmlib/matrix.hpp: get_minor", "vmmlib/matrix.hpp: get_adjugate", "vmmlib/matrix.hpp: get_cofactors"]}
{"id": "C32", "title": "tensor (outer product)", "statement": "tensor(u,v) is the outer product: cell (r,c) = u[r]*v[c], for every M,N.", "quantifier": "all sizes and vectors", "why_tests_cant": "all sizes", "anchors": ["vmmlib/matrix.hpp: tensor"]}
{"id": "C33", "title": "Matrix negation", "statement": "negate() and unary minus give the matrix with every element negated.", "quantifier": "all sizes and matrices", "why_tests_cant": "all values", "anchors": ["vmmlib/matrix.hpp: operator-()", "vmmlib/matrix.hpp: negate"]}
{"id": "C34", "title": "Block, diagonal, Kronecker and Khatri-Rao constructions", "statement": "direct_sum places the two blocks on the diagonal and zero elsewhere; diag puts the vector on the diagonal; kronecker_product and khatri_rao_product compute those products in the standard index order.", "quantifier": "all sizes and values", "why_tests_cant": "all sizes", "anchors": ["vmmlib/matrix.hpp: direct_sum", "vmmlib/matrix.hpp: diag", "vmmlib/matrix.hpp: kronecker_product", "vmmlib/matrix.hpp: khatri_rao_product"]}
{"id": "C35", "title": "symmetric_covariance", "statement": "The result equals A*A^T (row inner products), is symmetric and positive semidefinite.", "quantifier": "all sizes and values", "why_tests_cant": "all sizes", "anchors": ["vmmlib/matrix.hpp: symmetric_covariance"]}
{"id": "C36", "title": "rotate(angle, axis)", "statement": "Matrix::rotate(angle,axis) sets the matrix (whatever it held before) to the rotation by angle about the unit axis: the rotation part is orthogonal with determinant 1, fixes the axis, composes additively in the angle and agrees with Vector::rotate; last row and column are those of the identity.", "quantifier": "all angles, unit axes", "why_tests_cant": "infinite domain", "anchors": ["vmmlib/matrix.hpp: rotate( const TT, const Vector< M-1, T >& )"]}
{"id": "C37", "title": "rotate_x/y/z and pre_rotate_x/y/z", "statement": "rotate_k(a) right-multiplies by the rotation about axis k by a; pre_rotate_k(a) left-multiplies by the same rotation; rotate_k(a) then rotate_k(-a) restores the matrix.", "quantifier": "all 4x4 matrices and angles", "why_tests_cant": "infinite domain", "anchors": ["vmmlib/matrix.hpp: rotate_x", "vmmlib/matrix.hpp: rotate_y", "vmmlib/matrix.hpp: rotate_z", "vmmlib/matrix.hpp: pre_rotate_x", "vmmlib/matrix.hpp: pre_rotate_y", "vmmlib/matrix.hpp: pre_rotate_z"]}
{"id": "C38", "title": "Scale and translation accessors", "statement": "scale/scale_translation/set_translation/get_translation act on exactly the documented cells: get after set returns the same vector, scale right-multiplies by the diagonal scale, other cells are unchanged.", "quantifier": "every M,N where defined, all values", "why_tests_cant": "all sizes and values", "anchors": ["vmmlib/matrix.hpp: scale", "vmmlib/matrix.hpp: scale_translation", "vmmlib/matrix.hpp: set_translation", "vmmlib/matrix.hpp: get_translation", "vmmlib/matrix.hpp: x", "vmmlib/matrix.hpp: y", "vmmlib/matrix.hpp: z"]}
{"id": "C39", "title": "Transform histories stay rigid", "statement": "Starting from a rigid transform, any sequence of rotate_x/y/z, pre_rotate_x/y/z, rotate(angle,axis) with unit axis and set_translation keeps the rotation block orthonormal with determinant 1 and the last row (0,0,0,1), so distances between transformed points are preserved forever.", "quantifier": "every history of any length", "why_tests_cant": "unbounded histories", "anchors": ["vmmlib/matrix.hpp: rotate", "vmmlib/matrix.hpp: rotate_x", "vmmlib/matrix.hpp: pre_rotate_x", "vmmlib/matrix.hpp: set_translation"]}
{"id": "C40", "title": "Matrix min/max queries", "statement": "get_min/get_max return the least/greatest element; get_abs_min/get_abs_max the least/greatest absolute value.", "quantifier": "all sizes, all matrices", "why_tests_cant": "all sizes and values", "anchors": ["vmmlib/matrix.hpp: get_min", "vmmlib/matrix.hpp: get_max", "vmmlib/matrix.hpp: get_abs_min", "vmmlib/matrix.hpp: get_abs_max"]}
{"id": "C41", "title": "Sums and norms", "statement": "sum_elements, columnwise_sum, frobenius_norm, p_norm(nonnegative data), nnz, nnz(threshold), threshold compute the mathematical sums/counts for every size; frobenius_norm is zero only for the zero matrix.", "quantifier": "all sizes, all matrices", "why_tests_cant": "all sizes", "anchors": ["vmmlib/matrix.hpp: sum_elements", "vmmlib/matrix.hpp: columnwise_sum", "vmmlib/matrix.hpp: frobenius_norm", "vmmlib/matrix.hpp: p_norm", "vmmlib/matrix.hpp: get_nnz", "vmmlib/matrix.hpp: threshold"]}
{"id": "C42", "title": "Quantise / dequantise round trip", "statement": "quantize followed by dequantize reproduces each element to within half a quantisation step, and codes stay in the target type's range.", "quantifier": "all matrices and ranges", "why_tests_cant": "infinite domain", "anchors": ["vmmlib/matrix.hpp: quantize", "vmmlib/matrix.hpp: quantize_to", "vmmlib/matrix.hpp: dequantize"]}
{"id": "C43", "title": "Convolution", "statement": "convolve computes the discrete convolution with the kernel, with clamped (edge-extended) borders, and never reads outside the matrix.", "quantifier": "all matrix and kernel sizes", "why_tests_cant": "all sizes; out-of-bounds reads unobservable", "anchors": ["vmmlib/matrix.hpp: convolve"]}
{"id": "C44", "title": "sum_rows / sum_columns", "statement": "sum_rows<M2>/sum_columns<N2> add adjacent pairs of rows/columns; for even sizes the total sum of elements is preserved.", "quantifier": "all sizes", "why_tests_cant": "all sizes", "anchors": ["vmmlib/matrix.hpp: sum_rows", "vmmlib/matrix.hpp: sum_columns"]}
{"id": "C45", "title": "DCT matrix", "statement": "set_dct builds the orthonormal DCT-II basis: its product with its transpose is the identity.", "quantifier": "every size", "why_tests_cant": "every size", "anchors": ["vmmlib/matrix.hpp: set_dct"]}
{"id": "C46", "title": "Stream round trip", "statement": "Writing a matrix with write_to_stream and reading it with read_from_stream gives the same matrix, for every element type whose textual form reads back; several values written one after another read back in order.", "quantifier": "every M,N, all matrices, any history of writes", "why_tests_cant": "all sizes and histories", "anchors": ["vmmlib/matrix.hpp: write_to_stream", "vmmlib/matrix.hpp: read_from_stream", "vmmlib/vector.hpp: write_to_stream", "vmmlib/vector.hpp: read_from_stream"]}
{"id": "C47", "title": "Raw file round trip", "statement": "read_from_raw of the file produced by write_to_raw with the same arguments gives the same matrix.", "quantifier": "every M,N, all matrices, all directory/file names", "why_tests_cant": "all sizes and names", "anchors": ["vmmlib/matrix.hpp: write_to_raw", "vmmlib/matrix.hpp: read_from_raw"]}
{"id": "C48", "title": "Matrix equality", "statement": "operator== holds iff all cells are equal; != is the negation; equals(tol) holds iff all cell differences are below tol; equality with a matrix of another element size is false.", "quantifier": "all sizes and matrices", "why_tests_cant": "all pairs", "anchors": ["vmmlib/matrix.hpp: operator==", "vmmlib/matrix.hpp: operator!=", "vmmlib/matrix.hpp: equals"]}
{"id": "C49", "title": "Comparison functors up to row/column sign, initialising functors", "statement": "matrix_equals_allow_inverted_rows (columns) compares two matrices row by row (column by column) and accepts exactly if every row (column) of the first equals, or is within tolerance of, the corresponding one of the second or its negation; set_to_identity/zero functors write the identity/zero whatever the matrix held.", "quantifier": "every size and index", "why_tests_cant": "all sizes", "anchors": ["vmmlib/matrix_functors.hpp: set_to_identity_functor", "vmmlib/matrix_functors.hpp: set_to_zero_functor", "vmmlib/matrix_functors.hpp: invert_rows_functor"]}
{"id": "C50", "title": "is_positive_definite", "statement": "Returns true exactly for matrices satisfying Sylvester's criterion (all leading principal minors positive) — i.e. for symmetric matrices, exactly the positive definite ones.", "quantifier": "all 3x3 matrices", "why_tests_cant": "infinite domain", "anchors": ["vmmlib/matrix.hpp: is_positive_definite"]}
{"id": "C51", "title": "Quaternion product", "statement": "q*=r and q*r compute the Hamilton product (also for q*=q); associative, distributive, identity neutral, |qr| = |q||r|.", "quantifier": "all quaternions over any field / reals", "why_tests_cant": "infinite domain", "anchors": ["vmmlib/quaternion.hpp: operator*=", "vmmlib/quaternion.hpp: operator*"]}
{"id": "C52", "title": "Norm, conjugate, inverse", "statement": "conjugate negates the vector part and reverses products; abs is the norm; q*inverse(q)=1 for q != 0; normalize yields a unit quaternion.", "quantifier": "all nonzero quaternions", "why_tests_cant": "infinite domain", "anchors": ["vmmlib/quaternion.hpp: get_conjugate", "vmmlib/quaternion.hpp: abs", "vmmlib/quaternion.hpp: squared_abs", "vmmlib/quaternion.hpp: inverse", "vmmlib/quaternion.hpp: normalize", "vmmlib/quaternion.hpp: conjugate"]}
{"id": "C53", "title": "Rotation matrices from quaternions", "statement": "For unit q get_rotation_matrix is orthogonal with det 1, is a homomorphism (R(qr)=R(q)R(r)), agrees with v -> q v q*, R(-q)=R(q), and for a unit axis and every angle a the quaternion (axis*sin(a/2), cos(a/2)) gives the rotation by a about the axis.", "quantifier": "all unit quaternions, axes, angles", "why_tests_cant": "infinite domain", "anchors": ["vmmlib/quaternion.hpp: get_rotation_matrix", "vmmlib/quaternion.hpp: operator*"]}
{"id": "C54", "title": "Quaternion from rotation matrix", "statement": "set(matrix) of the rotation matrix of a unit quaternion q gives q or -q.", "quantifier": "all rotations", "why_tests_cant": "infinite domain, measure-small failing branch", "anchors": ["vmmlib/quaternion.hpp: set( const Matrix< M, M, T >& )"]}
{"id": "C55", "title": "slerp", "statement": "For unit p, q and every real a the result of slerp(a,p,q) is a unit quaternion, slerp(0,p,q)=p, slerp(1,p,q)=q or -q; if |cos| of their angle is below 1-epsilon the result lies in the plane of p and the nearer of q, -q and its angle to p is exactly a times their angle; for closer inputs it is the normalised linear interpolation.", "quantifier": "all unit quaternion pairs, all real a, all epsilon >= 0", "why_tests_cant": "infinite domain", "anchors": ["vmmlib/quaternion.hpp: slerp"]}
{"id": "C56", "title": "Quaternion (+,-,*) 3-vector", "statement": "q+v, q-v, q*v treat v as the pure quaternion (v,0); the compound forms agree with the binary ones.", "quantifier": "all quaternions and vectors", "why_tests_cant": "infinite domain", "anchors": ["vmmlib/quaternion.hpp: operator+( const Vector< 3, T >& )", "vmmlib/quaternion.hpp: operator-( const Vector< 3, T >& )", "vmmlib/quaternion.hpp: operator*( const Vector< 3, T >& )", "vmmlib/quaternion.hpp: operator+=( const Vector< 3, T >& )", "vmmlib/quaternion.hpp: operator-=( const Vector< 3, T >& )", "vmmlib/quaternion.hpp: operator*=( const Vector< 3, T >& )"]}
{"id": "C57", "title": "Quaternion scalar and additive operations", "statement": "+,-,scalar * and / act componentwise; dividing by zero raises an error with THROW_EXCEPTIONS; additive group and module laws hold.", "quantifier": "all quaternions, scalars, configurations", "why_tests_cant": "infinite domain", "anchors": ["vmmlib/quaternion.hpp: operator+", "vmmlib/quaternion.hpp: operator-", "vmmlib/quaternion.hpp: operator*( T )", "vmmlib/quaternion.hpp: operator/( T )", "vmmlib/quaternion.hpp: operator/=( T )"]}
{"id": "C58", "title": "Quaternion normal helpers", "statement": "The triangle normal helpers return the normalised cross product of the edges.", "quantifier": "all triples", "why_tests_cant": "infinite domain", "anchors": ["vmmlib/quaternion.hpp: normal"]}
{"id": "C59", "title": "Quaternion equality", "statement": "operator== is exact component equality, an equivalence relation, != its negation; is_akin(delta) bounds every component difference.", "quantifier": "all quaternions", "why_tests_cant": "all pairs", "anchors": ["vmmlib/quaternion.hpp: operator==", "vmmlib/quaternion.hpp: operator!=", "vmmlib/quaternion.hpp: is_akin"]}
{"id": "C60", "title": "Perspective matrix", "statement": "compute_matrix maps the near plane to z=-1 and the far plane to z=+1, the near rectangle's corners to the corners of the canonical square; every point strictly inside the frustum maps strictly inside the cube and conversely.", "quantifier": "all frusta with left<right, bottom<top, 0<near<far and all points in front of the eye", "why_tests_cant": "infinite domain", "anchors": ["vmmlib/frustum.hpp: compute_matrix"]}
{"id": "C61", "title": "Orthographic matrix", "statement": "compute_ortho_matrix maps the box [l,r]x[b,t]x[-far,-near] affinely and bijectively onto the cube [-1,1]^3.", "quantifier": "all boxes, all points", "why_tests_cant": "infinite domain", "anchors": ["vmmlib/frustum.hpp: compute_ortho_matrix"]}
{"id": "C62", "title": "adjust_near", "statement": "After adjust_near(n) the near plane is n, the far plane is unchanged, and the view directions (ratios left/near etc.) are the same; adjusting back restores the frustum.", "quantifier": "all frusta, all positive near values", "why_tests_cant": "infinite domain", "anchors": ["vmmlib/frustum.hpp: adjust_near"]}
{"id": "C63", "title": "set_perspective", "statement": "set_perspective(fovy,aspect,n,f) yields the symmetric frustum of vertical angle fovy (radians or degrees as documented) and the given aspect ratio at near plane n.", "quantifier": "all angles, aspect, near, far", "why_tests_cant": "infinite domain", "anchors": ["vmmlib/frustum.hpp: set_perspective"]}
{"id": "C64", "title": "apply_jitter", "statement": "Jittering moves left/right by the same x offset and bottom/top by the same y offset, leaving width, height, near and far unchanged; jitters add.", "quantifier": "all frusta and jitters", "why_tests_cant": "infinite domain", "anchors": ["vmmlib/frustum.hpp: apply_jitter", "vmmlib/frustum.hpp: get_width", "vmmlib/frustum.hpp: get_height"]}
{"id": "C65", "title": "Culling planes from a projection matrix", "statement": "setup(proj) yields six planes such that a point has nonnegative distance to all six iff its clip coordinates satisfy -w<=x,y,z<=w; each plane normal is unit.", "quantifier": "all matrices with nonzero plane normals, all points", "why_tests_cant": "infinite domain", "anchors": ["vmmlib/frustum_culler.hpp: setup( const Matrix< 4, 4, T >& )"]}
{"id": "C66", "title": "test_sphere", "statement": "VISIBILITY_NONE implies that no point of the sphere lies in the frustum; FULL implies that every point does; the verdict equals the one determined by the least plane distance.", "quantifier": "all planes, spheres and points", "why_tests_cant": "infinite domain", "anchors": ["vmmlib/frustum_culler.hpp: test_sphere"]}
{"id": "C67", "title": "test_aabb", "statement": "VISIBILITY_NONE implies that no point of the box is inside all planes (no false culling); FULL implies that every point of the box is inside all planes.", "quantifier": "all plane sets, all boxes", "why_tests_cant": "infinite domain", "anchors": ["vmmlib/frustum_culler.hpp: test_aabb"]}
{"id": "C68", "title": "Setup from corners", "statement": "Planes computed from the eight frustum corners bound the same volume as the frustum: all corners have nonnegative plane distances, and culling decisions agree with those of the matrix-based setup.", "quantifier": "all convex corner boxes", "why_tests_cant": "infinite domain", "anchors": ["vmmlib/frustum_culler.hpp: setup( const Vector< 3, T >& ... )", "vmmlib/vector.hpp: compute_plane"]}
{"id": "C69", "title": "AABB merge histories", "statement": "After merging any sequence of points and boxes into an empty box, the box is exactly the smallest box containing all of them; order and repetition do not matter.", "quantifier": "every history of merges over any linear order", "why_tests_cant": "unbounded histories", "anchors": ["vmmlib/aabb.hpp: merge", "vmmlib/aabb.hpp: setEmpty"]}
{"id": "C70", "title": "AABB membership", "statement": "isIn(p) holds iff min<=p<=max in every coordinate; merge(p) makes isIn(p) true and never evicts a contained point; isIn2d ignores z.", "quantifier": "all boxes and points", "why_tests_cant": "infinite domain", "anchors": ["vmmlib/aabb.hpp: isIn", "vmmlib/aabb.hpp: isIn2d"]}
{"id": "C71", "title": "AABB emptiness", "statement": "isEmpty holds iff no point is inside (min exceeds max in some coordinate); a default-constructed box is empty and a box becomes non-empty after merging a point.", "quantifier": "all boxes", "why_tests_cant": "infinite domain", "anchors": ["vmmlib/aabb.hpp: isEmpty", "vmmlib/aabb.hpp: setEmpty", "vmmlib/aabb.hpp: AxisAlignedBoundingBox()"]}
{"id": "C72", "title": "AABB arithmetic", "statement": "operator+,-,*,/ and the compound forms by scalars (the only ones the class has) act on every coordinate of both corners; translation is invertible and keeps membership; positive scaling keeps membership and is undone by division; equality is equality of both corners.", "quantifier": "all boxes, vectors and scalars", "why_tests_cant": "infinite domain", "anchors": ["vmmlib/aabb.hpp: operator+", "vmmlib/aabb.hpp: operator-", "vmmlib/aabb.hpp: operator*", "vmmlib/aabb.hpp: operator/", "vmmlib/aabb.hpp: operator+=", "vmmlib/aabb.hpp: operator-=", "vmmlib/aabb.hpp: operator*=", "vmmlib/aabb.hpp: operator/=", "vmmlib/aabb.hpp: operator==", "vmmlib/aabb.hpp: operator!="]}
{"id": "C73", "title": "AABB construction", "statement": "set(cx,cy,cz,size) gives the cube of half extent size centred at c; getCenter/getDimension recover centre and extents; makeUnitBox is [0,1]^3.", "quantifier": "all centres, sizes", "why_tests_cant": "infinite domain", "anchors": ["vmmlib/aabb.hpp: set", "vmmlib/aabb.hpp: getCenter", "vmmlib/aabb.hpp: getDimension", "vmmlib/aabb.hpp: makeUnitBox"]}
{"id": "C74", "title": "Ray-sphere intersection", "statement": "test_sphere returns true iff the ray from the origin in the (normalised) direction meets the surface of the sphere at some t>=0, and then t is the smallest such parameter; t is untouched otherwise.", "quantifier": "all rays and spheres", "why_tests_cant": "infinite domain", "anchors": ["vmmlib/intersection.hpp: Intersector::test_sphere"]}
{"id": "C75", "title": "Low-pass filter window", "statement": "After any history of add() and set_smooth_factor() calls the filter's value depends only on the last min(n,M) samples and the factor at the last add(): it is their weighted mean, each sample of age j being mixed in with weight f^j and the mixture of the newer ones keeping 1-f^j; the weights add up to 1. get() before the first add() and M=0 are undefined.", "quantifier": "every window size M>=1, factor and history", "why_tests_cant": "unbounded histories", "anchors": ["vmmlib/lowpass_filter.hpp: LowpassFilter::add", "vmmlib/lowpass_filter.hpp: LowpassFilter::get"]}
{"id": "C76", "title": "Low-pass filter bounds", "statement": "For factor in [0,1] the filtered value always lies between the least and the greatest sample in the window; a constant input gives that constant.", "quantifier": "every history, M>=1, factor", "why_tests_cant": "unbounded histories", "anchors": ["vmmlib/lowpass_filter.hpp: LowpassFilter::add"]}
{"id": "C77", "title": "QR decomposition", "statement": "qr_decompose_gram_schmidt(A,Q,R), for every M x N matrix A with M >= N and linearly independent columns and whatever Q and R held: A = Q' R where Q' is the first N columns of Q; these columns are orthonormal, the remaining columns of Q are zero, and R is upper triangular with positive diagonal. It is the only such decomposition: whenever A = q r with orthonormal columns in q and r upper triangular with positive diagonal, decompose returns exactly q and r (in particular orthogonal matrices are their own Q and upper triangular ones with positive diagonal their own R).", "quantifier": "every M>=N, full-rank real matrices", "why_tests_cant": "all sizes", "anchors": ["vmmlib/qr_decomposition.hpp: qr_decompose_gram_schmidt"]}
{"id": "C78", "title": "util.hpp transforms", "statement": "create_translation/create_rotation/create_scaling build the affine transforms; apply_* compose them with an existing matrix; manhattan, min, max are the metric/lattice operations.", "quantifier": "all values", "why_tests_cant": "infinite domain", "anchors": ["vmmlib/util.hpp: create_translation", "vmmlib/util.hpp: create_rotation", "vmmlib/util.hpp: create_scaling", "vmmlib/util.hpp: apply_translation", "vmmlib/util.hpp: manhattan"]}
{"id": "C79", "title": "math.hpp helpers", "statement": "squared(a)=a^2, pythag(a,b)=sqrt(a^2+b^2) for all inputs (both branches), sign(a,b) has magnitude |a| and the sign of b, abs_less/abs_greater are strict weak orders.", "quantifier": "all reals", "why_tests_cant": "infinite domain", "anchors": ["vmmlib/math.hpp: squared", "vmmlib/math.hpp: pythag", "vmmlib/math.hpp: sign", "vmmlib/math.hpp: abs_less"]}
{"id": "C80", "title": "Element traits", "statement": "matrix_traits/vector_traits getters and setters address the same element as at( row, col ) resp. at( i ).", "quantifier": "all indices and sizes", "why_tests_cant": "all sizes", "anchors": ["vmmlib/matrix_traits.hpp: MatrixTraits", "vmmlib/vector_traits.hpp: VectorTraits"]}
{"id": "C81", "title": "Rounding error of accumulations", "statement": "With floating-point rounding of relative error at most u per operation, dot, squared_length, sums and matrix products differ from the exact value by at most the classical bound gamma_n times the sum of absolute terms, for every dimension.", "quantifier": "every M and every rounding behaviour with |delta|<=u", "why_tests_cant": "all rounding errors and dimensions", "anchors": ["vmmlib/vector.hpp: dot", "vmmlib/vector.hpp: squared_length", "vmmlib/matrix.hpp: multiply"]}
{"id": "C82", "title": "NaN and special values", "statement": "Predicates do not report success on NaN input: equals is false if a component is NaN, isIn is false for NaN points, clamp returns a value inside the bounds.", "quantifier": "all vectors with IEEE special values", "why_tests_cant": "special values are rarely in tests", "anchors": ["vmmlib/vector.hpp: equals", "vmmlib/vector.hpp: clamp", "vmmlib/vector.hpp: operator<", "vmmlib/aabb.hpp: isIn"]}
{"id": "C83", "title": "Stream output restores formatting", "statement": "operator<< leaves the stream's format flags and precision as they were before the call.", "quantifier": "every initial stream state, all vectors/matrices", "why_tests_cant": "all flag states", "anchors": ["vmmlib/vector.hpp: operator<<", "vmmlib/matrix.hpp: operator<<"]}
{"id": "C84", "title": "Random, iterator and cast utilities", "statement": "perturb moves each component by exactly plus or minus the perturbation; set_random puts every component in [-1,1]; iter_set copies the common prefix of the sequence and the vector and leaves the rest; converting assignment and construction convert each component independently.", "quantifier": "every M, vector, sequence length and every sequence of values returned by rand()", "why_tests_cant": "a test sees one random sequence; the claim is about all of them, and all sizes", "anchors": ["vmmlib/vector.hpp: perturb", "vmmlib/vector.hpp: set_random", "vmmlib/vector.hpp: iter_set", "vmmlib/vector.hpp: operator="]}
{"id": "C85", "title": "Frustum construction and copying", "statement": "set( l, r, b, t, n, f ), the six-value constructor, copy construction, (converting) assignment and construction from a pointer to six values give a frustum with exactly those planes under the named accessors, whatever the object held before; a pointer to fewer than six values is an out-of-bounds read.", "quantifier": "all frusta, all values, all source element types", "why_tests_cant": "infinite domain; the short-buffer case is undefined behaviour", "anchors": ["vmmlib/frustum.hpp: Frustum, set, operator="]}
{"id": "C86", "title": "Inverse and adjugate into the matrix itself", "statement": "m.inverse( m ) and m.get_adjugate( m ), which the signatures permit, leave in m what inverse( other ) would have left in other, and return the same flag.", "quantifier": "all 2x2, 3x3, 4x4 matrices, tolerances", "why_tests_cant": "the claim is about all matrices; the failures depend on the order of reads and writes", "anchors": ["vmmlib/matrix.hpp: inverse", "vmmlib/matrix.hpp: get_adjugate", "vmmlib/matrix.hpp: compute_inverse"]}
{"id": "C87", "title": "File names and csv round trip", "statement": "write_to_raw, write_csv_file and read_csv_file use dir/name, with the extension appended exactly when it is missing; what write_csv_file writes is read back by read_csv_file.", "quantifier": "all directories, names, matrices, formats, file systems", "why_tests_cant": "names and matrices are unbounded; file system contents before the call are arbitrary", "anchors": ["vmmlib/matrix.hpp: write_to_raw", "vmmlib/matrix.hpp: write_csv_file", "vmmlib/matrix.hpp: read_csv_file"]}
{"id": "C88", "title": "Printed text", "statement": "operator<< prints exactly the elements, in order, with the documented separators, for vectors, matrices (one line per row), frusta, quaternions, boxes, cullers and visibility values, whatever the stream's previous state.", "quantifier": "all sizes, element types, element formats, stream states", "why_tests_cant": "all stream states and sizes", "anchors": ["vmmlib/vector.hpp: operator<<", "vmmlib/matrix.hpp: operator<<", "vmmlib/frustum.hpp: operator<<", "vmmlib/quaternion.hpp: operator<<", "vmmlib/aabb.hpp: operator<<", "vmmlib/frustum_culler.hpp: operator<<", "vmmlib/visibility.hpp: operator<<"]}
{"id": "C89", "title": "Quaternion construction and units", "statement": "Constructors and setters store the given components under the names of the declaration; zero, identity and assignment do not depend on the old value; the default quaternion is the identity; the exported units satisfy Hamilton's relations.", "quantifier": "all component values, all previous object states, all commutative rings with halving", "why_tests_cant": "infinite domain", "anchors": ["vmmlib/quaternion.hpp: Quaternion, set, zero, identity, operator=, QUATERI, QUATERJ, QUATERK, IDENTITY"]}
{"id": "C90", "title": "Length, distance and normalize under rounding", "statement": "With every operation rounded to relative error u, length and distance are within an explicit relative error of the Euclidean ones, length is zero exactly for the zero vector, and normalize returns a vector whose length differs from 1 by at most an explicit multiple of u (below 5e-7 for three floats).", "quantifier": "all dimensions M with 2*M*u < 1, all vectors, all roundings with relative error u (no overflow or underflow)", "why_tests_cant": "error bounds are about all inputs and all rounding modes", "anchors": ["vmmlib/vector.hpp: length", "vmmlib/vector.hpp: distance", "vmmlib/vector.hpp: normalize"]}
{"id": "C91", "title": "Culling verdicts under rounding", "statement": "With rounded arithmetic, test_sphere and test_aabb never reject an object containing a point that is inside all planes by more than an explicit rounding margin, and never report full for an object with a point outside a plane by more than the margin; away from the margin the sphere verdict is the exact one.", "quantifier": "all plane sets, spheres and boxes, all roundings with relative error u", "why_tests_cant": "culling errors only show for particular inputs near the planes", "anchors": ["vmmlib/frustum_culler.hpp: test_sphere", "vmmlib/frustum_culler.hpp: test_aabb"]}
{"id": "C92", "title": "Determinants and quaternion arithmetic under rounding", "statement": "With rounded arithmetic, det() differs from the determinant of the stored values by at most ((1+u)^k - 1) times the sum of the magnitudes of the products (so at most gamma_k n! B^n for entries bounded by B, and a computed determinant beyond that certifies invertibility); every component of a quaternion product is within 6((1+u)^9-1)|p|_1|q|_1 of the Hamilton product; a normalised quaternion has unit length up to an explicit multiple of u.", "quantifier": "all matrices of size 1 to 4, all quaternions, all roundings with relative error u (no overflow or underflow)", "why_tests_cant": "error bounds are about all inputs, including those with catastrophic cancellation", "anchors": ["vmmlib/matrix.hpp: compute_determinant", "vmmlib/quaternion.hpp: operator*=", "vmmlib/quaternion.hpp: normalize"]}
{"id": "C93", "title": "Version comparison macros", "statement": "VMMLIB_VERSION_GT/GE/LT/LE(major, minor, patch) decide the lexicographic order of the current version against the given one: GE is the negation of LT, LE of GT, GE and LE together hold exactly for equality, and the order is total and transitive.", "quantifier": "all version triples", "why_tests_cant": "a test sees one compiled version against a few others", "anchors": ["vmmlib/version.in.hpp: VMMLIB_VERSION_GT", "vmmlib/version.in.hpp: VMMLIB_VERSION_GE", "vmmlib/version.in.hpp: VMMLIB_VERSION_LT", "vmmlib/version.in.hpp: VMMLIB_VERSION_LE"]}
{"id": "C94", "title": "Texts of error reports", "statement": "The exception thrown by a failed check has what() equal to file(line): - description followed by a line end, for every description without NUL; without exceptions the report containing file, line and description is appended to std::cerr, and the program stops unless NDEBUG is defined.", "quantifier": "all descriptions, files, lines, earlier output, build configurations", "why_tests_cant": "quantifies over all texts", "anchors": ["vmmlib/vmmlib_config.hpp: VMMLIB_ERROR", "vmmlib/exception.hpp: what", "vmmlib/exception.hpp: except_here"]}
{"id": "C95", "title": "A call that throws leaves the written object unchanged", "statement": "If at(), operator[][], set/get_row, set/get_column, get_sub_matrix, assignment from a std::vector or division of a quaternion throws, the object written has its old value; get_sub_matrix rejects every block that does not fit, also when the sums in its check wrap around.", "quantifier": "all sizes, contents, indices, offsets and build configurations", "why_tests_cant": "quantifies over every failing argument and every failing point inside the call", "anchors": ["vmmlib/matrix.hpp: at", "vmmlib/matrix.hpp: set_row", "vmmlib/matrix.hpp: set_column", "vmmlib/matrix.hpp: get_sub_matrix", "vmmlib/matrix.hpp: set_sub_matrix", "vmmlib/quaternion.hpp: operator/="]}
{"id": "C96", "title": "No call with valid arguments faults or depends on the build", "statement": "Every modelled member function, called with indices and shapes in range, returns normally (no exception, no abort, no access outside an array) in every build configuration, and returns the same value in all of them, for arbitrary scalar values including NaN and infinities and arbitrary semantics of the scalar operators.", "quantifier": "all sizes, contents, scalars, scalar types (no algebraic law assumed), build configurations", "why_tests_cant": "memory safety and configuration independence concern every size, value and build at once", "anchors": ["vmmlib/vector.hpp", "vmmlib/matrix.hpp", "vmmlib/quaternion.hpp", "vmmlib/frustum_culler.hpp", "vmmlib/aabb.hpp", "vmmlib/qr_decomposition.hpp"]}
{"id": "C97", "title": "A call that passes all checks returns the same value without checks", "statement": "If a call with arbitrary arguments (any index, offset, length or shape) returns normally in a build with checked accessors, exceptions and assertions, then every other build returns the same value; and with checked accessors at(), rows, columns and blocks never access memory outside the arrays, whatever the arguments.", "quantifier": "all arguments in and out of range, all sizes, all build configurations", "why_tests_cant": "quantifies over all out-of-range arguments and builds", "anchors": ["vmmlib/matrix.hpp: at", "vmmlib/matrix.hpp: get_sub_matrix", "vmmlib/matrix.hpp: convolve", "vmmlib/vector.hpp: get_sub_vector", "vmmlib/exception.hpp: VMMLIB_ERROR"]}
{"id": "C98", "title": "Iterators, pointers and default tolerances", "statement": "Iterating a vector or a matrix from begin() to end() visits every element exactly once, size() of them, a vector in index order, a matrix column by column, and writing through the iterators changes every element once; the raw pointer of an object addresses the same cells as at(); construction from a pointer copies exactly M elements; equals() with its default tolerance holds between an object and itself; getMin()/getMax() references write one corner only; assigning a quaternion copies it, also onto itself.", "quantifier": "all sizes, element types, contents, ranges and buffers", "why_tests_cant": "all sizes and contents; the element types with zero epsilon and self-assignment have to be considered separately", "anchors": ["vmmlib/vector.hpp: begin, end, size, operator T*, Vector( const T* ), equals", "vmmlib/matrix.hpp: begin, end, size, operator T*, get_number_of_rows, get_number_of_columns, equals", "vmmlib/aabb.hpp: getMin, getMax", "vmmlib/quaternion.hpp: operator="]}
{"id": "C99", "title": "Integer element types", "statement": "For vectors and matrices of a signed integer type with range [-B, B), dot and every cell of a matrix product or matrix-vector product is free of overflow exactly if all its products and partial sums are representable, and is then the exact value (for squared_length: exactly if the exact squared length is representable); element-wise operations overflow exactly where their own exact result is not representable; cross and det are exact when 2pq < B and n! p^n < B for entries bounded by p, q. For unsigned types of w bits all of them give the exact result modulo 2^w.", "quantifier": "all sizes, all element values, all integer widths", "why_tests_cant": "overflow depends on all values and partial sums and on the width; undefined behaviour need not show in a test", "anchors": ["vmmlib/vector.hpp: dot, squared_length, cross, operator+, operator-, operator*, operator/", "vmmlib/matrix.hpp: multiply, operator*, compute_determinant"]}
{"id": "C100", "title": "Culling in world space and of nested objects", "statement": "For a rigid view matrix, the culler set up with projection * view gives every sphere the verdict that the culler set up with the projection gives the sphere with the transformed centre, and a world point is inside its six planes exactly if the transformed point is in the frustum; an object contained in a culled (fully visible) sphere or box is itself culled (fully visible), where culling of a box may fail only if it lies in one of the planes.", "quantifier": "all projection and rigid view matrices, frusta, spheres, boxes, points", "why_tests_cant": "quantifies over all cameras and objects", "anchors": ["vmmlib/frustum_culler.hpp: setup, test_sphere, test_aabb", "vmmlib/matrix.hpp: operator*", "vmmlib/frustum.hpp: compute_matrix"]}
{"id": "C101", "title": "inverse() under floating-point rounding: flag and entries", "statement": "For 2x2, 3x3 and 4x4 matrices and any rounding of relative error at most u per operation (no overflow/underflow), inverse( result, tolerance ) decides by a computed determinant that differs from the determinant of the stored values by at most detErr = ((1+u)^k - 1) times the sum of the magnitudes of its products (k = 2, 5, 9). Hence it returns true whenever |det| > tolerance + detErr and false whenever |det| + detErr < tolerance; and whenever it returns true with tolerance > detErr, the matrix is invertible and each returned entry differs from the entry of the exact inverse by at most (adjErr + detErr |A^-1_ij|) / tolerance, so the product of result and matrix differs from the identity by the corresponding sum.", "quantifier": "every matrix of size 2, 3, 4 over rounded numbers, every tolerance, every previous content of the result, every rounding function with relative error u", "why_tests_cant": "Rounding errors depend on all entries simultaneously; tests compare a few matrices with a tolerance and cannot bound the error for ill-conditioned or badly scaled ones.", "anchors": ["vmmlib/matrix.hpp: compute_inverse, Matrix::inverse"]}
{"id": "C102", "title": "Sub-vector views and overlapping operands", "statement": "Operations through references returned by get_sub_vector act on exactly the components of the view. v.get_sub_vector<N>( o1 ) op= v.get_sub_vector<N>( o2 ) equals the operation on separate copies whenever the operand does not start before the target or does not overlap it; otherwise the components of the operand that are components of the target before the current one are read after replacement. Assignment between views of one vector copies for identical or disjoint views and is undefined for partial overlap. Assigning the (N+1)-component view to the N-component view at the same offset divides by the last component in place; normalize() on a view scales only the view and returns its former length.", "quantifier": "all dimensions, view sizes and offsets, element values, operators, build configurations", "why_tests_cant": "Aliasing effects depend on the relative position of the views; tests use one pair.", "anchors": ["vmmlib/vector.hpp: get_sub_vector, operator+=, operator-=, operator*=, operator/=, operator=, normalize"]}
{"id": "C103", "title": "Temporary dynamic memory is released", "statement": "After sum_rows, sum_columns and read_from_raw exactly the dynamic memory that was in use before the call is in use again, whatever the matrix, the file system and the file contain, and over any number of calls.", "quantifier": "every M,N, all matrices, file systems, file names, states of the free store, all numbers of calls", "why_tests_cant": "a leak on one path of the control flow is no functional failure; it shows only over long histories", "anchors": ["vmmlib/matrix.hpp: read_from_raw", "vmmlib/matrix.hpp: sum_rows", "vmmlib/matrix.hpp: sum_columns"]}
{"id": "C104", "title": "Reading from short, malformed or failed streams", "statement": "read_from_stream of a vector or matrix stores the elements the stream holds, in order (matrices row by row); if the stream runs out or contains something else, the element reached becomes zero, the ones behind it keep their values and the stream is left failed; a stream that has already failed changes nothing. The call itself never raises an error.", "quantifier": "every M,N, all previous contents, all streams (any characters, failed or not), all element types", "why_tests_cant": "all streams and all points of failure", "anchors": ["vmmlib/matrix.hpp: read_from_stream", "vmmlib/vector.hpp: read_from_stream"]}
{"id": "C105", "title": "AABB members called with the box's own corners", "statement": "set, setMin, setMax and merge take references, and getMin/getMax return references into the box: each of them must give the result it gives when the referenced vectors are copied first.", "quantifier": "all boxes, all arguments that are outside vectors or either corner of the box itself, every element type (for merge: with an irreflexive <, so also NaN)", "why_tests_cant": "all boxes and all overlaps of arguments and object", "anchors": ["vmmlib/aabb.hpp: set, setMin, setMax, merge, getMin, getMax", "vmmlib/vector.hpp: operator="]}
{"id": "C106", "title": "Angle constants", "statement": "M_PI, M_PI_F, M_PI_2_F, M_PI_3_F and M_PI_4_F are pi, pi/2, pi/3 and pi/4 to the last of their twenty digits; rounded to the floating-point type they are one rounding away; the error of set_perspective they cause is exactly a relative error of the angle (below 1e-14 degrees in double, and the frustum stays upright for every field of view up to 180 degrees); the entries of set_dct are off by at most sqrt(2 M) times the error of the constant.", "quantifier": "all fields of view, aspect ratios and planes, all matrix sizes, every rounding", "why_tests_cant": "all angles and all sizes", "anchors": ["vmmlib/math.hpp: M_PI", "vmmlib/util.hpp: M_PI_F, M_PI_2_F, M_PI_3_F, M_PI_4_F", "vmmlib/frustum.hpp: set_perspective", "vmmlib/matrix.hpp: set_dct"]}
{"id": "C107", "title": "A culler before its first setup", "statement": "A FrustumCuller on which setup was never called hides nothing with an extent: spheres of positive radius are partially visible, spheres without are not visible, boxes are fully visible.", "quantifier": "all spheres and boxes", "why_tests_cant": "all spheres and boxes", "anchors": ["vmmlib/frustum_culler.hpp: FrustumCuller(), test_sphere, test_aabb"]}
{"id": "C108", "title": "Dot products and matrix products in IEEE arithmetic", "statement": "With IEEE 754 elements (float, double: subnormals, infinities, NaN), whenever dot, squared_length or an entry of a matrix-matrix or matrix-vector product comes out finite, all the elements that entered it were finite and the result is within a stated bound (relative to the sum of absolute products, plus a stated underflow term) of the exact value; and when the operands are finite and the sum of absolute products leaves room below the largest number, the result is finite.", "quantifier": "all binary IEEE formats, all dimensions with N*u < 1, all operands including subnormals, infinities and NaN", "why_tests_cant": "overflow, gradual underflow and rounding interact differently for every operand", "anchors": ["vmmlib/vector.hpp: dot, squared_length", "vmmlib/matrix.hpp: multiply, operator*"]}
{"id": "C109", "title": "length and normalize in IEEE arithmetic", "statement": "With IEEE 754 elements, length is accurate to a few units in the last place per component and normalize gives the unit vector up to such an error when the exact squared length is in the normal range. Outside it the code fails: a finite vector with a component of at least 2^((emax+1)/2) has length infinity and normalizes to the zero vector, a vector of components with squares below half of the smallest number has length 0 and is not normalized, and one NaN component makes everything NaN.", "quantifier": "all binary IEEE formats, all dimensions, all component values", "why_tests_cant": "the ranges of failure are thresholds over all component values", "anchors": ["vmmlib/vector.hpp: length, normalize, squared_length"]}
{"id": "C110", "title": "Determinant and inverse in IEEE arithmetic", "statement": "With IEEE 754 elements, det() and the determinant inside inverse() are, when finite, within a stated error of the exact determinant; they are finite for finite entries bounded by B with n! B^n (plus a little room) in range; the flag of inverse is reliable for determinants further from the tolerance than that error and the entries returned are those of the inverse up to stated errors. Outside the range the code fails: when the determinant overflows or an entry is infinite or NaN, inverse returns true with a matrix of zeros and NaNs (already for a 4x4 scaling by 2^33 in float).", "quantifier": "all binary IEEE formats, all 1x1 to 4x4 (det) and 2x2 to 4x4 (inverse) matrices, all finite tolerances", "why_tests_cant": "overflow, gradual underflow and cancellation over all entries", "anchors": ["vmmlib/matrix.hpp: det, compute_inverse, inverse"]}
{"id": "C111", "title": "Boxes in IEEE arithmetic", "statement": "With IEEE 754 elements, merge and isIn of AABB are exact (infinite corners included): after setEmpty and any sequence of merges of points the box is their exact bounding box, whatever the order, and NaN coordinates are ignored. getDimension is one rounding from the exact difference, and getCenter of a box whose extent is in range is finite, inside the box and within a few units in the last place of the midpoint. It fails when the extent overflows: the centre is then infinite and outside the box. A point with NaN in every coordinate is in every box and a NaN corner is never replaced.", "quantifier": "all binary IEEE formats, all boxes, all sequences of points", "why_tests_cant": "rounding, overflow and NaN over all corners and all histories of merges", "anchors": ["vmmlib/aabb.hpp: merge, isIn, getCenter, getDimension, setEmpty"]}
{"id": "C112", "title": "The low-pass filter in IEEE arithmetic", "statement": "With float or double samples (and the double weights of the code), the filtered value after any history is finite and within a stated small multiple of the unit in the last place of the largest of the last M samples from the exact filtered value of these samples, whatever came before: rounding errors do not accumulate over the history. The value is bit for bit a function of the last M samples and the factor. A NaN sample makes the value NaN exactly as long as it is in the window.", "quantifier": "all histories of add and set_smooth_factor, all window sizes, factors in [0,1], all binary IEEE formats with double at least as wide", "why_tests_cant": "accumulation of rounding errors over unbounded histories", "anchors": ["vmmlib/lowpass_filter.hpp: add, set_smooth_factor"]}
{"id": "C113", "title": "Accumulated rotations in IEEE arithmetic", "statement": "Multiplying any number n of N x N matrices, each within delta of an orthogonal matrix, with operator* or operator*= in IEEE 754 arithmetic (rounding, underflow, overflow) never overflows and stays within (1+e)^n (sqrt N + e0) - sqrt N of the exact product of the orthogonal matrices, where e is a stated constant of the format, the size and delta; hence the accumulated matrix stays orthogonal, and keeps the length of every vector, up to that drift. operator*= accumulates bit for bit the same matrix as operator*.", "quantifier": "all binary formats, all sizes N, all lists of finite matrices near orthogonal ones (any number of products), all starting matrices", "why_tests_cant": "The drift is a property of unboundedly long histories of products with every rounding pattern; tests see a few products of a few rotations.", "anchors": ["vmmlib/matrix.hpp: multiply, operator*, operator*="]}
{"id": "C114", "title": "Quaternions in IEEE arithmetic", "statement": "In IEEE 754 arithmetic (rounding, underflow, overflow, the double literal 0.5) the quaternion product computes every component of the Hamilton product within a stated error and is finite whenever the operands fit; normalize gives a quaternion within about 11 units of roundoff of the exact unit quaternion. Accumulating n products drifts at most by (1+e)^n (1+e0) - 1 from the exact product; with a normalisation after each product the length stays within 12 units of roundoff of 1 however long the history, and the distance from the exact product grows linearly.", "quantifier": "all binary formats (14 digits or more for the normalised history), all finite quaternions in range, all histories of products", "why_tests_cant": "Histories are unbounded and every rounding pattern counts; a test sees a few products.", "anchors": ["vmmlib/quaternion.hpp: operator*=, operator*, abs, squared_abs, normalize"]}
{"id": "C115", "title": "Rotation matrices of quaternions in IEEE arithmetic", "statement": "get_rotation_matrix in IEEE arithmetic writes, into the upper left block of a matrix of any size from 3, entries within a stated error of the matrix of v -> q v q*, finite if they fit in the format, and leaves all other entries alone. For a quaternion of length within d of 1 the matrix is within 45 u + 4 d (Frobenius norm) of a rotation (orthogonal, determinant 1), and after any history of normalised products within 93 u.", "quantifier": "all binary formats, all finite quaternions, all matrix sizes, all histories", "why_tests_cant": "A bound on all inputs and histories.", "anchors": ["vmmlib/quaternion.hpp: get_rotation_matrix"]}
{"id": "C116", "title": "double literals in float code", "statement": "With T = float, a quotient that the language evaluates in double because of a literal 1.0, 2.0 or -2.0 and converts back is the correctly rounded float quotient, for all operands (zeros, subnormal numbers, infinities, NaN). So normalize, operator/ of quaternions, the set-up of a frustum culler and compute_ortho_matrix give the same bits as if the literals were of type T.", "quantifier": "all binary formats F with a format D of more than twice the digits and range, all operands, vectors, quaternions, matrices, frusta", "why_tests_cant": "Double rounding is harmless for all operands; a test sees only some of the 2^64 pairs.", "anchors": ["vmmlib/vector.hpp: normalize", "vmmlib/frustum_culler.hpp: _normalize_plane", "vmmlib/quaternion.hpp: operator/", "vmmlib/frustum.hpp: compute_ortho_matrix"]}
{"id": "C117", "title": "View-frustum culling in IEEE arithmetic", "statement": "With finite planes and values that fit in the format, test_sphere and test_aabb in IEEE arithmetic never cull a sphere or box with a point in front of every plane by more than a stated rounding bound, and report full visibility only if every point is in front of every plane up to that bound. Degenerate planes (NaN after normalisation) should not cull what is visible.", "quantifier": "all binary formats, all finite cullers, spheres and boxes; all frusta whose near distance is lost in the far distance", "why_tests_cant": "A bound for all inputs.", "anchors": ["vmmlib/frustum_culler.hpp: test_sphere, test_aabb, _test_aabb, _normalize_plane, setup", "vmmlib/frustum.hpp: compute_matrix"]}
{"id": "C118", "title": "From the matrix to the culling verdict in IEEE arithmetic", "statement": "setup of a frustum culler from a finite matrix in IEEE arithmetic gives six finite planes, each component of which is within 12 u (relative, plus underflow) of the exact normalised plane of the matrix. setup followed by test_sphere (test_aabb) never culls a ball (box) with a point in front of every exact plane of the matrix by more than 18 u (22 u) times the magnitude of the terms, and reports full visibility only if no point is behind a plane by more than that.", "quantifier": "all binary formats with at least 6 (11) bits, all finite matrices whose planes can be normalised without overflow or underflow, all finite spheres and boxes, all points", "why_tests_cant": "A bound for all matrices and points.", "anchors": ["vmmlib/frustum_culler.hpp: setup, _normalize_plane, test_sphere, test_aabb"]}
{"id": "C119", "title": "Projection matrices in IEEE arithmetic", "statement": "compute_matrix and compute_ortho_matrix of a finite proper frustum, evaluated as the language prescribes (double literals and intermediate results, conversion to T), write sixteen finite entries, each within 5 u (relative, plus underflow) of the exact projection matrix, as long as sums and entries fit and the product of near and far is in the range of double. The depth it computes is within a stated error of the exact one, and however rounding falls, a point farther away has a greater depth.", "quantifier": "all binary formats F of T and D of the literals with F no wider than D, all finite proper frusta in range, all distances", "why_tests_cant": "A bound for all frusta; strict monotonicity of depth for all pairs of distances.", "anchors": ["vmmlib/frustum.hpp: compute_matrix, compute_ortho_matrix"]}
{"id": "C120", "title": "QR decomposition in IEEE arithmetic", "statement": "qr_decompose_gram_schmidt never fails in IEEE arithmetic; below the diagonal R is zero and the columns of Q beyond those of A are zero. Wherever the j-th column of Q and the diagonal entry of R come out finite, column j of A equals column j of Q R up to about (j+1) u times |Q||R| (plus underflow), every R(i,j) is the scalar product of column i of Q with column j of A up to the accumulation error, and column j of Q has length 1 up to the error of length() and one division. The columns of Q are orthogonal to working accuracy (fails: the algorithm is classical Gram-Schmidt; an invertible 3x3 matrix of zeros, ones and one small number gives two unit columns of Q with a scalar product of at least 1/2).", "quantifier": "all IEEE formats F, all matrix sizes with N <= M and M u < 1, all matrices of floating point numbers including NaN and infinity", "why_tests_cant": "A bound for all matrices; loss of orthogonality shows only for ill-conditioned inputs.", "anchors": ["vmmlib/qr_decomposition.hpp: qr_decompose_gram_schmidt"]}
{"id": "C121", "title": "The ray-sphere test in IEEE arithmetic", "statement": "For a ray and a sphere of finite numbers whose discriminant terms fit in the format, test_sphere returns a hit or a miss. On a hit t is finite and the point of the ray at t lies on the sphere up to a stated rounding error; on a miss t is unchanged and no point of the ray is inside the sphere by more than a stated rounding error. The direction the constructor stores is a unit vector up to a few u. The error is relative to the radius (fails: relative to the squared distance; in float a sphere of radius 1 at distance 2^14 is reported as hit by a ray that passes it at distance 2). Finite input never gives a hit for a ray that misses by far (fails: overflow makes the discriminant NaN, reported as a hit at parameter NaN), and a sphere with NaN is not hit (fails: always hit, t NaN). The reported intersection is the entry point if the origin is outside and the exit point if it is inside, and the returned parameter is not negative (both unless the origin is on the sphere up to rounding).", "quantifier": "all IEEE formats with p < emax, all rays and spheres", "why_tests_cant": "The error bound holds for all rays and spheres; the failures show only far from the origin or for special values.", "anchors": ["vmmlib/intersection.hpp: Intersection::Intersection, Intersection::test_sphere", "vmmlib/vector.hpp: normalize"]}
{"id": "C122", "title": "Homogeneous products and normalized device coordinates in IEEE arithmetic", "statement": "When a square matrix of floating-point numbers is multiplied with a vector that is one shorter, the result is that of the exact extended product divided by its last coordinate, up to a stated rounding error: if the last row does not overflow, every finite coordinate q of the result satisfies q W = N for the exact coordinates N and W up to the accumulation errors of the two rows and one rounding of the quotient, however close W is to zero; if W is farther from zero than its accumulation error the result is finite and close to N / W; for an affine matrix (last row 0, ..., 0, 1) the division changes nothing. Applied to the matrix a frustum computes and a point in front of the eye, the result is the exact normalized device coordinate up to the stated error, and a point inside the frustum leaves the cube [-1, 1]^3 by no more than that. If the last row overflows, a coordinate silently becomes 0.", "quantifier": "all sizes, all formats, all finite matrices and vectors, all proper frusta within range and all points with negative z", "why_tests_cant": "The error bound and the behaviour near W = 0 quantify over every pair of floating-point operands and every rounding; tests sample a few.", "anchors": ["vmmlib/matrix.hpp: Matrix::operator*( const Vector< O, T >& ) const", "vmmlib/frustum.hpp: Frustum::compute_matrix"]}
{"id": "C123", "title": "Comparisons, extrema and clamping of IEEE numbers, with infinities, signed zeros and NaN", "statement": "For every vector and matrix of IEEE numbers: operator< skips components of which one is NaN or which are the same number and lets the first other one decide; on vectors without NaN it is a strict weak order whose incomparable vectors hold the same numbers (+0 and -0 being the same). find_min and find_max give the first least/greatest of the components that are not NaN, unless the first component is NaN, which then is the answer. clamp puts every component that is not NaN between the bounds, leaving those inside unchanged. Vector::equals( other, tolerance ) is symmetric and reflexive and accepts a component exactly if the rounded difference is below the tolerance, both are the same infinity, or one is NaN; Matrix::equals accepts exactly the finite entries whose rounded difference is below the tolerance. An accepted difference of finite numbers is below the tolerance exactly, and a difference below it by a relative margin u is accepted. operator== of matrices and quaternions holds exactly if all elements are the same numbers. get_min of a matrix is the least of the largest finite number and the elements that are not NaN, get_max the greatest of 0 and those.", "quantifier": "all binary formats, all sizes, all values including infinities, NaN and both zeros, all finite tolerances", "why_tests_cant": "The special values multiply the cases, and the claims about rounding at the tolerance hold for every pair of numbers.", "anchors": ["vmmlib/vector.hpp: operator<, equals, clamp, find_min, find_max, find_min_index, find_max_index", "vmmlib/matrix.hpp: equals, operator==, get_min, get_max", "vmmlib/quaternion.hpp: operator=="]}
{"id": "C124", "title": "pythag, squared and sign in IEEE arithmetic", "statement": "In any binary IEEE format (float and double included) pythag( a, b ) of finite arguments is finite and within ((1+u)^6-1) h + eta of the hypotenuse h = sqrt( a^2 + b^2 ) whenever h itself, with a margin of five roundings, is in range: squares of the arguments may overflow or underflow. It does not depend on the signs of its arguments, nor, when neither is NaN, on their order. Where it differs from a hypotenuse: two infinities give NaN, a NaN first argument with a zero second argument gives 0, a NaN second argument gives NaN. squared( a ) is the correctly rounded square. sign( a, b ) is exact: |a|, with a minus sign exactly if b is below zero or NaN.", "quantifier": "every pair of IEEE numbers of every binary format, special values included", "why_tests_cant": "the claim ranges over every pair of floating point numbers, near overflow and underflow included, and over every format; a test only sees a few pairs", "anchors": ["vmmlib/math.hpp: squared", "vmmlib/math.hpp: pythag", "vmmlib/math.hpp: sign"]}
{"id": "C125", "title": "Algebraic laws that survive rounding exactly, and those that do not", "statement": "In every binary IEEE format: v + w, the componentwise product and dot are commutative bit for bit, infinities and NaN included; the transpose of a matrix product is, bit for bit, the product of the transposes in the other order; length does not see the sign of a vector, distance and squared_distance not the order of the points, and normalize of the opposite vector is the opposite of normalize; multiplication of a finite matrix or vector by the identity, from either side, changes no number (but an infinite entry makes the other entries of its column NaN); v - v is +0, v / v is 1, adding zero and multiplying or dividing by 1 change no number; length is monotone in the magnitudes of the components, is exactly the magnitude for a vector with one non-zero component, and is never below the magnitude of a component, unless the square of that component underflows (overflow also excluded for the exact length). Addition is not associative in any dimension.", "quantifier": "every binary format, every vector and matrix of every size with IEEE entries, special values included", "why_tests_cant": "exact equality of two different orders of evaluation must hold for every combination of floating point values; sampling cannot exclude a single bit that differs", "anchors": ["vmmlib/vector.hpp: operator+, operator-, operator*, operator/, dot, length, distance, squared_distance, normalize", "vmmlib/matrix.hpp: operator*, multiply, transpose_to, IDENTITY"]}
{"id": "C126", "title": "Cross product, normals, planes and spheres in IEEE arithmetic", "statement": "In every binary IEEE format: each component of cross(a,b) is finite if its two products are in range and is the exact one up to two roundings of the magnitudes of its products (and underflow); cross(b,a) is exactly -cross(a,b) for all values, up to the sign of zero; cross(a,a) is +0 wherever the product is finite and NaN elsewhere. compute_normal computes an edge product accurate to four roundings and divides it by its length with the error of normalize. distance_to_plane is within five, and each component of project_point_onto_plane within seven roundings of the magnitudes of its terms. The plane returned by compute_plane contains its first point up to three roundings. distance_to_sphere and project_point_onto_sphere are finite and have a relative error of a small multiple of the unit roundoff whenever the distance from the centre is in the normal range.", "quantifier": "every binary format, all points, planes and spheres with IEEE entries (special values included where the claim is about finite results)", "why_tests_cant": "the error bounds must hold for every combination of floating point inputs, including cancellation and underflow; a sample cannot bound the worst case", "anchors": ["vmmlib/vector.hpp: cross, compute_normal, compute_plane, distance_to_plane, project_point_onto_plane, distance_to_sphere, project_point_onto_sphere"]}
{"id": "C127", "title": "Frustum operations in IEEE arithmetic", "statement": "In every binary IEEE format: set_perspective yields a frustum that is symmetric bit for bit (left is -right, bottom is -top) whatever tan returns, infinities and NaN included; compute_matrix of a symmetric frustum has off-centre entries that are exactly zero and scale entries near/right and near/top with a single rounding, although the code doubles, subtracts and converts between float and double; adjust_near sets the near plane exactly, keeps the far plane, scales each side by the ratio up to two roundings, keeps a symmetric frustum symmetric bit for bit and never exchanges opposite sides; apply_jitter moves each side with one relative rounding, never exchanges opposite sides and with zero jitter changes no number; get_width and get_height have one relative rounding without underflow, are zero exactly if the sides are equal, are exact if the sides are within a factor of two of each other, and are the same for the mirrored frustum.", "quantifier": "every binary format (and every wider literal type allowed by the language model), every frustum and argument with IEEE values, every function in the place of tan", "why_tests_cant": "exact symmetry, exact zeros and monotonicity must hold for every floating point value; a sample cannot exclude one last bit that differs", "anchors": ["vmmlib/frustum.hpp: set_perspective, compute_matrix, adjust_near, apply_jitter, get_width, get_height"]}
{"id": "C128", "title": "Sums, norm and extremes of a matrix in IEEE 754 arithmetic", "statement": "sum_elements() of a float or double matrix returns a double that, if finite, is within ((1+u)^(MN-1) - 1) times the sum of the magnitudes of the exact sum, with no contribution of underflow, and certifies that no cell is an infinity or NaN; it is finite whenever the magnitudes fit. columnwise_sum() has the same bound per column in the element type. frobenius_norm() has a relative error of at most (1+u)^(MN) (1+u_T) - 1 plus the underflow of the squares (none if no square underflows), is finite if every square fits the element type, and is infinite as soon as one cell reaches 2^k with 2k > emax, although its result type is double. get_min, get_max, get_abs_min, get_abs_max ignore NaN cells, never return NaN and return a cell that no other cell exceeds, or the starting value. nnz counts NaN cells and no zero of either sign, nnz(t) counts no NaN, threshold(t) clears exactly the cells not above t and keeps NaN.", "quantifier": "all matrix sizes, all binary IEEE 754 formats for the element and the wider result type, all cells including infinities, NaN and signed zeros, all thresholds", "why_tests_cant": "the bounds hold for every size, every cell value and every order of magnitude; tests sample a few matrices", "anchors": ["vmmlib/matrix.hpp: sum_elements, columnwise_sum, frobenius_norm, get_min, get_max, get_abs_min, get_abs_max, nnz, threshold"]}
{"id": "C129", "title": "Integer data is computed without rounding", "statement": "In every binary IEEE format, dot, squared_length, matrix product, matrix times vector, cross, det (up to 4x4) and sum_elements of integer-valued data are exact as long as the sum of the magnitudes of the terms is at most 2^(p+1) (2^24 in float, 2^53 in double; n! B^n for the determinant of entries up to B). inverse of an integer matrix with determinant 1 or -1 succeeds with every tolerance below 1 and returns the integer inverse exactly, and the computed products with it are exactly the identity. Transforming by a product equals transforming twice. Every integer up to 2^(p+1) is representable and the next one is not.", "quantifier": "every binary format with p < emax, all sizes (inverse and det: up to 4x4), all integer vectors and matrices in the stated range", "why_tests_cant": "bit-exactness for all integers in the range in every format cannot be sampled", "anchors": ["vmmlib/vector.hpp: dot, squared_length, cross", "vmmlib/matrix.hpp: multiply, operator*, det, inverse, sum_elements"]}
{"id": "C130", "title": "Culling laws that hold exactly in floating point", "statement": "In IEEE arithmetic, with no error allowance: growing a sphere never turns it invisible (radii 0 <= r <= r': NONE for r' implies NONE for r, FULL for r' implies FULL for r), for any planes and centre including infinite and NaN ones; a sphere of radius +-0 is never PARTIAL and is NONE exactly if some computed plane value is <= 0; a sphere of infinite radius is PARTIAL when its plane values are finite, one of NaN radius is always FULL; the verdict of test_sphere and test_aabb does not depend on the order of the six planes, and a culler whose planes are a subset of another's is never stricter; mirroring frustum and object in any coordinates leaves both verdicts unchanged; the bounds of a box interval may be given in either order; growing a box about its centre never hides it.", "quantifier": "all formats, planes, spheres, boxes and radii, including overflow to infinity, NaN and signed zeros where stated", "why_tests_cant": "The laws are about all pairs of inputs, and rounding could break them at isolated values; only the exactness of signs and the monotonicity of rounding exclude that.", "anchors": ["vmmlib/frustumCuller.hpp: test_sphere, test_aabb"]}
{"id": "C131", "title": "Changing the unit of length by a power of two is exact", "statement": "If all coordinates are multiplied by a power of two, the floating-point results change by exactly the corresponding power of two, rounding errors included: dot, cross, matrix products and matrix-vector products by 2^(k+l), squared_length and squared_distance by 4^k, length and distance by 2^k; the normalized vector and the verdict of test_sphere do not change at all. This holds as long as no product loses digits to underflow and the scaled result does not overflow.", "quantifier": "All IEEE formats, all dimensions, all finite vectors, matrices, planes and spheres, all powers of two", "why_tests_cant": "It is an equality of all the rounded intermediate values for every input; a test compares a few scaled scenes and cannot exclude a rounding that breaks the symmetry", "anchors": ["vmmlib/vector.hpp: dot, cross, length, squared_length, distance, squared_distance, normalize", "vmmlib/matrix.hpp: operator*, multiply", "vmmlib/frustum_culler.hpp: test_sphere"]}
{"id": "C132", "title": "From the frustum to the culling verdict in IEEE arithmetic", "statement": "The whole floating-point chain compute_matrix (or compute_ortho_matrix), optional product with a model-view matrix, frustum_culler::setup, test_sphere or test_aabb errs only within an explicit margin of a few dozen units in the last place of the terms: an object with a point inside the exact view volume by more than the margin is never culled, and no point of an object reported fully visible is outside the exact volume by more than the margin. For perspective frustums this needs the near distance to be at least 40u times the far distance and the other extents (C117 shows that below u/4 the far plane is lost).", "quantifier": "All IEEE formats with at least 10 fraction bits, all proper frustums in range, all model-view matrices, all spheres and boxes, all points of them", "why_tests_cant": "The claim is a bound on the accumulated rounding of a chain of hundreds of operations for every frustum, view and object; tests only sample scenes, and the failures sit at the boundary", "anchors": ["vmmlib/frustum.hpp: compute_matrix, compute_ortho_matrix", "vmmlib/matrix.hpp: operator*", "vmmlib/frustum_culler.hpp: setup, test_sphere, test_aabb"]}
{"id": "C133", "title": "Copies between float and double objects", "statement": "Copying a float Vector, Matrix (cast_from and converting assignment) or Frustum into a double one keeps every component exactly (value, sign of zero, infinity, NaN) and keeps every comparison (vector operator<, position of the minimum and maximum, matrix operator== and !=); copying the result back gives exactly the original. Copying double into float gives, for every component, the nearest float (error at most u |x| + eta), or the infinity of its sign only if the magnitude exceeds the largest finite float, and never reverses the order of two components - although the lexicographic order of whole vectors can be reversed.", "quantifier": "all formats F no wider than D, all vectors and matrices of every size, all frusta, all component values including NaN, infinities and signed zeros, all prior contents of the target", "why_tests_cant": "The claims are about every one of the 2^32 (2^64) values in every position and every pair of values; a test samples a few.", "anchors": ["vmmlib/vector.hpp: operator=( const Vector< M, U >& ), cast_from", "vmmlib/matrix.hpp: operator=( const Matrix< P, Q, U >& ), cast_from", "vmmlib/frustum.hpp: operator=( const Frustum< U >& )"]}
{"id": "C134", "title": "Incremental rotations in floating point", "statement": "rotate_x, rotate_y, rotate_z and their pre_ forms, in IEEE arithmetic with a sine and cosine accurate to sigma: a call on a matrix of finite entries gives finite entries within 2((1+u)^2(1+sigma)-1)(|m|+4 tiny) (Frobenius norm) of the exact product with the rotation; after any history of n calls on any axes, in both forms, by any finite angles, the drift from the exact product is at most ((1+2k)^n - 1) times the size of the matrix; a matrix that starts as a rotation therefore stays within that distance of an exact rotation. With float and a library accurate to 2^-23, a thousand calls stay within 1/1000.", "quantifier": "all formats, all libraries of accuracy sigma, all matrices of finite entries with headroom, all finite angles, all histories of calls of any length", "why_tests_cant": "Histories are unbounded and the error of each call depends on every bit of the angle and the entries.", "anchors": ["vmmlib/matrix.hpp: rotate_x, rotate_y, rotate_z, pre_rotate_x, pre_rotate_y, pre_rotate_z"]}
{"id": "C135", "title": "What byte-wise equality of float and double vectors means", "statement": "Vector operator== compares bytes. For float and double: every number (both zeros and the infinities included) has exactly one bit pattern, and the NaN patterns are those with an exponent field of ones and a non-zero fraction; so v == w holds exactly if all components are the same number with the same sign of zero, a NaN equalling only a NaN of the same bits; for vectors without NaN it is component-wise IEEE equality except that it fails on zeros of opposite signs, and it never holds for different numbers. operator<, the extremum indices and Matrix ==/!= decide on the patterns in memory what they decide on the values.", "quantifier": "all vectors and matrices of all sizes, all 2^32 float and 2^64 double bit patterns in every position", "why_tests_cant": "The claim is about every pattern, NaN payloads and subnormals included, in every position of vectors of every size.", "anchors": ["vmmlib/vector.hpp: operator==, operator!=, operator<, find_min_index, find_max_index", "vmmlib/matrix.hpp: operator==, operator!="]}
{"id": "C136", "title": "Convolution in floating point", "statement": "convolve of a square matrix with a square kernel, products in the element type, sum in double, result rounded to the element type: it returns; every finite cell of the result is within ((1+u)^2 (1+u_d)^(c-1) - 1) S + O(c eta) of the exact edge-extended sum of the c products whose magnitudes add up to S, and then no infinity or NaN was under the kernel; the cell is finite whenever the numbers under the kernel are and S leaves room. An averaging kernel never enlarges the largest magnitude beyond that error, and the kernel of a single 1 gives back every number exactly.", "quantifier": "all formats (float, double), all sizes of matrix and kernel, all contents, all cells, all configurations", "why_tests_cant": "The rounding error depends on every operand; sizes are unbounded.", "anchors": ["vmmlib/matrix.hpp: convolve"]}
{"id": "C137", "title": "Quantising floating point matrices and back, in IEEE arithmetic", "statement": "With float or double elements between min_value and max_value and an unsigned code type with R steps, quantize_to() never converts an unrepresentable number to long; every code lies in 0..R and is, up to 8uR for the roundings, a nearest code; a larger element never gets a smaller code; with 8uR < 1/2 the ends of the range get the codes 0 and R; dequantize() with the same range stays in the range and returns every element up to half a step and a stated rounding error. quantize(), which finds the range itself, has the same guarantee unless all elements are one number >= 0: then it converts 0/0 to long, which is undefined behaviour (violated). With a signed code type and min_value <= 0 <= max_value the conversion is defined too, the order is kept, and a code differs from the scaled element (brought into the range of the type) by at most half a step if the element is not negative and one and a half steps otherwise; going back loses that, the roundings, and whatever of the scaled element lies outside the range of the type.", "quantifier": "all matrix sizes, all finite elements, all ranges and step counts that fit, float and double, all formats with at least 6 significant digits", "why_tests_cant": "the bounds concern every combination of five roundings over all floating point inputs and ranges", "anchors": ["vmmlib/matrix.hpp: quantize_to", "vmmlib/matrix.hpp: quantize", "vmmlib/matrix.hpp: dequantize", "vmmlib/matrix.hpp: get_min", "vmmlib/matrix.hpp: get_max"]}
{"id": "C138", "title": "scale_to in IEEE arithmetic", "statement": "With float or double elements between -a and a and an integer target type whose greatest value leaves four digits of the format unused, scale_to(result,-a,a) always returns; every code lies between 0 and the greatest value and is the truncated place of the element up to 7uR; a larger element never gets a smaller code; -a gets 0; a gets the greatest code if a is a power of two (as in the default range), otherwise the greatest or the one below (7 with bytes gets 254: violated). For a target type with three more digits than the format (float to 32-bit, double to 64-bit integers) the upper end of the default range is undefined behaviour (violated).", "quantifier": "all vector sizes, all finite elements in range, all symmetric ranges and greatest codes that fit, float and double", "why_tests_cant": "the roundings of range, scale and product combine differently for every range and element", "anchors": ["vmmlib/vector.hpp: scale_to"]}
{"id": "C139", "title": "Component-wise vector functions in IEEE arithmetic", "statement": "reciprocal() replaces every component by its correctly rounded reciprocal, exchanging zeros and infinities; applied twice it returns components in the middle range up to 3u; reciprocal_safe() replaces zeros of both signs by the greatest finite number and gives finite results for normal numbers, but not for the smallest subnormal ones (violated); sqrt_elementwise() is correctly rounded with relative error u even for subnormal numbers, gives NaN for negative ones and keeps the order; set_random() gives components in [-1,1], monotone in the random number, -1 for 0 and 1 for RAND_MAX; perturb() moves every component by plus or minus the perturbation with one rounding.", "quantifier": "all vector sizes, all components including zeros, infinities, subnormal numbers and NaN, all random sequences, all formats", "why_tests_cant": "the claims cover every floating point number, including the corner cases where the reciprocal overflows", "anchors": ["vmmlib/vector.hpp: reciprocal", "vmmlib/vector.hpp: reciprocal_safe", "vmmlib/vector.hpp: sqrt_elementwise", "vmmlib/vector.hpp: set_random", "vmmlib/vector.hpp: perturb"]}
{"id": "C140", "title": "is_positive_definite in IEEE arithmetic decides the leading minors up to a stated error", "statement": "For every 1x1, 2x2 or 3x3 matrix of IEEE 754 numbers and every limit, is_positive_definite returns, and returns true exactly when no computed leading principal minor (the det() of the upper left block) is below the limit. If the entries are bounded so that no block determinant overflows, true implies that every exact minor is at least limit minus a stated error bound, and false that some minor is below limit plus the bound. Hence a symmetric matrix accepted with a limit above the error bounds is positive definite in the exact sense, and a positive definite matrix is accepted with every limit below minus the bounds. A NaN should not be accepted (it is: violated).", "quantifier": "all matrices of order 1 to 3 over any IEEE format, all limits, both assertion configurations", "why_tests_cant": "Tests compare with a few hand-picked well conditioned matrices; whether rounding can make an indefinite matrix pass depends on all entries, limits and formats.", "anchors": ["vmmlib/matrix.hpp: is_positive_definite, get_sub_matrix, det, compute_determinant"]}
{"id": "C141", "title": "A quaternion read from a rotation matrix in IEEE arithmetic is the rotation's quaternion up to a stated error", "statement": "If the upper left block of a matrix is, entry by entry, within delta of the rotation by a unit quaternion Q, then set( matrix ) in IEEE arithmetic (with the double literals and either overload of sqrt) returns finite components within (3 delta + 36 u) / w^2 of Q or of -Q, when w^2 is not too small; for rotations by nearly a half turn the components are within 10 delta + 116 u of Q or -Q up to the sign of the real part, hence within this plus the square root of the trace threshold of Q or -Q. Converting a nearly normalised quaternion to a matrix and back returns the quaternion up to sign and a stated error.", "quantifier": "all IEEE formats of at least ten bits, all matrices of order at least 3, all unit quaternions, all errors delta up to 1/100, all thresholds up to 1/8, both assertion configurations", "why_tests_cant": "The case distinction on the trace and on the largest diagonal entry, and the loss of accuracy near its boundaries, depend on all rotations; tests try a few angles.", "anchors": ["vmmlib/quaternion.hpp: set( const Matrix& ), QUATERNION_TRACE_EPSILON, get_rotation_matrix", "vmmlib/vector.hpp: find_max_index"]}
{"id": "C142", "title": "rotate( angle, axis ) is accurate in IEEE arithmetic for any usable math library", "statement": "With float or double components and std::sin, std::cos, std::pow accurate to sigma, matrix.rotate( angle, axis ) for a finite angle and an axis that is a unit vector up to alpha gives only finite entries; the upper left block is within 18 ( sigma + alpha + u ) of the exact rotation by the angle about the axis (counter-clockwise, Rodrigues), the last row and column are exactly those of the identity, and nothing of the previous content survives. If sine and cosine are exactly 0 and 1 the result is exactly the identity. An axis obtained from normalize() is good enough (alpha <= 11 u), and the quaternion constructed from the matrix is +-( cos a/2, sin a/2 * axis ) up to an explicit bound.", "quantifier": "all finite angles, all axes within alpha of a unit vector, all libraries with the stated accuracy, all previous contents, all formats with at least ten bits and more exponents than bits", "why_tests_cant": "The bound must hold for each of the 2^32 (2^64) angles, for each axis and for each conforming math library.", "anchors": ["vmmlib/matrix.hpp: rotate", "vmmlib/vector.hpp: normalize", "vmmlib/quaternion.hpp: Quaternion( const Matrix< 4, 4, T >& )"]}
{"id": "C143", "title": "Spherical interpolation in floating point follows the great arc", "statement": "For finite quaternions p and q whose lengths neither overflow nor underflow, 0 <= a <= 1 and 0 <= epsilon <= 1/8, the components of Quaternion< float >::slerp( a, p, q, epsilon ) (and of the double version) are finite, and they differ by at most 230 ( sigma + u ) + 2 epsilon from the point at the fraction a of the great arc from p / |p| to q / |q| or -q / |q|, whichever is on the side of p (up to 33 u in the cosine), where sigma is the relative error of the library's sin and atan2; the length of the result is 1 up to 260 ( sigma + u ). So neither the switch to linear interpolation nor the cancellation in sqrt( 1 - cosine^2 ) for nearly equal quaternions makes the result jump.", "quantifier": "every pair of finite quaternions in range, every fraction in [0,1], every epsilon in [0,1/8], every binary format with at least 9 fraction bits and every library with the stated accuracy", "why_tests_cant": "the dangerous inputs are nearly equal quaternions, where the sine is the root of a difference that has lost almost all of its digits; the set of such pairs is far too large to sample, and an error there is invisible for other inputs", "anchors": ["vmmlib/quaternion.hpp: Quaternion::slerp, get_normalized, dot"]}
{"id": "C144", "title": "Rotating a vector about an axis in floating point", "statement": "For a finite angle, a finite axis of any length that neither overflows nor underflows, and a vector of any magnitude up to a quarter of the overflow threshold, Vector< 3, T >::rotate( theta, axis ) returns finite components that differ from the right-handed rotation of the vector by theta about the axis by at most 28 ( sigma + 12 u ) times the sum of the magnitudes of the vector's components (plus the smallest normal number), sigma being the absolute accuracy of the library's sin and cos. The exact rotation preserves length and the component along the axis, so rotate does so up to that error.", "quantifier": "every finite vector, axis and angle in range; every binary format with at least 9 fraction bits; every library of the stated accuracy", "why_tests_cant": "the claim is about all magnitudes of vector and axis, down to the underflow threshold, and all angles", "anchors": ["vmmlib/vector.hpp: Vector::rotate, normalize"]}
{"id": "C145", "title": "The DCT matrix in IEEE arithmetic", "statement": "set_dct() on float or double elements, for every matrix size whose integers (2 N M, 2 M) have at most p+1 binary digits and any math library whose cosine is within sigma of the true one: every entry is finite and within sigma + (13 N + 10) u + 6 u' of the entry of the orthonormal DCT-II basis (u of double, u' of the element type), and for square matrices the rows and the columns are orthonormal up to 3 M times that.", "quantifier": "all matrix sizes that fit, all previous contents, float and double elements, all libraries of the stated accuracy, all configurations", "why_tests_cant": "the sizes are unbounded and the error of the cosine's argument grows with the size; a test sees a few sizes and one library", "anchors": ["vmmlib/matrix.hpp: set_dct", "vmmlib/math.hpp: M_PI"]}
{"id": "C146", "title": "Translation and scaling matrices in IEEE arithmetic", "statement": "On float or double elements: create_translation(t) and create_scaling(s) (vector or scalar) produce matrices holding exactly t and s; applying a translation matrix to a point gives, in each coordinate, the exact p_i + t_i rounded once, and a scaling matrix gives p_i * s_i rounded once, the homogeneous division adding no error; apply_translation leaves the first three columns unchanged in value and computes the last one within the usual four-term sum error; applying a translation to a translation matrix gives the translation matrix of the once-rounded sums; create_rotation is the rotation set on any matrix.", "quantifier": "all finite translations, scalings and points whose results do not overflow, all IEEE formats, all build configurations", "why_tests_cant": "whether the zeros and ones of the matrix and the final division really contribute no rounding has to hold for every finite value, including subnormal ones; tests see a few", "anchors": ["vmmlib/util.hpp: create_translation, apply_translation, create_rotation, create_scaling", "vmmlib/matrix.hpp: operator*(matrix, vector), scale, set_translation, operator*(vector of M-1)"]}
{"id": "C147", "title": "Covariance, Kronecker and Khatri-Rao products, pair sums and random matrices in IEEE arithmetic", "statement": "On float or double elements: symmetric_covariance() is bit for bit the product of the matrix with its transpose, exactly symmetric, with every entry within the accumulated-sum error of the exact one and no overflow when there is room; its diagonal is never negative and at least each rounded square of the row; it is positive semidefinite up to the errors of the entries. Every entry of kronecker_product() and khatri_rao_product() is the exact product of the two entries rounded once, every entry of sum_rows() and sum_columns() the exact sum of the pair rounded once. set_random() of a matrix gives finite entries in [-1, 1], monotone in the random numbers, with both ends reached.", "quantifier": "all sizes, all entries including infinities and NaN for the bit-for-bit claim, all previous contents of the target, all IEEE formats, all build configurations, all random sequences", "why_tests_cant": "the claims range over all sizes and all floating point numbers; symmetry and sign of a rounded result cannot be inferred from samples", "anchors": ["vmmlib/matrix.hpp: symmetric_covariance, kronecker_product, khatri_rao_product, sum_rows, sum_columns, set_random"]}
{"id": "C148", "title": "set_perspective in IEEE arithmetic", "statement": "For float or double elements and any library tangent of relative accuracy tau: the top of the frustum built by set_perspective( fov, aspect, near, far ) is finite, not negative and equal to tan( fov/2 ) / 2 up to the relative error 16 u' / cos( fov/2 ) + 2 (tau + u' + u) (u' of double, u of the element type) plus the smallest number; bottom and left are the exact negatives of top and right, right is top * aspect rounded once; with the near plane at 1/2 the vertical angle of the result is the requested one in degrees up to 230 times that error; and with a monotone library tangent a larger angle never gives a smaller frustum.", "quantifier": "all angles in (0, 180) whose half has a cosine of at least 40 u' and whose tangent leaves a factor 2 of room, all aspect ratios and planes, all previous frusta, all library tangents of the stated accuracy, float and double elements", "why_tests_cant": "the amplification of the argument's rounding near 180 degrees depends on the angle and the library; a test sees a few angles and one library", "anchors": ["vmmlib/frustum.hpp: set_perspective", "vmmlib/math.hpp: M_PI"]}
{"id": "C149", "title": "The computed inverse undoes the matrix in IEEE arithmetic", "statement": "For 2x2, 3x3 and 4x4 float or double matrices in range on which inverse() returns true with a tolerance above the error of the determinant: the computed products of the matrix with its computed inverse, in either order, are the identity up to the errors of the inverse's entries times the entries of the matrix plus the rounding error of the product; and a vector transformed by the matrix and then by the computed inverse returns, in every component, up to a stated bound.", "quantifier": "all matrices and vectors in range, all tolerances above the determinant's error, all IEEE formats, all previous contents of the target, all build configurations", "why_tests_cant": "the error depends on the conditioning of the matrix; tests only see a few well-conditioned ones", "anchors": ["vmmlib/matrix.hpp: inverse, operator*, multiply"]}
{"id": "C150", "title": "A history of matrix products in IEEE arithmetic", "statement": "Accumulating any number n of square matrices of a floating-point type with operator*= gives, provided the row sums of the matrices are at most beta, those of the start at most rho, and the bound leaves room below the largest number, a finite matrix each row of which differs from the exact product by at most ((1+g)^n - 1) beta^n rho + n ((1+g) beta)^n pad, where g = N u / (1 - N u) and pad is the underflow of one product. Transforming a vector by the accumulated matrix then has the stated error.", "quantifier": "every binary format, every dimension N with N u < 1, every list of finite matrices, every start matrix, every vector", "why_tests_cant": "the claim ranges over every history length and every matrix; rounding errors of products accumulate over the history", "anchors": ["vmmlib/matrix.hpp: operator*=, multiply, operator*(vector)"]}
{"id": "C151", "title": "Culling planes from eight corners in IEEE arithmetic", "statement": "For eight corners with finite floating-point coordinates of magnitude at most B (1 <= B, 256 B^4 in range), FrustumCuller::setup( a, ..., h ) succeeds with finite planes, each of which agrees at every real point with the exact plane through its three corners (normalised as the code does, with the homogeneous 1) up to a stated error proportional to the machine epsilon, the distance from the corner and the condition B^2 / length of the triangle. Hence test_sphere and test_aabb decide as the exact planes do, up to a stated error per face: nothing is culled that has a point in front of all exact planes by more than the error, and nothing is reported fully visible that has a point behind one by more than it.", "quantifier": "every usual binary format, all corners, all spheres and boxes with coordinates of magnitude at most B, every build configuration", "why_tests_cant": "the claim ranges over all floating-point corners and objects; a test sees a few frusta and misses nearly degenerate ones", "anchors": ["vmmlib/frustum_culler.hpp: setup( corners ), testSphere, testAabb", "vmmlib/vector.hpp: compute_plane"]}
{"id": "C152", "title": "Any mixture of matrix writes, including calls that throw", "statement": "In a checked build that throws, after any history of at( r, c ) = x, set_row, set_column, set_sub_matrix, fill and assignments from a std::vector, with any indices, offsets and lengths, in which the caller catches every exception: exactly the calls whose arguments do not fit have thrown, and every cell holds the value last stored in it or its initial value, where a call that throws stores nothing, except that set_sub_matrix has stored the part of the block that lies inside the matrix before the first store that fails. In every build, a history whose arguments all fit never fails and has the same final matrix. Writes that share no cell commute, and a write that is overwritten later can be left out.", "quantifier": "every M,N, element type, initial matrix and every finite history of calls with every argument (offsets and sizes without wrap-around)", "why_tests_cant": "there are infinitely many interleavings of the calls and their failures", "anchors": ["vmmlib/matrix.hpp: at, set_row, set_column, set_sub_matrix, fill, operator=( std::vector )"]}
{"id": "C153", "title": "Order survives rounding exactly", "statement": "For every IEEE format, and with infinities allowed, computed results keep the order of their operands, with no error allowance: v + w is monotone in both operands, v - w monotone in the first and antitone in the second, v * s monotone for s >= 0 and v / s for s > 0; dot, matrix * vector and matrix * matrix are monotone in an operand when the other has no negative entry; sum_elements and columnwise_sum are monotone in the cells, frobenius_norm in their magnitudes; convolve with a kernel without negative entries never makes a cell smaller when the image gets brighter; and the low-pass filter, over any history of add and set_smooth_factor calls with factors in [0,1], never gives a smaller value for larger samples. The only exception is that one of the two results is NaN (as inf - inf or 0 * inf).", "quantifier": "all formats, sizes, build configurations, operands (finite or infinite) and filter histories", "why_tests_cant": "Monotonicity relates two executions on arbitrary ordered inputs through every rounding, overflow and underflow; sampling pairs of inputs settles none of the others.", "anchors": ["vmmlib/vector.hpp: operator+, operator-, operator*, operator/, dot", "vmmlib/matrix.hpp: multiply, operator*, sum_elements, columnwise_sum, frobenius_norm, convolve", "vmmlib/lowpass_filter.hpp: add, set_smooth_factor"]}
{"id": "C154", "title": "Any schedule of threads that share only what they read", "statement": "When several threads make library calls (dot, vector addition, +=, *=, assignment, squared length, matrix * vector, matrix multiply, +=, multiply_piecewise and transpose_to, culler sphere test, merging a point or a box into a box, isIn) and no thread writes an object that another thread reads or writes, then under every interleaving of their element accesses every thread gets exactly the results it would get running alone, its objects end with the contents they would have alone, objects nobody writes keep theirs, no two threads ever contend for an element, and every thread finishes once it has been scheduled as often as it has accesses. const calls write nothing. The library does no locking: without the separation an update can be lost, and a box shared by two merging threads need not contain both points.", "quantifier": "all schedules, numbers of threads, sequences of calls per thread, sizes, memory contents, element types, build configurations", "why_tests_cant": "the number of interleavings grows exponentially with the number of accesses, a test run exercises one of them, and a race that is not exercised leaves no trace", "anchors": ["vmmlib/vector.hpp: dot, operator+, operator+=, operator*=, operator=, squared_length", "vmmlib/matrix.hpp: operator*(Vector), multiply, operator+=, multiply_piecewise, transpose_to", "vmmlib/frustum_culler.hpp: test_sphere", "vmmlib/aabb.hpp: merge(point), merge(aabb), isIn"]}
{"id": "C155", "title": "From the arguments of set_perspective to the culling verdict in IEEE arithmetic", "statement": "For element type float or double and every angle from 1 to 170 degrees, aspect ratio from 1/16 to 16, near distance from 1/16 to 16 and far distance from 2 to 16384 times the near distance, the chain set_perspective, compute_matrix, frustum_culler::setup, test_sphere / test_aabb, with every step rounded, succeeds without any overflow or loss, and decides about the exact view volume its arguments describe (vertical slope tan(fov/2)/(2 near), which is the requested angle for near = 1/2, C63): an object is not culled if one of its points is in that pyramid by more than explicit margins (about 32 units in the last place of the coordinates plus the relative slope error of at most 203 u + 2 tau times the extent), and it is reported fully visible only if all its points are in the pyramid up to the margins.", "quantifier": "all everyday angles, aspect ratios, near and far planes, all library tangents of relative accuracy tau <= 1/1024, all formats with the precision and range of float at least, all spheres and boxes with coordinates up to 2^40, all their points, all previous frusta and matrices, all build configurations", "why_tests_cant": "Four rounded steps composed, for all parameters and all points of all objects; a test checks single verdicts far from the boundary.", "anchors": ["vmmlib/frustum.hpp: set_perspective, compute_matrix", "vmmlib/frustum_culler.hpp: setup, test_sphere, test_aabb"]}
{"id": "C156", "title": "Calls made under a lock are atomic", "statement": "If every thread takes one lock around each of its calls, threads may share and write whatever objects they like: for every schedule there is an order of the finished calls, keeping each thread's own order, such that every result returned and the contents of every object are those of making the calls one after the other in that order; only the holder of the lock is inside a call, nobody can be locked out for ever, a box into which many threads merge points and boxes ends the same whatever the schedule, as if all had been merged in any one order, and an accumulator ends as its initial value plus everything that was added.", "quantifier": "every set of threads, every list of calls per thread, every sharing of the objects, every initial memory and every schedule", "why_tests_cant": "A test runs a handful of schedules out of unboundedly many, and the contents of a shared object depend on the schedule", "anchors": ["vmmlib/vector.hpp: dot, operator+, operator+=, operator*=, operator=, squared_length", "vmmlib/matrix.hpp: operator*(Vector), multiply, operator+=, multiply_piecewise, transpose_to", "vmmlib/frustum_culler.hpp: test_sphere", "vmmlib/aabb.hpp: merge(point), merge(aabb), isIn"]}
{"id": "C157", "title": "Culling in world coordinates in IEEE arithmetic: from set_perspective and a model-view matrix to the verdict", "statement": "For everyday arguments of frustum::set_perspective and every model-view matrix that places a camera (orthonormal rotation part up to 1/8 in the scalar products of its rows, last row 0 0 0 1, translation at most 2^35), the chain set_perspective, compute_matrix, projection * modelview, frustum_culler::setup, test_sphere or test_aabb never fails in float or double, every step rounded; a sphere or box in world coordinates (coordinates at most 2^35) with a point that the camera sees in the described pyramid by more than an explicit margin is not reported invisible, and one reported fully visible has all of its points seen by the camera in the pyramid up to the margin.", "quantifier": "all formats with at least 21 significant digits and an exponent range of at least 120, all tangent functions of the library with a relative error of at most 1/1024, all everyday arguments, all camera placements, all spheres and boxes and all of their points", "why_tests_cant": "The claim ranges over all projections, all camera placements and all objects, and every step rounds; a test compares the verdict for a few scenes.", "anchors": ["frustum.hpp: set_perspective, compute_matrix", "matrix.hpp: operator*", "frustum_culler.hpp: setup, test_sphere, test_aabb"]}
{"id": "C158", "title": "Culling the bounding box of a mesh in IEEE arithmetic", "statement": "An AABB that is emptied with setEmpty and then merged, in any order, with all vertices of a mesh and the boxes of all of its parts, and that is then given to frustum_culler::test_aabb with a camera set up from set_perspective and a model-view matrix, never fails in float or double; if the camera sees any point of the convex hull of the vertices and parts (any point of any triangle) in the described pyramid by more than an explicit margin, the box is not reported invisible, and if the box is reported fully visible, the camera sees every such point in the pyramid up to the margin.", "quantifier": "all histories of merge calls with points and boxes whose coordinates are at most 2^34, all points of their convex hull, all everyday projections and camera placements, all formats with the precision and range of float or more", "why_tests_cant": "The set of vertices, the order of the calls, the camera and the point of the hull are unbounded or continuous; a test sees a few meshes.", "anchors": ["aabb.hpp: setEmpty, merge", "frustum.hpp: set_perspective, compute_matrix", "matrix.hpp: operator*", "frustum_culler.hpp: setup, test_aabb"]}
{"id": "C159", "title": "Quaternion::is_akin in IEEE arithmetic", "statement": "q.is_akin( a, delta ) accepts finite quaternions exactly if in every component the difference, rounded to the element type and then to float, is finite and at most delta. Hence accepted differences are at most delta up to two roundings and the underflow of float, differences up to a delta that is a float are accepted, and with float elements nothing but the rounding of the difference intervenes. (A user would expect that with double elements the comparison is made in double: it accepts non-zero differences below the range of float with delta 0, and rejects differences above that range whatever delta is.)", "quantifier": "all pairs of finite quaternions and all finite tolerances, in any pair of binary formats (float and double, float and float)", "why_tests_cant": "The criterion is about all values of two formats with their roundings, underflow and overflow.", "anchors": ["quaternion.hpp: is_akin"]}
{"id": "C160", "title": "Comparison up to the sign of rows or columns, with a tolerance, in IEEE arithmetic", "statement": "The functors that compare two float or double matrices up to the sign of each row (or of each column) with a tolerance accept exactly if for each row (column) one sign makes every rounded difference smaller than the tolerance. In particular a matrix of which any set of rows (columns) was negated is accepted for every positive tolerance; for finite matrices an accepted pair is closer than the tolerance in exact arithmetic for one sign per row (column), and a pair closer by the relative margin u is accepted. Elements that are NaN always pass.", "quantifier": "every format, size, pair of matrices (infinities, signed zeros and NaN included), finite tolerance and set of negated rows or columns", "why_tests_cant": "the claim ranges over all matrices of floating point numbers and all sets of sign changes", "anchors": ["vmmlib/matrix_functors.hpp: matrix_equals_allow_inverted_rows, matrix_equals_allow_inverted_columns", "vmmlib/vector.hpp: equals, negate"]}
{"id": "C161", "title": "Neither the sign of a zero nor the order of merges affects culling", "statement": "In IEEE arithmetic, two projection or model-view matrices, spheres or boxes that differ only in the signs of zeros get the same visibility from the whole sequence: product of the matrices, set up of the culler, test of the sphere or box. The bounding box of a mesh that is built by merging the same points and boxes in another order differs at most in the signs of zeros, so it gets the same visibility too. (reciprocal() is an operation that does tell the zeros apart.)", "quantifier": "every format, configuration, pair of inputs equal up to the signs of zeros, infinities and NaN included, start box, list of merges and permutation of it", "why_tests_cant": "it ranges over all pairs of inputs, all floating point values and all orders of a list of any length", "anchors": ["vmmlib/frustum_culler.hpp: setup, _normalize_plane, test_sphere, test_aabb", "vmmlib/axisAlignedBoundingBox.hpp: merge", "vmmlib/matrix.hpp: operator*"]}
{"id": "C162", "title": "Cubes around a point in IEEE arithmetic", "statement": "The box constructed (or set) from a centre and a size in floating point contains, by isIn and isIn2d, every representable point whose coordinates differ from the centre by at most the size, so rounding loses no point and the centre is always in. A point that is in differs from the centre by at most the size and one rounding of the corner. A larger size gives a larger cube. All this also when a corner overflows to infinity.", "quantifier": "every format, configuration, finite centre, size and point, and previous content of the box", "why_tests_cant": "it ranges over all floating point centres, sizes and points, including those where the corner is rounded towards the centre or overflows", "anchors": ["vmmlib/axisAlignedBoundingBox.hpp: AABB( cx, cy, cz, size ), set, isIn, isIn2d"]}
{"id": "C163", "title": "manhattan() in IEEE arithmetic", "statement": "For vectors of floating point numbers manhattan() is the sum of the magnitudes up to the relative error (1+u)^M - 1, without any error from underflow, and is a number whenever the sum stays below the largest number by that factor; it is at least the magnitude of every component, zero only for the zero vector, and does not depend on the signs of the components.", "quantifier": "every format, dimension and vector, overflow, infinities and NaN included", "why_tests_cant": "it ranges over all dimensions and all vectors of floating point numbers", "anchors": ["vmmlib/util.hpp: manhattan"]}
{"id": "C164", "title": "The free functions equals, min and max in IEEE arithmetic", "statement": "equals( a, b ) on floating point numbers is true exactly if both are finite and the rounded difference is below the fixed tolerance; since that is absolute, for numbers of magnitude at least one it is the comparison with ==, and all numbers below a quarter of the tolerance are equal to each other. min and max of two vectors return, in each component, one of the two numbers, the smaller (larger) on the extended line; with a NaN on either side it is the component of the first vector.", "quantifier": "every format, dimension, pair of numbers and vectors, infinities, signed zeros and NaN included", "why_tests_cant": "it ranges over all pairs of floating point numbers", "anchors": ["vmmlib/util.hpp: equals, min, max"]}
