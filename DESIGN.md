# Formal model of VMML/vmmlib in Lean 4

## What is modelled

`/repo/vmmlib` is a header-only template library: vectors, matrices, quaternions,
frusta, culling, bounding boxes, ray/sphere intersection, a low-pass filter, a QR
decomposition and some helpers. The model in `lean/Verif/Model` has one Lean definition per C++ function. The
definitions are *generic in the scalar type* and use only operation classes (`Add`, `Mul`,
`LT` with decidability, ...; no algebraic laws), exactly like the C++ templates. Laws appear only in the theorems, so that one
model is used with

* an arbitrary type (data movement), an arbitrary linear order (comparisons),
* an arbitrary commutative ring (covers machine integers with wrap-around, e.g. `BitVec n`, `UInt32`, and ℤ, ℝ),
* the reals ℝ (the exact-arithmetic reading of `float`/`double` code),
* a rounded-arithmetic type (every operation perturbed by an arbitrary relative error ≤ u),
* a type with IEEE specials (NaN, ±∞, signed zero) for the comparison behaviour.

Loops are modelled as loops (`loop n body state`, see `Verif/Core`), with the body in an
error monad `Res = Except Fault`. `Fault` has three outcomes: `thrown` (vmmlib exception), `aborted`
(failed `assert`) and `ub` (out-of-bounds or otherwise undefined behaviour). A configuration
`Cfg` carries `VMMLIB_SAFE_ACCESSORS`, `VMMLIB_THROW_EXCEPTIONS` and `NDEBUG`.
Undefined behaviour is never assumed away: array accesses outside the array produce `Fault.ub`, and the theorems
show that it is not reached (or exhibit where it is).

Functions whose operands may alias `*this` are modelled a second time in a small heap model (object references
into a store).

## Layout

* `lean/Verif/Core/*` – error monad, loops and their proof rules.
* `lean/Verif/Model/*` – the model; every definition cites file and lines.
* `lean/Verif/Proofs/*` – helper lemmas.
* `lean/Verif/Props/*` – the property theorems, one file per area, with non-vacuity examples beside them. `Props/Witness.lean` and `Props/Witness2.lean` apply the theorems whose file has no example to a concrete, non-trivial case, discharging every hypothesis.

## Trusted base

* Lean 4.33.0's kernel; axioms `propext`, `Classical.choice`, `Quot.sound` only (via Mathlib). No axioms of our own.
* The hand translation from C++ to the model (the code is not run here). Template instantiation, overload resolution and `enable_if`
  are resolved by hand; functions that cannot be instantiated (they do not compile) are listed below and not modelled.
* Floating point: theorems over ℝ are about exact arithmetic. Rounding is covered only by the theorems that say so.


## Per-property plan

| id | property | model and proof |
|---|---|---|
| C01 | Vector element access: bounds, get/set law, frame | `Vec.atGet/atSet/rawGet/rawSet` with configuration; case analysis on `i < M`. |
| C02 | Vector as a store: any write history | `foldlM atSet` over a list of writes refines a function-update store; induction on the history. |
| C03 | Element-wise vector arithmetic | each operator as the loop in the header; `loop_set` rule gives the componentwise closed form; compound ops in a heap model with a possibly-equal reference. |
| C04 | Vector space laws | corollaries of C03 over `CommRing`. |
| C05 | dot, length, distance | loop = `Finset.sum`; inequalities from Mathlib inner-product facts or direct sums. |
| C06 | Cross product | exact formula, `ring`; two-argument form in the heap model (violated when aliased: witness + partial). |
| C07 | normalize | closed form over ℝ, sqrt lemmas. |
| C08 | operator< is a strict total order | early-return loop = lexicographic order; trichotomy and transitivity by first-difference characterisation. |
| C09 | operator== on vectors | memcmp = representation equality; IEEE counterexample on a type with signed zero and NaN (expected violated in part). |
| C10 | equals with tolerance | early-return loop = ∀; over ordered fields. |
| C11 | Homogeneous conversion round trip | loops; field algebra. |
| C12 | find_min / find_max and index queries | std::min_element/max_element folds; invariant = first index of least; abs_max expected violated (witness + corrected statement). |
| C13 | clamp | loop_set + order lemmas. |
| C14 | Sub-vectors and set | loops / copies; index arithmetic. |
| C15 | Vector rotate | Rodrigues; `ring`/`nlinarith` with sin²+cos²=1. |
| C16 | Sphere and plane helpers | closed forms, sqrt. |
| C17 | compute_normal and compute_plane | compute_normal proved; compute_plane's unit-normal claim expected violated. |
| C18 | scale_to | closed form; expected violated unless lo=-hi. |
| C19 | Small vector utilities | loops = products/counts. |
| C20 | Matrix element access, layout and bounds | column-major index injectivity; operator[] bound off by one (expected violated). |
| C21 | Default construction and constants | loops; Mathlib `1`,`0`. |
| C22 | Bulk construction from sequences | iterators as lists; loop invariants. |
| C23 | Assignment between sizes | double loop. |
| C24 | Row, column and block access | double loops, frame. |
| C25 | Matrix multiplication | triple loop = Mathlib `Matrix.mul`. |
| C26 | In-place multiplication and aliasing | heap model of *= ; aliased case expected violated. |
| C27 | Matrix-vector products | loops = `mulVec`. |
| C28 | Transpose | `Matrix.transpose`. |
| C29 | Determinant | `Matrix.det`. |
| C30 | Inverse | field algebra on closed forms. |
| C31 | Minors, cofactors, adjugate | size_t wrap modelled mod 2^64; `succAbove`; adjugate by ring. |
| C32 | tensor (outer product) | expected violated (transposed / OOB). |
| C33 | Matrix negation | expected violated (returns minus identity). |
| C34 | Block, diagonal, Kronecker and Khatri-Rao constructions | loops; Mathlib fromBlocks/kronecker. |
| C35 | symmetric_covariance | A*Aᵀ. |
| C36 | rotate(angle, axis) | trig algebra. |
| C37 | rotate_x/y/z and pre_rotate_x/y/z | rotate proved; pre_rotate sign expected violated. |
| C38 | Scale and translation accessors | closed forms. |
| C39 | Transform histories stay rigid | invariant by induction over an op list. |
| C40 | Matrix min/max queries | loops; get_max expected violated. |
| C41 | Sums and norms | sums. |
| C42 | Quantise / dequantise round trip | codes as integers, truncation; signed branch expected violated in part. |
| C43 | Convolution | integers/size_t; expected violated for M≠N. |
| C44 | sum_rows / sum_columns | sums. |
| C45 | DCT matrix | trigonometric sums. |
| C46 | Stream round trip | token streams (list of tokens), round-trip by induction; scanf/printf formatting is a parameter. |
| C47 | Raw file round trip | file system as a map from names to bytes; name-suffix logic; chunked reading with `size_t` wrap-around; exact condition on the size of the first chunk. |
| C48 | Matrix equality | loops = ∀. |
| C49 | Index-inverting functors | index arithmetic. |
| C50 | is_positive_definite | leading minors = Mathlib determinants; Sylvester's criterion by induction with Schur complements; expected violated (default limit). |
| C51 | Quaternion product | formula = Mathlib quaternion product. |
| C52 | Norm, conjugate, inverse | ring/field. |
| C53 | Rotation matrices from quaternions | ring with |q|=1. |
| C54 | Quaternion from rotation matrix | trace branch proved, fallback branches expected violated. |
| C55 | slerp | trig. |
| C56 | Quaternion (+,-,*) 3-vector | expected violated (argument order). |
| C57 | Quaternion scalar and additive operations | closed forms, faults. |
| C58 | Quaternion normal helpers | expected violated (cross result discarded). |
| C59 | Quaternion equality | component equality. |
| C60 | Perspective matrix | field algebra. |
| C61 | Orthographic matrix | field algebra. |
| C62 | adjust_near | field algebra. |
| C63 | set_perspective | expected violated (near plane ignored). |
| C64 | apply_jitter | field algebra. |
| C65 | Culling planes from a projection matrix | linear algebra with sqrt. |
| C66 | test_sphere | Cauchy–Schwarz. |
| C67 | test_aabb | interval arithmetic on planes. |
| C68 | Setup from corners | expected partial: compute_plane normalises four components. |
| C69 | AABB merge histories | fold over history = inf/sup. |
| C70 | AABB membership | order. |
| C71 | AABB emptiness | expected violated (compares z with x). |
| C72 | AABB arithmetic | closed forms. |
| C73 | AABB construction | closed forms. |
| C74 | Ray-sphere intersection | quadratic. |
| C75 | Low-pass filter window | deque state machine; refinement to `List.take M` of history. |
| C76 | Low-pass filter bounds | convexity. |
| C77 | QR decomposition | Gram–Schmidt loop invariant. |
| C78 | util.hpp transforms | closed forms. |
| C79 | math.hpp helpers | sqrt algebra. |
| C80 | Element traits | transposed indices expected violated. |
| C81 | Rounding error of accumulations | standard rounding model, induction on the loop. |
| C82 | NaN and special values | IEEE special value type; expected violated. |
| C83 | Stream output restores formatting | flag set state machine; expected violated. |
| C84 | Random, iterator and cast utilities | `rand()` as an arbitrary stream of numbers; loops. |
| C85 | Frustum construction and copying | closed forms; pointer reads bounds-checked. |
| C86 | Inverse / adjugate into the matrix itself | aliased versions of the routines (`Model/MatrixAlias`): each read sees the writes before it; expected violated. |
| C87 | File names and csv | names as `List Char`, file system as a partial map; suffix lemma; read expected violated. |
| C88 | Printed text | output stream = text + format state; loop invariant over rows and columns. |
| C89 | Quaternion construction and units | closed forms, Hamilton product of C51; `set` order expected violated. |
| C90 | Length, distance, normalize under rounding | `Fl ρ` reading; sum bound of C80, `sqrt` and division each one rounding. |
| C91 | Culling verdicts under rounding | `Fl ρ` reading; error calculus `Proofs/Approx.lean` on the signed distance; exact geometry of C66–C67 for the conclusion. |
| C92 | Determinants and quaternions under rounding | `Proofs/Approx.lean`; magnitude = sign-free Laplace expansion; quaternion length = vector length of C90 because adding to zero does not round. |
| C93 | Version comparison macros | the four macros as Boolean functions of the current version; specification = Mathlib's lexicographic order on triples. |
| C94 | Texts of error reports | stream insertions as list appends, `c_str()` cut at the first NUL; outcome tied to `vmmlibError`. |
| C95 | Calls that throw leave the written object unchanged | state-after-failure monad `Run`; agreement with the plain models proved; `set_sub_matrix` expected violated (the check happens per element). |
| C96 | No call with valid arguments faults or depends on the build | law-free calculus `Spec.Total` closed under sequencing, loops, branches (`Proofs/Total*.lean`); one lemma per function, 249 functions. |
| C97 | A call that passes all checks returns the same value without checks | `Spec.Stable` with the same closure rules plus guarded checks and assertions. |
| C98 | Iterators, pointers and default tolerances | Iterators as offsets, `walk`/`walkSet` as the range loop; induction on the distance to `end()`. The default tolerance is zero for integer types and the comparison strict, so equals() refutes itself there; `q = q` is an overlapping memcpy. Reverse iterators do not compile when instantiated and are not modelled. |
| C99 | Integer element types | `Signed B` (values with a sticky overflow) and `BitVec w` as element types of the same generic models. Induction over the accumulation loop gives the exact overflow criterion; a small magnitude calculus gives det and cross; unsigned results by the ring homomorphism from the integers. |
| C100 | Culling in world space and of nested objects | The plane normals of `P V` are the normals of `P` times an orthogonal matrix, so the normalisation factors agree and plane distances are equal; verdicts by the characterisations C66/C67. |
| C101 | inverse() under floating-point rounding: flag and entries | The computations of compute_inverse are put in closed form without any law of arithmetic and fed to the Approx calculus of C92 (error of a polynomial expression relative to its magnitudes). |
| C102 | Sub-vector views and overlapping operands | A view is its offset into the array; the loops of the member functions run on the shared array. One loop invariant (window_loop) gives the cells of the target in terms of old and, where overwritten, new values. |
| C103 | Temporary dynamic memory is released | Model/Memory.lean: free store as a list of live blocks, new/delete around the models of C44 and C47; violated by the early end of read_from_raw without delete[]. |
| C104 | Reading from short, malformed or failed streams | closed form of the read loops by an invariant over the number of elements read; independent tokeniser Spec.tokens as specification. |
| C105 | AABB members called with the box's own corners | Model/BoxAlias.lean gives the members with arguments read at the time of each access; setMin, setMax, merge proved equal to the by-value versions, set proved except set(p, b.getMin()), which is refuted. |
| C106 | Angle constants | Model/Constants.lean has the literals; Mathlib's bounds on pi; set_perspective and set_dct take the constant as a parameter, so their behaviour with the rounded value is compared with that for true pi. |
| C107 | A culler before its first setup | Culler.ctor has six zero planes; from C66_verdict and C67_exact. |
| C108 | Dot products and matrix products in IEEE arithmetic | Element type `Fp F` (`Model/Float.lean`): IEEE 754 values of a binary format, every operation correctly rounded to nearest even; induction over the accumulation loop with a mixed relative/absolute error invariant (sums of representable numbers never underflow) |
| C109 | length and normalize in IEEE arithmetic | On `Fp F`: accuracy from C108 and the correctly rounded square root and division; overflow and underflow by evaluating the loop with infinities and zeros |
| C110 | Determinant and inverse in IEEE arithmetic | On `Fp F`: a calculus (`Proofs/FApprox.lean`) in which every product's magnitude is padded by the smallest normal number to absorb underflow, and a finite result implies finite operands; the closed forms of det and inverse are law-free; overflow by contraposition of the error bound |
| C111 | Boxes in IEEE arithmetic | Box (Fp F): comparisons are those of the extended reals, induction over the list of points; rounding monotone against representable corners for the centre (Props/FloatBox) |
| C112 | The low-pass filter in IEEE arithmetic | the model of the filter over Fp with mixed precision (Model/FilterFloat): weights stay in [0,1] by monotone rounding, induction over the window for the error, histories reduce to the window (Props/FloatFilter) |
| C113 | Accumulated rotations in IEEE arithmetic | IEEE model of Model/Float.lean; Frobenius-norm induction over the list of factors using the per-entry error of C108 (`C113_drift`, `C113_orthogonal`, `C113_assign`). |
| C114 | Quaternions in IEEE arithmetic | IEEE model of Model/Float.lean with the conversion to double for the literal (Model/QuatFloat.lean); running error analysis of the eight products (`C114_product`), induction over the history (`C114_drift`, `C114_renormalized`, `C114_renormalized_drift`), `C114_normalize` from C109. |
| C115 | Rotation matrices of quaternions in IEEE arithmetic | Running error analysis of the nine entries (`C115_block`), homogeneity of the exact matrix (`C115_rotation`, `C115_near_rotation`) and composition with C114 (`C115_history`); the result meets the hypotheses of C113. |
| C116 | double literals in float code | `Model/MixedFloat.lean` models the functions with the prescribed conversions; `Proofs/DoubleRounding.lean` proves that a quotient is never close enough to a midpoint for the first rounding to matter (`C116_quotient`), and `C116_literals` identifies the two models. |
| C117 | View-frustum culling in IEEE arithmetic | Running error analysis of the two plane values (`C117_sphere`, `C117_sphere_sound`, `C117_box`), law-free verdicts for the NaN cases. Refuted for degenerate planes: `C117_nan_violated`, `C117_degenerate_violated`, `C117_far_violated` (near/far ratio below u/4: every box is culled). |
| C118 | From the matrix to the culling verdict in IEEE arithmetic | Relative error analysis of row sums, length and division (`C118_setup`), composed with C117 (`C118_sphere`, `C118_box`), `C118_bounds` in units of u. |
| C119 | Projection matrices in IEEE arithmetic | Relative errors of sums, products and quotients with the conversions of `Model/MixedFloat.lean` (`C119_perspective`, `C119_ortho`, `C119_bound`); `C119_depth` applies the computed matrix to a point. |
| C120 | QR decomposition in IEEE arithmetic | Law-free description of the loop nest over an arbitrary scalar type (each column is the running remainder divided by its length), then a backward induction over the updates of one column with residual-form rounding errors, as in the standard analysis; the orthogonality bound by splitting the scalar product with the residual; the counterexample by computing each rounded operation exactly. Props/FloatQR.lean. |
| C121 | The ray-sphere test in IEEE arithmetic | Closed form of the test over any scalar type, the error calculus of `Proofs/FApprox.lean` for projection, squared distance and discriminant, a residual bound for the computed root, and the identity that expresses the squared distance of a point of the ray from the centre through them. The refutations compute every rounded operation. Props/FloatRay.lean. |
| C122 | Homogeneous products and normalized device coordinates in IEEE arithmetic | The model of the homogeneous product (Model/Matrix) instantiated with the IEEE numbers of Model/Float; a law-free closed form of the loops, one accumulation lemma per row and the residual of a rounded division; composed with C119 for the frustum matrix. |
| C123 | Comparisons, extrema and clamping of IEEE numbers, with infinities, signed zeros and NaN | The models of these functions instantiated with Fp F. Order by transfer to the extended real line, extrema by a loop invariant that ignores NaN, tolerances by monotonicity of rounding and the relative error of a rounded difference. |
| C124 | pythag, squared and sign in IEEE arithmetic | The model functions MathH.pythag/squared/sign instantiated with the IEEE format type Fp F. Stagewise error analysis of the quotient, its square, 1 + square, the root and the product; the additive underflow of the quotient and square are absorbed by the 1. |
| C125 | Algebraic laws that survive rounding exactly, and those that do not | The generic model functions at the IEEE type Fp F. Commutativity and sign symmetry of the scalar operations by cases on the constructors; loops as iterations; monotonicity of rounding; sqrt(x*x) = |x| from the spacing of the format near x. |
| C126 | Cross product, normals, planes and spheres in IEEE arithmetic | The generic model functions at the IEEE type Fp F. Polynomial parts by the forward error calculus FApprox/FBound; the sphere functions by the error of a rounded difference, of length and of normalize (C109). |
| C127 | Frustum operations in IEEE arithmetic | The model functions at the IEEE type Fp F, with double literals where the source has them (MixedFloat). Sign symmetry of the product; exactness of doubling and of the difference of near numbers (Sterbenz); double rounding of quotients (C116); monotonicity of rounding. |
| C128 | Sums, norm and extremes of a matrix in IEEE 754 arithmetic | Induction over the accumulation loop on the Fp model: a sum of representable numbers lies on the subnormal grid, so every addition has a purely relative error and the first is exact. The squares are rounded in the element type, converted exactly to the wider type, and the root is bounded by |a-b|(a+b). Infinities are tracked by an invariant that partial sums are never negative or NaN. Extremes by an invariant of the running choice over the order of the extended reals. |
| C129 | Integer data is computed without rounding | Relation 'is the integer k' on the Fp model, closed under +, -, * below 2^(p+1) because such integers are representable; loops by induction; determinants and cofactors by a relation that also bounds k by c B^n, with the coefficient and degree computed along the expression; the integer side is identified with Matrix.det and Matrix.adjugate over the integers. |
| C130 | Culling laws that hold exactly in floating point | Comparison-equivalence of IEEE values (both NaN or the same extended real) is a congruence for negation, addition, subtraction, multiplication and fabs; the sign of a rounded sum is that of the exact sum (grid argument), so d-n >= 0 and d+n > 0 are exact comparisons; products and sums of non-negative numbers are monotone under rounding. Verdicts are characterised by sphere_verdict/box_verdict for any arithmetic. |
| C131 | Changing the unit of length by a power of two is exact | Rounding commutes with 2^k outside the underflow range (Format.rnd); lifted to the loops of the model by induction; comparisons are invariant. Files: Props/FloatScale.lean. |
| C132 | From the frustum to the culling verdict in IEEE arithmetic | Perturbation of the six planes by the entry errors of C119 and C108, composed with C118; Props/FloatEndToEnd.lean. |
| C133 | Copies between float and double objects | `Fp.convert` (IEEE conversion) instantiates the `cast` parameter of the modelled copies; widening is exact because every representable number is representable in the wider format, narrowing is `rnd`, for which nearest and monotone are known. |
| C134 | Incremental rotations in floating point | Model: MatrixTransform's rotateX..preRotateZ at Fp F, with CMath (Fp F) a parameter. Proof: entry bound from rnd_err_add and the exact grid of sums; pairs of rows/columns give a Frobenius bound; multiplying by an orthogonal matrix keeps the Frobenius norm, so an induction over the list of calls gives geometric drift; C37's exact matrices are the specification. |
| C135 | What byte-wise equality of float and double vectors means | Model: Model/Encoding (the value of a pattern, IEEE 754 3.4) over Model/Ieee's F32 and a 64-bit F64. Proof: the magnitude of a pattern is strictly monotone and onto the finite magnitudes of Model/Float, so patterns and numbers correspond; memcmp is injective on patterns (C09_memcmp_partial). |
| C136 | Convolution in floating point | Model: MatrixStats' convolve at Fp F with conversions to and from D. Proof: the nested loop is one loop over the taps (loop_nest), fp_sum (C128) bounds the double sum, prod_sums the products, combine the last rounding. Non-square cases are excluded: the code is broken there (C43). |
| C137 | Quantising floating point matrices and back, in IEEE arithmetic | Model/QuantizeFloat has quantize_to over IEEE numbers with the conversion to long undefined for NaN, infinities and out-of-range numbers. Props/FloatQuantize: a real-arithmetic lemma bounds the five roundings before the truncation, monotonicity follows from that of rounding to nearest; the decoded value by a second lemma; the range by C123_matrix_min_max. |
| C138 | scale_to in IEEE arithmetic | Model/VectorFloat has scale_to with its double intermediate results and an undefined cast out of range. Props/FloatScaleTo: five relative errors in a real-arithmetic lemma, monotonicity of rounding, rounding at a known exponent for the witnesses. |
| C139 | Component-wise vector functions in IEEE arithmetic | Props/FloatVector: a specification of the IEEE reciprocal by cases, closed forms of the loops, monotonicity of rounding and exactness at the ends. |
| C140 | is_positive_definite in IEEE arithmetic decides the leading minors up to a stated error | Model: the polymorphic Mat.isPositiveDefinite instantiated at Fp F. Proof: run lemma for the three sizes, then C110_det for each block and Sylvester's criterion (proved for C50) applied to the exact values. Props/FloatPosDef.lean. |
| C141 | A quaternion read from a rotation matrix in IEEE arithmetic is the rotation's quaternion up to a stated error | Model: Model/QuatMatrixFloat.lean, setMatrixFp, with conversions between the component type and double where the code has double literals, and the unqualified sqrt as a parameter of which both readings are shown to be accurate. Proof: an error analysis of the scale factor, the component found by division and those found by multiplication, used for the four cases; C115 for the way back. Props/FloatQuatMatrix.lean. |
| C142 | rotate( angle, axis ) is accurate in IEEE arithmetic for any usable math library | Mat.rotate at the IEEE type Fp F with the mathematical library as a parameter L; forward error calculus (finite, within k eps, bounded) for the sixteen entries against Spec.rotAxis (Rodrigues); composition with C109 (normalize) and C141 (quaternion from matrix). |
| C143 | Spherical interpolation in floating point follows the great arc | `Model/SlerpFloat.slerpFp` is the program with the subtractions from `1.` and the first coefficient in `double`. `Proofs/SlerpReal` shows that `sin( a φ ) / sin φ` is a Lipschitz function of `cos φ`, so that the error of the computed cosine is not amplified; the computed sine and cosine lie within `9 u` of the unit circle, so the angle from `atan2` belongs to a cosine within `38 u` of the true one. `C143_arc` states what the specification's arc is. |
| C144 | Rotating a vector about an axis in floating point | The polymorphic model `Vec.rotate` at the IEEE type, with the sine and cosine of the instance `L` only assumed accurate; the nine coefficients by the FClose calculus, each row by a scaled error bound; `C144_rotation` shows that the specification's formula is an isometry that fixes the axis component. |
| C145 | The DCT matrix in IEEE arithmetic | Model/DctFloat instantiates Mat.setDct with Fp D for double, the literal M_PI rounded and a conversion to F. Props/FloatDct bounds the rounded argument, uses that cos is 1-Lipschitz, bounds the rounded weight and the product; orthonormality follows from C45 by perturbing the Gram matrix. |
| C146 | Translation and scaling matrices in IEEE arithmetic | Model: createTranslation, createScaling, applyTranslation, mulVecHom at Fp F. Proof: the dot products collapse through exact additions of zero and multiplications by zero and one; the divisor is exactly 1; apply_translation through the FApprox dot-product bound. |
| C147 | Covariance, Kronecker and Khatri-Rao products, pair sums and random matrices in IEEE arithmetic | Model: the generic definitions at Fp F. Proof: the covariance loop is reduced to the fold of the matrix product without using any algebraic law except commutativity of the rounded product (which holds bit for bit); C108 then gives the error; monotone rounding gives the diagonal; exact positive semidefiniteness of the real covariance plus the entry errors gives the last claim. |
| C148 | set_perspective in IEEE arithmetic | Model: setPerspectiveMixed (double literals, decimal M_PI). Proof: relative error of 0.5 * fov * M_PI / 180.0 by normal-range rounding, sine subtraction formula and Jordan's inequality for the tangent's conditioning, then the remaining roundings; arctan is 1-Lipschitz for the angle; monotone rounding for monotonicity. |
| C149 | The computed inverse undoes the matrix in IEEE arithmetic | Model: inverse, mul and mulVec at Fp F. Proof: the entry errors of C110, the accumulated-sum error of C108 and the exact identities of the real inverse, composed by the triangle inequality. |
| C150 | A history of matrix products in IEEE arithmetic | `Props/FloatChain.lean`: induction over the history, with C108's bound of one product as the step and an error recurrence solved in closed form. |
| C151 | Culling planes from eight corners in IEEE arithmetic | `Props/FloatCorners.lean`: error of the cross product of rounded edges, of the normalisation of `( w, 1 )` (C109, with a perturbation lemma for `w / |( w, 1 )|`) and of the offset; then C117 on the computed planes. |
| C152 | Any mixture of matrix writes, including calls that throw | `Props/MatrixHistory.lean`: each call of `Model/Failure.lean` refines the small specification `Spec.Write.stores`; induction over the history. |
| C153 | Order survives rounding exactly | Props/FloatMonotone: a relational proof, running the same program on two ordered inputs; the relation is kept by +, - , * with a weight >= 0, / by a positive number, conversion between formats and sqrt, and by loops. |
| C154 | Any schedule of threads that share only what they read | Model/Threads writes the calls as trees of element reads and writes and executes threads under an arbitrary schedule; Props/Threads proves isolation by an invariant over the schedule (non-interference of footprints), and that each tree run alone is the function of the other model files |
| C155 | From the arguments of set_perspective to the culling verdict in IEEE arithmetic | composition of C148 (slopes of the computed frustum), C119/C132 (matrix, planes, verdict), discharging all their range hypotheses from the parameter ranges; margins converted from clip coordinates to space |
| C156 | Calls made under a lock are atomic | The threads of C154 with one lock: a configuration holds the memory, the threads and the holder of the lock. Invariant over schedules: a serial order of the finished calls explains results and memory, and the call in progress will end as if it had run alone. Shared boxes by C69_order, shared sums by summing over the order. |
| C157 | Culling in world coordinates in IEEE arithmetic: from set_perspective and a model-view matrix to the verdict | Composes C155's frustum with C132's world-coordinate theorems: an almost orthonormal rotation changes the length of each plane normal by a bounded factor, so the hypotheses about intermediate results hold, and the clip margins translate to margins in the camera's coordinates. |
| C158 | Culling the bounding box of a mesh in IEEE arithmetic | Induction over the merge history on `Fp F` gives exact bounds (comparisons do not round); the box is convex and contains the hull; then C157_box, with margins that are monotone in the extents. |
| C159 | Quaternion::is_akin in IEEE arithmetic | fabs( convert( convert( a - b ) ) ) is computed in closed form on `Fp D`; soundness and completeness from the rounding error bounds and monotonicity of rounding at representable numbers; violations from generic tiny and huge differences. |
| C160 | Comparison up to the sign of rows or columns, with a tolerance, in IEEE arithmetic | the functors of Model/MatrixStats instantiated at Fp F; the loop lemma of C49 with the criterion of C123 for the vectors; the margin from the correctly rounded difference. NaN is a flaw (C160_nan). |
| C161 | Neither the sign of a zero nor the order of merges affects culling | a relation between numbers (equal, or both zero) that +, -, *, fabs and the comparisons respect, carried through the loops of the products, the set up (the squared length is equal exactly, so is its reciprocal) and the criteria of the verdicts; merges are commutative on the extended line, proved by induction over permutations. |
| C162 | Cubes around a point in IEEE arithmetic | the members of Model/Aabb at Fp F; the corner is the correctly rounded sum or an infinity, and rounding is monotone and fixes representable points. |
| C163 | manhattan() in IEEE arithmetic | the loop of Model/Util at Fp F with an invariant: relative error, lower bound by every component, finiteness. |
| C164 | The free functions equals, min and max in IEEE arithmetic | the functions of Model/Util at Fp F; the numbers of magnitude at least one are multiples of the distance from one to the next number. |

## Not modelled

* Functions that do not compile when instantiated: `rbegin`/`rend` of `Vector` and `Matrix` (return type mismatch), `AABB( sphere )` and
  `AABB::isIn( Vector< 4 > )` (see the header of `Model/Aabb.lean`), `Quaternion::set( begin, end )`, `negate`, `rotate`, `rotate_x/y/z`.
* Functions declared but not defined, and code under `#if 0` (a branch of the QR decomposition).
* The C library itself: `printf`-style element formatting is a parameter (an arbitrary function from format state and value to text), `sqrt`, `sin`,
  ... are Mathlib's functions over ℝ, `rand()` an arbitrary sequence.
* Object lifetime and allocation failure: the library allocates only through standard containers. Threads: modelled (Model/Threads, C154, C156) for a selection of calls, under sequential consistency.

## Readings of floating point

* `ℝ`: exact.
* `Fl ρ` for `ρ : Rounding u` (`Model/Rounding.lean`): every operation is the exact one followed by `ρ.rnd`, any function with relative error at most
  `u` that is idempotent; `binRounding p` shows that rounding to `p + 1` significant bits is one. Overflow and underflow are outside this reading.
* `Fp F` for a binary format `F` (`Model/Float.lean`; `Format.single`, `Format.double`): the IEEE 754 values themselves, with signed zeros, subnormal
  numbers, infinities and NaN; `+ - * / sqrt` are the exact result rounded to nearest, ties to even, with overflow to infinity. The elementary functions
  other than `sqrt`, `fabs` are taken as correctly rounded, which C libraries only approximate; the theorems about `Fp F` that involve
  them (C134, C142 to C145, C148) assume only an accuracy of the library's `sin`, `cos` and `tan` (`Spec.Trig`, `Spec.TanLib`), and show that the correctly
  rounded ones have it.
* `NaNable` (`Props/NaN.lean`): ℚ with a NaN that compares false with everything.
* `Ieee` (`Model/Ieee.lean`): signed zeros and NaN with a representation, for `memcmp`.

## How violated properties are reported

When the code does not have a property, the theorem `Cxx_..._violated` proves the *negation* on the model (usually characterising exactly when
it fails), the proved remainder carries `_partial` or a narrower statement, and MANIFEST.json marks the claim `partial` with a note.
