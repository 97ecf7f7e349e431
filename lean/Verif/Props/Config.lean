import Verif.Proofs.TotalRest

/-!
# C96, C97: no fault and no dependence on the build configuration
-/

namespace Vmml
variable {M N O P Q K D k : Nat} {α β δ γ σ : Type}

/-! ## C96 -/

/-- C96. Element access with indices in range. -/
theorem C96_cells : (∀ (v : Vec M α) (i : Nat) (h : i < M), Spec.Total fun _ => v.rawGet i) ∧
    (∀ (v : Vec M α) (i : Nat) (x : α) (h : i < M), Spec.Total fun _ => v.rawSet i x) ∧
    (∀ (v : Vec M α) (i : Nat) (h : i < M), Spec.Total fun cfg => v.atGet cfg i) ∧
    (∀ (v : Vec M α) (i : Nat) (x : α) (h : i < M), Spec.Total fun cfg => v.atSet cfg i x) ∧
    (∀ (m : Mat M N α) (r c : Nat) (hr : r < M) (hc : c < N), Spec.Total fun cfg => m.atGet cfg r c) ∧
    (∀ (m : Mat M N α) (r c : Nat) (x : α) (hr : r < M) (hc : c < N), Spec.Total fun cfg => m.atSet cfg r c x) ∧
    (∀ (m : Mat M N α) (r c : Nat) (hr : r < M) (hc : c < N), Spec.Total fun cfg => m.bracketGet cfg r c) ∧
    (∀ (m : Mat M N α) (r c : Nat) (x : α) (hr : r < M) (hc : c < N), Spec.Total fun cfg => m.bracketSet cfg r c x) := by
  refine ⟨?_, ?_, ?_, ?_, ?_, ?_, ?_, ?_⟩
  · intros; apply Vec.total_rawGet <;> assumption
  · intros; apply Vec.total_rawSet <;> assumption
  · intros; apply Vec.total_atGet <;> assumption
  · intros; apply Vec.total_atSet <;> assumption
  · intros; apply Mat.total_atGet <;> assumption
  · intros; apply Mat.total_atSet <;> assumption
  · intros; apply Mat.total_bracketGet <;> assumption
  · intros; apply Mat.total_bracketSet <;> assumption

/-- C96. Construction, assignment, sub-vectors. -/
theorem C96_vector_construction : (∀ (v : Vec M α) (h : 0 < M), Spec.Total fun _ => Vec.getX v) ∧
    (∀ (v : Vec M α) (h : 1 < M), Spec.Total fun _ => Vec.getY v) ∧
    (∀ (v : Vec M α) (h : 2 < M), Spec.Total fun _ => Vec.getZ v) ∧
    (∀ (v : Vec M α) (h : 3 < M), Spec.Total fun _ => Vec.getW v) ∧
    (∀ (v : Vec M α) (a : α) (h : 0 < M), Spec.Total fun _ => Vec.setX v a) ∧
    (∀ (v : Vec M α) (a : α) (h : 1 < M), Spec.Total fun _ => Vec.setY v a) ∧
    (∀ (v : Vec M α) (a : α) (h : 2 < M), Spec.Total fun _ => Vec.setZ v a) ∧
    (∀ (v : Vec M α) (a : α) (h : 3 < M), Spec.Total fun _ => Vec.setW v a) ∧
    (∀ (mem : Vec M α) (a : α), Spec.Total fun _ => Vec.fill mem a) ∧
    (∀ (v : Vec M α) (a : α), Spec.Total fun cfg => Vec.assignFiller cfg v a) ∧
    (∀ (mem : Vec M α) (x y : α) (h : 2 ≤ M), Spec.Total fun _ => Vec.set2 mem x y) ∧
    (∀ (mem : Vec M α) (x y z : α) (h : 3 ≤ M), Spec.Total fun _ => Vec.set3 mem x y z) ∧
    (∀ (mem : Vec M α) (x y z w : α) (h : 4 ≤ M), Spec.Total fun _ => Vec.set4 mem x y z w) ∧
    (∀ (dst : Vec M α) (src : Vec N α) (n : Nat) (h : n ≤ M) (h' : n ≤ N), Spec.Total fun _ => Vec.memcpy dst src n) ∧
    (∀ (mem : Vec (N + 1) α) (v : Vec N α) (last : α), Spec.Total fun _ => Vec.appendCtor mem v last) ∧
    (∀ (mem : Vec (N + 1) α) (v : Vec N α) (a : α), Spec.Total fun cfg => Vec.setAppend cfg mem v a) ∧
    (∀ (dst : Vec M α) (v : Vec N α), Spec.Total fun _ => Vec.setVec dst v) ∧
    (∀ [One α] (mem : Vec (N + 1) α) (src : Vec N α), Spec.Total fun cfg => Vec.toHomogeneous cfg mem src) ∧
    (∀ [One α] [Mul α] [Div α] (mem : Vec M α) (src : Vec (M + 1) α), Spec.Total fun cfg => Vec.fromHomogeneous cfg mem src) ∧
    (∀ (dst src : Vec M α), Spec.Total fun _ => Vec.assign dst src) ∧
    (∀ (cast : β → α) (dst : Vec M α) (src : Vec M β), Spec.Total fun _ => Vec.assignCast cast dst src) ∧
    (∀ (cast : β → α) (dst : Vec M α) (src : List β), Spec.Total fun _ => Vec.iterSet cast dst src) ∧
    (∀ (v : Vec M α) (N : Nat) (offset : Nat) (dflt : Vec N α) (hN : N ≤ M) (h : offset ≤ M - N), Spec.Total fun cfg => Vec.getSub cfg v N offset dflt) ∧
    (∀ (v : Vec M α) (N : Nat) (offset i : Nat) (x : α) (hN : N ≤ M) (h : offset ≤ M - N) (hi : i < N), Spec.Total fun cfg => Vec.subSet cfg v N offset i x) := by
  refine ⟨?_, ?_, ?_, ?_, ?_, ?_, ?_, ?_, ?_, ?_, ?_, ?_, ?_, ?_, ?_, ?_, ?_, ?_, ?_, ?_, ?_, ?_, ?_, ?_⟩
  · intros; apply Vec.total_getX <;> assumption
  · intros; apply Vec.total_getY <;> assumption
  · intros; apply Vec.total_getZ <;> assumption
  · intros; apply Vec.total_getW <;> assumption
  · intros; apply Vec.total_setX <;> assumption
  · intros; apply Vec.total_setY <;> assumption
  · intros; apply Vec.total_setZ <;> assumption
  · intros; apply Vec.total_setW <;> assumption
  · intros; apply Vec.total_fill
  · intros; apply Vec.total_assignFiller
  · intros; apply Vec.total_set2 <;> assumption
  · intros; apply Vec.total_set3 <;> assumption
  · intros; apply Vec.total_set4 <;> assumption
  · intros; apply Vec.total_memcpy <;> assumption
  · intros; apply Vec.total_appendCtor
  · intros; apply Vec.total_setAppend
  · intros; apply Vec.total_setVec
  · intros; apply Vec.total_toHomogeneous
  · intros; apply Vec.total_fromHomogeneous
  · intros; apply Vec.total_assign
  · intros; apply Vec.total_assignCast
  · intros; apply Vec.total_iterSet
  · intros; apply Vec.total_getSub <;> assumption
  · intros; apply Vec.total_subSet <;> assumption

/-- C96. Vector arithmetic, also with aliased operands. -/
theorem C96_vector_arithmetic : (∀ [Zero α] [Add α] (v w : Vec M α), Spec.Total fun cfg => Vec.add cfg v w) ∧
    (∀ [Zero α] [Sub α] (v w : Vec M α), Spec.Total fun cfg => Vec.sub cfg v w) ∧
    (∀ [Zero α] [Mul α] (v w : Vec M α), Spec.Total fun cfg => Vec.mul cfg v w) ∧
    (∀ [Zero α] [Div α] (v w : Vec M α), Spec.Total fun cfg => Vec.div cfg v w) ∧
    (∀ [Zero α] [Add α] (v : Vec M α) (a : α), Spec.Total fun cfg => Vec.addS cfg v a) ∧
    (∀ [Zero α] [Sub α] (v : Vec M α) (a : α), Spec.Total fun cfg => Vec.subS cfg v a) ∧
    (∀ [Zero α] [Mul α] (v : Vec M α) (a : α), Spec.Total fun cfg => Vec.mulS cfg v a) ∧
    (∀ [Zero α] [Div α] (v : Vec M α) (a : α), Spec.Total fun cfg => Vec.divS cfg v a) ∧
    (∀ [Add α] (v w : Vec M α), Spec.Total fun cfg => Vec.addAssign cfg v w) ∧
    (∀ [Sub α] (v w : Vec M α), Spec.Total fun cfg => Vec.subAssign cfg v w) ∧
    (∀ [Mul α] (v w : Vec M α), Spec.Total fun cfg => Vec.mulAssign cfg v w) ∧
    (∀ [Div α] (v w : Vec M α), Spec.Total fun cfg => Vec.divAssign cfg v w) ∧
    (∀ [Add α] (v : Vec M α) (a : α), Spec.Total fun cfg => Vec.addAssignS cfg v a) ∧
    (∀ [Sub α] (v : Vec M α) (a : α), Spec.Total fun cfg => Vec.subAssignS cfg v a) ∧
    (∀ [Mul α] (v : Vec M α) (a : α), Spec.Total fun cfg => Vec.mulAssignS cfg v a) ∧
    (∀ [Div α] (v : Vec M α) (a : α), Spec.Total fun cfg => Vec.divAssignS cfg v a) ∧
    (∀ [Neg α] (v : Vec M α), Spec.Total fun _ => Vec.negate v) := by
  refine ⟨?_, ?_, ?_, ?_, ?_, ?_, ?_, ?_, ?_, ?_, ?_, ?_, ?_, ?_, ?_, ?_, ?_⟩
  · intros; apply Vec.total_add
  · intros; apply Vec.total_sub
  · intros; apply Vec.total_mul
  · intros; apply Vec.total_div
  · intros; apply Vec.total_addS
  · intros; apply Vec.total_subS
  · intros; apply Vec.total_mulS
  · intros; apply Vec.total_divS
  · intros; apply Vec.total_addAssign
  · intros; apply Vec.total_subAssign
  · intros; apply Vec.total_mulAssign
  · intros; apply Vec.total_divAssign
  · intros; apply Vec.total_addAssignS
  · intros; apply Vec.total_subAssignS
  · intros; apply Vec.total_mulAssignS
  · intros; apply Vec.total_divAssignS
  · intros; apply Vec.total_negate

/-- C96. Products, lengths, geometry, comparison, extrema, utilities. -/
theorem C96_vector_other : (∀ [Zero α] [Add α] [Mul α] (v w : Vec M α), Spec.Total fun cfg => Vec.dot cfg v w) ∧
    (∀ [Zero α] [Add α] [Mul α] (v : Vec M α), Spec.Total fun _ => Vec.squaredLength v) ∧
    (∀ [Zero α] [Add α] [Mul α] [CMath α] (v : Vec M α), Spec.Total fun _ => Vec.length v) ∧
    (∀ [Zero α] [Add α] [Mul α] [CMath α] (v : Vec M α), Spec.Total fun _ => Vec.norm v) ∧
    (∀ [Zero α] [One α] [Add α] [Mul α] [Div α] [BEq α] [CMath α] (v : Vec M α), Spec.Total fun cfg => Vec.normalize cfg v) ∧
    (∀ [Zero α] [Add α] [Sub α] [Mul α] (v w : Vec M α), Spec.Total fun cfg => Vec.squaredDistance cfg v w) ∧
    (∀ [Zero α] [Add α] [Sub α] [Mul α] [CMath α] (v w : Vec M α), Spec.Total fun cfg => Vec.distance cfg v w) ∧
    (∀ [Mul α] (v : Vec M α) (h : 0 < M), Spec.Total fun cfg => Vec.product cfg v) ∧
    (∀ [Zero α] [One α] [Add α] [Sub α] [Mul α] [Div α] [BEq α] [CMath α] (aa bb cc : Vec 3 α), Spec.Total fun cfg => Vec.computeNormal cfg aa bb cc) ∧
    (∀ [Zero α] [One α] [Add α] [Sub α] [Mul α] [Div α] [BEq α] [CMath α] (v : Vec 3 α) (theta : α) (axis0 : Vec 3 α), Spec.Total fun cfg => Vec.rotate cfg v theta axis0) ∧
    (∀ [Zero α] [One α] [Add α] [Sub α] [Mul α] [Div α] [BEq α] [CMath α] (sphere : Vec 4 α) (point : Vec 3 α), Spec.Total fun cfg => Vec.projectPointOntoSphere cfg sphere point) ∧
    (∀ [Zero α] [Add α] [Sub α] [Mul α] [CMath α] (sphere : Vec 4 α) (point : Vec 3 α), Spec.Total fun cfg => Vec.distanceToSphere cfg sphere point) ∧
    (∀ [Zero α] [Add α] [Mul α] (plane : Vec 4 α) (point : Vec 3 α), Spec.Total fun cfg => Vec.distanceToPlane cfg plane point) ∧
    (∀ [Zero α] [Add α] [Sub α] [Mul α] (plane : Vec 4 α) (point : Vec 3 α), Spec.Total fun cfg => Vec.projectPointOntoPlane cfg plane point) ∧
    (∀ [Zero α] [One α] [Add α] [Sub α] [Neg α] [Mul α] [Div α] [BEq α] [CMath α] (a b c : Vec 3 α), Spec.Total fun cfg => Vec.computePlane cfg a b c) ∧
    (∀ [Sub α] [LE α] [DecidableLE α] [CMath α] (v w : Vec M α) (tol : α), Spec.Total fun cfg => Vec.equals cfg v w tol) ∧
    (∀ [LT α] [DecidableLT α] (v w : Vec M α), Spec.Total fun cfg => Vec.lt cfg v w) ∧
    (∀ (comp : α → α → Bool) (v : Vec M α) (h : 0 < M), Spec.Total fun _ => Vec.minElement comp v) ∧
    (∀ (comp : α → α → Bool) (v : Vec M α) (h : 0 < M), Spec.Total fun _ => Vec.maxElement comp v) ∧
    (∀ [LT α] [DecidableLT α] (v : Vec M α) (h : 0 < M), Spec.Total fun _ => Vec.findMinIndex v) ∧
    (∀ [LT α] [DecidableLT α] (v : Vec M α) (h : 0 < M), Spec.Total fun _ => Vec.findMaxIndex v) ∧
    (∀ [LT α] [DecidableLT α] [CMath α] (v : Vec M α) (h : 0 < M), Spec.Total fun _ => Vec.findAbsMinIndex v) ∧
    (∀ [LT α] [DecidableLT α] [CMath α] (v : Vec M α) (h : 0 < M), Spec.Total fun _ => Vec.findAbsMaxIndex v) ∧
    (∀ [LT α] [DecidableLT α] (v : Vec M α) (h : 0 < M), Spec.Total fun _ => Vec.findMin v) ∧
    (∀ [LT α] [DecidableLT α] (v : Vec M α) (h : 0 < M), Spec.Total fun _ => Vec.findMax v) ∧
    (∀ [LT α] [DecidableLT α] (v : Vec M α) (lo hi : α), Spec.Total fun _ => Vec.clamp v lo hi) ∧
    (∀ [One α] [Add α] [Sub α] [Mul α] [Div α] (half ttMax : α) (cast : α → β) (v : Vec M α) (result : Vec M β) (minValue maxValue : α), Spec.Total fun cfg => Vec.scaleTo cfg half ttMax cast v result minValue maxValue) ∧
    (∀ [Zero α] [One α] [BEq α] (v : Vec M α), Spec.Total fun _ => Vec.isUnitVector v) ∧
    (∀ [Add α] [Neg α] (rnd : Nat → Nat) (v : Vec M α) (p : α), Spec.Total fun _ => Vec.perturb rnd v p) ∧
    (∀ [One α] [Add α] [Neg α] [Mul α] [Div α] (toT : Nat → α) (randMax : Nat) (rnd : Nat → Nat) (v : Vec M α), Spec.Total fun cfg => Vec.setRandom cfg toT randMax rnd v) ∧
    (∀ [CMath α] (v : Vec M α), Spec.Total fun _ => Vec.sqrtElementwise v) ∧
    (∀ [One α] [Div α] (v : Vec M α), Spec.Total fun _ => Vec.reciprocal v) ∧
    (∀ [Zero α] [One α] [Div α] [BEq α] (maxT : α) (v : Vec M α), Spec.Total fun _ => Vec.reciprocalSafe maxT v) ∧
    (∀ [Zero α] [BEq α] (v : Vec M α), Spec.Total fun _ => Vec.nnz v) ∧
    (∀ (v : Vec M α) (x : Vec.SRef α) (h : x.Valid M), Spec.Total fun _ => x.read v) ∧
    (∀ (op : α → α → α) (h : Heap (Vec M α)) (this other : Nat), Spec.Total fun cfg => Vec.opAssignH op cfg h this other) ∧
    (∀ (h : Heap (Vec M α)) (this other : Nat), Spec.Total fun _ => Vec.assignH h this other) ∧
    (∀ [LT α] [DecidableLT α] (v : Vec M α) (lo hi : Vec.SRef α) (hlo : lo.Valid M) (hhi : hi.Valid M), Spec.Total fun _ => Vec.clampRef v lo hi) := by
  refine ⟨?_, ?_, ?_, ?_, ?_, ?_, ?_, ?_, ?_, ?_, ?_, ?_, ?_, ?_, ?_, ?_, ?_, ?_, ?_, ?_, ?_, ?_, ?_, ?_, ?_, ?_, ?_, ?_, ?_, ?_, ?_, ?_, ?_, ?_, ?_, ?_, ?_, ?_⟩
  · intros; apply Vec.total_dot
  · intros; apply Vec.total_squaredLength
  · intros; apply Vec.total_length
  · intros; apply Vec.total_norm
  · intros; apply Vec.total_normalize
  · intros; apply Vec.total_squaredDistance
  · intros; apply Vec.total_distance
  · intros; apply Vec.total_product <;> assumption
  · intros; apply Vec.total_computeNormal
  · intros; apply Vec.total_rotate
  · intros; apply Vec.total_projectPointOntoSphere
  · intros; apply Vec.total_distanceToSphere
  · intros; apply Vec.total_distanceToPlane
  · intros; apply Vec.total_projectPointOntoPlane
  · intros; apply Vec.total_computePlane
  · intros; apply Vec.total_equals
  · intros; apply Vec.total_lt
  · intros; apply Vec.total_minElement <;> assumption
  · intros; apply Vec.total_maxElement <;> assumption
  · intros; apply Vec.total_findMinIndex <;> assumption
  · intros; apply Vec.total_findMaxIndex <;> assumption
  · intros; apply Vec.total_findAbsMinIndex <;> assumption
  · intros; apply Vec.total_findAbsMaxIndex <;> assumption
  · intros; apply Vec.total_findMin <;> assumption
  · intros; apply Vec.total_findMax <;> assumption
  · intros; apply Vec.total_clamp
  · intros; apply Vec.total_scaleTo
  · intros; apply Vec.total_isUnitVector
  · intros; apply Vec.total_perturb
  · intros; apply Vec.total_setRandom
  · intros; apply Vec.total_sqrtElementwise
  · intros; apply Vec.total_reciprocal
  · intros; apply Vec.total_reciprocalSafe
  · intros; apply Vec.total_nnz
  · intros; apply Vec.SRef.total_read <;> assumption
  · intros; apply Vec.total_opAssignH <;> assumption
  · intros; apply Vec.total_assignH <;> assumption
  · intros; apply Vec.total_clampRef <;> assumption

/-- C96. Matrices: construction, assignment, comparison, arithmetic. -/
theorem C96_matrix_arithmetic : (∀ (m : Mat M N α) (x : α), Spec.Total fun cfg => Mat.fill cfg m x) ∧
    (∀ [Zero α] (m : Mat M N α), Spec.Total fun cfg => Mat.zero cfg m) ∧
    (∀ (m : Mat M N α) (x : α), Spec.Total fun _ => Mat.assignFill m x) ∧
    (∀ [Zero α] [One α], Spec.Total fun cfg => (Mat.ctor cfg : Res (Mat M N α))) ∧
    (∀ [Zero α] [One α] (m : Mat M M α), Spec.Total fun cfg => Mat.identity cfg m) ∧
    (∀ [Zero α] [One α], Spec.Total fun cfg => (Mat.IDENTITY cfg : Res (Mat M M α))) ∧
    (∀ [Zero α] [One α], Spec.Total fun cfg => (Mat.ZERO cfg : Res (Mat M N α))) ∧
    (∀ (dst src : Mat M N α), Spec.Total fun _ => Mat.assign dst src) ∧
    (∀ [Zero α] (cast : β → α) (dst : Mat M N α) (src : Mat P Q β), Spec.Total fun cfg => Mat.assignFrom cfg cast dst src) ∧
    (∀ (dst : Mat M N α) (src : Fin M → Fin N → α), Spec.Total fun cfg => Mat.assignArray2 cfg dst src) ∧
    (∀ (cast : β → α) (m : Mat M N α) (src : List β), Spec.Total fun cfg => Mat.setRowMajor cfg cast m src) ∧
    (∀ (cast : β → α) (m : Mat M N α) (src : List β) (h : M * N ≤ src.length), Spec.Total fun _ => Mat.setColMajor cast m src) ∧
    (∀ (m : Mat M N α) (mem : List α) (h : M * N ≤ mem.length), Spec.Total fun cfg => Mat.assignPtr cfg m mem) ∧
    (∀ (m : Mat M N α) (data : List α) (h : M * N ≤ data.length), Spec.Total fun cfg => Mat.assignStdVector cfg m data) ∧
    (∀ (cast : β → α) (m : Mat M N α) (src : Mat M N β), Spec.Total fun _ => Mat.castFrom cast m src) ∧
    (∀ [BEq α] (a b : Mat M N α), Spec.Total fun _ => Mat.eqOp a b) ∧
    (∀ [BEq α] (a b : Mat M N α), Spec.Total fun _ => Mat.neOp a b) ∧
    (∀ [Sub α] [LT α] [DecidableLT α] [CMath α] (a b : Mat M N α) (tol : α), Spec.Total fun cfg => Mat.equals cfg a b tol) ∧
    (∀ (a b : Mat M N α) (cmp : α → α → Bool), Spec.Total fun cfg => Mat.equalsCmp cfg a b cmp) ∧
    (∀ [Mul α] (m other : Mat M N α), Spec.Total fun cfg => Mat.multiplyPiecewise cfg m other) ∧
    (∀ [Zero α] [Add α] [Mul α] (m : Mat M N α) (left : Mat M P α) (right : Mat P N α), Spec.Total fun cfg => Mat.multiply cfg m left right) ∧
    (∀ [Zero α] [One α] [Add α] [Mul α] (a : Mat M N α) (b : Mat N P α), Spec.Total fun cfg => Mat.mul cfg a b) ∧
    (∀ [Zero α] [Add α] [Mul α] (a b : Mat M M α), Spec.Total fun cfg => Mat.mulAssign cfg a b) ∧
    (∀ [Zero α] [One α] [Div α] (a : Mat M N α) (s : α), Spec.Total fun cfg => Mat.divS cfg a s) ∧
    (∀ [Div α] (a : Mat M N α) (s : α), Spec.Total fun cfg => Mat.divAssignS cfg a s) ∧
    (∀ [Zero α] [One α] [Mul α] (a : Mat M N α) (s : α), Spec.Total fun cfg => Mat.mulS cfg a s) ∧
    (∀ [Mul α] (a : Mat M N α) (s : α), Spec.Total fun cfg => Mat.mulAssignS cfg a s) ∧
    (∀ [Add α] (a b : Mat M N α), Spec.Total fun _ => Mat.addAssign a b) ∧
    (∀ [Add α] (a b : Mat M N α), Spec.Total fun _ => Mat.add a b) ∧
    (∀ [Add α] (a : Mat M N α) (s : α), Spec.Total fun _ => Mat.addAssignS a s) ∧
    (∀ [Sub α] (a b : Mat M N α), Spec.Total fun _ => Mat.subAssign a b) ∧
    (∀ [Sub α] (a b : Mat M N α), Spec.Total fun _ => Mat.sub a b) ∧
    (∀ [Sub α] (a : Mat M N α) (s : α), Spec.Total fun _ => Mat.subAssignS a s) ∧
    (∀ [Zero α] [Add α] [Mul α] (a : Mat M N α) (v : Vec N α), Spec.Total fun cfg => Mat.mulVec cfg a v) ∧
    (∀ [Zero α] [Add α] [Mul α] [Div α] {K : Nat} (a : Mat M (K + 1) α) (v : Vec O α) (h : K ≤ O), Spec.Total fun cfg => Mat.mulVecHom cfg a v) ∧
    (∀ [Zero α] [One α] [Mul α] [Neg α] (this : Mat M N α), Spec.Total fun cfg => Mat.negate cfg this) ∧
    (∀ [Mul α] (m : Mat M N α) (u : Vec M α) (v : Vec N α) (h : M = N), Spec.Total fun cfg => Mat.tensor cfg m u v) ∧
    (∀ [One α] [Mul α] (m : Mat 4 4 α) (u v : Vec 3 α), Spec.Total fun cfg => Mat.tensor4 cfg m u v) ∧
    (∀ (a : Mat M N α) (t : Mat N M α), Spec.Total fun cfg => Mat.transposeTo cfg a t) ∧
    (∀ [Zero α] [One α] (a : Mat M N α), Spec.Total fun cfg => Mat.transpose cfg a) ∧
    (∀ [Zero α] [Add α] [Mul α] (a : Mat M N α) (cov : Mat M M α), Spec.Total fun cfg => Mat.symmetricCovariance cfg a cov) := by
  refine ⟨?_, ?_, ?_, ?_, ?_, ?_, ?_, ?_, ?_, ?_, ?_, ?_, ?_, ?_, ?_, ?_, ?_, ?_, ?_, ?_, ?_, ?_, ?_, ?_, ?_, ?_, ?_, ?_, ?_, ?_, ?_, ?_, ?_, ?_, ?_, ?_, ?_, ?_, ?_, ?_, ?_⟩
  · intros; apply Mat.total_fill
  · intros; apply Mat.total_zero
  · intros; apply Mat.total_assignFill
  · intros; apply Mat.total_ctor
  · intros; apply Mat.total_identity
  · intros; apply Mat.total_IDENTITY
  · intros; apply Mat.total_ZERO
  · intros; apply Mat.total_assign
  · intros; apply Mat.total_assignFrom
  · intros; apply Mat.total_assignArray2
  · intros; apply Mat.total_setRowMajor
  · intros; apply Mat.total_setColMajor <;> assumption
  · intros; apply Mat.total_assignPtr <;> assumption
  · intros; apply Mat.total_assignStdVector <;> assumption
  · intros; apply Mat.total_castFrom
  · intros; apply Mat.total_eqOp
  · intros; apply Mat.total_neOp
  · intros; apply Mat.total_equals
  · intros; apply Mat.total_equalsCmp
  · intros; apply Mat.total_multiplyPiecewise
  · intros; apply Mat.total_multiply
  · intros; apply Mat.total_mul
  · intros; apply Mat.total_mulAssign
  · intros; apply Mat.total_divS
  · intros; apply Mat.total_divAssignS
  · intros; apply Mat.total_mulS
  · intros; apply Mat.total_mulAssignS
  · intros; apply Mat.total_addAssign
  · intros; apply Mat.total_add
  · intros; apply Mat.total_addAssignS
  · intros; apply Mat.total_subAssign
  · intros; apply Mat.total_sub
  · intros; apply Mat.total_subAssignS
  · intros; apply Mat.total_mulVec
  · intros; apply Mat.total_mulVecHom <;> assumption
  · intros; apply Mat.total_negate
  · intros; apply Mat.total_tensor <;> assumption
  · intros; apply Mat.total_tensor4
  · intros; apply Mat.total_transposeTo
  · intros; apply Mat.total_transpose
  · intros; apply Mat.total_symmetricCovariance

/-- C96. Rows, columns, blocks, products of Kronecker type. -/
theorem C96_matrix_blocks : (∀ (m : Mat M N α) (index : Nat) (column : Vec M α) (h : index < N), Spec.Total fun cfg => Mat.getColumn cfg m index column) ∧
    (∀ (m : Mat M N α) (index : Nat) (column : Vec M α) (h : index < N), Spec.Total fun cfg => Mat.setColumn cfg m index column) ∧
    (∀ (m : Mat M N α) (index : Nat) (row : Vec N α) (h : index < M), Spec.Total fun cfg => Mat.getRow cfg m index row) ∧
    (∀ (m : Mat M N α) (index : Nat) (row : Vec N α) (h : index < M), Spec.Total fun cfg => Mat.setRow cfg m index row) ∧
    (∀ (m : Mat M N α) (res : Mat O P α) (ro co : Nat) (h : ro + O ≤ M) (h' : co + P ≤ N), Spec.Total fun cfg => Mat.getSubMatrix cfg m res ro co) ∧
    (∀ (m : Mat M N α) (sub : Mat O P α) (ro co : Nat) (h : ro + O ≤ M) (h' : co + P ≤ N), Spec.Total fun cfg => Mat.setSubMatrix cfg m sub ro co) ∧
    (∀ [Zero α] (m : Mat (O + P) (Q + N) α) (ul : Mat O Q α) (lr : Mat P N α), Spec.Total fun cfg => Mat.directSum cfg m ul lr) ∧
    (∀ [Zero α] (m : Mat M M α) (d : Vec M α), Spec.Total fun cfg => Mat.diag cfg m d) ∧
    (∀ [Mul α] (a : Mat M N α) (right : Mat O N α) (prod : Mat (M * O) N α), Spec.Total fun cfg => Mat.khatriRao cfg a right prod) ∧
    (∀ [Mul α] (a : Mat M N α) (right : Mat O P α) (res : Mat (M * O) (N * P) α), Spec.Total fun cfg => Mat.kronecker cfg a right res) := by
  refine ⟨?_, ?_, ?_, ?_, ?_, ?_, ?_, ?_, ?_, ?_⟩
  · intros; apply Mat.total_getColumn <;> assumption
  · intros; apply Mat.total_setColumn <;> assumption
  · intros; apply Mat.total_getRow <;> assumption
  · intros; apply Mat.total_setRow <;> assumption
  · intros; apply Mat.total_getSubMatrix <;> assumption
  · intros; apply Mat.total_setSubMatrix <;> assumption
  · intros; apply Mat.total_directSum
  · intros; apply Mat.total_diag
  · intros; apply Mat.total_khatriRao
  · intros; apply Mat.total_kronecker

/-- C96. Determinants, minors, inverses. -/
theorem C96_matrix_inverse : (∀ (m : Mat 1 1 α), Spec.Total fun _ => Mat.det1 m) ∧
    (∀ [Sub α] [Mul α] (m : Mat 2 2 α), Spec.Total fun cfg => Mat.det2 cfg m) ∧
    (∀ [Add α] [Sub α] [Mul α] (m : Mat 3 3 α), Spec.Total fun cfg => Mat.det3 cfg m) ∧
    (∀ [Add α] [Sub α] [Mul α] (m : Mat 4 4 α), Spec.Total fun cfg => Mat.det4 cfg m) ∧
    (∀ [Add α] [Sub α] [Mul α] {n : Nat} (m : Mat n n α) (hn : 1 ≤ n) (hn' : n ≤ 4), Spec.Total fun cfg => m.det cfg) ∧
    (∀ {K : Nat} (m : Mat (K + 1) (K + 1) α) (minor : Mat K K α) (rcut ccut : Nat) (hr : rcut < K + 1) (hc : ccut < K + 1) (hK : K + 1 < 2 ^ 64), Spec.Total fun cfg => Mat.minorLoop cfg m minor rcut ccut) ∧
    (∀ [Add α] [Sub α] [Mul α] {K : Nat} (m : Mat (K + 1) (K + 1) α) (minor : Mat K K α) (rcut ccut : Nat) (hr : rcut < K + 1) (hc : ccut < K + 1) (hK : 1 ≤ K) (hK' : K ≤ 4), Spec.Total fun cfg => Mat.getMinor cfg m minor rcut ccut) ∧
    (∀ [Zero α] [One α] [Add α] [Sub α] [Mul α] [Neg α] {K : Nat} (m : Mat (K + 1) (K + 1) α) (cof : Mat (K + 1) (K + 1) α) (hK : 1 ≤ K) (hK' : K ≤ 4), Spec.Total fun cfg => Mat.getCofactors cfg m cof) ∧
    (∀ [Zero α] [One α] [Add α] [Sub α] [Mul α] [Neg α] {K : Nat} (m : Mat (K + 1) (K + 1) α) (adj : Mat (K + 1) (K + 1) α) (hK : 1 ≤ K) (hK' : K ≤ 4), Spec.Total fun cfg => Mat.getAdjugate cfg m adj) ∧
    (∀ [Zero α] [One α] [Add α] [Sub α] [Mul α] [Neg α] [Div α] [LT α] [DecidableLT α] [CMath α] (m inv : Mat 2 2 α) (tol : α), Spec.Total fun cfg => Mat.inverse2 cfg m inv tol) ∧
    (∀ [One α] [Add α] [Sub α] [Mul α] [Div α] [LE α] [DecidableLE α] [CMath α] (m inv : Mat 3 3 α) (tol : α), Spec.Total fun cfg => Mat.inverse3 cfg m inv tol) ∧
    (∀ [One α] [Add α] [Sub α] [Mul α] [Div α] [LE α] [DecidableLE α] [CMath α] (m inv : Mat 4 4 α) (tol : α), Spec.Total fun _ => Mat.inverse4 m inv tol) ∧
    (∀ [Zero α] [One α] [Add α] [Sub α] [Mul α] [Neg α] [Div α] [LT α] [DecidableLT α] [LE α] [DecidableLE α] [CMath α] {n : Nat} (m inv : Mat n n α) (tol : α) (hn : 2 ≤ n) (hn' : n ≤ 4), Spec.Total fun cfg => m.inverse cfg inv tol) ∧
    (∀ [Zero α] [One α] [Add α] [Sub α] [Mul α] [LT α] [DecidableLT α] (m : Mat M M α) (limit : α) (hM : 0 < M), Spec.Total fun cfg => Mat.isPositiveDefinite cfg m limit) := by
  refine ⟨?_, ?_, ?_, ?_, ?_, ?_, ?_, ?_, ?_, ?_, ?_, ?_, ?_, ?_⟩
  · intros; apply Mat.total_det1
  · intros; apply Mat.total_det2
  · intros; apply Mat.total_det3
  · intros; apply Mat.total_det4
  · intros; apply Mat.total_det <;> assumption
  · intros; apply Mat.total_minorLoop <;> assumption
  · intros; apply Mat.total_getMinor <;> assumption
  · intros; apply Mat.total_getCofactors <;> assumption
  · intros; apply Mat.total_getAdjugate <;> assumption
  · intros; apply Mat.total_inverse2
  · intros; apply Mat.total_inverse3
  · intros; apply Mat.total_inverse4
  · intros; apply Mat.total_inverse <;> assumption
  · intros; apply Mat.total_isPositiveDefinite <;> assumption

/-- C96. Transforms, statistics, signal processing, aliased operations. -/
theorem C96_matrix_other : (∀ [Zero α] [Add α] [Mul α] (h : Heap (Mat M M α)) (this left right : Nat), Spec.Total fun cfg => Mat.multiplyH cfg h this left right) ∧
    (∀ [Zero α] [Add α] [Mul α] (h : Heap (Mat M M α)) (this right tmp : Nat), Spec.Total fun cfg => Mat.mulAssignH cfg h this right tmp) ∧
    (∀ (op : α → α → α) (h : Heap (Mat M N α)) (this other : Nat), Spec.Total fun _ => Mat.opAssignH op h this other) ∧
    (∀ (h : Heap (Mat M M α)) (this tM : Nat), Spec.Total fun cfg => Mat.transposeToH cfg h this tM) ∧
    (∀ [Zero α] [One α] [Add α] [Sub α] [Mul α] [Neg α] {K : Nat} (m : Mat (K + 1) (K + 1) α) (hK : 1 ≤ K) (hK' : K ≤ 4), Spec.Total fun cfg => Mat.getCofactorsSelf cfg m) ∧
    (∀ [Zero α] [One α] [Add α] [Sub α] [Mul α] [Neg α] {K : Nat} (m : Mat (K + 1) (K + 1) α) (hK : 1 ≤ K) (hK' : K ≤ 4), Spec.Total fun cfg => Mat.getAdjugateSelf cfg m) ∧
    (∀ [Zero α] [One α] [Add α] [Sub α] [Mul α] [Neg α] [Div α] [LT α] [DecidableLT α] [CMath α] (m : Mat 2 2 α) (tol : α), Spec.Total fun cfg => Mat.inverse2Self cfg m tol) ∧
    (∀ [One α] [Add α] [Sub α] [Mul α] [Div α] [LE α] [DecidableLE α] [CMath α] (m : Mat 3 3 α) (tol : α), Spec.Total fun cfg => Mat.inverse3Self cfg m tol) ∧
    (∀ [One α] [Add α] [Sub α] [Mul α] [Div α] [LE α] [DecidableLE α] [CMath α] (m : Mat 4 4 α) (tol : α), Spec.Total fun _ => Mat.inverse4Self m tol) ∧
    (∀ {K : Nat} (m : Mat M (K + 1) α) (t : Vec K α) (h : K ≤ M), Spec.Total fun _ => Mat.getTranslationTo m t) ∧
    (∀ [Zero α] {K : Nat} (m : Mat M (K + 1) α) (h : K ≤ M), Spec.Total fun _ => Mat.getTranslation m) ∧
    (∀ [Mul α] [Zero δ] [Add δ] [CMath δ] (toD : α → δ) (m : Mat M N α), Spec.Total fun _ => Mat.frobeniusNorm toD m) ∧
    (∀ [Zero δ] [One δ] [Add δ] [Div δ] [CMath δ] (toD : α → δ) (m : Mat M N α) (p : δ), Spec.Total fun _ => Mat.pNorm toD m p) ∧
    (∀ [LT α] [DecidableLT α] (maxT : α) (m : Mat M N α), Spec.Total fun _ => Mat.getMin maxT m) ∧
    (∀ [Zero α] [LT α] [DecidableLT α] (m : Mat M N α), Spec.Total fun _ => Mat.getMax m) ∧
    (∀ [LT α] [DecidableLT α] [CMath α] (maxT : α) (m : Mat M N α), Spec.Total fun _ => Mat.getAbsMin maxT m) ∧
    (∀ [Zero α] [LT α] [DecidableLT α] [CMath α] (m : Mat M N α), Spec.Total fun _ => Mat.getAbsMax m) ∧
    (∀ [Zero α] [BEq α] (m : Mat M N α), Spec.Total fun _ => Mat.nnz m) ∧
    (∀ [LT α] [DecidableLT α] [CMath α] (m : Mat M N α) (t : α), Spec.Total fun _ => Mat.nnzAbove m t) ∧
    (∀ [Zero α] [LE α] [DecidableLE α] [CMath α] (m : Mat M N α) (t : α), Spec.Total fun _ => Mat.threshold m t) ∧
    (∀ [Zero α] [Add α] (m : Mat M N α) (sums : Vec N α), Spec.Total fun cfg => Mat.columnwiseSum cfg m sums) ∧
    (∀ [Zero δ] [Add δ] (toD : α → δ) (m : Mat M N α), Spec.Total fun _ => Mat.sumElements toD m) ∧
    (∀ [Add α] [Sub α] [Mul α] [Div α] (tt : Mat.IntType) (ofLong : Int → α) (half : α) (toLong : α → Int) (m : Mat M N α) (q : Mat M N Int) (minValue maxValue : α), Spec.Total fun _ => Mat.quantizeTo tt ofLong half toLong m q minValue maxValue) ∧
    (∀ [Zero α] [Add α] [Sub α] [Mul α] [Div α] [LT α] [DecidableLT α] (tt : Mat.IntType) (ofLong : Int → α) (half : α) (toLong : α → Int) (maxT : α) (m : Mat M N α) (q : Mat M N Int), Spec.Total fun _ => Mat.quantize tt ofLong half toLong maxT m q) ∧
    (∀ [Add α] [Sub α] [Mul α] [Div α] [LT α] [DecidableLT α] (t : Mat.IntType) (ofLong : Int → α) (q : Mat M N Int) (d : Mat M N α) (minValue maxValue : α), Spec.Total fun _ => Mat.dequantize t ofLong q d minValue maxValue) ∧
    (∀ [Div δ] [Mul δ] [CMath δ] (ofNat : Nat → δ) (pi : δ) (ofD : δ → α) (m : Mat M N α), Spec.Total fun cfg => Mat.setDct cfg ofNat pi ofD m) ∧
    (∀ [One δ] [Add δ] [Neg δ] [Mul δ] [Div δ] (toD : Nat → δ) (ofD : δ → α) (randMax : Nat) (rnd : Nat → Nat) (m : Mat M N α), Spec.Total fun cfg => Mat.setRandom cfg toD ofD randMax rnd m) ∧
    (∀ [Zero α] [One α] [Mul α] [Zero δ] [Add δ] (toD : α → δ) (ofD : δ → α) (m : Mat M N α) (kernel : Mat U V α) (hM : M = N) (hU : U = V), Spec.Total fun cfg => Mat.convolve cfg toD ofD m kernel) ∧
    (∀ [Zero α] [Add α] (m : Mat M N α) (other : Mat (M / 2) N α), Spec.Total fun cfg => Mat.sumRows cfg m other) ∧
    (∀ [Zero α] [Add α] (m : Mat M N α) (other : Mat M (N / 2) α), Spec.Total fun cfg => Mat.sumColumns cfg m other) ∧
    (∀ [Zero α] (m : Mat M N α) (index : Nat) (h : index < M), Spec.Total fun cfg => Mat.getRowV cfg m index) ∧
    (∀ [Zero α] (m : Mat M N α) (index : Nat) (h : index < N), Spec.Total fun cfg => Mat.getColumnV cfg m index) ∧
    (∀ [Zero α] (m : Mat M N α), Spec.Total fun _ => Mat.setToZeroFunctor m) ∧
    (∀ [Zero α] [One α] (m : Mat M M α), Spec.Total fun cfg => Mat.setToIdentityFunctor cfg m) ∧
    (∀ [Zero α] [Neg α] [Vec.Bytes α] (a b : Mat M N α), Spec.Total fun cfg => Mat.equalsInvertedRows cfg a b) ∧
    (∀ [Zero α] [Neg α] [Sub α] [LE α] [DecidableLE α] [CMath α] (a b : Mat M N α) (tol : α), Spec.Total fun cfg => Mat.equalsInvertedRowsTol cfg a b tol) ∧
    (∀ [Zero α] [Neg α] [Vec.Bytes α] (a b : Mat M N α), Spec.Total fun cfg => Mat.equalsInvertedColumns cfg a b) ∧
    (∀ [Zero α] [Neg α] [Sub α] [LE α] [DecidableLE α] [CMath α] (a b : Mat M N α) (tol : α), Spec.Total fun cfg => Mat.equalsInvertedColumnsTol cfg a b tol) := by
  refine ⟨?_, ?_, ?_, ?_, ?_, ?_, ?_, ?_, ?_, ?_, ?_, ?_, ?_, ?_, ?_, ?_, ?_, ?_, ?_, ?_, ?_, ?_, ?_, ?_, ?_, ?_, ?_, ?_, ?_, ?_, ?_, ?_, ?_, ?_, ?_, ?_, ?_, ?_⟩
  · intros; apply Mat.total_multiplyH <;> assumption
  · intros; apply Mat.total_mulAssignH <;> assumption
  · intros; apply Mat.total_opAssignH <;> assumption
  · intros; apply Mat.total_transposeToH <;> assumption
  · intros; apply Mat.total_getCofactorsSelf <;> assumption
  · intros; apply Mat.total_getAdjugateSelf <;> assumption
  · intros; apply Mat.total_inverse2Self
  · intros; apply Mat.total_inverse3Self
  · intros; apply Mat.total_inverse4Self
  · intros; apply Mat.total_getTranslationTo <;> assumption
  · intros; apply Mat.total_getTranslation <;> assumption
  · intros; apply Mat.total_frobeniusNorm
  · intros; apply Mat.total_pNorm
  · intros; apply Mat.total_getMin
  · intros; apply Mat.total_getMax
  · intros; apply Mat.total_getAbsMin
  · intros; apply Mat.total_getAbsMax
  · intros; apply Mat.total_nnz
  · intros; apply Mat.total_nnzAbove
  · intros; apply Mat.total_threshold
  · intros; apply Mat.total_columnwiseSum
  · intros; apply Mat.total_sumElements
  · intros; apply Mat.total_quantizeTo <;> assumption
  · intros; apply Mat.total_quantize <;> assumption
  · intros; apply Mat.total_dequantize
  · intros; apply Mat.total_setDct
  · intros; apply Mat.total_setRandom
  · intros; apply Mat.total_convolve <;> assumption
  · intros; apply Mat.total_sumRows
  · intros; apply Mat.total_sumColumns
  · intros; apply Mat.total_getRowV <;> assumption
  · intros; apply Mat.total_getColumnV <;> assumption
  · intros; apply Mat.total_setToZeroFunctor
  · intros; apply Mat.total_setToIdentityFunctor
  · intros; apply Mat.total_equalsInvertedRows
  · intros; apply Mat.total_equalsInvertedRowsTol
  · intros; apply Mat.total_equalsInvertedColumns
  · intros; apply Mat.total_equalsInvertedColumnsTol

/-- C96. Text input and output. -/
theorem C96_io : (∀ (io : TextIO α) (m : Mat M N α) (os : List Char), Spec.Total fun cfg => Mat.writeToStream cfg io m os) ∧
    (∀ [Zero α] (io : TextIO α) (m : Mat M N α) (is : IStream), Spec.Total fun cfg => Mat.readFromStream cfg io m is) ∧
    (∀ (fmt : Ios → α → List Char) (m : Mat M N α) (os : OStream), Spec.Total fun cfg => Mat.print cfg fmt m os) ∧
    (∀ (fmt : Ios → α → List Char) (enc : List Char → List UInt8) (canOpen : List Char → Bool) (m : Mat M N α) (dir name : List Char) (fs : Files), Spec.Total fun cfg => Mat.writeCsvFile cfg fmt enc canOpen m dir name fs) ∧
    (∀ (io : TextIO α) (v : Vec M α) (os : List Char), Spec.Total fun cfg => Vec.writeToStream cfg io v os) ∧
    (∀ [Zero α] (io : TextIO α) (v : Vec M α) (is : IStream), Spec.Total fun cfg => Vec.readFromStream cfg io v is) ∧
    (∀ (fmt : Ios → α → List Char) (v : Vec M α) (os : OStream), Spec.Total fun cfg => Vec.print cfg fmt v os) ∧
    (∀ (fmt : Ios → α → List Char) (b : Box α) (os : OStream), Spec.Total fun cfg => Box.print cfg fmt b os) ∧
    (∀ (fmt : Ios → α → List Char) (k : Culler α) (os : OStream), Spec.Total fun cfg => Culler.print cfg fmt k os) := by
  refine ⟨?_, ?_, ?_, ?_, ?_, ?_, ?_, ?_, ?_⟩
  · intros; apply Mat.total_writeToStream
  · intros; apply Mat.total_readFromStream
  · intros; apply Mat.total_print
  · intros; apply Mat.total_writeCsvFile
  · intros; apply Vec.total_writeToStream
  · intros; apply Vec.total_readFromStream
  · intros; apply Vec.total_print
  · intros; apply Box.total_print
  · intros; apply Culler.total_print

/-- C96. Quaternions. -/
theorem C96_quaternion : (∀ [Zero α] [One α] [Mul α] [Div α] [BEq α] (q : Quat α) (a : α) (h : (a == 0) = false), Spec.Total fun cfg => Quat.divS cfg q a) ∧
    (∀ [Zero α] [One α] [Mul α] [Div α] [BEq α] (q : Quat α) (a : α) (h : (a == 0) = false), Spec.Total fun cfg => Quat.divAssignS cfg q a) ∧
    (∀ [One α] [Add α] [Sub α] [Mul α] (q : Quat α) (m : Mat D D α) (hD : 3 ≤ D), Spec.Total fun cfg => Quat.getRotationMatrixTo cfg q m) ∧
    (∀ [Zero α] [One α] [Add α] [Sub α] [Mul α] (q : Quat α), Spec.Total fun cfg => Quat.getRotationMatrix cfg q) ∧
    (∀ [Zero α] [One α] [Add α] [Sub α] [Mul α] [Div α] [LT α] [DecidableLT α] [CMath α] (eps : α) (self : Quat α) (m : Mat D D α) (hD : 3 ≤ D), Spec.Total fun cfg => Quat.setMatrix cfg eps self m) := by
  refine ⟨?_, ?_, ?_, ?_, ?_⟩
  · intros; apply Quat.total_divS <;> assumption
  · intros; apply Quat.total_divAssignS <;> assumption
  · intros; apply Quat.total_getRotationMatrixTo <;> assumption
  · intros; apply Quat.total_getRotationMatrix
  · intros; apply Quat.total_setMatrix <;> assumption

/-- C96. Frusta, culling, boxes, filters, rays, QR decomposition, utilities, traits. -/
theorem C96_other : (∀ {k : Nat} (cast : β → α) (f : Frustum α) (values : Vec k β) (h : 6 ≤ k), Spec.Total fun _ => Frustum.ofValues cast f values) ∧
    (∀ (f src : Frustum α), Spec.Total fun _ => Frustum.assign f src) ∧
    (∀ (cast : β → α) (f : Frustum α) (src : Frustum β), Spec.Total fun _ => Frustum.assignCast cast f src) ∧
    (∀ [Zero α] [One α] [OfNat α 2] [Add α] [Sub α] [Mul α] [Div α] [Neg α] (f : Frustum α) (m : Mat 4 4 α), Spec.Total fun cfg => Frustum.computeMatrix cfg f m) ∧
    (∀ [Zero α] [One α] [OfNat α 2] [Add α] [Sub α] [Mul α] [Div α] [Neg α] (f : Frustum α) (m : Mat 4 4 α), Spec.Total fun cfg => Frustum.computeOrthoMatrix cfg f m) ∧
    (∀ [Zero α] (maxT minT : α), Spec.Total fun _ => Box.ctor maxT minT) ∧
    (∀ [Zero α] [Add α] [Sub α] (cx cy cz size : α), Spec.Total fun cfg => Box.ctorCube cfg cx cy cz size) ∧
    (∀ (b : Box α) (pMin pMax : Vec 3 α), Spec.Total fun _ => Box.set b pMin pMax) ∧
    (∀ [Zero α] [Add α] [Sub α] (b : Box α) (cx cy cz size : α), Spec.Total fun cfg => Box.setCube cfg b cx cy cz size) ∧
    (∀ (b : Box α) (pMin : Vec 3 α), Spec.Total fun _ => Box.setMin b pMin) ∧
    (∀ (b : Box α) (pMax : Vec 3 α), Spec.Total fun _ => Box.setMax b pMax) ∧
    (∀ [Mul α] (b : Box α) (value : α), Spec.Total fun cfg => Box.mulAssign cfg b value) ∧
    (∀ [Div α] (b : Box α) (value : α), Spec.Total fun cfg => Box.divAssign cfg b value) ∧
    (∀ [Add α] (b : Box α) (value : α), Spec.Total fun cfg => Box.addAssign cfg b value) ∧
    (∀ [Sub α] (b : Box α) (value : α), Spec.Total fun cfg => Box.subAssign cfg b value) ∧
    (∀ [Mul α] (b : Box α) (value : α), Spec.Total fun cfg => Box.mul cfg b value) ∧
    (∀ [Div α] (b : Box α) (value : α), Spec.Total fun cfg => Box.div cfg b value) ∧
    (∀ [Add α] (b : Box α) (value : α), Spec.Total fun cfg => Box.add cfg b value) ∧
    (∀ [Sub α] (b : Box α) (value : α), Spec.Total fun cfg => Box.sub cfg b value) ∧
    (∀ [Zero α] [Add α] [Sub α] [Mul α] (half : α) (b : Box α), Spec.Total fun cfg => Box.getCenter cfg half b) ∧
    (∀ [Zero α] [Sub α] (b : Box α), Spec.Total fun cfg => Box.getDimension cfg b) ∧
    (∀ [Neg α] (maxT : α) (b : Box α), Spec.Total fun cfg => Box.setEmpty cfg maxT b) ∧
    (∀ [Zero α] [One α], Spec.Total fun _ => (Box.makeUnitBox : Res (Box α))) ∧
    (∀ [Zero α] [One α] [Add α] [Mul α] [Div α] [CMath α] (plane : Vec 4 α), Spec.Total fun cfg => Culler.normalizePlane cfg plane) ∧
    (∀ [Zero α] [One α] [Add α] [Sub α] [Mul α] [Div α] [CMath α] (m : Mat 4 4 α), Spec.Total fun cfg => Culler.setupMatrix cfg m) ∧
    (∀ [Zero α] [One α] [Add α] [Sub α] [Neg α] [Mul α] [Div α] [BEq α] [CMath α] (a b c d e f g h : Vec 3 α), Spec.Total fun cfg => Culler.setupCorners cfg a b c d e f g h) ∧
    (∀ [Zero α] [One α] [Add α] [Sub α] [Mul α] [CMath α] [LE α] [DecidableLE α] [LT α] [DecidableLT α] (plane : Vec 4 α) (middle extent : Vec 3 α), Spec.Total fun cfg => Culler.testAabbPlane cfg plane middle extent) ∧
    (∀ [Zero α] [One α] [Add α] [Sub α] [Mul α] [CMath α] [LE α] [DecidableLE α] [LT α] [DecidableLT α] (middle extent : Vec 3 α) (planes : List (Vec 4 α)) (result : Visibility), Spec.Total fun cfg => Culler.testAabbFrom cfg middle extent planes result) ∧
    (∀ [Zero α] [One α] [Add α] [Sub α] [Mul α] [CMath α] [LE α] [DecidableLE α] [LT α] [DecidableLT α] (half : α) (k : Culler α) (x y z : Vec 2 α), Spec.Total fun cfg => Culler.testAabb cfg half k x y z) ∧
    (∀ {W V : Type} (l : Lowpass W V) (h : l.value ≠ none), Spec.Total fun _ => Lowpass.get l) ∧
    (∀ {W V : Type} [One W] [Sub W] [Mul W] [Add V] [SMul W V] (M : Nat) (l : Lowpass W V) (value : V) (h : 0 < M), Spec.Total fun _ => Lowpass.add M l value) ∧
    (∀ [Zero α] [One α] [Add α] [Mul α] [Div α] [BEq α] [CMath α] (origin direction : Vec 3 α), Spec.Total fun cfg => Ray.ctor cfg origin direction) ∧
    (∀ [Zero α] [Add α] [Sub α] [Mul α] [CMath α] [LT α] [DecidableLT α] (ray : Ray α) (sphere : Vec 4 α) (t : α), Spec.Total fun cfg => Ray.testSphere cfg ray sphere t) ∧
    (∀ [Zero α] [Add α] [Sub α] [Mul α] (mem : Vec M α) (A : Mat M N α) (Q : Mat M M α) (j : Nat) (R : Mat N N α) (v : Vec M α) (hM : N ≤ M) (hj : j < N), Spec.Total fun cfg => QR.inner cfg mem A Q j R v) ∧
    (∀ [Zero α] [Add α] [Sub α] [Mul α] [Div α] [CMath α] (A : Mat M N α) (Q₀ : Mat M M α) (R₀ : Mat N N α) (hM : N ≤ M), Spec.Total fun cfg => QR.decompose cfg A Q₀ R₀) ∧
    (∀ [Zero α] [One α] (arg : Vec 3 α), Spec.Total fun cfg => Util.createTranslation cfg arg) ∧
    (∀ [Zero α] [One α] [Add α] [Mul α] (m : Mat 4 4 α) (t0 t1 t2 : α), Spec.Total fun cfg => Util.applyTranslation cfg m t0 t1 t2) ∧
    (∀ [Zero α] [One α] [Add α] [Sub α] [Mul α] [CMath α] (angle : α) (axis : Vec 3 α), Spec.Total fun cfg => Util.createRotation cfg angle axis) ∧
    (∀ [Zero α] [One α] [Add α] [Sub α] [Mul α] [CMath α] (m : Mat 4 4 α) (angle t0 t1 t2 : α), Spec.Total fun cfg => Util.applyRotation cfg m angle t0 t1 t2) ∧
    (∀ [Zero α] [One α] [Mul α] (arg : Vec 3 α), Spec.Total fun cfg => Util.createScaling cfg arg) ∧
    (∀ [Zero α] [One α] [Mul α] (arg : α), Spec.Total fun cfg => Util.createScalingS cfg arg) ∧
    (∀ [Zero α] (arg : Vec M α), Spec.Total fun _ => Util.zero arg) ∧
    (∀ [Zero α] [LT α] [DecidableLT α] (a b : Vec M α), Spec.Total fun _ => Util.min a b) ∧
    (∀ [Zero α] [LT α] [DecidableLT α] (a b : Vec M α), Spec.Total fun _ => Util.max a b) ∧
    (∀ [Zero α] [Add α] [CMath α] (arg : Vec M α), Spec.Total fun _ => Util.manhattan arg) ∧
    (∀ (row : Fin M) (col : Fin N) (m : Mat M N α) (h : M = N), Spec.Total fun cfg => Traits.r cfg row col m) ∧
    (∀ (row : Fin M) (col : Fin N) (m : Mat M N α) (x : α) (h : M = N), Spec.Total fun cfg => Traits.w cfg row col m x) ∧
    (∀ (row col : Int) (m : Mat M N α) (h : M = N) (hM : M < 2 ^ 63) (h1 : 0 ≤ row) (h2 : row < M) (h3 : 0 ≤ col) (h4 : col < N), Spec.Total fun cfg => Traits.ir cfg row col m) ∧
    (∀ (row col : Int) (m : Mat M N α) (x : α) (h : M = N) (hM : M < 2 ^ 63) (h1 : 0 ≤ row) (h2 : row < M) (h3 : 0 ≤ col) (h4 : col < N), Spec.Total fun cfg => Traits.iw cfg row col m x) ∧
    (∀ (i : Fin M) (v : Vec M α), Spec.Total fun _ => Traits.vr i v) ∧
    (∀ (i : Fin M) (v : Vec M α) (x : α), Spec.Total fun _ => Traits.vw i v x) ∧
    (∀ (i : Int) (v : Vec M α) (h1 : 0 ≤ i) (h2 : i < M), Spec.Total fun cfg => Traits.vir cfg i v) ∧
    (∀ (i : Int) (v : Vec M α) (x : α) (h1 : 0 ≤ i) (h2 : i < M), Spec.Total fun cfg => Traits.viw cfg i v x) := by
  refine ⟨?_, ?_, ?_, ?_, ?_, ?_, ?_, ?_, ?_, ?_, ?_, ?_, ?_, ?_, ?_, ?_, ?_, ?_, ?_, ?_, ?_, ?_, ?_, ?_, ?_, ?_, ?_, ?_, ?_, ?_, ?_, ?_, ?_, ?_, ?_, ?_, ?_, ?_, ?_, ?_, ?_, ?_, ?_, ?_, ?_, ?_, ?_, ?_, ?_, ?_, ?_, ?_, ?_⟩
  · intros; apply Frustum.total_ofValues <;> assumption
  · intros; apply Frustum.total_assign
  · intros; apply Frustum.total_assignCast
  · intros; apply Frustum.total_computeMatrix
  · intros; apply Frustum.total_computeOrthoMatrix
  · intros; apply Box.total_ctor
  · intros; apply Box.total_ctorCube
  · intros; apply Box.total_set
  · intros; apply Box.total_setCube
  · intros; apply Box.total_setMin
  · intros; apply Box.total_setMax
  · intros; apply Box.total_mulAssign
  · intros; apply Box.total_divAssign
  · intros; apply Box.total_addAssign
  · intros; apply Box.total_subAssign
  · intros; apply Box.total_mul
  · intros; apply Box.total_div
  · intros; apply Box.total_add
  · intros; apply Box.total_sub
  · intros; apply Box.total_getCenter <;> assumption
  · intros; apply Box.total_getDimension
  · intros; apply Box.total_setEmpty
  · intros; apply Box.total_makeUnitBox
  · intros; apply Culler.total_normalizePlane
  · intros; apply Culler.total_setupMatrix
  · intros; apply Culler.total_setupCorners
  · intros; apply Culler.total_testAabbPlane
  · intros; apply Culler.total_testAabbFrom
  · intros; apply Culler.total_testAabb <;> assumption
  · intros; apply Lowpass.total_get <;> assumption
  · intros; apply Lowpass.total_add <;> assumption
  · intros; apply Ray.total_ctor
  · intros; apply Ray.total_testSphere
  · intros; apply QR.total_inner <;> assumption
  · intros; apply QR.total_decompose <;> assumption
  · intros; apply Util.total_createTranslation
  · intros; apply Util.total_applyTranslation
  · intros; apply Util.total_createRotation
  · intros; apply Util.total_applyRotation
  · intros; apply Util.total_createScaling
  · intros; apply Util.total_createScalingS
  · intros; apply Util.total_zero
  · intros; apply Util.total_min
  · intros; apply Util.total_max
  · intros; apply Util.total_manhattan
  · intros; apply Traits.total_r <;> assumption
  · intros; apply Traits.total_w <;> assumption
  · intros; apply Traits.total_ir <;> assumption
  · intros; apply Traits.total_iw <;> assumption
  · intros; apply Traits.total_vr
  · intros; apply Traits.total_vw
  · intros; apply Traits.total_vir <;> assumption
  · intros; apply Traits.total_viw <;> assumption

/-! ## C97 -/

/-- A call that returns normally in a build with all checks (checked accessors, exceptions, assertions) returns the same value in every other build. -/
def Spec.Stable (f : Cfg → Res β) : Prop := ∀ r, f ⟨true, true, false⟩ = .ok r → ∀ cfg, f cfg = .ok r

theorem stable_of_total {f : Cfg → Res β} (h : Spec.Total f) : Spec.Stable f := by
  obtain ⟨r, h⟩ := h
  intro r' h' cfg
  rw [h] at h' ⊢
  exact h'
theorem stable_const (x : Res β) : Spec.Stable fun _ => x := fun _ h _ => h
theorem stable_bind {x : Cfg → Res γ} {g : Cfg → γ → Res β} (hx : Spec.Stable x) (hg : ∀ a, Spec.Stable fun cfg => g cfg a) :
    Spec.Stable fun cfg => x cfg >>= g cfg := by
  intro r h cfg
  cases hs : x ⟨true, true, false⟩ with
  | error e => simp only [hs, bind_error] at h; cases h
  | ok a =>
    simp only [hs, bind_ok] at h
    simp only [hx a hs cfg, bind_ok]
    exact hg a r h cfg
theorem stable_loop {n : Nat} {body : Cfg → Nat → σ → Res σ} {s : σ} (h : ∀ i, i < n → ∀ s, Spec.Stable fun cfg => body cfg i s) :
    Spec.Stable fun cfg => loop n (body cfg) s := by
  induction n with
  | zero => exact stable_const _
  | succ n ih => exact stable_bind (g := fun cfg => body cfg n) (ih fun i hi => h i (by omega)) (h n (by omega))
theorem stable_ite {c : Prop} [Decidable c] {a b : Cfg → Res β} (ha : c → Spec.Stable a) (hb : ¬ c → Spec.Stable b) :
    Spec.Stable fun cfg => if c then a cfg else b cfg := by
  by_cases h : c
  · simpa [h] using ha h
  · simpa [h] using hb h
/-- `if( bad ) VMMLIB_ERROR( .. )`, `bad` being a condition that is tested with checked accessors only. -/
theorem stable_guard {b : Bool} {x : Cfg → Res β} (hx : Spec.Stable x) :
    Spec.Stable fun cfg => if (cfg.safe && b) = true then vmmlibError cfg >>= fun _ => x cfg else x cfg := by
  intro r h cfg
  cases b
  · simp only [Bool.and_false, Bool.false_eq_true, if_false] at h ⊢
    exact hx r h cfg
  · simp [vmmlibError] at h
/-- `if( bad ) VMMLIB_ERROR( .. )`, tested in every build. -/
theorem stable_error {c : Prop} [Decidable c] {x : Cfg → Res β} (hx : Spec.Stable x) :
    Spec.Stable fun cfg => if c then vmmlibError cfg >>= fun _ => x cfg else x cfg := by
  intro r h cfg
  by_cases hc : c
  · simp [vmmlibError, hc] at h
  · simp only [hc, if_false] at h ⊢
    exact hx r h cfg
theorem stable_cassert (b : Bool) : Spec.Stable fun cfg => cassert cfg b := by
  intro r h cfg
  cases b
  · simp [cassert] at h
  · simp [cassert]

private theorem vget (v : Vec M α) (i : Nat) : Spec.Stable fun cfg => v.atGet cfg i := stable_guard (stable_const _)
private theorem vset (v : Vec M α) (i : Nat) (x : α) : Spec.Stable fun cfg => v.atSet cfg i x := stable_guard (stable_const _)
private theorem mget (m : Mat M N α) (r c : Nat) : Spec.Stable fun cfg => m.atGet cfg r c := stable_guard (stable_const _)
private theorem mset (m : Mat M N α) (r c : Nat) (x : α) : Spec.Stable fun cfg => m.atSet cfg r c x := stable_guard (stable_const _)
private theorem getCol (m : Mat M N α) (i : Nat) (v : Vec M α) : Spec.Stable fun cfg => m.getColumn cfg i v := stable_guard (stable_const _)
private theorem setCol (m : Mat M N α) (i : Nat) (v : Vec M α) : Spec.Stable fun cfg => m.setColumn cfg i v := stable_guard (stable_const _)

/-- C97. Element access, rows, columns and blocks with arbitrary indices and offsets. -/
theorem C97_access (v : Vec M α) (m : Mat M N α) (sub : Mat O P α) (row : Vec N α) (col : Vec M α) (r c : Nat) (x : α) :
    Spec.Stable (fun cfg => v.atGet cfg r) ∧ Spec.Stable (fun cfg => v.atSet cfg r x) ∧
    Spec.Stable (fun cfg => m.atGet cfg r c) ∧ Spec.Stable (fun cfg => m.atSet cfg r c x) ∧
    Spec.Stable (fun cfg => m.bracketGet cfg r c) ∧ Spec.Stable (fun cfg => m.bracketSet cfg r c x) ∧
    Spec.Stable (fun cfg => m.getColumn cfg c col) ∧ Spec.Stable (fun cfg => m.setColumn cfg c col) ∧
    Spec.Stable (fun cfg => m.getRow cfg r row) ∧ Spec.Stable (fun cfg => m.setRow cfg r row) ∧
    Spec.Stable (fun cfg => m.getSubMatrix cfg sub r c) ∧ Spec.Stable (fun cfg => m.setSubMatrix cfg sub r c) := by
  refine ⟨vget v r, vset v r x, mget m r c, mset m r c x, stable_guard (stable_guard (stable_const _)), stable_guard (stable_guard (stable_const _)),
    getCol m c col, setCol m c col, stable_guard (stable_loop fun i _ s => ?_), stable_guard (stable_loop fun i _ s => ?_),
    stable_guard (stable_loop fun i _ s => stable_loop fun j _ s => ?_), stable_loop fun i _ s => stable_loop fun j _ s => ?_⟩
  · exact stable_bind (mget _ _ _) fun _ => vset _ _ _
  · exact stable_bind (vget _ _) fun _ => mset _ _ _ _
  · exact stable_bind (mget _ _ _) fun _ => mset _ _ _ _
  · exact stable_bind (mget _ _ _) fun _ => mset _ _ _ _

/-- C97. Sub-vectors, assignment from a container of any length, integer index traits, division of a quaternion by any scalar. -/
theorem C97_other [Zero α] [One α] [Mul α] [Div α] [BEq α] (v : Vec M α) (m : Mat M N α) (q : Quat α) (L offset i : Nat) (dflt : Vec L α) (x : α)
    (data : List α) (row col : Int) :
    Spec.Stable (fun cfg => v.getSub cfg L offset dflt) ∧ Spec.Stable (fun cfg => v.subSet cfg L offset i x) ∧
    Spec.Stable (fun cfg => m.assignStdVector cfg data) ∧ Spec.Stable (fun cfg => m.assignPtr cfg data) ∧
    Spec.Stable (fun cfg => Traits.ir cfg row col m) ∧ Spec.Stable (fun cfg => Traits.iw cfg row col m x) ∧
    Spec.Stable (fun cfg => Traits.vir cfg row v) ∧ Spec.Stable (fun cfg => Traits.viw cfg row v x) ∧
    Spec.Stable (fun cfg => q.divS cfg x) ∧ Spec.Stable (fun cfg => q.divAssignS cfg x) := by
  refine ⟨stable_bind (stable_cassert _) fun _ => stable_const _, stable_bind (stable_cassert _) fun _ => stable_guard (stable_const _),
    stable_error (stable_of_total (Mat.total_setRowMajor ..)), stable_ite (fun h => stable_of_total (Mat.total_setRowMajor ..)) fun _ => stable_const _,
    ?_, ?_, stable_bind (stable_cassert _) fun _ => stable_bind (stable_cassert _) fun _ => stable_const _,
    stable_bind (stable_cassert _) fun _ => stable_bind (stable_cassert _) fun _ => stable_const _, stable_error (stable_const _), stable_error (stable_const _)⟩
  · exact stable_bind (stable_cassert _) fun _ => stable_bind (stable_cassert _) fun _ => stable_bind (stable_cassert _) fun _ =>
      stable_bind (stable_cassert _) fun _ => mget _ _ _
  · exact stable_bind (stable_cassert _) fun _ => stable_bind (stable_cassert _) fun _ => stable_bind (stable_cassert _) fun _ =>
      stable_bind (stable_cassert _) fun _ => mset _ _ _ _

/-- C97. Functions defined for shapes for which some of their accesses leave the arrays: the homogeneous product with a vector of any size, the
convolution with non-square operands, the rotation matrix written to a matrix of any size, Gram-Schmidt with fewer rows than columns. -/
theorem C97_shapes [Zero α] [One α] [Add α] [Sub α] [Mul α] [Div α] [CMath α] [Zero δ] [Add δ] {U V : Nat} (a : Mat M (K + 1) α) (v : Vec O α)
    (toD : α → δ) (ofD : δ → α) (m : Mat M N α) (kernel : Mat U V α) (q : Quat α) (rot : Mat D D α) (Q₀ : Mat M M α) (R₀ : Mat N N α) :
    Spec.Stable (fun cfg => a.mulVecHom cfg v) ∧ Spec.Stable (fun cfg => m.convolve cfg toD ofD kernel) ∧
    Spec.Stable (fun cfg => q.getRotationMatrixTo cfg rot) ∧ Spec.Stable (fun cfg => QR.decompose cfg m Q₀ R₀) := by
  refine ⟨?_, ?_, ?_, ?_⟩
  · refine stable_loop fun i _ s => stable_bind (stable_loop fun j _ s => stable_bind (vget _ _) fun _ => stable_bind (mget _ _ _) fun _ => stable_const _) fun _ => ?_
    refine stable_ite (fun _ => stable_bind (mget _ _ _) fun _ => vset _ _ _) fun _ => stable_bind (mget _ _ _) fun _ => ?_
    exact stable_loop fun j _ s => stable_bind (vget _ _) fun _ => vset _ _ _
  · refine stable_bind (stable_of_total Mat.total_ctor) fun t => stable_bind (stable_loop fun y _ s => stable_loop fun x _ s => ?_) fun _ => stable_const _
    refine stable_bind (stable_loop fun j _ s => stable_loop fun i _ s => ?_) fun _ => mset _ _ _ _
    exact stable_bind (mget _ _ _) fun _ => stable_bind (mget _ _ _) fun _ => stable_const _
  · unfold Quat.getRotationMatrixTo
    dsimp only
    exact stable_bind (mset _ _ _ _) fun _ => stable_bind (mset _ _ _ _) fun _ => stable_bind (mset _ _ _ _) fun _ => stable_bind (mset _ _ _ _) fun _ =>
      stable_bind (mset _ _ _ _) fun _ => stable_bind (mset _ _ _ _) fun _ => stable_bind (mset _ _ _ _) fun _ => stable_bind (mset _ _ _ _) fun _ => mset _ _ _ _
  · refine stable_bind (stable_const _) fun Q => stable_bind (stable_const _) fun R => stable_loop fun j _ s => ?_
    refine stable_bind (getCol _ _ _) fun v => stable_bind (stable_loop fun i _ s => ?_) fun t => ?_
    · refine stable_bind (getCol _ _ _) fun q => stable_bind (getCol _ _ _) fun a => stable_bind (stable_of_total (Vec.total_dot ..)) fun x =>
        stable_bind (mset _ _ _ _) fun R => stable_bind (mget _ _ _) fun y => stable_bind (stable_of_total (Vec.total_mulS ..)) fun w =>
        stable_bind (stable_of_total (Vec.total_subAssign ..)) fun v => stable_const _
    · refine stable_bind (stable_const _) fun l => stable_bind (mset _ _ _ _) fun R => stable_bind (mget _ _ _) fun x =>
        stable_bind (stable_of_total (Vec.total_divS ..)) fun w => stable_bind (setCol _ _ _) fun Q => stable_const _

/-- C97. Access through `at`, rows, columns and blocks in a build with checked accessors: whatever the arguments, an access outside the arrays never
happens; the call returns or reports the error. -/
theorem C97_checked (cfg : Cfg) (hs : cfg.safe = true) (hn : cfg.throws = true ∨ cfg.ndebug = false) (v : Vec M α) (m : Mat M N α) (sub : Mat O P α)
    (row : Vec N α) (col : Vec M α) (r c : Nat) (x : α) :
    v.atGet cfg r ≠ .error .ub ∧ v.atSet cfg r x ≠ .error .ub ∧ m.atGet cfg r c ≠ .error .ub ∧ m.atSet cfg r c x ≠ .error .ub ∧
    m.getColumn cfg c col ≠ .error .ub ∧ m.setColumn cfg c col ≠ .error .ub ∧ m.getRow cfg r row ≠ .error .ub ∧ m.setRow cfg r row ≠ .error .ub ∧
    m.getSubMatrix cfg sub r c ≠ .error .ub ∧ m.setSubMatrix cfg sub r c ≠ .error .ub := by
  have hstop : ∀ {β : Type} (k : Res β), (vmmlibError cfg >>= fun _ => k) ≠ .error .ub := by
    intro β k
    rcases hn with h | h
    · simp [vmmlibError, h]
    · by_cases ht : cfg.throws = true <;> simp [vmmlibError, h, ht]
  have ok : ∀ {β : Type} {f : Cfg → Res β}, Spec.Total f → f cfg ≠ .error .ub := by
    rintro β f ⟨r, h⟩
    rw [h]; exact fun h => by cases h
  have hb : ∀ {β γ : Type} {x : Res γ} {k : γ → Res β}, x ≠ .error .ub → (∀ a, k a ≠ .error .ub) → (x >>= k) ≠ .error .ub := by
    intro β γ x k hx hk
    cases x with
    | ok a => exact hk a
    | error e => intro h; apply hx; simpa using h
  have hl : ∀ {σ : Type} {n : Nat} {body : Nat → σ → Res σ} {s : σ}, (∀ i, i < n → ∀ s, body i s ≠ .error .ub) → loop n body s ≠ .error .ub := by
    intro σ n body s h
    induction n with
    | zero => exact fun h => by cases h
    | succ n ih => exact hb (ih fun i hi => h i (by omega)) (h n (by omega))
  have hvg : ∀ {M : Nat} (v : Vec M α) i, v.atGet cfg i ≠ .error .ub := by
    intro M v i
    by_cases h : i < M
    · exact ok (Vec.total_atGet v h)
    · simp only [Vec.atGet, hs, Bool.true_and, decide_eq_true (show M ≤ i by omega), if_true]; exact hstop _
  have hvs : ∀ {M : Nat} (v : Vec M α) i x, v.atSet cfg i x ≠ .error .ub := by
    intro M v i x
    by_cases h : i < M
    · exact ok (Vec.total_atSet v h x)
    · simp only [Vec.atSet, hs, Bool.true_and, decide_eq_true (show M ≤ i by omega), if_true]; exact hstop _
  have hmg : ∀ {M N : Nat} (m : Mat M N α) r c, m.atGet cfg r c ≠ .error .ub := by
    intro M N m r c
    by_cases h : r < M ∧ c < N
    · exact ok (Mat.total_atGet m h.1 h.2)
    · have : (decide (M ≤ r) || decide (N ≤ c)) = true := by simp; omega
      simp only [Mat.atGet, hs, Bool.true_and, this, if_true]; exact hstop _
  have hms : ∀ {M N : Nat} (m : Mat M N α) r c x, m.atSet cfg r c x ≠ .error .ub := by
    intro M N m r c x
    by_cases h : r < M ∧ c < N
    · exact ok (Mat.total_atSet m h.1 h.2 x)
    · have : (decide (M ≤ r) || decide (N ≤ c)) = true := by simp; omega
      simp only [Mat.atSet, hs, Bool.true_and, this, if_true]; exact hstop _
  refine ⟨hvg v r, hvs v r x, hmg m r c, hms m r c x, ?_, ?_, ?_, ?_, ?_, ?_⟩
  · by_cases h : c < N
    · exact ok (Mat.total_getColumn m c col h)
    · simp only [Mat.getColumn, hs, Bool.true_and, decide_eq_true (show N ≤ c by omega), if_true]; exact hstop _
  · by_cases h : c < N
    · exact ok (Mat.total_setColumn m c col h)
    · simp only [Mat.setColumn, hs, Bool.true_and, decide_eq_true (show N ≤ c by omega), if_true]; exact hstop _
  · by_cases h : r < M
    · exact ok (Mat.total_getRow m r row h)
    · simp only [Mat.getRow, hs, Bool.true_and, decide_eq_true (show M ≤ r by omega), if_true]; exact hstop _
  · by_cases h : r < M
    · exact ok (Mat.total_setRow m r row h)
    · simp only [Mat.setRow, hs, Bool.true_and, decide_eq_true (show M ≤ r by omega), if_true]; exact hstop _
  · by_cases h : r + O ≤ M ∧ c + P ≤ N
    · exact ok (Mat.total_getSubMatrix m sub r c h.1 h.2)
    · have : (decide (M < O + r) || decide (N < P + c)) = true := by simp; omega
      simp only [Mat.getSubMatrix, hs, Bool.true_and, this, if_true]; exact hstop _
  · exact hl fun i _ s => hl fun j _ s => hb (hmg _ _ _) fun a => hms _ _ _ _

/-! ## Instances -/

example : Spec.Total fun cfg => Vec.add cfg (#v[1, 2] : Vec 2 Int) #v[3, 4] := C96_vector_arithmetic.1 _ _
example : Vec.add (Cfg.mk false false true) (#v[1, 2] : Vec 2 Int) #v[3, 4] = .ok #v[4, 6] := by decide
/-- Scalars without any law: the machine `Float` (NaN, infinities, rounding). -/
example (v w : Vec 3 Float) : Spec.Total fun cfg => Vec.add cfg v w := C96_vector_arithmetic.1 v w
/-- The preconditions matter: the homogeneous product of a 3-column matrix with a 1-vector leaves the vector. -/
example : (⟨#v[1, 0, 0, 0, 1, 0, 0, 0, 1]⟩ : Mat 3 3 Int).mulVecHom (K := 2) ⟨false, false, true⟩ (#v[1] : Vec 1 Int) = .error .ub := by decide
/-- A call that succeeds with all checks: the same value without. -/
example : (⟨#v[1, 2, 3, 4]⟩ : Mat 2 2 Int).getRow ⟨true, true, false⟩ 1 #v[0, 0] = .ok #v[2, 4] ∧
    (⟨#v[1, 2, 3, 4]⟩ : Mat 2 2 Int).getRow ⟨false, false, true⟩ 1 #v[0, 0] = .ok #v[2, 4] := by decide
/-- The converse fails: without checks `at( 2, 0 )` of a 2x2 matrix reads another element. -/
example : (⟨#v[1, 2, 3, 4]⟩ : Mat 2 2 Int).atGet ⟨true, true, false⟩ 2 0 = .error .thrown ∧
    (⟨#v[1, 2, 3, 4]⟩ : Mat 2 2 Int).atGet ⟨false, true, true⟩ 2 0 = .ok 3 := by decide

end Vmml
