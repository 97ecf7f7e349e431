import Verif.Proofs.Total
import Verif.Model.Alias

/-! # No fault, no dependence on the configuration: `Model/Vector`, `Model/Alias` -/

namespace Vmml
variable {M N : Nat} {α β : Type}

/-- The index found by `std::min_element` is in range, whatever the comparison does. -/
theorem Vec.totalP_minElement (comp : α → α → Bool) (v : Vec M α) (h : 0 < M) : Spec.TotalP (· < M) fun _ => v.minElement comp := by
  unfold Vec.minElement
  refine totalP_loop (I := fun _ b => b < M) h fun i hi b hb => ?_
  obtain ⟨x, hx⟩ := Vec.total_rawGet v (i := i + 1) (by omega)
  obtain ⟨y, hy⟩ := Vec.total_rawGet v hb
  simp only [hx ⟨true, true, true⟩, hy ⟨true, true, true⟩, bind_ok]
  exact totalP_ite (fun _ => totalP_pure (by omega)) fun _ => totalP_pure hb
/-- The same for `std::max_element`. -/
theorem Vec.totalP_maxElement (comp : α → α → Bool) (v : Vec M α) (h : 0 < M) : Spec.TotalP (· < M) fun _ => v.maxElement comp := by
  unfold Vec.maxElement
  refine totalP_loop (I := fun _ b => b < M) h fun i hi b hb => ?_
  obtain ⟨x, hx⟩ := Vec.total_rawGet v (i := i + 1) (by omega)
  obtain ⟨y, hy⟩ := Vec.total_rawGet v hb
  simp only [hx ⟨true, true, true⟩, hy ⟨true, true, true⟩, bind_ok]
  exact totalP_ite (fun _ => totalP_pure (by omega)) fun _ => totalP_pure hb
theorem Vec.total_getX (v : Vec M α) (h : 0 < M) : Spec.Total fun _ => Vec.getX v := by
  unfold Vec.getX; total
theorem Vec.total_getY (v : Vec M α) (h : 1 < M) : Spec.Total fun _ => Vec.getY v := by
  unfold Vec.getY; total
theorem Vec.total_getZ (v : Vec M α) (h : 2 < M) : Spec.Total fun _ => Vec.getZ v := by
  unfold Vec.getZ; total
theorem Vec.total_getW (v : Vec M α) (h : 3 < M) : Spec.Total fun _ => Vec.getW v := by
  unfold Vec.getW; total
theorem Vec.total_setX (v : Vec M α) (a : α) (h : 0 < M) : Spec.Total fun _ => Vec.setX v a := by
  unfold Vec.setX; total
theorem Vec.total_setY (v : Vec M α) (a : α) (h : 1 < M) : Spec.Total fun _ => Vec.setY v a := by
  unfold Vec.setY; total
theorem Vec.total_setZ (v : Vec M α) (a : α) (h : 2 < M) : Spec.Total fun _ => Vec.setZ v a := by
  unfold Vec.setZ; total
theorem Vec.total_setW (v : Vec M α) (a : α) (h : 3 < M) : Spec.Total fun _ => Vec.setW v a := by
  unfold Vec.setW; total
theorem Vec.total_fill (mem : Vec M α) (a : α) : Spec.Total fun _ => Vec.fill mem a := by
  unfold Vec.fill; total
theorem Vec.total_assignFiller (v : Vec M α) (a : α) : Spec.Total fun cfg => Vec.assignFiller cfg v a := by
  unfold Vec.assignFiller; total
theorem Vec.total_set2 (mem : Vec M α) (x y : α) (h : 2 ≤ M) : Spec.Total fun _ => Vec.set2 mem x y := by
  unfold Vec.set2; total
theorem Vec.total_set3 (mem : Vec M α) (x y z : α) (h : 3 ≤ M) : Spec.Total fun _ => Vec.set3 mem x y z := by
  unfold Vec.set3; total
theorem Vec.total_set4 (mem : Vec M α) (x y z w : α) (h : 4 ≤ M) : Spec.Total fun _ => Vec.set4 mem x y z w := by
  unfold Vec.set4; total
theorem Vec.total_memcpy (dst : Vec M α) (src : Vec N α) (n : Nat) (h : n ≤ M) (h' : n ≤ N) : Spec.Total fun _ => Vec.memcpy dst src n := by
  unfold Vec.memcpy; total
theorem Vec.total_appendCtor (mem : Vec (N + 1) α) (v : Vec N α) (last : α) : Spec.Total fun _ => Vec.appendCtor mem v last := by
  unfold Vec.appendCtor; total
theorem Vec.total_setAppend (mem : Vec (N + 1) α) (v : Vec N α) (a : α) : Spec.Total fun cfg => Vec.setAppend cfg mem v a := by
  unfold Vec.setAppend; total
theorem Vec.total_setVec (dst : Vec M α) (v : Vec N α) : Spec.Total fun _ => Vec.setVec dst v := by
  unfold Vec.setVec; exact Vec.total_memcpy _ _ _ (by split <;> omega) (by split <;> omega)
theorem Vec.total_toHomogeneous [One α] (mem : Vec (N + 1) α) (src : Vec N α) : Spec.Total fun cfg => Vec.toHomogeneous cfg mem src := by
  unfold Vec.toHomogeneous; total
theorem Vec.total_fromHomogeneous [One α] [Mul α] [Div α] (mem : Vec M α) (src : Vec (M + 1) α) : Spec.Total fun cfg => Vec.fromHomogeneous cfg mem src := by
  unfold Vec.fromHomogeneous; total
theorem Vec.total_assign (dst src : Vec M α) : Spec.Total fun _ => Vec.assign dst src := by
  unfold Vec.assign; total
theorem Vec.total_assignCast (cast : β → α) (dst : Vec M α) (src : Vec M β) : Spec.Total fun _ => Vec.assignCast cast dst src := by
  unfold Vec.assignCast; total
theorem Vec.total_iterSet (cast : β → α) (dst : Vec M α) (src : List β) : Spec.Total fun _ => Vec.iterSet cast dst src := by
  unfold Vec.iterSet; refine total_loop fun i hi s => ?_
  cases src[i]?
  · total
  · exact Vec.total_rawSet _ hi _
theorem Vec.total_getSub (v : Vec M α) (N : Nat) (offset : Nat) (dflt : Vec N α) (hN : N ≤ M) (h : offset ≤ M - N) : Spec.Total fun cfg => Vec.getSub cfg v N offset dflt := by
  unfold Vec.getSub; refine total_bind (total_check (by simpa using h)) fun _ => ?_; total
theorem Vec.total_subSet (v : Vec M α) (N : Nat) (offset i : Nat) (x : α) (hN : N ≤ M) (h : offset ≤ M - N) (hi : i < N) : Spec.Total fun cfg => Vec.subSet cfg v N offset i x := by
  unfold Vec.subSet; refine total_bind (total_check (by simpa using h)) fun _ => ?_
  simp only [show ¬ N ≤ i by omega, decide_false, Bool.and_false, Bool.false_eq_true, if_false]; total
theorem Vec.total_add [Zero α] [Add α] (v w : Vec M α) : Spec.Total fun cfg => Vec.add cfg v w := by
  unfold Vec.add; total
theorem Vec.total_sub [Zero α] [Sub α] (v w : Vec M α) : Spec.Total fun cfg => Vec.sub cfg v w := by
  unfold Vec.sub; total
theorem Vec.total_mul [Zero α] [Mul α] (v w : Vec M α) : Spec.Total fun cfg => Vec.mul cfg v w := by
  unfold Vec.mul; total
theorem Vec.total_div [Zero α] [Div α] (v w : Vec M α) : Spec.Total fun cfg => Vec.div cfg v w := by
  unfold Vec.div; total
theorem Vec.total_addS [Zero α] [Add α] (v : Vec M α) (a : α) : Spec.Total fun cfg => Vec.addS cfg v a := by
  unfold Vec.addS; total
theorem Vec.total_subS [Zero α] [Sub α] (v : Vec M α) (a : α) : Spec.Total fun cfg => Vec.subS cfg v a := by
  unfold Vec.subS; total
theorem Vec.total_mulS [Zero α] [Mul α] (v : Vec M α) (a : α) : Spec.Total fun cfg => Vec.mulS cfg v a := by
  unfold Vec.mulS; total
theorem Vec.total_divS [Zero α] [Div α] (v : Vec M α) (a : α) : Spec.Total fun cfg => Vec.divS cfg v a := by
  unfold Vec.divS; total
theorem Vec.total_addAssign [Add α] (v w : Vec M α) : Spec.Total fun cfg => Vec.addAssign cfg v w := by
  unfold Vec.addAssign; total
theorem Vec.total_subAssign [Sub α] (v w : Vec M α) : Spec.Total fun cfg => Vec.subAssign cfg v w := by
  unfold Vec.subAssign; total
theorem Vec.total_mulAssign [Mul α] (v w : Vec M α) : Spec.Total fun cfg => Vec.mulAssign cfg v w := by
  unfold Vec.mulAssign; total
theorem Vec.total_divAssign [Div α] (v w : Vec M α) : Spec.Total fun cfg => Vec.divAssign cfg v w := by
  unfold Vec.divAssign; total
theorem Vec.total_addAssignS [Add α] (v : Vec M α) (a : α) : Spec.Total fun cfg => Vec.addAssignS cfg v a := by
  unfold Vec.addAssignS; total
theorem Vec.total_subAssignS [Sub α] (v : Vec M α) (a : α) : Spec.Total fun cfg => Vec.subAssignS cfg v a := by
  unfold Vec.subAssignS; total
theorem Vec.total_mulAssignS [Mul α] (v : Vec M α) (a : α) : Spec.Total fun cfg => Vec.mulAssignS cfg v a := by
  unfold Vec.mulAssignS; total
theorem Vec.total_divAssignS [Div α] (v : Vec M α) (a : α) : Spec.Total fun cfg => Vec.divAssignS cfg v a := by
  unfold Vec.divAssignS; total
theorem Vec.total_negate [Neg α] (v : Vec M α) : Spec.Total fun _ => Vec.negate v := by
  unfold Vec.negate; total
theorem Vec.total_dot [Zero α] [Add α] [Mul α] (v w : Vec M α) : Spec.Total fun cfg => Vec.dot cfg v w := by
  unfold Vec.dot; total
theorem Vec.total_squaredLength [Zero α] [Add α] [Mul α] (v : Vec M α) : Spec.Total fun _ => Vec.squaredLength v := by
  unfold Vec.squaredLength; total
theorem Vec.total_length [Zero α] [Add α] [Mul α] [CMath α] (v : Vec M α) : Spec.Total fun _ => Vec.length v := by
  unfold Vec.length; total
theorem Vec.total_norm [Zero α] [Add α] [Mul α] [CMath α] (v : Vec M α) : Spec.Total fun _ => Vec.norm v := by
  unfold Vec.norm; total
theorem Vec.total_normalize [Zero α] [One α] [Add α] [Mul α] [Div α] [BEq α] [CMath α] (v : Vec M α) : Spec.Total fun cfg => Vec.normalize cfg v := by
  unfold Vec.normalize; total
theorem Vec.total_squaredDistance [Zero α] [Add α] [Sub α] [Mul α] (v w : Vec M α) : Spec.Total fun cfg => Vec.squaredDistance cfg v w := by
  unfold Vec.squaredDistance; total
theorem Vec.total_distance [Zero α] [Add α] [Sub α] [Mul α] [CMath α] (v w : Vec M α) : Spec.Total fun cfg => Vec.distance cfg v w := by
  unfold Vec.distance; total
theorem Vec.total_product [Mul α] (v : Vec M α) (h : 0 < M) : Spec.Total fun cfg => Vec.product cfg v := by
  unfold Vec.product; total
theorem Vec.total_computeNormal [Zero α] [One α] [Add α] [Sub α] [Mul α] [Div α] [BEq α] [CMath α] (aa bb cc : Vec 3 α) : Spec.Total fun cfg => Vec.computeNormal cfg aa bb cc := by
  unfold Vec.computeNormal; total
theorem Vec.total_rotate [Zero α] [One α] [Add α] [Sub α] [Mul α] [Div α] [BEq α] [CMath α] (v : Vec 3 α) (theta : α) (axis0 : Vec 3 α) : Spec.Total fun cfg => Vec.rotate cfg v theta axis0 := by
  unfold Vec.rotate; total
theorem Vec.total_projectPointOntoSphere [Zero α] [One α] [Add α] [Sub α] [Mul α] [Div α] [BEq α] [CMath α] (sphere : Vec 4 α) (point : Vec 3 α) : Spec.Total fun cfg => Vec.projectPointOntoSphere cfg sphere point := by
  unfold Vec.projectPointOntoSphere; total
theorem Vec.total_distanceToSphere [Zero α] [Add α] [Sub α] [Mul α] [CMath α] (sphere : Vec 4 α) (point : Vec 3 α) : Spec.Total fun cfg => Vec.distanceToSphere cfg sphere point := by
  unfold Vec.distanceToSphere; total
theorem Vec.total_distanceToPlane [Zero α] [Add α] [Mul α] (plane : Vec 4 α) (point : Vec 3 α) : Spec.Total fun cfg => Vec.distanceToPlane cfg plane point := by
  unfold Vec.distanceToPlane; total
theorem Vec.total_projectPointOntoPlane [Zero α] [Add α] [Sub α] [Mul α] (plane : Vec 4 α) (point : Vec 3 α) : Spec.Total fun cfg => Vec.projectPointOntoPlane cfg plane point := by
  unfold Vec.projectPointOntoPlane; total
theorem Vec.total_computePlane [Zero α] [One α] [Add α] [Sub α] [Neg α] [Mul α] [Div α] [BEq α] [CMath α] (a b c : Vec 3 α) : Spec.Total fun cfg => Vec.computePlane cfg a b c := by
  unfold Vec.computePlane Vec.setW; total
theorem Vec.total_equals [Sub α] [LE α] [DecidableLE α] [CMath α] (v w : Vec M α) (tol : α) : Spec.Total fun cfg => Vec.equals cfg v w tol := by
  unfold Vec.equals; total
theorem Vec.total_lt [LT α] [DecidableLT α] (v w : Vec M α) : Spec.Total fun cfg => Vec.lt cfg v w := by
  unfold Vec.lt; total
theorem Vec.total_minElement (comp : α → α → Bool) (v : Vec M α) (h : 0 < M) : Spec.Total fun _ => Vec.minElement comp v := by
  exact total_of_P (Vec.totalP_minElement comp v h)
theorem Vec.total_maxElement (comp : α → α → Bool) (v : Vec M α) (h : 0 < M) : Spec.Total fun _ => Vec.maxElement comp v := by
  exact total_of_P (Vec.totalP_maxElement comp v h)
theorem Vec.total_findMinIndex [LT α] [DecidableLT α] (v : Vec M α) (h : 0 < M) : Spec.Total fun _ => Vec.findMinIndex v := by
  exact Vec.total_minElement _ _ h
theorem Vec.total_findMaxIndex [LT α] [DecidableLT α] (v : Vec M α) (h : 0 < M) : Spec.Total fun _ => Vec.findMaxIndex v := by
  exact Vec.total_maxElement _ _ h
theorem Vec.total_findAbsMinIndex [LT α] [DecidableLT α] [CMath α] (v : Vec M α) (h : 0 < M) : Spec.Total fun _ => Vec.findAbsMinIndex v := by
  exact Vec.total_minElement _ _ h
theorem Vec.total_findAbsMaxIndex [LT α] [DecidableLT α] [CMath α] (v : Vec M α) (h : 0 < M) : Spec.Total fun _ => Vec.findAbsMaxIndex v := by
  exact Vec.total_maxElement _ _ h
theorem Vec.total_findMin [LT α] [DecidableLT α] (v : Vec M α) (h : 0 < M) : Spec.Total fun _ => Vec.findMin v := by
  unfold Vec.findMin; refine total_bindP (Vec.totalP_minElement _ v h) fun a ha => ?_; total
theorem Vec.total_findMax [LT α] [DecidableLT α] (v : Vec M α) (h : 0 < M) : Spec.Total fun _ => Vec.findMax v := by
  unfold Vec.findMax; refine total_bindP (Vec.totalP_maxElement _ v h) fun a ha => ?_; total
theorem Vec.total_clamp [LT α] [DecidableLT α] (v : Vec M α) (lo hi : α) : Spec.Total fun _ => Vec.clamp v lo hi := by
  unfold Vec.clamp; total
theorem Vec.total_scaleTo [One α] [Add α] [Sub α] [Mul α] [Div α] (half ttMax : α) (cast : α → β) (v : Vec M α) (result : Vec M β) (minValue maxValue : α) : Spec.Total fun cfg => Vec.scaleTo cfg half ttMax cast v result minValue maxValue := by
  unfold Vec.scaleTo; total
theorem Vec.total_isUnitVector [Zero α] [One α] [BEq α] (v : Vec M α) : Spec.Total fun _ => Vec.isUnitVector v := by
  unfold Vec.isUnitVector; total
theorem Vec.total_perturb [Add α] [Neg α] (rnd : Nat → Nat) (v : Vec M α) (p : α) : Spec.Total fun _ => Vec.perturb rnd v p := by
  unfold Vec.perturb; total
theorem Vec.total_setRandom [One α] [Add α] [Neg α] [Mul α] [Div α] (toT : Nat → α) (randMax : Nat) (rnd : Nat → Nat) (v : Vec M α) : Spec.Total fun cfg => Vec.setRandom cfg toT randMax rnd v := by
  unfold Vec.setRandom; total
theorem Vec.total_sqrtElementwise [CMath α] (v : Vec M α) : Spec.Total fun _ => Vec.sqrtElementwise v := by
  unfold Vec.sqrtElementwise; total
theorem Vec.total_reciprocal [One α] [Div α] (v : Vec M α) : Spec.Total fun _ => Vec.reciprocal v := by
  unfold Vec.reciprocal; total
theorem Vec.total_reciprocalSafe [Zero α] [One α] [Div α] [BEq α] (maxT : α) (v : Vec M α) : Spec.Total fun _ => Vec.reciprocalSafe maxT v := by
  unfold Vec.reciprocalSafe; total
theorem Vec.total_nnz [Zero α] [BEq α] (v : Vec M α) : Spec.Total fun _ => Vec.nnz v := by
  unfold Vec.nnz; total
/-- A scalar reference that refers to a scalar outside the vector or to an existing component. -/
def Vec.SRef.Valid (M : Nat) : Vec.SRef α → Prop
  | .ext _ => True
  | .cell i => i < M
theorem Vec.SRef.total_read (v : Vec M α) (x : Vec.SRef α) (h : x.Valid M) : Spec.Total fun _ => x.read v := by
  cases x
  · exact total_pure _
  · exact Vec.total_rawGet _ h
theorem Vec.total_opAssignH (op : α → α → α) (h : Heap (Vec M α)) (this other : Nat) : Spec.Total fun cfg => Vec.opAssignH op cfg h this other := by
  unfold Vec.opAssignH; total
theorem Vec.total_assignH (h : Heap (Vec M α)) (this other : Nat) : Spec.Total fun _ => Vec.assignH h this other := by
  unfold Vec.assignH; total
theorem Vec.total_clampRef [LT α] [DecidableLT α] (v : Vec M α) (lo hi : Vec.SRef α) (hlo : lo.Valid M) (hhi : hi.Valid M) : Spec.Total fun _ => Vec.clampRef v lo hi := by
  unfold Vec.clampRef; total

end Vmml
