import Verif.Proofs.TotalVector
import Verif.Props.MatrixInverse

/-! # No fault, no dependence on the configuration: `Model/Matrix` -/

namespace Vmml
variable {M N O P Q : Nat} {α β : Type}

theorem Mat.total_fill (m : Mat M N α) (x : α) : Spec.Total fun cfg => Mat.fill cfg m x := by
  unfold Mat.fill; total
theorem Mat.total_zero [Zero α] (m : Mat M N α) : Spec.Total fun cfg => Mat.zero cfg m := by
  unfold Mat.zero; total
theorem Mat.total_assignFill (m : Mat M N α) (x : α) : Spec.Total fun _ => Mat.assignFill m x := by
  unfold Mat.assignFill; total
theorem Mat.total_ctor [Zero α] [One α] : Spec.Total fun cfg => (Mat.ctor cfg : Res (Mat M N α)) := by
  unfold Mat.ctor; total
theorem Mat.total_identity [Zero α] [One α] (m : Mat M M α) : Spec.Total fun cfg => Mat.identity cfg m := by
  unfold Mat.identity; total
theorem Mat.total_IDENTITY [Zero α] [One α] : Spec.Total fun cfg => (Mat.IDENTITY cfg : Res (Mat M M α)) := by
  unfold Mat.IDENTITY; total
theorem Mat.total_ZERO [Zero α] [One α] : Spec.Total fun cfg => (Mat.ZERO cfg : Res (Mat M N α)) := by
  unfold Mat.ZERO; total
theorem Mat.total_assign (dst src : Mat M N α) : Spec.Total fun _ => Mat.assign dst src := by
  unfold Mat.assign; total
theorem Mat.total_assignFrom [Zero α] (cast : β → α) (dst : Mat M N α) (src : Mat P Q β) : Spec.Total fun cfg => Mat.assignFrom cfg cast dst src := by
  have h1 : (if P < M then P else M) ≤ P ∧ (if P < M then P else M) ≤ M := by split <;> omega
  have h2 : (if Q < N then Q else N) ≤ Q ∧ (if Q < N then Q else N) ≤ N := by split <;> omega
  unfold Mat.assignFrom
  dsimp only
  generalize (if P < M then P else M) = p at *
  generalize (if Q < N then Q else N) = q at *
  total
theorem Mat.total_assignArray2 (dst : Mat M N α) (src : Fin M → Fin N → α) : Spec.Total fun cfg => Mat.assignArray2 cfg dst src := by
  unfold Mat.assignArray2
  refine total_loop fun i hi s => total_loop fun j hj s => ?_
  simp only [hi, hj, and_self, dite_true]; total
theorem Mat.total_setRowMajor (cast : β → α) (m : Mat M N α) (src : List β) : Spec.Total fun cfg => Mat.setRowMajor cfg cast m src := by
  unfold Mat.setRowMajor
  refine total_bind (total_loop fun i hi s => total_loop fun j hj s => ?_) fun _ => total_pure _
  obtain ⟨m, l⟩ := s
  cases l
  · exact total_pure _
  · dsimp only; total
theorem Mat.total_setColMajor (cast : β → α) (m : Mat M N α) (src : List β) (h : M * N ≤ src.length) : Spec.Total fun _ => Mat.setColMajor cast m src := by
  unfold Mat.setColMajor
  refine total_loop fun i hi s => ?_
  rw [List.getElem?_eq_getElem (show i < src.length by omega)]
  exact Mat.total_rawSet _ hi _
theorem Mat.total_assignPtr (m : Mat M N α) (mem : List α) (h : M * N ≤ mem.length) : Spec.Total fun cfg => Mat.assignPtr cfg m mem := by
  unfold Mat.assignPtr; simp only [h, if_true]; total
theorem Mat.total_assignStdVector (m : Mat M N α) (data : List α) (h : M * N ≤ data.length) : Spec.Total fun cfg => Mat.assignStdVector cfg m data := by
  unfold Mat.assignStdVector; simp only [show ¬ data.length < M * N by omega, if_false]; total
theorem Mat.total_castFrom (cast : β → α) (m : Mat M N α) (src : Mat M N β) : Spec.Total fun _ => Mat.castFrom cast m src := by
  unfold Mat.castFrom; total
theorem Mat.total_eqOp [BEq α] (a b : Mat M N α) : Spec.Total fun _ => Mat.eqOp a b := by
  unfold Mat.eqOp; total
theorem Mat.total_neOp [BEq α] (a b : Mat M N α) : Spec.Total fun _ => Mat.neOp a b := by
  unfold Mat.neOp; total
theorem Mat.total_equals [Sub α] [LT α] [DecidableLT α] [CMath α] (a b : Mat M N α) (tol : α) : Spec.Total fun cfg => Mat.equals cfg a b tol := by
  unfold Mat.equals; total
theorem Mat.total_equalsCmp (a b : Mat M N α) (cmp : α → α → Bool) : Spec.Total fun cfg => Mat.equalsCmp cfg a b cmp := by
  unfold Mat.equalsCmp; total
theorem Mat.total_multiplyPiecewise [Mul α] (m other : Mat M N α) : Spec.Total fun cfg => Mat.multiplyPiecewise cfg m other := by
  unfold Mat.multiplyPiecewise; total
theorem Mat.total_multiply [Zero α] [Add α] [Mul α] (m : Mat M N α) (left : Mat M P α) (right : Mat P N α) : Spec.Total fun cfg => Mat.multiply cfg m left right := by
  unfold Mat.multiply; total
theorem Mat.total_mul [Zero α] [One α] [Add α] [Mul α] (a : Mat M N α) (b : Mat N P α) : Spec.Total fun cfg => Mat.mul cfg a b := by
  unfold Mat.mul; total
theorem Mat.total_mulAssign [Zero α] [Add α] [Mul α] (a b : Mat M M α) : Spec.Total fun cfg => Mat.mulAssign cfg a b := by
  unfold Mat.mulAssign; total
theorem Mat.total_divS [Zero α] [One α] [Div α] (a : Mat M N α) (s : α) : Spec.Total fun cfg => Mat.divS cfg a s := by
  unfold Mat.divS; total
theorem Mat.total_divAssignS [Div α] (a : Mat M N α) (s : α) : Spec.Total fun cfg => Mat.divAssignS cfg a s := by
  unfold Mat.divAssignS; total
theorem Mat.total_mulS [Zero α] [One α] [Mul α] (a : Mat M N α) (s : α) : Spec.Total fun cfg => Mat.mulS cfg a s := by
  unfold Mat.mulS; total
theorem Mat.total_mulAssignS [Mul α] (a : Mat M N α) (s : α) : Spec.Total fun cfg => Mat.mulAssignS cfg a s := by
  unfold Mat.mulAssignS; total
theorem Mat.total_addAssign [Add α] (a b : Mat M N α) : Spec.Total fun _ => Mat.addAssign a b := by
  unfold Mat.addAssign; total
theorem Mat.total_add [Add α] (a b : Mat M N α) : Spec.Total fun _ => Mat.add a b := by
  unfold Mat.add; total
theorem Mat.total_addAssignS [Add α] (a : Mat M N α) (s : α) : Spec.Total fun _ => Mat.addAssignS a s := by
  unfold Mat.addAssignS; total
theorem Mat.total_subAssign [Sub α] (a b : Mat M N α) : Spec.Total fun _ => Mat.subAssign a b := by
  unfold Mat.subAssign; total
theorem Mat.total_sub [Sub α] (a b : Mat M N α) : Spec.Total fun _ => Mat.sub a b := by
  unfold Mat.sub; total
theorem Mat.total_subAssignS [Sub α] (a : Mat M N α) (s : α) : Spec.Total fun _ => Mat.subAssignS a s := by
  unfold Mat.subAssignS; total
theorem Mat.total_mulVec [Zero α] [Add α] [Mul α] (a : Mat M N α) (v : Vec N α) : Spec.Total fun cfg => Mat.mulVec cfg a v := by
  unfold Mat.mulVec; total
theorem Mat.total_mulVecHom [Zero α] [Add α] [Mul α] [Div α] {K : Nat} (a : Mat M (K + 1) α) (v : Vec O α) (h : K ≤ O) : Spec.Total fun cfg => Mat.mulVecHom cfg a v := by
  unfold Mat.mulVecHom; total
theorem Mat.total_negate [Zero α] [One α] [Mul α] [Neg α] (this : Mat M N α) : Spec.Total fun cfg => Mat.negate cfg this := by
  unfold Mat.negate; total
theorem Mat.total_tensor [Mul α] (m : Mat M N α) (u : Vec M α) (v : Vec N α) (h : M = N) : Spec.Total fun cfg => Mat.tensor cfg m u v := by
  unfold Mat.tensor; total
theorem Mat.total_tensor4 [One α] [Mul α] (m : Mat 4 4 α) (u v : Vec 3 α) : Spec.Total fun cfg => Mat.tensor4 cfg m u v := by
  unfold Mat.tensor4; total
theorem Mat.total_transposeTo (a : Mat M N α) (t : Mat N M α) : Spec.Total fun cfg => Mat.transposeTo cfg a t := by
  unfold Mat.transposeTo; total
theorem Mat.total_transpose [Zero α] [One α] (a : Mat M N α) : Spec.Total fun cfg => Mat.transpose cfg a := by
  unfold Mat.transpose; total
theorem Mat.total_symmetricCovariance [Zero α] [Add α] [Mul α] (a : Mat M N α) (cov : Mat M M α) : Spec.Total fun cfg => Mat.symmetricCovariance cfg a cov := by
  unfold Mat.symmetricCovariance; total
theorem Mat.total_getColumn (m : Mat M N α) (index : Nat) (column : Vec M α) (h : index < N) : Spec.Total fun cfg => Mat.getColumn cfg m index column := by
  unfold Mat.getColumn; refine total_guard (fun cfg => by simp; omega) (total_loop fun i hi s => ?_)
  exact total_bind (Mat.total_rawGet _ (by rw [Nat.mul_comm M index]; exact Mat.idx_lt hi h)) fun x => Vec.total_rawSet _ hi _
theorem Mat.total_setColumn (m : Mat M N α) (index : Nat) (column : Vec M α) (h : index < N) : Spec.Total fun cfg => Mat.setColumn cfg m index column := by
  unfold Mat.setColumn; refine total_guard (fun cfg => by simp; omega) (total_loop fun i hi s => ?_)
  exact total_bind (Vec.total_rawGet _ hi) fun x => Mat.total_rawSet _ (by rw [Nat.mul_comm M index]; exact Mat.idx_lt hi h) _
theorem Mat.total_getRow (m : Mat M N α) (index : Nat) (row : Vec N α) (h : index < M) : Spec.Total fun cfg => Mat.getRow cfg m index row := by
  unfold Mat.getRow; refine total_guard (fun cfg => by simp; omega) ?_; total
theorem Mat.total_setRow (m : Mat M N α) (index : Nat) (row : Vec N α) (h : index < M) : Spec.Total fun cfg => Mat.setRow cfg m index row := by
  unfold Mat.setRow; refine total_guard (fun cfg => by simp; omega) ?_; total
theorem Mat.total_getSubMatrix (m : Mat M N α) (res : Mat O P α) (ro co : Nat) (h : ro + O ≤ M) (h' : co + P ≤ N) : Spec.Total fun cfg => Mat.getSubMatrix cfg m res ro co := by
  unfold Mat.getSubMatrix; refine total_guard (fun cfg => by simp; omega) ?_; total
theorem Mat.total_setSubMatrix (m : Mat M N α) (sub : Mat O P α) (ro co : Nat) (h : ro + O ≤ M) (h' : co + P ≤ N) : Spec.Total fun cfg => Mat.setSubMatrix cfg m sub ro co := by
  unfold Mat.setSubMatrix; total
theorem Mat.total_directSum [Zero α] (m : Mat (O + P) (Q + N) α) (ul : Mat O Q α) (lr : Mat P N α) : Spec.Total fun cfg => Mat.directSum cfg m ul lr := by
  unfold Mat.directSum; total
theorem Mat.total_diag [Zero α] (m : Mat M M α) (d : Vec M α) : Spec.Total fun cfg => Mat.diag cfg m d := by
  unfold Mat.diag; total
theorem Mat.total_khatriRao [Mul α] (a : Mat M N α) (right : Mat O N α) (prod : Mat (M * O) N α) : Spec.Total fun cfg => Mat.khatriRao cfg a right prod := by
  unfold Mat.khatriRao
  refine total_loop fun c hc s => total_loop fun m hm s => total_loop fun o ho s => ?_
  exact total_bind (Mat.total_atGet _ hm hc) fun x => total_bind (Mat.total_atGet _ ho hc) fun y => Mat.total_atSet _ (Mat.idx2_lt hm ho) hc _
theorem Mat.total_kronecker [Mul α] (a : Mat M N α) (right : Mat O P α) (res : Mat (M * O) (N * P) α) : Spec.Total fun cfg => Mat.kronecker cfg a right res := by
  unfold Mat.kronecker
  refine total_loop fun m hm s => total_loop fun n hn s => total_loop fun o ho s => total_loop fun p hp s => ?_
  exact total_bind (Mat.total_atGet _ hm hn) fun x => total_bind (Mat.total_atGet _ ho hp) fun y =>
    Mat.total_atSet _ (Mat.idx2_lt hm ho) (Mat.idx2_lt hn hp) _
theorem Mat.total_det1 (m : Mat 1 1 α) : Spec.Total fun _ => Mat.det1 m := by
  unfold Mat.det1; total
theorem Mat.total_det2 [Sub α] [Mul α] (m : Mat 2 2 α) : Spec.Total fun cfg => Mat.det2 cfg m := by
  unfold Mat.det2; total
theorem Mat.total_det3 [Add α] [Sub α] [Mul α] (m : Mat 3 3 α) : Spec.Total fun cfg => Mat.det3 cfg m := by
  unfold Mat.det3; total
theorem Mat.total_det4 [Add α] [Sub α] [Mul α] (m : Mat 4 4 α) : Spec.Total fun cfg => Mat.det4 cfg m := by
  unfold Mat.det4; total
theorem Mat.total_det [Add α] [Sub α] [Mul α] {n : Nat} (m : Mat n n α) (hn : 1 ≤ n) (hn' : n ≤ 4) : Spec.Total fun cfg => m.det cfg := by
  match n, m with
  | 1, m => exact Mat.total_det1 m
  | 2, m => exact Mat.total_det2 m
  | 3, m => exact Mat.total_det3 m
  | 4, m => exact Mat.total_det4 m
  | 0, m => omega
  | n + 5, m => omega
theorem Mat.total_minorLoop {K : Nat} (m : Mat (K + 1) (K + 1) α) (minor : Mat K K α) (rcut ccut : Nat) (hr : rcut < K + 1) (hc : ccut < K + 1) (hK : K + 1 < 2 ^ 64) : Spec.Total fun cfg => Mat.minorLoop cfg m minor rcut ccut := by
  exact ⟨_, fun cfg => Mat.minorLoop_eq cfg m minor ⟨rcut, hr⟩ ⟨ccut, hc⟩ hK⟩
theorem Mat.total_getMinor [Add α] [Sub α] [Mul α] {K : Nat} (m : Mat (K + 1) (K + 1) α) (minor : Mat K K α) (rcut ccut : Nat) (hr : rcut < K + 1) (hc : ccut < K + 1) (hK : 1 ≤ K) (hK' : K ≤ 4) : Spec.Total fun cfg => Mat.getMinor cfg m minor rcut ccut := by
  unfold Mat.getMinor; refine total_bind (Mat.total_minorLoop _ _ _ _ hr hc (by omega)) fun x => ?_; total
theorem Mat.total_getCofactors [Zero α] [One α] [Add α] [Sub α] [Mul α] [Neg α] {K : Nat} (m : Mat (K + 1) (K + 1) α) (cof : Mat (K + 1) (K + 1) α) (hK : 1 ≤ K) (hK' : K ≤ 4) : Spec.Total fun cfg => Mat.getCofactors cfg m cof := by
  unfold Mat.getCofactors; total
theorem Mat.total_getAdjugate [Zero α] [One α] [Add α] [Sub α] [Mul α] [Neg α] {K : Nat} (m : Mat (K + 1) (K + 1) α) (adj : Mat (K + 1) (K + 1) α) (hK : 1 ≤ K) (hK' : K ≤ 4) : Spec.Total fun cfg => Mat.getAdjugate cfg m adj := by
  unfold Mat.getAdjugate; total
theorem Mat.total_inverse2 [Zero α] [One α] [Add α] [Sub α] [Mul α] [Neg α] [Div α] [LT α] [DecidableLT α] [CMath α] (m inv : Mat 2 2 α) (tol : α) : Spec.Total fun cfg => Mat.inverse2 cfg m inv tol := by
  unfold Mat.inverse2; total
theorem Mat.total_inverse3 [One α] [Add α] [Sub α] [Mul α] [Div α] [LE α] [DecidableLE α] [CMath α] (m inv : Mat 3 3 α) (tol : α) : Spec.Total fun cfg => Mat.inverse3 cfg m inv tol := by
  unfold Mat.inverse3; total
theorem Mat.total_inverse4 [One α] [Add α] [Sub α] [Mul α] [Div α] [LE α] [DecidableLE α] [CMath α] (m inv : Mat 4 4 α) (tol : α) : Spec.Total fun _ => Mat.inverse4 m inv tol := by
  unfold Mat.inverse4; total
theorem Mat.total_inverse [Zero α] [One α] [Add α] [Sub α] [Mul α] [Neg α] [Div α] [LT α] [DecidableLT α] [LE α] [DecidableLE α] [CMath α] {n : Nat}
    (m inv : Mat n n α) (tol : α) (hn : 2 ≤ n) (hn' : n ≤ 4) : Spec.Total fun cfg => m.inverse cfg inv tol := by
  match n, m, inv with
  | 2, m, inv => exact Mat.total_inverse2 m inv tol
  | 3, m, inv => exact Mat.total_inverse3 m inv tol
  | 4, m, inv => exact Mat.total_inverse4 m inv tol
  | 0, m, _ => omega
  | 1, m, _ => omega
  | n + 5, m, _ => omega
theorem Mat.total_isPositiveDefinite [Zero α] [One α] [Add α] [Sub α] [Mul α] [LT α] [DecidableLT α] (m : Mat M M α) (limit : α) (hM : 0 < M) : Spec.Total fun cfg => Mat.isPositiveDefinite cfg m limit := by
  unfold Mat.isPositiveDefinite; total

end Vmml
