import Verif.Proofs.TotalMatrix
import Verif.Model.MatrixAlias
import Verif.Model.MatrixTransform
import Verif.Model.MatrixStats
import Verif.Model.Stream
import Verif.Model.Print
import Verif.Model.Quaternion
import Verif.Model.Frustum
import Verif.Model.FrustumCuller
import Verif.Model.Aabb
import Verif.Model.LowpassFilter
import Verif.Model.Intersection
import Verif.Model.QR
import Verif.Model.Util
import Verif.Model.Traits

/-! # No fault, no dependence on the configuration: the other models -/

namespace Vmml
variable {M N O P Q K D : Nat} {α β δ γ σ : Type}

/-! ## `Model/MatrixAlias` -/

theorem Mat.total_multiplyH [Zero α] [Add α] [Mul α] (h : Heap (Mat M M α)) (this left right : Nat) : Spec.Total fun cfg => Mat.multiplyH cfg h this left right := by
  unfold Mat.multiplyH; total
theorem Mat.total_mulAssignH [Zero α] [Add α] [Mul α] (h : Heap (Mat M M α)) (this right tmp : Nat) : Spec.Total fun cfg => Mat.mulAssignH cfg h this right tmp := by
  unfold Mat.mulAssignH; total
theorem Mat.total_opAssignH (op : α → α → α) (h : Heap (Mat M N α)) (this other : Nat) : Spec.Total fun _ => Mat.opAssignH op h this other := by
  unfold Mat.opAssignH; total
theorem Mat.total_transposeToH (h : Heap (Mat M M α)) (this tM : Nat) : Spec.Total fun cfg => Mat.transposeToH cfg h this tM := by
  unfold Mat.transposeToH; total
theorem Mat.total_getCofactorsSelf [Zero α] [One α] [Add α] [Sub α] [Mul α] [Neg α] {K : Nat} (m : Mat (K + 1) (K + 1) α) (hK : 1 ≤ K) (hK' : K ≤ 4) : Spec.Total fun cfg => Mat.getCofactorsSelf cfg m := by
  unfold Mat.getCofactorsSelf; total
theorem Mat.total_getAdjugateSelf [Zero α] [One α] [Add α] [Sub α] [Mul α] [Neg α] {K : Nat} (m : Mat (K + 1) (K + 1) α) (hK : 1 ≤ K) (hK' : K ≤ 4) : Spec.Total fun cfg => Mat.getAdjugateSelf cfg m := by
  unfold Mat.getAdjugateSelf; total
theorem Mat.total_inverse2Self [Zero α] [One α] [Add α] [Sub α] [Mul α] [Neg α] [Div α] [LT α] [DecidableLT α] [CMath α] (m : Mat 2 2 α) (tol : α) : Spec.Total fun cfg => Mat.inverse2Self cfg m tol := by
  unfold Mat.inverse2Self; total
theorem Mat.total_inverse3Self [One α] [Add α] [Sub α] [Mul α] [Div α] [LE α] [DecidableLE α] [CMath α] (m : Mat 3 3 α) (tol : α) : Spec.Total fun cfg => Mat.inverse3Self cfg m tol := by
  unfold Mat.inverse3Self; total
theorem Mat.total_inverse4Self [One α] [Add α] [Sub α] [Mul α] [Div α] [LE α] [DecidableLE α] [CMath α] (m : Mat 4 4 α) (tol : α) : Spec.Total fun _ => Mat.inverse4Self m tol := by
  unfold Mat.inverse4Self; total

/-! ## `Model/MatrixTransform` -/

theorem Mat.total_getTranslationTo {K : Nat} (m : Mat M (K + 1) α) (t : Vec K α) (h : K ≤ M) : Spec.Total fun _ => Mat.getTranslationTo m t := by
  unfold Mat.getTranslationTo
  refine total_loop fun i hi s => total_bind (Mat.total_rawGet _ ?_) fun x => Vec.total_rawSet _ hi _
  rw [Nat.mul_succ]; omega
theorem Mat.total_getTranslation [Zero α] {K : Nat} (m : Mat M (K + 1) α) (h : K ≤ M) : Spec.Total fun _ => Mat.getTranslation m := by
  unfold Mat.getTranslation; total

/-! ## `Model/MatrixStats` -/

theorem Mat.total_frobeniusNorm [Mul α] [Zero δ] [Add δ] [CMath δ] (toD : α → δ) (m : Mat M N α) : Spec.Total fun _ => Mat.frobeniusNorm toD m := by
  unfold Mat.frobeniusNorm; total
theorem Mat.total_pNorm [Zero δ] [One δ] [Add δ] [Div δ] [CMath δ] (toD : α → δ) (m : Mat M N α) (p : δ) : Spec.Total fun _ => Mat.pNorm toD m p := by
  unfold Mat.pNorm; total
theorem Mat.total_getMin [LT α] [DecidableLT α] (maxT : α) (m : Mat M N α) : Spec.Total fun _ => Mat.getMin maxT m := by
  unfold Mat.getMin; total
theorem Mat.total_getMax [Zero α] [LT α] [DecidableLT α] (m : Mat M N α) : Spec.Total fun _ => Mat.getMax m := by
  unfold Mat.getMax; total
theorem Mat.total_getAbsMin [LT α] [DecidableLT α] [CMath α] (maxT : α) (m : Mat M N α) : Spec.Total fun _ => Mat.getAbsMin maxT m := by
  unfold Mat.getAbsMin; total
theorem Mat.total_getAbsMax [Zero α] [LT α] [DecidableLT α] [CMath α] (m : Mat M N α) : Spec.Total fun _ => Mat.getAbsMax m := by
  unfold Mat.getAbsMax; total
theorem Mat.total_nnz [Zero α] [BEq α] (m : Mat M N α) : Spec.Total fun _ => Mat.nnz m := by
  unfold Mat.nnz; total
theorem Mat.total_nnzAbove [LT α] [DecidableLT α] [CMath α] (m : Mat M N α) (t : α) : Spec.Total fun _ => Mat.nnzAbove m t := by
  unfold Mat.nnzAbove; total
theorem Mat.total_threshold [Zero α] [LE α] [DecidableLE α] [CMath α] (m : Mat M N α) (t : α) : Spec.Total fun _ => Mat.threshold m t := by
  unfold Mat.threshold; total
theorem Mat.total_columnwiseSum [Zero α] [Add α] (m : Mat M N α) (sums : Vec N α) : Spec.Total fun cfg => Mat.columnwiseSum cfg m sums := by
  unfold Mat.columnwiseSum; total
theorem Mat.total_sumElements [Zero δ] [Add δ] (toD : α → δ) (m : Mat M N α) : Spec.Total fun _ => Mat.sumElements toD m := by
  unfold Mat.sumElements; total
theorem Mat.total_quantizeTo [Add α] [Sub α] [Mul α] [Div α] (tt : IntType) (ofLong : Int → α) (half : α) (toLong : α → Int) (m : Mat M N α) (q : Mat M N Int) (minValue maxValue : α) : Spec.Total fun _ => Mat.quantizeTo tt ofLong half toLong m q minValue maxValue := by
  unfold Mat.quantizeTo; total
theorem Mat.total_quantize [Zero α] [Add α] [Sub α] [Mul α] [Div α] [LT α] [DecidableLT α] (tt : IntType) (ofLong : Int → α) (half : α) (toLong : α → Int) (maxT : α) (m : Mat M N α) (q : Mat M N Int) : Spec.Total fun _ => Mat.quantize tt ofLong half toLong maxT m q := by
  unfold Mat.quantize; total
theorem Mat.total_dequantize [Add α] [Sub α] [Mul α] [Div α] [LT α] [DecidableLT α] (t : IntType) (ofLong : Int → α) (q : Mat M N Int) (d : Mat M N α) (minValue maxValue : α) : Spec.Total fun _ => Mat.dequantize t ofLong q d minValue maxValue := by
  unfold Mat.dequantize; total
theorem Mat.total_setDct [Div δ] [Mul δ] [CMath δ] (ofNat : Nat → δ) (pi : δ) (ofD : δ → α) (m : Mat M N α) : Spec.Total fun cfg => Mat.setDct cfg ofNat pi ofD m := by
  unfold Mat.setDct; total
theorem Mat.total_setRandom [One δ] [Add δ] [Neg δ] [Mul δ] [Div δ] (toD : Nat → δ) (ofD : δ → α) (randMax : Nat) (rnd : Nat → Nat) (m : Mat M N α) : Spec.Total fun cfg => Mat.setRandom cfg toD ofD randMax rnd m := by
  unfold Mat.setRandom; total
theorem Mat.total_convolve [Zero α] [One α] [Mul α] [Zero δ] [Add δ] (toD : α → δ) (ofD : δ → α) (m : Mat M N α) (kernel : Mat U V α) (hM : M = N) (hU : U = V) : Spec.Total fun cfg => Mat.convolve cfg toD ofD m kernel := by
  have hb : ∀ n i, 0 < n → Mat.borderIdx n i < n := by
    intro n i hn
    unfold Mat.borderIdx
    dsimp only
    split <;> split <;> omega
  unfold Mat.convolve
  refine total_bind Mat.total_ctor fun t => total_bind (total_loop fun y hy s => total_loop fun x hx s => ?_) fun _ => ?_
  · refine total_bind (total_loop fun j hj s => ?_) fun _ => ?_
    · dsimp only
      refine total_loop fun i hi s => total_bind (Mat.total_atGet _ (by omega) (by omega)) fun a => total_bind (Mat.total_atGet _ ?_ ?_) fun b => total_pure _
      · have := hb N (↑y - ↑(V / 2) + ↑j) (by omega); omega
      · have := hb M (↑x - ↑(U / 2) + ↑i) (by omega); omega
    · total
  · total
theorem Mat.total_sumRows [Zero α] [Add α] (m : Mat M N α) (other : Mat (M / 2) N α) : Spec.Total fun cfg => Mat.sumRows cfg m other := by
  unfold Mat.sumRows; total
theorem Mat.total_sumColumns [Zero α] [Add α] (m : Mat M N α) (other : Mat M (N / 2) α) : Spec.Total fun cfg => Mat.sumColumns cfg m other := by
  unfold Mat.sumColumns; total
theorem Mat.total_getRowV [Zero α] (m : Mat M N α) (index : Nat) (h : index < M) : Spec.Total fun cfg => Mat.getRowV cfg m index := by
  unfold Mat.getRowV; total
theorem Mat.total_getColumnV [Zero α] (m : Mat M N α) (index : Nat) (h : index < N) : Spec.Total fun cfg => Mat.getColumnV cfg m index := by
  unfold Mat.getColumnV; total
theorem Mat.total_setToZeroFunctor [Zero α] (m : Mat M N α) : Spec.Total fun _ => Mat.setToZeroFunctor m := by
  unfold Mat.setToZeroFunctor; total
theorem Mat.total_setToIdentityFunctor [Zero α] [One α] (m : Mat M M α) : Spec.Total fun cfg => Mat.setToIdentityFunctor cfg m := by
  unfold Mat.setToIdentityFunctor; total
theorem Mat.total_equalsInvertedRows [Zero α] [Neg α] [Vec.Bytes α] (a b : Mat M N α) : Spec.Total fun cfg => Mat.equalsInvertedRows cfg a b := by
  unfold Mat.equalsInvertedRows; total
theorem Mat.total_equalsInvertedRowsTol [Zero α] [Neg α] [Sub α] [LE α] [DecidableLE α] [CMath α] (a b : Mat M N α) (tol : α) : Spec.Total fun cfg => Mat.equalsInvertedRowsTol cfg a b tol := by
  unfold Mat.equalsInvertedRowsTol; total
theorem Mat.total_equalsInvertedColumns [Zero α] [Neg α] [Vec.Bytes α] (a b : Mat M N α) : Spec.Total fun cfg => Mat.equalsInvertedColumns cfg a b := by
  unfold Mat.equalsInvertedColumns; total
theorem Mat.total_equalsInvertedColumnsTol [Zero α] [Neg α] [Sub α] [LE α] [DecidableLE α] [CMath α] (a b : Mat M N α) (tol : α) : Spec.Total fun cfg => Mat.equalsInvertedColumnsTol cfg a b tol := by
  unfold Mat.equalsInvertedColumnsTol; total

/-! ## `Model/Stream` -/

theorem Mat.total_writeToStream (io : TextIO α) (m : Mat M N α) (os : List Char) : Spec.Total fun cfg => Mat.writeToStream cfg io m os := by
  unfold Mat.writeToStream; total
theorem Mat.total_readFromStream [Zero α] (io : TextIO α) (m : Mat M N α) (is : IStream) : Spec.Total fun cfg => Mat.readFromStream cfg io m is := by
  unfold Mat.readFromStream; total
theorem Vec.total_writeToStream (io : TextIO α) (v : Vec M α) (os : List Char) : Spec.Total fun cfg => Vec.writeToStream cfg io v os := by
  unfold Vec.writeToStream; total
theorem Vec.total_readFromStream [Zero α] (io : TextIO α) (v : Vec M α) (is : IStream) : Spec.Total fun cfg => Vec.readFromStream cfg io v is := by
  unfold Vec.readFromStream; total
theorem Vec.total_print (fmt : Ios → α → List Char) (v : Vec M α) (os : OStream) : Spec.Total fun cfg => Vec.print cfg fmt v os := by
  unfold Vec.print; total
theorem Mat.total_print (fmt : Ios → α → List Char) (m : Mat M N α) (os : OStream) : Spec.Total fun cfg => Mat.print cfg fmt m os := by
  unfold Mat.print; total

/-! ## `Model/Print` -/

theorem Box.total_print (fmt : Ios → α → List Char) (b : Box α) (os : OStream) : Spec.Total fun cfg => Box.print cfg fmt b os := by
  unfold Box.print; total
theorem Culler.total_print (fmt : Ios → α → List Char) (k : Culler α) (os : OStream) : Spec.Total fun cfg => Culler.print cfg fmt k os := by
  unfold Culler.print; total
theorem Mat.total_writeCsvFile (fmt : Ios → α → List Char) (enc : List Char → List UInt8) (canOpen : List Char → Bool) (m : Mat M N α) (dir name : List Char) (fs : Files) : Spec.Total fun cfg => Mat.writeCsvFile cfg fmt enc canOpen m dir name fs := by
  unfold Mat.writeCsvFile; total

/-! ## `Model/Quaternion` -/

theorem Quat.total_divS [Zero α] [One α] [Mul α] [Div α] [BEq α] (q : Quat α) (a : α) (h : (a == 0) = false) : Spec.Total fun cfg => Quat.divS cfg q a := by
  unfold Quat.divS; simp only [h, Bool.false_eq_true, if_false]; total
theorem Quat.total_divAssignS [Zero α] [One α] [Mul α] [Div α] [BEq α] (q : Quat α) (a : α) (h : (a == 0) = false) : Spec.Total fun cfg => Quat.divAssignS cfg q a := by
  unfold Quat.divAssignS; simp only [h, Bool.false_eq_true, if_false]; total
theorem Quat.total_getRotationMatrixTo [One α] [Add α] [Sub α] [Mul α] (q : Quat α) (m : Mat D D α) (hD : 3 ≤ D) : Spec.Total fun cfg => Quat.getRotationMatrixTo cfg q m := by
  unfold Quat.getRotationMatrixTo; total
theorem Quat.total_getRotationMatrix [Zero α] [One α] [Add α] [Sub α] [Mul α] (q : Quat α) : Spec.Total fun cfg => Quat.getRotationMatrix cfg q := by
  unfold Quat.getRotationMatrix; total
theorem Quat.total_setMatrix [Zero α] [One α] [Add α] [Sub α] [Mul α] [Div α] [LT α] [DecidableLT α] [CMath α] (eps : α) (self : Quat α) (m : Mat D D α) (hD : 3 ≤ D) : Spec.Total fun cfg => Quat.setMatrix cfg eps self m := by
  unfold Quat.setMatrix
  dsimp only
  refine total_bind (Mat.total_atGet _ (by omega) (by omega)) fun a => total_bind (Mat.total_atGet _ (by omega) (by omega)) fun b =>
    total_bind (Mat.total_atGet _ (by omega) (by omega)) fun c => total_ite (fun _ => by total) fun _ => ?_
  refine total_bind (Mat.total_atGet _ (by omega) (by omega)) fun a => total_bind (Mat.total_atGet _ (by omega) (by omega)) fun b =>
    total_bind (Mat.total_atGet _ (by omega) (by omega)) fun c => total_bindP (Vec.totalP_maxElement _ _ (by omega)) fun l hl => ?_
  refine total_ite (fun _ => by total) fun h0 => total_ite (fun _ => by total) fun h1 => total_ite (fun _ => by total) fun h2 => ?_
  exact absurd hl (by omega)

/-! ## `Model/Frustum` -/

theorem Frustum.total_ofValues {k : Nat} (cast : β → α) (f : Frustum α) (values : Vec k β) (h : 6 ≤ k) : Spec.Total fun _ => Frustum.ofValues cast f values := by
  unfold Frustum.ofValues; total
theorem Frustum.total_assign (f src : Frustum α) : Spec.Total fun _ => Frustum.assign f src := by
  unfold Frustum.assign; total
theorem Frustum.total_assignCast (cast : β → α) (f : Frustum α) (src : Frustum β) : Spec.Total fun _ => Frustum.assignCast cast f src := by
  unfold Frustum.assignCast; total
theorem Frustum.total_computeMatrix [Zero α] [One α] [OfNat α 2] [Add α] [Sub α] [Mul α] [Div α] [Neg α] (f : Frustum α) (m : Mat 4 4 α) : Spec.Total fun cfg => Frustum.computeMatrix cfg f m := by
  unfold Frustum.computeMatrix; total
theorem Frustum.total_computeOrthoMatrix [Zero α] [One α] [OfNat α 2] [Add α] [Sub α] [Mul α] [Div α] [Neg α] (f : Frustum α) (m : Mat 4 4 α) : Spec.Total fun cfg => Frustum.computeOrthoMatrix cfg f m := by
  unfold Frustum.computeOrthoMatrix; total

/-! ## `Model/Aabb` -/

theorem Box.total_ctor [Zero α] (maxT minT : α) : Spec.Total fun _ => Box.ctor maxT minT := by
  unfold Box.ctor; total
theorem Box.total_ctorCube [Zero α] [Add α] [Sub α] (cx cy cz size : α) : Spec.Total fun cfg => Box.ctorCube cfg cx cy cz size := by
  unfold Box.ctorCube; total
theorem Box.total_set (b : Box α) (pMin pMax : Vec 3 α) : Spec.Total fun _ => Box.set b pMin pMax := by
  unfold Box.set; total
theorem Box.total_setCube [Zero α] [Add α] [Sub α] (b : Box α) (cx cy cz size : α) : Spec.Total fun cfg => Box.setCube cfg b cx cy cz size := by
  unfold Box.setCube; total
theorem Box.total_setMin (b : Box α) (pMin : Vec 3 α) : Spec.Total fun _ => Box.setMin b pMin := by
  unfold Box.setMin; total
theorem Box.total_setMax (b : Box α) (pMax : Vec 3 α) : Spec.Total fun _ => Box.setMax b pMax := by
  unfold Box.setMax; total
theorem Box.total_mulAssign [Mul α] (b : Box α) (value : α) : Spec.Total fun cfg => Box.mulAssign cfg b value := by
  unfold Box.mulAssign; total
theorem Box.total_divAssign [Div α] (b : Box α) (value : α) : Spec.Total fun cfg => Box.divAssign cfg b value := by
  unfold Box.divAssign; total
theorem Box.total_addAssign [Add α] (b : Box α) (value : α) : Spec.Total fun cfg => Box.addAssign cfg b value := by
  unfold Box.addAssign; total
theorem Box.total_subAssign [Sub α] (b : Box α) (value : α) : Spec.Total fun cfg => Box.subAssign cfg b value := by
  unfold Box.subAssign; total
theorem Box.total_mul [Mul α] (b : Box α) (value : α) : Spec.Total fun cfg => Box.mul cfg b value := by
  unfold Box.mul; total
theorem Box.total_div [Div α] (b : Box α) (value : α) : Spec.Total fun cfg => Box.div cfg b value := by
  unfold Box.div; total
theorem Box.total_add [Add α] (b : Box α) (value : α) : Spec.Total fun cfg => Box.add cfg b value := by
  unfold Box.add; total
theorem Box.total_sub [Sub α] (b : Box α) (value : α) : Spec.Total fun cfg => Box.sub cfg b value := by
  unfold Box.sub; total
theorem Box.total_getCenter [Zero α] [Add α] [Sub α] [Mul α] (half : α) (b : Box α) : Spec.Total fun cfg => Box.getCenter cfg half b := by
  unfold Box.getCenter; total
theorem Box.total_getDimension [Zero α] [Sub α] (b : Box α) : Spec.Total fun cfg => Box.getDimension cfg b := by
  unfold Box.getDimension; total
theorem Box.total_setEmpty [Neg α] (maxT : α) (b : Box α) : Spec.Total fun cfg => Box.setEmpty cfg maxT b := by
  unfold Box.setEmpty; total
theorem Box.total_makeUnitBox [Zero α] [One α] : Spec.Total fun _ => (Box.makeUnitBox : Res (Box α)) := by
  unfold Box.makeUnitBox; total

/-! ## `Model/FrustumCuller` -/

theorem Culler.total_normalizePlane [Zero α] [One α] [Add α] [Mul α] [Div α] [CMath α] (plane : Vec 4 α) : Spec.Total fun cfg => Culler.normalizePlane cfg plane := by
  unfold Culler.normalizePlane; total
theorem Culler.total_setupMatrix [Zero α] [One α] [Add α] [Sub α] [Mul α] [Div α] [CMath α] (m : Mat 4 4 α) : Spec.Total fun cfg => Culler.setupMatrix cfg m := by
  unfold Culler.setupMatrix; total
theorem Culler.total_setupCorners [Zero α] [One α] [Add α] [Sub α] [Neg α] [Mul α] [Div α] [BEq α] [CMath α] (a b c d e f g h : Vec 3 α) : Spec.Total fun cfg => Culler.setupCorners cfg a b c d e f g h := by
  unfold Culler.setupCorners; total
theorem Culler.total_testAabbPlane [Zero α] [One α] [Add α] [Sub α] [Mul α] [CMath α] [LE α] [DecidableLE α] [LT α] [DecidableLT α] (plane : Vec 4 α) (middle extent : Vec 3 α) : Spec.Total fun cfg => Culler.testAabbPlane cfg plane middle extent := by
  unfold Culler.testAabbPlane; total
theorem Culler.total_testAabbFrom [Zero α] [One α] [Add α] [Sub α] [Mul α] [CMath α] [LE α] [DecidableLE α] [LT α] [DecidableLT α]
    (middle extent : Vec 3 α) (planes : List (Vec 4 α)) (result : Visibility) : Spec.Total fun cfg => Culler.testAabbFrom cfg middle extent planes result := by
  induction planes generalizing result with
  | nil => exact total_pure _
  | cons p l ih =>
    unfold Culler.testAabbFrom
    refine total_bind (Culler.total_testAabbPlane p middle extent) fun v => ?_
    cases h : Culler.aabbSwitch v result
    · exact total_pure _
    · exact ih _
theorem Culler.total_testAabb [Zero α] [One α] [Add α] [Sub α] [Mul α] [CMath α] [LE α] [DecidableLE α] [LT α] [DecidableLT α] (half : α) (k : Culler α) (x y z : Vec 2 α) : Spec.Total fun cfg => Culler.testAabb cfg half k x y z := by
  unfold Culler.testAabb; total

/-! ## `Model/LowpassFilter` -/

theorem Lowpass.total_get {W V : Type} (l : Lowpass W V) (h : l.value ≠ none) : Spec.Total fun _ => Lowpass.get l := by
  unfold Lowpass.get
  cases hv : l.value
  · exact absurd hv h
  · exact total_pure _
theorem Lowpass.total_add {W V : Type} [One W] [Sub W] [Mul W] [Add V] [SMul W V] (M : Nat) (l : Lowpass W V) (value : V) (h : 0 < M) : Spec.Total fun _ => Lowpass.add M l value := by
  unfold Lowpass.add
  have hl : ∀ n (d : List V), d.length = n → d ≠ [] → Lowpass.trim M d ≠ [] := by
    intro n
    induction n with
    | zero => intro d hd he; exact absurd (List.length_eq_zero_iff.1 hd) he
    | succ n ih =>
      intro d hd he
      rw [Lowpass.trim]
      split
      · rename_i hlen
        exact ih _ (by simp [hd]) (by intro e; have := congrArg List.length e; simp at this; omega)
      · exact he
  have := hl _ (value :: l.data) rfl (by simp)
  dsimp only
  generalize Lowpass.trim M (value :: l.data) = d at *
  cases d
  · exact absurd rfl this
  · exact total_pure _

/-! ## `Model/Intersection` -/

theorem Ray.total_ctor [Zero α] [One α] [Add α] [Mul α] [Div α] [BEq α] [CMath α] (origin direction : Vec 3 α) : Spec.Total fun cfg => Ray.ctor cfg origin direction := by
  unfold Ray.ctor; total
theorem Ray.total_testSphere [Zero α] [Add α] [Sub α] [Mul α] [CMath α] [LT α] [DecidableLT α] (ray : Ray α) (sphere : Vec 4 α) (t : α) : Spec.Total fun cfg => Ray.testSphere cfg ray sphere t := by
  unfold Ray.testSphere; total

/-! ## `Model/QR` -/

theorem QR.total_inner [Zero α] [Add α] [Sub α] [Mul α] (mem : Vec M α) (A : Mat M N α) (Q : Mat M M α) (j : Nat) (R : Mat N N α) (v : Vec M α) (hM : N ≤ M) (hj : j < N) : Spec.Total fun cfg => QR.inner cfg mem A Q j R v := by
  unfold QR.inner; total
theorem QR.total_decompose [Zero α] [Add α] [Sub α] [Mul α] [Div α] [CMath α] (A : Mat M N α) (Q₀ : Mat M M α) (R₀ : Mat N N α) (hM : N ≤ M) : Spec.Total fun cfg => QR.decompose cfg A Q₀ R₀ := by
  unfold QR.decompose; total

/-! ## `Model/Util` -/

theorem Util.total_createTranslation [Zero α] [One α] (arg : Vec 3 α) : Spec.Total fun cfg => Util.createTranslation cfg arg := by
  unfold Util.createTranslation; total
theorem Util.total_applyTranslation [Zero α] [One α] [Add α] [Mul α] (m : Mat 4 4 α) (t0 t1 t2 : α) : Spec.Total fun cfg => Util.applyTranslation cfg m t0 t1 t2 := by
  unfold Util.applyTranslation; total
theorem Util.total_createRotation [Zero α] [One α] [Add α] [Sub α] [Mul α] [CMath α] (angle : α) (axis : Vec 3 α) : Spec.Total fun cfg => Util.createRotation cfg angle axis := by
  unfold Util.createRotation; total
theorem Util.total_applyRotation [Zero α] [One α] [Add α] [Sub α] [Mul α] [CMath α] (m : Mat 4 4 α) (angle t0 t1 t2 : α) : Spec.Total fun cfg => Util.applyRotation cfg m angle t0 t1 t2 := by
  unfold Util.applyRotation; total
theorem Util.total_createScaling [Zero α] [One α] [Mul α] (arg : Vec 3 α) : Spec.Total fun cfg => Util.createScaling cfg arg := by
  unfold Util.createScaling; total
theorem Util.total_createScalingS [Zero α] [One α] [Mul α] (arg : α) : Spec.Total fun cfg => Util.createScalingS cfg arg := by
  unfold Util.createScalingS; total
theorem Util.total_zero [Zero α] (arg : Vec M α) : Spec.Total fun _ => Util.zero arg := by
  unfold Util.zero; total
theorem Util.total_min [Zero α] [LT α] [DecidableLT α] (a b : Vec M α) : Spec.Total fun _ => Util.min a b := by
  unfold Util.min; total
theorem Util.total_max [Zero α] [LT α] [DecidableLT α] (a b : Vec M α) : Spec.Total fun _ => Util.max a b := by
  unfold Util.max; total
theorem Util.total_manhattan [Zero α] [Add α] [CMath α] (arg : Vec M α) : Spec.Total fun _ => Util.manhattan arg := by
  unfold Util.manhattan; total

/-! ## `Model/Traits` -/

theorem Traits.total_r (row : Fin M) (col : Fin N) (m : Mat M N α) (h : M = N) : Spec.Total fun cfg => Traits.r cfg row col m := by
  have hr := row.2; have hc := col.2; unfold Traits.r; total
theorem Traits.total_w (row : Fin M) (col : Fin N) (m : Mat M N α) (x : α) (h : M = N) : Spec.Total fun cfg => Traits.w cfg row col m x := by
  have hr := row.2; have hc := col.2; unfold Traits.w; total
theorem Traits.total_ir (row col : Int) (m : Mat M N α) (h : M = N) (hM : M < 2 ^ 63) (h1 : 0 ≤ row) (h2 : row < M) (h3 : 0 ≤ col) (h4 : col < N) : Spec.Total fun cfg => Traits.ir cfg row col m := by
  have hs : ∀ i : Int, 0 ≤ i → i < M → Traits.toSize i < M := by intro i h1 h2; unfold Traits.toSize; omega
  have := hs row h1 h2
  have := hs col h3 (by omega)
  unfold Traits.ir
  refine total_bind (total_check (by simpa using h1)) fun _ => total_bind (total_check (by simpa using h2)) fun _ =>
    total_bind (total_check (by simpa using h3)) fun _ => total_bind (total_check (by simpa using h4)) fun _ => ?_
  total
theorem Traits.total_iw (row col : Int) (m : Mat M N α) (x : α) (h : M = N) (hM : M < 2 ^ 63) (h1 : 0 ≤ row) (h2 : row < M) (h3 : 0 ≤ col) (h4 : col < N) : Spec.Total fun cfg => Traits.iw cfg row col m x := by
  have hs : ∀ i : Int, 0 ≤ i → i < M → Traits.toSize i < M := by intro i h1 h2; unfold Traits.toSize; omega
  have := hs row h1 h2
  have := hs col h3 (by omega)
  unfold Traits.iw
  refine total_bind (total_check (by simpa using h1)) fun _ => total_bind (total_check (by simpa using h2)) fun _ =>
    total_bind (total_check (by simpa using h3)) fun _ => total_bind (total_check (by simpa using h4)) fun _ => ?_
  total
theorem Traits.total_vr (i : Fin M) (v : Vec M α) : Spec.Total fun _ => Traits.vr i v := by
  unfold Traits.vr; total
theorem Traits.total_vw (i : Fin M) (v : Vec M α) (x : α) : Spec.Total fun _ => Traits.vw i v x := by
  unfold Traits.vw; total
theorem Traits.total_vir (i : Int) (v : Vec M α) (h1 : 0 ≤ i) (h2 : i < M) : Spec.Total fun cfg => Traits.vir cfg i v := by
  unfold Traits.vir
  refine total_bind (total_check (by simpa using h1)) fun _ => total_bind (total_check (by simpa using h2)) fun _ => ?_
  simp only [show ¬ i < 0 by omega, if_false]; total
theorem Traits.total_viw (i : Int) (v : Vec M α) (x : α) (h1 : 0 ≤ i) (h2 : i < M) : Spec.Total fun cfg => Traits.viw cfg i v x := by
  unfold Traits.viw
  refine total_bind (total_check (by simpa using h1)) fun _ => total_bind (total_check (by simpa using h2)) fun _ => ?_
  simp only [show ¬ i < 0 by omega, if_false]; total

end Vmml
