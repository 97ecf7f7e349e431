import Verif.Props.Machine
import Verif.Props.Memory
import Verif.Props.NaN
import Verif.Props.Print
import Verif.Props.QR
import Verif.Props.QuaternionRotation
import Verif.Props.RawFile
import Verif.Props.RoundingInverse
import Verif.Props.RoundingNorm
import Verif.Props.Stream
import Verif.Props.Traits
import Verif.Props.Util
import Verif.Props.View
import Verif.Props.ViewCulling
import Verif.Props.MatrixSignal
import Verif.Props.VectorGeom
import Verif.Props.VectorOrder

/-!
# Concrete cases for theorems whose own file has none next to them (continued)
-/

namespace Vmml

private abbrev wc : Cfg := ⟨true, true, false⟩

/-! ## Machine integers -/
private abbrev b31 : Int := 2147483648
private def sv : Vec 3 (Signed b31) := #v[⟨some 10⟩, ⟨some (-3)⟩, ⟨some 70000⟩]
private theorem sv_is : Spec.IsVec sv ![10, -3, 70000] := by intro i; fin_cases i <;> rfl
private def sm : Mat 2 2 (Signed b31) := Mat.ofFn fun r c => if r = c then ⟨some 2⟩ else ⟨some (-1)⟩
private def smA : Matrix (Fin 2) (Fin 2) Int := fun r c => if r = c then 2 else -1
private theorem sm_is : Spec.IsMat sm smA := by intro r c; fin_cases r <;> fin_cases c <;> decide
private theorem smA_le (i j : Fin 2) : |smA i j| ≤ 2 := by fin_cases i <;> fin_cases j <;> decide
private def sw : Vec 3 (Signed b31) := #v[⟨some 1⟩, ⟨some (-300)⟩, ⟨some 7⟩]
private theorem sw_is : Spec.IsVec sw ![1, -300, 7] := by intro i; fin_cases i <;> rfl
example := C99_cross sw sw _ _ sw_is sw_is 300 300 (by intro i; fin_cases i <;> decide) (by intro i; fin_cases i <;> decide) (by decide)
example := C99_det wc (by norm_num) (by norm_num) sm smA sm_is 2 (by norm_num) smA_le (by decide)
example := C99_dot wc sv sw _ _ sv_is sw_is
example := C99_elementwise wc sv sw _ _ sv_is sw_is
example := C99_extremes (B := b31) (by decide) (-5) 7 (by decide) (by decide)
example := C99_matrix_product wc sm sm _ _ sm_is sm_is
example := C99_matrix_product_exact wc sm sm _ _ sm_is sm_is 2 2 smA_le smA_le (by decide)
example := C99_matrix_vector wc sm (#v[⟨some 3⟩, ⟨some (-4)⟩] : Vec 2 (Signed b31)) _ ![3, -4] sm_is (by intro i; fin_cases i <;> rfl)
example := C99_squared_length sv _ sv_is (by decide)

/-! ## Memory, raw files, streams -/
private abbrev wst : Store := ⟨[(0, 8)], 1⟩
private theorem wst_ok : wst.Ok := by simp [Store.Ok]
example := C103_sum_columns wc 8 (⟨#v[1, 2, 3, 4]⟩ : Mat 2 2 Int) ⟨#v[0, 0]⟩ wst wst_ok
private def wbytes (n : UInt8) : List UInt8 := [n]
private def wofBytes (l : List UInt8) : UInt8 := l.headD 0
example := C103_read_closed_violated (s := 1) (ofBytes := wofBytes) (fun _ => true) (fun _ => 0) (⟨#v[1, 2, 3, 4]⟩ : Mat 2 2 UInt8) "d".toList "x".toList
  (fun _ => none) (Or.inr rfl) wst
example := C47_sizes 4 1000 (Or.inl (by norm_num))
example := C47_sizes 12 1000 (Or.inr (by norm_num))
example := C47_suffix_violated (bytes := wbytes) (ofBytes := wofBytes) (s := 1) (fun _ => true) (fun _ => 0) (⟨#v[1, 2, 3, 4]⟩ : Mat 2 2 UInt8)
  ⟨#v[0, 0, 0, 0]⟩ "d".toList "x".toList (fun _ => none) (by decide) rfl
example := C47_written_file_partial (bytes := wbytes) (fun _ => true) (⟨#v[1, 2, 3, 4]⟩ : Mat 2 2 UInt8) "d".toList "x".toList (fun _ => none)
  (by decide) rfl
example := C46_matrix wc decimalIO decimalIO_readsBack (⟨#v[1, 20, 3, 4]⟩ : Mat 2 2 Nat) ⟨#v[0, 0, 0, 0]⟩
example := C46_roundtrip wc decimalIO decimalIO_readsBack [.mat 2 2 ⟨#v[1, 20, 3, 4]⟩] [.mat 2 2 ⟨#v[0, 0, 0, 0]⟩]
  (.cons (by simp [Spec.Item.SameShape]) .nil) "x ".toList
private def wfmt (_ : Ios) (n : Nat) : List Char := if n = 0 then ['0'] else ['7']
example := C83_flags_violated wc wfmt #v[0, 7] newStream (Or.inl rfl)
example := C88_box wc wfmt ⟨#v[0, 0, 0], #v[7, 7, 0]⟩ newStream rfl
example := C88_matrix wc wfmt (⟨#v[0, 7, 7, 0]⟩ : Mat 2 2 Nat) newStream rfl
example := C88_matrix_lines wc wfmt (⟨#v[0, 7, 7, 0]⟩ : Mat 2 2 Nat) newStream.ios rfl (by intro i x; unfold wfmt; split <;> decide) (by decide)
example := C88_quaternion wfmt ⟨0, 7, 7, 0⟩ newStream rfl
example (k : Culler Nat) := C88_culler wc wfmt k newStream rfl

/-! ## NaN -/
open NaNable in
example := C82_clamp_partial (#v[num 5, nan, num (-1)] : Vec 3 NaNable) 0 2 (by norm_num)
open NaNable in
example (w : Vec 2 NaNable) (t : NaNable) := C82_equals_violated wc #v[nan, nan] w t
  (by intro i hi; have : i = 0 ∨ i = 1 := by omega
      rcases this with rfl | rfl <;> rfl)
open NaNable in
example := C82_isAkin_violated id rfl ⟨num 0, num 0, num 0, num 1⟩ (num 1)
open NaNable in
example (b : Mat 2 2 NaNable) := C82_matrix_equals wc (⟨#v[num 1, nan, num 2, num 3]⟩ : Mat 2 2 NaNable) b (num 1) 1 0 (Or.inl rfl)
open NaNable in
example := C82_propagate wc (#v[num 1, nan] : Vec 2 NaNable) #v[num 0, num 3] 1 rfl

/-! ## QR -/
private noncomputable def wq : Mat 2 2 ℝ := Mat.ofFn fun r c => if r = c then (2 : ℝ) else if r < c then 1 else 0
private theorem wq_det : wq.toMat.det = 4 := by simp [Matrix.det_fin_two, wq]; norm_num
example (Q R : Mat 2 2 ℝ) := C77_square wc wq Q R (by rw [wq_det]; simp)
example (A : Mat 2 3 ℝ) (Q : Mat 2 2 ℝ) (R : Mat 3 3 ℝ) := C77_wide wc A Q R (by norm_num) (by norm_num)

/-! ## Quaternions -/
private theorem whalf (a : ℝ) : (fun x : ℝ => (1 / 2) * x) (a + a) = a := by ring
private theorem whalfZ (a : Int) : (fun x : Int => x / 2) (a + a) = a := by show (a + a) / 2 = a; omega
example (q r : Quat ℝ) := C51_hamilton _ whalf q .self r
example (q r : Quat Int) := C51_hamilton (fun x : Int => x / 2) whalfZ q .self r
example (p q r : Quat ℝ) := C51_laws _ whalf p q r
example (p q r : Quat Int) := C51_laws (fun x : Int => x / 2) whalfZ p q r
example (p q : Quat ℝ) := C52_conjugate _ whalf p q
example (p q : Quat ℝ) := C53_homomorphism _ whalf wc p q
example := C89_units _ whalf
example := C89_units (fun x : Int => x / 2) whalfZ
example := C52_inverse ⟨1, 0, -2, 3⟩ (by simp)
private theorem wunit : Spec.IsUnit3 fun i => (#v[3 / 5, 0, 4 / 5] : Vec 3 ℝ)[i] := by
  show (3 / 5 : ℝ) ^ 2 + 0 ^ 2 + (4 / 5) ^ 2 = 1; norm_num
example (t : ℝ) := C53_axis_angle wc #v[3 / 5, 0, 4 / 5] wunit t
example (t : ℝ) := C78_rotation wc t #v[3 / 5, 0, 4 / 5] wunit
example (q : Quat Int) (m : Mat 4 4 Int) := C53_embedded (by norm_num) wc q m
example (q : Quat ℝ) := C57_division wc q 3 (by norm_num)
example (q : Quat ℝ) := C89_set_violated q 3 (by norm_num)
example (a : ℝ) := C55_ends Quat.QUATERI Quat.QUATERJ (by norm_num [Quat.abs, Quat.squaredAbs, Quat.QUATERI])
  (by norm_num [Quat.abs, Quat.squaredAbs, Quat.QUATERJ]) a 1e-13 (by norm_num)

/-! ## Rounding -/
private abbrev wf := Fl (binRounding 23)
example (v w : Vec 1000 wf) := C81_dot wc v w (by norm_num)
example (v : Vec 1000 wf) := C81_squared_length v (by norm_num)
example (a : Mat 4 4 wf) (b : Mat 4 4 wf) := C81_matrix_product wc a b (by norm_num)
example (a : Mat 4 4 wf) (v : Vec 4 wf) := C81_matrix_vector wc a v (by norm_num)
example (v : Vec 1000 wf) := C90_length v (by norm_num) (by norm_num)
example (v w : Vec 1000 wf) := C90_distance wc v w (by norm_num) (by norm_num)
example (m i : Mat 4 4 wf) (t : wf) := C101_inverse (K := 3) wc (by norm_num) (by norm_num) m i t
example (m i : Mat 2 2 wf) (t : wf) := C101_inverse (K := 1) wc (by norm_num) (by norm_num) m i t

/-! ## Index maps of the traits adaptors, views of a vector -/
example (x : Int) := C80_matrix_partial wc (⟨#v[1, 2, 3, 4]⟩ : Mat 2 2 Int) (by norm_num) 0 1 x
example (x : Int) := C80_vector_range wc (#v[1, 2, 3] : Vec 3 Int) (-1) x (Or.inl (by norm_num))
example (x : Int) := C80_vector_range wc (#v[1, 2, 3] : Vec 3 Int) 3 x (Or.inr (by norm_num))
example := C80_wide_violated wc (⟨#v[1, 2, 3, 4, 5, 6]⟩ : Mat 2 3 Int) (by norm_num) (by norm_num)
private def w5 : Vec 5 Int := #v[1, 2, 3, 4, 5]
example := C102_assign (N := 3) wc w5 (o1 := 0) (o2 := 1) (by norm_num) (by norm_num)
example := C102_assign (N := 2) wc w5 (o1 := 0) (o2 := 3) (by norm_num) (by norm_num)
example (v : Vec 5 ℝ) := C102_normalize (N := 3) wc v (o := 1) (by norm_num)
example := C102_op_assign (N := 3) (· + ·) wc w5 (o1 := 0) (o2 := 1) (by norm_num) (by norm_num) (by norm_num)
example := C102_op_assign_overlap (N := 3) (· + ·) wc w5 (o1 := 1) (o2 := 0) (by norm_num) (by norm_num)
example := C102_op_assign_scalar (N := 3) (· * ·) wc w5 (o := 1) (by norm_num) 3
example := C102_to_homogeneous (N := 2) wc w5 (o1 := 0) (o2 := 1) (by norm_num) (by norm_num)

/-! ## Equality through bytes, geometry -/
example (v w : Vec 3 F32) := C09_memcmp_partial 4 (fun _ => rfl) F32.toBytes_inj v w
private instance : Zero F32 := ⟨F32.posZero⟩
private instance : Neg F32 := ⟨fun a => ⟨a.bits ^^^ 0x80000000#32⟩⟩
example (a b : Mat 2 2 F32) := C49_rows_partial wc 4 (fun _ => rfl) F32.toBytes_inj a b
example (a b : Mat 2 2 F32) := C49_columns_partial wc 4 (fun _ => rfl) F32.toBytes_inj a b
example := C17_compute_normal wc (#v[0, 0, 0] : Vec 3 ℝ) #v[1, 0, 0] #v[0, 1, 0] _ _ (Vec.sub_eq ..) (Vec.sub_eq ..) (by
  intro h
  have h2 := congrArg (fun v : Vec 3 ℝ => v[2]) h
  simp [Vec.cross] at h2)
example := C18_scale_to_violated wc 255 0 10 (by norm_num) (by norm_num)

/-! ## Culling -/
private noncomputable def wk : Culler ℝ := ⟨#v[1, 0, 0, 1], #v[-1, 0, 0, 1], #v[0, 1, 0, 1], #v[0, -1, 0, 1], #v[0, 0, -1, 1], #v[0, 0, 1, 1]⟩
private theorem wk_unit : ∀ p ∈ Spec.planes wk, Spec.normalSq p = 1 := by
  intro p hp; simp only [wk, Spec.planes, List.mem_cons, List.not_mem_nil, or_false] at hp
  rcases hp with rfl | rfl | rfl | rfl | rfl | rfl
  · show (1 : ℝ) ^ 2 + 0 ^ 2 + 0 ^ 2 = 1; norm_num
  · show (-1 : ℝ) ^ 2 + 0 ^ 2 + 0 ^ 2 = 1; norm_num
  · show (0 : ℝ) ^ 2 + 1 ^ 2 + 0 ^ 2 = 1; norm_num
  · show (0 : ℝ) ^ 2 + (-1) ^ 2 + 0 ^ 2 = 1; norm_num
  · show (0 : ℝ) ^ 2 + 0 ^ 2 + (-1) ^ 2 = 1; norm_num
  · show (0 : ℝ) ^ 2 + 0 ^ 2 + 1 ^ 2 = 1; norm_num
example := C100_sphere_in_sphere wk wk_unit #v[0, 0, 0, 1] #v[0, 0, 0, 2] (by norm_num) (by norm_num) (by
  rintro x y z ⟨-, h⟩
  refine ⟨by norm_num, ?_⟩
  simp at h ⊢
  linarith)
example (v : Visibility) := C100_sphere_in_box wc wk wk_unit #v[0, 0, 0, 1] (by norm_num) #v[-1, 1] #v[-1, 1] #v[-1, 1] (by
  rintro x y z ⟨-, h⟩
  simp at h
  simp only [Spec.InBox]
  norm_num
  refine ⟨?_, ?_, ?_, ?_, ?_, ?_⟩ <;> nlinarith [sq_nonneg x, sq_nonneg y, sq_nonneg z]) v
example (v v' : Visibility) := C100_box_in_box wc wk #v[0, 1] #v[0, 1] #v[0, 1] #v[-1, 1] #v[-1, 1] #v[-1, 1] (by
  intro a b c h
  simp only [Spec.InBox] at h ⊢
  norm_num at h ⊢
  obtain ⟨h1, h2, h3, h4, h5, h6⟩ := h
  refine ⟨?_, ?_, ?_, ?_, ?_, ?_⟩ <;> linarith) v v'
private noncomputable def wV : Mat 4 4 ℝ := Mat.rotate ⟨Vector.replicate 16 0⟩ 1 (#v[0, 0, 1] : Vec 3 ℝ)
private theorem wV_rigid : Spec.Rigid wV.toMat := by
  rw [wV, C36_rodrigues]
  exact rotAxis_rigid _ (by simp [Spec.IsUnit3]) 1
example (m : Mat 4 4 ℝ) (c : Vec 3 ℝ) := C100_view_frustum wc ⟨#v[-1, 1, -1, 1, 1, 10]⟩
  (by constructor <;> norm_num [Frustum.left, Frustum.right, Frustum.bottom, Frustum.top, Frustum.nearPlane, Frustum.farPlane]) m wV wV_rigid c
example (P : Mat 4 4 ℝ) (c : Vec 3 ℝ) (r : ℝ) := C100_world_sphere wc P wV wV_rigid c r

end Vmml
