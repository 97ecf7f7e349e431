import Verif.Props.FloatQuat
import Verif.Props.FloatDrift
import Verif.Props.Quaternion

/-!
# C115: rotation matrices of quaternions in IEEE 754 arithmetic

The code multiplies by the `double` literal `2.` (quaternion.hpp:909-916), the model by `1 + 1` in the component type: both are exact unless the result overflows
the component type, and both then give the infinity of the same sign.
-/

namespace Vmml
open Format
variable {F : Format}

/-- The matrix of `v ↦ Q v Q*` on pure quaternions. -/
noncomputable def Spec.hrot (Q : Quaternion ℝ) : Matrix (Fin 3) (Fin 3) ℝ := fun i j =>
  let r := Q * Spec.pureH (Pi.single j 1) * star Q
  ![r.imI, r.imJ, r.imK] i

/-- A quaternion with real components. -/
private def rq (Q : Quaternion ℝ) : Quat ℝ := ⟨Q.imI, Q.imJ, Q.imK, Q.re⟩

private theorem hrot_rotMat (Q : Quaternion ℝ) : Spec.hrot Q = rotMat (rq Q) := by
  ext i j
  fin_cases i <;> fin_cases j <;> simp [Spec.hrot, rotMat, rq] <;> ring

private theorem rq_sq (Q : Quaternion ℝ) : (rq Q).squaredAbs = ‖Q‖ ^ 2 := by
  rw [hnorm_sq]; simp only [rq, Quat.squaredAbs]; ring

theorem hrot_orthogonal {Q : Quaternion ℝ} (h : ‖Q‖ = 1) : Spec.hrot Q * (Spec.hrot Q).transpose = 1 := by
  rw [hrot_rotMat, rotMat_orthogonal, rq_sq, h]; simp

theorem hrot_smul (c : ℝ) (Q : Quaternion ℝ) (i j : Fin 3) : Spec.hrot (c • Q) i j = c ^ 2 * Spec.hrot Q i j := by
  rw [hrot_rotMat, hrot_rotMat]
  fin_cases i <;> fin_cases j <;> simp [rotMat, rq] <;> ring

theorem hrot_mul (P Q : Quaternion ℝ) : Spec.hrot (P * Q) = Spec.hrot P * Spec.hrot Q := by
  rw [hrot_rotMat, hrot_rotMat, hrot_rotMat]
  ext i j
  fin_cases i <;> fin_cases j <;> simp [rotMat, rq, Matrix.mul_apply, Fin.sum_univ_three] <;> ring

/-- Error of one entry of the rotation matrix of a quaternion of squared length `N`. -/
noncomputable def Spec.rotErr (F : Format) (N : ℝ) : ℝ := ((1 + F.u) ^ 4 - 1) * (N + 5 * F.tiny)

private theorem two_fin (h0 : 1 < F.emax) : ((1 + 1 : Fp F)).Finite ∧ (1 + 1 : Fp F).val = 2 := by
  obtain ⟨o1, o2⟩ := Fp.one_fin (F := F) (by omega)
  have hr : F.Rep 2 := by simpa using rep_pow (F := F) (e := 1) (by unfold emin; omega)
  have h2 : (2 : ℝ) ≤ F.maxFinite := by
    unfold maxFinite
    have h1 : (2 : ℝ) ^ (F.p + 1) - 1 ≥ (2 : ℝ) ^ F.p := by
      have : (1 : ℝ) ≤ (2 : ℝ) ^ F.p := one_le_pow₀ (by norm_num)
      rw [pow_succ]; linarith
    calc (2 : ℝ) = (2 : ℝ) ^ (1 : Int) := by norm_num
      _ ≤ (2 : ℝ) ^ (F.emax : Int) := zpow_le_zpow_right₀ (by norm_num) (by omega)
      _ = (2 : ℝ) ^ F.p * (2 : ℝ) ^ ((F.emax : Int) - F.p) := by rw [← zpow_natCast, ← zpow_add₀ (by norm_num)]; congr 1; ring
      _ ≤ _ := mul_le_mul_of_nonneg_right h1 (by positivity)
  have e : (1 + 1 : ℝ) = 2 := by norm_num
  obtain ⟨f1, f2⟩ := Fp.add_fin (F := F) (by omega) o1 o1 (by rw [o2, e, abs_of_pos (by norm_num)]; exact h2)
  refine ⟨f1, ?_⟩
  rw [f2, o2, e, hr.rnd_eq]

set_option maxHeartbeats 1600000 in
/-- **C115** `get_rotation_matrix` in IEEE arithmetic, into the upper left block of a matrix of any size from 3: the entries of the block are within
`( ( 1 + u )^4 - 1 ) ( |q|² + 5 tiny )` of the entries of `v ↦ q v q*`, and finite if this size fits in the format; the other entries keep their values. -/
theorem C115_block {n : Nat} (hn : 3 ≤ n) (h0 : 1 < F.emax) (cfg : Cfg) (q : Quat (Fp F)) (m : Mat n n (Fp F)) :
    ∃ r, q.getRotationMatrixTo cfg m = .ok r ∧
      (∀ i j : Fin 3, ((r.get (i.castLE hn) (j.castLE hn)).Finite → Spec.QFinite q ∧
        |(r.get (i.castLE hn) (j.castLE hn)).val - Spec.hrot (Spec.fhval q) i j| ≤ Spec.rotErr F (‖Spec.fhval q‖ ^ 2)) ∧
        (Spec.QFinite q → (1 + F.u) ^ 4 * (‖Spec.fhval q‖ ^ 2 + 5 * F.tiny) ≤ F.maxFinite → (r.get (i.castLE hn) (j.castLE hn)).Finite)) ∧
      ∀ i j : Fin n, (3 ≤ i.1 ∨ 3 ≤ j.1) → r.get i j = m.get i j := by
  have g0 : 0 < n := by omega
  have g1 : 1 < n := by omega
  have g2 : 2 < n := by omega
  have h1 : 0 < F.emax := by omega
  have hu := u_pos (F := F)
  have ht := F.tiny_pos
  set N := ‖Spec.fhval q‖ ^ 2 with hN
  have hNe : N = |q.w.val| ^ 2 + |q.x.val| ^ 2 + |q.y.val| ^ 2 + |q.z.val| ^ 2 := by
    simp only [sq_abs]; exact hnorm_sq _
  let H : Prop := Spec.QFinite q ∧ (1 + F.u) ^ 4 * (N + 5 * F.tiny) ≤ F.maxFinite
  have room {k : Nat} {M : ℝ} (hk : k ≤ 4) (hM0 : 0 ≤ M) (hM : M ≤ N + 5 * F.tiny) (hH : H) : (1 + F.u) ^ k * M ≤ F.maxFinite :=
    (mul_le_mul (pow_le_pow_right₀ (by linarith) hk) hM hM0 (by positivity)).trans hH.2
  have E (x : Fp F) (hx : H → x.Finite) : FBoth H x.Finite 0 x x.val |x.val| |x.val| := ⟨FApprox.exact x, fun h => ⟨hx h, by simp⟩⟩
  have w := E q.w (fun h => h.1.1)
  have x := E q.x (fun h => h.1.2.1)
  have y := E q.y (fun h => h.1.2.2.1)
  have z := E q.z (fun h => h.1.2.2.2)
  obtain ⟨t1, t2⟩ := two_fin h0
  have two : FBoth H True 0 (1 + 1 : Fp F) 2 2 2 := by
    refine ⟨fun _ => ⟨trivial, ?_⟩, fun _ => ⟨t1, by rw [t2]; norm_num⟩⟩
    have := Approx.exact (u := F.u) (2 : ℝ)
    rw [t2]; simpa using this
  have a1 := abs_nonneg q.w.val
  have a2 := abs_nonneg q.x.val
  have a3 := abs_nonneg q.y.val
  have a4 := abs_nonneg q.z.val
  generalize hwv : |q.w.val| = W at *
  generalize hxv : |q.x.val| = X at *
  generalize hyv : |q.y.val| = Y at *
  generalize hzv : |q.z.val| = Z at *
  have s1 : 2 * (X * Y) ≤ X * X + Y * Y := by linarith [sq_nonneg (X - Y)]
  have s2 : 2 * (W * Z) ≤ W * W + Z * Z := by linarith [sq_nonneg (W - Z)]
  have s3 : 2 * (X * Z) ≤ X * X + Z * Z := by linarith [sq_nonneg (X - Z)]
  have s4 : 2 * (W * Y) ≤ W * W + Y * Y := by linarith [sq_nonneg (W - Y)]
  have s5 : 2 * (Y * Z) ≤ Y * Y + Z * Z := by linarith [sq_nonneg (Y - Z)]
  have s6 : 2 * (W * X) ≤ W * W + X * X := by linarith [sq_nonneg (W - X)]
  have q1 := mul_self_nonneg W
  have q2 := mul_self_nonneg X
  have q3 := mul_self_nonneg Y
  have q4 := mul_self_nonneg Z
  have p1 := mul_nonneg a1 a2
  have p2 := mul_nonneg a1 a3
  have p3 := mul_nonneg a1 a4
  have p4 := mul_nonneg a2 a3
  have p5 := mul_nonneg a2 a4
  have p6 := mul_nonneg a3 a4
  clear hN hwv hxv hyv hzv t1 t2 E
  have w2 := w.mul h1 w (room (by decide) (by linarith) (by linarith))
  have x2 := x.mul h1 x (room (by decide) (by linarith) (by linarith))
  have y2 := y.mul h1 y (room (by decide) (by linarith) (by linarith))
  have z2 := z.mul h1 z (room (by decide) (by linarith) (by linarith))
  have wx := w.mul h1 x (room (by decide) (by linarith) (by linarith))
  have wy := w.mul h1 y (room (by decide) (by linarith) (by linarith))
  have wz := w.mul h1 z (room (by decide) (by linarith) (by linarith))
  have xy := x.mul h1 y (room (by decide) (by linarith) (by linarith))
  have xz := x.mul h1 z (room (by decide) (by linarith) (by linarith))
  have yz := y.mul h1 z (room (by decide) (by linarith) (by linarith))
  have m00 := ((w2.add h1 x2 (room (by decide) (by linarith) (by linarith))).sub h1 y2 (room (by decide) (by linarith) (by linarith))).sub h1 z2
    (room (by decide) (by linarith) (by linarith))
  have m11 := ((w2.sub h1 x2 (room (by decide) (by linarith) (by linarith))).add h1 y2 (room (by decide) (by linarith) (by linarith))).sub h1 z2
    (room (by decide) (by linarith) (by linarith))
  have m22 := ((w2.sub h1 x2 (room (by decide) (by linarith) (by linarith))).sub h1 y2 (room (by decide) (by linarith) (by linarith))).add h1 z2
    (room (by decide) (by linarith) (by linarith))
  have m01 := two.mul h1 (xy.sub h1 wz (room (by decide) (by linarith) (by linarith))) (room (by decide) (by linarith) (by linarith))
  have m02 := two.mul h1 (xz.add h1 wy (room (by decide) (by linarith) (by linarith))) (room (by decide) (by linarith) (by linarith))
  have m10 := two.mul h1 (xy.add h1 wz (room (by decide) (by linarith) (by linarith))) (room (by decide) (by linarith) (by linarith))
  have m12 := two.mul h1 (yz.sub h1 wx (room (by decide) (by linarith) (by linarith))) (room (by decide) (by linarith) (by linarith))
  have m20 := two.mul h1 (xz.sub h1 wy (room (by decide) (by linarith) (by linarith))) (room (by decide) (by linarith) (by linarith))
  have m21 := two.mul h1 (yz.add h1 wx (room (by decide) (by linarith) (by linarith))) (room (by decide) (by linarith) (by linarith))
  have hr (i j : Fin 3) : Spec.hrot (Spec.fhval q) i j = rotMat (rq (Spec.fhval q)) i j := by rw [hrot_rotMat]
  have f00 := m00.conv (k := 4) (A' := Spec.hrot (Spec.fhval q) 0 0) (m' := N + 5 * F.tiny) (M' := N + 5 * F.tiny) (S' := Spec.QFinite q)
    (by decide) (by rw [hr]; simp [rotMat, rq, Spec.fhval] <;> ring) (by linarith) (by linarith) (by unfold Spec.QFinite; grind)
  have f01 := m01.conv (k := 4) (A' := Spec.hrot (Spec.fhval q) 0 1) (m' := N + 5 * F.tiny) (M' := N + 5 * F.tiny) (S' := Spec.QFinite q)
    (by decide) (by rw [hr]; simp [rotMat, rq, Spec.fhval] <;> ring) (by linarith) (by linarith) (by unfold Spec.QFinite; grind)
  have f02 := m02.conv (k := 4) (A' := Spec.hrot (Spec.fhval q) 0 2) (m' := N + 5 * F.tiny) (M' := N + 5 * F.tiny) (S' := Spec.QFinite q)
    (by decide) (by rw [hr]; simp [rotMat, rq, Spec.fhval] <;> ring) (by linarith) (by linarith) (by unfold Spec.QFinite; grind)
  have f10 := m10.conv (k := 4) (A' := Spec.hrot (Spec.fhval q) 1 0) (m' := N + 5 * F.tiny) (M' := N + 5 * F.tiny) (S' := Spec.QFinite q)
    (by decide) (by rw [hr]; simp [rotMat, rq, Spec.fhval] <;> ring) (by linarith) (by linarith) (by unfold Spec.QFinite; grind)
  have f11 := m11.conv (k := 4) (A' := Spec.hrot (Spec.fhval q) 1 1) (m' := N + 5 * F.tiny) (M' := N + 5 * F.tiny) (S' := Spec.QFinite q)
    (by decide) (by rw [hr]; simp [rotMat, rq, Spec.fhval] <;> ring) (by linarith) (by linarith) (by unfold Spec.QFinite; grind)
  have f12 := m12.conv (k := 4) (A' := Spec.hrot (Spec.fhval q) 1 2) (m' := N + 5 * F.tiny) (M' := N + 5 * F.tiny) (S' := Spec.QFinite q)
    (by decide) (by rw [hr]; simp [rotMat, rq, Spec.fhval] <;> ring) (by linarith) (by linarith) (by unfold Spec.QFinite; grind)
  have f20 := m20.conv (k := 4) (A' := Spec.hrot (Spec.fhval q) 2 0) (m' := N + 5 * F.tiny) (M' := N + 5 * F.tiny) (S' := Spec.QFinite q)
    (by decide) (by rw [hr]; simp [rotMat, rq, Spec.fhval] <;> ring) (by linarith) (by linarith) (by unfold Spec.QFinite; grind)
  have f21 := m21.conv (k := 4) (A' := Spec.hrot (Spec.fhval q) 2 1) (m' := N + 5 * F.tiny) (M' := N + 5 * F.tiny) (S' := Spec.QFinite q)
    (by decide) (by rw [hr]; simp [rotMat, rq, Spec.fhval] <;> ring) (by linarith) (by linarith) (by unfold Spec.QFinite; grind)
  have f22 := m22.conv (k := 4) (A' := Spec.hrot (Spec.fhval q) 2 2) (m' := N + 5 * F.tiny) (M' := N + 5 * F.tiny) (S' := Spec.QFinite q)
    (by decide) (by rw [hr]; simp [rotMat, rq, Spec.fhval] <;> ring) (by linarith) (by linarith) (by unfold Spec.QFinite; grind)
  unfold Quat.getRotationMatrixTo
  simp only [Mat.atSet_lt cfg _ _ g0 g0, Mat.atSet_lt cfg _ _ g0 g1, Mat.atSet_lt cfg _ _ g0 g2, Mat.atSet_lt cfg _ _ g1 g0,
    Mat.atSet_lt cfg _ _ g1 g1, Mat.atSet_lt cfg _ _ g1 g2, Mat.atSet_lt cfg _ _ g2 g0, Mat.atSet_lt cfg _ _ g2 g1,
    Mat.atSet_lt cfg _ _ g2 g2, bind_ok]
  refine ⟨_, rfl, ?_, ?_⟩
  · have fin {a b : Fp F} {V : ℝ} (e : b = a) (f : FBoth H (Spec.QFinite q) 4 a V (N + 5 * F.tiny) (N + 5 * F.tiny)) :
        (b.Finite → Spec.QFinite q ∧ |b.val - V| ≤ Spec.rotErr F N) ∧ (Spec.QFinite q → (1 + F.u) ^ 4 * (N + 5 * F.tiny) ≤ F.maxFinite → b.Finite) := by
      subst e
      exact ⟨fun h => ⟨(f.approx h).1, (f.approx h).2.err⟩, fun c1 c2 => (f.bound ⟨c1, c2⟩).finite⟩
    intro i j
    fin_cases i <;> fin_cases j
    · exact fin (by simp [Mat.get_put, Fin.ext_iff]) f00
    · exact fin (by simp [Mat.get_put, Fin.ext_iff]) f01
    · exact fin (by simp [Mat.get_put, Fin.ext_iff]) f02
    · exact fin (by simp [Mat.get_put, Fin.ext_iff]) f10
    · exact fin (by simp [Mat.get_put, Fin.ext_iff]) f11
    · exact fin (by simp [Mat.get_put, Fin.ext_iff]) f12
    · exact fin (by simp [Mat.get_put, Fin.ext_iff]) f20
    · exact fin (by simp [Mat.get_put, Fin.ext_iff]) f21
    · exact fin (by simp [Mat.get_put, Fin.ext_iff]) f22
  · intro i j hij
    simp only [Mat.get_put, Fin.ext_iff]
    repeat rw [if_neg (by omega)]

theorem hrot_det {Q : Quaternion ℝ} (h : ‖Q‖ = 1) : (Spec.hrot Q).det = 1 := by
  rw [hrot_rotMat, rotMat_det, rq_sq, h]; simp

/-- **C115** `get_rotation_matrix()` of a quaternion of length about 1 is close to the rotation by the exactly normalised quaternion, in the Frobenius norm. -/
theorem C115_rotation (h0 : 1 < F.emax) (cfg : Cfg) (q : Quat (Fp F)) (hq : Spec.QFinite q) (hne : Spec.fhval q ≠ 0)
    (hroom : (1 + F.u) ^ 4 * (‖Spec.fhval q‖ ^ 2 + 5 * F.tiny) ≤ F.maxFinite) :
    let R := Spec.hrot (‖Spec.fhval q‖⁻¹ • Spec.fhval q)
    R * R.transpose = 1 ∧ R.det = 1 ∧
    ∃ m, q.getRotationMatrix cfg = .ok m ∧ (∀ i j, (m.get i j).Finite) ∧
      Spec.frob (Spec.fvals m - R) ≤ 3 * Spec.rotErr F (‖Spec.fhval q‖ ^ 2) + Real.sqrt 3 * |‖Spec.fhval q‖ ^ 2 - 1| := by
  intro R
  have hu := u_pos (F := F)
  have ht := F.tiny_pos
  have hpos : 0 < ‖Spec.fhval q‖ := norm_pos_iff.2 hne
  have hone : ‖‖Spec.fhval q‖⁻¹ • Spec.fhval q‖ = 1 := by rw [norm_smul, norm_inv, norm_norm, inv_mul_cancel₀ hpos.ne']
  have hR := hrot_orthogonal hone
  refine ⟨hR, hrot_det hone, ?_⟩
  unfold Quat.getRotationMatrix
  rw [Mat.ctor_eq, bind_ok]
  obtain ⟨r, h1, h2, -⟩ := C115_block (F := F) le_rfl h0 cfg q (Mat.ofFn fun r c => if 3 = 3 ∧ r.1 = c.1 then 1 else 0)
  have hf (i j : Fin 3) : (r.get i j).Finite := (h2 i j).2 hq hroom
  refine ⟨r, h1, hf, ?_⟩
  have hE0 : 0 ≤ Spec.rotErr F (‖Spec.fhval q‖ ^ 2) := by
    unfold Spec.rotErr
    have : (1 : ℝ) ≤ (1 + F.u) ^ 4 := one_le_pow₀ (by linarith)
    exact mul_nonneg (by linarith) (by positivity)
  have e1 : Spec.frob (Spec.fvals r - Spec.hrot (Spec.fhval q)) ≤ 3 * Spec.rotErr F (‖Spec.fhval q‖ ^ 2) := by
    have := frob_const (N := 3) hE0
    push_cast at this
    rw [← this]
    exact frob_mono fun i j => ((h2 i j).1 (hf i j)).2
  have e2 : Spec.frob (Spec.hrot (Spec.fhval q) - R) = Real.sqrt 3 * |‖Spec.fhval q‖ ^ 2 - 1| := by
    have e3 : Spec.frob (Spec.hrot (Spec.fhval q) - R) = Spec.frob (fun i j => |‖Spec.fhval q‖ ^ 2 - 1| * R i j) := by
      unfold Spec.frob
      congr 1
      refine Finset.sum_congr rfl fun i _ => Finset.sum_congr rfl fun j _ => ?_
      have e4 : Spec.hrot (Spec.fhval q) i j = ‖Spec.fhval q‖ ^ 2 * R i j := by
        show _ = _ * Spec.hrot (‖Spec.fhval q‖⁻¹ • Spec.fhval q) i j
        rw [hrot_smul]
        field_simp
      show (Spec.hrot (Spec.fhval q) i j - R i j) ^ 2 = (|‖Spec.fhval q‖ ^ 2 - 1| * R i j) ^ 2
      rw [e4, mul_pow, sq_abs]
      ring
    rw [e3, frob_smul (abs_nonneg _), frob_orthogonal hR]
    push_cast
    ring
  have e5 : Spec.fvals r - R = (Spec.fvals r - Spec.hrot (Spec.fhval q)) + (Spec.hrot (Spec.fhval q) - R) := by abel
  rw [e5]
  refine (frob_add _ _).trans ?_
  rw [e2]
  linarith

private theorem small4 (hp : 14 ≤ F.p) : F.u ≤ 1 / 32768 ∧ (1 + F.u) ^ 4 - 1 ≤ 5 * F.u := by
  have h : F.u ≤ 1 / 32768 := by
    unfold u
    calc (2 : ℝ)⁻¹ ^ (F.p + 1) ≤ (2 : ℝ)⁻¹ ^ 15 := pow_le_pow_of_le_one (by norm_num) (by norm_num) (by omega)
      _ = _ := by norm_num
  refine ⟨h, ?_⟩
  have hu := u_pos (F := F)
  have h9 := pow_le_gamma hu.le 4 (by push_cast; linarith)
  refine h9.trans ?_
  unfold Spec.gamma
  push_cast
  rw [div_le_iff₀ (by linarith)]
  nlinarith

/-- **C115** Formats with at least 14 digits, a quaternion whose length is within `δ ≤ 1/4` of 1: the matrix is within `45 u + 4 δ` of a rotation. -/
theorem C115_near_rotation (hp : 14 ≤ F.p) (he : F.p < F.emax) (cfg : Cfg) (q : Quat (Fp F)) (hq : Spec.QFinite q) {δ : ℝ} (hδ4 : δ ≤ 1 / 4)
    (hn : |‖Spec.fhval q‖ - 1| ≤ δ) :
    ∃ m, q.getRotationMatrix cfg = .ok m ∧ (∀ i j, (m.get i j).Finite) ∧
      ∃ R : Matrix (Fin 3) (Fin 3) ℝ, R * R.transpose = 1 ∧ R.det = 1 ∧ Spec.frob (Spec.fvals m - R) ≤ 45 * F.u + 4 * δ := by
  obtain ⟨h, hk⟩ := small4 hp
  have hu := u_pos (F := F)
  have ht := F.tiny_pos
  have hδ : 0 ≤ δ := (abs_nonneg _).trans hn
  have htiny : F.tiny ≤ 1 / 4 := by
    unfold Format.tiny
    calc (2 : ℝ) ^ F.emin ≤ (2 : ℝ) ^ (-2 : Int) := zpow_le_zpow_right₀ (by norm_num) (by unfold emin; omega)
      _ = _ := by norm_num
  have n1 := abs_le.1 hn
  have hsq : ‖Spec.fhval q‖ ^ 2 ≤ 25 / 16 := by
    have := pow_le_pow_left₀ (norm_nonneg _) (show ‖Spec.fhval q‖ ≤ 5 / 4 by linarith [n1.2]) 2
    linarith
  have hmax : 64 ≤ F.maxFinite := by
    unfold maxFinite
    have h1 : (2 : ℝ) ^ (F.p + 1) - 1 ≥ (2 : ℝ) ^ F.p := by
      have : (1 : ℝ) ≤ (2 : ℝ) ^ F.p := one_le_pow₀ (by norm_num)
      rw [pow_succ]; linarith
    calc (64 : ℝ) = (2 : ℝ) ^ (6 : Int) := by norm_num
      _ ≤ (2 : ℝ) ^ (F.emax : Int) := zpow_le_zpow_right₀ (by norm_num) (by omega)
      _ = (2 : ℝ) ^ F.p * (2 : ℝ) ^ ((F.emax : Int) - F.p) := by rw [← zpow_natCast, ← zpow_add₀ (by norm_num)]; congr 1; ring
      _ ≤ _ := mul_le_mul_of_nonneg_right h1 (by positivity)
  obtain ⟨h1, h2, m, h3, h4, h5⟩ := C115_rotation (F := F) (by omega) cfg q hq (by
      intro hc
      rw [hc, norm_zero] at n1
      linarith [n1.1]) (by
    refine le_trans (mul_le_mul (show (1 + F.u) ^ 4 ≤ 1.1 by linarith) (show ‖Spec.fhval q‖ ^ 2 + 5 * F.tiny ≤ 3 by linarith) (by positivity) (by norm_num)) ?_
    linarith)
  refine ⟨m, h3, h4, _, h1, h2, h5.trans ?_⟩
  have a1 : Spec.rotErr F (‖Spec.fhval q‖ ^ 2) ≤ 5 * F.u * 3 := by
    unfold Spec.rotErr
    exact mul_le_mul hk (by linarith) (by positivity) (by linarith)
  have a2 : Real.sqrt 3 ≤ 16 / 9 := by rw [Real.sqrt_le_left (by norm_num)]; norm_num
  have a3 : |‖Spec.fhval q‖ ^ 2 - 1| ≤ 9 / 4 * δ := by
    have e : ‖Spec.fhval q‖ ^ 2 - 1 = (‖Spec.fhval q‖ - 1) * (‖Spec.fhval q‖ + 1) := by ring
    rw [e, abs_mul, abs_of_nonneg (show 0 ≤ ‖Spec.fhval q‖ + 1 by positivity), mul_comm]
    exact mul_le_mul (by linarith [n1.2]) hn (abs_nonneg _) (by norm_num)
  have a4 := mul_le_mul a2 a3 (abs_nonneg _) (by norm_num)
  linarith

/-- **C115** The orientation of an animated object: any number of quaternion products, each followed by a normalisation, then the matrix. It is within `93 u`
of a rotation however long the history. -/
theorem C115_history {D : Format} (hD : Spec.Wider F D) (hp : 14 ≤ F.p) (he : F.p < F.emax) (cfg : Cfg) (as : List (Quat (Fp F)))
    (has : ∀ a ∈ as, Spec.QFinite a ∧ |‖Spec.fhval a‖ - 1| ≤ 1 / 4) (r : Quat (Fp F)) (hr : Spec.QFinite r) (hrn : |‖Spec.fhval r‖ - 1| ≤ 12 * F.u) :
    ∃ m, (as.foldl (fun m a => (m.mul (Fp.half D) a).normalize.1) r).getRotationMatrix cfg = .ok m ∧ (∀ i j, (m.get i j).Finite) ∧
      ∃ R : Matrix (Fin 3) (Fin 3) ℝ, R * R.transpose = 1 ∧ R.det = 1 ∧ Spec.frob (Spec.fvals m - R) ≤ 93 * F.u := by
  obtain ⟨h, -⟩ := small4 hp
  obtain ⟨h1, h2⟩ := C114_renormalized hD hp he as has r hr hrn
  obtain ⟨m, m1, m2, R, m3, m4, m5⟩ := C115_near_rotation hp he cfg _ h1 (by linarith) h2
  exact ⟨m, m1, m2, R, m3, m4, m5.trans (by linarith)⟩

/-- Non-vacuity: the matrix of the `float` quaternion `( 0, 0, 1, 1 ) / √2`, stored as `181/256` twice (length 0.99989...), is within `0.01` of a rotation. -/
example (cfg : Cfg) (c : Fp single) (hc : c.Finite ∧ c.val = 181 / 256) :
    ∃ m, (⟨0, 0, c, c⟩ : Quat (Fp single)).getRotationMatrix cfg = .ok m ∧
      ∃ R : Matrix (Fin 3) (Fin 3) ℝ, R * R.transpose = 1 ∧ R.det = 1 ∧ Spec.frob (Spec.fvals m - R) ≤ 1 / 100 := by
  have hn : ‖Spec.fhval (⟨0, 0, c, c⟩ : Quat (Fp single))‖ ^ 2 = 2 * (181 / 256) ^ 2 := by
    rw [hnorm_sq]; simp only [Spec.fhval, hc.2, Fp.val_zero]; norm_num
  have h1 : ‖Spec.fhval (⟨0, 0, c, c⟩ : Quat (Fp single))‖ ≤ 1 := by
    apply le_of_sq_le_sq _ (by norm_num); rw [hn]; norm_num
  have h2 : 999 / 1000 ≤ ‖Spec.fhval (⟨0, 0, c, c⟩ : Quat (Fp single))‖ := by
    apply le_of_sq_le_sq _ (norm_nonneg _); rw [hn]; norm_num
  obtain ⟨m, m1, -, R, m3, m4, m5⟩ := C115_near_rotation (F := single) (by norm_num) (by norm_num) cfg ⟨0, 0, c, c⟩ ⟨hc.1, trivial, trivial, hc.1⟩
    (δ := 1 / 1000) (by norm_num) (by rw [abs_le]; constructor <;> linarith)
  refine ⟨m, m1, R, m3, m4, m5.trans ?_⟩
  have : single.u ≤ 1 / 32768 := (small4 (by norm_num)).1
  linarith

end Vmml
