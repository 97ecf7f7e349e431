import Verif.Props.FloatInverse

/-!
# C149: the computed inverse undoes the matrix, in IEEE 754 arithmetic
-/

namespace Vmml
open Format
variable {F : Format} {K : Nat}

/-- The error of an entry of the computed inverse (C110), for a matrix `A` with entries bounded by `B` and the tolerance `t`. -/
noncomputable def Spec.invErr (F : Format) (A : Matrix (Fin (K + 1)) (Fin (K + 1)) ℝ) (B t : ℝ) (i j : Fin (K + 1)) : ℝ :=
  Spec.fadjErr F A B t i j + Spec.fdetErr F A B * |A⁻¹ i j| / t

private theorem accErr_mono {n : Nat} (hn : n * F.u < 1) {S S' : ℝ} (h : S ≤ S') : Spec.accErr F n S ≤ Spec.accErr F n S' := by
  have hu := u_pos (F := F)
  have : 0 < 1 - (n : ℝ) * F.u := by linarith
  unfold Spec.accErr
  gcongr

private theorem sum_near {n : Nat} {a b c E : Fin n → ℝ} (h : ∀ k, |b k - c k| ≤ E k) :
    |∑ k, a k * b k - ∑ k, a k * c k| ≤ ∑ k, |a k| * E k := by
  rw [← Finset.sum_sub_distrib]
  refine (Finset.abs_sum_le_sum_abs _ _).trans (Finset.sum_le_sum fun k _ => ?_)
  rw [← mul_sub, abs_mul]
  exact mul_le_mul_of_nonneg_left (h k) (abs_nonneg _)

variable (h0 : 0 < F.emax) (hu : 4 * F.u < 1) (cfg : Cfg) (hK : 1 ≤ K) (hK' : K ≤ 3) (m inv r : Mat (K + 1) (K + 1) (Fp F)) (tol : Fp F) (htol : tol.Finite)
  {B : ℝ} (h1 : 1 ≤ B) (hB : ∀ i j, |(m.get i j).val| ≤ B) (hr : Spec.InRange m B (Spec.invDepth (K + 1))) (ht : Spec.fdetErr F (Spec.fvals m) B < tol.val)
  (hrun : m.inverse cfg inv tol = .ok (true, r))
include h0 hu hK hK' htol h1 hB hr ht hrun

/-- C149. The computed product of a matrix with its computed inverse is the identity up to the errors of the inverse, times the entries of the matrix, and the error of the
product. -/
theorem C149_right_product :
    ∃ p, m.mul cfg r = .ok p ∧ ∀ i j, (p.get i j).Finite → |(p.get i j).val - (1 : Matrix _ _ ℝ) i j| ≤
      ∑ k, |(m.get i k).val| * Spec.invErr F (Spec.fvals m) B tol.val k j +
        Spec.accErr F (K + 1) (∑ k, |(m.get i k).val| * (|(Spec.fvals m)⁻¹ k j| + Spec.invErr F (Spec.fvals m) B tol.val k j)) := by
  have hKu : ((K + 1 : ℕ) : ℝ) * F.u < 1 := by
    have : ((K + 1 : ℕ) : ℝ) ≤ 4 := by exact_mod_cast Nat.succ_le_succ hK'
    have := mul_le_mul_of_nonneg_right this (u_pos (F := F)).le
    linarith
  obtain ⟨e1, e2, -⟩ := C110_error h0 cfg hK hK' m inv r tol htol h1 hB hr ht hrun
  obtain ⟨p, hp, h⟩ := C108_matrix_product h0 cfg m r hKu
  refine ⟨p, hp, fun i j hf => ?_⟩
  obtain ⟨f1, f2⟩ := (h i j).1 hf
  have hE : ∀ k, |(r.get k j).val - (Spec.fvals m)⁻¹ k j| ≤ Spec.invErr F (Spec.fvals m) B tol.val k j := fun k => e2 k j (f1 k).2
  have s1 := sum_near (a := fun k => (m.get i k).val) hE
  have s2 : ∑ k, (m.get i k).val * (Spec.fvals m)⁻¹ k j = (1 : Matrix _ _ ℝ) i j := by
    rw [← Matrix.mul_nonsing_inv (Spec.fvals m) (isUnit_iff_ne_zero.2 e1), Matrix.mul_apply]; rfl
  rw [s2] at s1
  have s3 : ∑ k, |(m.get i k).val * (r.get k j).val| ≤ ∑ k, |(m.get i k).val| * (|(Spec.fvals m)⁻¹ k j| + Spec.invErr F (Spec.fvals m) B tol.val k j) := by
    refine Finset.sum_le_sum fun k _ => ?_
    rw [abs_mul]
    refine mul_le_mul_of_nonneg_left ?_ (abs_nonneg _)
    have := abs_sub_abs_le_abs_sub (r.get k j).val ((Spec.fvals m)⁻¹ k j)
    linarith [hE k]
  have s4 := accErr_mono hKu s3
  have := abs_sub_le (p.get i j).val (∑ k, (m.get i k).val * (r.get k j).val) ((1 : Matrix _ _ ℝ) i j)
  linarith

/-- C149. The product in the other order. -/
theorem C149_left_product :
    ∃ p, r.mul cfg m = .ok p ∧ ∀ i j, (p.get i j).Finite → |(p.get i j).val - (1 : Matrix _ _ ℝ) i j| ≤
      ∑ k, |(m.get k j).val| * Spec.invErr F (Spec.fvals m) B tol.val i k +
        Spec.accErr F (K + 1) (∑ k, |(m.get k j).val| * (|(Spec.fvals m)⁻¹ i k| + Spec.invErr F (Spec.fvals m) B tol.val i k)) := by
  have hKu : ((K + 1 : ℕ) : ℝ) * F.u < 1 := by
    have : ((K + 1 : ℕ) : ℝ) ≤ 4 := by exact_mod_cast Nat.succ_le_succ hK'
    have := mul_le_mul_of_nonneg_right this (u_pos (F := F)).le
    linarith
  obtain ⟨e1, e2, -⟩ := C110_error h0 cfg hK hK' m inv r tol htol h1 hB hr ht hrun
  obtain ⟨p, hp, h⟩ := C108_matrix_product h0 cfg r m hKu
  refine ⟨p, hp, fun i j hf => ?_⟩
  obtain ⟨f1, f2⟩ := (h i j).1 hf
  have hE : ∀ k, |(r.get i k).val - (Spec.fvals m)⁻¹ i k| ≤ Spec.invErr F (Spec.fvals m) B tol.val i k := fun k => e2 i k (f1 k).1
  have s1 := sum_near (a := fun k => (m.get k j).val) hE
  simp only [mul_comm (m.get _ j).val] at s1
  have s2 : ∑ k, (Spec.fvals m)⁻¹ i k * (m.get k j).val = (1 : Matrix _ _ ℝ) i j := by
    rw [← Matrix.nonsing_inv_mul (Spec.fvals m) (isUnit_iff_ne_zero.2 e1), Matrix.mul_apply]; rfl
  rw [s2] at s1
  have s3 : ∑ k, |(r.get i k).val * (m.get k j).val| ≤ ∑ k, |(m.get k j).val| * (|(Spec.fvals m)⁻¹ i k| + Spec.invErr F (Spec.fvals m) B tol.val i k) := by
    refine Finset.sum_le_sum fun k _ => ?_
    rw [abs_mul, mul_comm]
    refine mul_le_mul_of_nonneg_left ?_ (abs_nonneg _)
    have := abs_sub_abs_le_abs_sub (r.get i k).val ((Spec.fvals m)⁻¹ i k)
    linarith [hE k]
  have s4 := accErr_mono hKu s3
  have := abs_sub_le (p.get i j).val (∑ k, (r.get i k).val * (m.get k j).val) ((1 : Matrix _ _ ℝ) i j)
  linarith

/-- C149. Transforming a vector and transforming it back: every component returns up to the rounding error `e` of the first product, magnified by the inverse, the error of the
inverse, magnified by the transformed vector, and the rounding error of the second product. -/
theorem C149_round_trip (v : Vec (K + 1) (Fp F)) :
    let e : Fin (K + 1) → ℝ := fun j => Spec.accErr F (K + 1) (∑ k : Fin (K + 1), |(m.get j k).val * v[k].val|)
    let R : Fin (K + 1) → Fin (K + 1) → ℝ := fun i j => |(Spec.fvals m)⁻¹ i j| + Spec.invErr F (Spec.fvals m) B tol.val i j
    let W : Fin (K + 1) → ℝ := fun j => |∑ k : Fin (K + 1), (m.get j k).val * v[k].val|
    ∃ w x, m.mulVec cfg v = .ok w ∧ r.mulVec cfg w = .ok x ∧ ∀ i : Fin (K + 1), x[i].Finite →
      |x[i].val - v[i].val| ≤ ∑ j, R i j * e j + ∑ j, W j * Spec.invErr F (Spec.fvals m) B tol.val i j +
        Spec.accErr F (K + 1) (∑ j, R i j * (W j + e j)) := by
  intro e R W
  have hKu : ((K + 1 : ℕ) : ℝ) * F.u < 1 := by
    have : ((K + 1 : ℕ) : ℝ) ≤ 4 := by exact_mod_cast Nat.succ_le_succ hK'
    have := mul_le_mul_of_nonneg_right this (u_pos (F := F)).le
    linarith
  obtain ⟨e1, e2, -⟩ := C110_error h0 cfg hK hK' m inv r tol htol h1 hB hr ht hrun
  obtain ⟨w, hw, hw2⟩ := C108_matrix_vector h0 cfg m v hKu
  obtain ⟨x, hx, hx2⟩ := C108_matrix_vector h0 cfg r w hKu
  refine ⟨w, x, hw, hx, fun i hf => ?_⟩
  obtain ⟨f1, f2⟩ := (hx2 i).1 hf
  have hE : ∀ k, |(r.get i k).val - (Spec.fvals m)⁻¹ i k| ≤ Spec.invErr F (Spec.fvals m) B tol.val i k := fun k => e2 i k (f1 k).1
  have hR : ∀ k, |(r.get i k).val| ≤ R i k := fun k => by
    have := abs_sub_abs_le_abs_sub (r.get i k).val ((Spec.fvals m)⁻¹ i k)
    show _ ≤ _ + _
    linarith [hE k]
  have hW : ∀ j : Fin (K + 1), |w[j].val - ∑ k : Fin (K + 1), (m.get j k).val * v[k].val| ≤ e j := fun j => ((hw2 j).1 (f1 j).2).2
  -- the three parts
  obtain ⟨y, hy⟩ : ∃ y : Fin (K + 1) → ℝ, y = fun j => ∑ k : Fin (K + 1), (m.get j k).val * v[k].val := ⟨_, rfl⟩
  have hWy : ∀ j : Fin (K + 1), |w[j].val - y j| ≤ e j := fun j => by rw [hy]; exact hW j
  have s0 : ∑ j, (Spec.fvals m)⁻¹ i j * y j = v[i].val := by
    have : (Spec.fvals m)⁻¹.mulVec ((Spec.fvals m).mulVec fun k : Fin (K + 1) => v[k].val) = fun k : Fin (K + 1) => v[k].val := by
      rw [Matrix.mulVec_mulVec, Matrix.nonsing_inv_mul (Spec.fvals m) (isUnit_iff_ne_zero.2 e1), Matrix.one_mulVec]
    have := congrFun this i
    rw [hy]
    exact this
  have s1 : |∑ j : Fin (K + 1), (r.get i j).val * w[j].val - ∑ j, (r.get i j).val * y j| ≤ ∑ j, R i j * e j :=
    (sum_near (a := fun j => (r.get i j).val) hWy).trans (Finset.sum_le_sum fun j _ =>
      mul_le_mul_of_nonneg_right (hR j) ((abs_nonneg _).trans (hWy j)))
  have s2 : |∑ j, (r.get i j).val * y j - v[i].val| ≤ ∑ j, W j * Spec.invErr F (Spec.fvals m) B tol.val i j := by
    have := sum_near (a := y) hE
    simp only [mul_comm (y _)] at this
    rw [s0] at this
    refine this.trans (le_of_eq ?_)
    rw [hy]
  have s3 : ∑ j : Fin (K + 1), |(r.get i j).val * w[j].val| ≤ ∑ j, R i j * (W j + e j) := by
    refine Finset.sum_le_sum fun j _ => ?_
    rw [abs_mul]
    refine mul_le_mul (hR j) ?_ (abs_nonneg _) ((abs_nonneg _).trans (hR j))
    have h3 := abs_sub_abs_le_abs_sub w[j].val (y j)
    have h4 : |y j| = W j := by rw [hy]
    linarith [hWy j]
  have s4 := accErr_mono hKu s3
  have a1 := abs_sub_le x[i].val (∑ j : Fin (K + 1), (r.get i j).val * w[j].val) v[i].val
  have a2 := abs_sub_le (∑ j : Fin (K + 1), (r.get i j).val * w[j].val) (∑ j, (r.get i j).val * y j) v[i].val
  linarith

/-! ## A concrete case -/

omit h0 hu hK hK' htol h1 hB hr ht hrun in
/-- `diag( 2, 2 )` in `double` with the tolerance 1 is inverted, and meets the hypotheses of the three theorems. -/
example (cfg : Cfg) (inv : Mat 2 2 (Fp .double)) (v : Vec 2 (Fp .double)) :
    let m : Mat 2 2 (Fp .double) := Mat.ofFn fun i j => if i = j then .fin false ((2 : ℝ) ^ 1) (mag_pow 1 (by decide) (by decide)) else 0
    ∃ r p w x, m.inverse cfg inv 1 = .ok (true, r) ∧ m.mul cfg r = .ok p ∧ m.mulVec cfg v = .ok w ∧ r.mulVec cfg w = .ok x := by
  intro m
  obtain ⟨⟨r, hr⟩, hin, hd⟩ := Witness.inverse_two cfg inv
  have hu : 4 * (Format.double).u < 1 := by norm_num [u]
  have h0 : 0 < (Format.double).emax := by norm_num
  have hB : ∀ i j, |(m.get i j).val| ≤ 2 := by
    intro i j
    simp only [m, Mat.get_ofFn]
    split_ifs <;> simp
  obtain ⟨p, hp, -⟩ := C149_right_product h0 hu cfg (K := 1) le_rfl (by omega) m inv r 1 (Fp.one_fin h0).1 (B := 2) (by norm_num) hB hin hd hr
  obtain ⟨w, x, hw, hx, -⟩ := C149_round_trip h0 hu cfg (K := 1) le_rfl (by omega) m inv r 1 (Fp.one_fin h0).1 (B := 2) (by norm_num) hB hin hd hr v
  exact ⟨r, p, w, x, hr, hp, hw, hx⟩

end Vmml
