import Verif.Model.Util
import Verif.Props.MatrixTransform
import Mathlib.Tactic.Linarith
import Mathlib.Tactic.Positivity

/-!
# C78, C79: util.hpp and math.hpp
-/

namespace Vmml
open Util Mat
variable {M : Nat} {α : Type}

/-! ## C78 -/

private theorem createTranslation_toMat [Field α] (cfg : Cfg) (t : Vec 3 α) :
    ∃ T, createTranslation cfg t = .ok T ∧ T.toMat = Matrix.of ![![(1 : α), 0, 0, t[0]], ![0, 1, 0, t[1]], ![0, 0, 1, t[2]], ![0, 0, 0, 1]] := by
  refine ⟨_, by simp only [createTranslation, ctor_eq, bind_ok, identity_eq, pure_ok]; rfl, ?_⟩
  ext r c
  rw [toMat_apply, setTranslation_get]
  fin_cases r <;> fin_cases c <;> simp

/-- **C78** `create_translation( t )` is the matrix that moves every point `p` to `p + t`. -/
theorem C78_translation [Field α] (cfg : Cfg) (t : Vec 3 α) :
    ∃ T, createTranslation cfg t = .ok T ∧ ∀ p : Vec 3 α, T.mulVecHom cfg p = p.add cfg t := by
  obtain ⟨T, h1, h2⟩ := createTranslation_toMat cfg t
  refine ⟨T, h1, fun p => ?_⟩
  rw [mulVecHom_eq, Vec.add_eq]
  congr 1
  apply vec3_ext <;> simp [homRow, h2, -toMat_apply, Fin.sum_univ_three, Fin.last]

/-- **C78** `create_rotation( θ, n )` with a unit axis is the rigid motion that rotates every point about `n` (as `Vector::rotate` does). -/
theorem C78_rotation (cfg : Cfg) (θ : ℝ) (n : Vec 3 ℝ) (hn : Spec.IsUnit3 fun i => n[i]) :
    ∃ T, createRotation cfg θ n = .ok T ∧ Spec.Rigid T.toMat ∧ T.toMat = Spec.rotAxis (fun i => n[i]) θ ∧
      ∀ p : Vec 3 ℝ, T.mulVecHom cfg p = p.rotate cfg θ n :=
  ⟨_, by simp only [createRotation, ctor_eq, bind_ok, identity_eq, pure_ok]; rfl, (C36_rotation _ θ n hn).1, rotate_toMat _ _ _,
    fun p => C36_vector_rotate cfg _ θ n p hn⟩

private theorem createScaling_toMat [Field α] (cfg : Cfg) (s : Vec 3 α) :
    ∃ T, createScaling cfg s = .ok T ∧ T.toMat = Matrix.diagonal ![s[0], s[1], s[2], 1] := by
  refine ⟨_, by simp only [createScaling, ctor_eq, bind_ok, identity_eq, pure_ok]; rfl, ?_⟩
  rw [(C38_scale _ s 0 0 0).1]
  have : (ofFn fun r c => if r = c then (1 : α) else 0 : Mat 4 4 α).toMat = 1 := by
    ext r c; simp [Matrix.one_apply]
  rw [this, one_mul]

/-- **C78** `create_scaling( s )` multiplies every point componentwise by `s`; the scalar overload multiplies by the scalar. -/
theorem C78_scaling [Field α] (cfg : Cfg) (s : Vec 3 α) (k : α) :
    (∃ T, createScaling cfg s = .ok T ∧ ∀ p : Vec 3 α, T.mulVecHom cfg p = p.mul cfg s) ∧
    (∃ T, createScalingS cfg k = .ok T ∧ ∀ p : Vec 3 α, T.mulVecHom cfg p = p.mulS cfg k) := by
  constructor
  · obtain ⟨T, h1, h2⟩ := createScaling_toMat cfg s
    refine ⟨T, h1, fun p => ?_⟩
    rw [mulVecHom_eq, Vec.mul_eq]
    congr 1
    apply vec3_ext <;> simp [homRow, h2, -toMat_apply, Fin.sum_univ_three, Fin.last, Matrix.diagonal, mul_comm]
  · obtain ⟨T, h1, h2⟩ := createScaling_toMat cfg (Vector.replicate 3 k)
    refine ⟨T, by simp only [createScalingS, Vec.fill_eq, bind_ok, h1], fun p => ?_⟩
    rw [mulVecHom_eq, Vec.mulS_eq]
    congr 1
    apply vec3_ext <;> simp [homRow, h2, -toMat_apply, Fin.sum_univ_three, Fin.last, Matrix.diagonal, mul_comm]

/-- **C78** `apply_translation` and `apply_rotation` compose from the right: the new transform first translates (rotates), then does what `m` did. -/
theorem C78_apply (cfg : Cfg) (m : Mat 4 4 ℝ) (t n : Vec 3 ℝ) (θ : ℝ) :
    (∃ T m', createTranslation cfg t = .ok T ∧ applyTranslation cfg m t[0] t[1] t[2] = .ok m' ∧ m'.toMat = m.toMat * T.toMat) ∧
    (∃ T m', createRotation cfg θ n = .ok T ∧ applyRotation cfg m θ n[0] n[1] n[2] = .ok m' ∧ m'.toMat = m.toMat * T.toMat) := by
  have ht : ∀ v : Vec 3 ℝ, #v[v[0], v[1], v[2]] = v := fun v => vec3_ext rfl rfl rfl
  constructor
  · obtain ⟨T, h1, _⟩ := createTranslation_toMat cfg t
    refine ⟨T, _, h1, by simp only [applyTranslation, set3_eq, bind_ok, ht, h1, mulAssign_eq]; rfl, ?_⟩
    ext r c; simp [Matrix.mul_apply]
  · refine ⟨_, _, by simp only [createRotation, ctor_eq, bind_ok, identity_eq, pure_ok]; rfl,
      by simp only [applyRotation, set3_eq, bind_ok, ht, createRotation, ctor_eq, identity_eq, pure_ok, mulAssign_eq]; rfl, ?_⟩
    ext r c; simp [Matrix.mul_apply]

/-- **C78** `min` and `max` are the greatest lower and the least upper bound of two vectors in the componentwise order. -/
theorem C78_min_max [Zero α] [LinearOrder α] (a b : Vec M α) :
    ∃ lo hi, Util.min a b = .ok lo ∧ Util.max a b = .ok hi ∧
      (∀ i (h : i < M), lo[i] ≤ a[i] ∧ lo[i] ≤ b[i] ∧ a[i] ≤ hi[i] ∧ b[i] ≤ hi[i]) ∧
      (∀ c : Vec M α, (∀ i (h : i < M), c[i] ≤ a[i] ∧ c[i] ≤ b[i]) → ∀ i (h : i < M), c[i] ≤ lo[i]) ∧
      (∀ c : Vec M α, (∀ i (h : i < M), a[i] ≤ c[i] ∧ b[i] ≤ c[i]) → ∀ i (h : i < M), hi[i] ≤ c[i]) := by
  refine ⟨_, _, loop_set (fun i => if b[i] < a[i] then b[i] else a[i]) ?_, loop_set (fun i => if a[i] < b[i] then b[i] else a[i]) ?_, ?_, ?_, ?_⟩
  · intro i hi v _
    simp [hi]
  · intro i hi v _
    simp [hi]
  · intro i h
    simp only [Vector.getElem_ofFn, Fin.getElem_fin]
    refine ⟨?_, ?_, ?_, ?_⟩ <;> split_ifs with h1 <;> first | exact le_rfl | exact h1.le | exact not_lt.1 h1
  · intro c hc i h
    simp only [Vector.getElem_ofFn, Fin.getElem_fin]
    split_ifs
    · exact (hc i h).2
    · exact (hc i h).1
  · intro c hc i h
    simp only [Vector.getElem_ofFn, Fin.getElem_fin]
    split_ifs
    · exact (hc i h).2
    · exact (hc i h).1

theorem manhattan_eq (v : Vec M ℝ) : manhattan v = .ok (∑ i : Fin M, |v[i]|) := by
  unfold manhattan
  rw [loop_sum (fun i : Fin M => |v[i]|) (by intro i hi s; simp [hi])]
  simp

/-- **C78** `manhattan` is the 1-norm: the sum of the absolute values, zero only for the zero vector, homogeneous, and it satisfies the triangle
inequality. -/
theorem C78_manhattan (cfg : Cfg) (v w : Vec M ℝ) (k : ℝ) :
    ∃ a b s m : ℝ, manhattan v = .ok a ∧ manhattan w = .ok b ∧ (v.add cfg w >>= manhattan) = .ok s ∧ (v.mulS cfg k >>= manhattan) = .ok m ∧
      a = ∑ i : Fin M, |v[i]| ∧ 0 ≤ a ∧ (a = 0 ↔ ∀ i (h : i < M), v[i] = 0) ∧ s ≤ a + b ∧ m = |k| * a := by
  refine ⟨_, _, _, _, manhattan_eq v, manhattan_eq w, by rw [Vec.add_eq, bind_ok, manhattan_eq], by rw [Vec.mulS_eq, bind_ok, manhattan_eq],
    rfl, Finset.sum_nonneg fun i _ => abs_nonneg _, ?_, ?_, ?_⟩
  · rw [Finset.sum_eq_zero_iff_of_nonneg fun i _ => abs_nonneg _]
    constructor
    · intro h i hi
      exact abs_eq_zero.1 (h ⟨i, hi⟩ (Finset.mem_univ _))
    · intro h i _
      rw [abs_eq_zero]
      exact h i i.2
  · rw [← Finset.sum_add_distrib]
    apply Finset.sum_le_sum
    intro i _
    simp only [Fin.getElem_fin, Vector.getElem_ofFn]
    exact abs_add_le _ _
  · rw [Finset.mul_sum]
    apply Finset.sum_congr rfl
    intro i _
    simp [abs_mul, mul_comm]

/-- **C78** `zero` clears every component; the scalar `equals` compares with the tolerance `FLT_EPSILON`, strictly. -/
theorem C78_zero_equals [Zero α] (v : Vec M α) (eps a b : ℝ) :
    Util.zero v = .ok (Vector.replicate M 0) ∧ (Util.equals eps a b = true ↔ |a - b| < eps) ∧ Util.equals eps a b = Util.equals eps b a := by
  refine ⟨Vec.fill_eq v 0, by simp [Util.equals], ?_⟩
  simp only [Util.equals, fabs_real, abs_sub_comm]

/-- Non-trivial case: a unit axis; and composition really is from the right. -/
example : Spec.IsUnit3 fun i => (#v[0, 3 / 5, 4 / 5] : Vec 3 ℝ)[i] := by
  simp [Spec.IsUnit3]; norm_num

/-! ## C79 -/

open MathH

/-- **C79** `squared( a ) = a²` and `pythag( a, b ) = √( a² + b² )` for all reals, in both branches (also for zero arguments). -/
theorem C79_squared_pythag (a b : ℝ) : squared a = a ^ 2 ∧ pythag a b = Real.sqrt (a ^ 2 + b ^ 2) := by
  have hs : ∀ x : ℝ, squared x = x ^ 2 := by
    intro x
    unfold squared
    by_cases h : x = 0
    · simp [h]
    · simp [h, sq]
  refine ⟨hs a, ?_⟩
  unfold pythag
  simp only [fabs_real, hs, sqrt_real]
  have key : ∀ x y : ℝ, 0 < x → x * Real.sqrt (1 + (y / x) ^ 2) = Real.sqrt (x ^ 2 + y ^ 2) := by
    intro x y hx
    have h1 : x ^ 2 + y ^ 2 = x ^ 2 * (1 + (y / x) ^ 2) := by
      field_simp
    rw [h1, Real.sqrt_mul (sq_nonneg x), Real.sqrt_sq hx.le]
  split_ifs with h1 h2
  · rw [key _ _ (lt_of_le_of_lt (abs_nonneg b) h1), sq_abs, sq_abs]
  · have hb : |b| = 0 := by simpa using h2
    have ha : |a| = 0 := le_antisymm (hb ▸ not_lt.1 h1) (abs_nonneg a)
    rw [abs_eq_zero] at ha hb
    simp [ha, hb]
  · have hb : |b| ≠ 0 := by simpa using h2
    rw [key _ _ (lt_of_le_of_ne (abs_nonneg b) (Ne.symm hb)), sq_abs, sq_abs, add_comm]

/-- **C79** `sign( a, b )` has the magnitude of `a` and the sign of `b` (non-negative for `b = 0`). -/
theorem C79_sign (a b : ℝ) : |sign a b| = |a| ∧ (0 ≤ b → 0 ≤ sign a b) ∧ (b < 0 → sign a b ≤ 0) := by
  unfold sign
  simp only [fabs_real]
  refine ⟨?_, ?_, ?_⟩
  · split_ifs <;> simp
  · intro h; simp [h]
  · intro h; simp [not_le.2 h]

/-- The relation a comparator functor decides when its result is used as a condition (`x != 0`). -/
def Spec.holds (f : ℝ → ℝ → ℝ) (a b : ℝ) : Prop := f a b ≠ 0

/-- **C79** `abs_less` and `abs_greater`, used as conditions, are strict weak orders: irreflexive, transitive, and incomparability is transitive;
they compare magnitudes. -/
theorem C79_abs_order :
    (∀ a b, Spec.holds MathH.absLess a b ↔ |a| < |b|) ∧ (∀ a b, Spec.holds MathH.absGreater a b ↔ |b| < |a|) ∧
    ∀ f ∈ [MathH.absLess, MathH.absGreater], (∀ a, ¬ Spec.holds f a a) ∧
      (∀ a b c, Spec.holds f a b → Spec.holds f b c → Spec.holds f a c) ∧
      (∀ a b c, ¬ Spec.holds f a b → ¬ Spec.holds f b a → ¬ Spec.holds f b c → ¬ Spec.holds f c b → ¬ Spec.holds f a c ∧ ¬ Spec.holds f c a) := by
  have h1 : ∀ a b, Spec.holds MathH.absLess a b ↔ |a| < |b| := by
    intro a b
    unfold Spec.holds MathH.absLess
    simp
  have h2 : ∀ a b, Spec.holds MathH.absGreater a b ↔ |b| < |a| := by
    intro a b
    unfold Spec.holds MathH.absGreater
    simp
  refine ⟨h1, h2, ?_⟩
  intro f hf
  simp only [List.mem_cons, List.not_mem_nil, or_false] at hf
  rcases hf with rfl | rfl
  · simp only [h1]
    exact ⟨fun a => lt_irrefl _, fun a b c => lt_trans, fun a b c => by intro _ _ _ _; constructor <;> linarith⟩
  · simp only [h2]
    exact ⟨fun a => lt_irrefl _, fun a b c => fun h h' => lt_trans h' h, fun a b c => by intro _ _ _ _; constructor <;> linarith⟩

end Vmml
