import Verif.Model.Rounding
import Mathlib.Tactic.Linarith

/-!
# A calculus of rounding errors for polynomial expressions

`Approx u n a A m`: the computed value `a` differs from the exact `A` by at most `( ( 1 + u )ⁿ - 1 ) m`, where `m` is the expression with every term replaced
by its absolute value.
-/

namespace Vmml
variable {u : ℝ}

/-- See above. -/
structure Approx (u : ℝ) (n : Nat) (a A m : ℝ) : Prop where
  err : |a - A| ≤ ((1 + u) ^ n - 1) * m
  mag : |A| ≤ m

namespace Approx

theorem mag_nonneg {n : Nat} {a A m : ℝ} (h : Approx u n a A m) : 0 ≤ m := (abs_nonneg _).trans h.mag

theorem bound {n : Nat} {a A m : ℝ} (h : Approx u n a A m) : |a| ≤ (1 + u) ^ n * m := by
  have := abs_add_le (a - A) A
  rw [sub_add_cancel] at this
  have h1 := h.err
  have h2 := h.mag
  linarith

theorem exact (a : ℝ) : Approx u 0 a a |a| := ⟨by simp, le_rfl⟩

theorem mono (hu : 0 ≤ u) {n k : Nat} {a A m m' : ℝ} (h : Approx u n a A m) (hn : n ≤ k) (hm : m ≤ m') : Approx u k a A m' := by
  have h1 : (1 + u) ^ n ≤ (1 + u) ^ k := pow_le_pow_right₀ (by linarith) hn
  have h2 : (1 : ℝ) ≤ (1 + u) ^ n := one_le_pow₀ (by linarith)
  refine ⟨h.err.trans ?_, h.mag.trans hm⟩
  exact mul_le_mul (by linarith) hm h.mag_nonneg (by linarith)

theorem neg {n : Nat} {a A m : ℝ} (h : Approx u n a A m) : Approx u n (-a) (-A) m := by
  refine ⟨?_, by rw [abs_neg]; exact h.mag⟩
  rw [show -a - -A = -(a - A) by ring, abs_neg]
  exact h.err

theorem abs {n : Nat} {a A m : ℝ} (h : Approx u n a A m) : Approx u n |a| |A| m :=
  ⟨(abs_abs_sub_abs_le_abs_sub a A).trans h.err, by rw [abs_abs]; exact h.mag⟩

private theorem add_same (ρ : Rounding u) {n : Nat} {a A m b B m' : ℝ} (h : Approx u n a A m) (h' : Approx u n b B m') :
    Approx u (n + 1) (ρ.rnd (a + b)) (A + B) (m + m') := by
  have h0 := ρ.nonneg
  refine ⟨?_, (abs_add_le _ _).trans (add_le_add h.mag h'.mag)⟩
  have e := ρ.err (a + b)
  have h1 : |(a + b) - (A + B)| ≤ ((1 + u) ^ n - 1) * (m + m') := by
    calc _ = |(a - A) + (b - B)| := by congr 1; ring
      _ ≤ _ := abs_add_le _ _
      _ ≤ _ := by linarith [h.err, h'.err]
  have h2 : |a + b| ≤ (1 + u) ^ n * (m + m') := by
    have := abs_add_le a b
    linarith [h.bound, h'.bound]
  calc _ = |(ρ.rnd (a + b) - (a + b)) + ((a + b) - (A + B))| := by congr 1; ring
    _ ≤ _ := abs_add_le _ _
    _ ≤ u * ((1 + u) ^ n * (m + m')) + ((1 + u) ^ n - 1) * (m + m') := by
        have := mul_le_mul_of_nonneg_left h2 h0
        linarith
    _ = _ := by ring

theorem add (ρ : Rounding u) {n k : Nat} {a A m b B m' : ℝ} (h : Approx u n a A m) (h' : Approx u k b B m') :
    Approx u (max n k + 1) (ρ.rnd (a + b)) (A + B) (m + m') :=
  add_same ρ (h.mono ρ.nonneg (le_max_left _ _) le_rfl) (h'.mono ρ.nonneg (le_max_right _ _) le_rfl)

theorem sub (ρ : Rounding u) {n k : Nat} {a A m b B m' : ℝ} (h : Approx u n a A m) (h' : Approx u k b B m') :
    Approx u (max n k + 1) (ρ.rnd (a - b)) (A - B) (m + m') := by
  rw [sub_eq_add_neg, sub_eq_add_neg]
  exact add ρ h h'.neg

theorem mul (ρ : Rounding u) {n k : Nat} {a A m b B m' : ℝ} (h : Approx u n a A m) (h' : Approx u k b B m') :
    Approx u (n + k + 1) (ρ.rnd (a * b)) (A * B) (m * m') := by
  have h0 := ρ.nonneg
  refine ⟨?_, by rw [abs_mul]; exact mul_le_mul h.mag h'.mag (abs_nonneg _) h.mag_nonneg⟩
  have p1 : (1 : ℝ) ≤ (1 + u) ^ n := one_le_pow₀ (by linarith)
  have p2 : (1 : ℝ) ≤ (1 + u) ^ k := one_le_pow₀ (by linarith)
  have m0 := h.mag_nonneg
  have m0' := h'.mag_nonneg
  have h1 : |a * b - A * B| ≤ ((1 + u) ^ (n + k) - 1) * (m * m') := by
    calc |a * b - A * B| = |(a - A) * b + A * (b - B)| := by congr 1; ring
      _ ≤ |a - A| * |b| + |A| * |b - B| := by
          rw [← abs_mul, ← abs_mul]; exact abs_add_le _ _
      _ ≤ (((1 + u) ^ n - 1) * m) * ((1 + u) ^ k * m') + m * (((1 + u) ^ k - 1) * m') := by
          apply add_le_add
          · exact mul_le_mul h.err h'.bound (abs_nonneg _) (mul_nonneg (by linarith) m0)
          · exact mul_le_mul h.mag h'.err (abs_nonneg _) m0
      _ = _ := by rw [pow_add]; ring
  have h2 : |a * b| ≤ (1 + u) ^ (n + k) * (m * m') := by
    rw [abs_mul]
    calc _ ≤ ((1 + u) ^ n * m) * ((1 + u) ^ k * m') :=
          mul_le_mul h.bound h'.bound (abs_nonneg _) (mul_nonneg (by linarith) m0)
      _ = _ := by rw [pow_add]; ring
  have e := ρ.err (a * b)
  calc _ = |(ρ.rnd (a * b) - a * b) + (a * b - A * B)| := by congr 1; ring
    _ ≤ _ := abs_add_le _ _
    _ ≤ u * ((1 + u) ^ (n + k) * (m * m')) + ((1 + u) ^ (n + k) - 1) * (m * m') := by
        have := mul_le_mul_of_nonneg_left h2 h0
        linarith
    _ = _ := by rw [pow_succ]; ring

end Approx
end Vmml
