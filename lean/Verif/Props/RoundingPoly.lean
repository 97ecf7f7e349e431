import Verif.Props.RoundingNorm
import Verif.Proofs.Approx
import Verif.Props.MatrixInverse
import Verif.Props.Quaternion

/-!
# C92: rounding errors of determinants and of the quaternion product

As for C81, for an arbitrary rounding function with relative error at most `u` in every operation. The error bounds are relative to the sum of the
magnitudes of the terms of the exact formula: a relative error bound does not exist because of cancellation.
-/

namespace Vmml
open Mat
variable {u : ℝ} {ρ : Rounding u}

/-- The matrix of the exact values. -/
def Spec.vals {m n : Nat} (A : Mat m n (Fl ρ)) : Matrix (Fin m) (Fin n) ℝ := fun i j => (A.get i j).val

/-- The Laplace expansion of the determinant along the first row with all signs positive and all entries replaced by their magnitudes: the sum over all
permutations of the magnitudes of the products. -/
def Spec.mags : (n : Nat) → Matrix (Fin n) (Fin n) ℝ → ℝ
  | 0, _ => 1
  | n + 1, A => ∑ j, |A 0 j| * Spec.mags n (A.submatrix Fin.succ j.succAbove)

theorem mags_nonneg : ∀ (n : Nat) (A : Matrix (Fin n) (Fin n) ℝ), 0 ≤ Spec.mags n A
  | 0, _ => zero_le_one
  | n + 1, A => Finset.sum_nonneg fun j _ => mul_nonneg (abs_nonneg _) (mags_nonneg n _)

/-- Entries bounded by `B`: the magnitudes sum to at most `n! B^n`. -/
theorem mags_le : ∀ (n : Nat) (A : Matrix (Fin n) (Fin n) ℝ) (B : ℝ), (∀ i j, |A i j| ≤ B) → Spec.mags n A ≤ n.factorial * B ^ n
  | 0, _, _, _ => by simp [Spec.mags]
  | n + 1, A, B, h => by
    have hB : 0 ≤ B := (abs_nonneg _).trans (h 0 0)
    calc Spec.mags (n + 1) A ≤ ∑ _j : Fin (n + 1), B * (n.factorial * B ^ n) :=
          Finset.sum_le_sum fun j _ => mul_le_mul (h 0 j) (mags_le n _ B fun _ _ => h _ _) (mags_nonneg n _) hB
      _ = _ := by
        rw [Finset.sum_const, Finset.card_univ, Fintype.card_fin, nsmul_eq_mul, Nat.factorial_succ]
        push_cast
        ring

/-- Number of roundings on the longest path of `det()`, by size. -/
def Spec.detDepth : Nat → Nat
  | 0 => 0
  | 1 => 0
  | 2 => 2
  | 3 => 5
  | _ => 26

theorem mags2 (A : Matrix (Fin 2) (Fin 2) ℝ) : Spec.mags 2 A = |A 0 0| * |A 1 1| + |A 0 1| * |A 1 0| := by
  simp [Spec.mags, Fin.sum_univ_succ]

theorem mags3 (A : Matrix (Fin 3) (Fin 3) ℝ) : Spec.mags 3 A = |A 0 0| * (|A 1 1| * |A 2 2| + |A 1 2| * |A 2 1|) +
    |A 0 1| * (|A 1 2| * |A 2 0| + |A 1 0| * |A 2 2|) + |A 0 2| * (|A 1 0| * |A 2 1| + |A 1 1| * |A 2 0|) := by
  rw [Spec.mags, Fin.sum_univ_three]
  simp only [mags2, Matrix.submatrix_apply]
  have e00 : (0 : Fin 3).succAbove 0 = 1 := rfl
  have e01 : (0 : Fin 3).succAbove 1 = 2 := rfl
  have e10 : (1 : Fin 3).succAbove 0 = 0 := rfl
  have e11 : (1 : Fin 3).succAbove 1 = 2 := rfl
  have e20 : (2 : Fin 3).succAbove 0 = 0 := rfl
  have e21 : (2 : Fin 3).succAbove 1 = 1 := rfl
  have s0 : (0 : Fin 2).succ = 1 := rfl
  have s1 : (1 : Fin 2).succ = 2 := rfl
  simp only [e00, e01, e10, e11, e20, e21, s0, s1]
  ring

theorem mags4 (A : Matrix (Fin 4) (Fin 4) ℝ) : Spec.mags 4 A =
    |A 0 0| * (|A 1 1| * (|A 2 2| * |A 3 3| + |A 2 3| * |A 3 2|) + |A 1 2| * (|A 2 1| * |A 3 3| + |A 2 3| * |A 3 1|)
      + |A 1 3| * (|A 2 1| * |A 3 2| + |A 2 2| * |A 3 1|))
    + |A 0 1| * (|A 1 0| * (|A 2 2| * |A 3 3| + |A 2 3| * |A 3 2|) + |A 1 2| * (|A 2 0| * |A 3 3| + |A 2 3| * |A 3 0|)
      + |A 1 3| * (|A 2 0| * |A 3 2| + |A 2 2| * |A 3 0|))
    + |A 0 2| * (|A 1 0| * (|A 2 1| * |A 3 3| + |A 2 3| * |A 3 1|) + |A 1 1| * (|A 2 0| * |A 3 3| + |A 2 3| * |A 3 0|)
      + |A 1 3| * (|A 2 0| * |A 3 1| + |A 2 1| * |A 3 0|))
    + |A 0 3| * (|A 1 0| * (|A 2 1| * |A 3 2| + |A 2 2| * |A 3 1|) + |A 1 1| * (|A 2 0| * |A 3 2| + |A 2 2| * |A 3 0|)
      + |A 1 2| * (|A 2 0| * |A 3 1| + |A 2 1| * |A 3 0|)) := by
  rw [Spec.mags, Fin.sum_univ_four]
  simp only [mags3, Matrix.submatrix_apply]
  have e00 : (0 : Fin 4).succAbove 0 = 1 := rfl
  have e01 : (0 : Fin 4).succAbove 1 = 2 := rfl
  have e02 : (0 : Fin 4).succAbove 2 = 3 := rfl
  have e10 : (1 : Fin 4).succAbove 0 = 0 := rfl
  have e11 : (1 : Fin 4).succAbove 1 = 2 := rfl
  have e12 : (1 : Fin 4).succAbove 2 = 3 := rfl
  have e20 : (2 : Fin 4).succAbove 0 = 0 := rfl
  have e21 : (2 : Fin 4).succAbove 1 = 1 := rfl
  have e22 : (2 : Fin 4).succAbove 2 = 3 := rfl
  have e30 : (3 : Fin 4).succAbove 0 = 0 := rfl
  have e31 : (3 : Fin 4).succAbove 1 = 1 := rfl
  have e32 : (3 : Fin 4).succAbove 2 = 2 := rfl
  have s0 : (0 : Fin 3).succ = 1 := rfl
  have s1 : (1 : Fin 3).succ = 2 := rfl
  have s2 : (2 : Fin 3).succ = 3 := rfl
  simp only [e00, e01, e02, e10, e11, e12, e20, e21, e22, e30, e31, e32, s0, s1, s2]
  ring

/-- An error estimate with the exact value and the magnitude rewritten. -/
theorem Approx.to {n k : Nat} {a A m A' m' : ℝ} (hu : 0 ≤ u) (h : Approx u n a A m) (hn : n ≤ k) (hA : A = A') (hm : m = m') :
    |a - A'| ≤ ((1 + u) ^ k - 1) * m' := by
  subst hA hm
  exact (h.mono hu hn le_rfl).err

private theorem det1_err (m : Mat 1 1 (Fl ρ)) : ∃ d, m.det1 = .ok d ∧ |d.val - (Spec.vals m).det| ≤ ((1 + u) ^ 0 - 1) * Spec.mags 1 (Spec.vals m) := by
  refine ⟨m.get 0 0, ?_, ?_⟩
  · rw [det1, rawGet_lt m (by omega)]; rfl
  · simp [Matrix.det_unique, Spec.vals]

private theorem det2_err (cfg : Cfg) (m : Mat 2 2 (Fl ρ)) :
    ∃ d, m.det2 cfg = .ok d ∧ |d.val - (Spec.vals m).det| ≤ ((1 + u) ^ 2 - 1) * Spec.mags 2 (Spec.vals m) := by
  refine ⟨m.get 0 0 * m.get 1 1 - m.get 0 1 * m.get 1 0, by simp [det2], ?_⟩
  have E (x : Fl ρ) := Approx.exact (u := u) x.val
  exact Approx.to ρ.nonneg (((E (m.get 0 0)).mul ρ (E (m.get 1 1))).sub ρ ((E (m.get 0 1)).mul ρ (E (m.get 1 0)))) (by decide)
    (Matrix.det_fin_two _).symm (mags2 _).symm

private theorem det3_err (cfg : Cfg) (m : Mat 3 3 (Fl ρ)) :
    ∃ d, m.det3 cfg = .ok d ∧ |d.val - (Spec.vals m).det| ≤ ((1 + u) ^ 5 - 1) * Spec.mags 3 (Spec.vals m) := by
  refine ⟨m.get 0 0 * (m.get 1 1 * m.get 2 2 - m.get 1 2 * m.get 2 1) + m.get 0 1 * (m.get 1 2 * m.get 2 0 - m.get 1 0 * m.get 2 2)
    + m.get 0 2 * (m.get 1 0 * m.get 2 1 - m.get 1 1 * m.get 2 0), ?_, ?_⟩
  · simp only [det3, atGet_lt cfg m (show 0 < 3 by omega), atGet_lt cfg m (show 1 < 3 by omega),
      atGet_lt cfg m (show 2 < 3 by omega), show 0 < 3 from by omega, show 1 < 3 from by omega,
      show 2 < 3 from by omega, bind_ok, pure_ok]
    rfl
  have E (i j : Fin 3) := Approx.exact (u := u) (m.get i j).val
  have T (a b c d e f : Fin 3) (g h i j : Fin 3) := (E a b).mul ρ (((E c d).mul ρ (E e f)).sub ρ ((E g h).mul ρ (E i j)))
  refine Approx.to ρ.nonneg (((T 0 0 1 1 2 2 1 2 2 1).add ρ (T 0 1 1 2 2 0 1 0 2 2)).add ρ (T 0 2 1 0 2 1 1 1 2 0)) (by decide) ?_ ?_
  · rw [Matrix.det_fin_three]
    simp only [Spec.vals]
    ring
  · rw [mags3]; rfl

private theorem det4_err (cfg : Cfg) (m : Mat 4 4 (Fl ρ)) :
    ∃ d, m.det4 cfg = .ok d ∧ |d.val - (Spec.vals m).det| ≤ ((1 + u) ^ 26 - 1) * Spec.mags 4 (Spec.vals m) := by
  have h0 : 0 < 4 := by omega
  have h1 : 1 < 4 := by omega
  have h2 : 2 < 4 := by omega
  have h3 : 3 < 4 := by omega
  refine ⟨_, by simp only [det4, atGet_lt cfg m, h0, h1, h2, h3, bind_ok, pure_ok]; rfl, ?_⟩
  have E (i j : Fin 4) := Approx.exact (u := u) (m.get i j).val
  have T (a b c d e f g h : Fin 4) := (((E a b).mul ρ (E c d)).mul ρ (E e f)).mul ρ (E g h)
  refine Approx.to ρ.nonneg (((((((((((((((((((((((((((((((((((((((((((((((T 0 3 1 2 2 1 3 0)).sub ρ (T 0 2 1 3 2 1 3 0))).sub ρ (T 0 3 1 1 2 2 3 0))).add ρ (T 0 1 1 3
    2 2 3 0))).add ρ (T 0 2 1 1 2 3 3 0))).sub ρ (T 0 1 1 2 2 3 3 0))).sub ρ (T 0 3 1 2 2 0 3 1))).add ρ (T 0 2 1 3 2 0 3 1))).add ρ (T 0 3 1 0
    2 2 3 1))).sub ρ (T 0 0 1 3 2 2 3 1))).sub ρ (T 0 2 1 0 2 3 3 1))).add ρ (T 0 0 1 2 2 3 3 1))).add ρ (T 0 3 1 1 2 0 3 2))).sub ρ (T 0 1 1 3
    2 0 3 2))).sub ρ (T 0 3 1 0 2 1 3 2))).add ρ (T 0 0 1 3 2 1 3 2))).add ρ (T 0 1 1 0 2 3 3 2))).sub ρ (T 0 0 1 1 2 3 3 2))).sub ρ (T 0 2 1 1
    2 0 3 3))).add ρ (T 0 1 1 2 2 0 3 3))).add ρ (T 0 2 1 0 2 1 3 3))).sub ρ (T 0 0 1 2 2 1 3 3))).sub ρ (T 0 1 1 0 2 2 3 3))).add ρ (T 0 0 1 1
    2 2 3 3)) (by decide) ?_ ?_
  · rw [det_fin_four]
    simp only [Spec.vals, Fin.mk_zero, Fin.mk_one, Fin.reduceFinMk, Fin.zero_eta]
    ring
  · rw [mags4]
    simp only [Spec.vals, Fin.mk_zero, Fin.mk_one, Fin.reduceFinMk, Fin.zero_eta]
    ring

/-- C92. `det()`: the result differs from the determinant of the stored values by at most `( 1 + u )^k - 1` times the sum of the magnitudes of the
products, `k` the rounding depth of the formula. -/
theorem C92_det (cfg : Cfg) {n : Nat} (hn : 1 ≤ n) (hn' : n ≤ 4) (m : Mat n n (Fl ρ)) :
    ∃ d, m.det cfg = .ok d ∧ |d.val - (Spec.vals m).det| ≤ ((1 + u) ^ Spec.detDepth n - 1) * Spec.mags n (Spec.vals m) := by
  match n, hn, hn' with
  | 1, _, _ => exact det1_err m
  | 2, _, _ => exact det2_err cfg m
  | 3, _, _ => exact det3_err cfg m
  | 4, _, _ => exact det4_err cfg m

/-- C92. In terms of a bound `B` of the entries: at most `γ_k n! B^n`. In particular a computed determinant beyond this bound certifies that the
matrix is invertible. -/
theorem C92_det_bound (cfg : Cfg) {n : Nat} (hn : 1 ≤ n) (hn' : n ≤ 4) (m : Mat n n (Fl ρ)) (B : ℝ) (hB : ∀ i j, |(m.get i j).val| ≤ B)
    (hu : Spec.detDepth n * u < 1) :
    ∃ d, m.det cfg = .ok d ∧ |d.val - (Spec.vals m).det| ≤ Spec.gamma u (Spec.detDepth n) * (n.factorial * B ^ n) ∧
      (Spec.gamma u (Spec.detDepth n) * (n.factorial * B ^ n) < |d.val| → IsUnit (Spec.vals m)) := by
  obtain ⟨d, h1, h2⟩ := C92_det cfg hn hn' m
  have h3 : |d.val - (Spec.vals m).det| ≤ Spec.gamma u (Spec.detDepth n) * (n.factorial * B ^ n) :=
    h2.trans (mul_le_mul (pow_le_gamma ρ.nonneg _ hu) (mags_le n _ B hB) (mags_nonneg _ _) (gamma_nonneg ρ.nonneg hu))
  refine ⟨d, h1, h3, fun h => ?_⟩
  rw [Matrix.isUnit_iff_isUnit_det, isUnit_iff_ne_zero]
  intro h0
  rw [h0, sub_zero] at h3
  linarith

/-! ## Quaternions -/

/-- The quaternion of the exact values, in Mathlib's quaternions. -/
def Spec.hval (q : Quat (Fl ρ)) : Quaternion ℝ := ⟨q.w.val, q.x.val, q.y.val, q.z.val⟩
/-- The sum of the magnitudes of the components. -/
def Spec.taxi (q : Quat (Fl ρ)) : ℝ := |q.w.val| + |q.x.val| + |q.y.val| + |q.z.val|

/-- C92. `operator*=` (with eight multiplications and a halving) computes every component of the Hamilton product of the stored quaternions with an
error of at most `6 ( ( 1 + u )^9 - 1 ) |p|₁ |q|₁`. -/
theorem C92_quaternion_mul (p q : Quat (Fl ρ)) :
    let r := p.mulAssign (fun s => Fl.of (1 / 2 : ℝ) * s) (.other q)
    let b := 6 * ((1 + u) ^ 9 - 1) * (Spec.taxi p * Spec.taxi q)
    |r.w.val - (Spec.hval p * Spec.hval q).re| ≤ b ∧ |r.x.val - (Spec.hval p * Spec.hval q).imI| ≤ b ∧
      |r.y.val - (Spec.hval p * Spec.hval q).imJ| ≤ b ∧ |r.z.val - (Spec.hval p * Spec.hval q).imK| ≤ b := by
  intro r b
  have hu := ρ.nonneg
  have E (x : Fl ρ) := Approx.exact (u := u) x.val
  set S := Spec.taxi p with hS
  set T := Spec.taxi q with hT
  have hS0 : 0 ≤ S := by unfold S Spec.taxi; positivity
  have hT0 : 0 ≤ T := by unfold T Spec.taxi; positivity
  have A {x y : Fl ρ} (h : |x.val| + |y.val| ≤ S) : Approx u 1 (ρ.rnd (x.val + y.val)) (x.val + y.val) S := ((E x).add ρ (E y)).mono hu (by decide) h
  have B {x y : Fl ρ} (h : |x.val| + |y.val| ≤ S) : Approx u 1 (ρ.rnd (x.val - y.val)) (x.val - y.val) S := ((E x).sub ρ (E y)).mono hu (by decide) h
  have A' {x y : Fl ρ} (h : |x.val| + |y.val| ≤ T) : Approx u 1 (ρ.rnd (x.val + y.val)) (x.val + y.val) T := ((E x).add ρ (E y)).mono hu (by decide) h
  have B' {x y : Fl ρ} (h : |x.val| + |y.val| ≤ T) : Approx u 1 (ρ.rnd (x.val - y.val)) (x.val - y.val) T := ((E x).sub ρ (E y)).mono hu (by decide) h
  have a1 := abs_nonneg p.w.val
  have a2 := abs_nonneg p.x.val
  have a3 := abs_nonneg p.y.val
  have a4 := abs_nonneg p.z.val
  have b1 := abs_nonneg q.w.val
  have b2 := abs_nonneg q.x.val
  have b3 := abs_nonneg q.y.val
  have b4 := abs_nonneg q.z.val
  have t0 := (B (x := p.z) (y := p.y) (by simp only [hS, Spec.taxi]; linarith)).mul ρ (B' (x := q.y) (y := q.z) (by simp only [hT, Spec.taxi]; linarith))
  have t1 := (A (x := p.w) (y := p.x) (by simp only [hS, Spec.taxi]; linarith)).mul ρ (A' (x := q.w) (y := q.x) (by simp only [hT, Spec.taxi]; linarith))
  have t2 := (B (x := p.w) (y := p.x) (by simp only [hS, Spec.taxi]; linarith)).mul ρ (A' (x := q.y) (y := q.z) (by simp only [hT, Spec.taxi]; linarith))
  have t3 := (A (x := p.y) (y := p.z) (by simp only [hS, Spec.taxi]; linarith)).mul ρ (B' (x := q.w) (y := q.x) (by simp only [hT, Spec.taxi]; linarith))
  have t4 := (B (x := p.z) (y := p.x) (by simp only [hS, Spec.taxi]; linarith)).mul ρ (B' (x := q.x) (y := q.y) (by simp only [hT, Spec.taxi]; linarith))
  have t5 := (A (x := p.z) (y := p.x) (by simp only [hS, Spec.taxi]; linarith)).mul ρ (A' (x := q.x) (y := q.y) (by simp only [hT, Spec.taxi]; linarith))
  have t6 := (A (x := p.w) (y := p.y) (by simp only [hS, Spec.taxi]; linarith)).mul ρ (B' (x := q.w) (y := q.z) (by simp only [hT, Spec.taxi]; linarith))
  have t7 := (B (x := p.w) (y := p.y) (by simp only [hS, Spec.taxi]; linarith)).mul ρ (A' (x := q.w) (y := q.z) (by simp only [hT, Spec.taxi]; linarith))
  have t8 := (t5.add ρ t6).add ρ t7
  have t9 := (Approx.exact (u := u) (1 / 2 : ℝ)).mul ρ (t4.add ρ t8)
  have half : |(1 / 2 : ℝ)| = 1 / 2 := by norm_num
  have hST : 0 ≤ S * T := mul_nonneg hS0 hT0
  have hb : b = ((1 + u) ^ 9 - 1) * (6 * (S * T)) := by simp only [b]; ring
  rw [hb]
  refine ⟨?_, ?_, ?_, ?_⟩
  · refine Approx.to hu (((t0.add ρ t9).sub ρ t5).mono hu (le_refl _) ?_) (by decide) ?_ rfl
    · rw [half]; linarith
    · rw [Quaternion.re_mul]; simp only [Spec.hval]; ring
  · refine Approx.to hu (((t1.add ρ t9).sub ρ t8).mono hu (le_refl _) ?_) (by decide) ?_ rfl
    · rw [half]; linarith
    · rw [Quaternion.imI_mul]; simp only [Spec.hval]; ring
  · refine Approx.to hu (((t2.add ρ t9).sub ρ t7).mono hu (le_refl _) ?_) (by decide) ?_ rfl
    · rw [half]; linarith
    · rw [Quaternion.imJ_mul]; simp only [Spec.hval]; ring
  · refine Approx.to hu (((t3.add ρ t9).sub ρ t6).mono hu (le_refl _) ?_) (by decide) ?_ rfl
    · rw [half]; linarith
    · rw [Quaternion.imK_mul]; simp only [Spec.hval]; ring

/-- The four components as a vector, in the order they are stored. -/
private def vec (q : Quat (Fl ρ)) : Vec 4 (Fl ρ) := #v[q.x, q.y, q.z, q.w]

private theorem sq_eq (q : Quat (Fl ρ)) : (vec q).squaredLength = .ok q.squaredAbs := by
  unfold Vec.squaredLength
  simp only [loop_succ, loop_zero, bind_ok, pure_ok, Vec.rawGet_lt (vec q) (show 0 < 4 by omega), Vec.rawGet_lt (vec q) (show 1 < 4 by omega),
    Vec.rawGet_lt (vec q) (show 2 < 4 by omega), Vec.rawGet_lt (vec q) (show 3 < 4 by omega)]
  have h : (0 : Fl ρ) + q.x * q.x = q.x * q.x := by
    change ρ.rnd (0 + ρ.rnd (q.x.val * q.x.val)) = ρ.rnd (q.x.val * q.x.val)
    rw [zero_add, ρ.idem]
  change Except.ok ((0 : Fl ρ) + q.x * q.x + q.y * q.y + q.z * q.z + q.w * q.w) = _
  rw [h]
  rfl

private theorem norm_eq (cfg : Cfg) (q : Quat (Fl ρ)) : ∃ l, (vec q).normalize cfg = .ok (vec q.normalize.1, l) := by
  have hl : (vec q).length = .ok q.abs := by
    simp only [Vec.length, sq_eq, bind_ok, pure_ok]; rfl
  have hw : (vec q).mulAssignS cfg (1 / q.abs) = .ok (vec (q.mulAssignS (1 / q.abs))) := by
    have : (vec q).mulAssignS cfg (1 / q.abs) = .ok (Vector.ofFn fun i => (vec q)[i] * (1 / q.abs)) := by
      unfold Vec.mulAssignS
      apply loop_set
      intro i hi y hy
      simp [hi, hy]
    rw [this]
    congr 1
  simp only [Vec.normalize, hl, bind_ok]
  unfold Quat.normalize
  by_cases h : (q.abs == 0) = true
  · simp only [h, if_true, pure_ok]; exact ⟨_, rfl⟩
  · simp only [h, Bool.false_eq_true, if_false, hw, bind_ok, pure_ok]; exact ⟨_, rfl⟩

/-- The exact length of the stored quaternion. -/
noncomputable def Spec.qlen (q : Quat (Fl ρ)) : ℝ := Real.sqrt (q.x.val ^ 2 + q.y.val ^ 2 + q.z.val ^ 2 + q.w.val ^ 2)

private theorem len_vec (q : Quat (Fl ρ)) : Spec.len (vec q) = Spec.qlen q := by
  unfold Spec.len Spec.qlen
  rw [Fin.sum_univ_four]
  rfl

/-- C92. `normalize()` of a quaternion that is not zero: each component is the exact normalised component up to the relative error `normErr`, and the
length of the result differs from 1 by at most `normErr`. -/
theorem C92_quaternion_normalize (q : Quat (Fl ρ)) (hu : 8 * u < 1) (hq : q.x.val ≠ 0 ∨ q.y.val ≠ 0 ∨ q.z.val ≠ 0 ∨ q.w.val ≠ 0) :
    let n := q.normalize.1
    let e := Spec.normErr u 4
    let L := Spec.qlen q
    |n.x.val - q.x.val / L| ≤ e * (|q.x.val| / L) ∧ |n.y.val - q.y.val / L| ≤ e * (|q.y.val| / L) ∧
      |n.z.val - q.z.val / L| ≤ e * (|q.z.val| / L) ∧ |n.w.val - q.w.val / L| ≤ e * (|q.w.val| / L) ∧
      |Spec.qlen n - 1| ≤ e := by
  intro n e L
  have h0 := ρ.nonneg
  obtain ⟨l, h1⟩ := norm_eq ⟨true, true, true⟩ q
  obtain ⟨w, l', h2, -, h3, h4⟩ := C90_normalize ⟨true, true, true⟩ (vec q) (by push_cast; linarith) (by linarith) (by
    rcases hq with h | h | h | h
    · exact ⟨0, h⟩
    · exact ⟨1, h⟩
    · exact ⟨2, h⟩
    · exact ⟨3, h⟩)
  obtain rfl : vec n = w := congrArg Prod.fst (Except.ok.inj (h1.symm.trans h2))
  rw [len_vec] at h3 h4
  exact ⟨h3 0, h3 1, h3 2, h3 3, h4⟩

/-! ## Instances -/

/-- A double precision determinant with a nonzero computed value. -/
example : ∃ d, Mat.det ⟨true, true, true⟩ (Mat.ofFn fun i j => Fl.of (i.val + 2 * j.val : ℝ) : Mat 2 2 (Fl (binRounding 52))) = .ok d ∧
    |d.val - (-2)| ≤ 1 / 10 ^ 14 := by
  obtain ⟨d, h1, h2, -⟩ := C92_det_bound (ρ := binRounding 52) ⟨true, true, true⟩ (n := 2) (by omega) (by omega)
    (Mat.ofFn fun i j => Fl.of (i.val + 2 * j.val : ℝ)) 3 (by
      intro i j
      rw [Mat.get_ofFn]
      change |((i.val : ℝ) + 2 * (j.val : ℝ))| ≤ 3
      fin_cases i <;> fin_cases j <;> norm_num) (by norm_num [Spec.detDepth])
  refine ⟨d, h1, ?_⟩
  have e : (Spec.vals (Mat.ofFn fun i j => Fl.of (i.val + 2 * j.val : ℝ) : Mat 2 2 (Fl (binRounding 52)))).det = -2 := by
    rw [Matrix.det_fin_two]
    simp only [Spec.vals, Mat.get_ofFn]
    change (((0 : Nat) : ℝ) + 2 * ((0 : Nat) : ℝ)) * (((1 : Nat) : ℝ) + 2 * ((1 : Nat) : ℝ)) -
      (((0 : Nat) : ℝ) + 2 * ((1 : Nat) : ℝ)) * (((1 : Nat) : ℝ) + 2 * ((0 : Nat) : ℝ)) = -2
    norm_num
  rw [e] at h2
  refine h2.trans ?_
  norm_num [Spec.gamma, Spec.detDepth, Nat.factorial]

example : |Spec.qlen ((⟨Fl.of 1, Fl.of 2, Fl.of 3, Fl.of 4⟩ : Quat (Fl (binRounding 23))).normalize.1) - 1| ≤ 6 / 10 ^ 7 := by
  refine (C92_quaternion_normalize (ρ := binRounding 23) ⟨Fl.of 1, Fl.of 2, Fl.of 3, Fl.of 4⟩ (by norm_num) (Or.inl one_ne_zero)).2.2.2.2.trans ?_
  norm_num [Spec.normErr, Spec.gamma]

end Vmml
