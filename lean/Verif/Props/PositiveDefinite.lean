import Verif.Props.MatrixInverse

/-!
# C50: `is_positive_definite` against positive definiteness itself
-/
set_option linter.unusedSimpArgs false

namespace Vmml
open Mat

/-- The specification: a symmetric matrix whose quadratic form is positive away from the origin. -/
def IsPosDef {n : Nat} (A : Matrix (Fin n) (Fin n) ℝ) : Prop :=
  (∀ i j, A i j = A j i) ∧ ∀ x : Fin n → ℝ, x ≠ 0 → 0 < ∑ i, ∑ j, x i * A i j * x j

theorem leading1 {n : Nat} (A : Matrix (Fin (n + 1)) (Fin (n + 1)) ℝ) (h : 1 ≤ n + 1) : leadingMinor A 1 h = A 0 0 := by
  simp only [leadingMinor, Matrix.det_unique]; rfl

theorem leading2 {n : Nat} (A : Matrix (Fin (n + 2)) (Fin (n + 2)) ℝ) (h : 2 ≤ n + 2) :
    leadingMinor A 2 h = A 0 0 * A 1 1 - A 0 1 * A 1 0 := by
  simp only [leadingMinor, Matrix.det_fin_two, Matrix.submatrix_apply]; rfl

theorem leading3 (A : Matrix (Fin 3) (Fin 3) ℝ) (h : 3 ≤ 3) : leadingMinor A 3 h = A.det := rfl

/-- Sylvester's criterion for the sizes the function supports. -/
theorem sylvester {n : Nat} (h1 : 1 ≤ n) (h3 : n ≤ 3) (A : Matrix (Fin n) (Fin n) ℝ) (hs : ∀ i j, A i j = A j i) :
    IsPosDef A ↔ ∀ k (hk : k ≤ n), 1 ≤ k → 0 < leadingMinor A k hk := by
  match n, h1, h3, A, hs with
  | 1, _, _, A, hs =>
    constructor
    · rintro ⟨-, h⟩ k hk hk1
      obtain rfl : k = 1 := by omega
      rw [leading1]
      have := h (fun _ => 1) (by intro h; simpa using congrFun h 0)
      simpa using this
    · intro h
      refine ⟨hs, fun x hx => ?_⟩
      have h := h 1 le_rfl le_rfl
      rw [leading1] at h
      have hx0 : x 0 ≠ 0 := by
        intro h0; apply hx; ext i; rw [Subsingleton.elim i 0, h0]; rfl
      simp only [Fin.sum_univ_one]
      have := mul_pos h (by positivity : 0 < x 0 ^ 2)
      nlinarith
  | 2, _, _, A, hs =>
    have h10 := hs 1 0
    constructor
    · rintro ⟨-, h⟩
      have ha := h ![1, 0] (by intro h; simpa using congrFun h 0)
      simp [Fin.sum_univ_two] at ha
      have hb := h ![-A 0 1, A 0 0] (by intro h; have := congrFun h 1; simp at this; linarith)
      simp [Fin.sum_univ_two] at hb
      have hd : 0 < A 0 0 * (A 0 0 * A 1 1 - A 0 1 * A 1 0) := by rw [h10] at hb ⊢; nlinarith
      have hd := pos_of_mul_pos_right hd ha.le
      intro k hk hk1
      rcases (show k = 1 ∨ k = 2 by omega) with rfl | rfl
      · rw [leading1]; exact ha
      · rw [leading2]; exact hd
    · intro h
      have ha := h 1 (by omega) le_rfl
      have hd := h 2 le_rfl (by omega)
      rw [leading1] at ha
      rw [leading2, h10] at hd
      refine ⟨hs, fun x hx => ?_⟩
      simp only [Fin.sum_univ_two, h10]
      apply pos_of_mul_pos_right (a := A 0 0) _ ha.le
      have key : A 0 0 * (x 0 * A 0 0 * x 0 + x 0 * A 0 1 * x 1 + (x 1 * A 0 1 * x 0 + x 1 * A 1 1 * x 1)) =
          (A 0 0 * x 0 + A 0 1 * x 1) ^ 2 + (A 0 0 * A 1 1 - A 0 1 * A 0 1) * x 1 ^ 2 := by ring
      rw [key]
      by_cases hy : x 1 = 0
      · have hx0 : x 0 ≠ 0 := by
          intro h0; apply hx; ext i; fin_cases i <;> simp [h0, hy]
        rw [hy]
        have := mul_ne_zero ha.ne' hx0
        simp only [mul_zero, add_zero]
        positivity
      · have := mul_pos hd (by positivity : 0 < x 1 ^ 2)
        nlinarith [sq_nonneg (A 0 0 * x 0 + A 0 1 * x 1)]
  | 3, _, _, A, hs =>
    have h10 := hs 1 0
    have h20 := hs 2 0
    have h21 := hs 2 1
    have hdet : A.det = A 0 0 * (A 1 1 * A 2 2 - A 1 2 ^ 2) - A 0 1 * (A 0 1 * A 2 2 - A 1 2 * A 0 2)
        + A 0 2 * (A 0 1 * A 1 2 - A 1 1 * A 0 2) := by
      rw [Matrix.det_fin_three, h10, h20, h21]; ring
    constructor
    · rintro ⟨-, h⟩
      have ha := h ![1, 0, 0] (by intro h; simpa using congrFun h 0)
      simp [Fin.sum_univ_three] at ha
      have hb := h ![-A 0 1, A 0 0, 0] (by intro h; have := congrFun h 1; simp at this; linarith)
      simp [Fin.sum_univ_three] at hb
      have hd : 0 < A 0 0 * (A 0 0 * A 1 1 - A 0 1 * A 1 0) := by rw [h10] at hb ⊢; nlinarith
      have hd := pos_of_mul_pos_right hd ha.le
      rw [h10] at hd
      have hc := h ![A 0 1 * A 1 2 - A 0 2 * A 1 1, A 0 1 * A 0 2 - A 0 0 * A 1 2, A 0 0 * A 1 1 - A 0 1 * A 0 1]
        (by intro h; have := congrFun h 2; simp at this; linarith)
      simp [Fin.sum_univ_three] at hc
      have h3 : 0 < (A 0 0 * A 1 1 - A 0 1 * A 0 1) * A.det := by
        rw [hdet]; rw [h10, h20, h21] at hc; nlinarith
      have h3 := pos_of_mul_pos_right h3 hd.le
      intro k hk hk1
      rcases (show k = 1 ∨ k = 2 ∨ k = 3 by omega) with rfl | rfl | rfl
      · rw [leading1]; exact ha
      · rw [leading2, h10]; exact hd
      · rw [leading3]; exact h3
    · intro h
      have ha := h 1 (by omega) le_rfl
      have hd := h 2 (by omega) (by omega)
      have h3 := h 3 le_rfl (by omega)
      rw [leading1] at ha
      rw [leading2, h10] at hd
      rw [leading3] at h3
      refine ⟨hs, fun x hx => ?_⟩
      simp only [Fin.sum_univ_three, h10, h20, h21]
      have hp : 0 < A 0 0 * (A 0 0 * A 1 1 - A 0 1 * A 0 1) := mul_pos ha hd
      apply pos_of_mul_pos_right (a := A 0 0 * (A 0 0 * A 1 1 - A 0 1 * A 0 1)) _ hp.le
      have key : A 0 0 * (A 0 0 * A 1 1 - A 0 1 * A 0 1) *
          (x 0 * A 0 0 * x 0 + x 0 * A 0 1 * x 1 + x 0 * A 0 2 * x 2 +
            (x 1 * A 0 1 * x 0 + x 1 * A 1 1 * x 1 + x 1 * A 1 2 * x 2) +
            (x 2 * A 0 2 * x 0 + x 2 * A 1 2 * x 1 + x 2 * A 2 2 * x 2)) =
          (A 0 0 * A 1 1 - A 0 1 * A 0 1) * (A 0 0 * x 0 + A 0 1 * x 1 + A 0 2 * x 2) ^ 2 +
          ((A 0 0 * A 1 1 - A 0 1 * A 0 1) * x 1 + (A 0 0 * A 1 2 - A 0 1 * A 0 2) * x 2) ^ 2 +
          A 0 0 * A.det * x 2 ^ 2 := by rw [hdet]; ring
      rw [key]
      set D := A 0 0 * A 1 1 - A 0 1 * A 0 1
      have t1 : 0 ≤ D * (A 0 0 * x 0 + A 0 1 * x 1 + A 0 2 * x 2) ^ 2 := by positivity
      have t2 := sq_nonneg (D * x 1 + (A 0 0 * A 1 2 - A 0 1 * A 0 2) * x 2)
      have t3 : 0 ≤ A 0 0 * A.det * x 2 ^ 2 := by positivity
      by_cases hz : x 2 = 0
      · by_cases hy : x 1 = 0
        · have hx0 : x 0 ≠ 0 := by
            intro h0; apply hx; ext i; fin_cases i <;> simp [h0, hy, hz]
          have : 0 < D * (A 0 0 * x 0 + A 0 1 * x 1 + A 0 2 * x 2) ^ 2 := by
            rw [hy, hz]; have := mul_ne_zero ha.ne' hx0; simp only [mul_zero, add_zero]; positivity
          linarith
        · have : 0 < (D * x 1 + (A 0 0 * A 1 2 - A 0 1 * A 0 2) * x 2) ^ 2 := by
            rw [hz]; have := mul_ne_zero hd.ne' hy; simp only [mul_zero, add_zero]; positivity
          linarith
      · have : 0 < A 0 0 * A.det * x 2 ^ 2 := by positivity
        linarith

/-- C50. With a positive limit the test is sound: a symmetric matrix it accepts is positive definite. -/
theorem C50_sound (cfg : Cfg) {n : Nat} (h1 : 1 ≤ n) (h3 : n ≤ 3) (m : Mat n n ℝ) (limit : ℝ) (hl : 0 < limit)
    (hs : ∀ i j, m.toMat i j = m.toMat j i) (h : m.isPositiveDefinite cfg limit = .ok true) : IsPosDef m.toMat := by
  obtain ⟨b, hb, hb'⟩ := C50_positive_definite_partial cfg h1 h3 m limit
  rw [hb] at h
  cases h
  rw [sylvester h1 h3 _ hs]
  intro k hk hk1
  exact lt_of_lt_of_le hl (hb'.1 rfl k hk hk1)

/-- C50. With a limit that is not positive (such as the default one) the test is complete: every positive definite
matrix is accepted. -/
theorem C50_complete (cfg : Cfg) {n : Nat} (h1 : 1 ≤ n) (h3 : n ≤ 3) (m : Mat n n ℝ) (limit : ℝ) (hl : limit ≤ 0)
    (h : IsPosDef m.toMat) : m.isPositiveDefinite cfg limit = .ok true := by
  obtain ⟨b, hb, hb'⟩ := C50_positive_definite_partial cfg h1 h3 m limit
  rw [hb, hb'.2]
  intro k hk hk1
  exact hl.trans (((sylvester h1 h3 _ h.1).1 h k hk hk1).le)

/-- C50. For every positive definite matrix there is a positive limit at which it is accepted, so that the answer "true
for some positive limit" is exactly positive definiteness of a symmetric matrix. -/
theorem C50_exact (cfg : Cfg) {n : Nat} (h1 : 1 ≤ n) (h3 : n ≤ 3) (m : Mat n n ℝ)
    (hs : ∀ i j, m.toMat i j = m.toMat j i) :
    IsPosDef m.toMat ↔ ∃ limit, 0 < limit ∧ m.isPositiveDefinite cfg limit = .ok true := by
  constructor
  · intro h
    have hp := (sylvester h1 h3 _ hs).1 h
    let f : Fin n → ℝ := fun k => leadingMinor m.toMat (k.1 + 1) (by omega)
    have hne : (Finset.univ : Finset (Fin n)).Nonempty := ⟨⟨0, by omega⟩, Finset.mem_univ _⟩
    refine ⟨Finset.univ.inf' hne f, ?_, ?_⟩
    · rw [Finset.lt_inf'_iff]
      intro k _
      exact hp _ _ (by omega)
    · obtain ⟨b, hb, hb'⟩ := C50_positive_definite_partial cfg h1 h3 m (Finset.univ.inf' hne f)
      rw [hb, hb'.2]
      intro k hk hk1
      have := Finset.inf'_le f (Finset.mem_univ (⟨k - 1, by omega⟩ : Fin n))
      have e : f ⟨k - 1, by omega⟩ = leadingMinor m.toMat k hk := by
        simp only [f]
        congr 1 <;> omega
      rw [e] at this
      exact this
  · rintro ⟨l, hl, h⟩
    exact C50_sound cfg h1 h3 m l hl hs h

/-- Non-vacuity: `[[2, 1], [1, 2]]` is accepted at limit 1, hence positive definite. -/
example : IsPosDef (⟨#v[2, 1, 1, 2]⟩ : Mat 2 2 ℝ).toMat := by
  rw [sylvester (by omega) (by omega) _ (by intro i j; fin_cases i <;> fin_cases j <;> simp [Mat.get])]
  intro k hk hk1
  rcases (show k = 1 ∨ k = 2 by omega) with rfl | rfl
  · rw [leading1]; simp [Mat.get]
  · rw [leading2]; simp [Mat.get]; norm_num

end Vmml
