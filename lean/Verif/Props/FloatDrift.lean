import Verif.Props.Float
import Verif.Props.FloatInverse
import Mathlib.Analysis.Matrix.Normed
import Mathlib.Analysis.InnerProductSpace.PiL2

/-!
# C113: accumulated rotations in IEEE 754 arithmetic
-/

namespace Vmml
open Format Matrix
variable {F : Format} {N M P : Nat}

/-- The root of the sum of the squared entries. -/
noncomputable def Spec.frob (A : Matrix (Fin M) (Fin N) ℝ) : ℝ := Real.sqrt (∑ i, ∑ j, A i j ^ 2)

/-- The growth of the error per multiplication with an orthogonal matrix that is stored with an error of at most `δ`. -/
noncomputable def Spec.driftRate (F : Format) (N : Nat) (δ : ℝ) : ℝ :=
  δ + N * F.u / (1 - N * F.u) * (Real.sqrt N + δ) + Real.sqrt N * (N * F.eta / (1 - N * F.u))

/-! ## The norm -/

section
attribute [local instance] Matrix.frobeniusNormedAddCommGroup

private theorem frob_norm (A : Matrix (Fin M) (Fin N) ℝ) : Spec.frob A = ‖A‖ := by
  rw [frobenius_norm_def, Spec.frob, Real.sqrt_eq_rpow]
  simp

theorem frob_add (A B : Matrix (Fin M) (Fin N) ℝ) : Spec.frob (A + B) ≤ Spec.frob A + Spec.frob B := by
  simp only [frob_norm]; exact norm_add_le A B
theorem frob_mul (A : Matrix (Fin M) (Fin N) ℝ) (B : Matrix (Fin N) (Fin P) ℝ) : Spec.frob (A * B) ≤ Spec.frob A * Spec.frob B := by
  simp only [frob_norm]; exact frobenius_norm_mul A B
theorem frob_transpose (A : Matrix (Fin M) (Fin N) ℝ) : Spec.frob Aᵀ = Spec.frob A := by
  simp only [frob_norm]; exact frobenius_norm_transpose A
end

theorem frob_nonneg (A : Matrix (Fin M) (Fin N) ℝ) : 0 ≤ Spec.frob A := Real.sqrt_nonneg _
theorem frob_sq (A : Matrix (Fin M) (Fin N) ℝ) : Spec.frob A ^ 2 = ∑ i, ∑ j, A i j ^ 2 :=
  Real.sq_sqrt (Finset.sum_nonneg fun _ _ => Finset.sum_nonneg fun _ _ => sq_nonneg _)
theorem frob_abs (A : Matrix (Fin M) (Fin N) ℝ) : Spec.frob (fun i j => |A i j|) = Spec.frob A := by simp [Spec.frob]
theorem frob_mono {A B : Matrix (Fin M) (Fin N) ℝ} (h : ∀ i j, |A i j| ≤ B i j) : Spec.frob A ≤ Spec.frob B := by
  apply Real.sqrt_le_sqrt
  refine Finset.sum_le_sum fun i _ => Finset.sum_le_sum fun j _ => ?_
  exact sq_le_sq' (by linarith [(abs_le.1 (h i j)).1]) ((abs_le.1 (h i j)).2)
theorem frob_smul {c : ℝ} (hc : 0 ≤ c) (A : Matrix (Fin M) (Fin N) ℝ) : Spec.frob (fun i j => c * A i j) = c * Spec.frob A := by
  unfold Spec.frob
  simp only [mul_pow, ← Finset.mul_sum]
  rw [Real.sqrt_mul (sq_nonneg c), Real.sqrt_sq hc]
theorem frob_const {c : ℝ} (hc : 0 ≤ c) : Spec.frob (fun (_ : Fin N) (_ : Fin N) => c) = N * c := by
  unfold Spec.frob
  simp only [Finset.sum_const, Finset.card_univ, Fintype.card_fin, nsmul_eq_mul]
  rw [show (N : ℝ) * (N * c ^ 2) = (N * c) ^ 2 by ring, Real.sqrt_sq (by positivity)]
theorem entry_le_frob (A : Matrix (Fin M) (Fin N) ℝ) (i : Fin M) (j : Fin N) : |A i j| ≤ Spec.frob A := by
  rw [← Real.sqrt_sq_eq_abs]
  apply Real.sqrt_le_sqrt
  calc A i j ^ 2 ≤ ∑ j, A i j ^ 2 := Finset.single_le_sum (f := fun j => A i j ^ 2) (fun _ _ => sq_nonneg _) (Finset.mem_univ j)
    _ ≤ _ := Finset.single_le_sum (f := fun i => ∑ j, A i j ^ 2) (fun _ _ => Finset.sum_nonneg fun _ _ => sq_nonneg _) (Finset.mem_univ i)

/-- Multiplication with an orthogonal matrix preserves the norm. -/
theorem frob_mul_orthogonal (E : Matrix (Fin M) (Fin N) ℝ) {O : Matrix (Fin N) (Fin N) ℝ} (hO : O * Oᵀ = 1) : Spec.frob (E * O) = Spec.frob E := by
  have key : ∀ (A : Matrix (Fin M) (Fin N) ℝ), ∑ i, ∑ j, A i j ^ 2 = (A * Aᵀ).trace := by
    intro A
    simp [Matrix.trace, Matrix.mul_apply, sq]
  unfold Spec.frob
  rw [key, key, Matrix.transpose_mul, Matrix.mul_assoc, ← Matrix.mul_assoc O, hO, Matrix.one_mul]

theorem frob_orthogonal {O : Matrix (Fin N) (Fin N) ℝ} (hO : O * Oᵀ = 1) : Spec.frob O = Real.sqrt N := by
  have := frob_mul_orthogonal (1 : Matrix (Fin N) (Fin N) ℝ) hO
  rw [Matrix.one_mul] at this
  rw [this]
  unfold Spec.frob
  congr 1
  simp [Matrix.one_apply]

/-! ## One multiplication -/

/-- The rounding error of a product in the norm. -/
private theorem product_err (h0 : 0 < F.emax) (cfg : Cfg) (a b : Mat N N (Fp F)) (hN : N * F.u < 1)
    (ha : ∀ i j, (a.get i j).Finite) (hb : ∀ i j, (b.get i j).Finite)
    (hroom : Spec.frob (Spec.fvals a) * Spec.frob (Spec.fvals b) + N * F.eta ≤ (1 - N * F.u) * F.maxFinite) :
    ∃ m, a.mul cfg b = .ok m ∧ (∀ i j, (m.get i j).Finite) ∧
      Spec.frob (Spec.fvals m - Spec.fvals a * Spec.fvals b) ≤
        N * F.u / (1 - N * F.u) * (Spec.frob (Spec.fvals a) * Spec.frob (Spec.fvals b)) + N * (N * F.eta / (1 - N * F.u)) := by
  obtain ⟨m, h1, h2⟩ := C108_matrix_product h0 cfg a b hN
  have hd : 0 < 1 - (N : ℝ) * F.u := by linarith
  have hu := F.u_pos
  have he := F.eta_pos
  set A : Matrix (Fin N) (Fin N) ℝ := fun i j => |(a.get i j).val| with hA
  set B : Matrix (Fin N) (Fin N) ℝ := fun i j => |(b.get i j).val| with hB
  have fA : Spec.frob A = Spec.frob (Spec.fvals a) := frob_abs (Spec.fvals a)
  have fB : Spec.frob B = Spec.frob (Spec.fvals b) := frob_abs (Spec.fvals b)
  have hAB : ∀ r c, ∑ p, |(a.get r p).val * (b.get p c).val| = (A * B) r c := by
    intro r c
    rw [Matrix.mul_apply]
    exact Finset.sum_congr rfl fun p _ => abs_mul _ _
  have hprod : Spec.frob (A * B) ≤ Spec.frob (Spec.fvals a) * Spec.frob (Spec.fvals b) := by
    rw [← fA, ← fB]; exact frob_mul A B
  have hfin : ∀ i j, (m.get i j).Finite := by
    intro i j
    refine (h2 i j).2 (fun p => ⟨ha i p, hb p j⟩) ?_
    rw [hAB]
    have := (le_abs_self _).trans (entry_le_frob (A * B) i j)
    linarith
  refine ⟨m, h1, hfin, ?_⟩
  have hcell : ∀ i j, |(Spec.fvals m - Spec.fvals a * Spec.fvals b) i j| ≤
      ((fun i j => N * F.u / (1 - N * F.u) * (A * B) i j) + (fun _ _ => N * F.eta / (1 - N * F.u)) : Matrix (Fin N) (Fin N) ℝ) i j := by
    intro i j
    have := ((h2 i j).1 (hfin i j)).2
    rw [hAB] at this
    rw [Matrix.sub_apply, Matrix.mul_apply]
    refine this.trans (le_of_eq ?_)
    show _ = N * F.u / (1 - N * F.u) * (A * B) i j + N * F.eta / (1 - N * F.u)
    unfold Spec.accErr
    ring
  refine (frob_mono hcell).trans ((frob_add _ _).trans ?_)
  rw [frob_smul (by positivity), frob_const (by positivity)]
  have := mul_le_mul_of_nonneg_left hprod (show 0 ≤ N * F.u / (1 - N * F.u) by positivity)
  linarith

/-- One multiplication of an approximate orthogonal matrix with another one. -/
private theorem drift_step (h0 : 0 < F.emax) (cfg : Cfg) (r a : Mat N N (Fp F)) (hN : N * F.u < 1) (hN1 : 1 ≤ N)
    (hr : ∀ i j, (r.get i j).Finite) (ha : ∀ i j, (a.get i j).Finite) (R O : Matrix (Fin N) (Fin N) ℝ) (hR : R * Rᵀ = 1) (hO : O * Oᵀ = 1) (e δ : ℝ)
    (he : Spec.frob (Spec.fvals r - R) ≤ e) (hδ : Spec.frob (Spec.fvals a - O) ≤ δ)
    (hroom : (Real.sqrt N + e) * (Real.sqrt N + δ) + N * F.eta ≤ (1 - N * F.u) * F.maxFinite) :
    ∃ m, r.mul cfg a = .ok m ∧ (∀ i j, (m.get i j).Finite) ∧
      Real.sqrt N + Spec.frob (Spec.fvals m - R * O) ≤ (1 + Spec.driftRate F N δ) * (Real.sqrt N + e) := by
  have hu := F.u_pos
  have heta := F.eta_pos
  have hd : 0 < 1 - (N : ℝ) * F.u := by linarith
  have he0 : 0 ≤ e := (frob_nonneg _).trans he
  have hδ0 : 0 ≤ δ := (frob_nonneg _).trans hδ
  have fr : Spec.frob (Spec.fvals r) ≤ Real.sqrt N + e := by
    calc Spec.frob (Spec.fvals r) = Spec.frob (R + (Spec.fvals r - R)) := by congr 1; abel
      _ ≤ _ := frob_add _ _
      _ ≤ _ := by rw [frob_orthogonal hR]; linarith
  have fa : Spec.frob (Spec.fvals a) ≤ Real.sqrt N + δ := by
    calc Spec.frob (Spec.fvals a) = Spec.frob (O + (Spec.fvals a - O)) := by congr 1; abel
      _ ≤ _ := frob_add _ _
      _ ≤ _ := by rw [frob_orthogonal hO]; linarith
  have hprod : Spec.frob (Spec.fvals r) * Spec.frob (Spec.fvals a) ≤ (Real.sqrt N + e) * (Real.sqrt N + δ) :=
    mul_le_mul fr fa (frob_nonneg _) (by positivity)
  obtain ⟨m, h1, h2, h3⟩ := product_err h0 cfg r a hN hr ha (by linarith)
  refine ⟨m, h1, h2, ?_⟩
  have s1 : Spec.frob (Spec.fvals m - R * O) ≤ Spec.frob (Spec.fvals m - Spec.fvals r * Spec.fvals a) + Spec.frob (Spec.fvals r * (Spec.fvals a - O)) +
      Spec.frob ((Spec.fvals r - R) * O) := by
    have e1 : Spec.fvals m - R * O = (Spec.fvals m - Spec.fvals r * Spec.fvals a) + Spec.fvals r * (Spec.fvals a - O) + (Spec.fvals r - R) * O := by
      rw [Matrix.mul_sub, Matrix.sub_mul]; abel
    rw [e1]
    exact (frob_add _ _).trans (add_le_add (frob_add _ _) le_rfl)
  have s2 : Spec.frob (Spec.fvals r * (Spec.fvals a - O)) ≤ (Real.sqrt N + e) * δ := (frob_mul _ _).trans (mul_le_mul fr hδ (frob_nonneg _) (by positivity))
  rw [frob_mul_orthogonal _ hO] at s1
  have s3 := mul_le_mul_of_nonneg_left hprod (show 0 ≤ N * F.u / (1 - N * F.u) by positivity)
  have s4 : (N : ℝ) * (N * F.eta / (1 - N * F.u)) ≤ Real.sqrt N * (N * F.eta / (1 - N * F.u)) * (Real.sqrt N + e) := by
    have q : Real.sqrt N * Real.sqrt N = N := Real.mul_self_sqrt (by positivity)
    have p : 0 ≤ Real.sqrt N * (N * F.eta / (1 - N * F.u)) * e := by positivity
    calc (N : ℝ) * (N * F.eta / (1 - N * F.u)) = Real.sqrt N * (N * F.eta / (1 - N * F.u)) * Real.sqrt N := by rw [mul_right_comm, q]
      _ ≤ _ := by linarith
  unfold Spec.driftRate
  calc _ ≤ Real.sqrt N + (N * F.u / (1 - N * F.u) * ((Real.sqrt N + e) * (Real.sqrt N + δ)) + N * (N * F.eta / (1 - N * F.u)) + (Real.sqrt N + e) * δ + e) := by
        linarith
    _ ≤ _ := by nlinarith

/-- The product of the matrices that the operands stand for. -/
def Spec.orthoProduct (R : Matrix (Fin N) (Fin N) ℝ) (as : List (Mat N N (Fp F) × Matrix (Fin N) (Fin N) ℝ)) : Matrix (Fin N) (Fin N) ℝ :=
  as.foldl (fun R a => R * a.2) R

/-- **C113** Accumulating rotations: start with a matrix within `e₀` of an orthogonal one and multiply it by any number of matrices that are within `δ` of
orthogonal ones, in IEEE arithmetic. While the bound stays below 1, all entries are finite and the result is within
`( 1 + ε )ⁿ ( √N + e₀ ) - √N` of the exact product of the orthogonal matrices: the error grows linearly with the number of products. -/
theorem C113_drift (h0 : 0 < F.emax) (cfg : Cfg) (hN1 : 1 ≤ N) (hN : N * F.u < 1) (δ e0 : ℝ)
    (as : List (Mat N N (Fp F) × Matrix (Fin N) (Fin N) ℝ))
    (has : ∀ a ∈ as, (∀ i j, (a.1.get i j).Finite) ∧ a.2 * a.2ᵀ = 1 ∧ Spec.frob (Spec.fvals a.1 - a.2) ≤ δ)
    (r : Mat N N (Fp F)) (R : Matrix (Fin N) (Fin N) ℝ) (hr : ∀ i j, (r.get i j).Finite) (hR : R * Rᵀ = 1) (hrR : Spec.frob (Spec.fvals r - R) ≤ e0)
    (hδ : 0 ≤ δ) (hsmall : (1 + Spec.driftRate F N δ) ^ as.length * (Real.sqrt N + e0) ≤ Real.sqrt N + 1)
    (hroom : (Real.sqrt N + 1) * (Real.sqrt N + δ) + N * F.eta ≤ (1 - N * F.u) * F.maxFinite) :
    ∃ m, as.foldlM (fun m a => Mat.mul cfg m a.1) r = .ok m ∧ (∀ i j, (m.get i j).Finite) ∧
      Spec.frob (Spec.fvals m - Spec.orthoProduct R as) ≤ (1 + Spec.driftRate F N δ) ^ as.length * (Real.sqrt N + e0) - Real.sqrt N := by
  have hu := F.u_pos
  have heta := F.eta_pos
  have hd : 0 < 1 - (N : ℝ) * F.u := by linarith
  have hrate : 0 ≤ Spec.driftRate F N δ := by unfold Spec.driftRate; positivity
  induction as generalizing r R e0 with
  | nil => exact ⟨r, rfl, hr, by simpa [Spec.orthoProduct] using hrR⟩
  | cons a as ih =>
    obtain ⟨a1, a2, a3⟩ := has a (by simp)
    have e00 : 0 ≤ e0 := (frob_nonneg _).trans hrR
    have hs0 : 0 ≤ Real.sqrt N := Real.sqrt_nonneg _
    rw [List.length_cons, pow_succ] at hsmall
    have e01 : e0 ≤ 1 := by
      have p1 : (1 : ℝ) ≤ (1 + Spec.driftRate F N δ) ^ as.length * (1 + Spec.driftRate F N δ) := by
        rw [← pow_succ]; exact one_le_pow₀ (by linarith)
      have := le_mul_of_one_le_left (show 0 ≤ Real.sqrt N + e0 by linarith) p1
      linarith
    obtain ⟨m, h1, h2, h3⟩ := drift_step h0 cfg r a.1 hN hN1 hr a1 R a.2 hR a2 e0 δ hrR a3 (by
      have : (Real.sqrt N + e0) * (Real.sqrt N + δ) ≤ (Real.sqrt N + 1) * (Real.sqrt N + δ) := mul_le_mul_of_nonneg_right (by linarith) (by linarith)
      linarith)
    have hRO : R * a.2 * (R * a.2)ᵀ = 1 := by
      rw [Matrix.transpose_mul, Matrix.mul_assoc, ← Matrix.mul_assoc a.2, a2, Matrix.one_mul, hR]
    obtain ⟨m', k1, k2, k3⟩ := ih ((1 + Spec.driftRate F N δ) * (Real.sqrt N + e0) - Real.sqrt N) (fun b hb => has b (by simp [hb])) m (R * a.2) h2 hRO (by linarith) (by
      calc _ = _ := by ring
        _ ≤ _ := hsmall)
    refine ⟨m', ?_, k2, ?_⟩
    · rw [List.foldlM_cons, h1]
      exact k1
    · refine k3.trans (le_of_eq ?_)
      rw [List.length_cons]; ring

theorem orthoProduct_ortho (as : List (Mat N N (Fp F) × Matrix (Fin N) (Fin N) ℝ)) (has : ∀ a ∈ as, a.2 * a.2ᵀ = 1) (R : Matrix (Fin N) (Fin N) ℝ) (hR : R * Rᵀ = 1) :
    Spec.orthoProduct R as * (Spec.orthoProduct R as)ᵀ = 1 := by
  unfold Spec.orthoProduct
  induction as generalizing R with
  | nil => exact hR
  | cons a as ih =>
    rw [List.foldl_cons]
    refine ih (fun b hb => has b (by simp [hb])) _ ?_
    rw [Matrix.transpose_mul, Matrix.mul_assoc, ← Matrix.mul_assoc a.2, has a (by simp), Matrix.one_mul, hR]

/-- The Euclidean length. -/
noncomputable def Spec.elen (x : Fin N → ℝ) : ℝ := Real.sqrt (∑ i, x i ^ 2)

private theorem elen_col (x : Fin N → ℝ) : Spec.elen x = Spec.frob (fun i (_ : Fin 1) => x i) := by simp [Spec.elen, Spec.frob]

private theorem near_ortho {m R : Matrix (Fin N) (Fin N) ℝ} (hR : R * Rᵀ = 1) {e : ℝ} (h : Spec.frob (m - R) ≤ e) :
    Spec.frob (m * mᵀ - 1) ≤ 2 * e + e ^ 2 ∧ ∀ x : Fin N → ℝ, |Spec.elen (m *ᵥ x) - Spec.elen x| ≤ e * Spec.elen x := by
  have he : 0 ≤ e := (frob_nonneg _).trans h
  have hR' : Rᵀ * R = 1 := mul_eq_one_comm.1 hR
  have hRt : Rᵀ * Rᵀᵀ = 1 := by rw [Matrix.transpose_transpose]; exact hR'
  constructor
  · have e1 : m * mᵀ - 1 = (m - R) * Rᵀ + ((m - R) * Rᵀ)ᵀ + (m - R) * (m - R)ᵀ := by
      rw [Matrix.transpose_mul, Matrix.transpose_transpose, Matrix.transpose_sub, Matrix.sub_mul, Matrix.mul_sub, Matrix.mul_sub, Matrix.sub_mul, hR, Matrix.sub_mul, hR]
      abel
    rw [e1]
    calc _ ≤ _ := (frob_add _ _).trans (add_le_add (frob_add _ _) (frob_mul _ _))
      _ ≤ _ := by
        rw [frob_transpose ((m - R) * Rᵀ), frob_mul_orthogonal _ hRt, frob_transpose]
        nlinarith [frob_nonneg (m - R)]
  · intro x
    set X : Matrix (Fin N) (Fin 1) ℝ := fun i _ => x i with hX
    have c1 : Spec.elen (m *ᵥ x) = Spec.frob (m * X) := by rw [elen_col]; rfl
    have c2 : Spec.elen x = Spec.frob (R * X) := by
      rw [elen_col, ← frob_transpose (R * X), Matrix.transpose_mul, frob_mul_orthogonal _ hRt, frob_transpose]
    have c3 : Spec.frob ((m - R) * X) ≤ e * Spec.elen x := by
      rw [elen_col]
      exact (frob_mul _ _).trans (mul_le_mul_of_nonneg_right h (frob_nonneg _))
    have d1 : Spec.frob (m * X) ≤ Spec.frob (R * X) + Spec.frob ((m - R) * X) := by
      calc Spec.frob (m * X) = Spec.frob (R * X + (m - R) * X) := by rw [Matrix.sub_mul]; congr 1; abel
        _ ≤ _ := frob_add _ _
    have d2 : Spec.frob (R * X) ≤ Spec.frob (m * X) + Spec.frob ((m - R) * X) := by
      have n1 : Spec.frob (-((m - R) * X)) = Spec.frob ((m - R) * X) := by simp [Spec.frob]
      calc Spec.frob (R * X) = Spec.frob (m * X + -((m - R) * X)) := by rw [Matrix.sub_mul]; congr 1; abel
        _ ≤ _ := frob_add _ _
        _ = _ := by rw [n1]
    rw [abs_le, c1]
    rw [c2] at c3 ⊢
    constructor <;> linarith

/-- **C113** Consequence: the accumulated matrix stays orthogonal up to the drift, and changes lengths by no more than that. -/
theorem C113_orthogonal (h0 : 0 < F.emax) (cfg : Cfg) (hN1 : 1 ≤ N) (hN : N * F.u < 1) (δ e0 : ℝ)
    (as : List (Mat N N (Fp F) × Matrix (Fin N) (Fin N) ℝ))
    (has : ∀ a ∈ as, (∀ i j, (a.1.get i j).Finite) ∧ a.2 * a.2ᵀ = 1 ∧ Spec.frob (Spec.fvals a.1 - a.2) ≤ δ)
    (r : Mat N N (Fp F)) (R : Matrix (Fin N) (Fin N) ℝ) (hr : ∀ i j, (r.get i j).Finite) (hR : R * Rᵀ = 1) (hrR : Spec.frob (Spec.fvals r - R) ≤ e0)
    (hδ : 0 ≤ δ) (hsmall : (1 + Spec.driftRate F N δ) ^ as.length * (Real.sqrt N + e0) ≤ Real.sqrt N + 1)
    (hroom : (Real.sqrt N + 1) * (Real.sqrt N + δ) + N * F.eta ≤ (1 - N * F.u) * F.maxFinite) :
    ∃ m e, as.foldlM (fun m a => Mat.mul cfg m a.1) r = .ok m ∧ e = (1 + Spec.driftRate F N δ) ^ as.length * (Real.sqrt N + e0) - Real.sqrt N ∧
      Spec.frob (Spec.fvals m * (Spec.fvals m)ᵀ - 1) ≤ 2 * e + e ^ 2 ∧
      ∀ x : Fin N → ℝ, |Spec.elen (Spec.fvals m *ᵥ x) - Spec.elen x| ≤ e * Spec.elen x := by
  obtain ⟨m, h1, -, h3⟩ := C113_drift h0 cfg hN1 hN δ e0 as has r R hr hR hrR hδ hsmall hroom
  obtain ⟨k1, k2⟩ := near_ortho (orthoProduct_ortho as (fun a ha => (has a ha).2.1) R hR) h3
  exact ⟨m, _, h1, rfl, k1, k2⟩

/-- **C113** `operator*=` computes the same as `operator*`, so both statements hold for accumulation with `*=`. -/
theorem C113_assign (cfg : Cfg) (as : List (Mat N N (Fp F) × Matrix (Fin N) (Fin N) ℝ)) (r : Mat N N (Fp F)) :
    as.foldlM (fun m a => Mat.mulAssign cfg m a.1) r = as.foldlM (fun m a => Mat.mul cfg m a.1) r := by
  have h : ∀ a b : Mat N N (Fp F), Mat.mulAssign cfg a b = Mat.mul cfg a b := by
    intro a b
    rw [Mat.mul, Mat.ctor_eq, bind_ok, Mat.mulAssign, Mat.multiply_iter, Mat.multiply_iter]
  simp only [h]

set_option maxHeartbeats 1000000 in
/-- Non-vacuity: two hundred products of 3x3 `float` rotations, each stored with an error of up to `10⁻⁶`: the drift is below 0.001. -/
example (cfg : Cfg) (as : List (Mat 3 3 (Fp single) × Matrix (Fin 3) (Fin 3) ℝ)) (hl : as.length = 200)
    (has : ∀ a ∈ as, (∀ i j, (a.1.get i j).Finite) ∧ a.2 * a.2ᵀ = 1 ∧ Spec.frob (Spec.fvals a.1 - a.2) ≤ 1 / 10 ^ 6) :
    ∃ m, as.foldlM (fun m a => Mat.mul cfg m a.1) (Mat.ofFn fun i j => if i = j then 1 else 0) = .ok m ∧
      Spec.frob (Spec.fvals m - Spec.orthoProduct 1 as) ≤ 1 / 1000 := by
  have o := Fp.one_fin (F := single) (by norm_num)
  have hs : Real.sqrt ((3 : Nat) : ℝ) ≤ 1.7321 := by
    rw [Real.sqrt_le_left (by norm_num)]; norm_num
  have hs1 : 1 ≤ Real.sqrt ((3 : Nat) : ℝ) := by
    rw [Real.one_le_sqrt]; norm_num
  have hrate : Spec.driftRate single 3 (1 / 10 ^ 6) ≤ 1.4 / 10 ^ 6 := by
    have h1 : ((3 : Nat) : ℝ) * single.u / (1 - (3 : Nat) * single.u) ≤ 2 / 10 ^ 7 := by unfold u; norm_num
    have h2 : ((3 : Nat) : ℝ) * single.eta / (1 - (3 : Nat) * single.u) ≤ 1 / 10 ^ 9 := by unfold u eta emin; norm_num
    have h3 : (0 : ℝ) ≤ ((3 : Nat) : ℝ) * single.u / (1 - (3 : Nat) * single.u) := by unfold u; norm_num
    have h4 : (0 : ℝ) ≤ ((3 : Nat) : ℝ) * single.eta / (1 - (3 : Nat) * single.u) := by unfold u eta emin; norm_num
    unfold Spec.driftRate
    have h5 := mul_le_mul h1 (show Real.sqrt ((3 : Nat) : ℝ) + 1 / 10 ^ 6 ≤ 1.7322 by linarith) (by positivity) (by norm_num)
    have h6 := mul_le_mul hs h2 h4 (by norm_num)
    norm_num at h5 h6 ⊢
    linarith
  have hrate0 : 0 ≤ Spec.driftRate single 3 (1 / 10 ^ 6) := by
    have h3 : (0 : ℝ) ≤ ((3 : Nat) : ℝ) * single.u / (1 - (3 : Nat) * single.u) := by unfold u; norm_num
    have h4 : (0 : ℝ) ≤ ((3 : Nat) : ℝ) * single.eta / (1 - (3 : Nat) * single.u) := by unfold u eta emin; norm_num
    unfold Spec.driftRate
    positivity
  have hpow : (1 + Spec.driftRate single 3 (1 / 10 ^ 6)) ^ 200 ≤ 1.0003 := by
    calc _ ≤ ((1 : ℝ) + 1.4 / 10 ^ 6) ^ 200 := by gcongr
      _ ≤ _ := by norm_num
  have hid : Spec.fvals (Mat.ofFn fun i j => if i = j then 1 else 0 : Mat 3 3 (Fp single)) = 1 := by
    ext i j
    simp only [Spec.fvals, Mat.get_ofFn, Matrix.one_apply]
    split_ifs
    · exact o.2
    · exact Fp.val_zero
  have hlen : (1 + Spec.driftRate single 3 (1 / 10 ^ 6)) ^ as.length * (Real.sqrt ((3 : Nat) : ℝ) + 0) - Real.sqrt ((3 : Nat) : ℝ) ≤ 1 / 1000 := by
    rw [hl]
    have := mul_le_mul_of_nonneg_right hpow (show 0 ≤ Real.sqrt ((3 : Nat) : ℝ) by linarith)
    rw [add_zero]
    linarith
  have hm : (100 : ℝ) ≤ (1 - ((3 : Nat) : ℝ) * single.u) * single.maxFinite := by unfold u maxFinite; norm_num
  have he : ((3 : Nat) : ℝ) * single.eta ≤ 1 := by unfold eta emin; norm_num
  have hp : (Real.sqrt ((3 : Nat) : ℝ) + 1) * (Real.sqrt ((3 : Nat) : ℝ) + 1 / 10 ^ 6) ≤ 9 := by
    generalize Real.sqrt ((3 : Nat) : ℝ) = s at hs hs1 ⊢
    calc _ ≤ (3 : ℝ) * 3 := mul_le_mul (by linarith only [hs]) (by linarith only [hs]) (by linarith only [hs1]) (by norm_num)
      _ = _ := by norm_num
  have hroom : (Real.sqrt ((3 : Nat) : ℝ) + 1) * (Real.sqrt ((3 : Nat) : ℝ) + 1 / 10 ^ 6) + ((3 : Nat) : ℝ) * single.eta ≤ (1 - ((3 : Nat) : ℝ) * single.u) * single.maxFinite := by
    exact (add_le_add hp he).trans (le_trans (by norm_num) hm)
  have hsmall : (1 + Spec.driftRate single 3 (1 / 10 ^ 6)) ^ as.length * (Real.sqrt ((3 : Nat) : ℝ) + 0) ≤ Real.sqrt ((3 : Nat) : ℝ) + 1 := by
    refine (sub_le_iff_le_add'.mp hlen).trans ?_
    exact add_le_add_right (by norm_num) _
  obtain ⟨m, h1, -, h3⟩ := C113_drift (F := single) (N := 3) (by norm_num) cfg (by norm_num) (by norm_num [u]) (1 / 10 ^ 6) 0 as has
    (Mat.ofFn fun i j => if i = j then 1 else 0) 1 (by
      intro i j
      rw [Mat.get_ofFn]
      split_ifs
      · exact o.1
      · trivial) (by simp) (by rw [hid]; simp [Spec.frob]) (by norm_num) hsmall hroom
  exact ⟨m, h1, h3.trans hlen⟩

end Vmml
