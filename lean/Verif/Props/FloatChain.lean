import Verif.Props.FloatDrift

/-!
# C150: a history of matrix products in IEEE 754 arithmetic
-/

namespace Vmml
open Format Matrix
variable {F : Format} {N : Nat}

/-! ## Specification -/

/-- The exact product of a list of matrices, started with `P`. -/
def Spec.chain (P : Matrix (Fin N) (Fin N) ℝ) (as : List (Mat N N (Fp F))) : Matrix (Fin N) (Fin N) ℝ := as.foldl (fun P a => P * Spec.fvals a) P

/-- Relative error of one product of `N` by `N` matrices. -/
noncomputable def Spec.mulRate (F : Format) (N : Nat) : ℝ := N * F.u / (1 - N * F.u)
/-- The underflow of a row of one product. -/
noncomputable def Spec.mulPad (F : Format) (N : Nat) : ℝ := N * (N * F.eta / (1 - N * F.u))

/-- The bound of the error of a row after `n` products of matrices with row sums at most `β`, started with a matrix with row sums at most `ρ`. -/
noncomputable def Spec.chainErr (F : Format) (N n : Nat) (β ρ : ℝ) : ℝ :=
  ((1 + Spec.mulRate F N) ^ n - 1) * β ^ n * ρ + n * ((1 + Spec.mulRate F N) * β) ^ n * Spec.mulPad F N

/-! ## One product -/

private theorem row_mul {P A : Matrix (Fin N) (Fin N) ℝ} {β ρ : ℝ} {i : Fin N} (hA : ∀ k, ∑ j, |A k j| ≤ β) (hP : ∑ k, |P i k| ≤ ρ) (hβ : 0 ≤ β) :
    ∑ j, ∑ k, |P i k * A k j| ≤ ρ * β := by
  rw [Finset.sum_comm]
  calc ∑ k, ∑ j, |P i k * A k j| = ∑ k, |P i k| * ∑ j, |A k j| := Finset.sum_congr rfl fun k _ => by
        rw [Finset.mul_sum]; exact Finset.sum_congr rfl fun j _ => abs_mul _ _
    _ ≤ ∑ k, |P i k| * β := Finset.sum_le_sum fun k _ => mul_le_mul_of_nonneg_left (hA k) (abs_nonneg _)
    _ = (∑ k, |P i k|) * β := by rw [Finset.sum_mul]
    _ ≤ ρ * β := mul_le_mul_of_nonneg_right hP hβ

private theorem rate_nonneg (hN : N * F.u < 1) : 0 ≤ Spec.mulRate F N ∧ 0 ≤ Spec.mulPad F N := by
  have h := u_pos (F := F)
  have h' := eta_pos (F := F)
  have : 0 < 1 - (N : ℝ) * F.u := by linarith
  unfold Spec.mulRate Spec.mulPad
  constructor <;> positivity

private theorem err_step {n : Nat} {β ρ g t e : ℝ} (hβ : 1 ≤ β) (hρ : 0 ≤ ρ) (hg : 0 ≤ g) (ht : 0 ≤ t)
    (he : e ≤ ((1 + g) ^ n - 1) * β ^ n * ρ + n * ((1 + g) * β) ^ n * t) (he0 : 0 ≤ e) :
    e * β + (g * ((β ^ n * ρ + e) * β) + t) ≤ ((1 + g) ^ (n + 1) - 1) * β ^ (n + 1) * ρ + ((n + 1 : Nat) : ℝ) * ((1 + g) * β) ^ (n + 1) * t := by
  have h1 : e * ((1 + g) * β) ≤ (((1 + g) ^ n - 1) * β ^ n * ρ + n * ((1 + g) * β) ^ n * t) * ((1 + g) * β) :=
    mul_le_mul_of_nonneg_right he (by positivity)
  have h2 : (1 : ℝ) ≤ ((1 + g) * β) ^ (n + 1) := one_le_pow₀ (by nlinarith)
  have h3 : t ≤ ((1 + g) * β) ^ (n + 1) * t := by nlinarith
  have e1 : e * β + (g * ((β ^ n * ρ + e) * β) + t) = e * ((1 + g) * β) + g * β ^ (n + 1) * ρ + t := by ring
  have e2 : (((1 + g) ^ n - 1) * β ^ n * ρ + n * ((1 + g) * β) ^ n * t) * ((1 + g) * β) + g * β ^ (n + 1) * ρ + ((1 + g) * β) ^ (n + 1) * t =
      ((1 + g) ^ (n + 1) - 1) * β ^ (n + 1) * ρ + ((n + 1 : Nat) : ℝ) * ((1 + g) * β) ^ (n + 1) * t := by push_cast; ring
  rw [e1, ← e2]
  linarith

/-- One product: the state after `n` products is a finite matrix `r` and the exact product `P` of the values. -/
private theorem mul_step (h0 : 0 < F.emax) (cfg : Cfg) (hN : N * F.u < 1) {β ρ : ℝ} (hβ : 1 ≤ β) (hρ : 0 ≤ ρ) {n L : Nat} (hL : n < L)
    (hroom : ((1 + Spec.mulRate F N) * β) ^ L * (ρ + L * Spec.mulPad F N) + N * F.eta ≤ (1 - N * F.u) * F.maxFinite)
    (r a : Mat N N (Fp F)) (P : Matrix (Fin N) (Fin N) ℝ) (hr : ∀ i j, (r.get i j).Finite) (ha : ∀ i j, (a.get i j).Finite)
    (haβ : ∀ i, ∑ j, |(a.get i j).val| ≤ β) (hP : ∀ i, ∑ j, |P i j| ≤ β ^ n * ρ)
    (hd : ∀ i, ∑ j, |(r.get i j).val - P i j| ≤ Spec.chainErr F N n β ρ) :
    ∃ m, r.mul cfg a = .ok m ∧ (∀ i j, (m.get i j).Finite) ∧ (∀ i, ∑ j, |(P * Spec.fvals a) i j| ≤ β ^ (n + 1) * ρ) ∧
      ∀ i, ∑ j, |(m.get i j).val - (P * Spec.fvals a) i j| ≤ Spec.chainErr F N (n + 1) β ρ := by
  obtain ⟨g0, t0⟩ := rate_nonneg hN
  have hden : 0 < 1 - (N : ℝ) * F.u := by linarith
  have hη := eta_pos (F := F)
  have hβ0 : 0 ≤ β := by linarith
  obtain ⟨m, hm, h⟩ := C108_matrix_product h0 cfg r a hN
  have herr : ∀ i, ∑ j, |(r.get i j).val| ≤ β ^ n * ρ + Spec.chainErr F N n β ρ := fun i => by
    calc ∑ j, |(r.get i j).val| ≤ ∑ j, (|P i j| + |(r.get i j).val - P i j|) := Finset.sum_le_sum fun j _ => by
          have := abs_sub_abs_le_abs_sub (r.get i j).val (P i j); linarith
      _ = _ := Finset.sum_add_distrib
      _ ≤ _ := add_le_add (hP i) (hd i)
  have hce : β ^ n * ρ + Spec.chainErr F N n β ρ = ((1 + Spec.mulRate F N) * β) ^ n * (ρ + n * Spec.mulPad F N) := by
    unfold Spec.chainErr; rw [mul_pow]; ring
  have hprod : ∀ i, ∑ j, ∑ k, |(r.get i k).val * (a.get k j).val| ≤ (β ^ n * ρ + Spec.chainErr F N n β ρ) * β := fun i =>
    row_mul (P := Spec.fvals r) (A := Spec.fvals a) haβ (herr i) hβ0
  have hone : 1 ≤ (1 + Spec.mulRate F N) * β := by nlinarith
  have hfin : ∀ i j, (m.get i j).Finite := fun i j => by
    refine (h i j).2 (fun p => ⟨hr i p, ha p j⟩) (le_trans ?_ hroom)
    have h1 : ∑ k, |(r.get i k).val * (a.get k j).val| ≤ ∑ j, ∑ k, |(r.get i k).val * (a.get k j).val| :=
      Finset.single_le_sum (f := fun j => ∑ k, |(r.get i k).val * (a.get k j).val|) (fun _ _ => Finset.sum_nonneg fun _ _ => abs_nonneg _) (Finset.mem_univ j)
    have h2 := h1.trans (hprod i)
    rw [hce] at h2
    have h3 : ((1 + Spec.mulRate F N) * β) ^ n * (ρ + n * Spec.mulPad F N) * β ≤ ((1 + Spec.mulRate F N) * β) ^ L * (ρ + L * Spec.mulPad F N) := by
      calc ((1 + Spec.mulRate F N) * β) ^ n * (ρ + n * Spec.mulPad F N) * β ≤ ((1 + Spec.mulRate F N) * β) ^ n * (ρ + n * Spec.mulPad F N) * ((1 + Spec.mulRate F N) * β) :=
            mul_le_mul_of_nonneg_left (by nlinarith) (by positivity)
        _ = ((1 + Spec.mulRate F N) * β) ^ (n + 1) * (ρ + n * Spec.mulPad F N) := by ring
        _ ≤ _ := by
            have : (n : ℝ) ≤ L := by exact_mod_cast hL.le
            gcongr
            exact hL
    linarith
  refine ⟨m, hm, hfin, fun i => ?_, fun i => ?_⟩
  · calc ∑ j, |(P * Spec.fvals a) i j| ≤ ∑ j, ∑ k, |P i k * Spec.fvals a k j| := Finset.sum_le_sum fun j _ => by
          rw [Matrix.mul_apply]; exact Finset.abs_sum_le_sum_abs _ _
      _ ≤ β ^ n * ρ * β := row_mul haβ (hP i) hβ0
      _ = _ := by ring
  · obtain ⟨e, he⟩ : ∃ e, e = ∑ j, |(r.get i j).val - P i j| := ⟨_, rfl⟩
    have he0 : 0 ≤ e := by rw [he]; exact Finset.sum_nonneg fun _ _ => abs_nonneg _
    have hei := hd i
    rw [← he] at hei
    have hre : ∑ j, |(r.get i j).val| ≤ β ^ n * ρ + e := by
      calc ∑ j, |(r.get i j).val| ≤ ∑ j, (|P i j| + |(r.get i j).val - P i j|) := Finset.sum_le_sum fun j _ => by
            have := abs_sub_abs_le_abs_sub (r.get i j).val (P i j); linarith
        _ = _ := Finset.sum_add_distrib
        _ ≤ _ := by rw [← he]; linarith [hP i]
    have hq := row_mul (P := Spec.fvals r) (A := Spec.fvals a) haβ hre hβ0
    refine le_trans ?_ (err_step hβ hρ g0 t0 hei he0)
    have hcell : ∀ j, |(m.get i j).val - (P * Spec.fvals a) i j| ≤ ∑ k, |((r.get i k).val - P i k) * (a.get k j).val| +
        Spec.accErr F N (∑ k, |(r.get i k).val * (a.get k j).val|) := fun j => by
      have h1 := ((h i j).1 (hfin i j)).2
      have h2 : |∑ p, (r.get i p).val * (a.get p j).val - (P * Spec.fvals a) i j| ≤ ∑ k, |((r.get i k).val - P i k) * (a.get k j).val| := by
        rw [Matrix.mul_apply, ← Finset.sum_sub_distrib]
        refine le_trans (le_of_eq ?_) (Finset.abs_sum_le_sum_abs _ _)
        congr 1
        exact Finset.sum_congr rfl fun k _ => by rw [sub_mul]; rfl
      have := abs_sub_le (m.get i j).val (∑ p, (r.get i p).val * (a.get p j).val) ((P * Spec.fvals a) i j)
      linarith
    refine (Finset.sum_le_sum fun j _ => hcell j).trans ?_
    rw [Finset.sum_add_distrib]
    have k1 : ∑ j, ∑ k, |((r.get i k).val - P i k) * (a.get k j).val| ≤ e * β :=
      row_mul (P := fun i k => (r.get i k).val - P i k) (A := Spec.fvals a) haβ he.symm.le hβ0
    have k2 : ∑ j, Spec.accErr F N (∑ k, |(r.get i k).val * (a.get k j).val|) =
        Spec.mulRate F N * (∑ j, ∑ k, |(r.get i k).val * (a.get k j).val|) + Spec.mulPad F N := by
      unfold Spec.accErr Spec.mulRate Spec.mulPad
      simp only [add_div, Finset.sum_add_distrib, Finset.sum_const, Finset.card_univ, Fintype.card_fin, nsmul_eq_mul]
      rw [Finset.mul_sum]
      congr 1
      exact Finset.sum_congr rfl fun j _ => by ring
    have k3 : Spec.mulRate F N * (∑ j, ∑ k, |(r.get i k).val * (a.get k j).val|) ≤ Spec.mulRate F N * ((β ^ n * ρ + e) * β) :=
      mul_le_mul_of_nonneg_left hq g0
    linarith

/-! ## The theorems -/

/-- C150. Multiplying a matrix by any number of matrices with row sums of magnitudes at most `β`, in IEEE arithmetic: if the stated product leaves room below the largest number, no entry
overflows at any point, and every row is within the stated error of the row of the exact product, which grows linearly with the number of products. -/
theorem C150_chain (h0 : 0 < F.emax) (cfg : Cfg) (hN : N * F.u < 1) {β ρ : ℝ} (hβ : 1 ≤ β) (hρ : 0 ≤ ρ) (as : List (Mat N N (Fp F)))
    (has : ∀ a ∈ as, (∀ i j, (a.get i j).Finite) ∧ ∀ i, ∑ j, |(a.get i j).val| ≤ β) (r : Mat N N (Fp F)) (hr : ∀ i j, (r.get i j).Finite)
    (hrρ : ∀ i, ∑ j, |(r.get i j).val| ≤ ρ)
    (hroom : ((1 + Spec.mulRate F N) * β) ^ as.length * (ρ + as.length * Spec.mulPad F N) + N * F.eta ≤ (1 - N * F.u) * F.maxFinite) :
    ∃ m, as.foldlM (fun m a => Mat.mulAssign cfg m a) r = .ok m ∧ (∀ i j, (m.get i j).Finite) ∧
      ∀ i, ∑ j, |(m.get i j).val - Spec.chain (Spec.fvals r) as i j| ≤ Spec.chainErr F N as.length β ρ := by
  have key : ∀ (bs : List (Mat N N (Fp F))) (n : Nat) (r : Mat N N (Fp F)) (P : Matrix (Fin N) (Fin N) ℝ), (∀ b ∈ bs, b ∈ as) → n + bs.length = as.length →
      (∀ i j, (r.get i j).Finite) → (∀ i, ∑ j, |P i j| ≤ β ^ n * ρ) → (∀ i, ∑ j, |(r.get i j).val - P i j| ≤ Spec.chainErr F N n β ρ) →
      ∃ m, bs.foldlM (fun m a => Mat.mulAssign cfg m a) r = .ok m ∧ (∀ i j, (m.get i j).Finite) ∧
        ∀ i, ∑ j, |(m.get i j).val - Spec.chain P bs i j| ≤ Spec.chainErr F N as.length β ρ := by
    intro bs
    induction bs with
    | nil =>
      intro n r P _ hn hr _ hd
      obtain rfl : n = as.length := by simpa using hn
      exact ⟨r, rfl, hr, hd⟩
    | cons b bs ih =>
      intro n r P hmem hn hr hP hd
      obtain ⟨hb1, hb2⟩ := has b (hmem b (by simp))
      obtain ⟨m, hm, m1, m2, m3⟩ := mul_step h0 cfg hN hβ hρ (n := n) (L := as.length) (by simp at hn; omega) hroom r b P hr hb1 hb2 hP hd
      obtain ⟨m', hm', k1, k2⟩ := ih (n + 1) m (P * Spec.fvals b) (fun c hc => hmem c (by simp [hc])) (by simp at hn; omega) m1 m2 m3
      refine ⟨m', ?_, k1, k2⟩
      rw [List.foldlM_cons]
      have : r.mulAssign cfg b = .ok m := by
        have := C113_assign cfg [(b, 0)] r
        simp only [List.foldlM, hm, bind_ok] at this
        cases h : r.mulAssign cfg b with
        | error e => rw [h] at this; exact this
        | ok x => rw [h] at this; exact this
      rw [this]
      exact hm'
  refine key as 0 r (Spec.fvals r) (fun _ h => h) (by simp) hr (fun i => by rw [pow_zero, one_mul]; exact hrρ i) (fun i => ?_)
  simp [Spec.chainErr, Spec.fvals]

private theorem chain_rows {β ρ : ℝ} (hβ : 0 ≤ β) (as : List (Mat N N (Fp F))) (has : ∀ a ∈ as, ∀ i, ∑ j, |(a.get i j).val| ≤ β) :
    ∀ (P : Matrix (Fin N) (Fin N) ℝ) (ρ : ℝ), (∀ i, ∑ j, |P i j| ≤ ρ) → ∀ i, ∑ j, |Spec.chain P as i j| ≤ β ^ as.length * ρ := by
  induction as with
  | nil => intro P ρ h i; simpa [Spec.chain] using h i
  | cons a as ih =>
    intro P ρ h i
    have := ih (fun b hb => has b (by simp [hb])) (P * Spec.fvals a) (ρ * β) (fun i => ?_) i
    · refine this.trans (le_of_eq ?_)
      rw [List.length_cons]; ring
    · calc ∑ j, |(P * Spec.fvals a) i j| ≤ ∑ j, ∑ k, |P i k * Spec.fvals a k j| := Finset.sum_le_sum fun j _ => by
            rw [Matrix.mul_apply]; exact Finset.abs_sum_le_sum_abs _ _
        _ ≤ ρ * β := row_mul (has a (by simp)) (h i) hβ

/-- C150. Transforming a vector by the accumulated matrix: each component is within the stated error of the exact transformation by all the matrices. -/
theorem C150_vector (h0 : 0 < F.emax) (cfg : Cfg) (hN : N * F.u < 1) {β ρ V : ℝ} (hβ : 1 ≤ β) (hρ : 0 ≤ ρ) (as : List (Mat N N (Fp F)))
    (has : ∀ a ∈ as, (∀ i j, (a.get i j).Finite) ∧ ∀ i, ∑ j, |(a.get i j).val| ≤ β) (r : Mat N N (Fp F)) (hr : ∀ i j, (r.get i j).Finite)
    (hrρ : ∀ i, ∑ j, |(r.get i j).val| ≤ ρ)
    (hroom : ((1 + Spec.mulRate F N) * β) ^ as.length * (ρ + as.length * Spec.mulPad F N) + N * F.eta ≤ (1 - N * F.u) * F.maxFinite)
    (v : Vec N (Fp F)) (hv : ∀ k : Fin N, v[k].Finite ∧ |v[k].val| ≤ V)
    (hroomV : ((1 + Spec.mulRate F N) * β) ^ as.length * (ρ + as.length * Spec.mulPad F N) * V + N * F.eta ≤ (1 - N * F.u) * F.maxFinite) :
    ∃ m w, as.foldlM (fun m a => Mat.mulAssign cfg m a) r = .ok m ∧ m.mulVec cfg v = .ok w ∧ ∀ i : Fin N, w[i].Finite ∧
      |w[i].val - ∑ k : Fin N, Spec.chain (Spec.fvals r) as i k * v[k].val| ≤
        Spec.chainErr F N as.length β ρ * V + Spec.accErr F N ((β ^ as.length * ρ + Spec.chainErr F N as.length β ρ) * V) := by
  obtain ⟨m, hm, m1, m2⟩ := C150_chain h0 cfg hN hβ hρ as has r hr hrρ hroom
  obtain ⟨w, hw, h⟩ := C108_matrix_vector h0 cfg m v hN
  have hrow : ∀ i, ∑ j, |(m.get i j).val| ≤ β ^ as.length * ρ + Spec.chainErr F N as.length β ρ := fun i => by
    have h1 := chain_rows (ρ := ρ) (by linarith) as (fun a ha => (has a ha).2) (Spec.fvals r) ρ hrρ i
    calc ∑ j, |(m.get i j).val| ≤ ∑ j, (|Spec.chain (Spec.fvals r) as i j| + |(m.get i j).val - Spec.chain (Spec.fvals r) as i j|) := Finset.sum_le_sum fun j _ => by
          have := abs_sub_abs_le_abs_sub (m.get i j).val (Spec.chain (Spec.fvals r) as i j); linarith
      _ = _ := Finset.sum_add_distrib
      _ ≤ _ := add_le_add h1 (m2 i)
  have hce : β ^ as.length * ρ + Spec.chainErr F N as.length β ρ = ((1 + Spec.mulRate F N) * β) ^ as.length * (ρ + as.length * Spec.mulPad F N) := by
    unfold Spec.chainErr; rw [mul_pow]; ring
  refine ⟨m, w, hm, hw, fun i => ?_⟩
  have hV : 0 ≤ V := (abs_nonneg _).trans (hv i).2
  have hS : ∑ p : Fin N, |(m.get i p).val * v[p].val| ≤ (β ^ as.length * ρ + Spec.chainErr F N as.length β ρ) * V := by
    calc ∑ p : Fin N, |(m.get i p).val * v[p].val| ≤ ∑ p : Fin N, |(m.get i p).val| * V := Finset.sum_le_sum fun p _ => by
          rw [abs_mul]; exact mul_le_mul_of_nonneg_left (hv p).2 (abs_nonneg _)
      _ = (∑ p : Fin N, |(m.get i p).val|) * V := by rw [Finset.sum_mul]
      _ ≤ _ := mul_le_mul_of_nonneg_right (hrow i) hV
  have hfin : w[i].Finite := (h i).2 (fun p => ⟨m1 i p, (hv p).1⟩) (by rw [hce] at hS; linarith)
  refine ⟨hfin, ?_⟩
  have h1 := ((h i).1 hfin).2
  have h2 : |∑ p : Fin N, (m.get i p).val * v[p].val - ∑ k : Fin N, Spec.chain (Spec.fvals r) as i k * v[k].val| ≤ Spec.chainErr F N as.length β ρ * V := by
    rw [← Finset.sum_sub_distrib]
    calc |∑ p : Fin N, ((m.get i p).val * v[p].val - Spec.chain (Spec.fvals r) as i p * v[p].val)|
        ≤ ∑ p : Fin N, |(m.get i p).val * v[p].val - Spec.chain (Spec.fvals r) as i p * v[p].val| := Finset.abs_sum_le_sum_abs _ _
      _ ≤ ∑ p : Fin N, |(m.get i p).val - Spec.chain (Spec.fvals r) as i p| * V := Finset.sum_le_sum fun p _ => by
          rw [← sub_mul, abs_mul]; exact mul_le_mul_of_nonneg_left (hv p).2 (abs_nonneg _)
      _ = (∑ p : Fin N, |(m.get i p).val - Spec.chain (Spec.fvals r) as i p|) * V := by rw [Finset.sum_mul]
      _ ≤ _ := mul_le_mul_of_nonneg_right (m2 i) hV
  have h3 : Spec.accErr F N (∑ p : Fin N, |(m.get i p).val * v[p].val|) ≤ Spec.accErr F N ((β ^ as.length * ρ + Spec.chainErr F N as.length β ρ) * V) := by
    have hu := u_pos (F := F)
    have : 0 < 1 - (N : ℝ) * F.u := by linarith
    unfold Spec.accErr
    gcongr
  have := abs_sub_le w[i].val (∑ p : Fin N, (m.get i p).val * v[p].val) (∑ k : Fin N, Spec.chain (Spec.fvals r) as i k * v[k].val)
  linarith

/-! ## A concrete case -/

/-- Fifty 4 x 4 `float` matrices with row sums of at most 2: the rate is below `3e-7` per product, and the room suffices. -/
example : Spec.mulRate single 4 ≤ 3e-7 ∧
    ((1 + Spec.mulRate single 4) * 2) ^ 50 * (2 + 50 * Spec.mulPad single 4) + 4 * single.eta ≤ (1 - 4 * single.u) * single.maxFinite := by
  have h1 : Spec.mulRate single 4 ≤ 3e-7 := by norm_num [Spec.mulRate, u]
  have h2 : Spec.mulPad single 4 ≤ 1 := by norm_num [Spec.mulPad, u, eta, emin]
  have hu : 4 * single.u < 1 := by norm_num [u]
  obtain ⟨g0, t0⟩ := rate_nonneg (F := single) (N := 4) (by exact_mod_cast hu)
  refine ⟨h1, ?_⟩
  have h3 : ((1 + Spec.mulRate single 4) * 2) ^ 50 ≤ (4 : ℝ) ^ 50 := by gcongr; norm_num at h1; linarith
  have h4 : ((1 + Spec.mulRate single 4) * 2) ^ 50 * (2 + 50 * Spec.mulPad single 4) ≤ 4 ^ 50 * 52 := by gcongr; linarith
  have h5 : (4 : ℝ) ^ 50 * 52 + 4 * single.eta ≤ (1 - 4 * single.u) * single.maxFinite := by norm_num [u, eta, emin, maxFinite]
  linarith

/-- Forty products by the 2 x 2 matrix of ones, all in `float`: the result exists, is finite, and is within the bound of the exact product. -/
example (cfg : Cfg) (a : Mat 2 2 (Fp single)) (ha : ∀ i j, a.get i j = 1) :
    ∃ m, (List.replicate 40 a).foldlM (fun m a => Mat.mulAssign cfg m a) a = .ok m ∧ (∀ i j, (m.get i j).Finite) ∧
      ∀ i, ∑ j, |(m.get i j).val - Spec.chain (Spec.fvals a) (List.replicate 40 a) i j| ≤ Spec.chainErr single 2 40 2 2 := by
  have h0 : 0 < single.emax := by decide
  have hone := Fp.one_fin (F := single) h0
  have hf : ∀ i j, (a.get i j).Finite := fun i j => by rw [ha]; exact hone.1
  have hs : ∀ i, ∑ j, |(a.get i j).val| ≤ (2 : ℝ) := fun i => by simp [ha, hone.2]
  have hu : ((2 : ℕ) : ℝ) * single.u < 1 := by norm_num [u]
  have h1 : Spec.mulRate single 2 ≤ 1 := by norm_num [Spec.mulRate, u]
  have h2 : Spec.mulPad single 2 ≤ 1 := by norm_num [Spec.mulPad, u, eta, emin]
  obtain ⟨g0, t0⟩ := rate_nonneg (F := single) (N := 2) hu
  have h4 : ((1 + Spec.mulRate single 2) * 2) ^ 40 * (2 + 40 * Spec.mulPad single 2) ≤ 4 ^ 40 * 42 := by gcongr <;> linarith
  have h5 : (4 : ℝ) ^ 40 * 42 + 2 * single.eta ≤ (1 - 2 * single.u) * single.maxFinite := by norm_num [u, eta, emin, maxFinite]
  have := C150_chain h0 cfg hu (β := 2) (ρ := 2) (by norm_num) (by norm_num) (List.replicate 40 a)
    (fun b hb => by rw [List.eq_of_mem_replicate hb]; exact ⟨hf, hs⟩) a hf hs (by rw [List.length_replicate]; push_cast; linarith)
  rwa [List.length_replicate] at this

end Vmml
