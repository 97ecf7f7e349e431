import Verif.Proofs.FApprox
import Verif.Props.FloatFilter

/-!
# Rounding twice

A quotient of two numbers of a format, rounded first to a format with more than twice as many digits and then to the format itself, is the correctly rounded quotient.
-/

namespace Vmml
open Format
variable {F D : Format}

private theorem zpow_half (e : Int) : (2 : ℝ) ^ e = 2 * (2 : ℝ) ^ (e - 1) := by
  rw [zpow_sub₀ (by norm_num)]; ring

private theorem emin_le_lastExp (x : ℝ) : F.emin - F.p ≤ F.lastExp x := by unfold lastExp; omega

/-- If the first rounding moves `q` by less than its distance from each of the points half way between two numbers of the format, the second one finds the right number. -/
theorem double_rounding {q : ℝ} (hq : 0 < q) (hp : F.p + 2 ≤ D.p) (he : D.emin - D.p ≤ F.emin - F.p - 1)
    (hfar : ∀ k : Int, q = k * (2 : ℝ) ^ (F.lastExp q - 1) ∨ |D.rnd q - q| < |k * (2 : ℝ) ^ (F.lastExp q - 1) - q|) :
    F.rnd (D.rnd q) = F.rnd q := by
  obtain ⟨E, hE⟩ : ∃ E, E = F.lastExp q := ⟨_, rfl⟩
  obtain ⟨n, hn⟩ : ∃ n, n = nearest (q / (2 : ℝ) ^ E) := ⟨_, rfl⟩
  have hf : F.rnd q = n * (2 : ℝ) ^ E := by unfold rnd; rw [hn, hE]
  have hE0 : F.emin - F.p ≤ E := by rw [hE]; exact emin_le_lastExp q
  rw [← hE] at hfar
  obtain ⟨w, hw⟩ : ∃ w, w = (2 : ℝ) ^ (E - 1) := ⟨_, rfl⟩
  have hw0 : 0 < w := by rw [hw]; positivity
  have hwE : (2 : ℝ) ^ E = 2 * w := by rw [hw]; exact zpow_half E
  have herr : |n * (2 * w) - q| ≤ w := by
    have := rnd_err (F := F) q
    rw [hf, ← hE, hwE] at this
    linarith
  have hnb : |n| ≤ 2 ^ (F.p + 1) := by
    -- the significand of the rounded number
    have hq2 : q < (2 : ℝ) ^ (F.p + 1) * (2 : ℝ) ^ E := by
      rw [← zpow_natCast, ← zpow_add₀ (by norm_num)]
      calc q = |q| := (abs_of_pos hq).symm
        _ < (2 : ℝ) ^ (Int.log 2 |q| + 1) := by exact_mod_cast Int.lt_zpow_succ_log_self (b := 2) (by norm_num) |q|
        _ ≤ _ := by
          apply zpow_le_zpow_right₀ (by norm_num)
          rw [hE]; unfold lastExp; push_cast; omega
    have h1 : q / (2 : ℝ) ^ E ≤ ((2 ^ (F.p + 1) : Int) : ℝ) := by
      push_cast
      rw [div_le_iff₀ (by positivity)]; exact hq2.le
    have h2 : n ≤ 2 ^ (F.p + 1) := by rw [hn]; exact nearest_le h1
    have h3 : 0 ≤ n := by rw [hn]; exact nearest_nonneg (by positivity)
    rw [abs_of_nonneg h3]; exact h2
  have hbig : (2 : Int) * 2 ^ (F.p + 1) + 1 ≤ 2 ^ (D.p + 1) := by
    have h1 : (2 : Int) ^ (F.p + 3) ≤ 2 ^ (D.p + 1) := pow_le_pow_right₀ (by norm_num) (by omega)
    have h2 : (2 : Int) ^ (F.p + 3) = 4 * 2 ^ (F.p + 1) := by ring
    have h3 : (1 : Int) ≤ 2 ^ (F.p + 1) := one_le_pow₀ (by norm_num)
    omega
  have hrep : ∀ k : Int, |k - 2 * n| ≤ 1 → D.Rep (k * w) := by
    intro k hk
    refine ⟨k, E - 1, by omega, ?_, by rw [hw]⟩
    have := abs_le.1 hk
    have := abs_le.1 hnb
    rw [abs_le]
    constructor <;> omega
  have hlo : ((2 * n - 1 : Int) : ℝ) * w ≤ q := by push_cast; have := (abs_le.1 herr).2; linarith
  have hhi : q ≤ ((2 * n + 1 : Int) : ℝ) * w := by push_cast; have := (abs_le.1 herr).1; linarith
  by_cases hex : ∃ k : Int, q = k * w
  · obtain ⟨k, hk⟩ := hex
    have : D.Rep q := by
      rw [hk]
      apply hrep
      rw [hk] at hlo hhi
      have h1 : ((2 * n - 1 : Int) : ℝ) ≤ k := le_of_mul_le_mul_right hlo hw0
      have h2 : (k : ℝ) ≤ ((2 * n + 1 : Int) : ℝ) := le_of_mul_le_mul_right hhi hw0
      have h1 : 2 * n - 1 ≤ k := by exact_mod_cast h1
      have h2 : k ≤ 2 * n + 1 := by exact_mod_cast h2
      rw [abs_le]; constructor <;> omega
    rw [this.rnd_eq]
  push Not at hex
  have zlo := rep_le_rnd (hrep (2 * n - 1) (by rw [abs_le]; constructor <;> omega)) hlo
  have zhi := rnd_le_rep (hrep (2 * n + 1) (by rw [abs_le]; constructor <;> omega)) hhi
  have f1 := (hfar (2 * n - 1)).resolve_left (by rw [← hw]; exact hex _)
  have f2 := (hfar (2 * n + 1)).resolve_left (by rw [← hw]; exact hex _)
  rw [← hw] at f1 f2
  set z := D.rnd q with hz
  have hzn : |n * (2 * w) - z| < w := by
    have s1 : ((2 * n - 1 : Int) : ℝ) * w - q ≤ 0 := by linarith
    have s2 : 0 ≤ ((2 * n + 1 : Int) : ℝ) * w - q := by linarith
    rw [abs_of_nonpos s1] at f1
    rw [abs_of_nonneg s2] at f2
    have a1 := (abs_lt.1 f1).1
    have a2 := (abs_lt.1 f2).2
    push_cast at a1 a2
    rw [abs_lt]
    constructor <;> linarith
  have hfrep : F.Rep (n * (2 * w)) := by rw [← hwE, ← hf]; exact rnd_rep q
  have hbest := rnd_best (F := F) z _ hfrep
  have hgn : |F.rnd z - n * (2 * w)| < 2 * w := by
    calc |F.rnd z - n * (2 * w)| = |(F.rnd z - z) + (z - n * (2 * w))| := by congr 1; ring
      _ ≤ |F.rnd z - z| + |z - n * (2 * w)| := abs_add_le _ _
      _ < 2 * w := by rw [abs_sub_comm z]; linarith
  obtain ⟨m, hm⟩ : ∃ m : Int, F.rnd z = m * (2 : ℝ) ^ E := by
    by_cases hsm : E = F.emin - F.p
    · rw [hsm]; exact (rnd_rep z).grid
    have hlog : F.emin ≤ Int.log 2 |q| := by
      by_contra hc
      apply hsm
      rw [hE]; unfold lastExp; rw [max_eq_right (by omega)]
    rw [hE]
    refine (rnd_rep z).multiple ?_ hq.ne'
    have h1 : (2 : ℝ) ^ Int.log 2 |q| ≤ q := by
      have := Int.zpow_log_le_self (b := 2) (by norm_num) (abs_pos.2 hq.ne')
      rw [abs_of_pos hq] at this ⊢
      exact_mod_cast this
    have hr : F.Rep ((2 : ℝ) ^ Int.log 2 |q|) := rep_pow (by omega)
    have hr' : D.Rep ((2 : ℝ) ^ Int.log 2 |q|) := rep_pow (by omega)
    exact (rep_le_rnd hr (rep_le_rnd hr' h1)).trans (le_abs_self _)
  rw [hf, hm]
  have : m = n := by
    rw [hm, hwE, ← sub_mul, abs_mul, abs_of_pos (by linarith : 0 < 2 * w)] at hgn
    have h1 : |(m : ℝ) - n| < 1 := by
      by_contra hc
      push Not at hc
      nlinarith
    have h2 : |m - n| < 1 := by exact_mod_cast h1
    have := abs_lt.1 h2
    omega
  rw [this]

/-- The quotient of two numbers of a format is either half way between two numbers of the format or clearly away from it. -/
private theorem quotient_far {a b : ℝ} (ha : F.Rep a) (hb : F.Rep b) (ha0 : 0 < a) (hb0 : 0 < b) (hp : 2 * F.p + 2 ≤ D.p) (k : Int) :
    a / b = k * (2 : ℝ) ^ (F.lastExp (a / b) - 1) ∨ D.u * (a / b) < |k * (2 : ℝ) ^ (F.lastExp (a / b) - 1) - a / b| := by
  obtain ⟨A, i, -, hA, rfl⟩ := ha
  obtain ⟨B, j, -, hB, rfl⟩ := hb
  have pi0 : (0 : ℝ) < (2 : ℝ) ^ i := by positivity
  have pj0 : (0 : ℝ) < (2 : ℝ) ^ j := by positivity
  have hA0 : (0 : ℝ) < A := by by_contra hc; push Not at hc; nlinarith
  have hB0 : (0 : ℝ) < B := by by_contra hc; push Not at hc; nlinarith
  have hA1 : (A : ℝ) ≤ (2 : ℝ) ^ (F.p + 1) := by exact_mod_cast (le_abs_self A).trans hA
  have hB1 : (B : ℝ) ≤ (2 : ℝ) ^ (F.p + 1) := by exact_mod_cast (le_abs_self B).trans hB
  obtain ⟨q, hq⟩ : ∃ q, q = A * (2 : ℝ) ^ i / (B * (2 : ℝ) ^ j) := ⟨_, rfl⟩
  have hq0 : 0 < q := by rw [hq]; positivity
  rw [← hq]
  obtain ⟨E, hE⟩ : ∃ E, E = F.lastExp q := ⟨_, rfl⟩
  rw [← hE]
  by_cases hex : q = k * (2 : ℝ) ^ (E - 1)
  · exact Or.inl hex
  right
  have hqB : q * (B * (2 : ℝ) ^ j) = A * (2 : ℝ) ^ i := by rw [hq]; field_simp
  have hqlt : q < (2 : ℝ) ^ (E + F.p + 1) := by
    calc q = |q| := (abs_of_pos hq0).symm
      _ < (2 : ℝ) ^ (Int.log 2 |q| + 1) := by exact_mod_cast Int.lt_zpow_succ_log_self (b := 2) (by norm_num) |q|
      _ ≤ _ := by
        apply zpow_le_zpow_right₀ (by norm_num)
        rw [hE]; unfold lastExp; omega
  have hu : D.u = (2 : ℝ) ^ (-(D.p : Int) - 1) := by
    unfold u
    rw [inv_pow, ← zpow_natCast, ← zpow_neg]
    congr 1; push_cast; ring
  rcases le_or_gt (E - 1 + j) i with hij | hij
  · -- the difference is a multiple of `2^(E-1) / B`
    obtain ⟨d, hd⟩ : ∃ d : ℕ, i = E - 1 + j + d := ⟨(i - (E - 1 + j)).toNat, by omega⟩
    have e1 : (k * (2 : ℝ) ^ (E - 1) - q) * B = ((k * B - A * 2 ^ d : Int) : ℝ) * (2 : ℝ) ^ (E - 1) := by
      have h1 : (2 : ℝ) ^ i = (2 : ℝ) ^ (E - 1) * (2 : ℝ) ^ j * (2 : ℝ) ^ d := by
        rw [hd, zpow_add₀ (by norm_num), zpow_add₀ (by norm_num), zpow_natCast]
      have h2 : q * B = A * ((2 : ℝ) ^ (E - 1) * (2 : ℝ) ^ d) := by
        have : q * B * (2 : ℝ) ^ j = A * ((2 : ℝ) ^ (E - 1) * (2 : ℝ) ^ d) * (2 : ℝ) ^ j := by
          rw [mul_assoc, hqB, h1]; ring
        exact mul_right_cancel₀ pj0.ne' this
      rw [sub_mul, h2]; push_cast; ring
    have hne : k * B - A * 2 ^ d ≠ 0 := by
      intro h
      rw [h] at e1
      simp only [Int.cast_zero, zero_mul] at e1
      rcases mul_eq_zero.1 e1 with h | h
      · exact hex (by linarith)
      · linarith
    have h1 : (1 : ℝ) ≤ |((k * B - A * 2 ^ d : Int) : ℝ)| := by
      rw [← Int.cast_abs]
      exact_mod_cast Int.one_le_abs hne
    have h2 : (2 : ℝ) ^ (E - 1) ≤ |k * (2 : ℝ) ^ (E - 1) - q| * B := by
      have : |(k * (2 : ℝ) ^ (E - 1) - q) * B| = |((k * B - A * 2 ^ d : Int) : ℝ)| * (2 : ℝ) ^ (E - 1) := by
        rw [e1, abs_mul, abs_of_pos (by positivity : (0 : ℝ) < (2 : ℝ) ^ (E - 1))]
      rw [abs_mul, abs_of_pos hB0] at this
      rw [this]
      exact le_mul_of_one_le_left (by positivity) h1
    have h3 : (2 : ℝ) ^ (E - 1) ≤ |k * (2 : ℝ) ^ (E - 1) - q| * (2 : ℝ) ^ (F.p + 1) := h2.trans (mul_le_mul_of_nonneg_left hB1 (abs_nonneg _))
    have h4 : (2 : ℝ) ^ (E - 1) = (2 : ℝ) ^ (E - 2 - F.p) * (2 : ℝ) ^ (F.p + 1) := by
      rw [← zpow_natCast, ← zpow_add₀ (by norm_num)]; congr 1; push_cast; ring
    have h5 : (2 : ℝ) ^ (E - 2 - F.p) ≤ |k * (2 : ℝ) ^ (E - 1) - q| := by
      exact le_of_mul_le_mul_right (h4.symm.le.trans h3) (by positivity)
    refine lt_of_lt_of_le ?_ h5
    rw [hu]
    calc (2 : ℝ) ^ (-(D.p : Int) - 1) * q < (2 : ℝ) ^ (-(D.p : Int) - 1) * (2 : ℝ) ^ (E + F.p + 1) := mul_lt_mul_of_pos_left hqlt (by positivity)
      _ = (2 : ℝ) ^ (-(D.p : Int) - 1 + (E + F.p + 1)) := (zpow_add₀ (by norm_num) _ _).symm
      _ ≤ _ := zpow_le_zpow_right₀ (by norm_num) (by omega)
  · -- the difference is a multiple of `2^(i-j) / B`
    obtain ⟨d, hd⟩ : ∃ d : ℕ, E - 1 + j = i + d := ⟨(E - 1 + j - i).toNat, by omega⟩
    have e1 : (k * (2 : ℝ) ^ (E - 1) - q) * (B * (2 : ℝ) ^ j) = ((k * B * 2 ^ d - A : Int) : ℝ) * (2 : ℝ) ^ i := by
      have h1 : (2 : ℝ) ^ (E - 1) * (2 : ℝ) ^ j = (2 : ℝ) ^ i * (2 : ℝ) ^ d := by
        rw [← zpow_add₀ (by norm_num), hd, zpow_add₀ (by norm_num), zpow_natCast]
      rw [sub_mul, hqB]
      push_cast
      calc k * (2 : ℝ) ^ (E - 1) * (B * (2 : ℝ) ^ j) - A * (2 : ℝ) ^ i = k * B * ((2 : ℝ) ^ (E - 1) * (2 : ℝ) ^ j) - A * (2 : ℝ) ^ i := by ring
        _ = _ := by rw [h1]; ring
    have hne : k * B * 2 ^ d - A ≠ 0 := by
      intro h
      rw [h] at e1
      simp only [Int.cast_zero, zero_mul] at e1
      rcases mul_eq_zero.1 e1 with h | h
      · exact hex (by linarith)
      · have : 0 < B * (2 : ℝ) ^ j := by positivity
        linarith
    have h1 : (1 : ℝ) ≤ |((k * B * 2 ^ d - A : Int) : ℝ)| := by
      rw [← Int.cast_abs]
      exact_mod_cast Int.one_le_abs hne
    have hBj : 0 < B * (2 : ℝ) ^ j := by positivity
    have h2 : (2 : ℝ) ^ i ≤ |k * (2 : ℝ) ^ (E - 1) - q| * (B * (2 : ℝ) ^ j) := by
      have : |(k * (2 : ℝ) ^ (E - 1) - q) * (B * (2 : ℝ) ^ j)| = |((k * B * 2 ^ d - A : Int) : ℝ)| * (2 : ℝ) ^ i := by
        rw [e1, abs_mul, abs_of_pos pi0]
      rw [abs_mul, abs_of_pos hBj] at this
      rw [this]
      exact le_mul_of_one_le_left pi0.le h1
    have h3 : D.u * A < 1 := by
      calc D.u * A ≤ D.u * (2 : ℝ) ^ (F.p + 1) := mul_le_mul_of_nonneg_left hA1 u_pos.le
        _ = (2 : ℝ) ^ (-(D.p : Int) + F.p) := by
          rw [hu, ← zpow_natCast, ← zpow_add₀ (by norm_num)]; congr 1; push_cast; ring
        _ < 1 := zpow_lt_one_of_neg₀ (by norm_num) (by omega)
    have h4 : D.u * q * (B * (2 : ℝ) ^ j) < |k * (2 : ℝ) ^ (E - 1) - q| * (B * (2 : ℝ) ^ j) := by
      refine lt_of_lt_of_le ?_ h2
      calc D.u * q * (B * (2 : ℝ) ^ j) = D.u * A * (2 : ℝ) ^ i := by rw [mul_assoc, hqB]; ring
        _ < 1 * (2 : ℝ) ^ i := mul_lt_mul_of_pos_right h3 pi0
        _ = _ := one_mul _
    exact lt_of_mul_lt_mul_right h4 hBj.le

/-- A quotient rounded twice. -/
theorem rnd_quotient {a b : ℝ} (ha : F.Rep a) (hb : F.Rep b) (ha0 : 0 < a) (hb0 : 0 < b) (hp : 2 * F.p + 2 ≤ D.p) (he : F.emax + 1 ≤ D.emax)
    (hn : (2 : ℝ) ^ D.emin ≤ a / b) : F.rnd (D.rnd (a / b)) = F.rnd (a / b) := by
  have hq : 0 < a / b := by positivity
  refine double_rounding hq (by omega) (by unfold emin; omega) fun k => ?_
  refine (quotient_far (D := D) ha hb ha0 hb0 hp k).imp id fun h => lt_of_le_of_lt ?_ h
  have := rnd_err_normal (F := D) (x := a / b) (by rw [abs_of_pos hq]; exact hn)
  rwa [abs_of_pos hq] at this

end Vmml
