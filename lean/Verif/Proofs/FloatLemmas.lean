import Verif.Model.Float
import Mathlib.Analysis.Real.Sqrt

/-!
# Facts about `Format.rnd` and the operations of `Fp`
-/

namespace Vmml
namespace Format
variable {F : Format}

/-! ## Rounding -/

theorem nearest_neg (y : ℝ) : nearest (-y) = -nearest y := by
  by_cases hi : (⌊y⌋ : ℝ) = y
  · rw [← hi, ← Int.cast_neg, nearest_int, nearest_int]
  have h1 := Int.floor_le y
  have h2 := Int.lt_floor_add_one y
  have h3 : (⌊y⌋ : ℝ) < y := lt_of_le_of_ne h1 hi
  have hf : ⌊-y⌋ = -⌊y⌋ - 1 := by
    rw [Int.floor_eq_iff]; push_cast; constructor <;> linarith
  unfold nearest
  rw [hf]
  push_cast
  rcases lt_trichotomy (y - ⌊y⌋) (1 / 2) with h | h | h
  · rw [if_neg (by linarith), if_pos (by linarith), if_pos h]; ring
  · have a1 : ¬ (-y - (-(⌊y⌋ : ℝ) - 1) < 1 / 2) := by linarith
    have a2 : ¬ (1 / 2 < -y - (-(⌊y⌋ : ℝ) - 1)) := by linarith
    have a3 : ¬ (y - (⌊y⌋ : ℝ) < 1 / 2) := by linarith
    have a4 : ¬ (1 / 2 < y - (⌊y⌋ : ℝ)) := by linarith
    rw [if_neg a1, if_neg a2, if_neg a3, if_neg a4]
    by_cases he : Even ⌊y⌋
    · have : ¬ Even (-⌊y⌋ - 1) := by rw [Int.even_sub, even_neg]; simp [he]
      rw [if_neg this, if_pos he]; ring
    · have : Even (-⌊y⌋ - 1) := by rw [Int.even_sub, even_neg]; simp [he]
      rw [if_pos this, if_neg he]; ring
  · rw [if_pos (by linarith), if_neg (by linarith), if_pos h]; ring

theorem nearest_le {y : ℝ} {n : Int} (h : y ≤ n) : nearest y ≤ n := by
  by_contra hc
  have h1 := (abs_le.1 (nearest_err y)).2
  have h2 : (n : ℝ) + 1 ≤ nearest y := by exact_mod_cast (by omega : n + 1 ≤ nearest y)
  linarith

theorem le_nearest {y : ℝ} {n : Int} (h : (n : ℝ) ≤ y) : n ≤ nearest y := by
  have := nearest_le (y := -y) (n := -n) (by push_cast; linarith)
  rw [nearest_neg] at this
  omega

/-- No integer is nearer. -/
theorem nearest_best (y : ℝ) (n : Int) : |(nearest y : ℝ) - y| ≤ |(n : ℝ) - y| := by
  by_cases hn : n = nearest y
  · rw [hn]
  refine (nearest_err y).trans ?_
  by_contra hc
  push Not at hc
  have h1 := abs_le.1 (nearest_err y)
  have h2 := abs_lt.1 hc
  rcases lt_or_gt_of_ne hn with h | h
  · have : (n : ℝ) + 1 ≤ nearest y := by exact_mod_cast (by omega : n + 1 ≤ nearest y)
    linarith
  · have : (nearest y : ℝ) + 1 ≤ n := by exact_mod_cast (by omega : nearest y + 1 ≤ n)
    linarith

theorem lastExp_neg (x : ℝ) : F.lastExp (-x) = F.lastExp x := by simp [lastExp]
theorem rnd_neg (x : ℝ) : F.rnd (-x) = -F.rnd x := by
  unfold rnd
  rw [lastExp_neg, neg_div, nearest_neg]
  push_cast; ring
theorem rnd_abs (x : ℝ) : F.rnd |x| = |F.rnd x| := by
  rcases le_total 0 x with h | h
  · rw [abs_of_nonneg h, abs_of_nonneg (rnd_nonneg h)]
  · have : 0 ≤ F.rnd (-x) := rnd_nonneg (by linarith)
    rw [abs_of_nonpos h, abs_of_nonpos (by rw [rnd_neg] at this; linarith), rnd_neg]
@[simp] theorem rnd_zero : F.rnd 0 = 0 := by
  have : nearest (0 : ℝ) = 0 := by simpa using nearest_int 0
  simp [rnd, this]

/-- The unit roundoff `2^-(p+1)`. -/
noncomputable def u (F : Format) : ℝ := (2 : ℝ)⁻¹ ^ (F.p + 1)
/-- Half of the smallest positive number: the rounding error below the normal range. -/
noncomputable def eta (F : Format) : ℝ := 1 / 2 * (2 : ℝ) ^ (F.emin - F.p)
theorem u_pos : 0 < F.u := by unfold u; positivity
theorem eta_pos : 0 < F.eta := by unfold eta; positivity

theorem rnd_err_normal {x : ℝ} (h : (2 : ℝ) ^ F.emin ≤ |x|) : |F.rnd x - x| ≤ F.u * |x| := by
  have h0 : (0 : ℝ) < |x| := lt_of_lt_of_le (by positivity) h
  have hl : F.emin ≤ Int.log 2 |x| := by
    rw [← Int.zpow_le_iff_le_log (by norm_num) h0]; exact_mod_cast h
  refine (rnd_err x).trans ?_
  have e : F.lastExp x = Int.log 2 |x| - F.p := by unfold lastExp; rw [max_eq_left hl]
  rw [e, u]
  have h2 : (2 : ℝ) ^ Int.log 2 |x| ≤ |x| := by exact_mod_cast Int.zpow_log_le_self (b := 2) (by norm_num) h0
  calc 1 / 2 * (2 : ℝ) ^ (Int.log 2 |x| - F.p) = (2 : ℝ)⁻¹ ^ (F.p + 1) * (2 : ℝ) ^ Int.log 2 |x| := by
        rw [zpow_sub₀ (by norm_num), zpow_natCast, pow_succ, inv_pow]; ring
    _ ≤ _ := by gcongr

theorem lastExp_small {x : ℝ} (hx : x ≠ 0) (h : |x| < (2 : ℝ) ^ F.emin) : F.lastExp x = F.emin - F.p := by
  unfold lastExp
  rw [max_eq_right]
  have : Int.log 2 |x| < F.emin := by
    rw [← Int.lt_zpow_iff_log_lt (by norm_num) (abs_pos.2 hx)]; exact_mod_cast h
  omega

theorem rnd_err_small {x : ℝ} (h : |x| < (2 : ℝ) ^ F.emin) : |F.rnd x - x| ≤ F.eta := by
  by_cases hx : x = 0
  · subst hx; simpa using eta_pos.le
  have := rnd_err (F := F) x
  rwa [lastExp_small hx h] at this

theorem rnd_err_add (x : ℝ) : |F.rnd x - x| ≤ F.u * |x| + F.eta := by
  have h1 : 0 ≤ F.u * |x| := mul_nonneg u_pos.le (abs_nonneg _)
  have h2 := eta_pos (F := F)
  rcases lt_or_ge |x| ((2 : ℝ) ^ F.emin) with h | h
  · linarith [rnd_err_small h]
  · linarith [rnd_err_normal h]

/-- Integer multiples of the smallest positive number. -/
def Grid (F : Format) (x : ℝ) : Prop := ∃ k : Int, x = k * (2 : ℝ) ^ (F.emin - F.p)
theorem Rep.grid {x : ℝ} (h : F.Rep x) : F.Grid x := by
  obtain ⟨k, e, he, -, rfl⟩ := h
  refine ⟨k * 2 ^ (e - (F.emin - F.p)).toNat, ?_⟩
  push_cast
  rw [← zpow_natCast, mul_assoc, ← zpow_add₀ (by norm_num)]
  congr 2
  omega
theorem Grid.add {x y : ℝ} (hx : F.Grid x) (hy : F.Grid y) : F.Grid (x + y) := by
  obtain ⟨k, rfl⟩ := hx
  obtain ⟨l, rfl⟩ := hy
  exact ⟨k + l, by push_cast; ring⟩
theorem Grid.neg {x : ℝ} (hx : F.Grid x) : F.Grid (-x) := by
  obtain ⟨k, rfl⟩ := hx
  exact ⟨-k, by push_cast; ring⟩

/-- Below the normal range the multiples of the smallest number are representable. -/
theorem Grid.rnd_small {x : ℝ} (hg : F.Grid x) (h : |x| < (2 : ℝ) ^ F.emin) : F.rnd x = x := by
  by_cases hx : x = 0
  · subst hx; exact rnd_zero
  obtain ⟨k, rfl⟩ := hg
  unfold rnd
  rw [lastExp_small hx h]
  have : (k : ℝ) * (2 : ℝ) ^ (F.emin - F.p) / (2 : ℝ) ^ (F.emin - F.p) = k := by field_simp
  rw [this, nearest_int]

/-- On the grid (that is, for sums) the rounding error is relative. -/
theorem Grid.rnd_err {x : ℝ} (hg : F.Grid x) : |F.rnd x - x| ≤ F.u * |x| := by
  rcases lt_or_ge |x| ((2 : ℝ) ^ F.emin) with h | h
  · rw [hg.rnd_small h]; simpa using mul_nonneg u_pos.le (abs_nonneg x)
  · exact rnd_err_normal h

/-- A representable number at least as large as `x` is a multiple of the spacing at `x`. -/
theorem Rep.multiple {x y : ℝ} (hy : F.Rep y) (h : (2 : ℝ) ^ Int.log 2 |x| ≤ |y|) (hx : x ≠ 0) :
    ∃ n : Int, y = n * (2 : ℝ) ^ F.lastExp x := by
  obtain ⟨k, e, he, hk, rfl⟩ := hy
  by_cases hle : F.lastExp x ≤ e
  · refine ⟨k * 2 ^ (e - F.lastExp x).toNat, ?_⟩
    push_cast
    rw [← zpow_natCast, mul_assoc, ← zpow_add₀ (by norm_num)]
    congr 2
    omega
  · push Not at hle
    -- the exponent is that of `x`, and `k` has all digits
    have hlog : F.lastExp x = Int.log 2 |x| - F.p := by
      unfold lastExp at hle ⊢
      rw [max_def] at hle ⊢
      split_ifs at hle ⊢ with h1
      · omega
      · rfl
    rw [abs_mul, abs_of_pos (by positivity : (0 : ℝ) < (2 : ℝ) ^ e)] at h
    have hk' : |(k : ℝ)| ≤ (2 : ℝ) ^ (F.p + 1) := by exact_mod_cast hk
    have h3 : (2 : ℝ) ^ Int.log 2 |x| ≤ (2 : ℝ) ^ ((F.p : Int) + 1 + e) := by
      refine h.trans ?_
      rw [zpow_add₀ (by norm_num)]
      gcongr
      exact_mod_cast hk'
    have h4 : Int.log 2 |x| ≤ (F.p : Int) + 1 + e := by
      by_contra hc
      push Not at hc
      exact absurd h3 (not_le.2 (zpow_lt_zpow_right₀ (by norm_num) hc))
    have h5 : Int.log 2 |x| = (F.p : Int) + 1 + e := by omega
    have h6 : |(k : ℝ)| = (2 : ℝ) ^ (F.p + 1) := by
      refine le_antisymm hk' ?_
      rw [h5, zpow_add₀ (by norm_num)] at h
      have := le_of_mul_le_mul_right h (by positivity)
      exact_mod_cast this
    have h7 : |k| = 2 ^ (F.p + 1) := by exact_mod_cast h6
    obtain ⟨k', rfl⟩ : (2 : Int) ∣ k := by
      rw [← dvd_abs, h7, pow_succ]; exact Dvd.intro_left _ rfl
    refine ⟨k', ?_⟩
    rw [show F.lastExp x = e + 1 by omega, zpow_add_one₀ (by norm_num)]
    push_cast; ring

theorem Rep.rnd_eq {x : ℝ} (h : F.Rep x) : F.rnd x = x := by
  by_cases hx : x = 0
  · subst hx; exact rnd_zero
  obtain ⟨n, hn⟩ := h.multiple (x := x) (by exact_mod_cast Int.zpow_log_le_self (b := 2) (by norm_num) (abs_pos.2 hx)) hx
  unfold rnd
  have : x / (2 : ℝ) ^ F.lastExp x = n := by
    rw [div_eq_iff (by positivity)]; exact hn
  rw [this, nearest_int, ← hn]

theorem rep_pow {e : Int} (h : F.emin - F.p ≤ e) : F.Rep ((2 : ℝ) ^ e) :=
  ⟨1, e, h, by simpa using one_le_pow₀ (by norm_num), by simp⟩

/-- Rounding is to a nearest representable number. -/
theorem rnd_best (x y : ℝ) (hy : F.Rep y) : |F.rnd x - x| ≤ |y - x| := by
  by_cases hx : x = 0
  · subst hx; simp
  have hpos : (0 : ℝ) < (2 : ℝ) ^ F.lastExp x := by positivity
  -- multiples of the spacing
  have key : ∀ n : Int, |F.rnd x - x| ≤ |(n : ℝ) * (2 : ℝ) ^ F.lastExp x - x| := by
    intro n
    have h := mul_le_mul_of_nonneg_right (nearest_best (x / (2 : ℝ) ^ F.lastExp x) n) hpos.le
    rw [← abs_of_pos hpos, ← abs_mul, ← abs_mul, abs_of_pos hpos, sub_mul, sub_mul, div_mul_cancel₀ _ hpos.ne'] at h
    exact h
  by_cases hle : (2 : ℝ) ^ Int.log 2 |x| ≤ |y|
  · obtain ⟨n, rfl⟩ := hy.multiple hle hx
    exact key n
  · push Not at hle
    have hlog : (2 : ℝ) ^ Int.log 2 |x| ≤ |x| := by exact_mod_cast Int.zpow_log_le_self (b := 2) (by norm_num) (abs_pos.2 hx)
    by_cases hmin : Int.log 2 |x| < F.emin
    · -- everything representable is a multiple
      obtain ⟨k, hk⟩ := hy.grid
      have hsm : F.lastExp x = F.emin - F.p := by unfold lastExp; rw [max_eq_right hmin.le]
      have := key k
      rw [hsm, ← hk] at this
      exact this
    · push Not at hmin
      have hsm : F.lastExp x = Int.log 2 |x| - F.p := by unfold lastExp; rw [max_eq_left hmin]
      have hp : ((2 ^ F.p : Int) : ℝ) * (2 : ℝ) ^ F.lastExp x = (2 : ℝ) ^ Int.log 2 |x| := by
        push_cast
        rw [hsm, ← zpow_natCast, ← zpow_add₀ (by norm_num)]; congr 1; ring
      have hb : |F.rnd x - x| ≤ |x| - (2 : ℝ) ^ Int.log 2 |x| := by
        rcases le_total 0 x with h0 | h0
        · have := key (2 ^ F.p)
          rw [hp] at this
          rw [abs_of_nonneg h0] at hlog this ⊢
          refine this.trans (le_of_eq ?_)
          rw [abs_of_nonpos (by linarith)]; ring
        · have := key (-2 ^ F.p)
          have e : (((-2 ^ F.p : Int)) : ℝ) * (2 : ℝ) ^ F.lastExp x = -(2 : ℝ) ^ Int.log 2 |x| := by
            rw [← hp]; push_cast; ring
          rw [e] at this
          rw [abs_of_nonpos h0] at hlog this ⊢
          refine this.trans (le_of_eq ?_)
          rw [abs_of_nonneg (by linarith)]; ring
      have h3 := abs_sub_abs_le_abs_sub x y
      rw [abs_sub_comm y x]
      linarith

theorem rnd_le {x y : ℝ} (hy : F.Rep y) (h0 : 0 ≤ x) (h : x ≤ y) : F.rnd x ≤ y := by
  by_cases hx : x = 0
  · subst hx; rw [rnd_zero]; exact h
  have hpos : (0 : ℝ) < (2 : ℝ) ^ F.lastExp x := by positivity
  obtain ⟨n, rfl⟩ := hy.multiple (x := x) (by
    refine le_trans ?_ (h.trans (le_abs_self y))
    have : (2 : ℝ) ^ Int.log 2 |x| ≤ |x| := by exact_mod_cast Int.zpow_log_le_self (b := 2) (by norm_num) (abs_pos.2 hx)
    rwa [abs_of_nonneg h0] at this ⊢) hx
  unfold rnd
  gcongr
  exact nearest_le (by rwa [div_le_iff₀ hpos])

theorem rep_max (h0 : 0 < F.emax) : F.Rep F.maxFinite := by
  refine ⟨2 ^ (F.p + 1) - 1, F.emax - F.p, by unfold emin; omega, ?_, by unfold maxFinite; push_cast; rfl⟩
  rw [abs_of_nonneg]
  · omega
  · have : (1 : Int) ≤ 2 ^ (F.p + 1) := one_le_pow₀ (by norm_num)
    omega

theorem le_rnd_pow {x : ℝ} {e : Int} (he : F.emin ≤ e) (h : (2 : ℝ) ^ e ≤ x) : (2 : ℝ) ^ e ≤ F.rnd x := by
  have hx : 0 < x := lt_of_lt_of_le (by positivity) h
  have hl : e ≤ Int.log 2 x := by rw [← Int.zpow_le_iff_le_log (by norm_num) hx]; exact_mod_cast h
  have hlog : (2 : ℝ) ^ Int.log 2 x ≤ x := by exact_mod_cast Int.zpow_log_le_self (b := 2) (by norm_num) hx
  have hsm : F.lastExp x = Int.log 2 x - F.p := by unfold lastExp; rw [abs_of_pos hx, max_eq_left (by omega)]
  have hp : ((2 ^ F.p : Int) : ℝ) * (2 : ℝ) ^ F.lastExp x = (2 : ℝ) ^ Int.log 2 x := by
    push_cast
    rw [hsm, ← zpow_natCast, ← zpow_add₀ (by norm_num)]; congr 1; ring
  have hpos : (0 : ℝ) < (2 : ℝ) ^ F.lastExp x := by positivity
  calc (2 : ℝ) ^ e ≤ (2 : ℝ) ^ Int.log 2 x := zpow_le_zpow_right₀ (by norm_num) hl
    _ = ((2 ^ F.p : Int) : ℝ) * (2 : ℝ) ^ F.lastExp x := hp.symm
    _ ≤ _ := by
      unfold rnd
      gcongr
      exact le_nearest (by rw [le_div_iff₀ hpos, hp]; exact hlog)

theorem maxFinite_lt : F.maxFinite < (2 : ℝ) ^ ((F.emax : Int) + 1) := by
  unfold maxFinite
  have e : (2 : ℝ) ^ ((F.emax : Int) + 1) = (2 : ℝ) ^ (F.p + 1) * (2 : ℝ) ^ ((F.emax : Int) - F.p) := by
    rw [← zpow_natCast, ← zpow_add₀ (by norm_num)]; congr 1; push_cast; ring
  rw [e]
  have h2 : (0 : ℝ) < (2 : ℝ) ^ ((F.emax : Int) - F.p) := by positivity
  nlinarith

theorem one_le_max (h0 : 0 < F.emax) : 1 ≤ F.maxFinite := by
  unfold maxFinite
  have h1 : (1 : ℝ) ≤ (2 : ℝ) ^ ((F.emax : Int)) := one_le_zpow₀ (by norm_num) (by omega)
  have h2 : (1 : ℝ) ≤ (2 : ℝ) ^ F.p := one_le_pow₀ (by norm_num)
  have e : (2 : ℝ) ^ ((F.emax : Int) - F.p) = (2 : ℝ) ^ (F.emax : Int) / (2 : ℝ) ^ F.p := by
    rw [zpow_sub₀ (by norm_num), zpow_natCast (2 : ℝ) F.p]
  rw [e, pow_succ, mul_div_assoc', le_div_iff₀ (by positivity)]
  nlinarith
end Format

namespace Fp
open Format
variable {F : Format}

/-! ## Operations on finite values -/

theorem round_eq {s : Bool} {x : ℝ} (h0 : 0 ≤ x) (h : F.rnd x ≤ F.maxFinite) : (round s x : Fp F) = fin s (F.rnd x) (mag_rnd h0 h) :=
  dif_pos ⟨h0, h⟩
theorem round_inf {s : Bool} {x : ℝ} (h : F.maxFinite < F.rnd x) : (round s x : Fp F) = inf s :=
  dif_neg fun hc => absurd hc.2 (not_le.2 h)
theorem round_nan_free (s : Bool) (x : ℝ) : (round s x : Fp F) ≠ nan := by
  unfold round; split_ifs <;> simp
@[simp] theorem finite_fin {s : Bool} {m : ℝ} {h : F.Mag m} : (fin s m h).Finite := trivial
@[simp] theorem val_fin {s : Bool} {m : ℝ} {h : F.Mag m} : (fin s m h).val = if s then -m else m := rfl
@[simp] theorem val_zero : (0 : Fp F).val = 0 := by show (if false then -(0 : ℝ) else 0) = 0; simp
@[simp] theorem finite_zero : (0 : Fp F).Finite := trivial

theorem finite_cases {a : Fp F} (h : a.Finite) : ∃ s m hm, a = fin s m hm := by
  cases a with
  | nan => exact absurd h id
  | inf s => exact absurd h id
  | fin s m hm => exact ⟨s, m, hm, rfl⟩

theorem rep_val {a : Fp F} (h : a.Finite) : F.Rep a.val := by
  obtain ⟨s, m, hm, rfl⟩ := finite_cases h
  obtain ⟨k, e, he, hk, hm2⟩ := hm.2.1
  cases s
  · exact ⟨k, e, he, hk, by simp [hm2]⟩
  · exact ⟨-k, e, he, by rwa [abs_neg], by simp [hm2]⟩

theorem abs_val_le (a : Fp F) : |a.val| ≤ F.maxFinite := by
  cases a with
  | nan => simpa [val] using maxFinite_pos.le
  | inf s => simpa [val] using maxFinite_pos.le
  | fin s m hm => cases s <;> simp [abs_of_nonneg hm.1, hm.2.2]

theorem rnd_fits (h0 : 0 < F.emax) {x : ℝ} (h : |x| ≤ F.maxFinite) : F.rnd |x| ≤ F.maxFinite := rnd_le (rep_max h0) (abs_nonneg x) h

/-- The rounded result with the sign of the exact one. -/
theorem round_signed (h0 : 0 < F.emax) {x : ℝ} {s : Bool} (hs : x ≠ 0 → (s = true ↔ x < 0)) (h : |x| ≤ F.maxFinite) :
    (round s |x| : Fp F).Finite ∧ (round s |x| : Fp F).val = F.rnd x := by
  rw [round_eq (abs_nonneg x) (rnd_fits h0 h)]
  refine ⟨trivial, ?_⟩
  rw [val_fin]
  by_cases hx : x = 0
  · subst hx; simp
  rcases lt_or_gt_of_ne hx with hlt | hgt
  · rw [if_pos ((hs hx).2 hlt), abs_of_neg hlt, rnd_neg, neg_neg]
  · rw [if_neg (fun hc => absurd ((hs hx).1 hc) (not_lt.2 hgt.le)), abs_of_pos hgt]

theorem add_fin (h0 : 0 < F.emax) {a b : Fp F} (ha : a.Finite) (hb : b.Finite) (h : |a.val + b.val| ≤ F.maxFinite) :
    (a + b).Finite ∧ (a + b).val = F.rnd (a.val + b.val) := by
  obtain ⟨s, m, hm, rfl⟩ := finite_cases ha
  obtain ⟨t, n, hn, rfl⟩ := finite_cases hb
  show (if (fin s m hm).val + (fin t n hn).val = 0 then fin (s && t) 0 mag_zero else
    round (decide ((fin s m hm).val + (fin t n hn).val < 0)) |(fin s m hm).val + (fin t n hn).val| : Fp F).Finite ∧
    (if (fin s m hm).val + (fin t n hn).val = 0 then fin (s && t) 0 mag_zero else
    round (decide ((fin s m hm).val + (fin t n hn).val < 0)) |(fin s m hm).val + (fin t n hn).val| : Fp F).val = _
  split_ifs with hz
  · refine ⟨trivial, ?_⟩
    rw [hz]; simp
  · exact round_signed h0 (fun _ => decide_eq_true_iff) h

theorem val_neg (a : Fp F) : (-a).val = -a.val := by
  cases a with
  | nan => show (0 : ℝ) = -0; simp
  | inf s => show (0 : ℝ) = -0; simp
  | fin s m hm => show (if !s then -m else m) = -(if s then -m else m); cases s <;> simp
theorem finite_neg {a : Fp F} (h : a.Finite) : (-a).Finite := by
  obtain ⟨s, m, hm, rfl⟩ := finite_cases h
  trivial

theorem sub_fin (h0 : 0 < F.emax) {a b : Fp F} (ha : a.Finite) (hb : b.Finite) (h : |a.val - b.val| ≤ F.maxFinite) :
    (a - b).Finite ∧ (a - b).val = F.rnd (a.val - b.val) := by
  have := add_fin h0 ha (finite_neg hb) (by rwa [val_neg, ← sub_eq_add_neg])
  rwa [val_neg, ← sub_eq_add_neg] at this

theorem val_mul_abs (s t : Bool) (m n : ℝ) (hm : 0 ≤ m) (hn : 0 ≤ n) :
    |(if s then -m else m) * (if t then -n else n)| = m * n := by
  rw [abs_mul]; cases s <;> cases t <;> simp [abs_of_nonneg, hm, hn]

theorem mul_fin (h0 : 0 < F.emax) {a b : Fp F} (ha : a.Finite) (hb : b.Finite) (h : |a.val * b.val| ≤ F.maxFinite) :
    (a * b).Finite ∧ (a * b).val = F.rnd (a.val * b.val) := by
  obtain ⟨s, m, hm, rfl⟩ := finite_cases ha
  obtain ⟨t, n, hn, rfl⟩ := finite_cases hb
  show (round (s ^^ t) (m * n) : Fp F).Finite ∧ (round (s ^^ t) (m * n) : Fp F).val = _
  rw [← val_mul_abs s t m n hm.1 hn.1]
  refine round_signed h0 (fun hne => ?_) h
  have hm' : 0 < m := lt_of_le_of_ne hm.1 (fun hc => hne (by rw [← hc]; simp))
  have hn' : 0 < n := lt_of_le_of_ne hn.1 (fun hc => hne (by rw [← hc]; simp))
  have := mul_pos hm' hn'
  cases s <;> cases t <;> simp <;> linarith

theorem div_fin (h0 : 0 < F.emax) {a b : Fp F} (ha : a.Finite) (hb : b.Finite) (hz : b.val ≠ 0) (h : |a.val / b.val| ≤ F.maxFinite) :
    (a / b).Finite ∧ (a / b).val = F.rnd (a.val / b.val) := by
  obtain ⟨s, m, hm, rfl⟩ := finite_cases ha
  obtain ⟨t, n, hn, rfl⟩ := finite_cases hb
  have hn0 : n ≠ 0 := fun hc => hz (by simp [hc])
  have e : (fin s m hm / fin t n hn : Fp F) = round (s ^^ t) (m / n) := if_neg hn0
  rw [e]
  have e2 : m / n = |(fin s m hm).val / (fin t n hn).val| := by
    rw [val_fin, val_fin, abs_div]
    cases s <;> cases t <;> simp [abs_of_nonneg, hm.1, hn.1]
  rw [e2]
  refine round_signed h0 (fun hne => ?_) h
  have hm' : 0 < m := lt_of_le_of_ne hm.1 (fun hc => hne (by simp [← hc]))
  have hn' : 0 < n := lt_of_le_of_ne hn.1 (Ne.symm hn0)
  have := div_pos hm' hn'
  have e3 : -m / n = -(m / n) := neg_div _ _
  have e4 : m / -n = -(m / n) := div_neg _
  cases s <;> cases t <;> simp [neg_div, div_neg] <;> linarith

theorem sqrt_fin (h0 : 0 < F.emax) {a : Fp F} (ha : a.Finite) (hz : 0 ≤ a.val) :
    (CMath.sqrt a).Finite ∧ (CMath.sqrt a).val = F.rnd (Real.sqrt a.val) := by
  obtain ⟨s, m, hm, rfl⟩ := finite_cases ha
  show (if m = 0 then fin s m hm else if s then nan else round false (Real.sqrt m) : Fp F).Finite ∧
    (if m = 0 then fin s m hm else if s then nan else round false (Real.sqrt m) : Fp F).val = _
  by_cases h : m = 0
  · subst h
    rw [if_pos rfl]
    refine ⟨trivial, ?_⟩
    simp
  · rw [if_neg h]
    have hm' : 0 < m := lt_of_le_of_ne hm.1 (Ne.symm h)
    have hs : s = false := by
      cases s
      · rfl
      · simp at hz; linarith
    subst hs
    simp only [Bool.false_eq_true, if_false, val_fin]
    have hle : Real.sqrt m ≤ F.maxFinite := by
      rw [Real.sqrt_le_iff]
      refine ⟨maxFinite_pos.le, hm.2.2.trans ?_⟩
      have := one_le_max (F := F) h0
      nlinarith
    have hle' : F.rnd (Real.sqrt m) ≤ F.maxFinite := rnd_le (rep_max h0) (Real.sqrt_nonneg m) hle
    rw [round_eq (Real.sqrt_nonneg m) hle']
    exact ⟨trivial, by simp⟩

theorem one_fin (h0 : 0 < F.emax) : (1 : Fp F).Finite ∧ (1 : Fp F).val = 1 := by
  have hr : F.Rep 1 := by simpa using rep_pow (F := F) (e := 0) (by unfold emin; omega)
  have h1 : F.rnd 1 = 1 := hr.rnd_eq
  have e : (1 : Fp F) = fin false (F.rnd 1) (mag_rnd (by norm_num) (by rw [h1]; exact one_le_max h0)) :=
    round_eq (by norm_num) (by rw [h1]; exact one_le_max h0)
  rw [e]
  exact ⟨trivial, by simp [h1]⟩

/-! ## A finite result comes from finite operands and is the rounded exact one -/

theorem round_finite {s : Bool} {x : ℝ} (h : (round s |x| : Fp F).Finite) (hs : x ≠ 0 → (s = true ↔ x < 0)) :
    (round s |x| : Fp F).val = F.rnd x := by
  by_cases hle : F.rnd |x| ≤ F.maxFinite
  · rw [round_eq (abs_nonneg x) hle, val_fin]
    by_cases hx : x = 0
    · subst hx; simp
    rcases lt_or_gt_of_ne hx with hlt | hgt
    · rw [if_pos ((hs hx).2 hlt), abs_of_neg hlt, rnd_neg, neg_neg]
    · rw [if_neg (fun hc => absurd ((hs hx).1 hc) (not_lt.2 hgt.le)), abs_of_pos hgt]
  · rw [round_inf (not_le.1 hle)] at h
    exact absurd h id

theorem add_finite {a b : Fp F} (h : (a + b).Finite) : a.Finite ∧ b.Finite ∧ (a + b).val = F.rnd (a.val + b.val) := by
  cases a with
  | nan => exact absurd h id
  | inf s =>
    cases b with
    | nan => exact absurd h id
    | inf t =>
      have : (inf s + inf t : Fp F) = if s = t then inf s else nan := rfl
      rw [this] at h
      split_ifs at h <;> exact absurd h id
    | fin t n hn => exact absurd h id
  | fin s m hm =>
    cases b with
    | nan => exact absurd h id
    | inf t => exact absurd h id
    | fin t n hn =>
      refine ⟨trivial, trivial, ?_⟩
      have e : (fin s m hm + fin t n hn : Fp F) = if (fin s m hm).val + (fin t n hn).val = 0 then fin (s && t) 0 mag_zero else
        round (@decide ((fin s m hm).val + (fin t n hn).val < 0) (Classical.propDecidable _)) |(fin s m hm).val + (fin t n hn).val| := rfl
      rw [e] at h ⊢
      split_ifs at h ⊢ with hz
      · rw [hz]; simp
      · exact round_finite h (fun _ => decide_eq_true_iff)

theorem sub_finite {a b : Fp F} (h : (a - b).Finite) : a.Finite ∧ b.Finite ∧ (a - b).val = F.rnd (a.val - b.val) := by
  obtain ⟨h1, h2, h3⟩ := add_finite (a := a) (b := -b) h
  refine ⟨h1, ?_, ?_⟩
  · cases b with
    | nan => exact absurd h2 id
    | inf t => exact absurd h2 id
    | fin t n hn => trivial
  · rw [val_neg, ← sub_eq_add_neg] at h3; exact h3

theorem mul_finite {a b : Fp F} (h : (a * b).Finite) : a.Finite ∧ b.Finite ∧ (a * b).val = F.rnd (a.val * b.val) := by
  cases a with
  | nan => exact absurd h id
  | inf s =>
    cases b with
    | nan => exact absurd h id
    | inf t => exact absurd h id
    | fin t n hn =>
      have : (inf s * fin t n hn : Fp F) = @ite _ (n = 0) (Classical.propDecidable _) nan (inf (s ^^ t)) := rfl
      rw [this] at h
      split_ifs at h <;> exact absurd h id
  | fin s m hm =>
    cases b with
    | nan => exact absurd h id
    | inf t =>
      have : (fin s m hm * inf t : Fp F) = @ite _ (m = 0) (Classical.propDecidable _) nan (inf (s ^^ t)) := rfl
      rw [this] at h
      split_ifs at h <;> exact absurd h id
    | fin t n hn =>
      refine ⟨trivial, trivial, ?_⟩
      have e : (fin s m hm * fin t n hn : Fp F) = round (s ^^ t) (m * n) := rfl
      rw [e, ← val_mul_abs s t m n hm.1 hn.1] at h ⊢
      refine round_finite h (fun hne => ?_)
      have hm' : 0 < m := lt_of_le_of_ne hm.1 (fun hc => hne (by rw [← hc]; simp))
      have hn' : 0 < n := lt_of_le_of_ne hn.1 (fun hc => hne (by rw [← hc]; simp))
      have := mul_pos hm' hn'
      cases s <;> cases t <;> simp <;> linarith

theorem sqrt_finite {a : Fp F} (h0 : 0 < F.emax) (h : (CMath.sqrt a).Finite) :
    a.Finite ∧ 0 ≤ a.val ∧ (CMath.sqrt a).val = F.rnd (Real.sqrt a.val) := by
  cases a with
  | nan => exact absurd h id
  | inf s => cases s <;> exact absurd h id
  | fin s m hm =>
    have hv : 0 ≤ (fin s m hm).val := by
      have e : CMath.sqrt (fin s m hm) = @ite _ (m = 0) (Classical.propDecidable _) (fin s m hm) (if s then nan else round false (Real.sqrt m)) := rfl
      rw [e] at h
      split_ifs at h with h1 h2
      · simp [h1]
      · exact absurd h id
      · simp [h2, hm.1]
    exact ⟨trivial, hv, (sqrt_fin h0 finite_fin hv).2⟩
end Fp
end Vmml
