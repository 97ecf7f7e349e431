import Verif.Model.Vector
import Verif.Model.Matrix
import Verif.Model.MatrixStats
import Mathlib.Data.Int.Log
import Mathlib.Algebra.Order.Round
import Mathlib.Tactic.Linarith
import Mathlib.Tactic.Positivity
import Mathlib.Tactic.FieldSimp

/-!
# Rounded arithmetic

The scalar type of the model is a parameter. Here it is instantiated by reals on which every operation is rounded: `x + y` is `rnd ( x + y )`
etc. Overflow and underflow are not represented (unbounded exponent). This file models no vmmlib function.
-/

namespace Vmml

/-- A rounding function with relative error at most `u` that leaves its own results unchanged, as IEEE 754 round-to-nearest in the absence of
overflow and underflow. -/
structure Rounding (u : ℝ) where
  rnd : ℝ → ℝ
  err : ∀ x, |rnd x - x| ≤ u * |x|
  idem : ∀ x, rnd (rnd x) = rnd x

theorem Rounding.nonneg {u : ℝ} (ρ : Rounding u) : 0 ≤ u := by
  have h := ρ.err 1
  simp only [abs_one, mul_one] at h
  exact le_trans (abs_nonneg _) h

/-- The scalar type with rounded operations. -/
def Fl {u : ℝ} (_ρ : Rounding u) := ℝ

namespace Fl
variable {u : ℝ} {ρ : Rounding u}
/-- The represented real number. -/
def val (x : Fl ρ) : ℝ := x
/-- A real number as a scalar. -/
def of (x : ℝ) : Fl ρ := x
instance : Zero (Fl ρ) := ⟨of 0⟩
instance : One (Fl ρ) := ⟨of 1⟩
noncomputable instance : Add (Fl ρ) := ⟨fun x y => of (ρ.rnd (x.val + y.val))⟩
noncomputable instance : Sub (Fl ρ) := ⟨fun x y => of (ρ.rnd (x.val - y.val))⟩
noncomputable instance : Mul (Fl ρ) := ⟨fun x y => of (ρ.rnd (x.val * y.val))⟩
noncomputable instance : Div (Fl ρ) := ⟨fun x y => of (ρ.rnd (x.val / y.val))⟩
/-- Only `sqrt` and `fabs` are used by the theorems: `sqrt` is correctly rounded, `fabs` exact. -/
noncomputable instance : CMath (Fl ρ) where
  sqrt := fun x => of (ρ.rnd (Real.sqrt x.val))
  fabs := fun x => of |x.val|
  sin := fun x => of (ρ.rnd (Real.sin x.val))
  cos := fun x => of (ρ.rnd (Real.cos x.val))
  tan := fun x => of (ρ.rnd (Real.tan x.val))
  acos := fun x => of (ρ.rnd (Real.arccos x.val))
  pow := fun x y => of (ρ.rnd (x.val ^ y.val))
  atan2 := fun y x => of (ρ.rnd (Complex.arg ⟨x.val, y.val⟩))
theorem val_add (x y : Fl ρ) : (x + y).val = ρ.rnd (x.val + y.val) := rfl
theorem val_sub (x y : Fl ρ) : (x - y).val = ρ.rnd (x.val - y.val) := rfl
theorem val_mul (x y : Fl ρ) : (x * y).val = ρ.rnd (x.val * y.val) := rfl
theorem val_sqrt (x : Fl ρ) : (CMath.sqrt x).val = ρ.rnd (Real.sqrt x.val) := rfl
theorem val_div (x y : Fl ρ) : (x / y).val = ρ.rnd (x.val / y.val) := rfl
@[simp] theorem val_zero : (0 : Fl ρ).val = 0 := rfl
@[simp] theorem val_one : (1 : Fl ρ).val = 1 := rfl
/-- Negation is exact. -/
noncomputable instance : Neg (Fl ρ) := ⟨fun x => of (-x.val)⟩
theorem val_neg (x : Fl ρ) : (-x).val = -x.val := rfl
theorem val_fabs (x : Fl ρ) : (CMath.fabs x).val = |x.val| := rfl
/-- The order of the represented numbers. -/
instance : LE (Fl ρ) := ⟨fun x y => x.val ≤ y.val⟩
instance : LT (Fl ρ) := ⟨fun x y => x.val < y.val⟩
noncomputable instance : DecidableLE (Fl ρ) := fun _ _ => Classical.propDecidable _
noncomputable instance : DecidableLT (Fl ρ) := fun _ _ => Classical.propDecidable _
theorem le_iff (x y : Fl ρ) : x ≤ y ↔ x.val ≤ y.val := Iff.rfl
theorem lt_iff (x y : Fl ρ) : x < y ↔ x.val < y.val := Iff.rfl
/-- Comparison of the represented numbers. -/
noncomputable instance : BEq (Fl ρ) := ⟨fun x y => @decide (x.val = y.val) (Classical.propDecidable _)⟩
theorem beq_iff (x y : Fl ρ) : (x == y) = true ↔ x.val = y.val := by
  simp [BEq.beq]
end Fl

/-- Rounding to `p + 1` significant binary digits, to nearest, with unbounded exponent. -/
noncomputable def roundBin (p : Nat) (x : ℝ) : ℝ :=
  round (x / (2 : ℝ) ^ (Int.log 2 |x| - p)) * (2 : ℝ) ^ (Int.log 2 |x| - p)

theorem roundBin_err (p : Nat) (x : ℝ) : |roundBin p x - x| ≤ (2 : ℝ)⁻¹ ^ (p + 1) * |x| := by
  unfold roundBin
  by_cases hx : x = 0
  · simp [hx]
  set e := Int.log 2 |x| with he
  have hpos : (0 : ℝ) < (2 : ℝ) ^ (e - p) := by positivity
  have hlog : (2 : ℝ) ^ e ≤ |x| := by exact_mod_cast Int.zpow_log_le_self (b := 2) (by norm_num) (abs_pos.2 hx)
  have h1 := abs_sub_round (x / (2 : ℝ) ^ (e - p))
  have e1 : (round (x / (2 : ℝ) ^ (e - p)) : ℝ) * (2 : ℝ) ^ (e - p) - x
      = -(x / (2 : ℝ) ^ (e - p) - round (x / (2 : ℝ) ^ (e - p))) * (2 : ℝ) ^ (e - p) := by
    field_simp; ring
  rw [e1, abs_mul, abs_neg, abs_of_pos hpos]
  calc _ ≤ 1 / 2 * (2 : ℝ) ^ (e - p) := by gcongr
    _ = (2 : ℝ)⁻¹ ^ (p + 1) * (2 : ℝ) ^ e := by
      rw [zpow_sub₀ (by norm_num), zpow_natCast, pow_succ, inv_pow]; ring
    _ ≤ _ := by gcongr

theorem roundBin_idem (p : Nat) (x : ℝ) : roundBin p (roundBin p x) = roundBin p x := by
  by_cases hx : x = 0
  · simp [roundBin, hx]
  obtain ⟨e, he⟩ : ∃ e, e = Int.log 2 |x| := ⟨_, rfl⟩
  have hlo : (2 : ℝ) ^ e ≤ |x| := by rw [he]; exact_mod_cast Int.zpow_log_le_self (b := 2) (by norm_num) (abs_pos.2 hx)
  have hhi : |x| < (2 : ℝ) ^ (e + 1) := by rw [he]; exact_mod_cast Int.lt_zpow_succ_log_self (b := 2) (by norm_num) |x|
  have hpos : (0 : ℝ) < (2 : ℝ) ^ (e - p) := by positivity
  obtain ⟨k, hk⟩ : ∃ k, k = round (x / (2 : ℝ) ^ (e - p)) := ⟨_, rfl⟩
  have hr : roundBin p x = (k : ℝ) * (2 : ℝ) ^ (e - p) := by rw [hk, he]; rfl
  -- |k| lies between 2^p and 2^(p+1)
  have hy : |x / (2 : ℝ) ^ (e - p)| = |x| / (2 : ℝ) ^ (e - p) := by rw [abs_div, abs_of_pos hpos]
  have hk1 : ((2 ^ p : Int) : ℝ) ≤ |x / (2 : ℝ) ^ (e - p)| := by
    rw [hy, le_div_iff₀ hpos, zpow_sub₀ (by norm_num), zpow_natCast]
    push_cast
    calc (2 : ℝ) ^ p * ((2 : ℝ) ^ e / 2 ^ p) = (2 : ℝ) ^ e := by field_simp
      _ ≤ _ := hlo
  have hk2 : |x / (2 : ℝ) ^ (e - p)| ≤ ((2 ^ (p + 1) : Int) : ℝ) := by
    rw [hy, div_le_iff₀ hpos, zpow_sub₀ (by norm_num), zpow_natCast]
    push_cast
    calc |x| ≤ (2 : ℝ) ^ (e + 1) := hhi.le
      _ = (2 : ℝ) ^ (p + 1) * ((2 : ℝ) ^ e / 2 ^ p) := by rw [zpow_add₀ (by norm_num), pow_succ]; field_simp
  have hkabs : 2 ^ p ≤ |k| ∧ |k| ≤ 2 ^ (p + 1) := by
    have hh := abs_sub_round (x / (2 : ℝ) ^ (e - p))
    rw [← hk] at hh
    have hk' : |((k : Int) : ℝ)| = ((|k| : Int) : ℝ) := by push_cast; rfl
    have ht1 : |(k : ℝ)| - |x / (2 : ℝ) ^ (e - p)| ≤ 1 / 2 := by
      calc _ ≤ |(k : ℝ) - x / (2 : ℝ) ^ (e - p)| := abs_sub_abs_le_abs_sub _ _
        _ = |x / (2 : ℝ) ^ (e - p) - k| := abs_sub_comm _ _
        _ ≤ _ := hh
    have ht2 : |x / (2 : ℝ) ^ (e - p)| - |(k : ℝ)| ≤ 1 / 2 := le_trans (abs_sub_abs_le_abs_sub _ _) hh
    constructor
    · by_contra hc
      have : |k| + 1 ≤ 2 ^ p := by omega
      have : ((|k| : Int) : ℝ) + 1 ≤ ((2 ^ p : Int) : ℝ) := by exact_mod_cast this
      rw [← hk'] at this
      linarith
    · by_contra hc
      have : 2 ^ (p + 1) + 1 ≤ |k| := by omega
      have : ((2 ^ (p + 1) : Int) : ℝ) + 1 ≤ ((|k| : Int) : ℝ) := by exact_mod_cast this
      rw [← hk'] at this
      linarith
  rw [hr]
  have hkne : k ≠ 0 := by
    rintro h
    rw [h] at hkabs
    have : (0 : Int) < 2 ^ p := by positivity
    simp at hkabs
    omega
  have hkR : (k : ℝ) ≠ 0 := by exact_mod_cast hkne
  have hzabs : |(k : ℝ) * (2 : ℝ) ^ (e - p)| = |(k : ℝ)| * (2 : ℝ) ^ (e - p) := by rw [abs_mul, abs_of_pos hpos]
  have hk' : |((k : Int) : ℝ)| = ((|k| : Int) : ℝ) := by push_cast; rfl
  by_cases hlt : |k| < 2 ^ (p + 1)
  · -- the exponent is unchanged
    have hlog : Int.log 2 |(k : ℝ) * (2 : ℝ) ^ (e - p)| = e := by
      apply le_antisymm
      · rw [← Int.lt_add_one_iff, ← Int.lt_zpow_iff_log_lt (by norm_num) (abs_pos.2 (mul_ne_zero hkR hpos.ne')), hzabs, hk']
        have : ((|k| : Int) : ℝ) < ((2 ^ (p + 1) : Int) : ℝ) := by exact_mod_cast hlt
        push_cast at this ⊢
        calc |(k : ℝ)| * (2 : ℝ) ^ (e - p) < (2 : ℝ) ^ (p + 1) * (2 : ℝ) ^ (e - p) := by gcongr
          _ = (2 : ℝ) ^ (e + 1) := by
            rw [← zpow_natCast, ← zpow_add₀ (by norm_num)]; congr 1; push_cast; ring
      · rw [← Int.zpow_le_iff_le_log (by norm_num) (abs_pos.2 (mul_ne_zero hkR hpos.ne')), hzabs, hk']
        have : ((2 ^ p : Int) : ℝ) ≤ ((|k| : Int) : ℝ) := by exact_mod_cast hkabs.1
        push_cast at this ⊢
        calc (2 : ℝ) ^ e = (2 : ℝ) ^ p * (2 : ℝ) ^ (e - p) := by
              rw [← zpow_natCast, ← zpow_add₀ (by norm_num)]; congr 1; ring
          _ ≤ _ := by gcongr
    unfold roundBin
    rw [hlog]
    have : (k : ℝ) * (2 : ℝ) ^ (e - p) / (2 : ℝ) ^ (e - p) = k := by field_simp
    rw [this, round_intCast]
  · -- the next power of two
    have hk3 : |k| = 2 ^ (p + 1) := by omega
    have hz : |(k : ℝ) * (2 : ℝ) ^ (e - p)| = (2 : ℝ) ^ (e + 1) := by
      rw [hzabs, hk', hk3]
      push_cast
      rw [← zpow_natCast, ← zpow_add₀ (by norm_num)]; congr 1; push_cast; ring
    have hlog : Int.log 2 |(k : ℝ) * (2 : ℝ) ^ (e - p)| = e + 1 := by
      rw [hz]; exact_mod_cast Int.log_zpow (R := ℝ) (b := 2) (by norm_num) (e + 1)
    obtain ⟨k', rfl⟩ : ∃ k', k = 2 * k' := by
      have : (2 : Int) ∣ |k| := by rw [hk3, pow_succ]; exact Dvd.intro_left _ rfl
      rw [dvd_abs] at this
      exact this
    unfold roundBin
    rw [hlog]
    have : ((2 * k' : Int) : ℝ) * (2 : ℝ) ^ (e - p) = k' * (2 : ℝ) ^ (e + 1 - p) := by
      push_cast
      rw [show e + 1 - (p : Int) = (e - p) + 1 by ring, zpow_add_one₀ (by norm_num)]; ring
    rw [this]
    have h2 : (k' : ℝ) * (2 : ℝ) ^ (e + 1 - p) / (2 : ℝ) ^ (e + 1 - p) = k' := by field_simp
    rw [h2, round_intCast]

/-- Binary rounding to nearest with `p + 1` digits: `p = 23` is `float`, `p = 52` is `double` (without overflow and underflow). -/
noncomputable def binRounding (p : Nat) : Rounding ((2 : ℝ)⁻¹ ^ (p + 1)) where
  rnd := roundBin p
  err := roundBin_err p
  idem := roundBin_idem p

end Vmml
