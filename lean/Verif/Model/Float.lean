import Verif.Model.Vector
import Verif.Model.Matrix
import Mathlib.Data.Int.Log
import Mathlib.Data.EReal.Basic
import Mathlib.Tactic.Linarith
import Mathlib.Tactic.Positivity
import Mathlib.Tactic.FieldSimp

/-!
# IEEE 754 binary floating point as element type

The containers are templates over `T` (vector.hpp:53, matrix.hpp:58) and are used with `float` and `double`. Here `T` is an IEEE 754 binary format: a sign and a
magnitude with `p + 1` significant digits, subnormal numbers, two zeros, two infinities and NaN (one NaN; payloads are not represented). Every operation is
the exact one rounded to nearest, ties to even, with overflow to infinity ([IEEE 754-2008] 4.3.1, 5.4.1, 7). This file models no vmmlib function.
-/

namespace Vmml

/-- A binary format: `p` stored digits and the largest exponent `emax`. -/
structure Format where
  p : Nat
  emax : Nat

namespace Format
/-- `float`. -/
abbrev single : Format := ⟨23, 127⟩
/-- `double`. -/
abbrev double : Format := ⟨52, 1023⟩
variable (F : Format)
/-- Exponent of the smallest normal number. -/
def emin : Int := 1 - F.emax
/-- Exponent of the last digit of numbers as large as `x`. -/
noncomputable def lastExp (x : ℝ) : Int := max (Int.log 2 |x|) F.emin - F.p
/-- The nearest integer, the even one of two equally near. -/
noncomputable def nearest (y : ℝ) : Int :=
  if y - ⌊y⌋ < 1 / 2 then ⌊y⌋ else if 1 / 2 < y - ⌊y⌋ then ⌊y⌋ + 1 else if Even ⌊y⌋ then ⌊y⌋ else ⌊y⌋ + 1
/-- Rounding to the format with unbounded largest exponent. -/
noncomputable def rnd (x : ℝ) : ℝ := nearest (x / (2 : ℝ) ^ F.lastExp x) * (2 : ℝ) ^ F.lastExp x
/-- The largest finite number. -/
noncomputable def maxFinite : ℝ := ((2 : ℝ) ^ (F.p + 1) - 1) * (2 : ℝ) ^ ((F.emax : Int) - F.p)
/-- The numbers of the format (before bounding the exponent): integer multiples, with at most `p + 1` digits, of a power of two not below the smallest. -/
def Rep (x : ℝ) : Prop := ∃ (k : Int) (e : Int), F.emin - F.p ≤ e ∧ |k| ≤ 2 ^ (F.p + 1) ∧ x = k * (2 : ℝ) ^ e
/-- The finite magnitudes. -/
def Mag (x : ℝ) : Prop := 0 ≤ x ∧ F.Rep x ∧ x ≤ F.maxFinite

variable {F}
theorem nearest_err (y : ℝ) : |(nearest y : ℝ) - y| ≤ 1 / 2 := by
  unfold nearest
  have h1 := Int.floor_le y
  have h2 := Int.lt_floor_add_one y
  split_ifs <;> rw [abs_le] <;> push_cast <;> constructor <;> linarith
theorem nearest_int (k : Int) : nearest (k : ℝ) = k := by simp [nearest]
theorem nearest_nonneg {y : ℝ} (h : 0 ≤ y) : 0 ≤ nearest y := by
  have h0 : 0 ≤ ⌊y⌋ := Int.floor_nonneg.2 h
  unfold nearest
  split_ifs <;> omega

theorem rnd_err (x : ℝ) : |F.rnd x - x| ≤ 1 / 2 * (2 : ℝ) ^ F.lastExp x := by
  unfold rnd
  have hpos : (0 : ℝ) < (2 : ℝ) ^ F.lastExp x := by positivity
  have e1 : (nearest (x / (2 : ℝ) ^ F.lastExp x) : ℝ) * (2 : ℝ) ^ F.lastExp x - x =
      ((nearest (x / (2 : ℝ) ^ F.lastExp x) : ℝ) - x / (2 : ℝ) ^ F.lastExp x) * (2 : ℝ) ^ F.lastExp x := by field_simp
  rw [e1, abs_mul, abs_of_pos hpos]
  exact mul_le_mul_of_nonneg_right (nearest_err _) hpos.le

theorem rnd_nonneg {x : ℝ} (h : 0 ≤ x) : 0 ≤ F.rnd x :=
  mul_nonneg (by exact_mod_cast nearest_nonneg (by positivity)) (by positivity)

theorem rnd_rep (x : ℝ) : F.Rep (F.rnd x) := by
  refine ⟨nearest (x / (2 : ℝ) ^ F.lastExp x), F.lastExp x, by unfold lastExp; omega, ?_, rfl⟩
  have hpos : (0 : ℝ) < (2 : ℝ) ^ F.lastExp x := by positivity
  have hx : |x / (2 : ℝ) ^ F.lastExp x| < ((2 ^ (F.p + 1) : Int) : ℝ) := by
    rw [abs_div, abs_of_pos hpos, div_lt_iff₀ hpos]
    push_cast
    rw [← zpow_natCast, ← zpow_add₀ (by norm_num)]
    calc |x| < (2 : ℝ) ^ (Int.log 2 |x| + 1) := by exact_mod_cast Int.lt_zpow_succ_log_self (b := 2) (by norm_num) |x|
      _ ≤ _ := by
        apply zpow_le_zpow_right₀ (by norm_num)
        unfold lastExp; push_cast; omega
  have h1 := nearest_err (x / (2 : ℝ) ^ F.lastExp x)
  by_contra hc
  have : (2 ^ (F.p + 1) : Int) + 1 ≤ |nearest (x / (2 : ℝ) ^ F.lastExp x)| := by omega
  have h2 : ((2 ^ (F.p + 1) : Int) : ℝ) + 1 ≤ |(nearest (x / (2 : ℝ) ^ F.lastExp x) : ℝ)| := by exact_mod_cast this
  have h3 := abs_sub_abs_le_abs_sub (nearest (x / (2 : ℝ) ^ F.lastExp x) : ℝ) (x / (2 : ℝ) ^ F.lastExp x)
  linarith

theorem rep_zero : F.Rep 0 := ⟨0, F.emin - F.p, le_rfl, by simp, by simp⟩
theorem maxFinite_pos : 0 < F.maxFinite := by
  unfold maxFinite
  have : (1 : ℝ) < (2 : ℝ) ^ (F.p + 1) := one_lt_pow₀ (by norm_num) (by omega)
  have h2 : (0 : ℝ) < (2 : ℝ) ^ ((F.emax : Int) - F.p) := by positivity
  exact mul_pos (by linarith) h2
theorem mag_zero : F.Mag 0 := ⟨le_rfl, rep_zero, maxFinite_pos.le⟩
theorem mag_rnd {x : ℝ} (h : 0 ≤ x) (h' : F.rnd x ≤ F.maxFinite) : F.Mag (F.rnd x) := ⟨rnd_nonneg h, rnd_rep x, h'⟩
end Format

/-- The floating point values of a format. -/
inductive Fp (F : Format)
  | nan
  | inf (neg : Bool)
  | fin (neg : Bool) (m : ℝ) (h : F.Mag m)

namespace Fp
variable {F : Format}
open Classical in
/-- The result of an operation with exact result of magnitude `x` and the given sign. -/
noncomputable def round (s : Bool) (x : ℝ) : Fp F :=
  if h : 0 ≤ x ∧ F.rnd x ≤ F.maxFinite then fin s (F.rnd x) (Format.mag_rnd h.1 h.2) else inf s
/-- The represented number; `0` for infinities and NaN. -/
def val : Fp F → ℝ
  | fin s m _ => if s then -m else m
  | _ => 0
/-- Neither infinite nor NaN. -/
def Finite : Fp F → Prop
  | fin _ _ _ => True
  | _ => False
instance : Zero (Fp F) := ⟨fin false 0 Format.mag_zero⟩
/-- `static_cast< T >( 1 )`. -/
noncomputable instance : One (Fp F) := ⟨round false 1⟩
/-- Negation flips the sign. -/
instance : Neg (Fp F) := ⟨fun
  | nan => nan
  | inf s => inf !s
  | fin s m h => fin (!s) m h⟩
open Classical in
/-- Addition: an exact zero sum is `+0` unless both operands are negative. -/
noncomputable instance : Add (Fp F) := ⟨fun a b => match a, b with
  | nan, _ => nan
  | _, nan => nan
  | inf s, inf t => if s = t then inf s else nan
  | inf s, fin _ _ _ => inf s
  | fin _ _ _, inf t => inf t
  | fin s m h, fin t n k =>
    let x := val (fin s m h) + val (fin t n k)
    if x = 0 then fin (s && t) 0 Format.mag_zero else round (decide (x < 0)) |x|⟩
noncomputable instance : Sub (Fp F) := ⟨fun a b => a + -b⟩
open Classical in
/-- Multiplication. -/
noncomputable instance : Mul (Fp F) := ⟨fun a b => match a, b with
  | nan, _ => nan
  | _, nan => nan
  | inf s, inf t => inf (s ^^ t)
  | inf s, fin t n _ => if n = 0 then nan else inf (s ^^ t)
  | fin s m _, inf t => if m = 0 then nan else inf (s ^^ t)
  | fin s m _, fin t n _ => round (s ^^ t) (m * n)⟩
open Classical in
/-- Division. -/
noncomputable instance : Div (Fp F) := ⟨fun a b => match a, b with
  | nan, _ => nan
  | _, nan => nan
  | inf _, inf _ => nan
  | inf s, fin t _ _ => inf (s ^^ t)
  | fin s _ _, inf t => fin (s ^^ t) 0 Format.mag_zero
  | fin s m _, fin t n _ => if n = 0 then (if m = 0 then nan else inf (s ^^ t)) else round (s ^^ t) (m / n)⟩
/-- The value on the extended real line, for comparisons; `none` for NaN. -/
noncomputable def ext : Fp F → Option EReal
  | nan => none
  | inf s => some (if s then ⊥ else ⊤)
  | fin s m _ => some ((if s then -m else m : ℝ) : EReal)
/-- `<`: false with NaN. -/
def ltP (a b : Fp F) : Prop := ∃ x ∈ a.ext, ∃ y ∈ b.ext, x < y
/-- `<=`: false with NaN. -/
def leP (a b : Fp F) : Prop := ∃ x ∈ a.ext, ∃ y ∈ b.ext, x ≤ y
/-- `==`: false with NaN, and the zeros are equal. -/
def eqP (a b : Fp F) : Prop := ∃ x ∈ a.ext, ∃ y ∈ b.ext, x = y
instance : LT (Fp F) := ⟨ltP⟩
instance : LE (Fp F) := ⟨leP⟩
noncomputable instance : DecidableLT (Fp F) := fun _ _ => Classical.propDecidable _
noncomputable instance : DecidableLE (Fp F) := fun _ _ => Classical.propDecidable _
noncomputable instance : BEq (Fp F) := ⟨fun a b => @decide (eqP a b) (Classical.propDecidable _)⟩
open Classical in
/-- A finite real number as the nearest value (`+0` for zero). -/
noncomputable def ofReal (x : ℝ) : Fp F := round (decide (x < 0)) |x|
open Classical in
/-- `sqrt` is correctly rounded and `fabs` exact, as IEEE 754 prescribes. The other functions are only defined here because the class asks for them:
no claim rests on them (C134 takes the library's sine and cosine as a parameter and only shows that these meet its accuracy hypothesis). -/
noncomputable instance : CMath (Fp F) where
  sqrt := fun
    | nan => nan
    | inf s => if s then nan else inf false
    | fin s m h => if m = 0 then fin s m h else if s then nan else round false (Real.sqrt m)
  fabs := fun
    | nan => nan
    | inf _ => inf false
    | fin _ m h => fin false m h
  sin := fun a => ofReal (Real.sin a.val)
  cos := fun a => ofReal (Real.cos a.val)
  tan := fun a => ofReal (Real.tan a.val)
  acos := fun a => ofReal (Real.arccos a.val)
  pow := fun a b => ofReal (a.val ^ b.val)
  atan2 := fun a b => ofReal (Complex.arg ⟨b.val, a.val⟩)
end Fp
end Vmml
