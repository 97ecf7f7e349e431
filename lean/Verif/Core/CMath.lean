import Mathlib.Analysis.Real.Sqrt
import Mathlib.Analysis.SpecialFunctions.Trigonometric.Basic
import Mathlib.Analysis.SpecialFunctions.Trigonometric.Inverse
import Mathlib.Analysis.SpecialFunctions.Pow.Real
import Mathlib.Analysis.SpecialFunctions.Complex.Arg

/-!
# The part of `<cmath>` and `<limits>` the library calls

The model is generic in the scalar type; these classes give it the library functions.
The instance for `ℝ` is the exact reading of the floating point functions. Where the C function
is not real-valued (`sqrt` of a negative number is NaN in C, `0` for `Real.sqrt`), the theorems
only use arguments for which both agree.
-/

namespace Vmml

/-- `std::sqrt`, `fabs`/`std::abs`, trigonometry. -/
class CMath (α : Type) where
  sqrt : α → α
  fabs : α → α
  sin : α → α
  cos : α → α
  tan : α → α
  acos : α → α
  pow : α → α → α
  /-- `atan2( y, x )` -/
  atan2 : α → α → α

noncomputable instance : CMath ℝ where
  sqrt := Real.sqrt
  fabs := fun x => |x|
  sin := Real.sin
  cos := Real.cos
  tan := Real.tan
  acos := Real.arccos
  pow := fun x y => x ^ y
  atan2 := fun y x => Complex.arg ⟨x, y⟩

@[simp] theorem sqrt_real (x : ℝ) : CMath.sqrt x = Real.sqrt x := rfl
@[simp] theorem fabs_real (x : ℝ) : CMath.fabs x = |x| := rfl
@[simp] theorem sin_real (x : ℝ) : CMath.sin x = Real.sin x := rfl
@[simp] theorem cos_real (x : ℝ) : CMath.cos x = Real.cos x := rfl
@[simp] theorem tan_real (x : ℝ) : CMath.tan x = Real.tan x := rfl
@[simp] theorem acos_real (x : ℝ) : CMath.acos x = Real.arccos x := rfl
@[simp] theorem pow_real (x y : ℝ) : CMath.pow x y = x ^ y := rfl
@[simp] theorem atan2_real (x y : ℝ) : CMath.atan2 y x = Complex.arg ⟨x, y⟩ := rfl

end Vmml
