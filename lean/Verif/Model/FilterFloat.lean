import Verif.Model.Float
import Verif.Model.LowpassFilter

/-!
# The low-pass filter for floating point samples

`/repo/vmmlib/lowpass_filter.hpp` with `T` a floating point type that `double` can represent (`float` or `double`).
-/

namespace Vmml
variable {F D : Format}

/-- Conversion between floating point types: the value rounded to nearest in the target type, infinite if it does not fit. -/
noncomputable def Fp.convert (G : Format) : Fp F → Fp G
  | .nan => .nan
  | .inf s => .inf s
  | .fin s m _ => .round s m

/-- lowpass_filter.hpp:104 for scalars: `value * a` and `x * b` convert the sample to `double`, the sum is a `double`, the assignment converts it to `T`. -/
noncomputable instance : Blend (Fp D) (Fp F) := ⟨fun value a x b => Fp.convert F (Fp.convert D value * a + Fp.convert D x * b)⟩

end Vmml
