import Verif.Model.Rounding

/-!
# The angle constants of `vmmlib/math.hpp` and `vmmlib/util.hpp`

The decimal literals as written. The compiler rounds a literal to the type it has (`double` without suffix, `float` with the suffix `f`): the value the
program computes with is `ρ.rnd` of the literal for the rounding `ρ` of that type.
-/

namespace Vmml
namespace Const

/-- `M_PI`, math.hpp:38 (used if `<cmath>` does not define it; the value is the usual one). -/
noncomputable def mPi : ℝ := 3.14159265358979323846
/-- `M_PI_F`, util.hpp:46. -/
noncomputable def mPiF : ℝ := 3.14159265358979323846
/-- `M_PI_2_F`, util.hpp:47. -/
noncomputable def mPi2F : ℝ := 1.57079632679489661923
/-- `M_PI_3_F`, util.hpp:48. -/
noncomputable def mPi3F : ℝ := 1.04719755119659774615
/-- `M_PI_4_F`, util.hpp:49. -/
noncomputable def mPi4F : ℝ := 0.78539816339744830962

end Const
end Vmml
