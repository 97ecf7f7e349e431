import Verif.Model.FilterFloat
import Verif.Model.Quaternion

/-!
# Quaternions with floating point components
-/

namespace Vmml
variable {F : Format}

/-- `T tmp_09 = 0.5 * ( ... )`, /repo/vmmlib/quaternion.hpp:612: the literal is a `double`, so the operand is converted to `double` (`D`), multiplied there
and the product is converted to `T`. -/
noncomputable def Fp.half (D : Format) (s : Fp F) : Fp F := Fp.convert F ((.round false (1 / 2) : Fp D) * Fp.convert D s)

end Vmml
