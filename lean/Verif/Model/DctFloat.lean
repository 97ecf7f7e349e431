import Verif.Model.FilterFloat
import Verif.Model.MatrixStats
import Verif.Model.Constants

/-!
# The DCT matrix of IEEE numbers
-/

namespace Vmml
variable {M N : Nat} {F : Format}

/-- `set_dct()`, /repo/vmmlib/matrix.hpp:2566-2586, for floating point elements: the computation is in `double` (format `D`), `M_PI` is the nearest `double` of the literal, `( 2 * col + 1 ) * row` and `2 * M` are `size_t` converted to `double`, and
the result is converted to `T`. Simplification: `size_t` products are not reduced modulo `2 ^ 64` (`Mat.setDct`). -/
noncomputable def Mat.setDctFp (D : Format) [CMath (Fp D)] (cfg : Cfg) (m : Mat M N (Fp F)) : Res (Mat M N (Fp F)) :=
  m.setDct cfg (fun n => (Fp.ofReal (n : ℝ) : Fp D)) (Fp.ofReal Const.mPi) (Fp.convert F)

end Vmml
