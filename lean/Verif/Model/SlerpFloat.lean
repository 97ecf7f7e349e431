import Verif.Model.FilterFloat
import Verif.Model.Quaternion

/-!
# Spherical interpolation with floating point components

`/repo/vmmlib/quaternion.hpp:922-962` for `T` = `F`, with the literals `1.` and `1.0` of type `double` = `D`.
-/

namespace Vmml
namespace Quat
variable {F D : Format}

/-- `slerp( a, p, q, epsilon )`, quaternion.hpp:922-962. The differences `1. - x` are taken in `double`; `sqrt` is the one of `double` and its result is stored in a `T`; the first
coefficient is computed in `double`, the second in `T`. The library functions are parameters: `atan2F` is the unqualified `atan2` applied to two `T` with its result stored in a `T`,
`sinD` and `sinF` the overloads of `std::sin` for `double` and `T`. (`fabs( cosine )` may be computed in `double`; the conversions there and back do not change a value.) -/
noncomputable def slerpFp (atan2F : Fp F → Fp F → Fp F) (sinD : Fp D → Fp D) (sinF : Fp F → Fp F) (a : Fp F) (p q : Quat (Fp F)) (epsilon : Fp F) : Quat (Fp F) :=
  let px := p.getNormalized
  let qx := q.getNormalized
  let cosine := px.dot qx
  let (cosine, qx) := if cosine < 0 then (-cosine, qx.neg) else (cosine, qx)
  let absCos := CMath.fabs cosine
  let oneX : Fp F := Fp.convert F ((1 : Fp D) - Fp.convert D epsilon)
  if absCos < oneX then
    let sine : Fp F := Fp.convert F (CMath.sqrt ((1 : Fp D) - Fp.convert D (cosine * cosine)))
    let angle := atan2F sine cosine
    let coeff1 : Fp F := Fp.convert F (sinD (((1 : Fp D) - Fp.convert D a) * Fp.convert D angle) / Fp.convert D sine)
    let coeff2 := sinF (a * angle) / sine
    let qx := qx.mulAssignS coeff2
    let px := px.mulAssignS coeff1
    px.addAssign (.other qx)
  else
    let px := px.mulAssignS (Fp.convert F ((1 : Fp D) - Fp.convert D a))
    let qx := qx.mulAssignS a
    let px := px.addAssign (.other qx)
    px.normalize.1

end Quat
end Vmml
