import Verif.Model.FilterFloat
import Verif.Model.Quaternion

/-!
# A quaternion from a rotation matrix, with floating point components

`/repo/vmmlib/quaternion.hpp:274-349` for `T` = `F`, with the literals `0.25`, `0.5`, `1.0` and `QUATERNION_TRACE_EPSILON` (quaternion.hpp:55) of type `double` = `D`.
-/

namespace Vmml
namespace Quat
variable {F D : Format} {d : Nat}

/-- `0.5 / r`, a division in `double`, assigned to `T s` (quaternion.hpp:282, 304, 318, 332). -/
noncomputable def halfOver (F : Format) (r : Fp D) : Fp F := Fp.convert F ((.round false (1 / 2) : Fp D) / r)
/-- `0.25 / s`, a division in `double`, assigned to a component (quaternion.hpp:292, 305, 322, 339). -/
noncomputable def quarterOver (D : Format) (s : Fp F) : Fp F := Fp.convert F ((.round false (1 / 4) : Fp D) / Fp.convert D s)

/-- `set( const Matrix< D, D, T >& )`, quaternion.hpp:274-349. The trace is added in `T`, the `1.0` in `double`, and the sum is stored in a `T`; the arguments of the other square roots
are `double`. `sq` is the unqualified `sqrt` applied to a `T`: `::sqrt( double )` or an overload for `T`, depending on what the standard headers declare. -/
noncomputable def setMatrixFp (sq : Fp F → Fp D) (cfg : Cfg) (eps : Fp D) (self : Quat (Fp F)) (m : Mat d d (Fp F)) : Res (Quat (Fp F)) := do
  let trace : Fp F := Fp.convert F (Fp.convert D ((← m.atGet cfg 0 0) + (← m.atGet cfg 1 1) + (← m.atGet cfg 2 2)) + (1 : Fp D))
  if eps < Fp.convert D trace then do
    let s := halfOver F (sq trace)
    let self := { self with x := (← m.atGet cfg 2 1) - (← m.atGet cfg 1 2) }
    let self := { self with x := self.x * s }
    let self := { self with y := (← m.atGet cfg 0 2) - (← m.atGet cfg 2 0) }
    let self := { self with y := self.y * s }
    let self := { self with z := (← m.atGet cfg 1 0) - (← m.atGet cfg 0 1) }
    let self := { self with z := self.z * s }
    pure { self with w := quarterOver D s }
  else do
    let diag : Vec 3 (Fp F) := #v[← m.atGet cfg 0 0, ← m.atGet cfg 1 1, ← m.atGet cfg 2 2]
    let largest ← diag.findMaxIndex
    if largest = 0 then do
      let s := halfOver F (CMath.sqrt ((1 : Fp D) + Fp.convert D (← m.atGet cfg 0 0) - Fp.convert D (← m.atGet cfg 1 1) - Fp.convert D (← m.atGet cfg 2 2)))
      let self := { self with x := quarterOver D s }
      let self := { self with y := (← m.atGet cfg 0 1) + (← m.atGet cfg 1 0) }
      let self := { self with y := self.y * s }
      let self := { self with z := (← m.atGet cfg 0 2) + (← m.atGet cfg 2 0) }
      let self := { self with z := self.z * s }
      let self := { self with w := (← m.atGet cfg 1 2) - (← m.atGet cfg 2 1) }
      pure { self with w := self.w * s }
    else if largest = 1 then do
      let s := halfOver F (CMath.sqrt ((1 : Fp D) + Fp.convert D (← m.atGet cfg 1 1) - Fp.convert D (← m.atGet cfg 0 0) - Fp.convert D (← m.atGet cfg 2 2)))
      let self := { self with x := (← m.atGet cfg 0 1) + (← m.atGet cfg 1 0) }
      let self := { self with x := self.x * s }
      let self := { self with y := quarterOver D s }
      let self := { self with z := (← m.atGet cfg 1 2) + (← m.atGet cfg 2 1) }
      let self := { self with z := self.z * s }
      let self := { self with w := (← m.atGet cfg 0 2) - (← m.atGet cfg 2 0) }
      pure { self with w := self.w * s }
    else if largest = 2 then do
      let s := halfOver F (CMath.sqrt ((1 : Fp D) + Fp.convert D (← m.atGet cfg 2 2) - Fp.convert D (← m.atGet cfg 0 0) - Fp.convert D (← m.atGet cfg 1 1)))
      let self := { self with x := (← m.atGet cfg 0 2) + (← m.atGet cfg 2 0) }
      let self := { self with x := self.x * s }
      let self := { self with y := (← m.atGet cfg 1 2) + (← m.atGet cfg 2 1) }
      let self := { self with y := self.y * s }
      let self := { self with z := quarterOver D s }
      let self := { self with w := (← m.atGet cfg 0 1) - (← m.atGet cfg 1 0) }
      pure { self with w := self.w * s }
    else do
      let self := self.zero
      cassert cfg false
      pure self

end Quat
end Vmml
