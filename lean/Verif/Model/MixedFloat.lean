import Verif.Model.FilterFloat
import Verif.Model.Quaternion
import Verif.Model.Frustum
import Verif.Model.FrustumCuller
import Verif.Model.Constants

/-!
# `float` code with `double` literals

Literals such as `1.0` are of type `double` in the source. With `T = float` (format `F`) the operation they occur in is done in `double` (format `D`), and its result is
converted to `T` when it is stored. The other models take literals as elements of `T`; this file has the functions whose literals are operands of a division,
with the conversions the language prescribes. For `T = double` take `D = F`.
-/

namespace Vmml
variable {M : Nat} {F : Format}

/-- A literal of type `D`. -/
noncomputable def Fp.lit (D : Format) (c : ℝ) : Fp D := .ofReal c

/-- `T tmp = c / x` for a literal `c` of type `D`: vector.hpp:1138, frustum_culler.hpp:187, quaternion.hpp:678, frustum.hpp:317, 323, 329. -/
noncomputable def Fp.divLit (D : Format) (c : ℝ) (x : Fp F) : Fp F := Fp.convert F (Fp.lit D c / Fp.convert D x)

/-- `static_cast< T >( 2.0 )`. -/
noncomputable instance : OfNat (Fp F) 2 := ⟨.ofReal 2⟩

/-- `normalize()`, /repo/vmmlib/vector.hpp:1130-1141, with the literal `1.0` of type `D`. -/
noncomputable def Vec.normalizeMixed (D : Format) (cfg : Cfg) (v : Vec M (Fp F)) : Res (Vec M (Fp F) × Fp F) := do
  let len ← v.length
  if len == 0 then
    pure (v, 0)
  else
    let tmp := Fp.divLit D 1 len
    let v' ← v.mulAssignS cfg tmp
    pure (v', len)

/-- `_normalize_plane( plane )`, /repo/vmmlib/frustum_culler.hpp:182-192, with the literal `1.0` of type `D`. -/
noncomputable def Culler.normalizePlaneMixed (D : Format) (cfg : Cfg) (plane : Vec 4 (Fp F)) : Res (Vec 4 (Fp F)) := do
  let v3 ← plane.getSub cfg 3 0 Vec.zeroCtor
  let len_i := Fp.divLit D 1 (← v3.length)
  let plane ← plane.setX ((← plane.getX) * len_i)
  let plane ← plane.setY ((← plane.getY) * len_i)
  let plane ← plane.setZ ((← plane.getZ) * len_i)
  plane.setW ((← plane.getW) * len_i)

/-- `operator/( T )`, /repo/vmmlib/quaternion.hpp:672-681, with the literal `1.0` (678) of type `D`. -/
noncomputable def Quat.divSMixed (D : Format) (cfg : Cfg) (q : Quat (Fp F)) (a : Fp F) : Res (Quat (Fp F)) := do
  if a == 0 then vmmlibError cfg
  let a := Fp.divLit D 1 a
  pure (mk4 (q.x * a) (q.y * a) (q.z * a) (q.w * a))

/-- `compute_ortho_matrix( M ) const`, /repo/vmmlib/frustum.hpp:313-336, with the literals `2.0` and `-2.0` of type `D`. -/
noncomputable def Frustum.computeOrthoMatrixMixed (D : Format) (cfg : Cfg) (f : Frustum (Fp F)) (m : Mat 4 4 (Fp F)) : Res (Mat 4 4 (Fp F)) := do
  let m ← m.atSet cfg 0 0 (Fp.divLit D 2 (f.right - f.left))
  let m ← m.atSet cfg 0 1 0
  let m ← m.atSet cfg 0 2 0
  let m ← m.atSet cfg 0 3 (-(f.right + f.left) / (f.right - f.left))
  let m ← m.atSet cfg 1 0 0
  let m ← m.atSet cfg 1 1 (Fp.divLit D 2 (f.top - f.bottom))
  let m ← m.atSet cfg 1 2 0
  let m ← m.atSet cfg 1 3 (-(f.top + f.bottom) / (f.top - f.bottom))
  let m ← m.atSet cfg 2 0 0
  let m ← m.atSet cfg 2 1 0
  let m ← m.atSet cfg 2 2 (Fp.divLit D (-2) (f.farPlane - f.nearPlane))
  let m ← m.atSet cfg 2 3 (-(f.farPlane + f.nearPlane) / (f.farPlane - f.nearPlane))
  let m ← m.atSet cfg 3 0 0
  let m ← m.atSet cfg 3 1 0
  let m ← m.atSet cfg 3 2 0
  m.atSet cfg 3 3 1

/-- `compute_matrix( M ) const`, /repo/vmmlib/frustum.hpp:274-299, with the literals `2.0` and `-2.0` of type `D`: the three expressions with a literal are
evaluated from left to right in `D`, except for the parenthesised differences, which have no literal. -/
noncomputable def Frustum.computeMatrixMixed (D : Format) (cfg : Cfg) (f : Frustum (Fp F)) (m : Mat 4 4 (Fp F)) : Res (Mat 4 4 (Fp F)) := do
  let m ← m.atSet cfg 0 0 (.convert F (.lit D 2 * .convert D f.nearPlane / .convert D (f.right - f.left)))
  let m ← m.atSet cfg 0 1 0
  let m ← m.atSet cfg 0 2 ((f.right + f.left) / (f.right - f.left))
  let m ← m.atSet cfg 0 3 0
  let m ← m.atSet cfg 1 0 0
  let m ← m.atSet cfg 1 1 (.convert F (.lit D 2 * .convert D f.nearPlane / .convert D (f.top - f.bottom)))
  let m ← m.atSet cfg 1 2 ((f.top + f.bottom) / (f.top - f.bottom))
  let m ← m.atSet cfg 1 3 0
  let m ← m.atSet cfg 2 0 0
  let m ← m.atSet cfg 2 1 0
  let m ← m.atSet cfg 2 2 (-(f.farPlane + f.nearPlane) / (f.farPlane - f.nearPlane))
  let m ← m.atSet cfg 2 3 (.convert F (.lit D (-2) * .convert D f.farPlane * .convert D f.nearPlane / .convert D (f.farPlane - f.nearPlane)))
  let m ← m.atSet cfg 3 0 0
  let m ← m.atSet cfg 3 1 0
  let m ← m.atSet cfg 3 2 (-1)
  m.atSet cfg 3 3 0

/-- `set_perspective( fov_y, aspect_ratio, near, far )`, /repo/vmmlib/frustum.hpp:246-259, with the literals `0.5`, `M_PI` and `180.0` of type `D`: the argument of `tan`, its result and the product
with `0.5` have type `D`, the assignment to `top()` converts. `tan` is the library function; nothing is assumed of it. -/
noncomputable def Frustum.setPerspectiveMixed (D : Format) (tan : Fp D → Fp D) (f : Frustum (Fp F)) (fov_y aspect_ratio n fa : Fp F) : Frustum (Fp F) :=
  let f := f.setNear n
  let f := f.setFar fa
  let f := f.setTop (.convert F (tan (.lit D (1 / 2) * .convert D fov_y * .lit D Const.mPi / .lit D 180) * .lit D (1 / 2)))
  let f := f.setBottom (-f.top)
  let f := f.setLeft (f.bottom * aspect_ratio)
  f.setRight (f.top * aspect_ratio)

/-- `setup( proj_modelview )`, /repo/vmmlib/frustum_culler.hpp:137-160, with `_normalize_plane` as above. -/
noncomputable def Culler.setupMatrixMixed (D : Format) (cfg : Cfg) (m : Mat 4 4 (Fp F)) : Res (Culler (Fp F)) := do
  let row0 ← m.getRowV cfg 0
  let row1 ← m.getRowV cfg 1
  let row2 ← m.getRowV cfg 2
  let row3 ← m.getRowV cfg 3
  let left ← row3.add cfg row0
  let right ← row3.sub cfg row0
  let bottom ← row3.add cfg row1
  let top ← row3.sub cfg row1
  let near ← row3.add cfg row2
  let far ← row3.sub cfg row2
  let left ← normalizePlaneMixed D cfg left
  let right ← normalizePlaneMixed D cfg right
  let bottom ← normalizePlaneMixed D cfg bottom
  let top ← normalizePlaneMixed D cfg top
  let near ← normalizePlaneMixed D cfg near
  let far ← normalizePlaneMixed D cfg far
  pure ⟨left, right, bottom, top, near, far⟩

end Vmml
