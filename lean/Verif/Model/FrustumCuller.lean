import Verif.Model.MatrixStats

/-!
# Model of `vmmlib/frustum_culler.hpp`

All line numbers refer to `/repo/vmmlib/frustum_culler.hpp`.
-/

namespace Vmml

/-- `enum Visibility`, 44-49. -/
inductive Visibility
  | none
  | partly
  | full
  deriving DecidableEq, Repr

/-- `FrustumCuller< T >`, 101-107: the six planes. -/
structure Culler (α : Type) where
  left : Vec 4 α
  right : Vec 4 α
  bottom : Vec 4 α
  top : Vec 4 α
  near : Vec 4 α
  far : Vec 4 α
  deriving DecidableEq

namespace Culler
variable {α : Type}

/-- `FrustumCuller()`, 67: the planes are value-initialised vectors (vector.hpp:65). -/
def ctor [Zero α] : Culler α := ⟨Vec.zeroCtor, Vec.zeroCtor, Vec.zeroCtor, Vec.zeroCtor, Vec.zeroCtor, Vec.zeroCtor⟩

/-- `_normalize_plane( plane )`, 182-192: the reciprocal length of the first three components multiplies all four. -/
def normalizePlane [Zero α] [One α] [Add α] [Mul α] [Div α] [CMath α] (cfg : Cfg) (plane : Vec 4 α) : Res (Vec 4 α) := do
  let v3 ← plane.getSub cfg 3 0 Vec.zeroCtor
  let len_i := 1 / (← v3.length)
  let plane ← plane.setX ((← plane.getX) * len_i)
  let plane ← plane.setY ((← plane.getY) * len_i)
  let plane ← plane.setZ ((← plane.getZ) * len_i)
  plane.setW ((← plane.getW) * len_i)

/-- `setup( proj_modelview )`, 137-160. -/
def setupMatrix [Zero α] [One α] [Add α] [Sub α] [Mul α] [Div α] [CMath α] (cfg : Cfg) (m : Mat 4 4 α) : Res (Culler α) := do
  let row0 ← m.getRowV cfg 0
  let row1 ← m.getRowV cfg 1
  let row2 ← m.getRowV cfg 2
  let row3 ← m.getRowV cfg 3
  let left ← row3.add cfg row0
  let right ← row3.sub cfg row0
  let bottom ← row3.add cfg row1
  let top ← row3.sub cfg row1
  let near ← row3.add cfg row2
  let far ← row3.sub cfg row2
  let left ← normalizePlane cfg left
  let right ← normalizePlane cfg right
  let bottom ← normalizePlane cfg bottom
  let top ← normalizePlane cfg top
  let near ← normalizePlane cfg near
  let far ← normalizePlane cfg far
  pure ⟨left, right, bottom, top, near, far⟩

/-- `setup( a, b, c, d, e, f, g, h )`, 162-180; the corners in the declared order nlt, nrt, nlb, nrb, flt, frt, flb, frb (69-76). -/
def setupCorners [Zero α] [One α] [Add α] [Sub α] [Neg α] [Mul α] [Div α] [BEq α] [CMath α] (cfg : Cfg)
    (a b c d e f g h : Vec 3 α) : Res (Culler α) := do
  let left ← Vec.computePlane cfg c a e
  let right ← Vec.computePlane cfg f b d
  let bottom ← Vec.computePlane cfg h d c
  let top ← Vec.computePlane cfg a b f
  let near ← Vec.computePlane cfg b a c
  let far ← Vec.computePlane cfg g e f
  pure ⟨left, right, bottom, top, near, far⟩

/-- One of the six blocks of `test_sphere`, e.g. 208-213; `none` is `return VISIBILITY_NONE`, otherwise the new value of
`visibility`. All six blocks are the same text with another plane (208-248). -/
def sphereBlock [Add α] [Mul α] [Neg α] [LE α] [DecidableLE α] [LT α] [DecidableLT α] (plane sphere : Vec 4 α) (visibility : Visibility) :
    Option Visibility :=
  let distance := plane[0] * sphere[0] + plane[1] * sphere[1] + plane[2] * sphere[2] + plane[3]
  if distance ≤ -sphere[3] then none
  else if distance < sphere[3] then some .partly else some visibility

/-- `test_sphere( sphere ) const`, 194-251. -/
def testSphere [Add α] [Mul α] [Neg α] [LE α] [DecidableLE α] [LT α] [DecidableLT α] (k : Culler α) (sphere : Vec 4 α) : Visibility :=
  (do
    let visibility ← sphereBlock k.left sphere .full
    let visibility ← sphereBlock k.right sphere visibility
    let visibility ← sphereBlock k.bottom sphere visibility
    let visibility ← sphereBlock k.top sphere visibility
    let visibility ← sphereBlock k.near sphere visibility
    sphereBlock k.far sphere visibility).getD .none

/-- `_test_aabb( plane, middle, extent ) const`, 253-269. `plane.dot( middle )` converts `middle` to homogeneous coordinates (`w = 1`)
by the implicit constructor vector.hpp:87-89. -/
def testAabbPlane [Zero α] [One α] [Add α] [Sub α] [Mul α] [CMath α] [LE α] [DecidableLE α] [LT α] [DecidableLT α] (cfg : Cfg)
    (plane : Vec 4 α) (middle extent : Vec 3 α) : Res Visibility := do
  let d ← plane.dot cfg (← Vec.toHomogeneous cfg Vec.zeroCtor middle)
  let n := extent[0] * CMath.fabs plane[0] + extent[1] * CMath.fabs plane[1] + extent[2] * CMath.fabs plane[2]
  if (0 : α) ≤ d - n then pure .full
  else if (0 : α) < d + n then pure .partly
  else pure .none

/-- One `switch` of `test_aabb`, e.g. 279-284. -/
def aabbSwitch (v result : Visibility) : Option Visibility :=
  match v with
  | .full => some result
  | .partly => some .partly
  | .none => none

/-- The six `switch` statements of `test_aabb`, 279-320 (the same text with another plane), as a recursion over the planes. -/
def testAabbFrom [Zero α] [One α] [Add α] [Sub α] [Mul α] [CMath α] [LE α] [DecidableLE α] [LT α] [DecidableLT α] (cfg : Cfg)
    (middle extent : Vec 3 α) : List (Vec 4 α) → Visibility → Res Visibility
  | [], result => pure result
  | plane :: rest, result => do
    match aabbSwitch (← testAabbPlane cfg plane middle extent) result with
    | .none => pure .none
    | .some result => testAabbFrom cfg middle extent rest result

/-- `test_aabb( x, y, z ) const`, 271-322: the six planes in the order left, right, bottom, top, near, far. `half` is `.5`. -/
def testAabb [Zero α] [One α] [Add α] [Sub α] [Mul α] [CMath α] [LE α] [DecidableLE α] [LT α] [DecidableLT α] (cfg : Cfg) (half : α)
    (k : Culler α) (x y z : Vec 2 α) : Res Visibility := do
  let middle ← Vec.mulS cfg (#v[x[0] + x[1], y[0] + y[1], z[0] + z[1]] : Vec 3 α) half
  let extent ← Vec.mulS cfg (#v[CMath.fabs (x[1] - x[0]), CMath.fabs (y[1] - y[0]), CMath.fabs (z[1] - z[0])] : Vec 3 α) half
  testAabbFrom cfg middle extent [k.left, k.right, k.bottom, k.top, k.near, k.far] .full

end Culler
end Vmml
