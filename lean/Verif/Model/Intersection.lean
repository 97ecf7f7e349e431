import Verif.Model.Vector

/-!
# Model of `vmmlib/intersection.hpp`

Line numbers refer to `/repo/vmmlib/intersection.hpp` unless another file is named.
-/

namespace Vmml

/-- `Intersection< T >`: the two `const` members, 79-80. -/
structure Ray (α : Type) where
  origin : Vec 3 α
  direction : Vec 3 α

namespace Ray
variable {α : Type}

/-- Constructor, 60-63: the direction is `vmml::normalize( direction )` (vector.hpp:471-477), a normalised copy. -/
def ctor [Zero α] [One α] [Add α] [Mul α] [Div α] [BEq α] [CMath α] (cfg : Cfg) (origin direction : Vec 3 α) : Res (Ray α) := do
  pure ⟨origin, (← direction.normalize cfg).1⟩

/-- `test_sphere( sphere, t )`, 85-116. The result is the returned `bool` and the value of the caller's `t` after the call.
`vec3( x, y, z )` is `set3` on fresh storage (its content does not matter, here zeros). -/
def testSphere [Zero α] [Add α] [Sub α] [Mul α] [CMath α] [LT α] [DecidableLT α] (cfg : Cfg) (ray : Ray α) (sphere : Vec 4 α)
    (t : α) : Res (Bool × α) := do
  let center ← (Vec.zeroCtor : Vec 3 α).set3 (← sphere.getX) (← sphere.getY) (← sphere.getZ)
  let radius ← sphere.getW
  let centerVec ← center.sub cfg ray.origin
  let vecProjection ← centerVec.dot cfg ray.direction
  let sqDistance ← centerVec.squaredLength
  let sqRadius := radius * radius
  if vecProjection < 0 ∧ sqRadius < sqDistance then
    pure (false, t)
  else
    let sqCenterToProj := sqDistance - vecProjection * vecProjection
    if sqRadius < sqCenterToProj then
      pure (false, t)
    else
      let distSurface := CMath.sqrt (sqRadius - sqCenterToProj)
      if sqRadius < sqDistance then
        pure (true, vecProjection - distSurface)
      else
        pure (true, vecProjection + distSurface)

end Ray
end Vmml
