import Verif.Model.Vector

/-!
# Model of `vmmlib/aabb.hpp`

All line numbers refer to `/repo/vmmlib/aabb.hpp`. Not modelled: the constructor from a sphere (136-143) and
`isIn( sphere )` (153-164), which call `Vector::getCenter` and `Vector::getRadius`; no such members exist, so these templates
cannot be instantiated. The component accessors `x()`, `y()`, `z()` of a `Vector< 3, T >` are `array[0..2]`.
-/

namespace Vmml

/-- `AABB< T >`, 97-99: the two corners. -/
structure Box (α : Type) where
  min : Vec 3 α
  max : Vec 3 α
  deriving DecidableEq

namespace Box
variable {α : Type}

/-- `AABB()`, 115-118: `maxT` and `minT` are `numeric_limits< T >::max()` and `numeric_limits< T >::min()`; the specialisations for
`float` and `double`, 120-128, are the same text with `-numeric_limits< T >::max()` for `minT`. -/
def ctor [Zero α] (maxT minT : α) : Res (Box α) := do
  pure ⟨← Vec.fill Vec.zeroCtor maxT, ← Vec.fill Vec.zeroCtor minT⟩

/-- `AABB( pMin, pMax )`, 130-134. -/
def ctor2 (pMin pMax : Vec 3 α) : Box α := ⟨pMin, pMax⟩

/-- `AABB( cx, cy, cz, size )`, 145-151. -/
def ctorCube [Zero α] [Add α] [Sub α] (cfg : Cfg) (cx cy cz size : α) : Res (Box α) := do
  let c ← Vec.set3 (M := 3) Vec.zeroCtor cx cy cz
  let mn ← (Vec.zeroCtor : Vec 3 α).assign c
  let mx ← (Vec.zeroCtor : Vec 3 α).assign mn
  let mx ← mx.addAssignS cfg size
  let mn ← mn.subAssignS cfg size
  pure ⟨mn, mx⟩

/-- `isIn( pos )`, 166-175. -/
def isIn [LT α] [DecidableLT α] (b : Box α) (pos : Vec 3 α) : Bool :=
  if pos[0] > b.max[0] ∨ pos[1] > b.max[1] ∨ pos[2] > b.max[2] ∨ pos[0] < b.min[0] ∨ pos[1] < b.min[1] ∨ pos[2] < b.min[2] then false
  else true

/-- `isIn2d( pos )`, 177-186. -/
def isIn2d [LT α] [DecidableLT α] (b : Box α) (pos : Vec 3 α) : Bool :=
  if pos[0] > b.max[0] ∨ pos[1] > b.max[1] ∨ pos[0] < b.min[0] ∨ pos[1] < b.min[1] then false
  else true

/-- `set( pMin, pMax )`, 188-194. -/
def set (b : Box α) (pMin pMax : Vec 3 α) : Res (Box α) := do
  pure ⟨← b.min.assign pMin, ← b.max.assign pMax⟩

/-- `set( cx, cy, cz, size )`, 196-202. -/
def setCube [Zero α] [Add α] [Sub α] (cfg : Cfg) (b : Box α) (cx cy cz size : α) : Res (Box α) := do
  let center ← Vec.set3 (M := 3) Vec.zeroCtor cx cy cz
  let mn ← b.min.assign (← center.subS cfg size)
  let mx ← b.max.assign (← center.addS cfg size)
  pure ⟨mn, mx⟩

/-- `setMin( pMin )`, 204-208. -/
def setMin (b : Box α) (pMin : Vec 3 α) : Res (Box α) := do pure { b with min := ← b.min.assign pMin }
/-- `setMax( pMax )`, 210-214. -/
def setMax (b : Box α) (pMax : Vec 3 α) : Res (Box α) := do pure { b with max := ← b.max.assign pMax }

/-- `operator*=( value )`, 270-275. -/
def mulAssign [Mul α] (cfg : Cfg) (b : Box α) (value : α) : Res (Box α) := do
  pure ⟨← b.min.mulAssignS cfg value, ← b.max.mulAssignS cfg value⟩
/-- `operator/=( value )`, 277-282. -/
def divAssign [Div α] (cfg : Cfg) (b : Box α) (value : α) : Res (Box α) := do
  pure ⟨← b.min.divAssignS cfg value, ← b.max.divAssignS cfg value⟩
/-- `operator+=( value )`, 284-289. -/
def addAssign [Add α] (cfg : Cfg) (b : Box α) (value : α) : Res (Box α) := do
  pure ⟨← b.min.addAssignS cfg value, ← b.max.addAssignS cfg value⟩
/-- `operator-=( value )`, 291-296. -/
def subAssign [Sub α] (cfg : Cfg) (b : Box α) (value : α) : Res (Box α) := do
  pure ⟨← b.min.subAssignS cfg value, ← b.max.subAssignS cfg value⟩

/-- `operator*( value ) const`, 238-244: a copy, then `*=`. -/
def mul [Mul α] (cfg : Cfg) (b : Box α) (value : α) : Res (Box α) := b.mulAssign cfg value
/-- `operator/( value ) const`, 246-252. -/
def div [Div α] (cfg : Cfg) (b : Box α) (value : α) : Res (Box α) := b.divAssign cfg value
/-- `operator+( value ) const`, 254-260. -/
def add [Add α] (cfg : Cfg) (b : Box α) (value : α) : Res (Box α) := b.addAssign cfg value
/-- `operator-( value ) const`, 262-268. -/
def sub [Sub α] (cfg : Cfg) (b : Box α) (value : α) : Res (Box α) := b.subAssign cfg value

/-- `operator==( other ) const`, 298-303, for the same element type (for another one the corners' types differ and it does not compile). -/
def eq [Vec.Bytes α] (a b : Box α) : Bool := a.min.eqMem b.min && a.max.eqMem b.max
/-- `operator!=( other ) const`, 305-310. -/
def ne [Vec.Bytes α] (a b : Box α) : Bool := a.min.neMem b.min || a.max.neMem b.max

/-- `getCenter() const`, 312-316; `half` is `0.5f` converted to `T` (0 for the integer types). -/
def getCenter [Zero α] [Add α] [Sub α] [Mul α] (cfg : Cfg) (half : α) (b : Box α) : Res (Vec 3 α) := do
  b.min.add cfg (← (← b.max.sub cfg b.min).mulS cfg half)

/-- `getDimension() const`, 318-322. -/
def getDimension [Zero α] [Sub α] (cfg : Cfg) (b : Box α) : Res (Vec 3 α) := b.max.sub cfg b.min

/-- `if( c < _min.c() ) _min.c() = c;`, e.g. 330-331. -/
def lowerTo [LT α] [DecidableLT α] (v : Vec 3 α) (i : Fin 3) (c : α) : Vec 3 α := if c < v[i] then v.set i c else v
/-- `if( c > _max.c() ) _max.c() = c;`, e.g. 337-338. -/
def raiseTo [LT α] [DecidableLT α] (v : Vec 3 α) (i : Fin 3) (c : α) : Vec 3 α := if c > v[i] then v.set i c else v

/-- `merge( aabb )`, 324-343. -/
def mergeBox [LT α] [DecidableLT α] (b aabb : Box α) : Box α :=
  let mn := lowerTo b.min 0 aabb.min[0]
  let mn := lowerTo mn 1 aabb.min[1]
  let mn := lowerTo mn 2 aabb.min[2]
  let mx := raiseTo b.max 0 aabb.max[0]
  let mx := raiseTo mx 1 aabb.max[1]
  let mx := raiseTo mx 2 aabb.max[2]
  ⟨mn, mx⟩

/-- `merge( point )`, 345-361. -/
def mergePoint [LT α] [DecidableLT α] (b : Box α) (point : Vec 3 α) : Box α :=
  let mn := lowerTo b.min 0 point[0]
  let mn := lowerTo mn 1 point[1]
  let mn := lowerTo mn 2 point[2]
  let mx := raiseTo b.max 0 point[0]
  let mx := raiseTo mx 1 point[1]
  let mx := raiseTo mx 2 point[2]
  ⟨mn, mx⟩

/-- `setEmpty()`, 363-368: both corners are filled; `maxT` is `numeric_limits< T >::max()`. -/
def setEmpty [Neg α] (cfg : Cfg) (maxT : α) (b : Box α) : Res (Box α) := do
  pure ⟨← b.min.assignFiller cfg maxT, ← b.max.assignFiller cfg (-maxT)⟩

/-- `isEmpty() const`, 371-375; the third comparison is `_min.z() >= _max.x()`. -/
def isEmpty [LE α] [DecidableLE α] (b : Box α) : Bool :=
  decide (b.min[0] ≥ b.max[0]) || decide (b.min[1] ≥ b.max[1]) || decide (b.min[2] ≥ b.max[0])

/-- `makeUnitBox()`, 377-381; `ZERO` and `ONE` are vector.hpp:395-397. -/
def makeUnitBox [Zero α] [One α] : Res (Box α) := do
  pure (ctor2 (← Vec.fill Vec.zeroCtor 0) (← Vec.fill Vec.zeroCtor 1))

end Box
end Vmml
