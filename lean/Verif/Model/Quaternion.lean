import Verif.Model.Vector
import Verif.Model.Matrix
import Verif.Core.CMath

/-!
# Model of `Quaternion< T >` (vmmlib/quaternion.hpp)

Line numbers refer to `vmmlib/quaternion.hpp`. Simplification: the object is a private `Vector< 4, T >` whose components `x, y, z, w`
(in this order, `array[ 0 ] .. array[ 3 ]`) are only ever addressed by constants, so it is modelled as four fields.

Not modelled because they cannot be instantiated (templates that are never compiled): `set( begin, end )` 392-397
(calls a member template that does not exist), `negate` 125 (declared, never defined), `rotate`, `rotate_x/y/z` 841-881 (call a
non-existent `invert`, add a scalar to a vector), and `rotate( T, const Vector& )` 177 (never defined).
-/

namespace Vmml

/-- `Quaternion< T >`: components in storage order, 61-74. -/
structure Quat (α : Type) where
  x : α
  y : α
  z : α
  w : α
  deriving DecidableEq

namespace Quat
variable {α : Type}

/-- `Quaternion()`, 81: the vector part is zero-initialised by the base class, `w` is 1. -/
def ctor [Zero α] [One α] : Quat α := ⟨0, 0, 0, 1⟩
/-- `Quaternion( x, y, z, w )`, 236-243, and `set( x, y, z, w )`, 369-376. -/
def mk4 (x y z w : α) : Quat α := ⟨x, y, z, w⟩
/-- `Quaternion( xyz, w )`, 247-251, and `set( xyz, w )`, 380-387. -/
def ofVec (xyz : Vec 3 α) (w : α) : Quat α := ⟨xyz[0], xyz[1], xyz[2], w⟩
/-- `Quaternion( xyz )`, 256-260. -/
def ofVec0 [Zero α] (xyz : Vec 3 α) : Quat α := ofVec xyz 0
/-- `IDENTITY`, 225, also the result of `identity()`, 361-364. -/
def IDENTITY [Zero α] [One α] : Quat α := ⟨0, 0, 0, 1⟩
/-- `QUATERI`, 228. -/
def QUATERI [Zero α] [One α] : Quat α := ⟨1, 0, 0, 0⟩
/-- `QUATERJ`, 231. -/
def QUATERJ [Zero α] [One α] : Quat α := ⟨0, 1, 0, 0⟩
/-- `QUATERK`, 234. -/
def QUATERK [Zero α] [One α] : Quat α := ⟨0, 0, 1, 0⟩
/-- `zero()`, 353-356: the base class assignment of four zeros, whatever the object held. -/
def zero [Zero α] (_self : Quat α) : Quat α := ⟨0, 0, 0, 0⟩
/-- `identity()`, 361-364. -/
def identity [Zero α] [One α] (_self : Quat α) : Quat α := IDENTITY
/-- `set( ww, xx, yy, zz )` (declaration, 97); the definition, 369-375, names the same four parameters
`xx, yy, zz, ww` in this order and stores them accordingly. -/
def set4 (self : Quat α) (a b c d : α) : Quat α :=
  let q := { self with x := a }
  let q := { q with y := b }
  let q := { q with z := c }
  { q with w := d }
/-- `set( xyz, w )`, 380-386. -/
def setVec (self : Quat α) (xyz : Vec 3 α) (w : α) : Quat α :=
  let q := { self with x := xyz[0] }
  let q := { q with y := xyz[1] }
  let q := { q with z := xyz[2] }
  { q with w := w }
/-- `operator=( const Vector< 4, T >& )`, 975-980: `memcpy` of the four components. -/
def assignVec (_self : Quat α) (v : Vec 4 α) : Quat α := ⟨v[0], v[1], v[2], v[3]⟩
/-- The object as its base class `Vector< 4, T >`. -/
def toVec (q : Quat α) : Vec 4 α := #v[q.x, q.y, q.z, q.w]

/-! ## Comparison -/

/-- `operator==( const T& )`, 401-405. -/
def eqS [Zero α] [BEq α] (q : Quat α) (a : α) : Bool := q.w == a && q.x == 0 && q.y == 0 && q.z == 0
/-- `operator!=( const T& )`, 409-413. -/
def neS [Zero α] [BEq α] (q : Quat α) (a : α) : Bool := q.w != a || q.x != 0 || q.y != 0 || q.z != 0
/-- `operator==( const Quaternion& )`, 436-445, and, by reinterpretation, `operator==( const Vector< 4, T >& )`, 416-422. -/
def eq [BEq α] (q r : Quat α) : Bool := q.w == r.w && q.x == r.x && q.y == r.y && q.z == r.z
/-- `operator!=( const Quaternion& )`, 449-454, and `operator!=( const Vector< 4, T >& )`, 425-430. -/
def ne [BEq α] (q r : Quat α) : Bool := !(q.eq r)
/-- `is_akin( a, delta )`, 458-468. The function is `fabsf`, which takes and returns a `float`: `narrow` is the conversion
from `T` to `float` (the identity for `T = float`, a rounding for `double`). -/
def isAkin [Sub α] [LT α] [DecidableLT α] [CMath α] (narrow : α → α) (q a : Quat α) (delta : α) : Bool :=
  if decide (delta < CMath.fabs (narrow (q.w - a.w))) || decide (delta < CMath.fabs (narrow (q.x - a.x))) ||
     decide (delta < CMath.fabs (narrow (q.y - a.y))) || decide (delta < CMath.fabs (narrow (q.z - a.z))) then false else true

/-! ## Conjugate, norm, inverse -/

/-- `conjugate()`, 472-478. -/
def conjugate [Neg α] (q : Quat α) : Quat α :=
  let q := { q with x := -q.x }
  let q := { q with y := -q.y }
  { q with z := -q.z }
/-- `get_conjugate()`, 482-486. -/
def getConjugate [Neg α] (q : Quat α) : Quat α := mk4 (-q.x) (-q.y) (-q.z) q.w
/-- `squared_abs()`, 499-503. -/
def squaredAbs [Add α] [Mul α] (q : Quat α) : α := q.x * q.x + q.y * q.y + q.z * q.z + q.w * q.w
/-- `abs()`, 490-495. -/
def abs [Add α] [Mul α] [CMath α] (q : Quat α) : α := CMath.sqrt q.squaredAbs
/-- `operator*( T )`, 663-668. -/
def mulS [Mul α] (q : Quat α) (a : α) : Quat α := mk4 (q.x * a) (q.y * a) (q.z * a) (q.w * a)
/-- `operator*=( T )`, 685-692 (the scalar is passed by value). -/
def mulAssignS [Mul α] (q : Quat α) (a : α) : Quat α :=
  let q := { q with x := q.x * a }
  let q := { q with y := q.y * a }
  let q := { q with z := q.z * a }
  { q with w := q.w * a }
/-- `operator/( T )`, 672-681. -/
def divS [Zero α] [One α] [Mul α] [Div α] [BEq α] (cfg : Cfg) (q : Quat α) (a : α) : Res (Quat α) := do
  if a == 0 then vmmlibError cfg
  let a := 1 / a
  pure (mk4 (q.x * a) (q.y * a) (q.z * a) (q.w * a))
/-- `operator/=( T )`, 696-704. -/
def divAssignS [Zero α] [One α] [Mul α] [Div α] [BEq α] (cfg : Cfg) (q : Quat α) (a : α) : Res (Quat α) := do
  if a == 0 then vmmlibError cfg
  let a := 1 / a
  pure (q.mulAssignS a)
/-- `inverse()`, 507-516. -/
def inverse [One α] [Add α] [Neg α] [Mul α] [Div α] (q0 : Quat α) : Quat α :=
  let q := q0.conjugate
  let tmp := q0.squaredAbs
  let tmp := 1 / tmp
  q.mulS tmp
/-- `normalize()`, 520-529: the new quaternion and the returned value. -/
def normalize [Zero α] [One α] [Add α] [Mul α] [Div α] [BEq α] [CMath α] (q : Quat α) : Quat α × α :=
  let len := q.abs
  if len == 0 then (q, 0) else
  let len := 1 / len
  (q.mulAssignS len, len)
/-- `get_normalized()`, 533-540. -/
def getNormalized [Zero α] [One α] [Add α] [Mul α] [Div α] [BEq α] [CMath α] (q : Quat α) : Quat α := q.normalize.1

/-! ## Quaternion / quaternion -/

/-- `operator+`, 547-552. -/
def add [Add α] (q r : Quat α) : Quat α := mk4 (q.x + r.x) (q.y + r.y) (q.z + r.z) (q.w + r.w)
/-- `operator-`, 556-561. -/
def sub [Sub α] (q r : Quat α) : Quat α := mk4 (q.x - r.x) (q.y - r.y) (q.z - r.z) (q.w - r.w)
/-- `operator-()`, 628-633. -/
def neg [Neg α] (q : Quat α) : Quat α := mk4 (-q.x) (-q.y) (-q.z) (-q.w)

/-- A `const Quaternion&` argument of a mutating member: the object itself or another one. -/
inductive Arg (α : Type)
  | self
  | other (q : Quat α)
/-- What a read through the reference sees, given the current state of the object. -/
def Arg.read (cur : Quat α) : Arg α → Quat α
  | .self => cur
  | .other q => q

/-- `operator*=( const Quaternion& )`, 579-622 (the `#else` branch); `half` is the multiplication by `0.5`. Every read goes
through the argument reference at the time it happens; all reads precede the writes. -/
def mulAssign [Add α] [Sub α] (half : α → α) [Mul α] (self : Quat α) (q : Arg α) : Quat α :=
  let a := self.w
  let b := self.x
  let c := self.y
  let d := self.z
  let x := (q.read self).w
  let y := (q.read self).x
  let z := (q.read self).y
  let w := (q.read self).z
  let tmp00 := (d - c) * (z - w)
  let tmp01 := (a + b) * (x + y)
  let tmp02 := (a - b) * (z + w)
  let tmp03 := (c + d) * (x - y)
  let tmp04 := (d - b) * (y - z)
  let tmp05 := (d + b) * (y + z)
  let tmp06 := (a + c) * (x - w)
  let tmp07 := (a - c) * (x + w)
  let tmp08 := tmp05 + tmp06 + tmp07
  let tmp09 := half (tmp04 + tmp08)
  let self := { self with w := tmp00 + tmp09 - tmp05 }
  let self := { self with x := tmp01 + tmp09 - tmp08 }
  let self := { self with y := tmp02 + tmp09 - tmp07 }
  { self with z := tmp03 + tmp09 - tmp06 }
/-- `operator*( const Quaternion& )`, 566-573. -/
def mul [Add α] [Sub α] (half : α → α) [Mul α] (q r : Quat α) : Quat α := q.mulAssign half (.other r)
/-- `operator+=( const Quaternion& )`, 637-644. -/
def addAssign [Add α] (self : Quat α) (q : Arg α) : Quat α :=
  let self := { self with x := self.x + (q.read self).x }
  let self := { self with y := self.y + (q.read self).y }
  let self := { self with z := self.z + (q.read self).z }
  { self with w := self.w + (q.read self).w }
/-- `operator-=( const Quaternion& )`, 648-655. -/
def subAssign [Sub α] (self : Quat α) (q : Arg α) : Quat α :=
  let self := { self with x := self.x - (q.read self).x }
  let self := { self with y := self.y - (q.read self).y }
  let self := { self with z := self.z - (q.read self).z }
  { self with w := self.w - (q.read self).w }

/-! ## Quaternion / vector -/

/-- `operator+( const Vector< 3, T >& )`, 709-714. -/
def addV [Add α] (q : Quat α) (a : Vec 3 α) : Quat α := mk4 (q.x + a[0]) (q.y + a[1]) (q.z + a[2]) q.w
/-- `operator-( const Vector< 3, T >& )`, 718-723, with its argument order `w, x, y, z`. -/
def subV [Sub α] (q : Quat α) (a : Vec 3 α) : Quat α := mk4 q.w (q.x - a[0]) (q.y - a[1]) (q.z - a[2])
/-- `operator*( const Vector< 3, T >& )`, 727-735, with its argument order `w, x, y, z`. -/
def mulV [Add α] [Sub α] [Neg α] [Mul α] (q : Quat α) (a : Vec 3 α) : Quat α :=
  mk4 (-q.x * a[0] - q.y * a[1] - q.z * a[2])
    (q.w * a[0] + q.y * a[2] - q.z * a[1])
    (q.w * a[1] + q.z * a[0] - q.x * a[2])
    (q.w * a[2] + q.x * a[1] - q.y * a[0])
/-- `operator+=( const Vector< 3, T >& )`, 739-745 (the third statement updates `y`). -/
def addAssignV [Add α] (q : Quat α) (a : Vec 3 α) : Quat α :=
  let q := { q with x := q.x + a[0] }
  let q := { q with y := q.y + a[1] }
  { q with y := q.y + a[2] }
/-- `operator-=( const Vector< 3, T >& )`, 749-756. -/
def subAssignV [Sub α] (q : Quat α) (a : Vec 3 α) : Quat α :=
  let q := { q with x := q.x - a[0] }
  let q := { q with y := q.y - a[1] }
  { q with z := q.z - a[2] }
/-- `operator*=( const Vector< 3, T >& )`, 760-772. -/
def mulAssignV [Add α] [Sub α] [Neg α] [Mul α] (q : Quat α) (a : Vec 3 α) : Quat α :=
  let x := q.x
  let y := q.y
  let z := q.z
  let w := q.w
  let q := { q with x := w * a[0] + y * a[2] - z * a[1] }
  let q := { q with y := w * a[1] + z * a[0] - x * a[2] }
  let q := { q with z := w * a[2] + x * a[1] - y * a[0] }
  { q with w := -x * a[0] - y * a[1] - z * a[2] }
/-- `cross( const Quaternion& )`, 777-787. -/
def cross [Sub α] [Mul α] (q b : Quat α) : Vec 3 α :=
  #v[q.y * b.z - q.z * b.y, q.z * b.x - q.x * b.z, q.x * b.y - q.y * b.x]
/-- `dot( const Quaternion& )`, 791-795, and the static `dot( p, q )`, 799-804. -/
def dot [Add α] [Mul α] (p q : Quat α) : α := p.w * q.w + p.x * q.x + p.y * q.y + p.z * q.z

/-- `normal( aa, bb, cc, dd )`, 808-822: the three cross products are computed and dropped, then the object is normalised. -/
def normal4 [Zero α] [One α] [Add α] [Sub α] [Mul α] [Div α] [BEq α] [CMath α] (self aa bb cc dd : Quat α) : Quat α :=
  let quatT := bb.sub aa
  let quatU := cc.sub aa
  let quatV := dd.sub aa
  let _ := self.cross quatT
  let _ := self.cross quatU
  let _ := self.cross quatV
  self.normalize.1
/-- `normal( aa, bb, cc )`, 826-834. -/
def normal3 [Zero α] [One α] [Add α] [Sub α] [Mul α] [Div α] [BEq α] [CMath α] (self aa bb cc : Quat α) : Quat α :=
  let tmp : Quat α := ctor
  tmp.normal4 self aa bb cc

/-! ## Rotation matrices -/

variable {D : Nat}

/-- `get_rotation_matrix( Matrix< D, D, T >& )`, 895-921; `operator()` of the matrix is `at`. -/
def getRotationMatrixTo [One α] [Add α] [Sub α] [Mul α] (cfg : Cfg) (q : Quat α) (m : Mat D D α) : Res (Mat D D α) := do
  let w2 := q.w * q.w
  let x2 := q.x * q.x
  let y2 := q.y * q.y
  let z2 := q.z * q.z
  let wx := q.w * q.x
  let wy := q.w * q.y
  let wz := q.w * q.z
  let xy := q.x * q.y
  let xz := q.x * q.z
  let yz := q.y * q.z
  let m ← m.atSet cfg 0 0 (w2 + x2 - y2 - z2)
  let m ← m.atSet cfg 0 1 ((1 + 1) * (xy - wz))
  let m ← m.atSet cfg 0 2 ((1 + 1) * (xz + wy))
  let m ← m.atSet cfg 1 0 ((1 + 1) * (xy + wz))
  let m ← m.atSet cfg 1 1 (w2 - x2 + y2 - z2)
  let m ← m.atSet cfg 1 2 ((1 + 1) * (yz - wx))
  let m ← m.atSet cfg 2 0 ((1 + 1) * (xz - wy))
  let m ← m.atSet cfg 2 1 ((1 + 1) * (yz + wx))
  m.atSet cfg 2 2 (w2 - x2 - y2 + z2)
/-- `get_rotation_matrix()`, 885-892. -/
def getRotationMatrix [Zero α] [One α] [Add α] [Sub α] [Mul α] (cfg : Cfg) (q : Quat α) : Res (Mat 3 3 α) := do
  q.getRotationMatrixTo cfg (← Mat.ctor cfg)

/-- `set( const Matrix< D, D, T >& )`, 274-349, also the body of the constructor from a matrix, 264-269. `eps` is
`QUATERNION_TRACE_EPSILON` (1e-5). -/
def setMatrix [Zero α] [One α] [Add α] [Sub α] [Mul α] [Div α] [LT α] [DecidableLT α] [CMath α] (cfg : Cfg) (eps : α) (self : Quat α)
    (m : Mat D D α) : Res (Quat α) := do
  let half : α := 1 / (1 + 1)
  let quarter : α := 1 / ((1 + 1) * (1 + 1))
  let trace := (← m.atGet cfg 0 0) + (← m.atGet cfg 1 1) + (← m.atGet cfg 2 2) + 1
  if eps < trace then do
    let s := half / CMath.sqrt trace
    let self := { self with x := (← m.atGet cfg 2 1) - (← m.atGet cfg 1 2) }
    let self := { self with x := self.x * s }
    let self := { self with y := (← m.atGet cfg 0 2) - (← m.atGet cfg 2 0) }
    let self := { self with y := self.y * s }
    let self := { self with z := (← m.atGet cfg 1 0) - (← m.atGet cfg 0 1) }
    let self := { self with z := self.z * s }
    pure { self with w := quarter / s }
  else do
    let diag : Vec 3 α := #v[← m.atGet cfg 0 0, ← m.atGet cfg 1 1, ← m.atGet cfg 2 2]
    let largest ← diag.findMaxIndex
    if largest = 0 then do
      let s := half / CMath.sqrt (1 + (← m.atGet cfg 0 0) - (← m.atGet cfg 1 1) - (← m.atGet cfg 2 2))
      let self := { self with x := quarter / s }
      let self := { self with y := (← m.atGet cfg 0 1) + (← m.atGet cfg 1 0) }
      let self := { self with y := self.y * s }
      let self := { self with z := (← m.atGet cfg 0 2) + (← m.atGet cfg 2 0) }
      let self := { self with z := self.z * s }
      let self := { self with w := (← m.atGet cfg 1 2) - (← m.atGet cfg 2 1) }
      pure { self with w := self.w * s }
    else if largest = 1 then do
      let s := half / CMath.sqrt (1 + (← m.atGet cfg 1 1) - (← m.atGet cfg 0 0) - (← m.atGet cfg 2 2))
      let self := { self with x := (← m.atGet cfg 0 1) + (← m.atGet cfg 1 0) }
      let self := { self with x := self.x * s }
      let self := { self with y := quarter / s }
      let self := { self with z := (← m.atGet cfg 1 2) + (← m.atGet cfg 2 1) }
      let self := { self with z := self.z * s }
      let self := { self with w := (← m.atGet cfg 0 2) - (← m.atGet cfg 2 0) }
      pure { self with w := self.w * s }
    else if largest = 2 then do
      let s := half / CMath.sqrt (1 + (← m.atGet cfg 2 2) - (← m.atGet cfg 0 0) - (← m.atGet cfg 1 1))
      let self := { self with x := (← m.atGet cfg 0 2) + (← m.atGet cfg 2 0) }
      let self := { self with x := self.x * s }
      let self := { self with y := (← m.atGet cfg 1 2) + (← m.atGet cfg 2 1) }
      let self := { self with y := self.y * s }
      let self := { self with z := quarter / s }
      let self := { self with w := (← m.atGet cfg 0 1) - (← m.atGet cfg 1 0) }
      pure { self with w := self.w * s }
    else do
      let self := self.zero
      cassert cfg false
      pure self

/-! ## Interpolation -/

/-- `slerp( a, p, q, epsilon )`, 923-962. -/
def slerp [Zero α] [One α] [Add α] [Sub α] [Neg α] [Mul α] [Div α] [BEq α] [LT α] [DecidableLT α] [CMath α] (a : α) (p q : Quat α)
    (epsilon : α) : Quat α :=
  let px := p.getNormalized
  let qx := q.getNormalized
  let cosine := px.dot qx
  let (cosine, qx) := if cosine < 0 then (-cosine, qx.neg) else (cosine, qx)
  let absCos := CMath.fabs cosine
  let oneX := 1 - epsilon
  if absCos < oneX then
    let sine := CMath.sqrt (1 - cosine * cosine)
    let angle := CMath.atan2 sine cosine
    let coeff1 := CMath.sin ((1 - a) * angle) / sine
    let coeff2 := CMath.sin (a * angle) / sine
    let qx := qx.mulAssignS coeff2
    let px := px.mulAssignS coeff1
    px.addAssign (.other qx)
  else
    let px := px.mulAssignS (1 - a)
    let qx := qx.mulAssignS a
    let px := px.addAssign (.other qx)
    px.normalize.1

end Quat
end Vmml
