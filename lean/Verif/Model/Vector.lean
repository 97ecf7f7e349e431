import Verif.Core.Basic
import Verif.Core.CMath

/-!
# Model of `vmmlib/vector.hpp`

`Vector< M, T >` stores `T array[ M ]` (vector.hpp:354). The model is generic in `T = α` and
uses only operation classes, no laws. A `const` member function returns its result; a
mutating one returns the new value of `*this`.
All line numbers refer to `/repo/vmmlib/vector.hpp` unless another file is named.
-/

namespace Vmml

/-- `Vector< M, T >`: `M` consecutive cells, vector.hpp:354 (`T array[ M ]`). -/
abbrev Vec (M : Nat) (α : Type) := Vector α M

namespace Vec

variable {M N : Nat} {α β : Type}

/-! ## Cells -/

/-- `array[ index ]` read (unchecked array access); outside the array it is undefined. -/
def rawGet (v : Vec M α) (i : Nat) : Res α :=
  if h : i < M then pure v[i] else throw .ub

/-- `array[ index ] = x` (unchecked); outside the array it is undefined. -/
def rawSet (v : Vec M α) (i : Nat) (x : α) : Res (Vec M α) :=
  if h : i < M then pure (v.set i x) else throw .ub

/-- `at( index ) const`, vector.hpp:684-696: with `VMMLIB_SAFE_ACCESSORS` the index is checked
and `VMMLIB_ERROR` raised, then `array[ index ]`. Also `operator()`, 651-666, and `operator[]` of the
configuration `VMMLIB_NO_CONVERSION_OPERATORS`, 715-727, which call `at`. -/
def atGet (cfg : Cfg) (v : Vec M α) (i : Nat) : Res α := do
  if cfg.safe && decide (M ≤ i) then vmmlibError cfg
  rawGet v i

/-- Assignment through the reference returned by `at( index )`, vector.hpp:669-681. -/
def atSet (cfg : Cfg) (v : Vec M α) (i : Nat) (x : α) : Res (Vec M α) := do
  if cfg.safe && decide (M ≤ i) then vmmlibError cfg
  rawSet v i x

/-- `x() const`, 987-992; also `r() const`, 1058-1063. -/
def getX (v : Vec M α) : Res α := v.rawGet 0
/-- `y() const`, 996-1001; also `g() const`, 1067-1072. -/
def getY (v : Vec M α) : Res α := v.rawGet 1
/-- `z() const`, 1005-1010; also `b() const`, 1076-1081. -/
def getZ (v : Vec M α) : Res α := v.rawGet 2
/-- `w() const`, 1014-1019; also `a() const`, 1085-1090. -/
def getW (v : Vec M α) : Res α := v.rawGet 3
/-- `x() = a`, 951-956; also `r()`, 1022-1027. -/
def setX (v : Vec M α) (a : α) : Res (Vec M α) := v.rawSet 0 a
/-- `y() = a`, 960-965; also `g()`, 1031-1036. -/
def setY (v : Vec M α) (a : α) : Res (Vec M α) := v.rawSet 1 a
/-- `z() = a`, 969-974; also `b()`, 1040-1045. -/
def setZ (v : Vec M α) (a : α) : Res (Vec M α) := v.rawSet 2 a
/-- `w() = a`, 978-983; also `a()`, 1049-1054. -/
def setW (v : Vec M α) (a : α) : Res (Vec M α) := v.rawSet 3 a

/-! ## Construction and assignment -/

/-- `Vector() : array() {}`, 65: value-initialises, i.e. all components zero. -/
def zeroCtor [Zero α] : Vec M α := Vector.replicate M 0

/-- `explicit Vector( const T& a )`, 493-500, and `set( T a )`, 599-603: every component is set
by iterating `begin() .. end()`. `mem` is the previous content of the storage. -/
def fill (mem : Vec M α) (a : α) : Res (Vec M α) :=
  loop M (fun i v => v.rawSet i a) mem

/-- `operator=( T filler_value )`, 1382-1388 (through `at`). -/
def assignFiller (cfg : Cfg) (v : Vec M α) (a : α) : Res (Vec M α) :=
  loop M (fun i v => v.atSet cfg i a) v

/-- `Vector( x, y )`, 502-507, and `set( x, y )`, 623-628. `mem` is the previous content of the storage
(indeterminate for the constructor, which has no member initialiser). -/
def set2 (mem : Vec M α) (x y : α) : Res (Vec M α) := do
  (← mem.rawSet 0 x).rawSet 1 y

/-- `Vector( x, y, z )`, 510-516, and `set( x, y, z )`, 631-637. -/
def set3 (mem : Vec M α) (x y z : α) : Res (Vec M α) := do
  (← (← mem.rawSet 0 x).rawSet 1 y).rawSet 2 z

/-- `Vector( x, y, z, w )`, 520-527, and `set( x, y, z, w )`, 641-648. -/
def set4 (mem : Vec M α) (x y z w : α) : Res (Vec M α) := do
  (← (← (← mem.rawSet 0 x).rawSet 1 y).rawSet 2 z).rawSet 3 w

/-- `memcpy( array, src, n * sizeof( T ) )` between two element arrays. -/
def memcpy (dst : Vec M α) (src : Vec N α) (n : Nat) : Res (Vec M α) :=
  loop n (fun i v => do v.rawSet i (← src.rawGet i)) dst

/-- `Vector( const Vector< M-1, T >& vector_, T last_ )`, 549-564, for `M = N + 1`. -/
def appendCtor (mem : Vec (N + 1) α) (v : Vec N α) (last : α) : Res (Vec (N + 1) α) := do
  let my ← loop N (fun i my => do my.rawSet i (← v.rawGet i)) mem
  my.rawSet N last

/-- `set( const Vector< M-1, T >& v, T a )`, 607-612, for `M = N + 1`. -/
def setAppend (cfg : Cfg) (mem : Vec (N + 1) α) (v : Vec N α) (a : α) : Res (Vec (N + 1) α) := do
  let my ← mem.memcpy v N
  my.atSet cfg N a

/-- `set( const Vector< N, T >& v )`, 615-621: copies `min( M, N )` components. -/
def setVec (dst : Vec M α) (v : Vec N α) : Res (Vec M α) :=
  let minimum := if N < M then N else M
  dst.memcpy v minimum

/-- To-homogeneous assignment, 1349-1356 (and the constructor 569-575), `M = N + 1`. -/
def toHomogeneous [One α] (cfg : Cfg) (mem : Vec (N + 1) α) (src : Vec N α) :
    Res (Vec (N + 1) α) := do
  let my ← mem.memcpy src N
  my.atSet cfg N 1

/-- From-homogeneous assignment, 1361-1370 (and the constructor 581-587): multiplies by the
reciprocal of the last component. -/
def fromHomogeneous [One α] [Mul α] [Div α] (cfg : Cfg) (mem : Vec M α) (src : Vec (M + 1) α) :
    Res (Vec M α) := do
  let w_reci := 1 / (← src.atGet cfg M)
  loop M (fun i v => do v.rawSet i ((← src.atGet cfg i) * w_reci)) mem

/-- `operator=( const Vector& other )`, 1393-1399, distinct objects. -/
def assign (dst src : Vec M α) : Res (Vec M α) := dst.memcpy src M

/-- Converting assignment `operator=( const Vector< M, U >& )`, 1404-1411 (also the converting constructor, 590-595), and `cast_from`,
1683-1697; `cast` is `static_cast< T >`. -/
def assignCast (cast : β → α) (dst : Vec M α) (src : Vec M β) : Res (Vec M α) :=
  loop M (fun i v => do v.rawSet i (cast (← src.rawGet i))) dst

/-- `iter_set( begin_, end_ )`, 1416-1424: stops at the end of the vector or of the input,
whichever comes first. The input range is the list of its elements. Also `operator=( const T* )`, 1373-1378. -/
def iterSet (cast : β → α) (dst : Vec M α) (src : List β) : Res (Vec M α) :=
  loop M (fun i v => match src[i]? with
    | some x => v.rawSet i (cast x)
    | none => pure v) dst

/-- `get_sub_vector< N >( offset ) const`, 1275-1281: `assert( offset <= M - N )`, then a
reinterpreted reference to `N` cells starting at `offset`; the value read through the reference. The function
exists only for `M >= N`. Reading cells past the end of `array` is undefined. -/
def getSub (cfg : Cfg) (v : Vec M α) (N : Nat) (offset : Nat) (dflt : Vec N α) : Res (Vec N α) := do
  cassert cfg (decide (offset ≤ M - N))
  loop N (fun i r => do r.rawSet i (← v.rawGet (offset + i))) dflt

/-- Assigning component `i` through the reference returned by the non-const
`get_sub_vector< N >( offset )`, 1267-1273 (with the accessor `at`). -/
def subSet (cfg : Cfg) (v : Vec M α) (N : Nat) (offset i : Nat) (x : α) : Res (Vec M α) := do
  cassert cfg (decide (offset ≤ M - N))
  if cfg.safe && decide (N ≤ i) then vmmlibError cfg
  v.rawSet (offset + i) x

/-! ## Arithmetic -/

/-- `operator+( const Vector& ) const`, 776-784. -/
def add [Zero α] [Add α] (cfg : Cfg) (v w : Vec M α) : Res (Vec M α) :=
  loop M (fun i r => do r.atSet cfg i ((← v.atGet cfg i) + (← w.atGet cfg i))) zeroCtor

/-- `operator-( const Vector& ) const`, 788-796. -/
def sub [Zero α] [Sub α] (cfg : Cfg) (v w : Vec M α) : Res (Vec M α) :=
  loop M (fun i r => do r.atSet cfg i ((← v.atGet cfg i) - (← w.atGet cfg i))) zeroCtor

/-- `operator*( const Vector& ) const`, 752-760. -/
def mul [Zero α] [Mul α] (cfg : Cfg) (v w : Vec M α) : Res (Vec M α) :=
  loop M (fun i r => do r.atSet cfg i ((← v.atGet cfg i) * (← w.atGet cfg i))) zeroCtor

/-- `operator/( const Vector& ) const`, 764-772. -/
def div [Zero α] [Div α] (cfg : Cfg) (v w : Vec M α) : Res (Vec M α) :=
  loop M (fun i r => do r.atSet cfg i ((← v.atGet cfg i) / (← w.atGet cfg i))) zeroCtor

/-- `operator+( const T ) const`, 865-873. -/
def addS [Zero α] [Add α] (cfg : Cfg) (v : Vec M α) (a : α) : Res (Vec M α) :=
  loop M (fun i r => do r.atSet cfg i ((← v.atGet cfg i) + a)) zeroCtor

/-- `operator-( const T ) const`, 877-885. -/
def subS [Zero α] [Sub α] (cfg : Cfg) (v : Vec M α) (a : α) : Res (Vec M α) :=
  loop M (fun i r => do r.atSet cfg i ((← v.atGet cfg i) - a)) zeroCtor

/-- `operator*( const T ) const`, 841-849, and the free `operator*( T, Vector )`, 447-451. -/
def mulS [Zero α] [Mul α] (cfg : Cfg) (v : Vec M α) (a : α) : Res (Vec M α) :=
  loop M (fun i r => do r.atSet cfg i ((← v.atGet cfg i) * a)) zeroCtor

/-- `operator/( const T ) const`, 853-861. -/
def divS [Zero α] [Div α] (cfg : Cfg) (v : Vec M α) (a : α) : Res (Vec M α) :=
  loop M (fun i r => do r.atSet cfg i ((← v.atGet cfg i) / a)) zeroCtor

/-- `operator+=( const Vector& )`, 821-827, right operand a different object (aliasing: `Model/Alias`). -/
def addAssign [Add α] (cfg : Cfg) (v w : Vec M α) : Res (Vec M α) :=
  loop M (fun i r => do r.atSet cfg i ((← r.atGet cfg i) + (← w.atGet cfg i))) v

/-- `operator-=( const Vector& )`, 831-837. -/
def subAssign [Sub α] (cfg : Cfg) (v w : Vec M α) : Res (Vec M α) :=
  loop M (fun i r => do r.atSet cfg i ((← r.atGet cfg i) - (← w.atGet cfg i))) v

/-- `operator*=( const Vector& )`, 801-807. -/
def mulAssign [Mul α] (cfg : Cfg) (v w : Vec M α) : Res (Vec M α) :=
  loop M (fun i r => do r.atSet cfg i ((← r.atGet cfg i) * (← w.atGet cfg i))) v

/-- `operator/=( const Vector& )`, 811-817. -/
def divAssign [Div α] (cfg : Cfg) (v w : Vec M α) : Res (Vec M α) :=
  loop M (fun i r => do r.atSet cfg i ((← r.atGet cfg i) / (← w.atGet cfg i))) v

/-- `operator+=( const T )`, 910-916. -/
def addAssignS [Add α] (cfg : Cfg) (v : Vec M α) (a : α) : Res (Vec M α) :=
  loop M (fun i r => do r.atSet cfg i ((← r.atGet cfg i) + a)) v

/-- `operator-=( const T )`, 920-926. -/
def subAssignS [Sub α] (cfg : Cfg) (v : Vec M α) (a : α) : Res (Vec M α) :=
  loop M (fun i r => do r.atSet cfg i ((← r.atGet cfg i) - a)) v

/-- `operator*=( const T )`, 890-896. -/
def mulAssignS [Mul α] (cfg : Cfg) (v : Vec M α) (a : α) : Res (Vec M α) :=
  loop M (fun i r => do r.atSet cfg i ((← r.atGet cfg i) * a)) v

/-- `operator/=( const T )`, 900-906. -/
def divAssignS [Div α] (cfg : Cfg) (v : Vec M α) (a : α) : Res (Vec M α) :=
  loop M (fun i r => do r.atSet cfg i ((← r.atGet cfg i) / a)) v

/-- `negate()`, 940-946, and unary `operator-`, 930-936, which negates a copy. -/
def negate [Neg α] (v : Vec M α) : Res (Vec M α) :=
  loop M (fun i r => do r.rawSet i (-(← r.rawGet i))) v

/-! ## Products, lengths -/

/-- `dot`, 1119-1127, and the free function 454-458. -/
def dot [Zero α] [Add α] [Mul α] (cfg : Cfg) (v w : Vec M α) : Res α :=
  loop M (fun i tmp => do pure (tmp + (← v.atGet cfg i) * (← w.atGet cfg i))) 0

/-- `squared_length`, 1149-1157. -/
def squaredLength [Zero α] [Add α] [Mul α] (v : Vec M α) : Res α :=
  loop M (fun i s => do pure (s + (← v.rawGet i) * (← v.rawGet i))) 0

/-- `length`, 1143-1147. -/
def length [Zero α] [Add α] [Mul α] [CMath α] (v : Vec M α) : Res α := do
  pure (CMath.sqrt (← v.squaredLength))

/-- `norm`, 1737-1750: same computation in `double`; modelled at `T = double`. -/
def norm [Zero α] [Add α] [Mul α] [CMath α] (v : Vec M α) : Res α := do
  let n ← loop M (fun i s => do pure (s + (← v.rawGet i) * (← v.rawGet i))) 0
  pure (CMath.sqrt n)

/-- `normalize()`, 1130-1141: returns the new value of `*this` and the old length (`0` for a
zero vector, which is left unchanged). The free function `normalize`, 469-475, normalises a copy. -/
def normalize [Zero α] [One α] [Add α] [Mul α] [Div α] [BEq α] [CMath α] (cfg : Cfg) (v : Vec M α) :
    Res (Vec M α × α) := do
  let len ← v.length
  if len == 0 then
    pure (v, 0)
  else
    let tmp := 1 / len
    let v' ← v.mulAssignS cfg tmp
    pure (v', len)

/-- `squared_distance`, 1170-1176. -/
def squaredDistance [Zero α] [Add α] [Sub α] [Mul α] (cfg : Cfg) (v w : Vec M α) : Res α := do
  (← v.subAssign cfg w).squaredLength

/-- `distance`, 1161-1166. -/
def distance [Zero α] [Add α] [Sub α] [Mul α] [CMath α] (cfg : Cfg) (v w : Vec M α) : Res α := do
  pure (CMath.sqrt (← v.squaredDistance cfg w))

/-- `product`, 1178-1184. -/
def product [Mul α] (cfg : Cfg) (v : Vec M α) : Res α := do
  loop (M - 1) (fun i r => do pure (r * (← v.atGet cfg (i + 1)))) (← v.atGet cfg 0)

/-- The value `aa x bb` written by the two-argument `cross( aa, bb )`, 1106-1115, when `*this` is
neither `aa` nor `bb`; the one-argument member 1095-1102 and the free function 461-465 call it with a
fresh `result`. `M = 3`, so the constant indices are in range. Aliasing: `Model/Alias`. -/
def cross [Sub α] [Mul α] (aa bb : Vec 3 α) : Vec 3 α :=
  #v[aa[1] * bb[2] - aa[2] * bb[1],
     aa[2] * bb[0] - aa[0] * bb[2],
     aa[0] * bb[1] - aa[1] * bb[0]]

/-- `compute_normal( aa, bb, cc )`, 1186-1198 (the two-argument form 1201-1209 calls it), `M = 3`. -/
def computeNormal [Zero α] [One α] [Add α] [Sub α] [Mul α] [Div α] [BEq α] [CMath α] (cfg : Cfg)
    (aa bb cc : Vec 3 α) : Res (Vec 3 α) := do
  let u ← bb.sub cfg aa
  let v ← cc.sub cfg aa
  let r ← (u.cross v).normalize cfg
  pure r.1

/-- `rotate( theta, axis )`, 1211-1234, `M = 3`; `axis` is taken by value and normalised. -/
def rotate [Zero α] [One α] [Add α] [Sub α] [Mul α] [Div α] [BEq α] [CMath α] (cfg : Cfg)
    (v : Vec 3 α) (theta : α) (axis0 : Vec 3 α) : Res (Vec 3 α) := do
  let axis : Vec 3 α := (← axis0.normalize cfg).1
  let costheta : α := CMath.cos theta
  let sintheta : α := CMath.sin theta
  pure #v[
    (costheta + ((1 : α) - costheta) * axis[0] * axis[0]) * v[0] +
    (((1 : α) - costheta) * axis[0] * axis[1] - axis[2] * sintheta) * v[1] +
    (((1 : α) - costheta) * axis[0] * axis[2] + axis[1] * sintheta) * v[2],
    (((1 : α) - costheta) * axis[0] * axis[1] + axis[2] * sintheta) * v[0] +
    (costheta + ((1 : α) - costheta) * axis[1] * axis[1]) * v[1] +
    (((1 : α) - costheta) * axis[1] * axis[2] - axis[0] * sintheta) * v[2],
    (((1 : α) - costheta) * axis[0] * axis[2] - axis[1] * sintheta) * v[0] +
    (((1 : α) - costheta) * axis[1] * axis[2] + axis[0] * sintheta) * v[1] +
    (costheta + ((1 : α) - costheta) * axis[2] * axis[2]) * v[2]]

/-! ## Spheres and planes (4-vectors) -/

/-- `project_point_onto_sphere`, 1238-1252; sphere = (center xyz, radius w). -/
def projectPointOntoSphere [Zero α] [One α] [Add α] [Sub α] [Mul α] [Div α] [BEq α] [CMath α]
    (cfg : Cfg) (sphere : Vec 4 α) (point : Vec 3 α) : Res (Vec 3 α) := do
  let center ← sphere.getSub cfg 3 0 zeroCtor
  let p ← point.subAssign cfg center
  let p := (← p.normalize cfg).1
  let p ← p.mulAssignS cfg sphere[3]
  center.add cfg p

/-- `distance_to_sphere`, 1257-1265. -/
def distanceToSphere [Zero α] [Add α] [Sub α] [Mul α] [CMath α] (cfg : Cfg)
    (sphere : Vec 4 α) (point : Vec 3 α) : Res α := do
  let center ← sphere.getSub cfg 3 0 zeroCtor
  pure ((← (← point.sub cfg center).length) - sphere[3])

/-- `distance_to_plane`, 1285-1291; plane = (normal xyz, distance w). -/
def distanceToPlane [Zero α] [Add α] [Mul α] (cfg : Cfg) (plane : Vec 4 α) (point : Vec 3 α) :
    Res α := do
  let normal ← plane.getSub cfg 3 0 zeroCtor
  pure ((← normal.dot cfg point) + plane[3])

/-- `project_point_onto_plane`, 1296-1304. -/
def projectPointOntoPlane [Zero α] [Add α] [Sub α] [Mul α] (cfg : Cfg) (plane : Vec 4 α)
    (point : Vec 3 α) : Res (Vec 3 α) := do
  let normal ← plane.getSub cfg 3 0 zeroCtor
  point.sub cfg (← normal.mulS cfg (← plane.distanceToPlane cfg point))

/-- Free function `compute_plane( a, b, c )`, 478-491. `Vector< 4, T > plane = cb.cross( ba )` is the
to-homogeneous conversion (`w = 1`) and `plane.normalize()` normalises all four components. -/
def computePlane [Zero α] [One α] [Add α] [Sub α] [Neg α] [Mul α] [Div α] [BEq α] [CMath α] (cfg : Cfg)
    (a b c : Vec 3 α) : Res (Vec 4 α) := do
  let cb ← b.sub cfg c
  let ba ← a.sub cfg b
  let plane ← toHomogeneous cfg zeroCtor (cb.cross ba)
  let plane := (← plane.normalize cfg).1
  plane.setW (-plane[0] * a[0] - plane[1] * a[1] - plane[2] * a[2])

/-! ## Comparison -/

/-- The object representation compared by `memcmp`: a fixed number of bytes per element. -/
class Bytes (α : Type) where
  bytes : α → List UInt8

/-- `operator==`, 1308-1312: `memcmp` of the two arrays. -/
def eqMem [Bytes α] (v w : Vec M α) : Bool :=
  (v.toList.flatMap Bytes.bytes) == (w.toList.flatMap Bytes.bytes)

/-- `operator!=`, 1315-1319. -/
def neMem [Bytes α] (v w : Vec M α) : Bool := !(eqMem v w)

/-- `equals( other, tolerance )`, 1322-1331 and the free function 438-442. -/
def equals [Sub α] [LE α] [DecidableLE α] [CMath α] (cfg : Cfg) (v w : Vec M α) (tol : α) :
    Res Bool := do
  let r ← loopRet M (fun i => do
    if tol ≤ CMath.fabs ((← v.atGet cfg i) - (← w.atGet cfg i)) then pure (some false)
    else pure none)
  pure (r.getD true)

/-- `operator<`, 1334-1344. -/
def lt [LT α] [DecidableLT α] (cfg : Cfg) (v w : Vec M α) : Res Bool := do
  let r ← loopRet M (fun i => do
    if (← v.atGet cfg i) < (← w.atGet cfg i) then pure (some true)
    else if (← w.atGet cfg i) < (← v.atGet cfg i) then pure (some false)
    else pure none)
  pure (r.getD false)

/-! ## Extrema -/

/-- `std::min_element( begin(), end(), comp ) - begin()` (C++ standard, [alg.min.max]): keeps the
first position such that no later element compares less than it. -/
def minElement (comp : α → α → Bool) (v : Vec M α) : Res Nat :=
  loop (M - 1) (fun i best => do
    if comp (← v.rawGet (i + 1)) (← v.rawGet best) then pure (i + 1) else pure best) 0

/-- `std::max_element( begin(), end(), comp ) - begin()`. -/
def maxElement (comp : α → α → Bool) (v : Vec M α) : Res Nat :=
  loop (M - 1) (fun i best => do
    if comp (← v.rawGet best) (← v.rawGet (i + 1)) then pure (i + 1) else pure best) 0

/-- `vmml::math::abs_less`, math.hpp:81-88. -/
def absLess [LT α] [DecidableLT α] [CMath α] (a b : α) : Bool := decide (CMath.fabs a < CMath.fabs b)

/-- `vmml::math::abs_greater`, math.hpp:91-98. -/
def absGreater [LT α] [DecidableLT α] [CMath α] (a b : α) : Bool :=
  decide (CMath.fabs b < CMath.fabs a)

/-- `find_min_index`, 1469-1474. -/
def findMinIndex [LT α] [DecidableLT α] (v : Vec M α) : Res Nat :=
  v.minElement (fun a b => decide (a < b))

/-- `find_max_index`, 1478-1483. -/
def findMaxIndex [LT α] [DecidableLT α] (v : Vec M α) : Res Nat :=
  v.maxElement (fun a b => decide (a < b))

/-- `find_abs_min_index`, 1487-1492. -/
def findAbsMinIndex [LT α] [DecidableLT α] [CMath α] (v : Vec M α) : Res Nat :=
  v.minElement absLess

/-- `find_abs_max_index`, 1496-1501: `max_element` with `abs_greater`. -/
def findAbsMaxIndex [LT α] [DecidableLT α] [CMath α] (v : Vec M α) : Res Nat :=
  v.maxElement absGreater

/-- `find_min`, 1505-1519. -/
def findMin [LT α] [DecidableLT α] (v : Vec M α) : Res α := do v.rawGet (← v.findMinIndex)

/-- `find_max`, 1523-1537. -/
def findMax [LT α] [DecidableLT α] (v : Vec M α) : Res α := do v.rawGet (← v.findMaxIndex)

/-! ## Component-wise utilities -/

/-- `clamp( min, max )`, 1426-1436, with `min`, `max` not referring into the vector (aliased
references: `Model/Alias`). -/
def clamp [LT α] [DecidableLT α] (v : Vec M α) (lo hi : α) : Res (Vec M α) :=
  loop M (fun i v => do
    let v ← if (← v.rawGet i) < lo then v.rawSet i lo else pure v
    if hi < (← v.rawGet i) then v.rawSet i hi else pure v) v

/-- `scale_to( result, min_value, max_value )`, 1440-1457. `half` is the literal `0.5`, `ttMax` is
`numeric_limits< TT >::max()` as a `T`, `cast` is `static_cast< TT >`. -/
def scaleTo [One α] [Add α] [Sub α] [Mul α] [Div α] (cfg : Cfg) (half ttMax : α) (cast : α → β)
    (v : Vec M α) (result : Vec M β) (minValue maxValue : α) : Res (Vec M β) :=
  let range := maxValue - minValue
  let halfRange := range * half
  let scale := (1 / range) * ttMax
  loop M (fun i r => do r.atSet cfg i (cast (((← v.atGet cfg i) + halfRange) * scale))) result

/-- `is_unit_vector`, 1606-1628. The loop state is "already returned false", `one`. -/
def isUnitVector [Zero α] [One α] [BEq α] (v : Vec M α) : Res Bool := do
  let r ← loop M (fun i (s : Bool × Bool) => do
    if s.1 then pure s
    else if (← v.rawGet i) == 1 then
      if s.2 then pure (true, s.2) else pure (false, true)
    else if (← v.rawGet i) != 0 then pure (true, s.2)
    else pure s) (false, false)
  pure (if r.1 then false else r.2)

/-- `perturb( perturbation )`, 1631-1640. `rnd k` is the value of the `k`-th call of `rand()`. -/
def perturb [Add α] [Neg α] (rnd : Nat → Nat) (v : Vec M α) (p : α) : Res (Vec M α) :=
  loop M (fun i r => do
    r.rawSet i ((← r.rawGet i) + (if rnd i &&& 1 ≠ 0 then p else -p))) v

/-- `set_random`, 1752-1763, after the optional `srand`: `rnd k` is the value of the `k`-th call of
`rand()`, `toT` the conversion of an `int` to the scalar, `randMax` is `RAND_MAX`. -/
def setRandom [One α] [Add α] [Neg α] [Mul α] [Div α] (cfg : Cfg) (toT : Nat → α) (randMax : Nat)
    (rnd : Nat → Nat) (v : Vec M α) : Res (Vec M α) :=
  loop M (fun i r => do
    let fillValue := toT (rnd i) / toT randMax
    r.atSet cfg i (-1 + (1 + 1) * fillValue)) v

/-- `sqrt_elementwise`, 1642-1650. -/
def sqrtElementwise [CMath α] (v : Vec M α) : Res (Vec M α) :=
  loop M (fun i r => do r.rawSet i (CMath.sqrt (← r.rawGet i))) v

/-- `reciprocal`, 1654-1662. -/
def reciprocal [One α] [Div α] (v : Vec M α) : Res (Vec M α) :=
  loop M (fun i r => do r.rawSet i (1 / (← r.rawGet i))) v

/-- `reciprocal_safe`, 1666-1679; `maxT` is `numeric_limits< T >::max()`. -/
def reciprocalSafe [Zero α] [One α] [Div α] [BEq α] (maxT : α) (v : Vec M α) : Res (Vec M α) :=
  loop M (fun i r => do
    if (← r.rawGet i) == 0 then r.rawSet i maxT
    else r.rawSet i (1 / (← r.rawGet i))) v

/-- `nnz`, 1699-1714. -/
def nnz [Zero α] [BEq α] (v : Vec M α) : Res Nat :=
  loop M (fun i c => do if (← v.rawGet i) != 0 then pure (c + 1) else pure c) 0

end Vec
end Vmml
