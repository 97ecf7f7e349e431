import Verif.Model.Aabb

/-!
# `vmmlib/aabb.hpp`: arguments that are corners of the box itself

`getMin()` and `getMax()` return references (216-236) and the modifying members take references, so that `b.set( b.getMax(), b.getMin() )` or
`b.merge( b.getMin() )` pass parts of the object that is being written. Line numbers refer to `/repo/vmmlib/aabb.hpp`.
-/

namespace Vmml
namespace Box
variable {α : Type}

/-- A `const Vector< 3, T >&` argument: a vector outside the box or one of its own corners. -/
inductive Ref (α : Type)
  | ext (v : Vec 3 α)
  | ownMin
  | ownMax

/-- What a read through the reference sees in the current state of the box. -/
def Ref.read (b : Box α) : Ref α → Vec 3 α
  | .ext v => v
  | .ownMin => b.min
  | .ownMax => b.max

/-- `_min = p`: the vector assignment, vector.hpp:1393-1399, does nothing if `p` is `_min` itself. -/
def assignMin (b : Box α) (p : Ref α) : Res (Box α) := match p with
  | .ownMin => pure b
  | p => do pure { b with min := ← b.min.assign (p.read b) }

/-- `_max = p`. -/
def assignMax (b : Box α) (p : Ref α) : Res (Box α) := match p with
  | .ownMax => pure b
  | p => do pure { b with max := ← b.max.assign (p.read b) }

/-- `setMin( pMin )`, 204-208. -/
def setMinRef (b : Box α) (p : Ref α) : Res (Box α) := b.assignMin p
/-- `setMax( pMax )`, 210-214. -/
def setMaxRef (b : Box α) (p : Ref α) : Res (Box α) := b.assignMax p
/-- `set( pMin, pMax )`, 188-194: the second assignment reads its argument after the first one. -/
def setRef (b : Box α) (pMin pMax : Ref α) : Res (Box α) := do
  let b ← b.assignMin pMin
  b.assignMax pMax

/-- `if( point.c() < _min.c() ) _min.c() = point.c();`, e.g. 348-349, every read at its own time. -/
def lowerRef [LT α] [DecidableLT α] (b : Box α) (p : Ref α) (i : Fin 3) : Box α :=
  if (p.read b)[i] < b.min[i] then { b with min := b.min.set i (p.read b)[i] } else b
/-- `if( point.c() > _max.c() ) _max.c() = point.c();`, e.g. 355-356. -/
def raiseRef [LT α] [DecidableLT α] (b : Box α) (p : Ref α) (i : Fin 3) : Box α :=
  if (p.read b)[i] > b.max[i] then { b with max := b.max.set i (p.read b)[i] } else b

/-- `merge( point )`, 345-361. -/
def mergePointRef [LT α] [DecidableLT α] (b : Box α) (p : Ref α) : Box α :=
  let b := b.lowerRef p 0
  let b := b.lowerRef p 1
  let b := b.lowerRef p 2
  let b := b.raiseRef p 0
  let b := b.raiseRef p 1
  b.raiseRef p 2

/-- `merge( aabb )`, 324-343, with `*this` as argument: `min`, `max` are then `_min`, `_max` themselves. -/
def mergeSelf [LT α] [DecidableLT α] (b : Box α) : Box α :=
  let b := b.lowerRef .ownMin 0
  let b := b.lowerRef .ownMin 1
  let b := b.lowerRef .ownMin 2
  let b := b.raiseRef .ownMax 0
  let b := b.raiseRef .ownMax 1
  b.raiseRef .ownMax 2

end Box
end Vmml
