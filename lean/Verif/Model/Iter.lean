import Verif.Model.Matrix
import Verif.Model.Quaternion
import Verif.Model.Aabb
import Verif.Model.Frustum

/-!
# Iterators, raw pointers, sizes, corner accessors

An iterator is a plain pointer (`typedef T* iterator`, vector.hpp:57-58, matrix.hpp:62-63), modelled as the offset from `array`. The reverse iterators
(vector.hpp:1573-1602, matrix.hpp:2181-2216) are `return array + M - 1;` into a `std::reverse_iterator`, whose constructor is explicit: instantiating them
does not compile, so they are not modelled.
-/

namespace Vmml
variable {M N : Nat} {α : Type}

/-- `for( it = first; it != last; ++it ) ... *it ...` over an array of `n` elements: the elements seen. Dereferencing at or past the end is undefined. -/
def walk {n : Nat} (a : Vec n α) (first last : Nat) : Res (List α) :=
  if first = last then pure []
  else if h : first < n then do
    let rest ← walk a (first + 1) last
    pure (a[first] :: rest)
  else throw .ub
termination_by n - first

/-- `for( it = first; it != last; ++it ) *it = f( *it );`. -/
def walkSet {n : Nat} (f : α → α) (a : Vec n α) (first last : Nat) : Res (Vec n α) :=
  if first = last then pure a
  else if h : first < n then walkSet f (a.set first (f a[first])) (first + 1) last
  else throw .ub
termination_by n - first

namespace Vec
/-- `begin()`, vector.hpp:1540-1545 and 1556-1561. -/
def begin' (_v : Vec M α) : Nat := 0
/-- `end()`, vector.hpp:1548-1553 and 1564-1569. -/
def end' (_v : Vec M α) : Nat := M
/-- `size()`, vector.hpp:1461-1465. -/
def size (_v : Vec M α) : Nat := M
/-- `p[ i ]` with `T* p = v`, `operator T*`, vector.hpp:700-712. -/
def ptrGet (v : Vec M α) (i : Nat) : Res α := v.rawGet i
/-- `p[ i ] = x` with `T* p = v`, `operator T*`, vector.hpp:700-704. -/
def ptrSet (v : Vec M α) (i : Nat) (x : α) : Res (Vec M α) := v.rawSet i x
/-- `Vector( const T* values )`, vector.hpp:530-534: `memcpy` of `M` elements; `mem` is the memory behind the pointer, reading past it is undefined.
`this` is the uninitialised object. -/
def ofPtr (this : Vec M α) (mem : List α) : Res (Vec M α) :=
  loop M (fun i v => match mem[i]? with
    | some x => v.rawSet i x
    | none => throw .ub) this
/-- `equals( other )` with the default tolerance `numeric_limits< T >::epsilon()`, vector.hpp:145-146 and 1322-1331, and the free function
`equals( a, b )`, 443-446; `eps` is that constant (zero for integer types). -/
def equalsDefault [Sub α] [LE α] [DecidableLE α] [CMath α] (eps : α) (cfg : Cfg) (v w : Vec M α) : Res Bool := v.equals cfg w eps
end Vec

namespace Mat
/-- `begin()`, matrix.hpp:2141-2146 and 2161-2166. -/
def begin' (_m : Mat M N α) : Nat := 0
/-- `size() const`, matrix.hpp:2131-2136. -/
def size (_m : Mat M N α) : Nat := M * N
/-- `end()`, matrix.hpp:2151-2156 and 2171-2176. -/
def end' (m : Mat M N α) : Nat := m.size
/-- `get_number_of_rows() const`, matrix.hpp:1427-1433. -/
def getNumberOfRows (_m : Mat M N α) : Nat := M
/-- `get_number_of_columns() const`, matrix.hpp:1437-1443. -/
def getNumberOfColumns (_m : Mat M N α) : Nat := N
/-- `p[ i ]` with `T* p = m`, `operator T*`, matrix.hpp:883-896. -/
def ptrGet (m : Mat M N α) (i : Nat) : Res α := m.rawGet i
end Mat

/-- `getMin() = v`, aabb.hpp:229-231. -/
def Box.refMin (b : Box α) (v : Vec 3 α) : Box α := { b with min := v }
/-- `getMax() = v`, aabb.hpp:234-236. -/
def Box.refMax (b : Box α) (v : Vec 3 α) : Box α := { b with max := v }
/-- `getMin() const`, aabb.hpp:218-220. -/
def Box.getMin (b : Box α) : Vec 3 α := b.min
/-- `getMax() const`, aabb.hpp:224-226. -/
def Box.getMax (b : Box α) : Vec 3 α := b.max

/-- `Quaternion::operator=( const Quaternion& )`, quaternion.hpp:966-971: `memcpy` of the four elements without a self check. Copying an object
onto itself with `memcpy` is undefined behaviour (C11 7.24.2.1, overlapping objects); the heap is indexed by addresses. -/
def Quat.assignH (h : Nat → Quat α) (this other : Nat) : Res (Nat → Quat α) :=
  if this = other then throw .ub else pure (Function.update h this (h other))

/-- `Frustum::operator=( const Frustum& )`, frustum.hpp:194-199: `memcpy` of the six elements without a self check. -/
def Frustum.assignH (h : Nat → Frustum α) (this other : Nat) : Res (Nat → Frustum α) :=
  if this = other then throw .ub else pure (Function.update h this (h other))

end Vmml
