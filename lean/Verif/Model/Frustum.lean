import Verif.Model.Stream
import Verif.Model.MatrixTransform

/-!
# Model of `vmmlib/frustum.hpp`

All line numbers refer to `/repo/vmmlib/frustum.hpp`. The literals `0.0`, `1.0f`, `2.0` are of type `double`/`float` in the source; the model
takes them as elements of `T`, i.e. it is exact for `T = double` (and for any `T` up to the rounding of mixed arithmetic).
-/

namespace Vmml

/-- `Frustum< T >`, 44-122: `T array[6]` holding left, right, bottom, top, near, far (47). -/
structure Frustum (α : Type) where
  array : Vec 6 α
  deriving DecidableEq

namespace Frustum
variable {α β : Type}

/-- `left() const`, 353-357. -/
def left (f : Frustum α) : α := f.array[0]
/-- `right() const`, 365-369. -/
def right (f : Frustum α) : α := f.array[1]
/-- `bottom() const`, 377-381. -/
def bottom (f : Frustum α) : α := f.array[2]
/-- `top() const`, 389-393. -/
def top (f : Frustum α) : α := f.array[3]
/-- `near_plane() const`, 401-405. -/
def nearPlane (f : Frustum α) : α := f.array[4]
/-- `far_plane() const`, 413-417. -/
def farPlane (f : Frustum α) : α := f.array[5]
/-- `left() = x`, 347-351. -/
def setLeft (f : Frustum α) (x : α) : Frustum α := ⟨f.array.set 0 x⟩
/-- `right() = x`, 359-363. -/
def setRight (f : Frustum α) (x : α) : Frustum α := ⟨f.array.set 1 x⟩
/-- `bottom() = x`, 371-375. -/
def setBottom (f : Frustum α) (x : α) : Frustum α := ⟨f.array.set 2 x⟩
/-- `top() = x`, 383-387. -/
def setTop (f : Frustum α) (x : α) : Frustum α := ⟨f.array.set 3 x⟩
/-- `near_plane() = x`, 395-399. -/
def setNear (f : Frustum α) (x : α) : Frustum α := ⟨f.array.set 4 x⟩
/-- `far_plane() = x`, 407-411. -/
def setFar (f : Frustum α) (x : α) : Frustum α := ⟨f.array.set 5 x⟩

/-- `Frustum()`, 50: value-initialised array. -/
def ctor [Zero α] : Frustum α := ⟨Vec.zeroCtor⟩

/-- `set( left, right, bottom, top, near, far )`, 212-223; also the constructor 155-160 (then `f` is the uninitialised object). -/
def set (f : Frustum α) (l r b t n fa : α) : Frustum α :=
  (((((f.setLeft l).setRight r).setBottom b).setTop t).setNear n).setFar fa

/-- The static object `DEFAULT`, 123 and 146-152; `cast` is the conversion of the `double` literals to `T`, `f` the uninitialised object the
six-value constructor writes into. -/
def default (cast : β → α) [One β] [Neg β] [Div β] [Add β] [OfNat β 10] [OfNat β 100] (f : Frustum α) : Frustum α :=
  f.set (cast (-1)) (cast 1) (cast (-1)) (cast 1) (cast (1 / 10)) (cast 100)

/-- `Frustum( const U* values )`, 172-184; `cast` is `static_cast< T >`. Reading past the `k` values pointed to is undefined. -/
def ofValues {k : Nat} (cast : β → α) (f : Frustum α) (values : Vec k β) : Res (Frustum α) := do
  let f := f.setLeft (cast (← values.rawGet 0))
  let f := f.setRight (cast (← values.rawGet 1))
  let f := f.setBottom (cast (← values.rawGet 2))
  let f := f.setTop (cast (← values.rawGet 3))
  let f := f.setNear (cast (← values.rawGet 4))
  pure (f.setFar (cast (← values.rawGet 5)))

/-- `operator=( const Frustum& )`, 194-199: `memcpy` of six elements. -/
def assign (f src : Frustum α) : Res (Frustum α) := do pure ⟨← f.array.memcpy src.array 6⟩

/-- `operator=( const Frustum< U >& )`, 201-208, and the constructor 163-168. -/
def assignCast (cast : β → α) (f : Frustum α) (src : Frustum β) : Res (Frustum α) := do
  pure ⟨← loop 6 (fun i a => do a.rawSet i (cast (← src.array.rawGet i))) f.array⟩

/-- `adjust_near( new_near )`, 228-241. -/
def adjustNear [Mul α] [Div α] [BEq α] (f : Frustum α) (new_near : α) : Frustum α :=
  if new_near == f.nearPlane then f
  else
    let ratio := new_near / f.nearPlane
    let f := f.setRight (f.right * ratio)
    let f := f.setLeft (f.left * ratio)
    let f := f.setTop (f.top * ratio)
    let f := f.setBottom (f.bottom * ratio)
    f.setNear new_near

/-- `set_perspective( fov_y, aspect_ratio, near, far )`, 246-259. `half`, `pi`, `d180` are the constants `0.5`, `M_PI`, `180.0`. -/
def setPerspective [Mul α] [Div α] [Neg α] [CMath α] (half pi d180 : α) (f : Frustum α) (fov_y aspect_ratio n fa : α) : Frustum α :=
  let f := f.setNear n
  let f := f.setFar fa
  let f := f.setTop (CMath.tan (half * fov_y * pi / d180) * half)
  let f := f.setBottom (-f.top)
  let f := f.setLeft (f.bottom * aspect_ratio)
  f.setRight (f.top * aspect_ratio)

/-- `compute_matrix( M ) const`, 274-299 (16 assignments through `operator()`, which is `at`); also `compute_matrix()`, 263-270, with
a default-constructed matrix. -/
def computeMatrix [Zero α] [One α] [OfNat α 2] [Add α] [Sub α] [Mul α] [Div α] [Neg α] (cfg : Cfg) (f : Frustum α)
    (m : Mat 4 4 α) : Res (Mat 4 4 α) := do
  let m ← m.atSet cfg 0 0 (2 * f.nearPlane / (f.right - f.left))
  let m ← m.atSet cfg 0 1 0
  let m ← m.atSet cfg 0 2 ((f.right + f.left) / (f.right - f.left))
  let m ← m.atSet cfg 0 3 0
  let m ← m.atSet cfg 1 0 0
  let m ← m.atSet cfg 1 1 (2 * f.nearPlane / (f.top - f.bottom))
  let m ← m.atSet cfg 1 2 ((f.top + f.bottom) / (f.top - f.bottom))
  let m ← m.atSet cfg 1 3 0
  let m ← m.atSet cfg 2 0 0
  let m ← m.atSet cfg 2 1 0
  let m ← m.atSet cfg 2 2 (-(f.farPlane + f.nearPlane) / (f.farPlane - f.nearPlane))
  let m ← m.atSet cfg 2 3 (-2 * f.farPlane * f.nearPlane / (f.farPlane - f.nearPlane))
  let m ← m.atSet cfg 3 0 0
  let m ← m.atSet cfg 3 1 0
  let m ← m.atSet cfg 3 2 (-1)
  m.atSet cfg 3 3 0

/-- `compute_ortho_matrix( M ) const`, 313-336; also `compute_ortho_matrix()`, 302-309. -/
def computeOrthoMatrix [Zero α] [One α] [OfNat α 2] [Add α] [Sub α] [Mul α] [Div α] [Neg α] (cfg : Cfg) (f : Frustum α)
    (m : Mat 4 4 α) : Res (Mat 4 4 α) := do
  let m ← m.atSet cfg 0 0 (2 / (f.right - f.left))
  let m ← m.atSet cfg 0 1 0
  let m ← m.atSet cfg 0 2 0
  let m ← m.atSet cfg 0 3 (-(f.right + f.left) / (f.right - f.left))
  let m ← m.atSet cfg 1 0 0
  let m ← m.atSet cfg 1 1 (2 / (f.top - f.bottom))
  let m ← m.atSet cfg 1 2 0
  let m ← m.atSet cfg 1 3 (-(f.top + f.bottom) / (f.top - f.bottom))
  let m ← m.atSet cfg 2 0 0
  let m ← m.atSet cfg 2 1 0
  let m ← m.atSet cfg 2 2 (-2 / (f.farPlane - f.nearPlane))
  let m ← m.atSet cfg 2 3 (-(f.farPlane + f.nearPlane) / (f.farPlane - f.nearPlane))
  let m ← m.atSet cfg 3 0 0
  let m ← m.atSet cfg 3 1 0
  let m ← m.atSet cfg 3 2 0
  m.atSet cfg 3 3 1

/-- `apply_jitter( jitter )`, 338-345. -/
def applyJitter [Add α] (f : Frustum α) (jitter : Vec 2 α) : Frustum α :=
  let f := f.setLeft (f.left + jitter[0])
  let f := f.setRight (f.right + jitter[0])
  let f := f.setBottom (f.bottom + jitter[1])
  f.setTop (f.top + jitter[1])

/-- `get_width() const`, 419-422. -/
def getWidth [Sub α] [CMath α] (f : Frustum α) : α := CMath.fabs (f.right - f.left)

/-- `get_height() const`, 424-427. -/
def getHeight [Sub α] [CMath α] (f : Frustum α) : α := CMath.fabs (f.top - f.bottom)

/-- `DEFAULT`, 146-152; `tenth`, `hundred` are `0.1`, `100.0`. -/
def DEFAULT [Zero α] [One α] [Neg α] (tenth hundred : α) : Frustum α := ctor.set (-1) 1 (-1) 1 tenth hundred

/-- `operator<<`, 104-120. -/
def print (fmt : Ios → α → List Char) (f : Frustum α) (os : OStream) : OStream :=
  let flags := os.ios.flags
  let prec := os.ios.prec
  let os := { os with ios := os.ios.setfMask Ios.right Ios.adjustfield }
  let os := { os with ios := { os.ios with prec := 5 } }
  let putW := fun (os : OStream) (x : α) => (os.setw 10).put (fmt (os.setw 10).ios x)
  let os := os.put ['[']
  let os := (putW os f.left).put [' ']
  let os := (putW os f.right).put [' ']
  let os := (putW os f.bottom).put [' ']
  let os := (putW os f.top).put [' ']
  let os := (putW os f.nearPlane).put [' ']
  let os := (putW os f.farPlane).put [']']
  let os := { os with ios := { os.ios with prec := prec } }
  { os with ios := os.ios.setf flags }

end Frustum
end Vmml
