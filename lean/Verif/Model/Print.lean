import Verif.Model.Stream
import Verif.Model.Quaternion
import Verif.Model.FrustumCuller
import Verif.Model.Aabb

/-!
# Output operators of the composite types, csv files

`fmt ios x` are the characters an element prints at the formatting state `ios` (standard library).
-/

namespace Vmml
variable {M N : Nat} {α : Type}

/-- `operator<<( ostream&, const Quaternion& )`, quaternion.hpp:189-199. -/
def Quat.print (fmt : Ios → α → List Char) (q : Quat α) (os : OStream) : OStream :=
  let os := os.put ['(']
  let os := (os.put (fmt os.ios q.x)).put [',', ' ']
  let os := (os.put (fmt os.ios q.y)).put [',', ' ']
  let os := (os.put (fmt os.ios q.z)).put [',', ' ']
  (os.put (fmt os.ios q.w)).put [')', ' ']

/-- `operator<<( ostream&, const AABB& )`, aabb.hpp:109-112. -/
def Box.print (cfg : Cfg) (fmt : Ios → α → List Char) (b : Box α) (os : OStream) : Res OStream := do
  let os ← b.min.print cfg fmt os
  b.max.print cfg fmt (os.put [' ', '-', ' '])

/-- `operator<<( ostream&, const Visibility& )`, frustum_culler.hpp:51-56 (the `"ERROR"` case needs a value outside the
enumeration). -/
def Visibility.print (v : Visibility) (os : OStream) : OStream :=
  os.put (match v with
    | .none => "not visible      ".toList
    | .partly => "partially visible".toList
    | .full => "fully visible    ".toList)

/-- `operator<<( ostream&, const FrustumCuller& )`, frustum_culler.hpp:85-94. -/
def Culler.print (cfg : Cfg) (fmt : Ios → α → List Char) (k : Culler α) (os : OStream) : Res OStream := do
  let os := (os.put "Frustum cull planes: ".toList).endl
  let os := (← k.left.print cfg fmt (os.put "    left   ".toList)).endl
  let os := (← k.right.print cfg fmt (os.put "    right  ".toList)).endl
  let os := (← k.top.print cfg fmt (os.put "    top    ".toList)).endl
  let os := (← k.bottom.print cfg fmt (os.put "    bottom ".toList)).endl
  let os := (← k.near.print cfg fmt (os.put "    near   ".toList)).endl
  pure (← k.far.print cfg fmt (os.put "    far    ".toList)).endl

/-! ## csv files -/

/-- A new file stream: nothing written, flags `skipws | dec`, precision 6, width 0, fill ' '. -/
def newStream : OStream := ⟨[], ⟨Ios.default, 6, 0, ' '⟩⟩

/-- The path of the csv functions, matrix.hpp:2688-2700 and 2717-2729. -/
def csvPath (dir name : List Char) : List Char :=
  let path := rawPath dir name
  if noSuffix ['c', 's', 'v'] name then path ++ ['.'] ++ ['c', 's', 'v'] else path

/-- `write_csv_file`, matrix.hpp:2686-2711. `enc` are the bytes of a text. -/
def Mat.writeCsvFile (cfg : Cfg) (fmt : Ios → α → List Char) (enc : List Char → List UInt8) (canOpen : List Char → Bool)
    (m : Mat M N α) (dir name : List Char) (fs : Files) : Res Files := do
  let path := csvPath dir name
  if canOpen path then
    let os := (← m.print cfg fmt newStream).endl
    pure fun p => if p = path then some (enc os.out) else fs p
  else pure fs

/-- `read_csv_file`, matrix.hpp:2713-2740: opens and closes the file; the reading is commented out ("not yet
implemented"). -/
def Mat.readCsvFile (canOpen : List Char → Bool) (m : Mat M N α) (dir name : List Char) (_fs : Files) : Mat M N α :=
  let path := csvPath dir name
  if canOpen path then m else m

end Vmml
