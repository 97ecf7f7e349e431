import Verif.Model.Matrix
import Mathlib.Data.BitVec

/-!
# Machine integers as element types

The containers are templates over `T` (vector.hpp:53, matrix.hpp:58); this file models the built-in integer types as `T`. Unsigned types of `w` bits are
`BitVec w` (arithmetic modulo `2^w`, [basic.fundamental]). Signed types are `Signed B`, `B = 2^(w-1)`: an operation whose exact result is not representable is
undefined behaviour ([expr.pre]/4), recorded as the value `none`, which every later operation keeps. Types narrower than `int` (promoted before
arithmetic and narrowed by the store) are outside this reading.
-/

namespace Vmml

/-- A value of a signed type with range `[ -B, B )`, or `none` once an operation has overflowed. -/
structure Signed (B : Int) where
  val : Option Int
  deriving DecidableEq

namespace Signed
variable {B : Int}

/-- The representable values. -/
def InRange (B x : Int) : Prop := -B ≤ x ∧ x < B
instance (x : Int) : Decidable (InRange B x) := inferInstanceAs (Decidable (_ ∧ _))

/-- The outcome of an operation with exact result `x`. -/
def make (x : Int) : Signed B := ⟨if InRange B x then some x else none⟩

/-- Strict binary operation. -/
def op2 (f : Int → Int → Signed B) (a b : Signed B) : Signed B := match a.val, b.val with
  | some x, some y => f x y
  | _, _ => ⟨none⟩

instance : Zero (Signed B) := ⟨⟨some 0⟩⟩
instance : One (Signed B) := ⟨⟨some 1⟩⟩
instance : Add (Signed B) := ⟨op2 fun x y => make (x + y)⟩
instance : Sub (Signed B) := ⟨op2 fun x y => make (x - y)⟩
instance : Mul (Signed B) := ⟨op2 fun x y => make (x * y)⟩
instance : Neg (Signed B) := ⟨fun a => op2 (fun x y => make (x - y)) ⟨some 0⟩ a⟩
/-- Division truncates toward zero ([expr.mul]/4) and is undefined for a zero divisor and for `-B / -1`. -/
instance : Div (Signed B) := ⟨op2 fun x y => if y = 0 then ⟨none⟩ else make (x.tdiv y)⟩

end Signed
end Vmml
