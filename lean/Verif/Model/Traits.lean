import Verif.Model.Vector
import Verif.Model.Matrix

/-!
# Model of `vmmlib/matrix_traits.hpp` and `vmmlib/vector_traits.hpp`

The two specialisations of the Boost.LA traits. They are written for the class names `vmml::matrix` and `vmml::vector`, which exist only with
`VMMLIB_OLD_TYPEDEFS`. `BOOST_ASSERT` is modelled as `assert`; `BOOST_STATIC_ASSERT` is a compile-time condition, i.e. a hypothesis on the
template arguments.
-/

namespace Vmml
namespace Traits
variable {M N : Nat} {α : Type}

/-- Conversion of an `int` argument to `size_t`. -/
def toSize (i : Int) : Nat := (i % 2 ^ 64).toNat

/-- `matrix_traits::r< Row, Col >( m )`, matrix_traits.hpp:55-63: `m.at( Col, Row )`. -/
def r (cfg : Cfg) (row : Fin M) (col : Fin N) (m : Mat M N α) : Res α := m.atGet cfg col row

/-- Assignment through `matrix_traits::w< Row, Col >( m )`, matrix_traits.hpp:65-73. -/
def w (cfg : Cfg) (row : Fin M) (col : Fin N) (m : Mat M N α) (x : α) : Res (Mat M N α) := m.atSet cfg col row x

/-- `matrix_traits::ir( row, col, m )`, matrix_traits.hpp:75-82 (the parameters are `int`). -/
def ir (cfg : Cfg) (row col : Int) (m : Mat M N α) : Res α := do
  cassert cfg (decide (0 ≤ row))
  cassert cfg (decide (row < M))
  cassert cfg (decide (0 ≤ col))
  cassert cfg (decide (col < N))
  m.atGet cfg (toSize col) (toSize row)

/-- Assignment through `matrix_traits::iw( row, col, m )`, matrix_traits.hpp:84-91. -/
def iw (cfg : Cfg) (row col : Int) (m : Mat M N α) (x : α) : Res (Mat M N α) := do
  cassert cfg (decide (0 ≤ row))
  cassert cfg (decide (row < M))
  cassert cfg (decide (0 ≤ col))
  cassert cfg (decide (col < N))
  m.atSet cfg (toSize col) (toSize row) x

/-- `vector_traits::r< I >( v )`, vector_traits.hpp:52-58. -/
def vr (i : Fin M) (v : Vec M α) : Res α := v.rawGet i

/-- Assignment through `vector_traits::w< I >( v )`, vector_traits.hpp:60-66. -/
def vw (i : Fin M) (v : Vec M α) (x : α) : Res (Vec M α) := v.rawSet i x

/-- `vector_traits::ir( i, v )`, vector_traits.hpp:68-73. A negative index that passes (with `NDEBUG`) is an access before the array. -/
def vir (cfg : Cfg) (i : Int) (v : Vec M α) : Res α := do
  cassert cfg (decide (0 ≤ i))
  cassert cfg (decide (i < M))
  if i < 0 then throw .ub
  v.rawGet i.toNat

/-- Assignment through `vector_traits::iw( i, v )`, vector_traits.hpp:75-80. -/
def viw (cfg : Cfg) (i : Int) (v : Vec M α) (x : α) : Res (Vec M α) := do
  cassert cfg (decide (0 ≤ i))
  cassert cfg (decide (i < M))
  if i < 0 then throw .ub
  v.rawSet i.toNat x

end Traits
end Vmml
