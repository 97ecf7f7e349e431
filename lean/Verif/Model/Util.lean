import Verif.Model.Vector
import Verif.Model.Matrix
import Verif.Model.MatrixTransform

/-!
# Model of `vmmlib/util.hpp` and `vmmlib/math.hpp`
-/

namespace Vmml

namespace Util
variable {M : Nat} {α : Type}

/-- `equals( arg0, arg1 )`, util.hpp:52-57: `fabs( arg0 - arg1 ) < FLT_EPSILON`; `eps` is `std::numeric_limits< float >::epsilon()`. Both
arguments have the type `α` (the template also allows two types, converted to a common one by the subtraction). -/
def equals [Sub α] [CMath α] [LT α] [DecidableLT α] (eps a b : α) : Bool := decide (CMath.fabs (a - b) < eps)

/-- `create_translation( arg )`, util.hpp:63-79, for the only size for which `set_translation` compiles, 4 x 4. -/
def createTranslation [Zero α] [One α] (cfg : Cfg) (arg : Vec 3 α) : Res (Mat 4 4 α) := do
  let ret ← Mat.ctor cfg
  let ret ← ret.identity cfg
  pure (ret.setTranslation arg)

/-- `apply_translation( m, t0, t1, t2 )`, util.hpp:81-86: `m *= create_translation( ... )`. -/
def applyTranslation [Zero α] [One α] [Add α] [Mul α] (cfg : Cfg) (m : Mat 4 4 α) (t0 t1 t2 : α) : Res (Mat 4 4 α) := do
  m.mulAssign cfg (← createTranslation cfg (← (Vec.zeroCtor : Vec 3 α).set3 t0 t1 t2))

/-- `create_rotation( angle, axis )`, util.hpp:88-104. -/
def createRotation [Zero α] [One α] [Add α] [Sub α] [Mul α] [CMath α] (cfg : Cfg) (angle : α) (axis : Vec 3 α) : Res (Mat 4 4 α) := do
  let ret ← Mat.ctor cfg
  let ret ← ret.identity cfg
  pure (ret.rotate angle axis)

/-- `apply_rotation( m, angle, t0, t1, t2 )`, util.hpp:106-111. -/
def applyRotation [Zero α] [One α] [Add α] [Sub α] [Mul α] [CMath α] (cfg : Cfg) (m : Mat 4 4 α) (angle t0 t1 t2 : α) : Res (Mat 4 4 α) := do
  m.mulAssign cfg (← createRotation cfg angle (← (Vec.zeroCtor : Vec 3 α).set3 t0 t1 t2))

/-- `create_scaling( vector )`, util.hpp:113-130. -/
def createScaling [Zero α] [One α] [Mul α] (cfg : Cfg) (arg : Vec 3 α) : Res (Mat 4 4 α) := do
  let ret ← Mat.ctor cfg
  let ret ← ret.identity cfg
  pure (ret.scale arg)

/-- `create_scaling( scalar )`, util.hpp:132-137. -/
def createScalingS [Zero α] [One α] [Mul α] (cfg : Cfg) (arg : α) : Res (Mat 4 4 α) := do
  createScaling cfg (← (Vec.zeroCtor : Vec 3 α).fill arg)

/-- `zero( arg )`, util.hpp:143-147: `std::fill( begin, end, 0 )`. -/
def zero [Zero α] (arg : Vec M α) : Res (Vec M α) := loop M (fun i v => v.rawSet i 0) arg

/-- `min( arg0, arg1 )`, util.hpp:149-158; `std::min( a, b )` is `b < a ? b : a`. `operator[]` is the built-in one on the pointer the vector
converts to. -/
def min [Zero α] [LT α] [DecidableLT α] (a b : Vec M α) : Res (Vec M α) :=
  loop M (fun i ret => do
    let x ← a.rawGet i
    let y ← b.rawGet i
    ret.rawSet i (if y < x then y else x)) Vec.zeroCtor

/-- `max( arg0, arg1 )`, util.hpp:160-169; `std::max( a, b )` is `a < b ? b : a`. -/
def max [Zero α] [LT α] [DecidableLT α] (a b : Vec M α) : Res (Vec M α) :=
  loop M (fun i ret => do
    let x ← a.rawGet i
    let y ← b.rawGet i
    ret.rawSet i (if x < y then y else x)) Vec.zeroCtor

/-- `manhattan( arg )`, util.hpp:171-182. -/
def manhattan [Zero α] [Add α] [CMath α] (arg : Vec M α) : Res α :=
  loop M (fun i ret => do pure (ret + CMath.fabs (← arg.rawGet i))) 0

end Util

namespace MathH
variable {α : Type}

/-- `squared( a )`, math.hpp:49-53. -/
def squared [Zero α] [Mul α] [BEq α] (a : α) : α := if a == 0 then 0 else a * a

/-- `pythag( a, b )`, math.hpp:60-69. -/
def pythag [Zero α] [One α] [Add α] [Mul α] [Div α] [BEq α] [LT α] [DecidableLT α] [CMath α] (a b : α) : α :=
  let a := CMath.fabs a
  let b := CMath.fabs b
  if b < a then a * CMath.sqrt (1 + squared (b / a))
  else if b == 0 then 0 else b * CMath.sqrt (1 + squared (a / b))

/-- `sign( a, b )`, math.hpp:73-77. -/
def sign [Zero α] [Neg α] [LE α] [DecidableLE α] [CMath α] (a b : α) : α := if 0 ≤ b then CMath.fabs a else -CMath.fabs a

/-- `abs_less::operator()`, math.hpp:81-88: the comparison is returned as a `T` (0 or 1). -/
def absLess [Zero α] [One α] [LT α] [DecidableLT α] [CMath α] (a b : α) : α := if CMath.fabs a < CMath.fabs b then 1 else 0

/-- `abs_greater::operator()`, math.hpp:91-98. -/
def absGreater [Zero α] [One α] [LT α] [DecidableLT α] [CMath α] (a b : α) : α := if CMath.fabs b < CMath.fabs a then 1 else 0

end MathH
end Vmml
