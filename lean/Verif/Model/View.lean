import Verif.Model.Vector

/-!
# Sub-vector views

`get_sub_vector< N >( offset )` (vector.hpp:1267-1281) returns a reference to `N` cells of the vector, reinterpreted as a `Vector< N, T >`. The member
functions of `Vector< N, T >` called on that reference read and write these cells; an operand may be another such reference into the same vector, so the
operand may overlap `*this`. A view is modelled as its offset into the array of the vector; whether the language allows the `reinterpret_cast` is not
represented.
-/

namespace Vmml
namespace Vec
variable {M : Nat} {α : Type}

/-- `get_sub_vector< N >( offset )`, vector.hpp:1267-1281: the assertion, then the address `begin() + offset`. -/
def subView (cfg : Cfg) (M N offset : Nat) : Res Nat := do
  cassert cfg (decide (offset ≤ M - N))
  pure offset

/-- `at( i )` of the view at `o` with `N` components, vector.hpp:669-696. -/
def viewGet (cfg : Cfg) (v : Vec M α) (N o i : Nat) : Res α := do
  if cfg.safe && decide (N ≤ i) then vmmlibError cfg
  v.rawGet (o + i)

/-- Assignment to `at( i )` of the view at `o` with `N` components, vector.hpp:669-681. -/
def viewSet (cfg : Cfg) (v : Vec M α) (N o i : Nat) (x : α) : Res (Vec M α) := do
  if cfg.safe && decide (N ≤ i) then vmmlibError cfg
  v.rawSet (o + i) x

/-- `v.get_sub_vector< N >( o1 ) op= v.get_sub_vector< N >( o2 )`, `op=` one of `*=`, `/=`, `+=`, `-=`, vector.hpp:801-837. -/
def viewOpAssign (op : α → α → α) (cfg : Cfg) (v : Vec M α) (N o1 o2 : Nat) : Res (Vec M α) := do
  let a ← subView cfg M N o1
  let b ← subView cfg M N o2
  loop N (fun i v => do v.viewSet cfg N a i (op (← v.viewGet cfg N a i) (← v.viewGet cfg N b i))) v

/-- `v.get_sub_vector< N >( o ) op= a`, `a` a scalar (passed by value), vector.hpp:890-926. -/
def viewOpAssignS (op : α → α → α) (cfg : Cfg) (v : Vec M α) (N o : Nat) (x : α) : Res (Vec M α) := do
  let a ← subView cfg M N o
  loop N (fun i v => do v.viewSet cfg N a i (op (← v.viewGet cfg N a i) x)) v

/-- `v.get_sub_vector< N >( o1 ) = v.get_sub_vector< N >( o2 )`, vector.hpp:1393-1399: nothing for equal addresses, otherwise `memcpy` of `N` elements, which
is undefined for overlapping ranges. -/
def viewAssign (cfg : Cfg) (v : Vec M α) (N o1 o2 : Nat) : Res (Vec M α) := do
  let a ← subView cfg M N o1
  let b ← subView cfg M N o2
  if a = b then pure v
  else if a < b + N ∧ b < a + N then throw .ub
  else loop N (fun i v => do v.rawSet (a + i) (← v.rawGet (b + i))) v

/-- `v.get_sub_vector< N >( o1 ) = v.get_sub_vector< N + 1 >( o2 )`, the from-homogeneous assignment, vector.hpp:1361-1370. -/
def viewFromHom [One α] [Mul α] [Div α] (cfg : Cfg) (v : Vec M α) (N o1 o2 : Nat) : Res (Vec M α) := do
  let a ← subView cfg M N o1
  let b ← subView cfg M (N + 1) o2
  let w_reci := 1 / (← v.viewGet cfg (N + 1) b N)
  loop N (fun i v => do v.rawSet (a + i) ((← v.viewGet cfg (N + 1) b i) * w_reci)) v

/-- `v.get_sub_vector< N + 1 >( o1 ) = v.get_sub_vector< N >( o2 )`, the to-homogeneous assignment, vector.hpp:1349-1356: `std::copy`, whose precondition is
that the destination does not start within the source, then 1 into the last component. -/
def viewToHom [One α] (cfg : Cfg) (v : Vec M α) (N o1 o2 : Nat) : Res (Vec M α) := do
  let a ← subView cfg M (N + 1) o1
  let b ← subView cfg M N o2
  if b ≤ a ∧ a < b + N then throw .ub
  let v ← loop N (fun i v => do v.rawSet (a + i) (← v.rawGet (b + i))) v
  v.viewSet cfg (N + 1) a N 1

/-- `v.get_sub_vector< N >( o ).normalize()`, vector.hpp:1130-1157: the new vector and the returned length. -/
def viewNormalize [Zero α] [One α] [Add α] [Mul α] [Div α] [BEq α] [CMath α] (cfg : Cfg) (v : Vec M α) (N o : Nat) : Res (Vec M α × α) := do
  let a ← subView cfg M N o
  let len := CMath.sqrt (← loop N (fun i s => do pure (s + (← v.rawGet (a + i)) * (← v.rawGet (a + i)))) 0)
  if len == 0 then pure (v, 0)
  else do
    let tmp := 1 / len
    let v ← loop N (fun i v => do v.viewSet cfg N a i ((← v.viewGet cfg N a i) * tmp)) v
    pure (v, len)

end Vec
end Vmml
