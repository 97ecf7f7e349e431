import Verif.Model.Vector

/-!
# Aliasing

Member functions of vmmlib take their operands by reference; an operand may be `*this`.
Here objects live at addresses of a heap (`Nat → object`; distinct addresses are distinct,
non-overlapping objects) and the functions read operands through addresses while writing `*this`.
-/

namespace Vmml

/-- A store of objects of type `ω`, indexed by address. -/
abbrev Heap (ω : Type) := Nat → ω

namespace Vec
variable {M : Nat} {α : Type}

/-- `at( index ) op= other.at( index )` for all indices, operands given by address:
vector.hpp:801-837 (`operator*=`, `/=`, `+=`, `-=` with a vector operand). -/
def opAssignH (op : α → α → α) (cfg : Cfg) (h : Heap (Vec M α)) (this other : Nat) :
    Res (Heap (Vec M α)) :=
  loop M (fun i h => do
    let x := op (← (h this).atGet cfg i) (← (h other).atGet cfg i)
    pure (Function.update h this (← (h this).atSet cfg i x))) h

/-- `operator+=( const Vector& other )`, vector.hpp:821-827. -/
def addAssignH [Add α] (cfg : Cfg) (h : Heap (Vec M α)) (this other : Nat) :=
  opAssignH (· + ·) cfg h this other
/-- `operator-=( const Vector& other )`, vector.hpp:831-837. -/
def subAssignH [Sub α] (cfg : Cfg) (h : Heap (Vec M α)) (this other : Nat) :=
  opAssignH (· - ·) cfg h this other
/-- `operator*=( const Vector& other )`, vector.hpp:801-807. -/
def mulAssignH [Mul α] (cfg : Cfg) (h : Heap (Vec M α)) (this other : Nat) :=
  opAssignH (· * ·) cfg h this other
/-- `operator/=( const Vector& other )`, vector.hpp:811-817. -/
def divAssignH [Div α] (cfg : Cfg) (h : Heap (Vec M α)) (this other : Nat) :=
  opAssignH (· / ·) cfg h this other

/-- `operator=( const Vector& other )`, vector.hpp:1393-1399: nothing happens on self-assignment,
otherwise `memcpy`. -/
def assignH (h : Heap (Vec M α)) (this other : Nat) : Res (Heap (Vec M α)) := do
  if this ≠ other then
    pure (Function.update h this (← (h this).memcpy (h other) M))
  else pure h

/-- Two-argument `cross( aa, bb )`, vector.hpp:1106-1115: three assignments to `array[0..2]` of
`*this`, each reading the operands at that moment. -/
def crossH [Sub α] [Mul α] (h : Heap (Vec 3 α)) (this aa bb : Nat) : Heap (Vec 3 α) :=
  let h := Function.update h this
    ((h this).set 0 ((h aa)[1] * (h bb)[2] - (h aa)[2] * (h bb)[1]))
  let h := Function.update h this
    ((h this).set 1 ((h aa)[2] * (h bb)[0] - (h aa)[0] * (h bb)[2]))
  Function.update h this
    ((h this).set 2 ((h aa)[0] * (h bb)[1] - (h aa)[1] * (h bb)[0]))

/-- A `const T&` argument: either a scalar outside the vector or component `i` of the vector itself. -/
inductive SRef (α : Type)
  | ext (x : α)
  | cell (i : Nat)

/-- Value of a scalar reference given the current vector. -/
def SRef.read (v : Vec M α) : SRef α → Res α
  | .ext x => pure x
  | .cell i => v.rawGet i

/-- `clamp( const T& min, const T& max )`, vector.hpp:1426-1436, with references that may point
into the vector being clamped. -/
def clampRef [LT α] [DecidableLT α] (v : Vec M α) (lo hi : SRef α) : Res (Vec M α) :=
  loop M (fun i v => do
    let v ← if (← v.rawGet i) < (← lo.read v) then v.rawSet i (← lo.read v) else pure v
    if (← hi.read v) < (← v.rawGet i) then v.rawSet i (← hi.read v) else pure v) v

end Vec
end Vmml
