import Verif.Core.Basic
import Mathlib.Algebra.Module.Defs

/-!
# Model of `vmmlib/lowpass_filter.hpp`

All line numbers refer to `/repo/vmmlib/lowpass_filter.hpp`. The samples `T` may be scalars or vectors: the code needs the expression
`value * a + x * b` with `double` factors, converted to `T`. The weights are `double`s computed from the `float` smooth factor (conversion `float` to
`double` is exact). The `deque` is a list, front first.
-/

namespace Vmml

/-- `LowpassFilter< M, T >`, 46-87: the samples, the factor and the filtered value; `none` while `_value` has not been initialised (the constructor, 53, does
not). -/
structure Lowpass (W V : Type) where
  data : List V
  factor : W
  value : Option V

/-- The expression `value * a + x * b` of 104, converted to the sample type on assignment. What it computes depends on the types: for `T = float` the
products and the sum are `double`s. -/
class Blend (W V : Type) where
  lin : V → W → V → W → V

/-- A sample type with its own `T + T` and `T * double`; `w • x` stands for `x * w`. -/
instance {W V : Type} [Add V] [SMul W V] : Blend W V := ⟨fun value a x b => a • value + b • x⟩

theorem Blend.lin_eq {W V : Type} [Add V] [SMul W V] (value x : V) (a b : W) : Blend.lin value a x b = a • value + b • x := rfl

namespace Lowpass
variable {W V : Type}

/-- `LowpassFilter( F )`, 53. -/
def ctor (F : W) : Lowpass W V := ⟨[], F, none⟩

/-- `get() const`, 60, `operator->`, 63, and `operator*`, 66: reading `_value`; before the first `add` it is uninitialised. -/
def get (l : Lowpass W V) : Res V :=
  match l.value with
  | some v => pure v
  | none => throw .ub

/-- `while( _data.size() > M ) _data.pop_back();`, 94-95. -/
def trim (M : Nat) (data : List V) : List V :=
  if h : data.length > M then trim M data.dropLast else data
termination_by data.length
decreasing_by simp only [List.length_dropLast]; omega

/-- The `for` loop 102-106 over the samples after the first one: `_value = _value * (1 - weight) + (*i) * weight; weight *= _smooth_factor;`. -/
def blend [One W] [Sub W] [Mul W] [Blend W V] (factor : W) : List V → V → W → V
  | [], value, _ => value
  | x :: rest, value, weight => blend factor rest (Blend.lin value (1 - weight) x weight) (weight * factor)

/-- `add( value )`, 90-109. Dereferencing `begin()` of an empty deque (only possible for `M = 0`) is undefined. -/
def add [One W] [Sub W] [Mul W] [Blend W V] (M : Nat) (l : Lowpass W V) (value : V) : Res (Lowpass W V × V) :=
  let data := value :: l.data
  let data := trim M data
  match data with
  | [] => throw .ub
  | x :: rest =>
    let v := blend l.factor rest x l.factor
    pure (⟨data, l.factor, some v⟩, v)

/-- `set_smooth_factor( f )`, 111-115. -/
def setSmoothFactor (l : Lowpass W V) (f : W) : Lowpass W V := { l with factor := f }

end Lowpass
end Vmml
