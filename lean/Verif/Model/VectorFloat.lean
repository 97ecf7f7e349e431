import Verif.Model.FilterFloat
import Verif.Model.MatrixStats

/-!
# Vector functions with `double` intermediate results

`Model/Vector` has `set_random` and `scale_to` over one number type. With `float` elements parts of them are computed in `double` (format `D`) and converted back; for `T = double` take `D = F`. The cast of `scale_to` to the
integer type is undefined for numbers out of its range.
-/

namespace Vmml
variable {M : Nat} {F : Format}

open Classical in
/-- `static_cast< TT >( a )` for an integer type ([conv.fpint]): truncation toward zero; undefined if the result is not a value of `TT`. -/
noncomputable def Fp.toCode (tt : Mat.IntType) : Fp F → Res Int
  | .fin s m h =>
    let x := (Fp.fin s m h).val
    let k : Int := if 0 ≤ x then ⌊x⌋ else ⌈x⌉
    if tt.min ≤ k ∧ k ≤ tt.max then .ok k else .error .ub
  | _ => .error .ub

/-- `scale_to( result, min_value, max_value )`, /repo/vmmlib/vector.hpp:1440-1456, for floating point elements and an integer type `TT`: `range * 0.5` and `( 1.0 / range ) * static_cast< T >( max )` are computed in `double` and
converted to `T`, the rest in `T`. -/
noncomputable def Vec.scaleToFp (D : Format) (cfg : Cfg) (tt : Mat.IntType) (v : Vec M (Fp F)) (result : Vec M Int) (minValue maxValue : Fp F) : Res (Vec M Int) :=
  let range := maxValue - minValue
  let halfRange := Fp.convert F (Fp.convert D range * Fp.ofReal (1 / 2))
  let scale := Fp.convert F ((1 / Fp.convert D range) * Fp.convert D (Fp.ofReal (tt.max : ℝ) : Fp F))
  loop M (fun i r => do
    let x ← v.atGet cfg i
    r.atSet cfg i (← Fp.toCode tt ((x + halfRange) * scale))) result

/-- `set_random( seed )`, /repo/vmmlib/vector.hpp:1752-1763, after the optional `srand`: `rnd k` is the value of the `k`-th call of `rand()`, `randMax` is `RAND_MAX`. -/
noncomputable def Vec.setRandomFp (D : Format) (cfg : Cfg) (randMax : Nat) (rnd : Nat → Nat) (v : Vec M (Fp F)) : Res (Vec M (Fp F)) :=
  loop M (fun i r => do
    let fillValue := (Fp.ofReal (rnd i : ℝ) : Fp D) / Fp.ofReal (randMax : ℝ)
    r.atSet cfg i (Fp.convert F (-(1 : Fp D) + Fp.ofReal 2 * fillValue))) v
end Vmml
