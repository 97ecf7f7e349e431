import Verif.Model.FilterFloat
import Verif.Model.MatrixStats

/-!
# Quantisation of IEEE numbers

`Model/MatrixStats` has `quantize_to` and `dequantize` over any number type, with a conversion to `long` that always succeeds. With floating point elements the conversion of NaN, of an infinity or of a number out of the range
of `long` is undefined behaviour, and the literal `0.5` makes the last addition one of `double`s (format `D`). For `T = double` take `D = F`.
-/

namespace Vmml
open Mat
variable {M N : Nat} {F : Format}

open Classical in
/-- `long( a )` ([conv.fpint]): truncation toward zero; undefined if the result is not a (64-bit) `long`. -/
noncomputable def Fp.toLong {D : Format} : Fp D → Res Int
  | .fin s m h =>
    let x := (Fp.fin s m h).val
    let k : Int := if 0 ≤ x then ⌊x⌋ else ⌈x⌉
    if -2 ^ 63 ≤ k ∧ k < 2 ^ 63 then .ok k else .error .ub
  | _ => .error .ub

/-- `quantize_to( quantized, min_value, max_value )`, /repo/vmmlib/matrix.hpp:2457-2482, for floating point elements. Codes are modelled as integers, as in `Mat.quantizeTo`. -/
noncomputable def Mat.quantizeToFp (D : Format) (tt : IntType) (m : Mat M N (Fp F)) (q : Mat M N Int) (minValue maxValue : Fp F) : Res (Mat M N Int) :=
  let ttRange := tt.max - tt.min
  let tRange := maxValue - minValue
  loop (M * N) (fun i q => do
    let x ← m.rawGet i
    if tt.signed then do
      let k ← Fp.toLong (Fp.convert D (x * Fp.ofReal (ttRange : ℝ) / tRange) + Fp.ofReal (1 / 2))
      q.rawSet i (clampLong tt.min k tt.max)
    else do
      let k ← Fp.toLong (Fp.convert D ((x - minValue) * Fp.ofReal (ttRange : ℝ) / tRange) + Fp.ofReal (1 / 2))
      q.rawSet i (clampLong tt.min k tt.max)) q

/-- `quantize( quantized, min_value, max_value )`, /repo/vmmlib/matrix.hpp:2485-2493; `maxT` is `numeric_limits< T >::max()`. -/
noncomputable def Mat.quantizeFp (D : Format) (tt : IntType) (maxT : Fp F) (m : Mat M N (Fp F)) (q : Mat M N Int) : Res (Mat M N Int × Fp F × Fp F) := do
  let minValue ← m.getMin maxT
  let maxValue ← m.getMax
  pure (← m.quantizeToFp D tt q minValue maxValue, minValue, maxValue)

/-- `dequantize( dequantized, min_value, max_value )`, /repo/vmmlib/matrix.hpp:2497-2519, for floating point results: all operations are in `TT`. -/
noncomputable def Mat.dequantizeFp (t : IntType) (q : Mat M N Int) (d : Mat M N (Fp F)) (minValue maxValue : Fp F) : Res (Mat M N (Fp F)) :=
  q.dequantize t (fun n => Fp.ofReal (n : ℝ)) d minValue maxValue
end Vmml
