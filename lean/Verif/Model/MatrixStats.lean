import Verif.Model.Matrix

/-!
# Model of `vmmlib/matrix.hpp`: statistics, norms, quantisation, DCT, convolution, pair sums; `matrix_functors.hpp`

Line numbers refer to `/repo/vmmlib/matrix.hpp` unless another file is named. Iterator loops over `[begin(), end())` are loops
over the storage positions `0 .. M*N-1`. Where the source computes in `double` with elements of type `T`, the
conversion is the parameter `toD`.
-/

namespace Vmml
namespace Mat
variable {M N U V : Nat} {α β δ : Type}

/-- `frobenius_norm()`, 2248-2261: `norm += *it * *it` (the product is computed in `T`). -/
def frobeniusNorm [Mul α] [Zero δ] [Add δ] [CMath δ] (toD : α → δ) (m : Mat M N α) : Res δ := do
  let norm ← loop (M * N) (fun i norm => do
    let x ← m.rawGet i
    pure (norm + toD (x * x))) (0 : δ)
  pure (CMath.sqrt norm)

/-- `p_norm( p )`, 2263-2276. -/
def pNorm [Zero δ] [One δ] [Add δ] [Div δ] [CMath δ] (toD : α → δ) (m : Mat M N α) (p : δ) : Res δ := do
  let norm ← loop (M * N) (fun i norm => do pure (norm + CMath.pow (toD (← m.rawGet i)) p)) (0 : δ)
  pure (CMath.pow norm (1 / p))

/-- `get_min()`, 2336-2350; `maxT` is `numeric_limits< T >::max()`. -/
def getMin [LT α] [DecidableLT α] (maxT : α) (m : Mat M N α) : Res α :=
  loop (M * N) (fun i best => do
    let x ← m.rawGet i
    if x < best then pure x else pure best) maxT

/-- `get_max()`, 2352-2367: starts from 0. -/
def getMax [Zero α] [LT α] [DecidableLT α] (m : Mat M N α) : Res α :=
  loop (M * N) (fun i best => do
    let x ← m.rawGet i
    if best < x then pure x else pure best) 0

/-- `get_abs_min()`, 2370-2385. -/
def getAbsMin [LT α] [DecidableLT α] [CMath α] (maxT : α) (m : Mat M N α) : Res α :=
  loop (M * N) (fun i best => do
    let x ← m.rawGet i
    if CMath.fabs x < CMath.fabs best then pure (CMath.fabs x) else pure best) maxT

/-- `get_abs_max()`, 2387-2402. -/
def getAbsMax [Zero α] [LT α] [DecidableLT α] [CMath α] (m : Mat M N α) : Res α :=
  loop (M * N) (fun i best => do
    let x ← m.rawGet i
    if CMath.fabs best < CMath.fabs x then pure (CMath.fabs x) else pure best) 0

/-- `nnz()`, 2406-2422. -/
def nnz [Zero α] [BEq α] (m : Mat M N α) : Res Nat :=
  loop (M * N) (fun i c => do if (← m.rawGet i) != 0 then pure (c + 1) else pure c) 0

/-- `nnz( threshold )`, 2424-2440. -/
def nnzAbove [LT α] [DecidableLT α] [CMath α] (m : Mat M N α) (t : α) : Res Nat :=
  loop (M * N) (fun i c => do if t < CMath.fabs (← m.rawGet i) then pure (c + 1) else pure c) 0

/-- `threshold( threshold_value )`, 2442-2454. -/
def threshold [Zero α] [LE α] [DecidableLE α] [CMath α] (m : Mat M N α) (t : α) : Res (Mat M N α) :=
  loop (M * N) (fun i m => do
    if CMath.fabs (← m.rawGet i) ≤ t then m.rawSet i 0 else pure m) m

/-- `columnwise_sum( summed_columns )`, 2521-2535. -/
def columnwiseSum [Zero α] [Add α] (cfg : Cfg) (m : Mat M N α) (sums : Vec N α) : Res (Vec N α) :=
  loop N (fun n sums => do
    let value ← loop M (fun r value => do pure (value + (← m.atGet cfg r n))) (0 : α)
    sums.atSet cfg n value) sums

/-- `sum_elements()`, 2537-2549. -/
def sumElements [Zero δ] [Add δ] (toD : α → δ) (m : Mat M N α) : Res δ :=
  loop (M * N) (fun i sum => do pure (sum + toD (← m.rawGet i))) (0 : δ)

/-! ## Quantisation -/

/-- An integer type used as quantisation code: `numeric_limits` of it. -/
structure IntType where
  min : Int
  max : Int
  signed : Bool

/-- `std::min( std::max( lo, x ), hi )` on `long`. -/
def clampLong (lo x hi : Int) : Int :=
  let y := if lo < x then x else lo
  if hi < y then hi else y

/-- `quantize_to( quantized, min_value, max_value )`, 2457-2482. `ofLong` converts a `long` to `T`, `half` is `0.5`, `toLong` is the
conversion to `long` (truncation toward zero). Codes are modelled as integers: the final `TT( ... )` is applied to a value
in the range of `TT` and does not change it. -/
def quantizeTo [Add α] [Sub α] [Mul α] [Div α] (tt : IntType) (ofLong : Int → α) (half : α) (toLong : α → Int)
    (m : Mat M N α) (q : Mat M N Int) (minValue maxValue : α) : Res (Mat M N Int) :=
  let ttRange := tt.max - tt.min
  let tRange := maxValue - minValue
  loop (M * N) (fun i q => do
    let x ← m.rawGet i
    if tt.signed then
      q.rawSet i (clampLong tt.min (toLong (x * ofLong ttRange / tRange + half)) tt.max)
    else
      q.rawSet i (clampLong tt.min (toLong ((x - minValue) * ofLong ttRange / tRange + half)) tt.max)) q

/-- `quantize( quantized, min_value, max_value )`, 2485-2493: the two references receive `get_min()` and `get_max()`. -/
def quantize [Zero α] [Add α] [Sub α] [Mul α] [Div α] [LT α] [DecidableLT α] (tt : IntType) (ofLong : Int → α) (half : α)
    (toLong : α → Int) (maxT : α) (m : Mat M N α) (q : Mat M N Int) : Res (Mat M N Int × α × α) := do
  let minValue ← m.getMin maxT
  let maxValue ← m.getMax
  pure (← m.quantizeTo tt ofLong half toLong q minValue maxValue, minValue, maxValue)

/-- `std::min( std::max( lo, x ), hi )` on the floating point type. -/
def clampT [LT α] [DecidableLT α] (lo x hi : α) : α :=
  let y := if lo < x then x else lo
  if hi < y then hi else y

/-- `dequantize( dequantized, min_value, max_value )`, 2497-2519 (the receiver holds the codes). -/
def dequantize [Add α] [Sub α] [Mul α] [Div α] [LT α] [DecidableLT α] (t : IntType) (ofLong : Int → α)
    (q : Mat M N Int) (d : Mat M N α) (minValue maxValue : α) : Res (Mat M N α) :=
  let tRange := t.max - t.min
  let ttRange := maxValue - minValue
  loop (M * N) (fun i d => do
    let c ← q.rawGet i
    if t.signed then
      d.rawSet i (clampT minValue (ofLong c / ofLong tRange * ttRange) maxValue)
    else
      d.rawSet i (clampT minValue (ofLong c / ofLong tRange * ttRange + minValue) maxValue)) d

/-! ## DCT, random -/

/-- `set_dct()`, 2566-2586: `ofNat` converts a `size_t` to `double` (`(2 * col + 1) * row` is computed in `size_t`), `pi` is `M_PI`,
`ofD` the final cast to `T`. -/
def setDct [Div δ] [Mul δ] [CMath δ] (cfg : Cfg) (ofNat : Nat → δ) (pi : δ) (ofD : δ → α) (m : Mat M N α) :
    Res (Mat M N α) :=
  let numRows := ofNat M
  loop M (fun row m =>
    let weight := if row = 0 then CMath.sqrt (ofNat 1 / numRows) else CMath.sqrt (ofNat 2 / numRows)
    loop N (fun col m =>
      let fillValue := ofNat ((2 * col + 1) * row) * pi / ofNat (2 * M)
      let fillValue := CMath.cos fillValue
      let fillValue := fillValue * weight
      m.atSet cfg row col (ofD fillValue)) m) m

/-- `set_random( seed )`, 2588-2606, after the optional `srand`; `rnd k` is the `k`-th value of `rand()`. -/
def setRandom [One δ] [Add δ] [Neg δ] [Mul δ] [Div δ] (cfg : Cfg) (toD : Nat → δ) (ofD : δ → α) (randMax : Nat)
    (rnd : Nat → Nat) (m : Mat M N α) : Res (Mat M N α) :=
  loop M (fun row m => loop N (fun col m =>
    let fillValue := toD (rnd (row * N + col)) / toD randMax
    m.atSet cfg row col (ofD (-1 + (1 + 1) * fillValue))) m) m

/-! ## Convolution, pair sums -/

/-- The border handling of `convolve`, 540-542 and 548-550: `if( i < 0 ) i = 0; if( i >= int( n ) ) i = n-1;`. -/
def borderIdx (n : Nat) (i : Int) : Nat :=
  let i := if i < 0 then 0 else i
  let i := if (n : Int) ≤ i then (n : Int) - 1 else i
  i.toNat

/-- `convolve( kernel )`, 526-562. The `size_t` expression `y_ - V/2 + j` stored in an `int` is modelled as the
integer `y - V/2 + j` (exact while the sizes are below 2^31). -/
def convolve [Zero α] [One α] [Mul α] [Zero δ] [Add δ] (cfg : Cfg) (toD : α → δ) (ofD : δ → α) (m : Mat M N α)
    (kernel : Mat U V α) : Res (Mat M N α) := do
  let temp ← ctor cfg
  let temp ← loop N (fun y temp => loop M (fun x temp => do
    let sum ← loop V (fun j sum =>
      let srcy := borderIdx N ((y : Int) - (V / 2 : Nat) + j)
      loop U (fun i sum => do
        let srcx := borderIdx M ((x : Int) - (U / 2 : Nat) + i)
        pure (sum + toD ((← kernel.atGet cfg j i) * (← m.atGet cfg srcy srcx)))) sum) (0 : δ)
    temp.atSet cfg y x (ofD sum)) temp) temp
  m.assign temp

/-- `sum_rows( other )`, 2771-2795. The loop variable takes the even values `row = 2 k` at the loop head; `row0`, `row1` are
allocated zero-initialised. State: `other`, `row0`, `row1`. -/
def sumRows [Zero α] [Add α] (cfg : Cfg) (m : Mat M N α) (other : Mat (M / 2) N α) : Res (Mat (M / 2) N α) := do
  let other ← other.zero cfg
  let s ← loop ((M + 1) / 2) (fun k (s : Mat (M / 2) N α × Vec N α × Vec N α) => do
    let row := 2 * k
    let row0 ← m.getRow cfg row s.2.1
    let row := row + 1
    if row < M then do
      let row1 ← m.getRow cfg row s.2.2
      let row0 ← row0.addAssign cfg row1
      let other ← s.1.setRow cfg (row / 2) row0
      pure (other, row0, row1)
    else pure (s.1, row0, s.2.2)) (other, Vec.zeroCtor, Vec.zeroCtor)
  pure s.1

/-- `sum_columns( other )`, 2797-2821. -/
def sumColumns [Zero α] [Add α] (cfg : Cfg) (m : Mat M N α) (other : Mat M (N / 2) α) : Res (Mat M (N / 2) α) := do
  let other ← other.zero cfg
  let s ← loop ((N + 1) / 2) (fun k (s : Mat M (N / 2) α × Vec M α × Vec M α) => do
    let col := 2 * k
    let col0 ← m.getColumn cfg col s.2.1
    let col := col + 1
    if col < N then do
      let col1 ← m.getColumn cfg col s.2.2
      let col0 ← col0.addAssign cfg col1
      let other ← s.1.setColumn cfg (col / 2) col0
      pure (other, col0, col1)
    else pure (s.1, col0, s.2.2)) (other, Vec.zeroCtor, Vec.zeroCtor)
  pure s.1

/-! ## `matrix_functors.hpp` -/

/-- `get_row( index ) const`, 1361-1367: into a zero-initialised vector. -/
def getRowV [Zero α] (cfg : Cfg) (m : Mat M N α) (index : Nat) : Res (Vec N α) := m.getRow cfg index Vec.zeroCtor
/-- `get_column( index ) const`, 1301-1307. -/
def getColumnV [Zero α] (cfg : Cfg) (m : Mat M N α) (index : Nat) : Res (Vec M α) :=
  m.getColumn cfg index Vec.zeroCtor

/-- `set_to_zero_functor`, matrix_functors.hpp:43-51: `matrix_ = T( 0.0 )`, the assignment of a scalar. -/
def setToZeroFunctor [Zero α] (m : Mat M N α) : Res (Mat M N α) := m.assignFill 0

/-- `set_to_identity_functor`, matrix_functors.hpp:54-68. -/
def setToIdentityFunctor [Zero α] [One α] (cfg : Cfg) (m : Mat M M α) : Res (Mat M M α) := do
  loop M (fun index m => m.atSet cfg index index 1) (← m.setToZeroFunctor)

/-- `matrix_equals_allow_inverted_rows::operator()( a, b )`, matrix_functors.hpp:77-91; vector `!=` is a `memcmp`. -/
def equalsInvertedRows [Zero α] [Neg α] [Vec.Bytes α] (cfg : Cfg) (a b : Mat M N α) : Res Bool :=
  loop M (fun i ok => if ok then do
    let x ← a.getRowV cfg i
    let y ← b.getRowV cfg i
    if x.neMem y && x.neMem (← y.negate) then pure false else pure ok
    else pure ok) true

/-- `matrix_equals_allow_inverted_rows::operator()( a, b, tolerance )`, matrix_functors.hpp:93-109. -/
def equalsInvertedRowsTol [Zero α] [Neg α] [Sub α] [LE α] [DecidableLE α] [CMath α] (cfg : Cfg) (a b : Mat M N α)
    (tol : α) : Res Bool :=
  loop M (fun i ok => if ok then do
    let x ← a.getRowV cfg i
    let y ← b.getRowV cfg i
    if !(← x.equals cfg y tol) && !(← x.equals cfg (← y.negate) tol) then pure false else pure ok
    else pure ok) true

/-- `matrix_equals_allow_inverted_columns::operator()( a, b )`, matrix_functors.hpp:117-131. -/
def equalsInvertedColumns [Zero α] [Neg α] [Vec.Bytes α] (cfg : Cfg) (a b : Mat M N α) : Res Bool :=
  loop N (fun i ok => if ok then do
    let x ← a.getColumnV cfg i
    let y ← b.getColumnV cfg i
    if x.neMem y && x.neMem (← y.negate) then pure false else pure ok
    else pure ok) true

/-- `matrix_equals_allow_inverted_columns::operator()( a, b, tolerance )`, matrix_functors.hpp:133-149. -/
def equalsInvertedColumnsTol [Zero α] [Neg α] [Sub α] [LE α] [DecidableLE α] [CMath α] (cfg : Cfg) (a b : Mat M N α)
    (tol : α) : Res Bool :=
  loop N (fun i ok => if ok then do
    let x ← a.getColumnV cfg i
    let y ← b.getColumnV cfg i
    if !(← x.equals cfg y tol) && !(← x.equals cfg (← y.negate) tol) then pure false else pure ok
    else pure ok) true

end Mat
end Vmml
