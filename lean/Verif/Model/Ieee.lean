import Verif.Core.CMath

/-!
# Two models of IEEE floating point used where exact reals would hide behaviour

* `F32`: the 32-bit patterns of `float` with the IEEE-754 comparison predicates (no arithmetic);
  used for statements about representation versus value (`memcmp`, `==`, `<`).
* `NaNable`: the reals with one extra element, NaN, that every operation propagates and every comparison
  rejects; used for statements about NaN inputs. No infinities, no rounding.
-/

namespace Vmml

/-- Bit pattern of a `float`: sign (bit 31), exponent (bits 23-30), mantissa (bits 0-22). -/
structure F32 where
  bits : BitVec 32
  deriving DecidableEq

namespace F32
/-- Magnitude bits. -/
def mag (a : F32) : Nat := a.bits.toNat % 2 ^ 31
/-- Sign bit. -/
def sign (a : F32) : Bool := a.bits.msb
/-- IEEE NaN: exponent all ones and non-zero mantissa. -/
def isNaN (a : F32) : Bool := decide (0x7f800000 < a.mag)
/-- For non-NaN patterns the IEEE order is the order of the signed magnitude (both zeros are 0). -/
def key (a : F32) : Int := if a.sign then -(a.mag : Int) else a.mag
/-- IEEE `==`. -/
instance : BEq F32 := ⟨fun a b => !a.isNaN && !b.isNaN && a.key == b.key⟩
/-- IEEE `<`. -/
instance : LT F32 := ⟨fun a b => a.isNaN = false ∧ b.isNaN = false ∧ a.key < b.key⟩
instance : DecidableLT F32 := fun a b =>
  inferInstanceAs (Decidable (a.isNaN = false ∧ b.isNaN = false ∧ a.key < b.key))
/-- IEEE `<=`. -/
instance : LE F32 := ⟨fun a b => a.isNaN = false ∧ b.isNaN = false ∧ a.key ≤ b.key⟩
instance : DecidableLE F32 := fun a b =>
  inferInstanceAs (Decidable (a.isNaN = false ∧ b.isNaN = false ∧ a.key ≤ b.key))
/-- The four bytes of the pattern (little endian). -/
def toBytes (a : F32) : List UInt8 :=
  [⟨a.bits.extractLsb' 0 8⟩, ⟨a.bits.extractLsb' 8 8⟩, ⟨a.bits.extractLsb' 16 8⟩, ⟨a.bits.extractLsb' 24 8⟩]
/-- `+0.0f` -/
def posZero : F32 := ⟨0#32⟩
/-- `-0.0f` -/
def negZero : F32 := ⟨0x80000000#32⟩
/-- A quiet NaN. -/
def qnan : F32 := ⟨0x7fc00000#32⟩
end F32

/-- Reals plus NaN (`none`): exact arithmetic in which invalid operations (`0/0`, `sqrt( -1 )`, `acos( 2 )`) give NaN and NaN propagates. There is
no infinity: `x / 0` with `x ≠ 0`, an infinity in IEEE arithmetic, is NaN here; no theorem divides a non-zero number by zero. -/
def NaNable := Option ℝ

namespace NaNable
/-- NaN. -/
def nan : NaNable := (none : Option ℝ)
/-- An ordinary number. -/
def num (x : ℝ) : NaNable := (some x : Option ℝ)
/-- Binary operations return NaN if an operand is NaN. -/
noncomputable def lift2 (f : ℝ → ℝ → ℝ) : NaNable → NaNable → NaNable
  | some x, some y => num (f x y)
  | _, _ => nan
noncomputable instance : Add NaNable := ⟨lift2 (· + ·)⟩
noncomputable instance : Sub NaNable := ⟨lift2 (· - ·)⟩
noncomputable instance : Mul NaNable := ⟨lift2 (· * ·)⟩
noncomputable instance : Div NaNable := ⟨fun a b => match a, b with
  | some x, some y => if y = 0 then nan else num (x / y)
  | _, _ => nan⟩
noncomputable instance : Neg NaNable := ⟨Option.map (- ·)⟩
noncomputable instance : Zero NaNable := ⟨num 0⟩
noncomputable instance : One NaNable := ⟨num 1⟩
/-- Comparisons with NaN are false. -/
def ltP : NaNable → NaNable → Prop
  | some x, some y => x < y
  | _, _ => False
/-- Comparisons with NaN are false. -/
def leP : NaNable → NaNable → Prop
  | some x, some y => x ≤ y
  | _, _ => False
instance : LT NaNable := ⟨ltP⟩
instance : LE NaNable := ⟨leP⟩
noncomputable instance : DecidableLT NaNable := fun _ _ => Classical.propDecidable _
noncomputable instance : DecidableLE NaNable := fun _ _ => Classical.propDecidable _
/-- `==` with NaN is false. -/
noncomputable instance : BEq NaNable := ⟨fun a b => match a, b with
  | some x, some y => decide (x = y)
  | _, _ => false⟩
/-- `<cmath>` on NaN is NaN. -/
noncomputable instance : CMath NaNable where
  sqrt := fun a => a.bind fun x => if x < 0 then nan else num (Real.sqrt x)
  fabs := Option.map (|·|)
  sin := Option.map Real.sin
  cos := Option.map Real.cos
  tan := Option.map Real.tan
  acos := fun a => a.bind fun x => if x < -1 ∨ 1 < x then nan else num (Real.arccos x)
  pow := lift2 (· ^ ·)
  atan2 := lift2 fun y x => Complex.arg ⟨x, y⟩

@[simp] theorem num_add (x y : ℝ) : num x + num y = num (x + y) := rfl
@[simp] theorem num_sub (x y : ℝ) : num x - num y = num (x - y) := rfl
@[simp] theorem num_mul (x y : ℝ) : num x * num y = num (x * y) := rfl
@[simp] theorem nan_add (x : NaNable) : nan + x = nan := rfl
@[simp] theorem nan_sub (x : NaNable) : nan - x = nan := rfl
@[simp] theorem nan_mul (x : NaNable) : nan * x = nan := rfl
@[simp] theorem add_nan (x : NaNable) : x + nan = nan := by cases x <;> rfl
@[simp] theorem sub_nan (x : NaNable) : x - nan = nan := by cases x <;> rfl
@[simp] theorem mul_nan (x : NaNable) : x * nan = nan := by cases x <;> rfl
theorem num_div (x y : ℝ) (h : y ≠ 0) : num x / num y = num (x / y) := if_neg h
@[simp] theorem num_div_zero (x : ℝ) : num x / num 0 = nan := if_pos rfl
@[simp] theorem nan_div (x : NaNable) : nan / x = nan := rfl
@[simp] theorem div_nan (x : NaNable) : x / nan = nan := by cases x <;> rfl
theorem zero_def : (0 : NaNable) = num 0 := rfl
theorem one_def : (1 : NaNable) = num 1 := rfl
@[simp] theorem num_lt (x y : ℝ) : num x < num y ↔ x < y := Iff.rfl
@[simp] theorem num_le (x y : ℝ) : num x ≤ num y ↔ x ≤ y := Iff.rfl
@[simp] theorem nan_lt (x : NaNable) : ¬ nan < x := id
@[simp] theorem lt_nan (x : NaNable) : ¬ x < nan := by cases x <;> exact id
@[simp] theorem nan_le (x : NaNable) : ¬ nan ≤ x := id
@[simp] theorem le_nan (x : NaNable) : ¬ x ≤ nan := by cases x <;> exact id
@[simp] theorem fabs_num (x : ℝ) : CMath.fabs (num x) = num |x| := rfl
@[simp] theorem fabs_nan : CMath.fabs nan = nan := rfl
theorem sqrt_num (x : ℝ) (h : 0 ≤ x) : CMath.sqrt (num x) = num (Real.sqrt x) := if_neg (not_lt.2 h)
@[simp] theorem sqrt_nan : CMath.sqrt nan = nan := rfl
@[simp] theorem num_beq (x y : ℝ) : (num x == num y) = decide (x = y) := rfl
@[simp] theorem nan_beq (x : NaNable) : (nan == x) = false := rfl
@[simp] theorem beq_nan (x : NaNable) : (x == nan) = false := by cases x <;> rfl
theorem num_ne_nan (x : ℝ) : num x ≠ nan := by intro h; cases h
@[simp] theorem num_inj (x y : ℝ) : num x = num y ↔ x = y := by
  constructor
  · intro h; exact Option.some.inj h
  · rintro rfl; rfl
end NaNable
end Vmml
