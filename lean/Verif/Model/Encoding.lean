import Verif.Model.Float
import Verif.Model.Ieee

/-!
# The interchange encodings of IEEE 754

`vmmlib` compares vectors with `memcmp` (vector.hpp:1308-1312), that is, it looks at the bit patterns of the components. `F32` (Model/Ieee) is the 32-bit pattern of a `float`; here is the 64-bit pattern of a
`double`, and the number a pattern stands for ([IEEE 754-2008] 3.4). This file models no vmmlib function.
-/

namespace Vmml

namespace Format
variable (F : Format)
/-- The pattern (without the sign bit) of infinity: all ones in the exponent field, zero in the fraction. -/
def infBits : Nat := (2 * F.emax + 1) * 2 ^ F.p
/-- The number of a pattern (without the sign bit) below that of infinity: an exponent field of zero means a subnormal number, otherwise the fraction has a hidden leading one. -/
noncomputable def bitsVal (n : Nat) : ℝ :=
  if n / 2 ^ F.p = 0 then (n % 2 ^ F.p : Nat) * (2 : ℝ) ^ (F.emin - F.p)
  else (2 ^ F.p + n % 2 ^ F.p : Nat) * (2 : ℝ) ^ ((n / 2 ^ F.p : Nat) - 1 + F.emin - F.p)

variable {F}

theorem bitsVal_mk (E m : Nat) (hm : m < 2 ^ F.p) : F.bitsVal (E * 2 ^ F.p + m) =
    if E = 0 then (m : ℝ) * (2 : ℝ) ^ (F.emin - F.p) else (2 ^ F.p + m : ℝ) * (2 : ℝ) ^ ((E : Int) - 1 + F.emin - F.p) := by
  have h2 : 0 < 2 ^ F.p := by positivity
  have e1 : (E * 2 ^ F.p + m) / 2 ^ F.p = E := by rw [Nat.add_comm, Nat.add_mul_div_right _ _ h2, Nat.div_eq_of_lt hm, Nat.zero_add]
  have e2 : (E * 2 ^ F.p + m) % 2 ^ F.p = m := by rw [Nat.add_comm, Nat.add_mul_mod_self_right, Nat.mod_eq_of_lt hm]
  unfold bitsVal
  rw [e1, e2]
  push_cast
  rfl

theorem bitsVal_cases (n : Nat) : ∃ E m, m < 2 ^ F.p ∧ n = E * 2 ^ F.p + m :=
  ⟨n / 2 ^ F.p, n % 2 ^ F.p, Nat.mod_lt _ (by positivity), (Nat.div_add_mod' n _).symm⟩

theorem bitsVal_strict : StrictMono F.bitsVal := by
  apply strictMono_nat_of_lt_succ
  intro n
  obtain ⟨E, m, hm, rfl⟩ := bitsVal_cases (F := F) n
  have hm' : (m : ℝ) < 2 ^ F.p := by exact_mod_cast hm
  have hp : (0 : ℝ) < (2 : ℝ) ^ (F.emin - F.p) := by positivity
  by_cases hc : m + 1 < 2 ^ F.p
  · rw [Nat.add_assoc, bitsVal_mk _ _ hm, bitsVal_mk _ _ hc]
    push_cast
    split_ifs
    · nlinarith
    · have : (0 : ℝ) < (2 : ℝ) ^ ((E : Int) - 1 + F.emin - F.p) := by positivity
      nlinarith
  · have hm2 : m + 1 = 2 ^ F.p := by omega
    rw [show E * 2 ^ F.p + m + 1 = (E + 1) * 2 ^ F.p + 0 by rw [Nat.add_assoc, hm2]; ring, bitsVal_mk _ _ hm, bitsVal_mk _ _ (by positivity), if_neg (Nat.succ_ne_zero _)]
    push_cast
    rw [show (E : Int) + 1 - 1 + F.emin - F.p = ((E : Int) - 1 + F.emin - F.p) + 1 by ring]
    split_ifs with h0
    · subst h0
      rw [show ((0 : ℕ) : Int) - 1 + F.emin - F.p + 1 = F.emin - F.p by push_cast; ring]
      nlinarith
    · have : (0 : ℝ) < (2 : ℝ) ^ ((E : Int) - 1 + F.emin - F.p) := by positivity
      rw [zpow_add_one₀ (by norm_num)]
      nlinarith

theorem bitsVal_zero : F.bitsVal 0 = 0 := by simp [bitsVal]

theorem bitsVal_rep (n : Nat) : F.Rep (F.bitsVal n) := by
  obtain ⟨E, m, hm, rfl⟩ := bitsVal_cases (F := F) n
  rw [bitsVal_mk _ _ hm]
  have hp : (2 : Int) ^ (F.p + 1) = 2 ^ F.p + 2 ^ F.p := by rw [pow_succ]; ring
  have hm' : (m : Int) < 2 ^ F.p := by exact_mod_cast hm
  split_ifs with h0
  · refine ⟨m, _, le_rfl, ?_, by push_cast; rfl⟩
    rw [abs_of_nonneg (by positivity)]; omega
  · refine ⟨2 ^ F.p + m, _, ?_, ?_, by push_cast; rfl⟩
    · omega
    · rw [abs_of_nonneg (by positivity)]; omega

theorem bitsVal_max (h0 : 0 < F.emax) : F.bitsVal (F.infBits - 1) = F.maxFinite := by
  have h2 : 1 ≤ 2 ^ F.p := Nat.one_le_two_pow
  have e : F.infBits - 1 = (2 * F.emax) * 2 ^ F.p + (2 ^ F.p - 1) := by
    unfold infBits
    rw [show (2 * F.emax + 1) * 2 ^ F.p = 2 * F.emax * 2 ^ F.p + 2 ^ F.p by ring]
    omega
  rw [e, bitsVal_mk _ _ (by omega), if_neg (by omega)]
  unfold maxFinite emin
  rw [show ((2 * F.emax : ℕ) : Int) - 1 + (1 - F.emax) - F.p = F.emax - F.p by push_cast; ring]
  push_cast [h2]
  rw [pow_succ]; ring

theorem bitsVal_mag (h0 : 0 < F.emax) {n : Nat} (h : n < F.infBits) : F.Mag (F.bitsVal n) := by
  refine ⟨?_, bitsVal_rep n, ?_⟩
  · rw [← bitsVal_zero (F := F)]; exact bitsVal_strict.monotone (Nat.zero_le _)
  · rw [← bitsVal_max h0]; exact bitsVal_strict.monotone (by omega)
end Format

/-- The value of a pattern with the given sign bit; formats with an exponent (`0 < emax`) only. Above the pattern of infinity it is NaN. -/
noncomputable def Fp.ofBits {F : Format} (h0 : 0 < F.emax) (s : Bool) (n : Nat) : Fp F :=
  if h : n < F.infBits then .fin s (F.bitsVal n) (Format.bitsVal_mag h0 h) else if n = F.infBits then .inf s else .nan

/-- The value of a `float` pattern. -/
noncomputable def F32.value (a : F32) : Fp .single := Fp.ofBits (by decide) a.sign a.mag

/-- Bit pattern of a `double`: sign (bit 63), exponent (bits 52-62), mantissa (bits 0-51). -/
structure F64 where
  bits : BitVec 64
  deriving DecidableEq

namespace F64
/-- Magnitude bits. -/
def mag (a : F64) : Nat := a.bits.toNat % 2 ^ 63
/-- Sign bit. -/
def sign (a : F64) : Bool := a.bits.msb
/-- The eight bytes of the pattern (little endian). -/
def toBytes (a : F64) : List UInt8 :=
  [⟨a.bits.extractLsb' 0 8⟩, ⟨a.bits.extractLsb' 8 8⟩, ⟨a.bits.extractLsb' 16 8⟩, ⟨a.bits.extractLsb' 24 8⟩,
   ⟨a.bits.extractLsb' 32 8⟩, ⟨a.bits.extractLsb' 40 8⟩, ⟨a.bits.extractLsb' 48 8⟩, ⟨a.bits.extractLsb' 56 8⟩]
/-- The value of a `double` pattern. -/
noncomputable def value (a : F64) : Fp .double := Fp.ofBits (by decide) a.sign a.mag
/-- `+0.0` -/
def posZero : F64 := ⟨0#64⟩
/-- `-0.0` -/
def negZero : F64 := ⟨0x8000000000000000#64⟩
/-- A quiet NaN. -/
def qnan : F64 := ⟨0x7ff8000000000000#64⟩
instance : Vec.Bytes F64 := ⟨toBytes⟩
end F64
end Vmml
