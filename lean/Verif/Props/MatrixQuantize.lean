import Verif.Props.MatrixStats
import Mathlib.Data.Int.Cast.Lemmas

/-!
# C42: quantisation and back
-/

set_option linter.unusedSimpArgs false

namespace Vmml
open Mat
variable {M N : Nat}

/-- Conversion of a `double` to `long`: truncation toward zero. -/
noncomputable def Spec.trunc (x : ℝ) : Int := if 0 ≤ x then ⌊x⌋ else ⌈x⌉

/-- `quantize_to` with exact arithmetic. -/
noncomputable abbrev Mat.quantizeR (tt : IntType) (m : Mat M N ℝ) (q : Mat M N Int) (lo hi : ℝ) :=
  m.quantizeTo tt (fun n => (n : ℝ)) (1 / 2) Spec.trunc q lo hi
/-- `dequantize` with exact arithmetic. -/
noncomputable abbrev Mat.dequantizeR (tt : IntType) (q : Mat M N Int) (d : Mat M N ℝ) (lo hi : ℝ) :=
  q.dequantize tt (fun n => (n : ℝ)) d lo hi

theorem clampLong_mem {lo hi : Int} (h : lo ≤ hi) (x : Int) : lo ≤ clampLong lo x hi ∧ clampLong lo x hi ≤ hi := by
  unfold clampLong; simp only; split_ifs <;> omega
theorem clampLong_id {lo hi x : Int} (h1 : lo ≤ x) (h2 : x ≤ hi) : clampLong lo x hi = x := by
  unfold clampLong; simp only; split_ifs <;> omega
theorem clampT_id {lo hi x : ℝ} (h1 : lo ≤ x) (h2 : x ≤ hi) : clampT lo x hi = x := by
  unfold clampT; simp only; split_ifs <;> linarith

/-- The code of one element. -/
noncomputable def code (tt : IntType) (lo hi x : ℝ) : Int :=
  clampLong tt.min (Spec.trunc ((if tt.signed then x else x - lo) * ((tt.max - tt.min : Int) : ℝ) / (hi - lo) + 1 / 2)) tt.max
/-- The value of one code. -/
noncomputable def decode (tt : IntType) (lo hi : ℝ) (c : Int) : ℝ :=
  clampT lo ((c : ℝ) / ((tt.max - tt.min : Int) : ℝ) * (hi - lo) + (if tt.signed then 0 else lo)) hi

theorem quantizeR_eq (tt : IntType) (m : Mat M N ℝ) (q : Mat M N Int) (lo hi : ℝ) :
    m.quantizeR tt q lo hi = .ok (ofFn fun r c => code tt lo hi (m.get r c)) := by
  unfold quantizeR quantizeTo
  rw [loop_flat (fun i => code tt lo hi m.array[i]) (by
    intro i hi m' _
    rw [rawGet_lt m hi, bind_ok]
    cases hs : tt.signed <;> simp [code, hs, rawSet_lt m' _ hi])]
  congr 1; ext r c; rw [get_mk_ofFn, get_ofFn]; rfl

theorem dequantizeR_eq (tt : IntType) (q : Mat M N Int) (d : Mat M N ℝ) (lo hi : ℝ) :
    q.dequantizeR tt d lo hi = .ok (ofFn fun r c => decode tt lo hi (q.get r c)) := by
  unfold dequantizeR dequantize
  rw [loop_flat (fun i => decode tt lo hi q.array[i]) (by
    intro i hi m' _
    rw [rawGet_lt q hi, bind_ok]
    cases hs : tt.signed <;> simp [decode, hs, rawSet_lt m' _ hi])]
  congr 1; ext r c; rw [get_mk_ofFn, get_ofFn]; rfl

/-- C42. Codes always lie in the range of the target type, for every input, every range and every integer type. -/
theorem C42_codes_in_range (tt : IntType) (htt : tt.min ≤ tt.max) (m : Mat M N ℝ) (q : Mat M N Int) (lo hi : ℝ) :
    ∃ q', m.quantizeR tt q lo hi = .ok q' ∧ ∀ r c, tt.min ≤ q'.toMat r c ∧ q'.toMat r c ≤ tt.max :=
  ⟨_, quantizeR_eq tt m q lo hi, fun r c => by simpa [code] using clampLong_mem htt _⟩

theorem decode_code_unsigned (tt : IntType) (hs : tt.signed = false) (hmin : tt.min = 0) (hmax : 0 < tt.max) {lo hi x : ℝ}
    (hlh : lo < hi) (h1 : lo ≤ x) (h2 : x ≤ hi) :
    |decode tt lo hi (code tt lo hi x) - x| ≤ (hi - lo) / tt.max / 2 := by
  have ht : 0 < hi - lo := by linarith
  have hR : (0 : ℝ) < tt.max := by exact_mod_cast hmax
  set y : ℝ := (x - lo) * (tt.max : ℝ) / (hi - lo) with hy
  have hy0 : 0 ≤ y := by rw [hy]; apply div_nonneg (mul_nonneg (by linarith) hR.le) ht.le
  have hyR : y ≤ tt.max := by
    rw [hy, div_le_iff₀ ht, mul_comm]; exact mul_le_mul_of_nonneg_left (by linarith) hR.le
  have hc : code tt lo hi x = ⌊y + 1 / 2⌋ := by
    unfold code
    simp only [hs, hmin, sub_zero, Bool.false_eq_true, if_false]
    rw [← hy, Spec.trunc, if_pos (by linarith)]
    apply clampLong_id
    · exact Int.floor_nonneg.2 (by linarith)
    · rw [← Int.lt_add_one_iff]
      apply Int.floor_lt.2
      push_cast; linarith
  have hf1 := Int.floor_le (y + 1 / 2)
  have hf2 := Int.lt_floor_add_one (y + 1 / 2)
  have hfl0 : (0 : ℝ) ≤ (⌊y + 1 / 2⌋ : ℝ) := by exact_mod_cast Int.floor_nonneg.2 (by linarith)
  have hflR : (⌊y + 1 / 2⌋ : ℝ) ≤ tt.max := by
    have : ⌊y + 1 / 2⌋ ≤ tt.max := by
      rw [← Int.lt_add_one_iff]; apply Int.floor_lt.2; push_cast; linarith
    exact_mod_cast this
  rw [hc]
  generalize (⌊y + 1 / 2⌋ : Int) = k at *
  have hk : decode tt lo hi k = (k : ℝ) / tt.max * (hi - lo) + lo := by
    unfold decode
    simp only [hs, hmin, sub_zero, Bool.false_eq_true, if_false]
    have : (k : ℝ) / tt.max ≤ 1 := (div_le_one hR).2 hflR
    have h0 : 0 ≤ (k : ℝ) / tt.max := div_nonneg hfl0 hR.le
    apply clampT_id
    · nlinarith
    · nlinarith
  rw [hk]
  have hx : x = y / tt.max * (hi - lo) + lo := by rw [hy]; field_simp; ring
  have e : (k : ℝ) / tt.max * (hi - lo) + lo - x = ((k : ℝ) - y) * ((hi - lo) / tt.max) := by
    rw [hx]; ring
  rw [e, abs_mul, abs_of_pos (div_pos ht hR)]
  have : |(k : ℝ) - y| ≤ 1 / 2 := by rw [abs_le]; constructor <;> linarith
  calc |(k : ℝ) - y| * ((hi - lo) / tt.max) ≤ 1 / 2 * ((hi - lo) / tt.max) :=
        mul_le_mul_of_nonneg_right this (div_pos ht hR).le
    _ = (hi - lo) / tt.max / 2 := by ring

/-- C42, proved part (unsigned code types): quantising with bounds `lo < hi` around the data and dequantising reproduces every
element to within half a quantisation step `(hi - lo) / max`. Missing: signed code types, for which it is false
(`C42_signed_violated`; see `C42_signed_symmetric_partial` for what does hold). -/
theorem C42_round_trip_unsigned_partial (tt : IntType) (hs : tt.signed = false) (hmin : tt.min = 0) (hmax : 0 < tt.max)
    (m d : Mat M N ℝ) (q : Mat M N Int) (lo hi : ℝ) (hlh : lo < hi) (hb : ∀ r c, lo ≤ m.toMat r c ∧ m.toMat r c ≤ hi) :
    ∃ q' d', m.quantizeR tt q lo hi = .ok q' ∧ q'.dequantizeR tt d lo hi = .ok d' ∧
      ∀ r c, |d'.toMat r c - m.toMat r c| ≤ (hi - lo) / tt.max / 2 := by
  refine ⟨_, _, quantizeR_eq tt m q lo hi, dequantizeR_eq tt _ d lo hi, fun r c => ?_⟩
  simp only [toMat_apply, get_ofFn]
  exact decode_code_unsigned tt hs hmin hmax hlh (hb r c).1 (hb r c).2

/-- C42. The same for `quantize`, which takes the bounds from `get_min`/`get_max`, if not all elements are equal: also the
wrong `get_max` of negative data (C40) gives bounds around the data. -/
theorem C42_quantize_unsigned_partial (tt : IntType) (hs : tt.signed = false) (hmin : tt.min = 0) (hmax : 0 < tt.max)
    (m d : Mat M N ℝ) (q : Mat M N Int) (maxT : ℝ) (hT : ∀ r c, m.toMat r c ≤ maxT)
    (hne : ∃ r c r' c', m.toMat r c < m.toMat r' c') :
    ∃ q' lo hi d', m.quantize tt (fun n => (n : ℝ)) (1 / 2) Spec.trunc maxT q = .ok (q', lo, hi) ∧
      q'.dequantizeR tt d lo hi = .ok d' ∧ ∀ r c, |d'.toMat r c - m.toMat r c| ≤ (hi - lo) / tt.max / 2 := by
  obtain ⟨r, c, r', c', hlt⟩ := hne
  obtain ⟨lo, h1, h2, -⟩ := C40_get_min maxT m (Fin.pos r) (Fin.pos c) hT
  obtain ⟨hi, h3, -, h4, -⟩ := getMax_spec m
  have hlh : lo < hi := ((h2 r c).trans_lt hlt).trans_le (h4 r' c')
  obtain ⟨q', d', h5, h6, h7⟩ := C42_round_trip_unsigned_partial tt hs hmin hmax m d q lo hi hlh
    (fun r c => ⟨h2 r c, h4 r c⟩)
  refine ⟨q', lo, hi, d', ?_, h6, h7⟩
  unfold quantize
  rw [h1, bind_ok, h3, bind_ok]
  have h5' : m.quantizeTo tt (fun n => (n : ℝ)) (1 / 2) Spec.trunc q lo hi = .ok q' := h5
  rw [h5']; rfl

/-- A signed 8-bit code. -/
def int8 : IntType := ⟨-128, 127, true⟩

/-- C42 fails for signed codes: with `int8` codes and data in `[0, 1]`, the element 1 comes back as 127/255, an error of more
than 64 steps. -/
theorem C42_signed_violated (q : Mat 1 2 Int) (d : Mat 1 2 ℝ) :
    ∃ q' d', (⟨#v[0, 1]⟩ : Mat 1 2 ℝ).quantizeR int8 q 0 1 = .ok q' ∧ q'.dequantizeR int8 d 0 1 = .ok d' ∧
      d'.toMat 0 1 = 127 / 255 ∧ ¬ |d'.toMat 0 1 - 1| ≤ (1 - 0) / 255 / 2 := by
  have hv : ∀ d' : ℝ, d' = 127 / 255 → (d' = 127 / 255 ∧ ¬ |d' - 1| ≤ (1 - 0) / 255 / 2) := by
    rintro _ rfl
    refine ⟨rfl, ?_⟩
    rw [not_le, abs_of_neg (by norm_num)]
    norm_num
  refine ⟨_, _, quantizeR_eq _ _ _ _ _, dequantizeR_eq _ _ _ _ _, hv _ ?_⟩
  simp only [toMat_apply, get_ofFn]
  have e1 : (⟨#v[0, 1]⟩ : Mat 1 2 ℝ).get 0 1 = 1 := rfl
  have hc : code int8 0 1 1 = 127 := by
    unfold code
    simp only [int8, if_true]
    have : ⌊((1 : ℝ) * ((127 - -128 : Int) : ℝ) / (1 - 0) + 1 / 2)⌋ = 255 := by
      rw [Int.floor_eq_iff]; push_cast; norm_num
    rw [Spec.trunc, if_pos (by push_cast; norm_num), this]
    rfl
  rw [e1, hc]
  unfold decode
  simp only [int8, if_true]
  rw [clampT_id] <;> push_cast <;> norm_num

/-- C42, what holds for signed two's complement codes: with bounds symmetric around zero, every element comes back within one
and a half steps (truncation rounds negative values the wrong way), and non-negative elements within half a step. -/
theorem C42_signed_symmetric_partial (K : Int) (hK : 0 < K) (m d : Mat M N ℝ) (q : Mat M N Int) (a : ℝ) (ha : 0 < a)
    (hb : ∀ r c, |m.toMat r c| ≤ a) :
    ∃ q' d', m.quantizeR ⟨-K - 1, K, true⟩ q (-a) a = .ok q' ∧ q'.dequantizeR ⟨-K - 1, K, true⟩ d (-a) a = .ok d' ∧
      ∀ r c, |d'.toMat r c - m.toMat r c| ≤ 3 / 2 * (2 * a / (2 * K + 1)) ∧
        (0 ≤ m.toMat r c → |d'.toMat r c - m.toMat r c| ≤ 2 * a / (2 * K + 1) / 2) := by
  refine ⟨_, _, quantizeR_eq _ m q _ _, dequantizeR_eq _ _ d _ _, fun r c => ?_⟩
  simp only [toMat_apply, get_ofFn]
  have hx := abs_le.1 (hb r c)
  simp only [toMat_apply] at hx
  generalize m.get r c = x at hx
  have hKr : (0 : ℝ) < K := by exact_mod_cast hK
  have hR : (0 : ℝ) < 2 * K + 1 := by linarith
  set y : ℝ := x * (2 * K + 1) / (2 * a) with hy
  have hyx : x = y * (2 * a / (2 * K + 1)) := by rw [hy]; field_simp
  have hy1 : -(K + 1 / 2 : ℝ) ≤ y := by rw [hy, le_div_iff₀ (by linarith)]; nlinarith
  have hy2 : y ≤ K + 1 / 2 := by rw [hy, div_le_iff₀ (by linarith)]; nlinarith
  have hcode : code ⟨-K - 1, K, true⟩ (-a) a x = clampLong (-K - 1) (Spec.trunc (y + 1 / 2)) K := by
    unfold code
    simp only [if_true]
    congr 3
    rw [hy]; push_cast; ring
  have hk : ∃ k : Int, code ⟨-K - 1, K, true⟩ (-a) a x = k ∧ -K ≤ k ∧ k ≤ K ∧ |(k : ℝ) - y| ≤ 3 / 2 ∧
      (0 ≤ y → |(k : ℝ) - y| ≤ 1 / 2) := by
    rw [hcode, Spec.trunc]
    split_ifs with h0
    · have hf1 := Int.floor_le (y + 1 / 2)
      have hf2 := Int.lt_floor_add_one (y + 1 / 2)
      have hf0 : 0 ≤ ⌊y + 1 / 2⌋ := Int.floor_nonneg.2 h0
      have hfK : ⌊y + 1 / 2⌋ ≤ K + 1 := by
        rw [← Int.lt_add_one_iff]; apply Int.floor_lt.2; push_cast; linarith
      generalize (⌊y + 1 / 2⌋ : Int) = k at *
      by_cases hkK : k ≤ K
      · rw [clampLong_id (by omega) hkK]
        have : |(k : ℝ) - y| ≤ 1 / 2 := by rw [abs_le]; constructor <;> linarith
        exact ⟨k, rfl, by omega, hkK, by linarith, fun _ => this⟩
      · have e : k = K + 1 := by omega
        subst e
        have hc : clampLong (-K - 1) (K + 1) K = K := by unfold clampLong; simp only; split_ifs <;> omega
        rw [hc]
        push_cast at hf1
        have : |(K : ℝ) - y| ≤ 1 / 2 := by rw [abs_le]; constructor <;> linarith
        exact ⟨K, rfl, by omega, le_rfl, by linarith, fun _ => this⟩
    · have hf1 := Int.le_ceil (y + 1 / 2)
      have hf2 := Int.ceil_lt_add_one (y + 1 / 2)
      have hf0 : ⌈y + 1 / 2⌉ ≤ 0 := Int.ceil_le.2 (by push_cast; linarith)
      have hfK : -K ≤ ⌈y + 1 / 2⌉ := by
        have : ((-K : Int) : ℝ) ≤ ⌈y + 1 / 2⌉ := by push_cast; linarith
        exact_mod_cast this
      generalize (⌈y + 1 / 2⌉ : Int) = k at *
      rw [clampLong_id (by omega) (by omega)]
      exact ⟨k, rfl, hfK, by omega, by rw [abs_le]; constructor <;> linarith, fun h => absurd h (by linarith)⟩
  obtain ⟨k, h1, h2, h3, h4, h5⟩ := hk
  rw [h1]
  have h2' : -(K : ℝ) ≤ k := by exact_mod_cast h2
  have h3' : (k : ℝ) ≤ K := by exact_mod_cast h3
  have hst : 0 < 2 * a / (2 * K + 1) := div_pos (by linarith) hR
  have hd : decode ⟨-K - 1, K, true⟩ (-a) a k = k * (2 * a / (2 * K + 1)) := by
    unfold decode
    simp only [if_true, add_zero]
    have e : (k : ℝ) / ((K - (-K - 1) : Int) : ℝ) * (a - -a) = k * (2 * a / (2 * K + 1)) := by
      push_cast; rw [show (K - (-K - 1) : ℝ) = 2 * K + 1 by ring]; ring
    rw [e]
    have hs : K * (2 * a / (2 * K + 1)) ≤ a := by
      rw [mul_div_assoc', div_le_iff₀ hR]; nlinarith
    apply clampT_id <;> nlinarith
  rw [hd]
  have e : k * (2 * a / (2 * K + 1)) - x = ((k : ℝ) - y) * (2 * a / (2 * K + 1)) := by rw [hyx]; ring
  rw [e, abs_mul, abs_of_pos hst]
  refine ⟨mul_le_mul_of_nonneg_right h4 hst.le, fun hx0 => ?_⟩
  have hy0 : 0 ≤ y := by rw [hy]; positivity
  have := mul_le_mul_of_nonneg_right (h5 hy0) hst.le
  linarith

end Vmml
