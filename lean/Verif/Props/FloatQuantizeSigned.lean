import Verif.Props.FloatQuantize

/-!
# C137 for signed code types

With a signed code type the code scales the element without subtracting `min_value`, and `long( ... + 0.5 )` truncates toward zero.
-/

namespace Vmml
open Format Mat
variable {F D : Format} {M N : Nat}

/-- The scaled element a signed code stands for: 0 is 0 and `hi - lo` is `R` steps. -/
noncomputable def Spec.scaled (R : Int) (lo hi x : ℝ) : ℝ := x * R / (hi - lo)

/-- The nearest number in the range of the code type. -/
noncomputable def Spec.inRange (tt : IntType) (y : ℝ) : ℝ := max (tt.min : ℝ) (min y tt.max)

private theorem signed_err {u η w X R wh p q s : ℝ} (hu0 : 0 < u) (hu : u ≤ 1 / 64) (hη : 0 ≤ η) (hηu : η ≤ u) (hw : 0 < w) (hXw : |X| ≤ w) (hR : 1 ≤ R)
    (e1 : |wh - w| ≤ u * w) (e3 : |p - X * R| ≤ u * |X * R|) (e4 : |q - p / wh| ≤ u * |p / wh| + η) (e5 : |s - (q + 1 / 2)| ≤ u * |q + 1 / 2|)
    (hp : 0 ≤ X → 0 ≤ p) (hp' : X ≤ 0 → p ≤ 0) (hq : 0 ≤ X → 0 ≤ q) (hq' : X ≤ 0 → q ≤ 0) :
    |s - (X * R / w + 1 / 2)| ≤ 10 * u * R ∧ 0 < wh ∧ |X * R| ≤ 2 * (w * R) ∧ |p / wh| ≤ 2 * R ∧ |q + 1 / 2| ≤ 2 * R ∧ |s| ≤ 3 * R ∧ (0 ≤ X → 0 ≤ s) := by
  have hwh : 0 < wh := by
    have := (abs_le.1 e1).1
    have : u * w ≤ 1 / 64 * w := mul_le_mul_of_nonneg_right hu hw.le
    linarith
  have hR0 : 0 < R := by linarith
  have uR0 : 0 ≤ u * R := by positivity
  have main : |(|q|) - |X| * R / w| ≤ 8 * u * R ∧ |X| * R ≤ 2 * (w * R) ∧ |p| / wh ≤ 2 * R ∧ |q| + 1 / 2 ≤ 2 * R := by
    have h1 : |(|p|) - |X| * R| ≤ u * (|X| * R) := by
      have : |X| * R = |X * R| := by rw [abs_mul, abs_of_pos hR0]
      rw [this]
      exact (abs_abs_sub_abs_le _ _).trans e3
    have h2 : |(|q|) - |p| / wh| ≤ u * (|p| / wh) + η := by
      have : |p| / wh = |p / wh| := by rw [abs_div, abs_of_pos hwh]
      rw [this]
      exact (abs_abs_sub_abs_le _ _).trans e4
    obtain ⟨a1, -, -, a4, a5, a6, -, -⟩ := Quant.code_err (X := |X|) (d := |X|) (p := |p|) (q := |q|) (s := |q| + 1 / 2) hu0 hu hη hηu hw (abs_nonneg _) hXw hR e1
      (by rw [sub_self, abs_zero]; positivity) h1 h2 (by rw [sub_self, abs_zero]; positivity)
    refine ⟨by simpa using a1, (le_abs_self _).trans a4, (le_abs_self _).trans a5, (le_abs_self _).trans a6⟩
  obtain ⟨m1, m2, m3, m4⟩ := main
  have m5 : |q - X * R / w| ≤ 8 * u * R := by
    rcases le_total 0 X with h | h
    · rwa [abs_of_nonneg h, abs_of_nonneg (hq h)] at m1
    · rw [abs_of_nonpos h, abs_of_nonpos (hq' h)] at m1
      rw [← abs_neg]
      convert m1 using 2
      ring
  have m6 : |q + 1 / 2| ≤ 2 * R := (abs_add_le _ _).trans (by rw [abs_of_pos (by norm_num : (0 : ℝ) < 1 / 2)]; exact m4)
  have m7 : u * |q + 1 / 2| ≤ u * (2 * R) := mul_le_mul_of_nonneg_left m6 hu0.le
  have m8 : u * (2 * R) ≤ 1 / 64 * (2 * R) := mul_le_mul_of_nonneg_right hu (by linarith)
  refine ⟨?_, hwh, by rw [abs_mul, abs_of_pos hR0]; exact m2, by rw [abs_div, abs_of_pos hwh]; exact m3, m6, ?_, fun h => ?_⟩
  · have : s - (X * R / w + 1 / 2) = (s - (q + 1 / 2)) + (q - X * R / w) := by ring
    rw [this]
    have := abs_add_le (s - (q + 1 / 2)) (q - X * R / w)
    linarith
  · have : s = (s - (q + 1 / 2)) + (q + 1 / 2) := by ring
    rw [this]
    have := abs_add_le (s - (q + 1 / 2)) (q + 1 / 2)
    linarith
  · have h0 : 0 ≤ q + 1 / 2 := by have := hq h; linarith
    rw [abs_of_nonneg h0] at e5
    have := (abs_le.1 e5).1
    have : u * (q + 1 / 2) ≤ 1 * (q + 1 / 2) := mul_le_mul_of_nonneg_right (by linarith) h0
    linarith

/-- Truncation toward zero. -/
private noncomputable def truncZ (x : ℝ) : Int := @ite Int (0 ≤ x) (Classical.propDecidable _) ⌊x⌋ ⌈x⌉

private theorem toLong_trunc {a : Fp D} (ha : a.Finite) (h1 : |a.val| < 2 ^ 63) : Fp.toLong a = .ok (truncZ a.val) := by
  obtain ⟨s, m, hm, rfl⟩ := Fp.finite_cases ha
  unfold Fp.toLong truncZ
  simp only
  obtain ⟨b1, b2⟩ := abs_lt.1 h1
  rw [if_pos]
  split_ifs with h0
  · constructor
    · have : 0 ≤ ⌊(Fp.fin s m hm).val⌋ := Int.floor_nonneg.2 h0
      omega
    · rw [Int.floor_lt]; exact_mod_cast b2
  · constructor
    · have : -2 ^ 63 < ⌈(Fp.fin s m hm).val⌉ := by rw [Int.lt_ceil]; exact_mod_cast b1
      omega
    · have : ⌈(Fp.fin s m hm).val⌉ ≤ 0 := by rw [Int.ceil_le]; push_cast; linarith
      omega

variable (hD : Spec.Wider F D) (h5 : 5 ≤ F.p) (hF : F.p + 2 ≤ F.emax)

/-- What the code computes before truncating. -/
private noncomputable def preS (F D : Format) (R : Int) (wh X : ℝ) : ℝ := D.rnd (F.rnd (F.rnd (X * R) / wh) + 1 / 2)

include hD h5 hF in
private theorem code_signed {R : Int} {lo hi x : Fp F} (h : Spec.QuantFits R lo hi) (h0 : lo.val ≤ 0) (h0' : 0 ≤ hi.val) (hx : x.Finite) (hlo : lo.val ≤ x.val) (hhi : x.val ≤ hi.val) :
    Fp.toLong (Fp.convert D (x * Fp.ofReal (R : ℝ) / (hi - lo)) + (Fp.ofReal (1 / 2) : Fp D)) = .ok (truncZ (preS F D R (F.rnd (hi.val - lo.val)) x.val)) ∧
    |preS F D R (F.rnd (hi.val - lo.val)) x.val - (Spec.scaled R lo.val hi.val x.val + 1 / 2)| ≤ 10 * F.u * R ∧ (0 ≤ x.val → 0 ≤ preS F D R (F.rnd (hi.val - lo.val)) x.val) := by
  obtain ⟨hp, he⟩ := Quant.wide hD
  have hu := u_pos (F := F)
  have hu6 := Quant.u64 h5
  have hη := eta_pos (F := F)
  have hηu : F.eta ≤ F.u := by
    rw [Format.eta_eq_tiny]
    have := Vmml.tiny_le_one (F := F) (by omega)
    nlinarith
  have hR : (1 : ℝ) ≤ R := by exact_mod_cast h.pos
  have hR0 : (0 : ℝ) ≤ R := by linarith
  have hroom := h.room
  obtain ⟨w1, w2, w3⟩ := Quant.width hF h
  have hw0 : 0 < hi.val - lo.val := sub_pos.2 h.lt
  have hXw : |x.val| ≤ hi.val - lo.val := by rw [abs_le]; constructor <;> linarith
  have hwle : hi.val - lo.val = |lo.val| + |hi.val| := by rw [abs_of_nonpos h0, abs_of_nonneg h0']; ring
  obtain ⟨r1, r2⟩ := Quant.ofReal_int (F := F) (by omega) (k := R) (by rw [abs_of_nonneg (by have := h.pos; omega)]; exact h.digits)
  have e3 := (Quant.mul_int (Fp.rep_val hx).grid R).rnd_err
  have hwh0 : 0 ≤ F.rnd (hi.val - lo.val) := rnd_nonneg hw0.le
  have e4 := rnd_err_add (F := F) (F.rnd (x.val * R) / F.rnd (hi.val - lo.val))
  have e5 : |preS F D R (F.rnd (hi.val - lo.val)) x.val - (F.rnd (F.rnd (x.val * R) / F.rnd (hi.val - lo.val)) + 1 / 2)| ≤
      F.u * |F.rnd (F.rnd (x.val * R) / F.rnd (hi.val - lo.val)) + 1 / 2| := by
    have := ((rep_widen hp he (rnd_rep (F := F) (F.rnd (x.val * R) / F.rnd (hi.val - lo.val)))).grid.add (rep_half (F := D) (by omega)).grid).rnd_err
    exact this.trans (mul_le_mul_of_nonneg_right (u_le hp) (abs_nonneg _))
  have neg : ∀ {y : ℝ}, y ≤ 0 → F.rnd y ≤ 0 := fun {y} hy => by
    have := rnd_nonneg (F := F) (neg_nonneg.2 hy)
    rw [rnd_neg] at this
    linarith
  obtain ⟨g1, g2, g3, g4, g5, g6, g7⟩ := signed_err hu hu6 hη.le hηu hw0 hXw hR w3 e3 e4 e5
    (fun hX => rnd_nonneg (mul_nonneg hX hR0)) (fun hX => neg (mul_nonpos_of_nonpos_of_nonneg hX hR0))
    (fun hX => rnd_nonneg (div_nonneg (rnd_nonneg (mul_nonneg hX hR0)) hwh0)) (fun hX => neg (div_nonpos_of_nonpos_of_nonneg (neg (mul_nonpos_of_nonpos_of_nonneg hX hR0)) hwh0))
  refine ⟨?_, g1, g7⟩
  rw [← hwle] at hroom
  have hRw : 0 ≤ (R : ℝ) * (hi.val - lo.val) := by positivity
  obtain ⟨p1, p2⟩ := Fp.mul_fin (F := F) (by omega) hx r1 (by rw [r2]; linarith)
  rw [r2] at p2
  obtain ⟨q1, q2⟩ := Fp.div_fin (F := F) (by omega) p1 w1 (by rw [w2]; exact g2.ne') (by rw [p2, w2]; linarith)
  rw [p2, w2] at q2
  obtain ⟨c1, c2⟩ := Fp.widen_fin hp he (by omega) q1
  rw [q2] at c2
  have hh : (Fp.ofReal (1 / 2) : Fp D).Finite ∧ (Fp.ofReal (1 / 2) : Fp D).val = 1 / 2 := by
    have := Fp.ofReal_fin (F := D) (x := 1 / 2) (by omega) (by
      have := one_le_max (F := D) (by omega)
      rw [abs_of_pos (by norm_num)]; linarith)
    rwa [(rep_half (F := D) (by omega)).rnd_eq] at this
  obtain ⟨s1, s2⟩ := Fp.add_fin (F := D) (by omega) c1 hh.1 (by
    rw [c2, hh.2]
    refine g5.trans ((?_ : _ ≤ F.maxFinite).trans (max_widen hp he))
    linarith)
  rw [c2, hh.2] at s2
  have s2 : _ = preS F D R (F.rnd (hi.val - lo.val)) x.val := s2
  rw [toLong_trunc s1 (by
    rw [s2]
    refine g6.trans_lt ?_
    have : (R : ℝ) < 2 ^ 32 := by exact_mod_cast h.bits
    linarith), s2]

private theorem clamp_shift {tt : IntType} (hle : tt.min ≤ tt.max) {k : Int} {y b c : ℝ} (hb : 0 ≤ b) (hc : 0 ≤ c) (h1 : -b ≤ k - y) (h2 : k - y ≤ c) :
    -b ≤ (clampLong tt.min k tt.max : ℝ) - Spec.inRange tt y ∧ (clampLong tt.min k tt.max : ℝ) - Spec.inRange tt y ≤ c := by
  have : (clampLong tt.min k tt.max : ℝ) = max (tt.min : ℝ) (min (k : ℝ) tt.max) := by
    rw [← Int.cast_min, ← Int.cast_max]
    congr 1
    unfold clampLong
    simp only
    split_ifs <;> omega
  have hle' : (tt.min : ℝ) ≤ tt.max := by exact_mod_cast hle
  rw [this]
  unfold Spec.inRange
  rcases le_total (k : ℝ) tt.max with a | a <;> rcases le_total y tt.max with b' | b' <;> simp only [min_eq_left, min_eq_right, a, b'] <;>
    rcases le_total (tt.min : ℝ) k with d | d <;> rcases le_total (tt.min : ℝ) y with e | e <;> simp only [max_eq_left, max_eq_right, d, e, hle'] <;> constructor <;> linarith

private theorem trunc_near {s y e : ℝ} (h : |s - (y + 1 / 2)| ≤ e) : -(1 / 2 + e) ≤ (truncZ s : ℝ) - y ∧ (truncZ s : ℝ) - y ≤ 3 / 2 + e ∧ (0 ≤ s → (truncZ s : ℝ) - y ≤ 1 / 2 + e) := by
  obtain ⟨a, b⟩ := abs_le.1 h
  have e0 := (abs_nonneg _).trans h
  unfold truncZ
  split_ifs with hs
  · have f1 := Int.floor_le s
    have f2 := Int.lt_floor_add_one s
    exact ⟨by linarith, by linarith, fun _ => by linarith⟩
  · have f1 := Int.le_ceil s
    have f2 := Int.ceil_lt_add_one s
    exact ⟨by linarith, by linarith, fun h => absurd h hs⟩

private theorem value_signed {u η w wh y e t : ℝ} (hu0 : 0 < u) (hu : u ≤ 1 / 64) (hw : 0 < w) (hy : |y| ≤ 1) (e1 : |wh - w| ≤ u * w) (e2 : |e - y| ≤ u * |y|) (e3 : |t - e * wh| ≤ u * |e * wh| + η) :
    |e * wh| ≤ 2 * w ∧ |t - y * w| ≤ 4 * u * w + η := by
  have he : |e - y| ≤ u := e2.trans (mul_le_of_le_one_right hu0.le hy)
  have he1 : |e| ≤ 1 + u := by
    have := abs_add_le (e - y) y
    rw [sub_add_cancel] at this
    linarith
  have hwh : |wh| ≤ (1 + u) * w := by
    have := abs_add_le (wh - w) w
    rw [sub_add_cancel, abs_of_pos hw] at this
    linarith
  have m : |e * wh| ≤ (1 + u) * ((1 + u) * w) := by
    rw [abs_mul]
    exact mul_le_mul he1 hwh (abs_nonneg _) (by linarith)
  have uw : 0 < u * w := mul_pos hu0 hw
  have uuw : u * (u * w) ≤ 1 / 64 * (u * w) := mul_le_mul_of_nonneg_right hu uw.le
  have uw' : u * w ≤ 1 / 64 * w := mul_le_mul_of_nonneg_right hu hw.le
  have m2 : |e * wh| ≤ 33 / 32 * w + 1 / 64 * (u * w) := by linarith
  refine ⟨by linarith, ?_⟩
  have d : |e * wh - y * w| ≤ 2 * (u * w) + u * (u * w) := by
    have : e * wh - y * w = e * (wh - w) + (e - y) * w := by ring
    rw [this]
    refine (abs_add_le _ _).trans ?_
    rw [abs_mul, abs_mul, abs_of_pos hw]
    have a : |e| * |wh - w| ≤ (1 + u) * (u * w) := mul_le_mul he1 e1 (abs_nonneg _) (by linarith)
    have b : |e - y| * w ≤ u * w := mul_le_mul_of_nonneg_right he hw.le
    linarith
  have um : u * |e * wh| ≤ u * (2 * w) := mul_le_mul_of_nonneg_left (by linarith) hu0.le
  have um' : u * |e * wh| ≤ u * (33 / 32 * w + 1 / 64 * (u * w)) := mul_le_mul_of_nonneg_left m2 hu0.le
  have uuw0 : u * (u * (u * w)) ≤ 1 / 64 * (u * (u * w)) := mul_le_mul_of_nonneg_right hu (by positivity)
  have : t - y * w = (t - e * wh) + (e * wh - y * w) := by ring
  rw [this]
  refine (abs_add_le _ _).trans ?_
  linarith

private theorem decode_signed (h5 : 5 ≤ F.p) (hF : F.p + 2 ≤ F.emax) {R c : Int} {lo hi x : Fp F} (h : Spec.QuantFits R lo hi) (hcR : |c| ≤ R) (hlo : lo.val ≤ x.val) (hhi : x.val ≤ hi.val) :
    let v := clampT lo ((Fp.ofReal (c : ℝ) : Fp F) / Fp.ofReal (R : ℝ) * (hi - lo)) hi
    v.Finite ∧ lo.val ≤ v.val ∧ v.val ≤ hi.val ∧ |v.val - x.val| ≤ |c - Spec.scaled R lo.val hi.val x.val| * ((hi.val - lo.val) / R) + 4 * F.u * (hi.val - lo.val) + F.eta := by
  have hu := u_pos (F := F)
  have hu6 := Quant.u64 h5
  have hη := eta_pos (F := F)
  have hR : (1 : ℝ) ≤ R := by exact_mod_cast h.pos
  have hR0 : (0 : ℝ) < R := by linarith
  have hroom := h.room
  have a1 := abs_nonneg lo.val
  have a2 := abs_nonneg hi.val
  obtain ⟨w1, w2, w3⟩ := Quant.width hF h
  have hw0 : 0 < hi.val - lo.val := sub_pos.2 h.lt
  have hwle : hi.val - lo.val ≤ |lo.val| + |hi.val| := by
    have h1 := neg_abs_le lo.val
    have h2 := le_abs_self hi.val
    linarith
  have hAR : |lo.val| + |hi.val| ≤ R * (|lo.val| + |hi.val|) := le_mul_of_one_le_left (by positivity) hR
  obtain ⟨r1, r2⟩ := Quant.ofReal_int (F := F) (by omega) (k := R) (by rw [abs_of_nonneg (by have := h.pos; omega)]; exact h.digits)
  obtain ⟨c1, c2⟩ := Quant.ofReal_int (F := F) (by omega) (k := c) (hcR.trans h.digits)
  have hcR' : |(c : ℝ)| ≤ R := by exact_mod_cast hcR
  have hy1 : |(c : ℝ) / R| ≤ 1 := by rw [abs_div, abs_of_pos hR0, div_le_one hR0]; exact hcR'
  have hm1 := one_le_max (F := F) (by omega)
  obtain ⟨q1, q2⟩ := Fp.div_fin (F := F) (by omega) c1 r1 (by rw [r2]; exact hR0.ne') (by rw [c2, r2]; linarith)
  rw [c2, r2] at q2
  have e2 : |F.rnd ((c : ℝ) / R) - c / R| ≤ F.u * |(c : ℝ) / R| := by
    rcases eq_or_ne c 0 with h0 | h0
    · rw [h0]; simp [rnd_zero]
    · have hc1 : (1 : ℝ) ≤ |(c : ℝ)| := by exact_mod_cast Int.one_le_abs h0
      refine rnd_err_normal (F := F) (x := (c : ℝ) / R) ?_
      rw [abs_div, abs_of_pos hR0, le_div_iff₀ hR0]
      have hd : (R : ℝ) ≤ (2 : ℝ) ^ ((F.p : Int) + 1) := by exact_mod_cast h.digits
      calc (2 : ℝ) ^ F.emin * R ≤ (2 : ℝ) ^ F.emin * (2 : ℝ) ^ ((F.p : Int) + 1) := mul_le_mul_of_nonneg_left hd (by positivity)
        _ = (2 : ℝ) ^ (F.emin + ((F.p : Int) + 1)) := (zpow_add₀ (by norm_num) _ _).symm
        _ ≤ 1 := zpow_le_one_of_nonpos₀ (by norm_num) (by unfold emin; omega)
        _ ≤ |(c : ℝ)| := hc1
  have e3 := rnd_err_add (F := F) (F.rnd ((c : ℝ) / R) * F.rnd (hi.val - lo.val))
  obtain ⟨k1, k2⟩ := value_signed hu hu6 hw0 hy1 w3 e2 e3
  obtain ⟨t1, t2⟩ := Fp.mul_fin (F := F) (by omega) q1 w1 (by rw [q2, w2]; linarith)
  rw [q2, w2] at t2
  obtain ⟨z1, z2, z3, z4⟩ := Quant.clamp_near h.lo_fin t1 h.hi_fin hlo hhi
  refine ⟨z1, z2, z3, z4.trans ?_⟩
  rw [t2]
  have hX : (c : ℝ) / R * (hi.val - lo.val) - x.val = (c - Spec.scaled R lo.val hi.val x.val) * ((hi.val - lo.val) / R) := by
    unfold Spec.scaled
    field_simp
  have := abs_add_le (F.rnd (F.rnd ((c : ℝ) / R) * F.rnd (hi.val - lo.val)) - (c : ℝ) / R * (hi.val - lo.val)) ((c : ℝ) / R * (hi.val - lo.val) - x.val)
  rw [sub_add_sub_cancel, hX, abs_mul, abs_of_pos (div_pos hw0 hR0)] at this
  linarith

private theorem dequantize_signed {tt : IntType} (hs : tt.signed = true) (q : Mat M N Int) (d : Mat M N (Fp F)) (lo hi : Fp F) :
    q.dequantizeFp tt d lo hi = .ok (ofFn fun i j => clampT lo ((Fp.ofReal (q.get i j : ℝ) : Fp F) / Fp.ofReal ((tt.max - tt.min : Int) : ℝ) * (hi - lo)) hi) := by
  unfold dequantizeFp dequantize
  simp only [hs, if_true]
  rw [loop_flat (fun i => clampT lo ((Fp.ofReal (q.array[i] : ℝ) : Fp F) / Fp.ofReal ((tt.max - tt.min : Int) : ℝ) * (hi - lo)) hi) (by
    intro i hi' m' _
    rw [rawGet_lt q hi', bind_ok, rawSet_lt m' _ hi']
    rfl)]
  congr 1; ext r c; rw [get_mk_ofFn, get_ofFn]; rfl

section
variable (hD : Spec.Wider F D) (h5 : 5 ≤ F.p) (hF : F.p + 2 ≤ F.emax) {tt : IntType} (hs : tt.signed = true) (hmin : tt.min ≤ 0) (hmax : 0 ≤ tt.max) {lo hi : Fp F}
  (h : Spec.QuantFits (tt.max - tt.min) lo hi) (hlo : lo.val ≤ 0) (hhi : 0 ≤ hi.val) (m : Mat M N (Fp F)) (hm : Spec.InBounds m lo hi)
include hD h5 hF hs h hlo hhi hm

private theorem quantizeTo_signed (q : Mat M N Int) :
    m.quantizeToFp D tt q lo hi = .ok (ofFn fun i j => clampLong tt.min (truncZ (preS F D (tt.max - tt.min) (F.rnd (hi.val - lo.val)) (m.get i j).val)) tt.max) := by
  unfold quantizeToFp
  simp only [hs, if_true]
  rw [loop_flat (fun i => clampLong tt.min (truncZ (preS F D (tt.max - tt.min) (F.rnd (hi.val - lo.val)) (m.array[i]).val)) tt.max) (by
    intro i hi' m' _
    obtain ⟨e1, e2, e3⟩ : (m.array[i]).Finite ∧ lo.val ≤ (m.array[i]).val ∧ (m.array[i]).val ≤ hi.val := by
      obtain ⟨r, c, hrc⟩ := Mat.array_get m i hi'
      rw [hrc]
      exact hm r c
    rw [rawGet_lt m hi', bind_ok, (code_signed hD h5 hF h hlo hhi e1 e2 e3).1, bind_ok, rawSet_lt m' _ hi']
    rfl)]
  congr 1; ext r c; rw [get_mk_ofFn, get_ofFn]; rfl

include hmin hmax in
/-- C137, signed code types. `quantize_to` with `min_value ≤ 0 ≤ max_value` around the elements: the conversion to `long` is defined; with `y` the scaled element, brought into the range of the type, the code of a non-negative
element is `y` up to half a step and `10 u R` for the roundings, and the code of a negative element is at most half a step below and one and a half above (`long` truncates toward zero). -/
theorem C137_signed_codes (q : Mat M N Int) :
    ∃ q', m.quantizeToFp D tt q lo hi = .ok q' ∧ ∀ i j, tt.min ≤ q'.toMat i j ∧ q'.toMat i j ≤ tt.max ∧
      -(1 / 2 + 10 * F.u * (tt.max - tt.min)) ≤ q'.toMat i j - Spec.inRange tt (Spec.scaled (tt.max - tt.min) lo.val hi.val (m.toMat i j).val) ∧
      q'.toMat i j - Spec.inRange tt (Spec.scaled (tt.max - tt.min) lo.val hi.val (m.toMat i j).val) ≤ 3 / 2 + 10 * F.u * (tt.max - tt.min) ∧
      (0 ≤ (m.toMat i j).val → q'.toMat i j - Spec.inRange tt (Spec.scaled (tt.max - tt.min) lo.val hi.val (m.toMat i j).val) ≤ 1 / 2 + 10 * F.u * (tt.max - tt.min)) := by
  have hle : tt.min ≤ tt.max := hmin.trans hmax
  refine ⟨_, quantizeTo_signed hD h5 hF hs h hlo hhi m hm q, fun i j => ?_⟩
  obtain ⟨e1, e2, e3⟩ := hm i j
  simp only [toMat, Matrix.of_apply, get_ofFn] at *
  obtain ⟨-, c2, c3⟩ := code_signed hD h5 hF h hlo hhi e1 e2 e3
  obtain ⟨t1, t2, t3⟩ := trunc_near c2
  have eR : ((tt.max - tt.min : Int) : ℝ) = tt.max - tt.min := by push_cast; ring
  have e0 : (0 : ℝ) ≤ 10 * F.u * ((tt.max - tt.min : Int) : ℝ) := (abs_nonneg _).trans c2
  rw [eR] at t1 t2 t3 e0
  refine ⟨(clampLong_mem hle _).1, (clampLong_mem hle _).2, ?_⟩
  obtain ⟨k1, k2⟩ := clamp_shift hle (by linarith) (by linarith) t1 t2
  exact ⟨k1, k2, fun hx => (clamp_shift hle (by linarith) (by linarith) t1 (t3 (c3 hx))).2⟩

include hmin hmax in
/-- C137, signed code types, there and back. What is lost is one and a half steps (half a step if the element is not negative), the roundings, and the distance of the scaled element from the range of the type, in steps:
with bounds symmetric around 0 that distance is at most half a step, with `min_value = 0` it is half of the range (C42). -/
theorem C137_signed_round_trip (q : Mat M N Int) (d : Mat M N (Fp F)) :
    ∃ q' d', m.quantizeToFp D tt q lo hi = .ok q' ∧ q'.dequantizeFp tt d lo hi = .ok d' ∧
      ∀ i j, (d'.toMat i j).Finite ∧ lo.val ≤ (d'.toMat i j).val ∧ (d'.toMat i j).val ≤ hi.val ∧ ∀ y, y = Spec.scaled (tt.max - tt.min) lo.val hi.val (m.toMat i j).val →
        |(d'.toMat i j).val - (m.toMat i j).val| ≤ (3 / 2 + |Spec.inRange tt y - y|) * ((hi.val - lo.val) / (tt.max - tt.min)) + 14 * F.u * (hi.val - lo.val) + F.eta ∧
        (0 ≤ (m.toMat i j).val →
          |(d'.toMat i j).val - (m.toMat i j).val| ≤ (1 / 2 + |Spec.inRange tt y - y|) * ((hi.val - lo.val) / (tt.max - tt.min)) + 14 * F.u * (hi.val - lo.val) + F.eta) := by
  obtain ⟨q', e, hq⟩ := C137_signed_codes hD h5 hF hs hmin hmax h hlo hhi m hm q
  refine ⟨q', _, e, dequantize_signed hs q' d lo hi, fun i j => ?_⟩
  obtain ⟨c0, c1, c2, c3, c4⟩ := hq i j
  obtain ⟨e1, e2, e3⟩ := hm i j
  have hR : (0 : ℝ) < (tt.max : ℝ) - tt.min := by have := h.pos; have : (0 : Int) < tt.max - tt.min := by omega
                                                  exact_mod_cast this
  have := decode_signed h5 hF h (c := q'.toMat i j) (by rw [abs_le]; constructor <;> omega) e2 e3
  simp only at this
  have eR : ((tt.max - tt.min : Int) : ℝ) = tt.max - tt.min := by push_cast; ring
  rw [eR] at this
  simp only [toMat, Matrix.of_apply, get_ofFn] at *
  rw [eR]
  refine ⟨this.1, this.2.1, this.2.2.1, fun y hy => ?_⟩
  have h4 := this.2.2.2
  rw [← hy] at h4 c2 c3 c4
  have hw0 : 0 < hi.val - lo.val := sub_pos.2 h.lt
  have hg : 0 < (hi.val - lo.val) / ((tt.max : ℝ) - tt.min) := div_pos hw0 hR
  have step : ∀ {b : ℝ}, |(q'.get i j : ℝ) - Spec.inRange tt y| ≤ b + 10 * F.u * (tt.max - tt.min) →
      |(q'.get i j : ℝ) - y| * ((hi.val - lo.val) / ((tt.max : ℝ) - tt.min)) ≤ (b + |Spec.inRange tt y - y|) * ((hi.val - lo.val) / (tt.max - tt.min)) + 10 * F.u * (hi.val - lo.val) := by
    intro b hb
    have t : |(q'.get i j : ℝ) - y| ≤ (b + |Spec.inRange tt y - y|) + 10 * F.u * (tt.max - tt.min) := by
      have := abs_add_le ((q'.get i j : ℝ) - Spec.inRange tt y) (Spec.inRange tt y - y)
      rw [sub_add_sub_cancel] at this
      linarith
    refine (mul_le_mul_of_nonneg_right t hg.le).trans (le_of_eq ?_)
    field_simp
  have p0 : 0 ≤ 10 * F.u * ((tt.max : ℝ) - tt.min) := by have := u_pos (F := F); positivity
  constructor
  · have := step (b := 3 / 2) (by rw [abs_le]; constructor <;> linarith)
    linarith
  · intro hx
    have := step (b := 1 / 2) (by rw [abs_le]; exact ⟨by linarith, by have := c4 hx; linarith⟩)
    linarith

/-- C137. Quantisation to a signed type keeps the order too. -/
theorem C137_signed_monotone (q : Mat M N Int) :
    ∃ q', m.quantizeToFp D tt q lo hi = .ok q' ∧ ∀ i j k l, (m.toMat i j).val ≤ (m.toMat k l).val → q'.toMat i j ≤ q'.toMat k l := by
  refine ⟨_, quantizeTo_signed hD h5 hF hs h hlo hhi m hm q, fun i j k l hle => ?_⟩
  simp only [toMat, Matrix.of_apply, get_ofFn] at *
  have hR : (0 : ℝ) ≤ ((tt.max - tt.min : Int) : ℝ) := by have := h.pos; exact_mod_cast (by omega : (0 : Int) ≤ tt.max - tt.min)
  have hw : 0 ≤ F.rnd (hi.val - lo.val) := rnd_nonneg (F := F) (sub_pos.2 h.lt).le
  have hmono : preS F D (tt.max - tt.min) (F.rnd (hi.val - lo.val)) (m.get i j).val ≤ preS F D (tt.max - tt.min) (F.rnd (hi.val - lo.val)) (m.get k l).val := by
    unfold preS
    apply rnd_mono
    gcongr
    apply rnd_mono
    gcongr
    apply rnd_mono
    gcongr
  have : truncZ (preS F D (tt.max - tt.min) (F.rnd (hi.val - lo.val)) (m.get i j).val) ≤ truncZ (preS F D (tt.max - tt.min) (F.rnd (hi.val - lo.val)) (m.get k l).val) := by
    generalize preS F D (tt.max - tt.min) (F.rnd (hi.val - lo.val)) (m.get i j).val = a at *
    generalize preS F D (tt.max - tt.min) (F.rnd (hi.val - lo.val)) (m.get k l).val = b at *
    unfold truncZ
    split_ifs with h1 h2 h2
    · exact Int.floor_le_floor hmono
    · exact absurd (h1.trans hmono) h2
    · have h3 : ⌈a⌉ ≤ 0 := by rw [Int.ceil_le]; push_cast; linarith
      have h4 : 0 ≤ ⌊b⌋ := Int.floor_nonneg.2 h2
      omega
    · exact Int.ceil_le_ceil hmono
  unfold clampLong
  simp only
  split_ifs <;> omega

end

/-- The hypotheses can be met: signed bytes, the bounds -1 and 1 and the `float` elements 1 and -1. The code of 1 is 127. -/
example (q : Mat 1 2 Int) : ∃ q', (⟨#v[(1 : Fp Format.single), -1]⟩ : Mat 1 2 (Fp Format.single)).quantizeToFp Format.double ⟨-128, 127, true⟩ q (-1) 1 = .ok q' ∧ q'.toMat 0 0 = 127 := by
  have h1 := Fp.one_fin (F := Format.single) (by decide)
  have hn : (-1 : Fp Format.single).Finite ∧ (-1 : Fp Format.single).val = -1 := ⟨Fp.finite_neg h1.1, by rw [Fp.val_neg, h1.2]⟩
  have e0 : (⟨#v[(1 : Fp Format.single), -1]⟩ : Mat 1 2 (Fp Format.single)).toMat 0 0 = 1 := rfl
  have e1 : (⟨#v[(1 : Fp Format.single), -1]⟩ : Mat 1 2 (Fp Format.single)).toMat 0 1 = -1 := rfl
  have hmax : (2 : ℝ) ^ ((Format.single.emax : Int)) ≤ Format.single.maxFinite := pow_emax_le
  have hfit : Spec.QuantFits (F := Format.single) (127 - -128) (-1) 1 := by
    refine ⟨hn.1, h1.1, by rw [hn.2, h1.2]; norm_num, by decide, by decide, by decide, ?_⟩
    rw [hn.2, h1.2]
    refine le_trans ?_ hmax
    show _ ≤ (2 : ℝ) ^ (127 : Int)
    norm_num
  have hin : Spec.InBounds (⟨#v[(1 : Fp Format.single), -1]⟩ : Mat 1 2 (Fp Format.single)) (-1) 1 := by
    intro i j
    match i, j with
    | 0, 0 => rw [e0, hn.2, h1.2]; exact ⟨h1.1, by norm_num, le_rfl⟩
    | 0, 1 => rw [e1, hn.2, h1.2]; exact ⟨hn.1, le_rfl, by norm_num⟩
  obtain ⟨q', a, b⟩ := C137_signed_codes (F := Format.single) (D := Format.double) (tt := ⟨-128, 127, true⟩) wider_single (by decide) (by decide) rfl (by decide) (by decide) hfit
    (by rw [hn.2]; norm_num) (by rw [h1.2]; norm_num) _ hin q
  refine ⟨q', a, ?_⟩
  obtain ⟨-, b2, b3, -, -⟩ := b 0 0
  rw [e0, hn.2, h1.2] at b3
  have hr : Spec.inRange ⟨-128, 127, true⟩ (Spec.scaled (127 - -128) (-1) 1 1) = 127 := by
    unfold Spec.inRange Spec.scaled
    norm_num
  have hu : Format.single.u ≤ 1 / 16384 := by
    show (2 : ℝ)⁻¹ ^ 24 ≤ _
    norm_num
  simp only at b2 b3
  rw [hr] at b3
  push_cast at b3
  have : (126 : ℝ) < q'.toMat 0 0 := by linarith
  have : (126 : Int) < q'.toMat 0 0 := by exact_mod_cast this
  omega

end Vmml
