import Verif.Model.VectorFloat
import Verif.Props.FloatScaleTo
import Verif.Props.FloatOrder
import Verif.Props.FloatRay

/-!
# C139: component-wise functions in IEEE 754 arithmetic: reciprocals, square roots, random vectors, perturbation
-/

namespace Vmml
open Format
variable {F D : Format} {M : Nat}

/-! ## Reciprocals -/

/-- The IEEE reciprocal of one number: correctly rounded; `±0` and `±infinity` are exchanged, NaN stays. -/
def Spec.IsRecip (x y : Fp F) : Prop :=
  match x with
  | .nan => y = .nan
  | .inf s => y = .fin s 0 mag_zero
  | .fin s m _ => if m = 0 then y = .inf s else if F.rnd (1 / m) ≤ F.maxFinite then y.Finite ∧ y.val = F.rnd (1 / x.val) else y = .inf s

private theorem recip (h0 : 0 < F.emax) (x : Fp F) : Spec.IsRecip x (1 / x) := by
  have hone : ∃ h : F.Mag 1, (1 : Fp F) = .fin false 1 h := by
    have h1 := Fp.one_fin (F := F) h0
    have hr : F.rnd 1 = 1 := (by simpa using (rep_pow (F := F) (e := 0) (by unfold emin; omega)) : F.Rep (1 : ℝ)).rnd_eq
    have hle : F.rnd 1 ≤ F.maxFinite := by rw [hr]; exact one_le_max h0
    have : (1 : Fp F) = .fin false (F.rnd 1) (mag_rnd zero_le_one hle) := Fp.round_eq (s := false) zero_le_one hle
    refine ⟨by have := mag_rnd (F := F) zero_le_one hle; rwa [hr] at this, ?_⟩
    rw [this]
    congr 1
  obtain ⟨hm1, e1⟩ := hone
  cases x with
  | nan => rw [e1]; rfl
  | inf s => rw [e1]; show (Fp.fin (false ^^ s) 0 Format.mag_zero : Fp F) = _; rw [Bool.false_xor]
  | fin s m hm =>
    have e : (1 : Fp F) / .fin s m hm = if m = 0 then (if (1 : ℝ) = 0 then .nan else .inf (false ^^ s)) else .round (false ^^ s) (1 / m) := by rw [e1]; rfl
    rw [e]
    unfold Spec.IsRecip
    simp only [Bool.false_xor]
    by_cases h : m = 0
    · rw [if_pos h, if_pos h, if_neg one_ne_zero]
    · rw [if_neg h, if_neg h]
      have hpos : 0 < m := lt_of_le_of_ne hm.1 (Ne.symm h)
      have h1m : 0 ≤ 1 / m := by positivity
      by_cases hle : F.rnd (1 / m) ≤ F.maxFinite
      · rw [if_pos hle, Fp.round_eq h1m hle]
        refine ⟨trivial, ?_⟩
        cases s
        · simp [Fp.val]
        · have : (1 : ℝ) / (Fp.fin true m hm).val = -(1 / m) := by simp [Fp.val]
          rw [this, rnd_neg]; simp [Fp.val]
      · rw [if_neg hle, Fp.round_inf (not_le.1 hle)]

private theorem recip_fin (h0 : 0 < F.emax) {x y : Fp F} (hx : x.Finite) (hz : x.val ≠ 0) (hle : |1 / x.val| ≤ F.maxFinite) (h : Spec.IsRecip x y) : y.Finite ∧ y.val = F.rnd (1 / x.val) := by
  obtain ⟨s, m, hm, rfl⟩ := Fp.finite_cases hx
  have hm0 : m ≠ 0 := fun hc => hz (by simp [hc])
  have hpos : 0 < m := lt_of_le_of_ne hm.1 (Ne.symm hm0)
  have e : |1 / (Fp.fin s m hm).val| = 1 / m := by cases s <;> simp [Fp.val, abs_of_pos hpos]
  rw [e] at hle
  unfold Spec.IsRecip at h
  simp only at h
  rw [if_neg hm0, if_pos (rnd_le_rep (rep_max h0) hle)] at h
  exact h

/-- C139. `reciprocal()` replaces every component by its correctly rounded reciprocal. -/
theorem C139_reciprocal (h0 : 0 < F.emax) (v : Vec M (Fp F)) : ∃ r, v.reciprocal = .ok r ∧ ∀ i : Fin M, Spec.IsRecip v[i] r[i] := by
  refine ⟨Vector.ofFn fun i => 1 / v[i], ?_, fun i => ?_⟩
  · unfold Vec.reciprocal; apply loop_set; intro i hi u hu; simp [hi, hu i hi]
  · have := recip h0 v[i]
    simpa using this

/-- C139. Twice: components between `2 ^ ( emin + 1 )` and `2 ^ ( emax - 1 )` come back with a relative error of at most `3 u`. -/
theorem C139_reciprocal_twice (h1 : 1 ≤ F.p) (h0 : 2 < F.emax) (v : Vec M (Fp F))
    (hv : ∀ i : Fin M, (v[i]).Finite ∧ (2 : ℝ) ^ (F.emin + 1) ≤ |(v[i]).val| ∧ |(v[i]).val| ≤ (2 : ℝ) ^ ((F.emax : Int) - 1)) :
    ∃ r r', v.reciprocal = .ok r ∧ r.reciprocal = .ok r' ∧ ∀ i : Fin M, (r'[i]).Finite ∧ |(r'[i]).val - (v[i]).val| ≤ 3 * F.u * |(v[i]).val| := by
  obtain ⟨r, e, hr⟩ := C139_reciprocal (by omega) v
  obtain ⟨r', e', hr'⟩ := C139_reciprocal (by omega) r
  refine ⟨r, r', e, e', fun i => ?_⟩
  have k1 := hr i
  have k2 := hr' i
  obtain ⟨a1, a2, a3⟩ := hv i
  obtain ⟨x, hx⟩ : ∃ x, x = v[i] := ⟨_, rfl⟩
  obtain ⟨y, hy⟩ : ∃ y, y = r[i] := ⟨_, rfl⟩
  obtain ⟨z, hz⟩ : ∃ z, z = r'[i] := ⟨_, rfl⟩
  rw [← hx, ← hy] at k1
  rw [← hy, ← hz] at k2
  rw [← hx] at a1 a2 a3 ⊢
  rw [← hz]
  clear hx hy hz
  have hX : 0 < |x.val| := lt_of_lt_of_le (by positivity) a2
  have hx0 : x.val ≠ 0 := abs_pos.1 hX
  have hu0 := u_pos (F := F)
  have hu : F.u ≤ 1 / 4 := by
    unfold u
    calc (2 : ℝ)⁻¹ ^ (F.p + 1) ≤ (2 : ℝ)⁻¹ ^ 2 := pow_le_pow_of_le_one (by norm_num) (by norm_num) (by omega)
      _ = _ := by norm_num
  obtain ⟨X, hXe⟩ : ∃ X, X = x.val := ⟨_, rfl⟩
  rw [← hXe] at hX hx0 a2 a3 ⊢
  have hXY : |1 / X| = 1 / |X| := by rw [abs_div, abs_one]
  have hinv1 : |1 / X| ≤ (2 : ℝ) ^ ((F.emax : Int) - 2) := by
    rw [hXY, div_le_iff₀ hX]
    calc (1 : ℝ) = (2 : ℝ) ^ ((F.emax : Int) - 2) * (2 : ℝ) ^ (F.emin + 1) := by rw [← zpow_add₀ (by norm_num), show (F.emax : Int) - 2 + (F.emin + 1) = 0 by unfold emin; ring, zpow_zero]
      _ ≤ _ := mul_le_mul_of_nonneg_left a2 (by positivity)
  have hinv0 : (2 : ℝ) ^ F.emin ≤ |1 / X| := by
    rw [hXY, le_div_iff₀ hX]
    calc (2 : ℝ) ^ F.emin * |X| ≤ (2 : ℝ) ^ F.emin * (2 : ℝ) ^ ((F.emax : Int) - 1) := mul_le_mul_of_nonneg_left a3 (by positivity)
      _ = 1 := by rw [← zpow_add₀ (by norm_num)]; unfold emin; norm_num
  have hpm := pow_emax_le (F := F)
  obtain ⟨f1, f2⟩ := recip_fin (by omega) a1 (by rw [← hXe]; exact hx0) (by rw [← hXe]; exact hinv1.trans ((zpow_le_zpow_right₀ (by norm_num) (by omega)).trans hpm)) k1
  rw [← hXe] at f2
  have d1 := rnd_err_normal (F := F) hinv0
  rw [← f2] at d1
  obtain ⟨Y, hYe⟩ : ∃ Y, Y = y.val := ⟨_, rfl⟩
  rw [← hYe] at d1
  -- Y X = 1 + δ
  have hYX : |Y * X - 1| ≤ F.u := by
    have : Y * X - 1 = (Y - 1 / X) * X := by field_simp
    rw [this, abs_mul]
    calc |Y - 1 / X| * |X| ≤ F.u * |1 / X| * |X| := mul_le_mul_of_nonneg_right d1 hX.le
      _ = F.u := by rw [hXY]; field_simp
  obtain ⟨c1, c2⟩ := abs_le.1 hYX
  have hY0 : Y ≠ 0 := fun hc => by rw [hc, zero_mul] at c1; linarith
  have hpYX : 0 < Y * X := by linarith
  have hinv : |1 / Y| = |X| / (Y * X) := by
    rw [show 1 / Y = X / (Y * X) by field_simp, abs_div, abs_of_pos hpYX]
  have hY1 : |1 / Y| ≤ 4 / 3 * |X| := by
    rw [hinv, div_le_iff₀ hpYX]
    nlinarith
  have hY2 : 4 / 5 * |X| ≤ |1 / Y| := by
    rw [hinv, le_div_iff₀ hpYX]
    nlinarith
  have hemin : (2 : ℝ) ^ F.emin ≤ |1 / Y| := by
    refine le_trans ?_ hY2
    have : (2 : ℝ) ^ (F.emin + 1) = 2 * (2 : ℝ) ^ F.emin := by rw [zpow_add₀ (by norm_num), zpow_one]; ring
    rw [this] at a2
    linarith
  have hmx : |1 / Y| ≤ F.maxFinite := by
    refine hY1.trans (le_trans ?_ hpm)
    have : (2 : ℝ) ^ (F.emax : Int) = 2 * (2 : ℝ) ^ ((F.emax : Int) - 1) := by
      rw [show (F.emax : Int) = 1 + ((F.emax : Int) - 1) by ring, zpow_add₀ (by norm_num), zpow_one]
      norm_num
    rw [this]
    linarith
  obtain ⟨g1, g2⟩ := recip_fin (by omega) f1 (by rw [← hYe]; exact hY0) (by rw [← hYe]; exact hmx) k2
  rw [← hYe] at g2
  have d2 := rnd_err_normal (F := F) hemin
  refine ⟨g1, ?_⟩
  rw [g2]
  have hd3 : |1 / Y - X| ≤ 4 / 3 * (F.u * |X|) := by
    have : 1 / Y - X = -((Y * X - 1) * (1 / Y)) := by field_simp; ring
    rw [this, abs_neg, abs_mul]
    calc |Y * X - 1| * |1 / Y| ≤ F.u * (4 / 3 * |X|) := mul_le_mul hYX hY1 (abs_nonneg _) hu0.le
      _ = _ := by ring
  have hd4 : F.u * |1 / Y| ≤ F.u * (4 / 3 * |X|) := mul_le_mul_of_nonneg_left hY1 hu0.le
  calc |F.rnd (1 / Y) - X| = |(F.rnd (1 / Y) - 1 / Y) + (1 / Y - X)| := by congr 1; ring
    _ ≤ |F.rnd (1 / Y) - 1 / Y| + |1 / Y - X| := abs_add_le _ _
    _ ≤ _ := by nlinarith [mul_nonneg hu0.le hX.le]

/-- C139. `reciprocal_safe()`: zeros of both signs become `numeric_limits< T >::max()`, the others the correctly rounded reciprocal; zeros and numbers not below the smallest normal number give finite results. -/
theorem C139_reciprocal_safe (h0 : 1 < F.emax) {maxT : Fp F} (hT : maxT.Finite) (v : Vec M (Fp F)) :
    ∃ r, v.reciprocalSafe maxT = .ok r ∧ ∀ i : Fin M, (Spec.IsZero v[i] → r[i] = maxT) ∧ (¬ Spec.IsZero v[i] → Spec.IsRecip v[i] r[i]) ∧
      ((v[i]).Finite → ((v[i]).val = 0 ∨ (2 : ℝ) ^ F.emin ≤ |(v[i]).val|) → (r[i]).Finite) := by
  have hz : ∀ x : Fp F, (x == 0) = true ↔ Spec.IsZero x := by
    intro x
    rw [Fp.beq_same]
    have e0 : Spec.ereal (0 : Fp F) = ((0 : ℝ) : EReal) := by rw [Fp.ereal_val Fp.finite_zero, Fp.val_zero]
    constructor
    · rintro ⟨hn, -, he⟩
      rw [e0] at he
      cases x with
      | nan => exact absurd rfl hn
      | inf s => cases s <;> simp [Spec.ereal, Fp.ext] at he
      | fin s m hm =>
        rw [Fp.ereal_val (by trivial)] at he
        exact ⟨trivial, by exact_mod_cast he⟩
    · rintro ⟨h1, h2⟩
      exact ⟨h1.ne_nan, Fp.finite_zero.ne_nan, by rw [e0, Fp.ereal_val h1, h2]⟩
  refine ⟨Vector.ofFn fun i => if v[i] == 0 then maxT else 1 / v[i], ?_, fun i => ?_⟩
  · unfold Vec.reciprocalSafe; apply loop_set; intro i hi u hu
    simp only [Vec.rawGet_lt u hi, Vmml.bind_ok, hu i hi le_rfl, Vec.rawSet_lt u _ hi, Fin.getElem_fin]
    split_ifs <;> rfl
  · obtain ⟨x, hx⟩ : ∃ x, x = v[i] := ⟨_, rfl⟩
    have e : (Vector.ofFn fun i : Fin M => if v[i] == 0 then maxT else 1 / v[i])[i] = if x == 0 then maxT else 1 / x := by rw [hx]; simp
    rw [e, ← hx]
    refine ⟨fun h => if_pos ((hz x).2 h), fun h => ?_, fun hf h => ?_⟩
    · rw [if_neg fun hc => h ((hz x).1 hc)]; exact recip (by omega) x
    · by_cases hx0 : x.val = 0
      · rw [if_pos ((hz x).2 ⟨hf, hx0⟩)]; exact hT
      · rw [if_neg fun hc => hx0 ((hz x).1 hc).2]
        have hn := h.resolve_left hx0
        refine (recip_fin (by omega) hf hx0 ?_ (recip (by omega) x)).1
        have hX : 0 < |x.val| := abs_pos.2 hx0
        rw [abs_div, abs_one]
        refine le_trans ?_ (pow_emax_le (F := F))
        rw [div_le_iff₀ hX]
        calc (1 : ℝ) ≤ (2 : ℝ) ^ (1 : Int) := by norm_num
          _ = (2 : ℝ) ^ (F.emax : Int) * (2 : ℝ) ^ F.emin := by rw [← zpow_add₀ (by norm_num)]; congr 1; unfold emin; ring
          _ ≤ _ := mul_le_mul_of_nonneg_left hn (by positivity)

/-- C139, violated: `reciprocal_safe()` is meant to avoid infinities, but the reciprocal of the smallest positive number overflows. -/
theorem C139_reciprocal_safe_violated (hp : 2 ≤ F.p) (h0 : 1 < F.emax) {maxT : Fp F} (hT : maxT.Finite) : ∃ x : Fp F, x.Finite ∧ 0 < x.val ∧ Vec.reciprocalSafe maxT (#v[x] : Vec 1 (Fp F)) = .ok #v[.inf false] := by
  have hsmall : (2 : ℝ) ^ (F.emin - F.p) ≤ F.maxFinite := by
    refine le_trans ?_ (one_le_max (F := F) (by omega))
    exact zpow_le_one_of_nonpos₀ (by norm_num) (by unfold emin; omega)
  have hm : F.Mag ((2 : ℝ) ^ (F.emin - F.p)) := ⟨by positivity, rep_pow le_rfl, hsmall⟩
  have hpos : (0 : ℝ) < (2 : ℝ) ^ (F.emin - F.p) := by positivity
  refine ⟨.fin false _ hm, trivial, hpos, ?_⟩
  obtain ⟨r, e, k⟩ := C139_reciprocal_safe h0 hT (#v[.fin false _ hm] : Vec 1 (Fp F))
  obtain ⟨-, k2, -⟩ := k 0
  have e0 : (#v[(.fin false _ hm : Fp F)] : Vec 1 (Fp F))[(0 : Fin 1)] = .fin false _ hm := rfl
  rw [e0] at k2
  have k3 := k2 (fun h => hpos.ne' h.2)
  unfold Spec.IsRecip at k3
  simp only at k3
  rw [if_neg hpos.ne', if_neg] at k3
  · rw [e]
    congr 1
    ext i hi
    have hi0 : i = 0 := by omega
    subst hi0
    exact k3
  · rw [not_le]
    have : (1 : ℝ) / (2 : ℝ) ^ (F.emin - F.p) = (2 : ℝ) ^ (F.p - F.emin) := by rw [one_div, ← zpow_neg]; congr 1; ring
    rw [this, (rep_pow (F := F) (e := F.p - F.emin) (by unfold emin; omega)).rnd_eq]
    refine maxFinite_lt.trans_le (zpow_le_zpow_right₀ (by norm_num) ?_)
    unfold emin; omega

/-! ## Square roots -/

/-- C139. `sqrt_elementwise()`: non-negative components are replaced by the correctly rounded square root, which is finite and has a relative error of at most `u` even for subnormal numbers, negative ones (not `-0`) by NaN; the order of
non-negative components is kept. -/
theorem C139_sqrt (hp : F.p < F.emax) (v : Vec M (Fp F)) :
    ∃ r, v.sqrtElementwise = .ok r ∧
      (∀ i : Fin M, ((v[i]).Finite → 0 ≤ (v[i]).val → (r[i]).Finite ∧ (r[i]).val = F.rnd (Real.sqrt (v[i]).val) ∧ |(r[i]).val - Real.sqrt (v[i]).val| ≤ F.u * Real.sqrt (v[i]).val) ∧
        ((v[i]).Finite → (v[i]).val < 0 → r[i] = .nan)) ∧
      ∀ i j : Fin M, (v[i]).Finite → (v[j]).Finite → 0 ≤ (v[i]).val → (v[i]).val ≤ (v[j]).val → (r[i]).val ≤ (r[j]).val := by
  have e : v.sqrtElementwise = .ok (Vector.ofFn fun i => CMath.sqrt v[i]) := by
    unfold Vec.sqrtElementwise; apply loop_set; intro i hi u hu; simp [hi, hu i hi]
  have eg : ∀ i : Fin M, (Vector.ofFn fun i : Fin M => CMath.sqrt v[i])[i] = CMath.sqrt v[i] := fun i => by simp
  refine ⟨_, e, fun i => ?_, fun i j hi hj h0 hle => ?_⟩
  · rw [eg]
    constructor
    · intro hf h0
      obtain ⟨a, b⟩ := Fp.sqrt_fin (F := F) (by omega) hf h0
      exact ⟨a, b, by rw [b]; exact sqrt_rel hp (Fp.rep_val hf) h0⟩
    · intro hf hlt
      obtain ⟨x, hx⟩ : ∃ x, x = v[i] := ⟨_, rfl⟩
      rw [← hx] at hf hlt ⊢
      obtain ⟨s, m, hm, rfl⟩ := Fp.finite_cases hf
      cases s with
      | false => exact absurd hm.1 (not_le.2 hlt)
      | true =>
        have hm0 : m ≠ 0 := fun hc => by simp [hc] at hlt
        show (if m = 0 then _ else if true = true then Fp.nan else _) = _
        rw [if_neg hm0, if_pos rfl]
  · rw [eg, eg, (Fp.sqrt_fin (F := F) (by omega) hi h0).2, (Fp.sqrt_fin (F := F) (by omega) hj (h0.trans hle)).2]
    exact rnd_mono (Real.sqrt_le_sqrt hle)

/-! ## Random vectors -/

/-- C139. `set_random()`: every component is finite and between -1 and 1; a larger random number never gives a smaller component; 0 gives -1 and `RAND_MAX` gives 1. -/
theorem C139_set_random (hD : Spec.Wider F D) (hF : F.p < F.emax) (h2 : 2 ≤ F.emax) (cfg : Cfg) (randMax : ℕ) (hpos : 0 < randMax) (hmax : randMax ≤ 2 ^ (D.p + 1)) (hDp : D.p < D.emax) (rnd : ℕ → ℕ) (hr : ∀ k, rnd k ≤ randMax) (v : Vec M (Fp F)) :
    ∃ r, v.setRandomFp D cfg randMax rnd = .ok r ∧
      (∀ i : Fin M, (r[i]).Finite ∧ -1 ≤ (r[i]).val ∧ (r[i]).val ≤ 1 ∧ (rnd i = 0 → (r[i]).val = -1) ∧ (rnd i = randMax → (r[i]).val = 1)) ∧
      ∀ i j : Fin M, rnd i ≤ rnd j → (r[i]).val ≤ (r[j]).val := by
  obtain ⟨hp, he⟩ : F.p ≤ D.p ∧ F.emax ≤ D.emax := by
    rcases hD with rfl | ⟨h1, h2⟩
    · exact ⟨le_rfl, le_rfl⟩
    · exact ⟨h1, h2.le⟩
  have hone : ∀ G : Format, 0 < G.emax → G.Rep (1 : ℝ) := fun G hG => by have := rep_pow (F := G) (e := 0) (by unfold emin; omega); simpa using this
  have htwo : D.Rep (2 : ℝ) := by have := rep_pow (F := D) (e := 1) (by unfold emin; omega); simpa using this
  have hint : ∀ k : ℕ, k ≤ randMax → (Fp.ofReal (k : ℝ) : Fp D).Finite ∧ (Fp.ofReal (k : ℝ) : Fp D).val = k := by
    intro k hk
    have hk' : (k : Int) ≤ 2 ^ (D.p + 1) := by exact_mod_cast hk.trans hmax
    have hrep : D.Rep (k : ℝ) := ⟨k, 0, by unfold emin; omega, by rw [abs_of_nonneg (by omega)]; exact hk', by simp⟩
    have hle : |(k : ℝ)| ≤ D.maxFinite := by
      rw [abs_of_nonneg (by positivity)]
      have h1 : (k : ℝ) ≤ (2 : ℝ) ^ ((D.p : Int) + 1) := by exact_mod_cast hk'
      refine h1.trans (le_trans ?_ pow_emax_le)
      exact zpow_le_zpow_right₀ (by norm_num) (by omega)
    have := Fp.ofReal_fin (F := D) (by omega) hle
    rwa [hrep.rnd_eq] at this
  have h1D := one_le_max (F := D) (by omega)
  have h1F := one_le_max (F := F) (by omega)
  have h2D : (2 : ℝ) ≤ D.maxFinite := by
    refine le_trans ?_ (pow_emax_le (F := D))
    calc (2 : ℝ) = (2 : ℝ) ^ (1 : Int) := by norm_num
      _ ≤ _ := zpow_le_zpow_right₀ (by norm_num) (by omega)
  have hR : (0 : ℝ) < randMax := by exact_mod_cast hpos
  -- one component
  have key : ∀ k : ℕ, k ≤ randMax → ∃ y : ℝ, y = F.rnd (D.rnd (-1 + D.rnd (2 * D.rnd ((k : ℝ) / randMax)))) ∧ -1 ≤ y ∧ y ≤ 1 ∧
      (Fp.convert F (-(1 : Fp D) + Fp.ofReal 2 * ((Fp.ofReal (k : ℝ) : Fp D) / Fp.ofReal (randMax : ℝ)))).Finite ∧
      (Fp.convert F (-(1 : Fp D) + Fp.ofReal 2 * ((Fp.ofReal (k : ℝ) : Fp D) / Fp.ofReal (randMax : ℝ)))).val = y := by
    intro k hk
    obtain ⟨a1, a2⟩ := hint k hk
    obtain ⟨b1, b2⟩ := hint randMax le_rfl
    have hq0 : (0 : ℝ) ≤ (k : ℝ) / randMax := by positivity
    have hq1 : (k : ℝ) / randMax ≤ 1 := by rw [div_le_one hR]; exact_mod_cast hk
    obtain ⟨q1, q2⟩ := Fp.div_fin (F := D) (by omega) a1 b1 (by rw [b2]; exact hR.ne') (by rw [a2, b2, abs_of_nonneg hq0]; linarith)
    rw [a2, b2] at q2
    have hf0 := rnd_nonneg (F := D) hq0
    have hf1 := rnd_le_rep (hone D (by omega)) hq1
    obtain ⟨t1, t2⟩ := Fp.ofReal_fin (F := D) (x := 2) (by omega) (by rw [abs_of_pos (by norm_num)]; exact h2D)
    rw [htwo.rnd_eq] at t2
    obtain ⟨m1, m2⟩ := Fp.mul_fin (F := D) (by omega) t1 q1 (by rw [t2, q2, abs_of_nonneg (by positivity)]; linarith)
    rw [t2, q2] at m2
    have hg0 := rnd_nonneg (F := D) (x := 2 * D.rnd ((k : ℝ) / randMax)) (by positivity)
    have hg1 := rnd_le_rep (F := D) (x := 2 * D.rnd ((k : ℝ) / randMax)) htwo (by linarith)
    obtain ⟨o1, o2⟩ := Fp.one_fin (F := D) (by omega)
    have n1 : (-(1 : Fp D)).Finite := Fp.finite_neg o1
    have n2 : (-(1 : Fp D)).val = -1 := by rw [Fp.val_neg, o2]
    have habs : |-1 + D.rnd (2 * D.rnd ((k : ℝ) / randMax))| ≤ 1 := by rw [abs_le]; constructor <;> linarith
    obtain ⟨s1, s2⟩ := Fp.add_fin (F := D) (by omega) n1 m1 (by rw [n2, m2]; linarith)
    rw [n2, m2] at s2
    have nD : D.Rep (-1 : ℝ) := by have := (hone D (by omega)); obtain ⟨k, e, h1, h2, h3⟩ := this; exact ⟨-k, e, h1, by rwa [abs_neg], by rw [h3]; push_cast; ring⟩
    have nF : F.Rep (-1 : ℝ) := by have := (hone F (by omega)); obtain ⟨k, e, h1, h2, h3⟩ := this; exact ⟨-k, e, h1, by rwa [abs_neg], by rw [h3]; push_cast; ring⟩
    have s3 := rep_le_rnd nD (abs_le.1 habs).1
    have s4 := rnd_le_rep (hone D (by omega)) (abs_le.1 habs).2
    obtain ⟨c1, c2⟩ := Fp.convert_fin (G := F) (by omega) s1 (by rw [s2, abs_le]; constructor <;> linarith)
    rw [s2] at c2
    exact ⟨_, rfl, rep_le_rnd nF s3, rnd_le_rep (hone F (by omega)) s4, c1, c2⟩
  refine ⟨Vector.ofFn fun i : Fin M => Fp.convert F (-(1 : Fp D) + Fp.ofReal 2 * ((Fp.ofReal (rnd i : ℝ) : Fp D) / Fp.ofReal (randMax : ℝ))), ?_, fun i => ?_, fun i j hij => ?_⟩
  · unfold Vec.setRandomFp
    apply loop_set
    intro i hi u hu
    rw [Vec.atSet_lt cfg u _ hi]
  · obtain ⟨y, hy, y0, y1, y2, y3⟩ := key (rnd i) (hr i)
    have e : (Vector.ofFn fun i : Fin M => Fp.convert F (-(1 : Fp D) + Fp.ofReal 2 * ((Fp.ofReal (rnd i : ℝ) : Fp D) / Fp.ofReal (randMax : ℝ))))[i] =
      Fp.convert F (-(1 : Fp D) + Fp.ofReal 2 * ((Fp.ofReal (rnd i : ℝ) : Fp D) / Fp.ofReal (randMax : ℝ))) := by simp
    rw [e, y3]
    refine ⟨y2, y0, y1, fun h => ?_, fun h => ?_⟩
    · rw [hy, h]
      have nD : D.rnd (-1 : ℝ) = -1 := by rw [rnd_neg, (hone D (by omega)).rnd_eq]
      have nF : F.rnd (-1 : ℝ) = -1 := by rw [rnd_neg, (hone F (by omega)).rnd_eq]
      simp [rnd_zero, nD, nF]
    · rw [hy, h, div_self hR.ne', (hone D (by omega)).rnd_eq, mul_one, htwo.rnd_eq, show (-1 : ℝ) + 2 = 1 by norm_num, (hone D (by omega)).rnd_eq, (hone F (by omega)).rnd_eq]
  · obtain ⟨y, hy, -, -, -, y3⟩ := key (rnd i) (hr i)
    obtain ⟨z, hz, -, -, -, z3⟩ := key (rnd j) (hr j)
    have e : ∀ i : Fin M, (Vector.ofFn fun i : Fin M => Fp.convert F (-(1 : Fp D) + Fp.ofReal 2 * ((Fp.ofReal (rnd i : ℝ) : Fp D) / Fp.ofReal (randMax : ℝ))))[i] =
      Fp.convert F (-(1 : Fp D) + Fp.ofReal 2 * ((Fp.ofReal (rnd i : ℝ) : Fp D) / Fp.ofReal (randMax : ℝ))) := fun i => by simp
    rw [e, e, y3, z3, hy, hz]
    have hij' : (rnd i : ℝ) ≤ rnd j := by exact_mod_cast hij
    apply rnd_mono
    apply rnd_mono
    gcongr
    apply rnd_mono
    gcongr
    apply rnd_mono
    gcongr

/-- C139. `perturb()`: every component moves by plus or minus the perturbation, with one rounding. -/
theorem C139_perturb (h0 : 0 < F.emax) (rnd : ℕ → ℕ) (v : Vec M (Fp F)) (p : Fp F) (hp : p.Finite) (hv : ∀ i : Fin M, (v[i]).Finite ∧ |(v[i]).val| + |p.val| ≤ F.maxFinite) :
    ∃ r, v.perturb rnd p = .ok r ∧ ∀ i : Fin M, (r[i]).Finite ∧
      ∃ d, (d = p.val ∨ d = -p.val) ∧ (r[i]).val = F.rnd ((v[i]).val + d) ∧ |(r[i]).val - ((v[i]).val + d)| ≤ F.u * |(v[i]).val + d| := by
  obtain ⟨r, e, k⟩ := C84_perturb rnd v p
  refine ⟨r, e, fun i => ?_⟩
  have hk := k i i.2
  obtain ⟨a1, a2⟩ := hv i
  have key : ∀ x q : Fp F, x.Finite → q.Finite → |x.val| + |q.val| ≤ F.maxFinite → (x + q).Finite ∧ (x + q).val = F.rnd (x.val + q.val) ∧ |(x + q).val - (x.val + q.val)| ≤ F.u * |x.val + q.val| := by
    intro x q hx hq hle
    obtain ⟨s1, s2⟩ := Fp.add_fin h0 hx hq ((abs_add_le _ _).trans hle)
    exact ⟨s1, s2, by rw [s2]; exact ((Fp.rep_val hx).grid.add (Fp.rep_val hq).grid).rnd_err⟩
  rcases hk with hk | hk
  · have := key v[i] p a1 hp a2
    have e : r[i] = v[i] + p := hk
    rw [e]
    exact ⟨this.1, _, Or.inl rfl, this.2⟩
  · have := key v[i] (-p) a1 (Fp.finite_neg hp) (by rw [Fp.val_neg, abs_neg]; exact a2)
    have e : r[i] = v[i] + -p := hk
    rw [e]
    rw [Fp.val_neg] at this
    exact ⟨this.1, _, Or.inr rfl, this.2⟩

/-- The hypotheses can be met: `reciprocal` twice on the `float` vector `( 1, -1 )`; `set_random` with `RAND_MAX = 2147483647`. -/
example : ∃ r r', Vec.reciprocal (#v[1, -1] : Vec 2 (Fp single)) = .ok r ∧ r.reciprocal = .ok r' ∧ |(r'[1]).val - (-1)| ≤ 3 * single.u := by
  have h1 := Fp.one_fin (F := single) (by norm_num)
  obtain ⟨r, r', e, e', k⟩ := C139_reciprocal_twice (F := single) (by norm_num) (by norm_num) (#v[1, -1] : Vec 2 (Fp single)) (by
    have a : (2 : ℝ) ^ (single.emin + 1) ≤ 1 := zpow_le_one_of_nonpos₀ (by norm_num) (by unfold emin; norm_num)
    have b : (1 : ℝ) ≤ (2 : ℝ) ^ ((single.emax : Int) - 1) := one_le_zpow₀ (by norm_num) (by norm_num)
    intro i
    match i with
    | 0 =>
      show (1 : Fp single).Finite ∧ _ ≤ |(1 : Fp single).val| ∧ |(1 : Fp single).val| ≤ _
      rw [h1.2, abs_one]; exact ⟨h1.1, a, b⟩
    | 1 =>
      show (-1 : Fp single).Finite ∧ _ ≤ |(-1 : Fp single).val| ∧ |(-1 : Fp single).val| ≤ _
      rw [Fp.val_neg, h1.2, abs_neg, abs_one]; exact ⟨Fp.finite_neg h1.1, a, b⟩)
  refine ⟨r, r', e, e', ?_⟩
  have := (k 1).2
  have e1 : (#v[1, -1] : Vec 2 (Fp single))[(1 : Fin 2)] = (-1 : Fp single) := rfl
  rw [e1, Fp.val_neg, h1.2, abs_neg, abs_one, mul_one] at this
  exact this

example (cfg : Cfg) : ∃ r : Vec 3 (Fp single), Vec.setRandomFp double cfg 2147483647 (fun k => k) (#v[0, 0, 0] : Vec 3 (Fp single)) = .ok r ∧ (r[0]).val = -1 := by
  obtain ⟨r, e, k, -⟩ := C139_set_random (F := single) (D := double) wider_single (by norm_num) (by norm_num) cfg 2147483647 (by norm_num) (by norm_num) (by norm_num) (fun k => min k 2147483647) (fun k => min_le_right _ _) #v[0, 0, 0]
  refine ⟨r, ?_, (k 0).2.2.2.1 (by simp)⟩
  rw [← e]
  unfold Vec.setRandomFp
  apply loop_congr
  intro i hi s
  have : min i 2147483647 = i := by omega
  simp only [this]

end Vmml
