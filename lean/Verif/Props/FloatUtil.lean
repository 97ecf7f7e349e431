import Verif.Props.FloatOrder
import Verif.Model.Util
import Verif.Props.FloatQuantize

/-!
# C164: the free functions `equals`, `min` and `max` in IEEE arithmetic
-/

namespace Vmml
open Format
variable {F : Format} {M : Nat}

private theorem loop_min (a b : Vec M (Fp F)) : Util.min a b = .ok (Vector.ofFn fun i : Fin M => if b[i] < a[i] then b[i] else a[i]) := by
  unfold Util.min
  obtain ⟨r, h1, h2⟩ := loop_ok (n := M) (body := fun i ret => do
    let x ← a.rawGet i
    let y ← b.rawGet i
    Vec.rawSet ret i (if y < x then y else x)) (s := (Vec.zeroCtor : Vec M (Fp F))) (fun k r => ∀ i (h : i < M), i < k → r[i] = if b[i] < a[i] then b[i] else a[i])
    (fun i h hk => absurd hk (by omega)) (by
      intro k hk r hr
      refine ⟨r.set k (if b[k] < a[k] then b[k] else a[k]), by simp [hk], fun i hi hik => ?_⟩
      rw [Vector.getElem_set]
      by_cases e : k = i
      · subst e; rw [if_pos rfl]
      · rw [if_neg e, hr i hi (by omega)])
  rw [h1]
  congr 1
  ext i hi
  rw [h2 i hi hi, Vector.getElem_ofFn]
  rfl

private theorem loop_max (a b : Vec M (Fp F)) : Util.max a b = .ok (Vector.ofFn fun i : Fin M => if a[i] < b[i] then b[i] else a[i]) := by
  unfold Util.max
  obtain ⟨r, h1, h2⟩ := loop_ok (n := M) (body := fun i ret => do
    let x ← a.rawGet i
    let y ← b.rawGet i
    Vec.rawSet ret i (if x < y then y else x)) (s := (Vec.zeroCtor : Vec M (Fp F))) (fun k r => ∀ i (h : i < M), i < k → r[i] = if a[i] < b[i] then b[i] else a[i])
    (fun i h hk => absurd hk (by omega)) (by
      intro k hk r hr
      refine ⟨r.set k (if a[k] < b[k] then b[k] else a[k]), by simp [hk], fun i hi hik => ?_⟩
      rw [Vector.getElem_set]
      by_cases e : k = i
      · subst e; rw [if_pos rfl]
      · rw [if_neg e, hr i hi (by omega)])
  rw [h1]
  congr 1
  ext i hi
  rw [h2 i hi hi, Vector.getElem_ofFn]
  rfl

/-- **C164** `min( a, b )` and `max( a, b )`, component by component and for all numbers: of two numbers one is returned, the smaller (larger) on the extended line; with a NaN on either side
the component of the first vector is returned, so that a NaN in the first vector stays and one in the second is ignored. -/
theorem C164_min_max (a b : Vec M (Fp F)) : ∃ lo hi, Util.min a b = .ok lo ∧ Util.max a b = .ok hi ∧ ∀ i : Fin M,
    (lo[i] = a[i] ∨ lo[i] = b[i]) ∧ (hi[i] = a[i] ∨ hi[i] = b[i]) ∧
    (a[i] ≠ .nan → b[i] ≠ .nan → Spec.ereal lo[i] = min (Spec.ereal a[i]) (Spec.ereal b[i]) ∧ Spec.ereal hi[i] = max (Spec.ereal a[i]) (Spec.ereal b[i])) ∧
    (a[i] = .nan ∨ b[i] = .nan → lo[i] = a[i] ∧ hi[i] = a[i]) := by
  refine ⟨_, _, loop_min a b, loop_max a b, fun i => ?_⟩
  simp only [Fin.getElem_fin, Vector.getElem_ofFn]
  generalize a[i.1] = x
  generalize b[i.1] = y
  refine ⟨by split_ifs; exacts [.inr rfl, .inl rfl], by split_ifs; exacts [.inr rfl, .inl rfl], fun hx hy => ⟨?_, ?_⟩, fun h => ?_⟩
  · split_ifs with c
    · exact (min_eq_right ((Fp.lt_iff hy hx).1 c).le).symm
    · exact (min_eq_left (not_lt.1 fun k => c ((Fp.lt_iff hy hx).2 k))).symm
  · split_ifs with c
    · exact (max_eq_right ((Fp.lt_iff hx hy).1 c).le).symm
    · exact (max_eq_left (not_lt.1 fun k => c ((Fp.lt_iff hx hy).2 k))).symm
  · rcases h with rfl | rfl
    · rw [if_neg (Fp.not_lt_nan_right _), if_neg (Fp.not_lt_nan_left _)]; exact ⟨rfl, rfl⟩
    · rw [if_neg (Fp.not_lt_nan_left _), if_neg (Fp.not_lt_nan_right _)]; exact ⟨rfl, rfl⟩

/-- **C164** `equals( a, b )` for all numbers: true exactly if both are finite and their rounded difference is below the tolerance. -/
theorem C164_equals (eps a b : Fp F) (he : eps.Finite) : Util.equals eps a b = true ↔ Spec.Near eps.val a b := by
  obtain ⟨r, h1, h2⟩ := C123_matrix_equals ⟨false, false, false⟩ (Mat.ofFn fun _ _ => a : Mat 1 1 (Fp F)) (Mat.ofFn fun _ _ => b) eps he
  simp only [Mat.get_ofFn] at h2
  have e : (Mat.ofFn fun _ _ => a : Mat 1 1 (Fp F)).equals ⟨false, false, false⟩ (Mat.ofFn fun _ _ => b) eps = .ok (Util.equals eps a b) := by
    simp [Mat.equals, loop_succ, Util.equals]
  rw [e] at h1
  injection h1 with h1
  rw [h1, h2]
  exact ⟨fun h => h 0 0, fun h _ _ => h⟩

private theorem multiple {a : Fp F} (ha : a.Finite) (h : 1 ≤ |a.val|) : ∃ k : Int, a.val = k * (2 * F.u) := by
  obtain ⟨k, e, -, hk, ev⟩ := Fp.rep_val ha
  have hu : 2 * F.u = (2 : ℝ) ^ (-(F.p : Int)) := by
    unfold Format.u
    rw [pow_succ, zpow_neg, zpow_natCast, inv_pow]
    ring
  rw [hu]
  by_cases he : -(F.p : Int) ≤ e
  · refine ⟨k * 2 ^ (e + F.p).toNat, ?_⟩
    have : (2 : ℝ) ^ e = (2 : ℝ) ^ (e + F.p).toNat * (2 : ℝ) ^ (-(F.p : Int)) := by
      rw [← zpow_natCast, ← zpow_add₀ (by norm_num : (2 : ℝ) ≠ 0), Int.toNat_of_nonneg (by omega)]
      congr 1
      omega
    rw [ev, this]
    push_cast
    ring
  · have h1 : |a.val| ≤ 1 := by
      rw [ev, abs_mul, abs_of_pos (by positivity : (0 : ℝ) < (2 : ℝ) ^ e)]
      have hk' : |(k : ℝ)| ≤ (2 : ℝ) ^ ((F.p : Int) + 1) := by exact_mod_cast hk
      have : (2 : ℝ) ^ ((F.p : Int) + 1) * (2 : ℝ) ^ e ≤ 1 := by
        rw [← zpow_add₀ (by norm_num : (2 : ℝ) ≠ 0)]
        exact zpow_le_one_of_nonpos₀ (by norm_num) (by omega)
      exact (mul_le_mul_of_nonneg_right hk' (by positivity)).trans this
    have h2 : |a.val| = 1 := le_antisymm h1 h
    have h3 : (2 : ℝ) ^ F.p * (2 : ℝ) ^ (-(F.p : Int)) = 1 := by
      rw [zpow_neg, zpow_natCast]
      exact mul_inv_cancel₀ (by positivity)
    rcases (abs_eq (by norm_num)).1 h2 with h4 | h4
    · exact ⟨2 ^ F.p, by rw [h4]; push_cast; exact h3.symm⟩
    · exact ⟨-2 ^ F.p, by rw [h4]; push_cast; linarith⟩

/-- **C164** The tolerance is absolute, `FLT_EPSILON` for `float`: for numbers of magnitude at least one it amounts to the comparison with `==`. -/
theorem C164_large (eps a b : Fp F) (he : eps.Finite) (hv : eps.val = 2 * F.u) (ha : a.Finite) (hb : b.Finite) (h1 : 1 ≤ |a.val|) (h2 : 1 ≤ |b.val|) :
    Util.equals eps a b = true ↔ a.val = b.val := by
  rw [C164_equals eps a b he]
  have hu := F.u_pos
  constructor
  · intro h
    have := (C123_tolerance a b eps he).1 h
    obtain ⟨k, hk⟩ := multiple ha h1
    obtain ⟨l, hl⟩ := multiple hb h2
    rw [hv, hk, hl, ← sub_mul, abs_mul, abs_of_pos (by linarith : (0 : ℝ) < 2 * F.u)] at this
    have h3 : |(k : ℝ) - l| < 1 := by
      by_contra hc
      nlinarith [not_lt.1 hc]
    have h4 : k - l = 0 := Int.abs_lt_one_iff.1 (by exact_mod_cast h3)
    have h5 : k = l := by omega
    rw [hk, hl, h5]
  · intro h
    exact ⟨ha, hb, by rw [h, sub_self, abs_zero, rnd_zero, hv]; linarith⟩

/-- **C164** And numbers closer than the tolerance by the relative margin `u` are equal, whatever their ratio or signs: so are all pairs of magnitude below a quarter of it. -/
theorem C164_small (eps a b : Fp F) (he : eps.Finite) (ha : a.Finite) (hb : b.Finite) (h1 : |a.val| < eps.val / 4) (h2 : |b.val| < eps.val / 4) : Util.equals eps a b = true := by
  rw [C164_equals eps a b he]
  refine (C123_tolerance a b eps he).2 ha hb ?_
  have hu : F.u ≤ 1 := u_le_one
  have hu0 := F.u_pos
  have h3 := abs_sub a.val b.val
  nlinarith [abs_nonneg (a.val - b.val), abs_nonneg a.val]

/-- The hypotheses are met by `FLT_EPSILON` and the numbers `2` and `3`, which differ. -/
example : ∃ eps a b : Fp single, eps.Finite ∧ eps.val = 2 * single.u ∧ a.val = 2 ∧ b.val = 3 ∧ Util.equals eps a b = false ∧ Util.equals eps a a = true := by
  have mk : ∀ k : Int, |k| ≤ 4 → ∃ x : Fp single, x.Finite ∧ x.val = k := by
    intro k hk
    obtain ⟨h1, h2⟩ := Quant.ofReal_int (F := single) (by decide) (k := k) (hk.trans (by decide))
    exact ⟨_, h1, h2⟩
  obtain ⟨x2, f2, v2⟩ := mk 2 (by decide)
  obtain ⟨x3, f3, v3⟩ := mk 3 (by decide)
  push_cast at v2 v3
  have hu : 2 * single.u = (2 : ℝ) ^ (-23 : Int) := by unfold Format.u Format.single; norm_num
  have hr : single.Rep ((2 : ℝ) ^ (-23 : Int)) := rep_pow (by decide)
  have hm : (2 : ℝ) ^ (-23 : Int) ≤ single.maxFinite := (zpow_le_one_of_nonpos₀ (by norm_num) (by norm_num)).trans (one_le_max (by decide))
  obtain ⟨ep, hf, he⟩ : ∃ ep : Fp single, ep.Finite ∧ ep.val = 2 * single.u := ⟨.fin false ((2 : ℝ) ^ (-23 : Int)) ⟨by positivity, hr, hm⟩, trivial, by rw [hu]; rfl⟩
  refine ⟨ep, x2, x3, hf, he, v2, v3, ?_, ?_⟩
  · rw [← Bool.not_eq_true, C164_large ep x2 x3 hf he f2 f3 (by rw [v2]; norm_num) (by rw [v3]; norm_num), v2, v3]
    norm_num
  · exact (C164_large ep x2 x2 hf he f2 f2 (by rw [v2]; norm_num) (by rw [v2]; norm_num)).2 rfl
end Vmml
