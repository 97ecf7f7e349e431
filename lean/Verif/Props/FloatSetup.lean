import Verif.Props.FloatCull

/-!
# C117 (continued): degenerate planes; C118: from the matrix to the verdict in IEEE 754 arithmetic
-/

namespace Vmml
open Format Culler
variable {F D : Format} {α : Type}

/-! ## The set-up, for any arithmetic -/

/-- Row 3 plus row `i`. -/
def rowSum [Add α] (m : Mat 4 4 α) (i : Fin 4) : Vec 4 α := Vector.ofFn fun j : Fin 4 => m.get 3 j + m.get i j
/-- Row 3 minus row `i`. -/
def rowDiff [Sub α] (m : Mat 4 4 α) (i : Fin 4) : Vec 4 α := Vector.ofFn fun j : Fin 4 => m.get 3 j - m.get i j

theorem normalizePlane_gen [Zero α] [One α] [Add α] [Mul α] [Div α] [CMath α] (cfg : Cfg) (p : Vec 4 α) :
    ∃ L, Vec.length (#v[p[0], p[1], p[2]] : Vec 3 α) = .ok L ∧ normalizePlane cfg p = .ok (Vector.ofFn fun i : Fin 4 => p[i] * (1 / L)) := by
  obtain ⟨L, hl⟩ : ∃ L, Vec.length (#v[p[0], p[1], p[2]] : Vec 3 α) = .ok L := by
    exact ⟨CMath.sqrt ((0 : α) + p[0] * p[0] + p[1] * p[1] + p[2] * p[2]), by simp [Vec.length, Vec.squaredLength, loop_succ]⟩
  refine ⟨L, hl, ?_⟩
  simp only [normalizePlane, getSub3_eq, hl, bind_ok, Vec.setX, Vec.setY, Vec.setZ, Vec.setW, Vec.getX, Vec.getY, Vec.getZ, Vec.getW,
    Vec.rawGet_lt, Vec.rawSet_lt, Nat.reduceLT, Nat.zero_lt_succ]
  congr 1
  ext i hi
  match i, hi with
  | 0, _ => simp
  | 1, _ => simp
  | 2, _ => simp
  | 3, _ => simp

theorem setupMatrix_gen [Zero α] [One α] [Add α] [Sub α] [Mul α] [Div α] [CMath α] (cfg : Cfg) (m : Mat 4 4 α) :
    ∃ k, setupMatrix cfg m = .ok k ∧ normalizePlane cfg (rowSum m 0) = .ok k.left ∧ normalizePlane cfg (rowDiff m 0) = .ok k.right ∧
      normalizePlane cfg (rowSum m 1) = .ok k.bottom ∧ normalizePlane cfg (rowDiff m 1) = .ok k.top ∧
      normalizePlane cfg (rowSum m 2) = .ok k.near ∧ normalizePlane cfg (rowDiff m 2) = .ok k.far := by
  have hr : ∀ i : Fin 4, m.getRowV cfg i = .ok (Vector.ofFn fun c => m.get i c) := fun i => Mat.getRow_eq cfg m i _
  have h0 := hr 0
  have h1 := hr 1
  have h2 := hr 2
  have h3 := hr 3
  simp only [Fin.val_zero, Fin.val_one, Fin.val_two, show ((3 : Fin 4) : Nat) = 3 from rfl] at h0 h1 h2 h3
  have ha : ∀ i : Fin 4, (Vector.ofFn fun j : Fin 4 => (Vector.ofFn fun c => m.get 3 c)[j] + (Vector.ofFn fun c => m.get i c)[j]) = rowSum m i := by
    intro i; ext j hj; simp [rowSum]
  have hs : ∀ i : Fin 4, (Vector.ofFn fun j : Fin 4 => (Vector.ofFn fun c => m.get 3 c)[j] - (Vector.ofFn fun c => m.get i c)[j]) = rowDiff m i := by
    intro i; ext j hj; simp [rowDiff]
  obtain ⟨_, -, e1⟩ := normalizePlane_gen cfg (rowSum m 0)
  obtain ⟨_, -, e2⟩ := normalizePlane_gen cfg (rowDiff m 0)
  obtain ⟨_, -, e3⟩ := normalizePlane_gen cfg (rowSum m 1)
  obtain ⟨_, -, e4⟩ := normalizePlane_gen cfg (rowDiff m 1)
  obtain ⟨_, -, e5⟩ := normalizePlane_gen cfg (rowSum m 2)
  obtain ⟨_, -, e6⟩ := normalizePlane_gen cfg (rowDiff m 2)
  refine ⟨⟨_, _, _, _, _, _⟩, ?_, e1, e2, e3, e4, e5, e6⟩
  simp only [setupMatrix, h0, h1, h2, h3, bind_ok, Vec.add_eq, Vec.sub_eq, ha, hs, e1, e2, e3, e4, e5, e6]
  rfl

/-! ## Degenerate planes -/

private theorem nan_add (a : Fp F) : .nan + a = .nan := rfl
private theorem add_nan (a : Fp F) : a + .nan = .nan := by cases a <;> rfl
private theorem nan_mul (a : Fp F) : .nan * a = .nan := rfl
private theorem sub_nan (a : Fp F) : .nan - a = .nan := rfl

/-- **C117** A plane with a NaN normal: `test_aabb` culls every box, whatever the other planes are, while `test_sphere` passes over the plane: it decides by the others, and reports FULL
if they do. The same plane cannot be both behind every box and in front of every sphere. -/
theorem C117_nan_violated (k : Culler (Fp F)) (p : Vec 4 (Fp F)) (hp : p ∈ Spec.six k) (hn : p[0] = .nan) :
    (∀ (cfg : Cfg) (half : Fp F) (x y z : Vec 2 (Fp F)), testAabb cfg half k x y z = .ok .none) ∧
    ∀ s : Vec 4 (Fp F), let d := fun q : Vec 4 (Fp F) => q[0] * s[0] + q[1] * s[1] + q[2] * s[2] + q[3]
      (testSphere k s = .none ↔ ∃ q ∈ Spec.six k, q ≠ p ∧ d q ≤ -s[3]) ∧
      (testSphere k s = .full ↔ ∀ q ∈ Spec.six k, q ≠ p → ¬ d q ≤ -s[3] ∧ ¬ d q < s[3]) := by
  refine ⟨fun cfg half x y z => ?_, fun s => ?_⟩
  · obtain ⟨r, hr, h2, -⟩ := box_verdict cfg half k x y z
    rw [hr]
    congr 1
    refine h2.2 ⟨p, hp, ?_⟩
    simp only [hn, nan_mul, add_nan, nan_add, sub_nan]
    exact ⟨Fp.not_le_nan_right _, Fp.not_lt_nan_right _⟩
  · intro d
    obtain ⟨h1, h2⟩ := sphere_verdict k s
    have hd : d p = .nan := by simp only [d, hn, nan_mul, nan_add]
    refine ⟨h1.trans ⟨?_, ?_⟩, h2.trans ⟨?_, ?_⟩⟩
    · rintro ⟨q, hq, hle⟩
      refine ⟨q, hq, ?_, hle⟩
      rintro rfl
      have : d q ≤ -s[3] := hle
      rw [hd] at this
      exact Fp.not_le_nan_left _ this
    · rintro ⟨q, hq, -, hle⟩
      exact ⟨q, hq, hle⟩
    · intro h q hq _
      exact h q hq
    · intro h q hq
      by_cases hqp : q = p
      · subst hqp
        show ¬ d q ≤ -s[3] ∧ ¬ d q < s[3]
        rw [hd]
        exact ⟨Fp.not_le_nan_left _, Fp.not_lt_nan_left _⟩
      · exact h q hq hqp

private theorem one_div_zero (h0 : 0 < F.emax) : (1 / 0 : Fp F) = .inf false := by
  have hr : F.Rep 1 := by simpa using rep_pow (F := F) (e := 0) (by unfold emin; omega)
  have h1 : F.rnd 1 = 1 := hr.rnd_eq
  have e : (1 : Fp F) = .fin false (F.rnd 1) (mag_rnd (by norm_num) (by rw [h1]; exact one_le_max h0)) :=
    Fp.round_eq (by norm_num) (by rw [h1]; exact one_le_max h0)
  rw [e]
  show @ite _ ((0 : ℝ) = 0) (Classical.propDecidable _) (@ite _ (F.rnd 1 = 0) (Classical.propDecidable _) (Fp.nan : Fp F) (Fp.inf (false ^^ false))) _ = _
  rw [if_pos rfl, if_neg (by rw [h1]; norm_num)]
  rfl

private theorem zero_mul_inf {a : Fp F} (ha : Spec.IsZero a) (s : Bool) : a * .inf s = .nan := by
  obtain ⟨t, m, hm, rfl⟩ := Fp.finite_cases ha.1
  have h := ha.2
  have hm0 : m = 0 := by cases t <;> simpa using h
  show @ite _ (m = 0) (Classical.propDecidable _) _ _ = _
  rw [if_pos hm0]

/-- Normalising a plane whose normal is zero gives NaN. -/
private theorem normalizePlane_zero (h0 : 0 < F.emax) (cfg : Cfg) (p w : Vec 4 (Fp F)) (hz0 : Spec.IsZero p[0]) (hz1 : Spec.IsZero p[1]) (hz2 : Spec.IsZero p[2])
    (h : normalizePlane cfg p = .ok w) : w[0] = .nan ∧ w[1] = .nan ∧ w[2] = .nan := by
  obtain ⟨L, hL, e⟩ := normalizePlane_gen cfg p
  rw [e] at h
  obtain rfl := Except.ok.inj h
  have hlen := (C109_underflow cfg (#v[p[0], p[1], p[2]] : Vec 3 (Fp F))
    (by intro i; fin_cases i <;> [exact hz0.1; exact hz1.1; exact hz2.1])
    (by
      have e : ∀ a : Fp F, Spec.IsZero a → a.val ^ 2 < F.eta := fun a ha => by rw [ha.2]; simpa using eta_pos
      intro i; fin_cases i <;> [exact e _ hz0; exact e _ hz1; exact e _ hz2])).1
  rw [hlen] at hL
  obtain rfl := Except.ok.inj hL
  simp only [Vector.getElem_ofFn, Fin.getElem_fin, one_div_zero h0]
  exact ⟨zero_mul_inf hz0 _, zero_mul_inf hz1 _, zero_mul_inf hz2 _⟩

private theorem sub_zero_of {a b : Fp F} (h0 : 0 < F.emax) (ha : a.Finite) (hb : b.Finite) (h : a.val = b.val) : Spec.IsZero (a - b) := by
  obtain ⟨f, e⟩ := Fp.sub_fin h0 ha hb (by rw [h, sub_self, abs_zero]; exact maxFinite_pos.le)
  exact ⟨f, by rw [e, h, sub_self, rnd_zero]⟩

/-- **C117** A matrix whose third and fourth row have the same first three entries, for example a perspective matrix with the far plane at infinity, with any viewing transformation: the culler set
up from it has a NaN far plane, so `test_aabb` culls every box. -/
theorem C117_degenerate_violated (hD : Spec.Quotients F D) (h1 : 1 < F.emax) (cfg : Cfg) (m : Mat 4 4 (Fp F))
    (hf : ∀ j : Fin 4, j ≠ 3 → (m.get 3 j).Finite ∧ (m.get 2 j).Finite ∧ (m.get 3 j).val = (m.get 2 j).val) :
    ∃ k, setupMatrixMixed D cfg m = .ok k ∧ k.far[0] = .nan ∧ ∀ (half : Fp F) (x y z : Vec 2 (Fp F)), testAabb cfg half k x y z = .ok .none := by
  have h0 : 0 < F.emax := by omega
  obtain ⟨k, hk, -, -, -, -, -, e6⟩ := setupMatrix_gen cfg m
  have z : ∀ j : Fin 4, j ≠ 3 → Spec.IsZero (rowDiff m 2)[j] := by
    intro j hj
    obtain ⟨a, b, c⟩ := hf j hj
    simp only [rowDiff, Fin.getElem_fin, Vector.getElem_ofFn]
    exact sub_zero_of h0 a b c
  obtain ⟨n0, -, -⟩ := normalizePlane_zero h0 cfg _ _ (z 0 (by decide)) (z 1 (by decide)) (z 2 (by decide)) e6
  refine ⟨k, ?_, n0, fun half x y z => (C117_nan_violated k k.far (by simp [Spec.six]) n0).1 cfg half x y z⟩
  rw [(C116_literals hD h1 cfg).2.2.1]
  exact hk

/-! ## A distant far plane -/

theorem Format.u_le_one : F.u ≤ 1 := by
  unfold u
  exact pow_le_one₀ (by norm_num) (by norm_num)

/-- A sum of positive numbers that rounds to a number of the format. -/
private theorem add_round {a b : Fp F} (ha : a.Finite) (hb : b.Finite) (hp : 0 < a.val + b.val) (h : F.rnd (a.val + b.val) ≤ F.maxFinite) :
    (a + b).Finite ∧ (a + b).val = F.rnd (a.val + b.val) := by
  obtain ⟨s, m, hm, rfl⟩ := Fp.finite_cases ha
  obtain ⟨t, n, hn, rfl⟩ := Fp.finite_cases hb
  have e : (Fp.fin s m hm + Fp.fin t n hn : Fp F) = @ite _ ((Fp.fin s m hm).val + (Fp.fin t n hn).val = 0) (Classical.propDecidable _) (Fp.fin (s && t) 0 mag_zero)
    (Fp.round (@decide ((Fp.fin s m hm).val + (Fp.fin t n hn).val < 0) (Classical.propDecidable _)) |(Fp.fin s m hm).val + (Fp.fin t n hn).val|) := rfl
  rw [e, if_neg hp.ne', abs_of_pos hp, Fp.round_eq hp.le h]
  refine ⟨trivial, ?_⟩
  have : @decide ((Fp.fin s m hm).val + (Fp.fin t n hn).val < 0) (Classical.propDecidable _) = false := by
    rw [decide_eq_false_iff_not]; exact not_lt.2 hp.le
  rw [Fp.val_fin, this]
  simp

/-- A number much smaller than `a` is lost in a sum with `a`. -/
theorem absorb {a t : ℝ} (ha : F.Rep a) (h0 : 0 < a) (ht : |t| ≤ F.u / 4 * a) : F.rnd (a + t) = a := by
  have hu := F.u_pos
  have hu1 := F.u_le_one
  have hat : 0 ≤ a + t := by nlinarith [abs_le.1 ht]
  have hb := rnd_best (a + t) a ha
  rw [show a - (a + t) = -t by ring, abs_neg] at hb
  obtain ⟨y, hy⟩ : ∃ y, y = F.rnd (a + t) := ⟨_, rfl⟩
  rw [← hy] at hb ⊢
  have hrep : F.Rep y := by rw [hy]; exact rnd_rep _
  have hclose : |y - a| ≤ F.u / 2 * a := by
    have e : y - a = (y - (a + t)) + t := by ring
    rw [e]
    refine (abs_add_le _ _).trans ?_
    linarith
  by_contra hne
  have hy2 : a / 2 ≤ y := by nlinarith [(abs_le.1 hclose).1]
  have ha2 : |a / 2| = a / 2 := abs_of_pos (by linarith)
  have hlog : (2 : ℝ) ^ Int.log 2 |a / 2| ≤ a / 2 := by
    rw [ha2]; exact_mod_cast Int.zpow_log_le_self (b := 2) (by norm_num) (by linarith : 0 < a / 2)
  have hlog2 : a / 2 < (2 : ℝ) ^ (Int.log 2 |a / 2| + 1) := by
    rw [ha2]; exact_mod_cast Int.lt_zpow_succ_log_self (b := 2) (by norm_num) (a / 2)
  obtain ⟨n, hn⟩ := hrep.multiple (x := a / 2) (hlog.trans (hy2.trans (le_abs_self _))) (by linarith)
  obtain ⟨m, hm⟩ := ha.multiple (x := a / 2) (hlog.trans ((by linarith : a / 2 ≤ a).trans (le_abs_self _))) (by linarith)
  have hw : F.u / 2 * a < (2 : ℝ) ^ F.lastExp (a / 2) := by
    have h1 : (2 : ℝ) ^ (Int.log 2 |a / 2| - F.p) ≤ (2 : ℝ) ^ F.lastExp (a / 2) := by
      apply zpow_le_zpow_right₀ (by norm_num)
      unfold lastExp; omega
    refine lt_of_lt_of_le ?_ h1
    have h2 : (2 : ℝ) ^ (Int.log 2 |a / 2| - F.p) = F.u * (2 : ℝ) ^ (Int.log 2 |a / 2| + 1) := by
      unfold u
      rw [inv_pow, ← zpow_natCast, ← zpow_neg, ← zpow_add₀ (by norm_num)]; congr 1; push_cast; ring
    rw [h2]
    nlinarith
  have hnm : n ≠ m := fun h => hne (by rw [hn, h, ← hm])
  have h1 : (1 : ℝ) ≤ |((n - m : Int) : ℝ)| := by
    rw [← Int.cast_abs]; exact_mod_cast Int.one_le_abs (sub_ne_zero.2 hnm)
  have e : y - a = ((n - m : Int) : ℝ) * (2 : ℝ) ^ F.lastExp (a / 2) := by rw [hn]; nth_rewrite 2 [hm]; push_cast; ring
  rw [e, abs_mul, abs_of_pos (by positivity : (0 : ℝ) < (2 : ℝ) ^ F.lastExp (a / 2))] at hclose
  nlinarith [(by positivity : (0 : ℝ) < (2 : ℝ) ^ F.lastExp (a / 2))]

/-- **C117** A frustum whose near distance is less than `u / 4` of the far distance (for `float`: near 0.1, far ten million), with any other four numbers: its perspective matrix is the matrix of a
frustum without far plane, so the culler set up from it has a NaN far plane and `test_aabb` culls every box. -/
theorem C117_far_violated (hD : Spec.Quotients F D) (h1 : 1 < F.emax) (cfg : Cfg) (f : Frustum (Fp F)) (m0 : Mat 4 4 (Fp F))
    (hn : f.nearPlane.Finite) (hf : f.farPlane.Finite) (hn0 : 0 < f.nearPlane.val) (hnf : f.nearPlane.val ≤ F.u / 4 * f.farPlane.val) :
    ∃ m k, f.computeMatrixMixed D cfg m0 = .ok m ∧ setupMatrixMixed D cfg m = .ok k ∧ k.far[0] = .nan ∧
      ∀ (half : Fp F) (x y z : Vec 2 (Fp F)), testAabb cfg half k x y z = .ok .none := by
  have h0 : 0 < F.emax := by omega
  have hf0 : 0 < f.farPlane.val := by
    by_contra hc
    push Not at hc
    nlinarith [F.u_pos]
  have hmax := Fp.abs_val_le f.farPlane
  rw [abs_of_pos hf0] at hmax
  have ea := absorb (t := f.nearPlane.val) (Fp.rep_val hf) hf0 (by rwa [abs_of_pos hn0])
  have es := absorb (t := -f.nearPlane.val) (Fp.rep_val hf) hf0 (by rwa [abs_neg, abs_of_pos hn0])
  rw [← sub_eq_add_neg] at es
  have hu4 : F.u / 4 < 1 := by
    linarith [F.u_le_one]
  have hsum : (f.farPlane + f.nearPlane).Finite ∧ (f.farPlane + f.nearPlane).val = f.farPlane.val := by
    rw [← ea]; exact add_round hf hn (by linarith) (by rw [ea]; exact hmax)
  have hdiff : (f.farPlane - f.nearPlane).Finite ∧ (f.farPlane - f.nearPlane).val = f.farPlane.val := by
    rw [← es]; exact Fp.sub_fin h0 hf hn (by rw [abs_of_pos (by nlinarith)]; linarith)
  have hneg := Fp.finite_neg hsum.1
  have hq : -f.farPlane.val / f.farPlane.val = -1 := by field_simp
  have o := Fp.one_fin h0
  have r1 : F.Rep 1 := by simpa using rep_pow (F := F) (e := 0) (by unfold emin; omega)
  have hdiv : (-(f.farPlane + f.nearPlane) / (f.farPlane - f.nearPlane)).Finite ∧ (-(f.farPlane + f.nearPlane) / (f.farPlane - f.nearPlane)).val = -1 := by
    have h := Fp.div_fin h0 hneg hdiff.1 (by rw [hdiff.2]; exact hf0.ne') (by
      rw [Fp.val_neg, hsum.2, hdiff.2, hq, abs_neg, abs_one]; exact one_le_max h0)
    rw [Fp.val_neg, hsum.2, hdiff.2, hq, rnd_neg, r1.rnd_eq] at h
    exact h
  obtain ⟨P, hP, e⟩ : ∃ P, f.computeMatrixMixed D cfg m0 = .ok P ∧ P.get 2 0 = 0 ∧ P.get 2 1 = 0 ∧ P.get 3 0 = 0 ∧ P.get 3 1 = 0 ∧ P.get 3 2 = -1 ∧
      P.get 2 2 = -(f.farPlane + f.nearPlane) / (f.farPlane - f.nearPlane) := by
    simp only [Frustum.computeMatrixMixed, Mat.atSet_lt, bind_ok, Nat.reduceLT]
    exact ⟨_, rfl, by simp [Mat.get_put], by simp [Mat.get_put], by simp [Mat.get_put], by simp [Mat.get_put], by simp [Mat.get_put], by simp [Mat.get_put]⟩
  obtain ⟨e1, e2, e3, e4, e5, e6⟩ := e
  obtain ⟨k, hk, hk1, hk2⟩ := C117_degenerate_violated hD h1 cfg P (by
    intro j hj
    fin_cases j
    · show (P.get 3 0).Finite ∧ (P.get 2 0).Finite ∧ (P.get 3 0).val = (P.get 2 0).val
      rw [e1, e3]; exact ⟨Fp.finite_zero, Fp.finite_zero, rfl⟩
    · show (P.get 3 1).Finite ∧ (P.get 2 1).Finite ∧ (P.get 3 1).val = (P.get 2 1).val
      rw [e2, e4]; exact ⟨Fp.finite_zero, Fp.finite_zero, rfl⟩
    · show (P.get 3 2).Finite ∧ (P.get 2 2).Finite ∧ (P.get 3 2).val = (P.get 2 2).val
      rw [e5, e6, hdiv.2, Fp.val_neg, o.2]; exact ⟨Fp.finite_neg o.1, hdiv.1, rfl⟩
    · exact absurd rfl hj)
  exact ⟨P, k, hP, hk, hk1, hk2⟩

/-- In `float`: near 1, far 2^26. -/
example : ∃ f : Frustum (Fp single), f.nearPlane.Finite ∧ f.farPlane.Finite ∧ 0 < f.nearPlane.val ∧ f.nearPlane.val ≤ single.u / 4 * f.farPlane.val := by
  have h0 : 0 < single.emax := by norm_num
  have o := Fp.one_fin h0
  have r : single.Rep ((2 : ℝ) ^ (26 : Int)) := rep_pow (by norm_num [emin])
  have hm : single.Mag ((2 : ℝ) ^ (26 : Int)) := ⟨by positivity, r, by
    refine le_trans ?_ (pow_emax_le (F := single))
    exact zpow_le_zpow_right₀ (by norm_num) (by norm_num)⟩
  refine ⟨⟨#v[-1, 1, -1, 1, 1, .fin false _ hm]⟩, o.1, trivial, ?_, ?_⟩
  · show 0 < (1 : Fp single).val
    rw [o.2]; norm_num
  · show (1 : Fp single).val ≤ single.u / 4 * (Fp.fin false _ hm : Fp single).val
    rw [o.2, Fp.val_fin]
    norm_num [u]

/-- The planes of the cube `[-1, 1]³`, and a sphere and a box in it, meet the hypotheses of the theorems on finite planes. -/
example : let k : Culler (Fp single) := ⟨#v[1, 0, 0, 1], #v[-1, 0, 0, 1], #v[0, 1, 0, 1], #v[0, -1, 0, 1], #v[0, 0, 1, 1], #v[0, 0, -1, 1]⟩
    let s : Vec 4 (Fp single) := #v[0, 1, -1, 1]
    let x : Vec 2 (Fp single) := #v[-1, 1]
    (∀ p ∈ Spec.six k, Spec.VFinite p) ∧ Spec.VFinite s ∧ Spec.VFinite x ∧
    (∀ p ∈ Spec.six k, Spec.grow single 4 (Spec.fplaneMag p s[0].val s[1].val s[2].val) ≤ single.maxFinite) ∧
    (∀ p ∈ Spec.six k, p[0].val ^ 2 + p[1].val ^ 2 + p[2].val ^ 2 ≤ 1) ∧
    (∀ p ∈ Spec.six k, Spec.grow single 8 (Spec.fboxMag p x x x) ≤ single.maxFinite) ∧
    Spec.grow single 2 (|x[0].val| + |x[1].val| + single.tiny) ≤ single.maxFinite := by
  intro k s x
  have h0 : 0 < single.emax := by norm_num
  have o := Fp.one_fin h0
  have n : (-1 : Fp single).Finite := Fp.finite_neg o.1
  have nv : (-1 : Fp single).val = -1 := by rw [Fp.val_neg, o.2]
  have z : (0 : Fp single).Finite := Fp.finite_zero
  have zv : (0 : Fp single).val = 0 := Fp.val_zero
  have ht : single.tiny ≤ 1 := tiny_le_one h0
  have ht0 := single.tiny_pos
  have hmax : (2 : ℝ) ^ 20 ≤ single.maxFinite := by
    refine le_trans ?_ (pow_emax_le (F := single))
    rw [← zpow_natCast]
    exact zpow_le_zpow_right₀ (by norm_num) (by norm_num)
  have g : ∀ m : Nat, ∀ y : ℝ, m ≤ 8 → 0 ≤ y → y ≤ 100 → Spec.grow single m y ≤ single.maxFinite := by
    intro m y hm hy0 hy
    refine le_trans ?_ hmax
    unfold Spec.grow
    have hu := single.u_pos
    have hu1 := single.u_le_one
    have h1 : (1 + single.u) ^ m ≤ 2 ^ 8 :=
      (pow_le_pow_left₀ (by linarith) (by linarith : 1 + single.u ≤ 2) m).trans (pow_le_pow_right₀ (by norm_num) hm)
    calc (1 + single.u) ^ m * y ≤ 2 ^ 8 * 100 := mul_le_mul h1 hy hy0 (by positivity)
      _ ≤ _ := by norm_num
  refine ⟨?_, ?_, ?_, ?_, ?_, ?_, ?_⟩
  · intro p hp i
    simp only [Spec.six, k, List.mem_cons, List.not_mem_nil, or_false] at hp
    rcases hp with rfl | rfl | rfl | rfl | rfl | rfl <;> fin_cases i <;> first | exact z | exact o.1 | exact n
  · intro i; fin_cases i <;> first | exact z | exact o.1 | exact n
  · intro i; fin_cases i <;> first | exact z | exact o.1 | exact n
  · intro p hp
    simp only [Spec.six, k, List.mem_cons, List.not_mem_nil, or_false] at hp
    rcases hp with rfl | rfl | rfl | rfl | rfl | rfl <;> refine g 4 _ (by norm_num) ?_ ?_ <;>
      simp [Spec.fplaneMag, s, zv, nv, o.2] <;> linarith
  · intro p hp
    simp only [Spec.six, k, List.mem_cons, List.not_mem_nil, or_false] at hp
    rcases hp with rfl | rfl | rfl | rfl | rfl | rfl <;> simp [zv, nv, o.2]
  · intro p hp
    simp only [Spec.six, k, List.mem_cons, List.not_mem_nil, or_false] at hp
    rcases hp with rfl | rfl | rfl | rfl | rfl | rfl <;> refine g 8 _ (by norm_num) ?_ ?_ <;>
      simp [Spec.fboxMag, x, zv, nv, o.2] <;> linarith
  · refine g 2 _ (by norm_num) ?_ ?_ <;> simp [x, nv, o.2] <;> linarith

end Vmml
