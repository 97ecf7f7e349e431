import Verif.Proofs.FApprox
import Verif.Props.FloatNorm
import Verif.Props.Aabb
import Verif.Model.Aabb

/-!
# C111: axis-aligned boxes in IEEE 754 arithmetic
-/

namespace Vmml
open Format
variable {F : Format}

/-- The number on the extended real line (0 for NaN). -/
noncomputable def Spec.ereal (a : Fp F) : EReal := a.ext.getD 0

/-! ## Order -/

theorem Fp.lt_iff {a b : Fp F} (ha : a ≠ .nan) (hb : b ≠ .nan) : a < b ↔ Spec.ereal a < Spec.ereal b := by
  have key : ∀ c : Fp F, c ≠ .nan → c.ext = some (Spec.ereal c) := by
    intro c hc
    cases c with
    | nan => exact absurd rfl hc
    | inf s => rfl
    | fin s m h => rfl
  constructor
  · rintro ⟨x, hx, y, hy, hxy⟩
    rw [key a ha] at hx
    rw [key b hb] at hy
    cases hx; cases hy
    exact hxy
  · intro h
    exact ⟨_, key a ha, _, key b hb, h⟩

theorem Fp.not_lt_nan_left (b : Fp F) : ¬ (.nan : Fp F) < b := by rintro ⟨x, hx, -⟩; cases hx
theorem Fp.not_lt_nan_right (b : Fp F) : ¬ b < (.nan : Fp F) := by rintro ⟨x, -, y, hy, -⟩; cases hy

theorem Fp.Finite.ne_nan {a : Fp F} (h : a.Finite) : a ≠ .nan := by rintro rfl; exact h

theorem Fp.ereal_val {a : Fp F} (h : a.Finite) : Spec.ereal a = (a.val : EReal) := by
  obtain ⟨s, m, hm, rfl⟩ := Fp.finite_cases h
  rfl

theorem Fp.lt_val {a b : Fp F} (ha : a.Finite) (hb : b.Finite) : a < b ↔ a.val < b.val := by
  rw [Fp.lt_iff ha.ne_nan hb.ne_nan, Fp.ereal_val ha, Fp.ereal_val hb, EReal.coe_lt_coe_iff]

theorem rnd_le_rep {x y : ℝ} (hy : F.Rep y) (h : x ≤ y) : F.rnd x ≤ y := by
  have h1 := rnd_best x y hy
  rw [abs_of_nonneg (show 0 ≤ y - x by linarith)] at h1
  linarith [(abs_le.1 h1).2]

theorem rep_le_rnd {x y : ℝ} (hy : F.Rep y) (h : y ≤ x) : y ≤ F.rnd x := by
  have h1 := rnd_best x y hy
  rw [abs_of_nonpos (show y - x ≤ 0 by linarith)] at h1
  linarith [(abs_le.1 h1).1]

/-- The lower corner is reached by half of the rounded extent, at most the upper one. -/
private theorem half_extent (hp : 1 ≤ F.p) {D : ℝ} (hg : F.Grid D) (h0 : 0 ≤ D) :
    F.rnd (F.rnd D * (1 / 2)) ≤ D ∧ 0 ≤ F.rnd (F.rnd D * (1 / 2)) := by
  have hu := F.u_pos
  have hu4 : F.u ≤ 1 / 4 := by
    unfold u
    calc (2 : ℝ)⁻¹ ^ (F.p + 1) ≤ (2 : ℝ)⁻¹ ^ 2 := pow_le_pow_of_le_one (by norm_num) (by norm_num) (by omega)
      _ = 1 / 4 := by norm_num
  have ht0 : 0 ≤ F.rnd D := rnd_nonneg h0
  refine ⟨?_, rnd_nonneg (by positivity)⟩
  rcases lt_or_ge D ((2 : ℝ) ^ (F.emin + 1)) with h | h
  · have hr : F.Rep D := by
      obtain ⟨k, rfl⟩ := hg
      have hpos : (0 : ℝ) < (2 : ℝ) ^ (F.emin - F.p) := by positivity
      refine ⟨k, F.emin - F.p, le_rfl, ?_, rfl⟩
      have hk0 : 0 ≤ k := by
        by_contra hc
        push Not at hc
        have : (k : ℝ) < 0 := by exact_mod_cast hc
        nlinarith
      rw [abs_of_nonneg hk0]
      have e : (2 : ℝ) ^ (F.emin + 1) = (2 : ℝ) ^ (F.p + 1) * (2 : ℝ) ^ (F.emin - F.p) := by
        rw [← zpow_natCast, ← zpow_add₀ (by norm_num)]; congr 1; push_cast; ring
      rw [e] at h
      have : (k : ℝ) < (2 : ℝ) ^ (F.p + 1) := lt_of_mul_lt_mul_right h hpos.le
      have h2 : (k : ℝ) ≤ ((2 ^ (F.p + 1) : Int) : ℝ) := by push_cast; exact this.le
      exact_mod_cast h2
    rw [hr.rnd_eq]
    exact rnd_le_rep hr (by linarith)
  · have hrep : F.Rep ((2 : ℝ) ^ (F.emin + 1)) := rep_pow (by omega)
    have h1 : (2 : ℝ) ^ (F.emin + 1) ≤ F.rnd D := rep_le_rnd hrep h
    have h2 : (2 : ℝ) ^ F.emin ≤ |F.rnd D * (1 / 2)| := by
      rw [abs_of_nonneg (by positivity)]
      rw [zpow_add_one₀ (by norm_num)] at h1
      linarith
    have h3 := (abs_le.1 (rnd_err_normal h2)).2
    have h4 := (abs_le.1 hg.rnd_err).2
    rw [abs_of_nonneg (by positivity)] at h3
    rw [abs_of_nonneg h0] at h4
    nlinarith

/-- **C111** `getCenter()`: for a box of finite corners, the lower below the upper, whose extent does not overflow, the centre is finite, lies in the box
(`isIn` confirms it), and is within a few units in the last place of the midpoint. `half` is `0.5f` converted to `T`. -/
theorem C111_center (hp : 1 ≤ F.p) (h0 : 0 < F.emax) (cfg : Cfg) (b : Box (Fp F)) (half : Fp F) (hh : half.Finite) (hv : half.val = 1 / 2)
    (hfin : ∀ i : Fin 3, b.min[i].Finite ∧ b.max[i].Finite) (hle : ∀ i : Fin 3, b.min[i].val ≤ b.max[i].val)
    (hext : ∀ i : Fin 3, b.max[i].val - b.min[i].val ≤ F.maxFinite) :
    ∃ c, b.getCenter cfg half = .ok c ∧ b.isIn c = true ∧ ∀ i : Fin 3, c[i].Finite ∧ b.min[i].val ≤ c[i].val ∧ c[i].val ≤ b.max[i].val ∧
      |c[i].val - (b.min[i].val + b.max[i].val) / 2| ≤
        F.u * max |b.min[i].val| |b.max[i].val| + ((1 + F.u) ^ 2 - 1) * ((b.max[i].val - b.min[i].val) / 2) + F.eta := by
  have hu := F.u_pos
  refine ⟨Vector.ofFn fun i => b.min[i] + (b.max[i] - b.min[i]) * half, ?_, ?_⟩
  · simp only [Box.getCenter, Vec.sub_eq, Vec.mulS_eq, Vec.add_eq, bind_ok]
    congr 1
  have key : ∀ i : Fin 3, (b.min[i] + (b.max[i] - b.min[i]) * half).Finite ∧ b.min[i].val ≤ (b.min[i] + (b.max[i] - b.min[i]) * half).val ∧
      (b.min[i] + (b.max[i] - b.min[i]) * half).val ≤ b.max[i].val ∧
      |(b.min[i] + (b.max[i] - b.min[i]) * half).val - (b.min[i].val + b.max[i].val) / 2| ≤
        F.u * max |b.min[i].val| |b.max[i].val| + ((1 + F.u) ^ 2 - 1) * ((b.max[i].val - b.min[i].val) / 2) + F.eta := by
    intro i
    obtain ⟨f1, f2⟩ := hfin i
    have hi := hle i
    have he := hext i
    have m1 := Fp.abs_val_le b.min[i]
    have m2 := Fp.abs_val_le b.max[i]
    generalize b.min[i] = x at *
    generalize b.max[i] = y at *
    have hD0 : 0 ≤ y.val - x.val := by linarith
    have hg : F.Grid (y.val - x.val) := by rw [sub_eq_add_neg]; exact (Fp.rep_val f2).grid.add (Fp.rep_val f1).grid.neg
    obtain ⟨t1, t2⟩ := Fp.sub_fin h0 f2 f1 (by rw [abs_of_nonneg hD0]; exact he)
    obtain ⟨k1, k2⟩ := half_extent hp hg hD0
    have hrt : F.rnd (y.val - x.val) ≤ F.maxFinite := rnd_le_rep (rep_max h0) he
    have hrt0 : 0 ≤ F.rnd (y.val - x.val) := rnd_nonneg hD0
    obtain ⟨g1, g2⟩ := Fp.mul_fin h0 t1 hh (by rw [t2, hv, abs_of_nonneg (by positivity)]; linarith)
    rw [t2, hv] at g2
    set h := F.rnd (F.rnd (y.val - x.val) * (1 / 2)) with hhd
    have b1 : x.val ≤ x.val + h := by linarith
    have b2 : x.val + h ≤ y.val := by linarith
    have bmax : |x.val + h| ≤ max |x.val| |y.val| := abs_le_max_abs_abs b1 b2
    obtain ⟨c1, c2⟩ := Fp.add_fin h0 f1 g1 (by rw [g2]; exact bmax.trans (max_le m1 m2))
    rw [g2] at c2
    refine ⟨c1, ?_, ?_, ?_⟩
    · rw [c2]; exact rep_le_rnd (Fp.rep_val f1) b1
    · rw [c2]; exact rnd_le_rep (Fp.rep_val f2) b2
    · rw [c2]
      have hg2 : F.Grid (x.val + h) := (Fp.rep_val f1).grid.add (rnd_rep _).grid
      have e1 := hg2.rnd_err
      have e2 := hg.rnd_err
      have e3 : |h - F.rnd (y.val - x.val) * (1 / 2)| ≤ F.u * |F.rnd (y.val - x.val) * (1 / 2)| + F.eta := rnd_err_add _
      rw [abs_of_nonneg hD0] at e2
      rw [abs_of_nonneg (show 0 ≤ F.rnd (y.val - x.val) * (1 / 2) from mul_nonneg hrt0 (by norm_num))] at e3
      have e4 : F.u * |x.val + h| ≤ F.u * max |x.val| |y.val| := mul_le_mul_of_nonneg_left bmax hu.le
      have e5 := (abs_le.1 e2).2
      have e6 : |h - (y.val - x.val) / 2| ≤ ((1 + F.u) ^ 2 - 1) * ((y.val - x.val) / 2) + F.eta := by
        calc |h - (y.val - x.val) / 2| = |(h - F.rnd (y.val - x.val) * (1 / 2)) + (F.rnd (y.val - x.val) - (y.val - x.val)) * (1 / 2)| := by congr 1; ring
          _ ≤ |h - F.rnd (y.val - x.val) * (1 / 2)| + |(F.rnd (y.val - x.val) - (y.val - x.val)) * (1 / 2)| := abs_add_le _ _
          _ ≤ _ := by
            rw [abs_mul, abs_of_nonneg (show (0 : ℝ) ≤ 1 / 2 by norm_num)]
            have e7 : F.u * F.rnd (y.val - x.val) ≤ F.u * ((1 + F.u) * (y.val - x.val)) := mul_le_mul_of_nonneg_left (by linarith) hu.le
            linarith
      calc _ = |(F.rnd (x.val + h) - (x.val + h)) + (h - (y.val - x.val) / 2)| := by congr 1; ring
        _ ≤ _ := abs_add_le _ _
        _ ≤ _ := by linarith
  have key' : ∀ i : Fin 3, ¬ (b.min[i] + (b.max[i] - b.min[i]) * half) < b.min[i] ∧ ¬ (b.min[i] + (b.max[i] - b.min[i]) * half) > b.max[i] := by
    intro i
    obtain ⟨c1, c2, c3, -⟩ := key i
    constructor
    · rw [Fp.lt_val c1 (hfin i).1]; linarith
    · show ¬ b.max[i] < _
      rw [Fp.lt_val (hfin i).2 c1]; linarith
  refine ⟨?_, ?_⟩
  · unfold Box.isIn
    rw [if_neg]
    simp only [Vector.getElem_ofFn]
    rintro (h | h | h | h | h | h)
    · exact (key' 0).2 h
    · exact (key' 1).2 h
    · exact (key' 2).2 h
    · exact (key' 0).1 h
    · exact (key' 1).1 h
    · exact (key' 2).1 h
  · intro i
    have := key i
    simpa using this

/-- **C111** The subtraction inside `getCenter()` overflows: when an extent is `2^(emax + 1)` or more (corners `-2^127` and `2^127` in `float`), that
coordinate of the centre is infinite, and the box does not contain its centre. -/
theorem C111_center_overflow (h0 : 0 < F.emax) (cfg : Cfg) (b : Box (Fp F)) (half : Fp F) (hh : half.Finite) (hv : half.val = 1 / 2)
    (i : Fin 3) (h1 : b.min[i].Finite) (h2 : b.max[i].Finite) (h : (2 : ℝ) ^ ((F.emax : Int) + 1) ≤ b.max[i].val - b.min[i].val) :
    ∃ c, b.getCenter cfg half = .ok c ∧ c[i] = .inf false ∧ b.isIn c = false := by
  have hc : b.min[i] + (b.max[i] - b.min[i]) * half = .inf false := by
    obtain ⟨s, n, hn, rfl⟩ := Fp.finite_cases hh
    have hs : s = false := by
      cases s
      · rfl
      · simp at hv; have := hn.1; linarith
    subst hs
    have hn' : n ≠ 0 := by
      rintro rfl
      simp at hv
    have hpos : 0 < b.max[i].val - b.min[i].val := lt_of_lt_of_le (by positivity) h
    have hd : b.max[i] - b.min[i] = .inf false := by
      generalize b.min[i] = x at *
      generalize b.max[i] = y at *
      obtain ⟨sx, x, hx, rfl⟩ := Fp.finite_cases h1
      obtain ⟨sy, y, hy, rfl⟩ := Fp.finite_cases h2
      have e : (Fp.fin sy y hy).val + (Fp.fin (!sx) x hx).val = (Fp.fin sy y hy).val - (Fp.fin sx x hx).val := by cases sx <;> simp <;> ring
      show (if (Fp.fin sy y hy).val + (Fp.fin (!sx) x hx).val = 0 then Fp.fin (sy && !sx) 0 mag_zero else
        Fp.round (@decide ((Fp.fin sy y hy).val + (Fp.fin (!sx) x hx).val < 0) (Classical.propDecidable _)) |(Fp.fin sy y hy).val + (Fp.fin (!sx) x hx).val|) = _
      rw [e, if_neg hpos.ne', abs_of_pos hpos, @decide_eq_false _ (Classical.propDecidable _) (not_lt.2 hpos.le)]
      refine Fp.round_inf (lt_of_lt_of_le maxFinite_lt (le_rnd_pow ?_ h))
      unfold emin; omega
    rw [hd]
    have e1 : (.inf false * .fin false n hn : Fp F) = .inf false := if_neg hn'
    rw [e1]
    obtain ⟨sx, x, hx, hx'⟩ := Fp.finite_cases h1
    rw [hx']
    rfl
  refine ⟨Vector.ofFn fun i => b.min[i] + (b.max[i] - b.min[i]) * half, ?_, ?_, ?_⟩
  · simp only [Box.getCenter, Vec.sub_eq, Vec.mulS_eq, Vec.add_eq, bind_ok]
    congr 1
  · simpa using hc
  · unfold Box.isIn
    rw [if_pos]
    have hgt : b.min[i] + (b.max[i] - b.min[i]) * half > b.max[i] := by
      show b.max[i] < _
      rw [hc, Fp.lt_iff h2.ne_nan (by simp), Fp.ereal_val h2]
      exact EReal.coe_lt_top _
    simp only [Vector.getElem_ofFn]
    fin_cases i
    · exact Or.inl hgt
    · exact Or.inr (Or.inl hgt)
    · exact Or.inr (Or.inr (Or.inl hgt))

/-- **C111** `getDimension()`: a finite extent is the exact difference of the corners up to one relative rounding error, however small it is. -/
theorem C111_dimension (cfg : Cfg) (b : Box (Fp F)) :
    ∃ d, b.getDimension cfg = .ok d ∧ ∀ i : Fin 3, d[i].Finite → b.min[i].Finite ∧ b.max[i].Finite ∧
      |d[i].val - (b.max[i].val - b.min[i].val)| ≤ F.u * |b.max[i].val - b.min[i].val| := by
  refine ⟨_, Vec.sub_eq .., fun i h => ?_⟩
  simp only [Fin.getElem_fin, Vector.getElem_ofFn] at h ⊢
  obtain ⟨f1, f2, f3⟩ := Fp.sub_finite h
  refine ⟨f2, f1, ?_⟩
  rw [f3]
  have hg : F.Grid (b.max[i.1].val - b.min[i.1].val) := by rw [sub_eq_add_neg]; exact (Fp.rep_val f1).grid.add (Fp.rep_val f2).grid.neg
  exact hg.rnd_err

/-! ## Merging -/

private theorem lower_get (v : Vec 3 (Fp F)) (i j : Fin 3) (c : Fp F) : (Box.lowerTo v i c)[j] = if i = j ∧ c < v[i] then c else v[j] := by
  unfold Box.lowerTo
  by_cases h : c < v[i]
  · rw [if_pos h]
    by_cases hij : i = j
    · subst hij; rw [if_pos ⟨rfl, h⟩]; simp
    · have : (i : Nat) ≠ j := fun hc => hij (Fin.ext hc)
      rw [if_neg (fun hc => hij hc.1)]
      exact Vector.getElem_set_ne _ _ this
  · rw [if_neg h, if_neg (fun hc => h hc.2)]
private theorem raise_get (v : Vec 3 (Fp F)) (i j : Fin 3) (c : Fp F) : (Box.raiseTo v i c)[j] = if i = j ∧ v[i] < c then c else v[j] := by
  unfold Box.raiseTo
  by_cases h : v[i] < c
  · rw [if_pos (show c > v[i] from h)]
    by_cases hij : i = j
    · subst hij; rw [if_pos ⟨rfl, h⟩]; simp
    · have : (i : Nat) ≠ j := fun hc => hij (Fin.ext hc)
      rw [if_neg (fun hc => hij hc.1)]
      exact Vector.getElem_set_ne _ _ this
  · rw [if_neg (show ¬ c > v[i] from h), if_neg (fun hc => h hc.2)]

private theorem merge_get (b c : Box (Fp F)) (i : Fin 3) :
    (b.mergeBox c).min[i] = (if c.min[i] < b.min[i] then c.min[i] else b.min[i]) ∧ (b.mergeBox c).max[i] = (if b.max[i] < c.max[i] then c.max[i] else b.max[i]) := by
  unfold Box.mergeBox
  simp only [lower_get, raise_get]
  fin_cases i <;> simp [lower_get, raise_get]

private theorem mergePoint_box (b : Box (Fp F)) (p : Vec 3 (Fp F)) : b.mergePoint p = b.mergeBox ⟨p, p⟩ := rfl

open Classical in
private theorem min_pick {a c : Fp F} (ha : a ≠ .nan) : (if c < a then c else a) ≠ .nan ∧
    Spec.ereal (if c < a then c else a) = if c = .nan then Spec.ereal a else min (Spec.ereal a) (Spec.ereal c) := by
  classical
  by_cases hc : c = .nan
  · subst hc
    rw [if_neg (Fp.not_lt_nan_left a), if_pos rfl]
    exact ⟨ha, rfl⟩
  · rw [if_neg hc]
    by_cases h : c < a
    · rw [if_pos h, min_eq_right ((Fp.lt_iff hc ha).1 h).le]; exact ⟨hc, rfl⟩
    · rw [if_neg h, min_eq_left (not_lt.1 fun hlt => h ((Fp.lt_iff hc ha).2 hlt))]; exact ⟨ha, rfl⟩
open Classical in
private theorem max_pick {a c : Fp F} (ha : a ≠ .nan) : (if a < c then c else a) ≠ .nan ∧
    Spec.ereal (if a < c then c else a) = if c = .nan then Spec.ereal a else max (Spec.ereal a) (Spec.ereal c) := by
  classical
  by_cases hc : c = .nan
  · subst hc
    rw [if_neg (Fp.not_lt_nan_right a), if_pos rfl]
    exact ⟨ha, rfl⟩
  · rw [if_neg hc]
    by_cases h : a < c
    · rw [if_pos h, max_eq_right ((Fp.lt_iff ha hc).1 h).le]; exact ⟨hc, rfl⟩
    · rw [if_neg h, max_eq_left (not_lt.1 fun hlt => h ((Fp.lt_iff ha hc).2 hlt))]; exact ⟨ha, rfl⟩

/-- **C111** `merge( aabb )` is exact: for boxes without NaN corners (infinite ones included) the result has no NaN corner, its lower corner is the
coordinate-wise minimum and its upper corner the coordinate-wise maximum, on the extended real line, and so holds both boxes. -/
theorem C111_merge (b c : Box (Fp F)) (i : Fin 3) (hb : b.min[i] ≠ .nan ∧ b.max[i] ≠ .nan) (hc : c.min[i] ≠ .nan ∧ c.max[i] ≠ .nan) :
    (b.mergeBox c).min[i] ≠ .nan ∧ (b.mergeBox c).max[i] ≠ .nan ∧
    Spec.ereal (b.mergeBox c).min[i] = min (Spec.ereal b.min[i]) (Spec.ereal c.min[i]) ∧
    Spec.ereal (b.mergeBox c).max[i] = max (Spec.ereal b.max[i]) (Spec.ereal c.max[i]) := by
  obtain ⟨e1, e2⟩ := merge_get b c i
  have h1 := min_pick (c := c.min[i]) hb.1
  have h2 := max_pick (c := c.max[i]) hb.2
  rw [if_neg hc.1] at h1
  rw [if_neg hc.2] at h2
  rw [e1, e2]
  exact ⟨h1.1, h2.1, h1.2, h2.2⟩

/-- **C111** `isIn( point )` is exact: without NaN it says whether the point lies between the corners on the extended real line. -/
theorem C111_isIn (b : Box (Fp F)) (q : Vec 3 (Fp F)) (hb : ∀ i : Fin 3, b.min[i] ≠ .nan ∧ b.max[i] ≠ .nan) (hq : ∀ i : Fin 3, q[i] ≠ .nan) :
    b.isIn q = true ↔ ∀ i : Fin 3, Spec.ereal b.min[i] ≤ Spec.ereal q[i] ∧ Spec.ereal q[i] ≤ Spec.ereal b.max[i] := by
  have key : ∀ i : Fin 3, (Spec.ereal b.min[i] ≤ Spec.ereal q[i] ↔ ¬ q[i] < b.min[i]) ∧ (Spec.ereal q[i] ≤ Spec.ereal b.max[i] ↔ ¬ b.max[i] < q[i]) := fun i =>
    ⟨not_lt.symm.trans (not_congr (Fp.lt_iff (hq i) (hb i).1).symm), not_lt.symm.trans (not_congr (Fp.lt_iff (hb i).2 (hq i)).symm)⟩
  simp only [fun i => (key i).1, fun i => (key i).2]
  unfold Box.isIn
  constructor
  · intro h
    split_ifs at h with hc
    push Not at hc
    obtain ⟨h1, h2, h3, h4, h5, h6⟩ := hc
    intro i
    fin_cases i
    · exact ⟨h4, h1⟩
    · exact ⟨h5, h2⟩
    · exact ⟨h6, h3⟩
  · intro h
    rw [if_neg]
    rintro (hc | hc | hc | hc | hc | hc)
    · exact (h 0).2 hc
    · exact (h 1).2 hc
    · exact (h 2).2 hc
    · exact (h 0).1 hc
    · exact (h 1).1 hc
    · exact (h 2).1 hc

/-- **C111** A point with NaN in every coordinate is in every box. -/
theorem C111_isIn_nan (b : Box (Fp F)) : b.isIn #v[.nan, .nan, .nan] = true := by
  unfold Box.isIn
  rw [if_neg]
  rintro (hc | hc | hc | hc | hc | hc)
  · exact Fp.not_lt_nan_right _ hc
  · exact Fp.not_lt_nan_right _ hc
  · exact Fp.not_lt_nan_right _ hc
  · exact Fp.not_lt_nan_left _ hc
  · exact Fp.not_lt_nan_left _ hc
  · exact Fp.not_lt_nan_left _ hc

/-- **C111** Any history of `merge( point )`: when the box starts without NaN in coordinate `i`, afterwards its corners have none, and they are the least and
the greatest of the first corner and the points' coordinates that are not NaN. NaN coordinates are ignored, and the order does not matter. -/
theorem C111_points (b : Box (Fp F)) (ps : List (Vec 3 (Fp F))) (i : Fin 3) (hb : b.min[i] ≠ .nan ∧ b.max[i] ≠ .nan) :
    (ps.foldl Box.mergePoint b).min[i] ≠ .nan ∧ (ps.foldl Box.mergePoint b).max[i] ≠ .nan ∧
    IsLeast (insert (Spec.ereal b.min[i]) {e | ∃ p ∈ ps, p[i] ≠ .nan ∧ Spec.ereal p[i] = e}) (Spec.ereal (ps.foldl Box.mergePoint b).min[i]) ∧
    IsGreatest (insert (Spec.ereal b.max[i]) {e | ∃ p ∈ ps, p[i] ≠ .nan ∧ Spec.ereal p[i] = e}) (Spec.ereal (ps.foldl Box.mergePoint b).max[i]) := by
  classical
  induction ps generalizing b with
  | nil => exact ⟨hb.1, hb.2, by simp [IsLeast], by simp [IsGreatest]⟩
  | cons p ps ih =>
    obtain ⟨e1, e2⟩ := merge_get b ⟨p, p⟩ i
    rw [← mergePoint_box] at e1 e2
    have h1 := min_pick (c := p[i]) hb.1
    have h2 := max_pick (c := p[i]) hb.2
    simp only at e1 e2
    rw [← e1] at h1
    rw [← e2] at h2
    rw [List.foldl_cons]
    obtain ⟨n1, n2, l, g⟩ := ih (b.mergePoint p) ⟨h1.1, h2.1⟩
    refine ⟨n1, n2, ?_, ?_⟩
    · rw [h1.2] at l
      constructor
      · rcases l.1 with h | ⟨q, hq, hn, h⟩
        · rw [h]
          split_ifs with hc
          · exact Or.inl rfl
          · rcases min_choice (Spec.ereal b.min[i]) (Spec.ereal p[i]) with h' | h' <;> rw [h']
            · exact Or.inl rfl
            · exact Or.inr ⟨p, by simp, hc, rfl⟩
        · exact Or.inr ⟨q, by simp [hq], hn, h⟩
      · rintro e (rfl | ⟨q, hq, hn, rfl⟩)
        · refine (l.2 (Or.inl rfl)).trans ?_
          split_ifs
          · exact le_rfl
          · exact min_le_left _ _
        · rcases List.mem_cons.1 hq with rfl | hq
          · refine (l.2 (Or.inl rfl)).trans ?_
            rw [if_neg hn]; exact min_le_right _ _
          · exact l.2 (Or.inr ⟨q, hq, hn, rfl⟩)
    · rw [h2.2] at g
      constructor
      · rcases g.1 with h | ⟨q, hq, hn, h⟩
        · rw [h]
          split_ifs with hc
          · exact Or.inl rfl
          · rcases max_choice (Spec.ereal b.max[i]) (Spec.ereal p[i]) with h' | h' <;> rw [h']
            · exact Or.inl rfl
            · exact Or.inr ⟨p, by simp, hc, rfl⟩
        · exact Or.inr ⟨q, by simp [hq], hn, h⟩
      · rintro e (rfl | ⟨q, hq, hn, rfl⟩)
        · refine le_trans ?_ (g.2 (Or.inl rfl))
          split_ifs
          · exact le_rfl
          · exact le_max_left _ _
        · rcases List.mem_cons.1 hq with rfl | hq
          · refine le_trans ?_ (g.2 (Or.inl rfl))
            rw [if_neg hn]; exact le_max_right _ _
          · exact g.2 (Or.inr ⟨q, hq, hn, rfl⟩)

/-- **C111** `setEmpty()` and then `merge( point )` for a set of points gives their exact bounding box: in every coordinate in which no point is infinite and
some point is not NaN, the corners are the least and the greatest of the points' finite coordinates. `maxT` is `numeric_limits< T >::max()`. -/
theorem C111_bounding (cfg : Cfg) (b : Box (Fp F)) (maxT : Fp F) (hm : maxT.Finite) (hv : maxT.val = F.maxFinite) (ps : List (Vec 3 (Fp F))) :
    ∃ e, b.setEmpty cfg maxT = .ok e ∧ ∀ i : Fin 3, (∀ p ∈ ps, p[i] = .nan ∨ p[i].Finite) → (∃ p ∈ ps, p[i].Finite) →
      (ps.foldl Box.mergePoint e).min[i].Finite ∧ (ps.foldl Box.mergePoint e).max[i].Finite ∧
      IsLeast {x | ∃ p ∈ ps, p[i].Finite ∧ p[i].val = x} (ps.foldl Box.mergePoint e).min[i].val ∧
      IsGreatest {x | ∃ p ∈ ps, p[i].Finite ∧ p[i].val = x} (ps.foldl Box.mergePoint e).max[i].val := by
  refine ⟨⟨Vector.replicate 3 maxT, Vector.replicate 3 (-maxT)⟩, ?_, ?_⟩
  · simp only [Box.setEmpty, Vec.assignFiller_eq, bind_ok, pure_ok]
  intro i hall hex
  set e : Box (Fp F) := ⟨Vector.replicate 3 maxT, Vector.replicate 3 (-maxT)⟩ with he
  have e1 : e.min[i] = maxT := by simp [he]
  have e2 : e.max[i] = -maxT := by simp [he]
  have hmn : (-maxT).Finite := Fp.finite_neg hm
  have hmv : (-maxT).val = -F.maxFinite := by rw [Fp.val_neg, hv]
  obtain ⟨n1, n2, l, g⟩ := C111_points e ps i ⟨by rw [e1]; exact hm.ne_nan, by rw [e2]; exact hmn.ne_nan⟩
  rw [e1, Fp.ereal_val hm, hv] at l
  rw [e2, Fp.ereal_val hmn, hmv] at g
  generalize (ps.foldl Box.mergePoint e).min[i] = mn at *
  generalize (ps.foldl Box.mergePoint e).max[i] = mx at *
  have fin_of : ∀ {a : Fp F} {x : ℝ}, a ≠ .nan → Spec.ereal a = (x : EReal) → a.Finite := by
    intro a x hn h
    cases a with
    | nan => exact absurd rfl hn
    | inf s => cases s <;> simp [Spec.ereal, Fp.ext] at h
    | fin s m hm => trivial
  have hfin : ∀ p ∈ ps, p[i] ≠ .nan → p[i].Finite := fun p hp hn => (hall p hp).resolve_left hn
  have f1 : mn.Finite := by
    rcases l.1 with h | ⟨q, hq, hn, h⟩
    · exact fin_of n1 h
    · exact fin_of n1 (h.symm.trans (Fp.ereal_val (hfin q hq hn)))
  have f2 : mx.Finite := by
    rcases g.1 with h | ⟨q, hq, hn, h⟩
    · exact fin_of n2 h
    · exact fin_of n2 (h.symm.trans (Fp.ereal_val (hfin q hq hn)))
  rw [Fp.ereal_val f1] at l
  rw [Fp.ereal_val f2] at g
  have lb : ∀ p ∈ ps, p[i].Finite → mn.val ≤ p[i].val := by
    intro p hp hf
    have := l.2 (Or.inr ⟨p, hp, hf.ne_nan, Fp.ereal_val hf⟩)
    exact_mod_cast this
  have ub : ∀ p ∈ ps, p[i].Finite → p[i].val ≤ mx.val := by
    intro p hp hf
    have := g.2 (Or.inr ⟨p, hp, hf.ne_nan, Fp.ereal_val hf⟩)
    exact_mod_cast this
  obtain ⟨p0, hp0, hf0⟩ := hex
  have hbd := abs_le.1 (Fp.abs_val_le p0[i])
  refine ⟨f1, f2, ⟨?_, ?_⟩, ⟨?_, ?_⟩⟩
  · rcases l.1 with h | ⟨q, hq, hn, h⟩
    · have h' : mn.val = F.maxFinite := by exact_mod_cast h
      refine ⟨p0, hp0, hf0, ?_⟩
      have := lb p0 hp0 hf0
      linarith [hbd.2]
    · rw [Fp.ereal_val (hfin q hq hn)] at h
      exact ⟨q, hq, hfin q hq hn, by exact_mod_cast h⟩
  · rintro x ⟨p, hp, hf, rfl⟩; exact lb p hp hf
  · rcases g.1 with h | ⟨q, hq, hn, h⟩
    · have h' : mx.val = -F.maxFinite := by exact_mod_cast h
      refine ⟨p0, hp0, hf0, ?_⟩
      have := ub p0 hp0 hf0
      linarith [hbd.1]
    · rw [Fp.ereal_val (hfin q hq hn)] at h
      exact ⟨q, hq, hfin q hq hn, by exact_mod_cast h⟩
  · rintro x ⟨p, hp, hf, rfl⟩; exact ub p hp hf

/-- **C111** A NaN corner stays: no history of `merge( point )` replaces it. -/
theorem C111_nan_corner (b : Box (Fp F)) (ps : List (Vec 3 (Fp F))) (i : Fin 3) :
    (b.min[i] = .nan → (ps.foldl Box.mergePoint b).min[i] = .nan) ∧ (b.max[i] = .nan → (ps.foldl Box.mergePoint b).max[i] = .nan) := by
  induction ps generalizing b with
  | nil => exact ⟨id, id⟩
  | cons p ps ih =>
    obtain ⟨e1, e2⟩ := merge_get b ⟨p, p⟩ i
    rw [← mergePoint_box] at e1 e2
    rw [List.foldl_cons]
    refine ⟨fun h => (ih _).1 ?_, fun h => (ih _).2 ?_⟩
    · rw [e1, h, if_neg (Fp.not_lt_nan_right _)]
    · rw [e2, h, if_neg (Fp.not_lt_nan_left _)]

/-! ## Non-vacuity -/

private noncomputable def pow2 (e : Int) (h1 : single.emin ≤ e) (h2 : e ≤ 127) : Fp single :=
  .fin false ((2 : ℝ) ^ e) ⟨by positivity, rep_pow (by simp only [emin] at h1 ⊢; omega), by
    calc (2 : ℝ) ^ e ≤ (2 : ℝ) ^ (127 : Int) := zpow_le_zpow_right₀ (by norm_num) h2
      _ ≤ _ := by norm_num [maxFinite]⟩

example (cfg : Cfg) := C111_center (F := single) (by norm_num) (by norm_num) cfg
  ⟨#v[0, 0, 0], #v[pow2 3 (by norm_num [emin]) (by norm_num), pow2 0 (by norm_num [emin]) (by norm_num), 0]⟩
  (pow2 (-1) (by norm_num [emin]) (by norm_num)) trivial (by norm_num [pow2])
  (by intro i; fin_cases i <;> exact ⟨trivial, trivial⟩) (by intro i; fin_cases i <;> norm_num [pow2, Fp.val])
  (by intro i; fin_cases i <;> norm_num [pow2, Fp.val, maxFinite])

example (cfg : Cfg) := C111_center_overflow (F := single) (by norm_num) cfg
  ⟨#v[-pow2 127 (by norm_num [emin]) (by norm_num), 0, 0], #v[pow2 127 (by norm_num [emin]) (by norm_num), 0, 0]⟩
  (pow2 (-1) (by norm_num [emin]) (by norm_num)) trivial (by norm_num [pow2]) 0 trivial trivial (by
    show (2 : ℝ) ^ (((127 : Nat) : Int) + 1) ≤ (2 : ℝ) ^ (127 : Int) - -(2 : ℝ) ^ (127 : Int)
    norm_num)

/-- A NaN coordinate is ignored. -/
example : (∀ p ∈ [#v[(0 : Fp single), 0, 0], #v[.nan, pow2 3 (by norm_num [emin]) (by norm_num), 0]], p[0] = .nan ∨ p[0].Finite) ∧
    ∃ p ∈ [#v[(0 : Fp single), 0, 0], #v[.nan, pow2 3 (by norm_num [emin]) (by norm_num), 0]], p[0].Finite := by
  refine ⟨?_, #v[0, 0, 0], by simp, trivial⟩
  intro p hp
  rcases List.mem_cons.1 hp with rfl | hp
  · exact Or.inr trivial
  · rw [List.mem_singleton] at hp; subst hp; exact Or.inl rfl

/-- `numeric_limits< float >::max()`. -/
example : (Fp.fin false single.maxFinite ⟨maxFinite_pos.le, rep_max (by norm_num), le_rfl⟩ : Fp single).val = single.maxFinite := rfl

end Vmml
