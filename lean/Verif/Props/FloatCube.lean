import Verif.Props.FloatOrder
import Verif.Props.FloatCull
import Verif.Props.FloatCast
import Verif.Props.Aabb
import Verif.Props.FloatQuantize

/-!
# C162: cubes around a point, in IEEE arithmetic

`AABB( cx, cy, cz, size )` and `set( cx, cy, cz, size )`.
-/

namespace Vmml
open Format
variable {F : Format}

private theorem sum_cases {a b : Fp F} (ha : a.Finite) (hb : b.Finite) :
    ((a + b).Finite ∧ (a + b).val = F.rnd (a.val + b.val)) ∨ (a + b = .inf false ∧ F.maxFinite < F.rnd (a.val + b.val)) ∨ (a + b = .inf true ∧ F.rnd (a.val + b.val) < -F.maxFinite) := by
  by_cases hf : (a + b).Finite
  · exact .inl ⟨hf, (Fp.add_finite hf).2.2⟩
  right
  obtain ⟨s, m, hm, rfl⟩ := Fp.finite_cases ha
  obtain ⟨t, k, hk, rfl⟩ := Fp.finite_cases hb
  by_cases h0 : (Fp.fin s m hm : Fp F).val + (Fp.fin t k hk : Fp F).val = 0
  · exfalso
    have : (Fp.fin s m hm + Fp.fin t k hk : Fp F) = .fin (s && t) 0 Format.mag_zero := by
      show (if _ = (0 : ℝ) then _ else _) = _
      rw [if_pos h0]
    rw [this] at hf
    exact hf trivial
  · have e : (Fp.fin s m hm + Fp.fin t k hk : Fp F) = .round (@decide ((Fp.fin s m hm : Fp F).val + (Fp.fin t k hk : Fp F).val < 0) (Classical.propDecidable _)) |(Fp.fin s m hm : Fp F).val + (Fp.fin t k hk : Fp F).val| := by
      show (if _ = (0 : ℝ) then _ else _) = _
      rw [if_neg h0]
    rw [e] at hf ⊢
    generalize (Fp.fin s m hm : Fp F).val + (Fp.fin t k hk : Fp F).val = x at *
    have hbig : F.maxFinite < F.rnd |x| := by
      by_contra hc
      apply hf
      unfold Fp.round
      rw [dif_pos ⟨abs_nonneg x, not_lt.1 hc⟩]
      trivial
    have ei : ∀ σ, (Fp.round σ |x| : Fp F) = .inf σ := fun σ => dif_neg fun h => absurd h.2 (not_le.2 hbig)
    rw [ei]
    rcases lt_or_gt_of_ne h0 with hx | hx
    · right
      rw [abs_of_neg hx, rnd_neg] at hbig
      exact ⟨by simp [hx], by linarith⟩
    · left
      rw [abs_of_pos hx] at hbig
      exact ⟨by simp [hx.le], hbig⟩

private theorem above {a b p : Fp F} (ha : a.Finite) (hb : b.Finite) (hp : p.Finite) : ¬ p > a + b ↔ p.val ≤ F.rnd (a.val + b.val) := by
  have hm := abs_le.1 (Fp.abs_val_le p)
  rcases sum_cases ha hb with ⟨h1, h2⟩ | ⟨h1, h2⟩ | ⟨h1, h2⟩
  · rw [gt_iff_lt, Fp.lt_val h1 hp, h2, not_lt]
  · rw [h1, gt_iff_lt, Fp.lt_iff (by simp) hp.ne_nan]
    exact iff_of_true not_top_lt (by linarith)
  · rw [h1, gt_iff_lt, Fp.lt_iff (by simp) hp.ne_nan, Fp.ereal_val hp]
    exact iff_of_false (not_not.2 (EReal.bot_lt_coe _)) (by linarith)

private theorem below {a b p : Fp F} (ha : a.Finite) (hb : b.Finite) (hp : p.Finite) : ¬ p < a - b ↔ F.rnd (a.val - b.val) ≤ p.val := by
  have hm := abs_le.1 (Fp.abs_val_le p)
  have hs : a - b = a + -b := rfl
  have hc := sum_cases ha (Fp.finite_neg hb)
  rw [Fp.val_neg, ← sub_eq_add_neg] at hc
  rw [hs]
  rcases hc with ⟨h1, h2⟩ | ⟨h1, h2⟩ | ⟨h1, h2⟩
  · rw [Fp.lt_val hp h1, h2, not_lt]
  · rw [h1, Fp.lt_iff hp.ne_nan (by simp), Fp.ereal_val hp]
    exact iff_of_false (not_not.2 (EReal.coe_lt_top _)) (by linarith)
  · rw [h1, Fp.lt_iff hp.ne_nan (by simp)]
    exact iff_of_true not_lt_bot (by linarith)

/-- **C162** Which finite points are in the cube, exactly: those between the rounded corners, also when a corner overflows. Constructing and setting the cube give the same box. -/
theorem C162_cube (cfg : Cfg) (c p : Vec 3 (Fp F)) (s : Fp F) (hc : Spec.VFinite c) (hs : s.Finite) (hp : Spec.VFinite p) (old : Box (Fp F)) :
    ∃ b, Box.ctorCube cfg c[0] c[1] c[2] s = .ok b ∧ old.setCube cfg c[0] c[1] c[2] s = .ok b ∧
      (b.isIn p = true ↔ ∀ i : Fin 3, F.rnd (c[i].val - s.val) ≤ p[i].val ∧ p[i].val ≤ F.rnd (c[i].val + s.val)) ∧
      (b.isIn2d p = true ↔ ∀ i : Fin 3, i ≠ 2 → F.rnd (c[i].val - s.val) ≤ p[i].val ∧ p[i].val ≤ F.rnd (c[i].val + s.val)) := by
  obtain ⟨h1, h2⟩ := C73_cube cfg old c[0] c[1] c[2] s
  rw [h1] at h2
  refine ⟨_, h2, h1, ?_, ?_⟩
  · have a0 := above (hc 0) hs (hp 0)
    have a1 := above (hc 1) hs (hp 1)
    have a2 := above (hc 2) hs (hp 2)
    have b0 := below (hc 0) hs (hp 0)
    have b1 := below (hc 1) hs (hp 1)
    have b2 := below (hc 2) hs (hp 2)
    rw [Fin.forall_fin_succ, Fin.forall_fin_succ, Fin.forall_fin_succ]
    simp only [IsEmpty.forall_iff, and_true, Fin.succ_zero_eq_one, Fin.succ_one_eq_two]
    rw [← a0, ← a1, ← a2, ← b0, ← b1, ← b2]
    unfold Box.isIn
    simp only [Bool.if_false_left, Bool.and_true, Bool.not_eq_true', decide_eq_false_iff_not, not_or]
    exact ⟨fun ⟨x1, x2, x3, x4, x5, x6⟩ => ⟨⟨x4, x1⟩, ⟨x5, x2⟩, ⟨x6, x3⟩⟩, fun ⟨⟨x4, x1⟩, ⟨x5, x2⟩, ⟨x6, x3⟩⟩ => ⟨x1, x2, x3, x4, x5, x6⟩⟩
  · have a0 := above (hc 0) hs (hp 0)
    have a1 := above (hc 1) hs (hp 1)
    have b0 := below (hc 0) hs (hp 0)
    have b1 := below (hc 1) hs (hp 1)
    have e : (∀ i : Fin 3, i ≠ 2 → F.rnd (c[i].val - s.val) ≤ p[i].val ∧ p[i].val ≤ F.rnd (c[i].val + s.val)) ↔
        (F.rnd (c[(0 : Fin 3)].val - s.val) ≤ p[(0 : Fin 3)].val ∧ p[(0 : Fin 3)].val ≤ F.rnd (c[(0 : Fin 3)].val + s.val)) ∧
        (F.rnd (c[(1 : Fin 3)].val - s.val) ≤ p[(1 : Fin 3)].val ∧ p[(1 : Fin 3)].val ≤ F.rnd (c[(1 : Fin 3)].val + s.val)) := by
      constructor
      · exact fun h => ⟨h 0 (by decide), h 1 (by decide)⟩
      · rintro ⟨h0, h1⟩ i hi
        match i with
        | 0 => exact h0
        | 1 => exact h1
        | 2 => exact absurd rfl hi
    rw [e, ← a0, ← a1, ← b0, ← b1]
    unfold Box.isIn2d
    simp only [Bool.if_false_left, Bool.and_true, Bool.not_eq_true', decide_eq_false_iff_not, not_or]
    exact ⟨fun ⟨x1, x2, x4, x5⟩ => ⟨⟨x4, x1⟩, ⟨x5, x2⟩⟩, fun ⟨⟨x4, x1⟩, ⟨x5, x2⟩⟩ => ⟨x1, x2, x4, x5⟩⟩

/-- **C162** No point of the exact cube is lost: every finite point whose coordinates differ from the centre by at most `size` is in. In particular the centre is, if `size` is not negative. -/
theorem C162_complete (cfg : Cfg) (c p : Vec 3 (Fp F)) (s : Fp F) (hc : Spec.VFinite c) (hs : s.Finite) (hp : Spec.VFinite p) (h : ∀ i : Fin 3, |p[i].val - c[i].val| ≤ s.val) :
    ∃ b, Box.ctorCube cfg c[0] c[1] c[2] s = .ok b ∧ b.isIn p = true ∧ b.isIn2d p = true := by
  obtain ⟨b, h1, -, h3, h4⟩ := C162_cube cfg c p s hc hs hp ⟨c, c⟩
  have k : ∀ i : Fin 3, F.rnd (c[i].val - s.val) ≤ p[i].val ∧ p[i].val ≤ F.rnd (c[i].val + s.val) := by
    intro i
    obtain ⟨l, r⟩ := abs_le.1 (h i)
    exact ⟨rnd_le_rep (Fp.rep_val (hp i)) (by linarith), rep_le_rnd (Fp.rep_val (hp i)) (by linarith)⟩
  exact ⟨b, h1, h3.2 k, h4.2 fun i _ => k i⟩

/-- **C162** And no point far outside gets in: a point that is in differs from the centre by at most `size` and one rounding of the corner. -/
theorem C162_sound (cfg : Cfg) (c p : Vec 3 (Fp F)) (s : Fp F) (hc : Spec.VFinite c) (hs : s.Finite) (hp : Spec.VFinite p) (b : Box (Fp F)) (hb : Box.ctorCube cfg c[0] c[1] c[2] s = .ok b)
    (h : b.isIn p = true) (i : Fin 3) : |p[i].val - c[i].val| ≤ s.val + F.u * (|c[i].val| + |s.val|) := by
  obtain ⟨b', h1, -, h3, -⟩ := C162_cube cfg c p s hc hs hp ⟨c, c⟩
  rw [hb] at h1
  cases h1
  obtain ⟨l, r⟩ := h3.1 h i
  have g1 : F.Grid (c[i].val + s.val) := (Fp.rep_val (hc i)).grid.add (Fp.rep_val hs).grid
  have g2 : F.Grid (c[i].val - s.val) := by rw [sub_eq_add_neg]; exact (Fp.rep_val (hc i)).grid.add (Fp.rep_val hs).grid.neg
  have e1 := (abs_le.1 g1.rnd_err).2
  have e2 := (abs_le.1 g2.rnd_err).1
  have t1 := mul_le_mul_of_nonneg_left (abs_add_le c[i].val s.val) F.u_pos.le
  have t2 := mul_le_mul_of_nonneg_left (abs_sub c[i].val s.val) F.u_pos.le
  rw [abs_le]
  constructor <;> linarith

/-- **C162** A larger size gives a larger cube, exactly. -/
theorem C162_monotone (cfg : Cfg) (c p : Vec 3 (Fp F)) (s t : Fp F) (hc : Spec.VFinite c) (hs : s.Finite) (ht : t.Finite) (hst : s.val ≤ t.val) (hp : Spec.VFinite p) :
    ∃ b d, Box.ctorCube cfg c[0] c[1] c[2] s = .ok b ∧ Box.ctorCube cfg c[0] c[1] c[2] t = .ok d ∧ (b.isIn p = true → d.isIn p = true) ∧ (b.isIn2d p = true → d.isIn2d p = true) := by
  obtain ⟨b, h1, -, h3, h4⟩ := C162_cube cfg c p s hc hs hp ⟨c, c⟩
  obtain ⟨d, k1, -, k3, k4⟩ := C162_cube cfg c p t hc ht hp ⟨c, c⟩
  have m : ∀ i : Fin 3, F.rnd (c[i].val - s.val) ≤ p[i].val ∧ p[i].val ≤ F.rnd (c[i].val + s.val) → F.rnd (c[i].val - t.val) ≤ p[i].val ∧ p[i].val ≤ F.rnd (c[i].val + t.val) := fun i h =>
    ⟨(rnd_mono (by linarith)).trans h.1, h.2.trans (rnd_mono (by linarith))⟩
  exact ⟨b, d, h1, k1, fun h => k3.2 fun i => m i (h3.1 h i), fun h => k4.2 fun i hi => m i (h4.1 h i hi)⟩

/-- The hypotheses are met by the cube of size `2` around `(1, 2, 3)` and the point `(3, 0, 4)`, which is in. -/
example (cfg : Cfg) : ∃ (c p : Vec 3 (Fp single)) (s : Fp single), c[0].val = 1 ∧ c[1].val = 2 ∧ c[2].val = 3 ∧ p[0].val = 3 ∧ p[1].val = 0 ∧ p[2].val = 4 ∧ s.val = 2 ∧
    ∃ b, Box.ctorCube cfg c[0] c[1] c[2] s = .ok b ∧ b.isIn p = true ∧ b.isIn2d p = true := by
  have mk : ∀ k : Int, |k| ≤ 4 → ∃ x : Fp single, x.Finite ∧ x.val = k := by
    intro k hk
    obtain ⟨h1, h2⟩ := Quant.ofReal_int (F := single) (by decide) (k := k) (hk.trans (by decide))
    exact ⟨_, h1, h2⟩
  obtain ⟨x0, f0, v0⟩ := mk 0 (by decide)
  obtain ⟨x1, f1, v1⟩ := mk 1 (by decide)
  obtain ⟨x2, f2, v2⟩ := mk 2 (by decide)
  obtain ⟨x3, f3, v3⟩ := mk 3 (by decide)
  obtain ⟨x4, f4, v4⟩ := mk 4 (by decide)
  push_cast at v0 v1 v2 v3 v4
  refine ⟨#v[x1, x2, x3], #v[x3, x0, x4], x2, v1, v2, v3, v3, v0, v4, v2, C162_complete cfg #v[x1, x2, x3] #v[x3, x0, x4] x2 ?_ f2 ?_ ?_⟩
  · intro i
    match i with
    | 0 => exact f1
    | 1 => exact f2
    | 2 => exact f3
  · intro i
    match i with
    | 0 => exact f3
    | 1 => exact f0
    | 2 => exact f4
  · intro i
    match i with
    | 0 => show |x3.val - x1.val| ≤ x2.val; rw [v1, v2, v3]; norm_num
    | 1 => show |x0.val - x2.val| ≤ x2.val; rw [v0, v2]; norm_num
    | 2 => show |x4.val - x3.val| ≤ x2.val; rw [v2, v3, v4]; norm_num
end Vmml
