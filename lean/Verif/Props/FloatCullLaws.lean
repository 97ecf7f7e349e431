import Verif.Props.FloatLaws
import Verif.Props.FloatCull

/-!
# C130: laws of culling that hold exactly in IEEE 754 arithmetic
-/

namespace Vmml
open Format Culler
variable {F : Format} {α : Type}

/-- No comparison tells the two apart: both are NaN, or they are the same point of the extended real line (`+0` and `-0` are). -/
def Spec.Alike (a b : Fp F) : Prop := (a = .nan ∧ b = .nan) ∨ Spec.Same a b
/-- The value of the plane equation at a point, evaluated from left to right in IEEE arithmetic. -/
noncomputable def Spec.planeValue (p : Vec 4 (Fp F)) (x y z : Fp F) : Fp F := p[0] * x + p[1] * y + p[2] * z + p[3]
/-- The same with the sign changed if the coordinate is mirrored. -/
def Spec.flip (b : Bool) (a : Fp F) : Fp F := if b then -a else a
/-- A plane mirrored in some of the coordinates. -/
def Spec.mirror (b0 b1 b2 : Bool) (p : Vec 4 (Fp F)) : Vec 4 (Fp F) := #v[Spec.flip b0 p[0], Spec.flip b1 p[1], Spec.flip b2 p[2], p[3]]
/-- A culler with every plane replaced. -/
def Spec.eachPlane (f : Vec 4 α → Vec 4 α) (k : Culler α) : Culler α := ⟨f k.left, f k.right, f k.bottom, f k.top, f k.near, f k.far⟩

/-! ## The relation `Alike` -/

theorem Spec.Alike.refl (a : Fp F) : Spec.Alike a a := by
  by_cases h : a = .nan
  · exact .inl ⟨h, h⟩
  · exact .inr ⟨h, h, rfl⟩

theorem Spec.Alike.of_eq {a b : Fp F} (h : a = b) : Spec.Alike a b := h ▸ Spec.Alike.refl a

theorem Spec.Alike.symm {a b : Fp F} (h : Spec.Alike a b) : Spec.Alike b a := by
  rcases h with ⟨h1, h2⟩ | ⟨h1, h2, h3⟩
  · exact .inl ⟨h2, h1⟩
  · exact .inr ⟨h2, h1, h3.symm⟩

theorem Spec.Alike.trans {a b c : Fp F} (h : Spec.Alike a b) (k : Spec.Alike b c) : Spec.Alike a c := by
  rcases h with ⟨h1, h2⟩ | ⟨h1, h2, h3⟩ <;> rcases k with ⟨k1, k2⟩ | ⟨k1, k2, k3⟩
  · exact .inl ⟨h1, k2⟩
  · exact absurd h2 k1
  · exact absurd k1 h2
  · exact .inr ⟨h1, k2, h3.trans k3⟩

/-- Alike values are equal, or both are zeros. -/
theorem Spec.Alike.cases {a b : Fp F} (h : Spec.Alike a b) : a = b ∨ (∃ s t, a = .fin s 0 mag_zero ∧ b = .fin t 0 mag_zero) := by
  rcases h with ⟨h1, h2⟩ | ⟨h1, h2, h3⟩
  · exact .inl (h1.trans h2.symm)
  cases a with
  | nan => exact absurd rfl h1
  | inf s => cases b with
    | nan => exact absurd rfl h2
    | inf t =>
      left
      cases s <;> cases t <;> first | rfl | exact absurd h3 (by show ¬ (_ : EReal) = _; simp [Spec.ereal, Fp.ext])
    | fin t n k =>
      rw [Fp.ereal_val (a := (.fin t n k : Fp F)) trivial] at h3
      exact absurd h3 (by cases s <;> simp [Spec.ereal, Fp.ext])
  | fin s m hm => cases b with
    | nan => exact absurd rfl h2
    | inf t =>
      rw [Fp.ereal_val (a := (.fin s m hm : Fp F)) trivial] at h3
      exact absurd h3 (by cases t <;> simp [Spec.ereal, Fp.ext])
    | fin t n hn =>
      rw [Fp.ereal_val (a := (.fin s m hm : Fp F)) trivial, Fp.ereal_val (a := (.fin t n hn : Fp F)) trivial] at h3
      have h4 : (Fp.fin s m hm : Fp F).val = (Fp.fin t n hn : Fp F).val := by exact_mod_cast h3
      have hm0 := hm.1
      have hn0 := hn.1
      by_cases hz : m = 0
      · subst hz
        have : n = 0 := by cases s <;> cases t <;> simp at h4 <;> first | exact h4.symm | exact h4
        subst this
        exact .inr ⟨s, t, rfl, rfl⟩
      · have hm1 : 0 < m := lt_of_le_of_ne hm0 (Ne.symm hz)
        left
        cases s <;> cases t <;> simp at h4 <;> first | (subst h4; rfl) | (exfalso; linarith)

theorem Spec.Alike.zeros (s t : Bool) : Spec.Alike (.fin s 0 mag_zero : Fp F) (.fin t 0 mag_zero) := by
  refine .inr ⟨fun h => (by cases h), fun h => (by cases h), ?_⟩
  rw [Fp.ereal_val (a := (.fin s 0 mag_zero : Fp F)) trivial, Fp.ereal_val (a := (.fin t 0 mag_zero : Fp F)) trivial]
  cases s <;> cases t <;> simp

theorem Spec.Alike.neg {a b : Fp F} (h : Spec.Alike a b) : Spec.Alike (-a) (-b) := by
  rcases Spec.Alike.cases h with rfl | ⟨s, t, rfl, rfl⟩
  · exact Spec.Alike.refl _
  · exact Spec.Alike.zeros _ _

theorem Spec.Alike.fabs {a b : Fp F} (h : Spec.Alike a b) : Spec.Alike (CMath.fabs a) (CMath.fabs b) := by
  rcases Spec.Alike.cases h with rfl | ⟨s, t, rfl, rfl⟩
  · exact Spec.Alike.refl _
  · exact Spec.Alike.refl _

theorem Spec.Alike.add_left {a b : Fp F} (c : Fp F) (h : Spec.Alike a b) : Spec.Alike (a + c) (b + c) := by
  rcases Spec.Alike.cases h with rfl | ⟨s, t, rfl, rfl⟩
  · exact Spec.Alike.refl _
  cases c with
  | nan => exact Spec.Alike.refl _
  | inf u => exact Spec.Alike.refl _
  | fin u n hn =>
    have e : ∀ s : Bool, ((.fin s 0 mag_zero : Fp F) + .fin u n hn) = if (Fp.fin u n hn : Fp F).val = 0 then .fin (s && u) 0 mag_zero
        else .round (@decide ((Fp.fin u n hn : Fp F).val < 0) (Classical.propDecidable _)) |(Fp.fin u n hn : Fp F).val| := by
      intro s
      have : (Fp.fin s 0 mag_zero : Fp F).val + (Fp.fin u n hn : Fp F).val = (Fp.fin u n hn : Fp F).val := by cases s <;> simp
      conv_rhs => rw [← this]
      rfl
    rw [e, e]
    split_ifs
    · exact Spec.Alike.zeros _ _
    · exact Spec.Alike.refl _

theorem Spec.Alike.add {a b c d : Fp F} (h : Spec.Alike a b) (k : Spec.Alike c d) : Spec.Alike (a + c) (b + d) := by
  refine (Spec.Alike.add_left c h).trans ?_
  rw [Fp.add_comm' b c, Fp.add_comm' b d]
  exact Spec.Alike.add_left b k

theorem Spec.Alike.sub {a b c d : Fp F} (h : Spec.Alike a b) (k : Spec.Alike c d) : Spec.Alike (a - c) (b - d) := h.add k.neg

theorem Spec.Alike.mul_left {a b : Fp F} (c : Fp F) (h : Spec.Alike a b) : Spec.Alike (a * c) (b * c) := by
  rcases Spec.Alike.cases h with rfl | ⟨s, t, rfl, rfl⟩
  · exact Spec.Alike.refl _
  cases c with
  | nan => exact Spec.Alike.refl _
  | inf u =>
    have e : ∀ s : Bool, ((.fin s 0 mag_zero : Fp F) * .inf u) = .nan := by intro s; show (if (0 : ℝ) = 0 then _ else _) = _; rw [if_pos rfl]
    rw [e, e]; exact Spec.Alike.refl _
  | fin u n hn =>
    have e : ∀ s : Bool, ((.fin s 0 mag_zero : Fp F) * .fin u n hn) = .fin (s ^^ u) 0 mag_zero := by
      intro s
      show Fp.round (s ^^ u) (0 * n) = _
      rw [zero_mul, Fp.round_eq le_rfl (by rw [rnd_zero]; exact maxFinite_pos.le)]
      congr 1
      exact rnd_zero
    rw [e, e]
    exact Spec.Alike.zeros _ _

theorem Spec.Alike.mul {a b c d : Fp F} (h : Spec.Alike a b) (k : Spec.Alike c d) : Spec.Alike (a * c) (b * d) := by
  refine (Spec.Alike.mul_left c h).trans ?_
  rw [Fp.mul_comm' b c, Fp.mul_comm' b d]
  exact Spec.Alike.mul_left b k

theorem Spec.Alike.le {a b c d : Fp F} (h : Spec.Alike a b) (k : Spec.Alike c d) : a ≤ c ↔ b ≤ d := by
  rcases h with ⟨h1, h2⟩ | ⟨h1, h2, h3⟩
  · subst h1; subst h2
    exact ⟨fun h => absurd h (Fp.not_le_nan_left _), fun h => absurd h (Fp.not_le_nan_left _)⟩
  rcases k with ⟨k1, k2⟩ | ⟨k1, k2, k3⟩
  · subst k1; subst k2
    exact ⟨fun h => absurd h (Fp.not_le_nan_right _), fun h => absurd h (Fp.not_le_nan_right _)⟩
  rw [Fp.le_iff h1 k1, Fp.le_iff h2 k2, h3, k3]

theorem Spec.Alike.lt {a b c d : Fp F} (h : Spec.Alike a b) (k : Spec.Alike c d) : a < c ↔ b < d := by
  rcases h with ⟨h1, h2⟩ | ⟨h1, h2, h3⟩
  · subst h1; subst h2
    exact ⟨fun h => absurd h (Fp.not_lt_nan_left _), fun h => absurd h (Fp.not_lt_nan_left _)⟩
  rcases k with ⟨k1, k2⟩ | ⟨k1, k2, k3⟩
  · subst k1; subst k2
    exact ⟨fun h => absurd h (Fp.not_lt_nan_right _), fun h => absurd h (Fp.not_lt_nan_right _)⟩
  rw [Fp.lt_iff h1 k1, Fp.lt_iff h2 k2, h3, k3]

/-- The sum of the opposites is the opposite of the sum, up to the sign of zero. -/
theorem Spec.Alike.neg_add (a b : Fp F) : Spec.Alike (-a + -b) (-(a + b)) := by
  cases a with
  | nan => exact Spec.Alike.refl _
  | inf s => cases b with
    | nan => exact Spec.Alike.refl _
    | inf t =>
      cases s <;> cases t <;> exact Spec.Alike.refl _
    | fin t n hn => exact Spec.Alike.refl _
  | fin s m hm => cases b with
    | nan => exact Spec.Alike.refl _
    | inf t => exact Spec.Alike.refl _
    | fin t n hn =>
      obtain ⟨x, hx⟩ : ∃ x, x = (Fp.fin s m hm : Fp F).val + (Fp.fin t n hn : Fp F).val := ⟨_, rfl⟩
      have hx' : (Fp.fin (!s) m hm : Fp F).val + (Fp.fin (!t) n hn : Fp F).val = -x := by rw [hx]; cases s <;> cases t <;> simp <;> ring
      have e : (Fp.fin s m hm + Fp.fin t n hn : Fp F) = if x = 0 then .fin (s && t) 0 mag_zero else .round (@decide (x < 0) (Classical.propDecidable _)) |x| := by rw [hx]; rfl
      have e' : (-Fp.fin s m hm + -Fp.fin t n hn : Fp F) = if -x = 0 then .fin (!s && !t) 0 mag_zero else .round (@decide (-x < 0) (Classical.propDecidable _)) |-x| := by rw [← hx']; rfl
      rw [e, e', abs_neg]
      by_cases h : x = 0
      · rw [if_pos h, if_pos (by rw [h, neg_zero])]
        exact Spec.Alike.zeros _ _
      · rw [if_neg h, if_neg (by simpa using h), Fp.neg_round]
        apply Spec.Alike.of_eq
        congr 1
        rcases lt_or_gt_of_ne h with h1 | h1
        · rw [@decide_eq_true _ (Classical.propDecidable _) h1, @decide_eq_false _ (Classical.propDecidable _) (by linarith)]; rfl
        · rw [@decide_eq_false _ (Classical.propDecidable _) (by linarith : ¬ x < 0), @decide_eq_true _ (Classical.propDecidable _) (by linarith : -x < 0)]; rfl

/-! ## Spheres -/

theorem vis_ext {a b : Visibility} (h1 : a = .none ↔ b = .none) (h2 : a = .full ↔ b = .full) : a = b := by
  cases a <;> cases b <;> simp_all

/-- **C130** The verdict of `test_sphere` and of `test_aabb` depends on the set of the six planes only, not on their order, in any arithmetic; with fewer distinct planes the test is never stricter. -/
theorem C130_plane_order [Zero α] [One α] [Add α] [Sub α] [Mul α] [Neg α] [CMath α] [LE α] [DecidableLE α] [LT α] [DecidableLT α] (cfg : Cfg) (half : α)
    (k k' : Culler α) (s : Vec 4 α) (x y z : Vec 2 α) (h : ∀ p ∈ Spec.six k, p ∈ Spec.six k') :
    ((testSphere k s = .none → testSphere k' s = .none) ∧ (testSphere k' s = .full → testSphere k s = .full)) ∧
    (∃ r r', testAabb cfg half k x y z = .ok r ∧ testAabb cfg half k' x y z = .ok r' ∧ (r = .none → r' = .none) ∧ (r' = .full → r = .full)) ∧
    ((∀ p ∈ Spec.six k', p ∈ Spec.six k) → testSphere k s = testSphere k' s ∧ testAabb cfg half k x y z = testAabb cfg half k' x y z) := by
  have key : ∀ k k' : Culler α, (∀ p ∈ Spec.six k, p ∈ Spec.six k') →
      ((testSphere k s = .none → testSphere k' s = .none) ∧ (testSphere k' s = .full → testSphere k s = .full)) ∧
      (∃ r r', testAabb cfg half k x y z = .ok r ∧ testAabb cfg half k' x y z = .ok r' ∧ (r = .none → r' = .none) ∧ (r' = .full → r = .full)) := by
    intro k k' h
    obtain ⟨a1, a2⟩ := sphere_verdict k s
    obtain ⟨b1, b2⟩ := sphere_verdict k' s
    obtain ⟨r, hr, c1, c2⟩ := box_verdict cfg half k x y z
    obtain ⟨r', hr', d1, d2⟩ := box_verdict cfg half k' x y z
    refine ⟨⟨fun h1 => ?_, fun h1 => ?_⟩, r, r', hr, hr', fun h1 => ?_, fun h1 => ?_⟩
    · obtain ⟨p, hp, hd⟩ := a1.1 h1
      exact b1.2 ⟨p, h p hp, hd⟩
    · exact a2.2 fun p hp => b2.1 h1 p (h p hp)
    · obtain ⟨p, hp, hd⟩ := c1.1 h1
      exact d1.2 ⟨p, h p hp, hd⟩
    · exact c2.2 fun p hp => d2.1 h1 p (h p hp)
  obtain ⟨⟨s1, s2⟩, r, r', hr, hr', b1, b2⟩ := key k k' h
  refine ⟨⟨s1, s2⟩, ⟨r, r', hr, hr', b1, b2⟩, fun h' => ?_⟩
  obtain ⟨⟨t1, t2⟩, q, q', hq, hq', c1, c2⟩ := key k' k h'
  rw [hr] at hq'
  rw [hr'] at hq
  cases hq; cases hq'
  refine ⟨vis_ext ⟨s1, t1⟩ ⟨t2, s2⟩, ?_⟩
  rw [hr, hr', vis_ext ⟨b1, c1⟩ ⟨c2, b2⟩]

private theorem sphere_value (k : Culler (Fp F)) (x y z r : Fp F) :
    (testSphere k #v[x, y, z, r] = .none ↔ ∃ p ∈ Spec.six k, Spec.planeValue p x y z ≤ -r) ∧
    (testSphere k #v[x, y, z, r] = .full ↔ ∀ p ∈ Spec.six k, ¬ Spec.planeValue p x y z ≤ -r ∧ ¬ Spec.planeValue p x y z < r) :=
  sphere_verdict k #v[x, y, z, r]

private theorem ereal_neg {a : Fp F} : Spec.ereal (-a) = -Spec.ereal a := by
  cases a with
  | nan => show (0 : EReal) = -0; simp
  | inf s => cases s <;> first | (show (⊥ : EReal) = -⊤; simp) | (show (⊤ : EReal) = -⊥; simp)
  | fin s m hm =>
    rw [Fp.ereal_val (a := (.fin s m hm : Fp F)) trivial, Fp.ereal_val (a := -(.fin s m hm : Fp F)) (Fp.finite_neg (a := (.fin s m hm : Fp F)) trivial), Fp.val_neg]
    rfl

private theorem neg_nan {a : Fp F} : -a = .nan ↔ a = .nan := by
  cases a with
  | nan => exact Iff.rfl
  | inf s => exact ⟨fun h => (by cases h), fun h => (by cases h)⟩
  | fin s m hm => exact ⟨fun h => (by cases h), fun h => (by cases h)⟩

private theorem le_cases {a b : Fp F} (h : a ≤ b) : a ≠ .nan ∧ b ≠ .nan ∧ Spec.ereal a ≤ Spec.ereal b := by
  have ha : a ≠ .nan := by rintro rfl; exact Fp.not_le_nan_left _ h
  have hb : b ≠ .nan := by rintro rfl; exact Fp.not_le_nan_right _ h
  exact ⟨ha, hb, (Fp.le_iff ha hb).1 h⟩

private theorem lt_cases {a b : Fp F} (h : a < b) : a ≠ .nan ∧ b ≠ .nan ∧ Spec.ereal a < Spec.ereal b := by
  have ha : a ≠ .nan := by rintro rfl; exact Fp.not_lt_nan_left _ h
  have hb : b ≠ .nan := by rintro rfl; exact Fp.not_lt_nan_right _ h
  exact ⟨ha, hb, (Fp.lt_iff ha hb).1 h⟩

private theorem ereal_zero : Spec.ereal (0 : Fp F) = 0 := by rw [Fp.ereal_val Fp.finite_zero, Fp.val_zero]; rfl

/-- **C130** Growing a sphere never hides it, exactly and for all numbers (planes and centre may even be infinite or NaN): with radii `0 <= r <= r'`, if the larger sphere is NONE so is
the smaller, and if the larger is FULL so is the smaller. -/
theorem C130_radius (k : Culler (Fp F)) (x y z r r' : Fp F) (h0 : (0 : Fp F) ≤ r) (h : r ≤ r') :
    (testSphere k #v[x, y, z, r'] = .none → testSphere k #v[x, y, z, r] = .none) ∧
    (testSphere k #v[x, y, z, r'] = .full → testSphere k #v[x, y, z, r] = .full) := by
  obtain ⟨a1, a2⟩ := sphere_value k x y z r
  obtain ⟨b1, b2⟩ := sphere_value k x y z r'
  obtain ⟨n1, n2, n3⟩ := le_cases h
  obtain ⟨-, -, n4⟩ := le_cases h0
  rw [ereal_zero] at n4
  constructor
  · intro hn
    obtain ⟨p, hp, hd⟩ := b1.1 hn
    refine a1.2 ⟨p, hp, ?_⟩
    obtain ⟨d1, -, d2⟩ := le_cases hd
    rw [ereal_neg] at d2
    rw [Fp.le_iff d1 (fun h => n1 (neg_nan.1 h)), ereal_neg]
    exact d2.trans (EReal.neg_le_neg_iff.2 n3)
  · intro hf
    refine a2.2 fun p hp => ?_
    obtain ⟨g1, g2⟩ := b2.1 hf p hp
    constructor
    · intro hd
      obtain ⟨d1, -, d2⟩ := le_cases hd
      rw [ereal_neg] at d2
      rw [Fp.lt_iff d1 n2] at g2
      rw [Fp.le_iff d1 (fun h => n2 (neg_nan.1 h)), ereal_neg] at g1
      push Not at g1 g2
      have e1 : -Spec.ereal r ≤ 0 := by rw [← neg_zero, EReal.neg_le_neg_iff]; exact n4
      have e2 : Spec.ereal r' ≤ 0 := g2.trans (d2.trans e1)
      have e3 : (0 : EReal) ≤ -Spec.ereal r' := by rw [← neg_zero, EReal.neg_le_neg_iff]; exact e2
      exact absurd (d2.trans (e1.trans e3)) (not_le.2 g1)
    · intro hd
      obtain ⟨d1, -, d2⟩ := lt_cases hd
      exact g2 ((Fp.lt_iff d1 n2).2 (lt_of_lt_of_le d2 n3))

/-- **C130** A point (radius `+0` or `-0`) is never PARTIAL: it is NONE if the computed value of some plane is zero or negative, and FULL otherwise. -/
theorem C130_point (k : Culler (Fp F)) (x y z r : Fp F) (h : r = 0 ∨ r = -0) :
    (testSphere k #v[x, y, z, r] = .none ↔ ∃ p ∈ Spec.six k, Spec.planeValue p x y z ≤ 0) ∧ testSphere k #v[x, y, z, r] ≠ .partly := by
  obtain ⟨a1, a2⟩ := sphere_value k x y z r
  have e : ∀ d : Fp F, (d ≤ -r ↔ d ≤ 0) ∧ (d < r ↔ d < 0) := by
    intro d
    rcases h with rfl | rfl
    · exact ⟨Spec.Alike.le (Spec.Alike.refl d) (Spec.Alike.zeros _ _), Iff.rfl⟩
    · exact ⟨Spec.Alike.le (Spec.Alike.refl d) (Spec.Alike.zeros _ _), Spec.Alike.lt (Spec.Alike.refl d) (Spec.Alike.zeros _ _)⟩
  have hn : testSphere k #v[x, y, z, r] = .none ↔ ∃ p ∈ Spec.six k, Spec.planeValue p x y z ≤ 0 := by
    rw [a1]; simp only [(e _).1]
  refine ⟨hn, fun hp => ?_⟩
  have h1 : ¬ testSphere k #v[x, y, z, r] = .none := by rw [hp]; decide
  have h2 : ¬ testSphere k #v[x, y, z, r] = .full := by rw [hp]; decide
  rw [hn] at h1
  rw [a2] at h2
  push Not at h1
  refine h2 fun p hp => ⟨by rw [(e _).1]; exact h1 p hp, ?_⟩
  rw [(e _).2]
  intro hd
  obtain ⟨d1, d2, d3⟩ := lt_cases hd
  exact h1 p hp ((Fp.le_iff d1 d2).2 d3.le)

/-- **C130** A sphere of infinite radius is PARTIAL whenever the plane values at its centre are finite, and a sphere whose radius is NaN is always FULL. -/
theorem C130_extreme_radius (k : Culler (Fp F)) (x y z : Fp F) :
    ((∀ p ∈ Spec.six k, (Spec.planeValue p x y z).Finite) → testSphere k #v[x, y, z, .inf false] = .partly) ∧ testSphere k #v[x, y, z, .nan] = .full := by
  constructor
  · intro hf
    obtain ⟨a1, a2⟩ := sphere_value k x y z (.inf false)
    have hin : k.left ∈ Spec.six k := by simp [Spec.six]
    have h1 : ¬ testSphere k #v[x, y, z, .inf false] = .none := by
      rw [a1]
      rintro ⟨p, hp, hd⟩
      rw [Fp.le_iff (hf p hp).ne_nan (fun h => by cases h), Fp.ereal_val (hf p hp)] at hd
      exact absurd hd (by show ¬ _ ≤ (⊥ : EReal); simp)
    have h2 : ¬ testSphere k #v[x, y, z, .inf false] = .full := by
      rw [a2]
      intro h
      refine (h _ hin).2 ?_
      rw [Fp.lt_iff (hf _ hin).ne_nan (fun h => by cases h), Fp.ereal_val (hf _ hin)]
      show _ < (⊤ : EReal)
      exact EReal.coe_lt_top _
    cases hv : testSphere k #v[x, y, z, .inf false] with
    | none => exact absurd hv h1
    | partly => rfl
    | full => exact absurd hv h2
  · rw [(sphere_value k x y z .nan).2]
    exact fun p _ => ⟨Fp.not_le_nan_right _, Fp.not_lt_nan_right _⟩

/-! ## Signed zeros, mirrored and reversed boxes -/

private theorem six_map (f : Vec 4 α → Vec 4 α) (k : Culler α) : Spec.six (Spec.eachPlane f k) = (Spec.six k).map f := rfl

private theorem flip_mul (b : Bool) {a c c' : Fp F} (h : Spec.Alike c' (Spec.flip b c)) : Spec.Alike (Spec.flip b a * c') (a * c) := by
  cases b with
  | false => exact Spec.Alike.mul (Spec.Alike.refl a) h
  | true =>
    refine (Spec.Alike.mul (Spec.Alike.refl (-a)) h).trans (Spec.Alike.of_eq ?_)
    exact Fp.neg_mul_neg' a c

private theorem flip_add (b : Bool) (a c : Fp F) : Spec.Alike (Spec.flip b a + Spec.flip b c) (Spec.flip b (a + c)) := by
  cases b with
  | false => exact Spec.Alike.refl _
  | true => exact Spec.Alike.neg_add a c

private theorem flip_fabs (b : Bool) (a : Fp F) : CMath.fabs (Spec.flip b a) = CMath.fabs a := by
  cases b with
  | false => rfl
  | true => cases a <;> rfl

private theorem flip_alike (b : Bool) {a c : Fp F} (h : Spec.Alike a c) : Spec.Alike (Spec.flip b a) (Spec.flip b c) := by
  cases b with
  | false => exact h
  | true => exact h.neg

private theorem fabs_neg (a : Fp F) : CMath.fabs (-a) = CMath.fabs a := by cases a <;> rfl

/-- **C130** Mirroring the frustum and the sphere in any of the coordinates does not change the verdict, exactly and for all numbers. -/
theorem C130_mirror_sphere (k : Culler (Fp F)) (b0 b1 b2 : Bool) (s : Vec 4 (Fp F)) :
    testSphere (Spec.eachPlane (Spec.mirror b0 b1 b2) k) (Spec.mirror b0 b1 b2 s) = testSphere k s := by
  obtain ⟨a1, a2⟩ := sphere_verdict k s
  obtain ⟨c1, c2⟩ := sphere_verdict (Spec.eachPlane (Spec.mirror b0 b1 b2) k) (Spec.mirror b0 b1 b2 s)
  have e : ∀ p : Vec 4 (Fp F), Spec.Alike (Spec.flip b0 p[0] * Spec.flip b0 s[0] + Spec.flip b1 p[1] * Spec.flip b1 s[1] + Spec.flip b2 p[2] * Spec.flip b2 s[2] + p[3])
      (p[0] * s[0] + p[1] * s[1] + p[2] * s[2] + p[3]) := fun p =>
    (((flip_mul b0 (Spec.Alike.refl _)).add (flip_mul b1 (Spec.Alike.refl _))).add (flip_mul b2 (Spec.Alike.refl _))).add (Spec.Alike.refl _)
  have l1 : ∀ p : Vec 4 (Fp F), (Spec.flip b0 p[0] * Spec.flip b0 s[0] + Spec.flip b1 p[1] * Spec.flip b1 s[1] + Spec.flip b2 p[2] * Spec.flip b2 s[2] + p[3] ≤ -s[3]) ↔
      (p[0] * s[0] + p[1] * s[1] + p[2] * s[2] + p[3] ≤ -s[3]) := fun p => (e p).le (Spec.Alike.refl _)
  have l2 : ∀ p : Vec 4 (Fp F), (Spec.flip b0 p[0] * Spec.flip b0 s[0] + Spec.flip b1 p[1] * Spec.flip b1 s[1] + Spec.flip b2 p[2] * Spec.flip b2 s[2] + p[3] < s[3]) ↔
      (p[0] * s[0] + p[1] * s[1] + p[2] * s[2] + p[3] < s[3]) := fun p => (e p).lt (Spec.Alike.refl _)
  apply vis_ext
  · rw [c1, a1, six_map]
    constructor
    · rintro ⟨q, hq, hd⟩
      obtain ⟨p, hp, rfl⟩ := List.mem_map.1 hq
      exact ⟨p, hp, (l1 p).1 hd⟩
    · rintro ⟨p, hp, hd⟩
      exact ⟨_, List.mem_map.2 ⟨p, hp, rfl⟩, (l1 p).2 hd⟩
  · rw [c2, a2, six_map]
    constructor
    · intro h p hp
      obtain ⟨h1, h2⟩ := h _ (List.mem_map.2 ⟨p, hp, rfl⟩)
      exact ⟨fun hd => h1 ((l1 p).2 hd), fun hd => h2 ((l2 p).2 hd)⟩
    · intro h q hq
      obtain ⟨p, hp, rfl⟩ := List.mem_map.1 hq
      obtain ⟨h1, h2⟩ := h p hp
      exact ⟨fun hd => h1 ((l1 p).1 hd), fun hd => h2 ((l2 p).1 hd)⟩

set_option maxHeartbeats 1600000 in
/-- **C130** Mirroring the frustum and the box in any of the coordinates does not change the verdict, exactly and for all numbers. -/
theorem C130_mirror_box (cfg : Cfg) (half : Fp F) (k : Culler (Fp F)) (b0 b1 b2 : Bool) (x y z : Vec 2 (Fp F)) :
    testAabb cfg half (Spec.eachPlane (Spec.mirror b0 b1 b2) k) #v[Spec.flip b0 x[0], Spec.flip b0 x[1]] #v[Spec.flip b1 y[0], Spec.flip b1 y[1]] #v[Spec.flip b2 z[0], Spec.flip b2 z[1]] =
      testAabb cfg half k x y z := by
  obtain ⟨r, hr, a1, a2⟩ := box_verdict cfg half k x y z
  obtain ⟨r', hr', c1, c2⟩ := box_verdict cfg half (Spec.eachPlane (Spec.mirror b0 b1 b2) k) #v[Spec.flip b0 x[0], Spec.flip b0 x[1]] #v[Spec.flip b1 y[0], Spec.flip b1 y[1]]
    #v[Spec.flip b2 z[0], Spec.flip b2 z[1]]
  rw [hr, hr']
  have hmid : ∀ (b : Bool) (u v : Fp F), Spec.Alike ((Spec.flip b u + Spec.flip b v) * half) (Spec.flip b ((u + v) * half)) := by
    intro b u v
    refine (Spec.Alike.mul_left half (flip_add b u v)).trans ?_
    cases b with
    | false => exact Spec.Alike.refl _
    | true => exact Spec.Alike.of_eq (Fp.neg_mul' _ _)
  have hext : ∀ (b : Bool) (u v : Fp F), Spec.Alike (CMath.fabs (Spec.flip b v - Spec.flip b u)) (CMath.fabs (v - u)) := by
    intro b u v
    cases b with
    | false => exact Spec.Alike.refl _
    | true =>
      refine (Spec.Alike.fabs (Spec.Alike.neg_add v (-u))).trans (Spec.Alike.of_eq ?_)
      exact fabs_neg _
  have hd : ∀ p0 p1 p2 p3 x0 x1 y0 y1 z0 z1 : Fp F, Spec.Alike
      ((0 : Fp F) + Spec.flip b0 p0 * ((Spec.flip b0 x0 + Spec.flip b0 x1) * half) + Spec.flip b1 p1 * ((Spec.flip b1 y0 + Spec.flip b1 y1) * half) +
        Spec.flip b2 p2 * ((Spec.flip b2 z0 + Spec.flip b2 z1) * half) + p3 * 1)
      ((0 : Fp F) + p0 * ((x0 + x1) * half) + p1 * ((y0 + y1) * half) + p2 * ((z0 + z1) * half) + p3 * 1) := fun p0 p1 p2 p3 x0 x1 y0 y1 z0 z1 =>
    ((((Spec.Alike.refl _).add (flip_mul b0 (hmid b0 _ _))).add (flip_mul b1 (hmid b1 _ _))).add (flip_mul b2 (hmid b2 _ _))).add (Spec.Alike.refl _)
  have hn : ∀ p0 p1 p2 x0 x1 y0 y1 z0 z1 : Fp F, Spec.Alike
      (CMath.fabs (Spec.flip b0 x1 - Spec.flip b0 x0) * half * CMath.fabs (Spec.flip b0 p0) + CMath.fabs (Spec.flip b1 y1 - Spec.flip b1 y0) * half * CMath.fabs (Spec.flip b1 p1) +
        CMath.fabs (Spec.flip b2 z1 - Spec.flip b2 z0) * half * CMath.fabs (Spec.flip b2 p2))
      (CMath.fabs (x1 - x0) * half * CMath.fabs p0 + CMath.fabs (y1 - y0) * half * CMath.fabs p1 + CMath.fabs (z1 - z0) * half * CMath.fabs p2) := by
    intro p0 p1 p2 x0 x1 y0 y1 z0 z1
    rw [flip_fabs, flip_fabs, flip_fabs]
    have g : ∀ (b : Bool) (u v w : Fp F), Spec.Alike (CMath.fabs (Spec.flip b v - Spec.flip b u) * half * w) (CMath.fabs (v - u) * half * w) :=
      fun b u v w => ((hext b u v).mul (Spec.Alike.refl _)).mul (Spec.Alike.refl _)
    exact ((g _ _ _ _).add (g _ _ _ _)).add (g _ _ _ _)
  have k1 := fun p : Vec 4 (Fp F) => ((Spec.Alike.refl (0 : Fp F)).le ((hd p[0] p[1] p[2] p[3] x[0] x[1] y[0] y[1] z[0] z[1]).sub (hn p[0] p[1] p[2] x[0] x[1] y[0] y[1] z[0] z[1])))
  have k2 := fun p : Vec 4 (Fp F) => ((Spec.Alike.refl (0 : Fp F)).lt ((hd p[0] p[1] p[2] p[3] x[0] x[1] y[0] y[1] z[0] z[1]).add (hn p[0] p[1] p[2] x[0] x[1] y[0] y[1] z[0] z[1])))
  congr 1
  apply vis_ext
  · rw [c1, a1, six_map]
    constructor
    · rintro ⟨q, hq, h1, h2⟩
      obtain ⟨p, hp, rfl⟩ := List.mem_map.1 hq
      exact ⟨p, hp, fun hd => h1 ((k1 p).2 hd), fun hd => h2 ((k2 p).2 hd)⟩
    · rintro ⟨p, hp, h1, h2⟩
      exact ⟨_, List.mem_map.2 ⟨p, hp, rfl⟩, fun hd => h1 ((k1 p).1 hd), fun hd => h2 ((k2 p).1 hd)⟩
  · rw [c2, a2, six_map]
    constructor
    · intro h p hp
      exact (k1 p).1 (h _ (List.mem_map.2 ⟨p, hp, rfl⟩))
    · intro h q hq
      obtain ⟨p, hp, rfl⟩ := List.mem_map.1 hq
      exact (k1 p).2 (h p hp)

/-- Two boxes the test cannot tell apart. -/
private theorem box_congr (cfg : Cfg) (half : Fp F) (k : Culler (Fp F)) (x y z x' y' z' : Vec 2 (Fp F))
    (hx : Spec.Alike (x[0] + x[1]) (x'[0] + x'[1]) ∧ Spec.Alike (CMath.fabs (x[1] - x[0])) (CMath.fabs (x'[1] - x'[0])))
    (hy : Spec.Alike (y[0] + y[1]) (y'[0] + y'[1]) ∧ Spec.Alike (CMath.fabs (y[1] - y[0])) (CMath.fabs (y'[1] - y'[0])))
    (hz : Spec.Alike (z[0] + z[1]) (z'[0] + z'[1]) ∧ Spec.Alike (CMath.fabs (z[1] - z[0])) (CMath.fabs (z'[1] - z'[0]))) :
    testAabb cfg half k x y z = testAabb cfg half k x' y' z' := by
  obtain ⟨r, hr, a1, a2⟩ := box_verdict cfg half k x y z
  obtain ⟨r', hr', c1, c2⟩ := box_verdict cfg half k x' y' z'
  rw [hr, hr']
  have g : ∀ {u v : Fp F} (w : Fp F), Spec.Alike u v → Spec.Alike (w * (u * half)) (w * (v * half)) := fun w h => (Spec.Alike.refl w).mul (h.mul (Spec.Alike.refl _))
  have g' : ∀ {u v : Fp F} (w : Fp F), Spec.Alike u v → Spec.Alike (u * half * w) (v * half * w) := fun w h => (h.mul (Spec.Alike.refl _)).mul (Spec.Alike.refl w)
  have hd := fun p : Vec 4 (Fp F) => ((((Spec.Alike.refl (0 : Fp F)).add (g p[0] hx.1)).add (g p[1] hy.1)).add (g p[2] hz.1)).add (Spec.Alike.refl (p[3] * (1 : Fp F)))
  have hn := fun p : Vec 4 (Fp F) => ((g' (CMath.fabs p[0]) hx.2).add (g' (CMath.fabs p[1]) hy.2)).add (g' (CMath.fabs p[2]) hz.2)
  have k1 := fun p : Vec 4 (Fp F) => (Spec.Alike.refl (0 : Fp F)).le ((hd p).sub (hn p))
  have k2 := fun p : Vec 4 (Fp F) => (Spec.Alike.refl (0 : Fp F)).lt ((hd p).add (hn p))
  congr 1
  apply vis_ext
  · rw [c1, a1]
    exact exists_congr fun p => and_congr_right fun _ => and_congr (not_congr (k1 p)) (not_congr (k2 p))
  · rw [c2, a2]
    exact forall_congr' fun p => forall_congr' fun _ => k1 p

/-- **C130** The two bounds of an interval of a box may be given in either order: the verdict of `test_aabb` is the same, exactly and for all numbers. -/
theorem C130_box_order (cfg : Cfg) (half : Fp F) (k : Culler (Fp F)) (x0 x1 y0 y1 z0 z1 : Fp F) :
    testAabb cfg half k #v[x1, x0] #v[y0, y1] #v[z0, z1] = testAabb cfg half k #v[x0, x1] #v[y0, y1] #v[z0, z1] ∧
    testAabb cfg half k #v[x0, x1] #v[y1, y0] #v[z0, z1] = testAabb cfg half k #v[x0, x1] #v[y0, y1] #v[z0, z1] ∧
    testAabb cfg half k #v[x0, x1] #v[y0, y1] #v[z1, z0] = testAabb cfg half k #v[x0, x1] #v[y0, y1] #v[z0, z1] := by
  have sw : ∀ a b : Fp F, Spec.Alike (b + a) (a + b) ∧ Spec.Alike (CMath.fabs (a - b)) (CMath.fabs (b - a)) := by
    intro a b
    refine ⟨Spec.Alike.of_eq (Fp.add_comm' b a), ?_⟩
    rcases Fp.sub_swap a b with h | ⟨s, t, h1, h2⟩
    · rw [h, fabs_neg]; exact Spec.Alike.refl _
    · rw [h1, h2]; exact Spec.Alike.refl _
  have rf : ∀ a b : Fp F, Spec.Alike (a + b) (a + b) ∧ Spec.Alike (CMath.fabs (b - a)) (CMath.fabs (b - a)) := fun a b => ⟨Spec.Alike.refl _, Spec.Alike.refl _⟩
  exact ⟨box_congr _ _ _ _ _ _ _ _ _ (sw x0 x1) (rf y0 y1) (rf z0 z1), box_congr _ _ _ _ _ _ _ _ _ (rf x0 x1) (sw y0 y1) (rf z0 z1),
    box_congr _ _ _ _ _ _ _ _ _ (rf x0 x1) (rf y0 y1) (sw z0 z1)⟩

/-! ## Growing a box about its centre -/

private theorem sum_ereal (a b : Fp F) (ha : a.Finite) (hb : b.Finite) :
    a + b ≠ .nan ∧ Spec.ereal (a + b) = if 0 ≤ a.val + b.val then Spec.fpUp F (a.val + b.val) else -Spec.fpUp F (-(a.val + b.val)) := by
  split_ifs with h
  · exact Fp.add_up ha hb h
  · have h1 := Fp.add_up (Fp.finite_neg ha) (Fp.finite_neg hb) (by rw [Fp.val_neg, Fp.val_neg]; linarith)
    rw [Fp.val_neg, Fp.val_neg, ← neg_add] at h1
    rcases Spec.Alike.neg_add a b with ⟨h2, -⟩ | ⟨-, h2, h3⟩
    · exact absurd h2 h1.1
    · refine ⟨fun hn => h2 (neg_nan.2 hn), ?_⟩
      rw [h1.2, ereal_neg] at h3
      rw [h3, neg_neg]

private theorem fpUp_pos {x : ℝ} (hg : F.Grid x) (h : 0 < x) : 0 < Spec.fpUp F x := by
  unfold Spec.fpUp
  split_ifs
  · have h1 := hg.rnd_err
    rw [abs_of_pos h] at h1
    have h2 := (abs_le.1 h1).1
    have h3 := mul_lt_mul_of_pos_right (lt_of_le_of_lt (show F.u ≤ 1 / 2 from by
      unfold Format.u
      calc (2 : ℝ)⁻¹ ^ (F.p + 1) ≤ (2 : ℝ)⁻¹ ^ 1 := pow_le_pow_of_le_one (by norm_num) (by norm_num) (by omega)
        _ = 1 / 2 := by norm_num) (by norm_num : (1 : ℝ) / 2 < 1)) h
    have : 0 < F.rnd x := by linarith
    exact_mod_cast this
  · exact EReal.zero_lt_top

/-- The sign of a computed sum is that of the exact sum. -/
theorem Fp.sum_sign (a b : Fp F) (ha : a.Finite) (hb : b.Finite) : ((0 : Fp F) < a + b ↔ 0 < a.val + b.val) ∧ ((0 : Fp F) ≤ a + b ↔ 0 ≤ a.val + b.val) := by
  obtain ⟨h1, h2⟩ := sum_ereal a b ha hb
  have hz : (0 : Fp F) ≠ .nan := fun h => by cases h
  have hg : F.Grid (a.val + b.val) := (Fp.rep_val ha).grid.add (Fp.rep_val hb).grid
  rw [Fp.lt_iff hz h1, Fp.le_iff hz h1, ereal_zero, h2]
  rcases lt_trichotomy (a.val + b.val) 0 with h | h | h
  · rw [if_neg (by linarith)]
    have := fpUp_pos hg.neg (by linarith)
    have h3 : -Spec.fpUp F (-(a.val + b.val)) < 0 := by rw [← neg_zero, EReal.neg_lt_neg_iff]; exact this
    exact ⟨⟨fun h4 => absurd (h4.trans h3) (lt_irrefl _), fun h4 => by linarith⟩, ⟨fun h4 => absurd (lt_of_le_of_lt h4 h3) (lt_irrefl _), fun h4 => by linarith⟩⟩
  · rw [h, if_pos le_rfl]
    have : Spec.fpUp F 0 = 0 := by unfold Spec.fpUp; rw [rnd_zero, if_pos maxFinite_pos.le]; rfl
    rw [this]
    simp
  · rw [if_pos h.le]
    have := fpUp_pos hg h
    exact ⟨⟨fun _ => h, fun _ => this⟩, ⟨fun _ => h.le, fun _ => this.le⟩⟩

/-- The comparisons of the box test are exact: the sum and the difference only carry their sign. -/
private theorem box_cmp (d n : Fp F) (hn : Fp.Non n) :
    ((0 : Fp F) < d + n ↔ -n < d) ∧ ((0 : Fp F) ≤ d - n ↔ n ≤ d ∧ ¬ (n = .inf false ∧ d = .inf false)) := by
  have zi : (0 : Fp F) < .inf false := by
    rw [Fp.lt_iff (fun h => by cases h) (fun h => by cases h), ereal_zero]; exact EReal.zero_lt_top
  have zm : ¬ (0 : Fp F) ≤ .inf true := by
    rw [Fp.le_iff (fun h => by cases h) (fun h => by cases h), ereal_zero]; show ¬ (0 : EReal) ≤ ⊥; simp
  have zm' : ¬ (0 : Fp F) < .inf true := by
    rw [Fp.lt_iff (fun h => by cases h) (fun h => by cases h)]; show ¬ _ < (⊥ : EReal); exact not_lt_bot
  rcases Fp.non_cases hn with rfl | ⟨fn, vn, en⟩
  · have eneg : -(.inf false : Fp F) = .inf true := rfl
    cases d with
    | nan => exact ⟨⟨fun h => absurd h (Fp.not_lt_nan_right _), fun h => absurd h (Fp.not_lt_nan_right _)⟩, ⟨fun h => absurd h (Fp.not_le_nan_right _), fun h => absurd h.1 (Fp.not_le_nan_right _)⟩⟩
    | inf s => cases s with
      | false =>
        refine ⟨⟨fun _ => ?_, fun _ => zi⟩, ⟨fun h => absurd h (Fp.not_le_nan_right _), fun h => absurd ⟨rfl, rfl⟩ h.2⟩⟩
        rw [eneg, Fp.lt_iff (fun h => by cases h) (fun h => by cases h)]; show (⊥ : EReal) < ⊤; exact bot_lt_top
      | true =>
        refine ⟨⟨fun h => absurd h (Fp.not_lt_nan_right _), fun h => ?_⟩, ⟨fun h => absurd h zm, fun h => ?_⟩⟩
        · rw [eneg, Fp.lt_iff (fun h => by cases h) (fun h => by cases h)] at h
          exact absurd h (lt_irrefl _)
        · have h1 := h.1
          rw [Fp.le_iff (fun h => by cases h) (fun h => by cases h)] at h1
          exact absurd h1 (by show ¬ (⊤ : EReal) ≤ ⊥; simp)
    | fin s m hm =>
      refine ⟨⟨fun _ => ?_, fun _ => zi⟩, ⟨fun h => absurd h zm, fun h => ?_⟩⟩
      · rw [eneg, Fp.lt_iff (fun h => by cases h) (fun h => by cases h), Fp.ereal_val (a := (.fin s m hm : Fp F)) trivial]
        show (⊥ : EReal) < _; exact EReal.bot_lt_coe _
      · have h1 := h.1
        rw [Fp.le_iff (fun h => by cases h) (fun h => by cases h), Fp.ereal_val (a := (.fin s m hm : Fp F)) trivial] at h1
        exact absurd h1 (by show ¬ (⊤ : EReal) ≤ _; simp)
  · have nni : n ≠ .inf false := by rintro rfl; exact fn
    have fm := Fp.finite_neg fn
    cases d with
    | nan => exact ⟨⟨fun h => absurd h (Fp.not_lt_nan_right _), fun h => absurd h (Fp.not_lt_nan_right _)⟩, ⟨fun h => absurd h (Fp.not_le_nan_right _), fun h => absurd h.1 (Fp.not_le_nan_right _)⟩⟩
    | inf s =>
      have e1 : (.inf s : Fp F) + n = .inf s := by obtain ⟨t, m, hm, rfl⟩ := Fp.finite_cases fn; rfl
      have e2 : (.inf s : Fp F) - n = .inf s := by obtain ⟨t, m, hm, rfl⟩ := Fp.finite_cases fn; rfl
      rw [e1, e2, Fp.lt_iff fm.ne_nan (fun h => by cases h), Fp.le_iff fn.ne_nan (fun h => by cases h), Fp.ereal_val fm, en]
      cases s with
      | false => exact ⟨⟨fun _ => by show _ < (⊤ : EReal); exact EReal.coe_lt_top _, fun _ => zi⟩, ⟨fun _ => ⟨le_top, fun h => nni h.1⟩, fun _ => by
          rw [Fp.le_iff (fun h => by cases h) (fun h => by cases h)]; exact le_top⟩⟩
      | true => exact ⟨⟨fun h => absurd h zm', fun h => absurd h not_lt_bot⟩, ⟨fun h => absurd h zm, fun h => absurd h.1 (by show ¬ _ ≤ (⊥ : EReal); simp)⟩⟩
    | fin s m hm =>
      obtain ⟨fd, hfd⟩ : ∃ fd : Fp F, fd = .fin s m hm := ⟨_, rfl⟩
      have ff : fd.Finite := by rw [hfd]; trivial
      rw [← hfd]
      have h1 := (Fp.sum_sign fd n ff fn).1
      have h2 := (Fp.sum_sign fd (-n) ff fm).2
      rw [Fp.val_neg] at h2
      rw [h1, show fd - n = fd + -n from rfl, h2, Fp.lt_val fm ff, Fp.le_val fn ff, Fp.val_neg]
      exact ⟨⟨fun h => by linarith, fun h => by linarith⟩, ⟨fun h => ⟨by linarith, fun h => nni h.1⟩, fun h => by linarith [h.1]⟩⟩

private theorem mul_up {a b : Fp F} (ha : a.Finite) (hb : b.Finite) (h1 : 0 ≤ a.val) (h2 : 0 ≤ b.val) : a * b ≠ .nan ∧ Spec.ereal (a * b) = Spec.fpUp F (a.val * b.val) := by
  obtain ⟨s, m, hm, rfl⟩ := Fp.finite_cases ha
  obtain ⟨t, n, hn, rfl⟩ := Fp.finite_cases hb
  have e : (Fp.fin s m hm * Fp.fin t n hn : Fp F) = .round (s ^^ t) (m * n) := rfl
  refine ⟨by rw [e]; exact Fp.round_nan_free _ _, ?_⟩
  have hz : ∀ c : Bool, Spec.ereal (Fp.round c 0 : Fp F) = Spec.fpUp F 0 := by
    intro c
    rw [Fp.round_eq le_rfl (by rw [rnd_zero]; exact maxFinite_pos.le)]
    unfold Spec.fpUp
    rw [if_pos (by rw [rnd_zero]; exact maxFinite_pos.le), Fp.ereal_val (by trivial)]
    congr 1
    cases c <;> simp [rnd_zero]
  have m0 := hm.1
  have n0 := hn.1
  rw [e]
  by_cases hs : s = true
  · subst hs
    have : m = 0 := by simp at h1; linarith
    subst this
    rw [zero_mul, hz]
    simp
  by_cases ht : t = true
  · subst ht
    have : n = 0 := by simp at h2; linarith
    subst this
    rw [mul_zero, hz]
    simp
  · simp only [Bool.not_eq_true] at hs ht
    subst hs; subst ht
    rw [Bool.xor_self, Fp.ereal_round (mul_nonneg m0 n0)]
    simp

private theorem term_mono {e e' h w : Fp F} (fe : e.Finite) (fe' : e'.Finite) (ve : 0 ≤ e.val) (he : e.val ≤ e'.val) (fh : h.Finite) (h1 : 0 ≤ h.val) (h2 : h.val ≤ 1)
    (fw : w.Finite) : Fp.Non (e * h * CMath.fabs w) ∧ Fp.Non (e' * h * CMath.fabs w) ∧ Spec.ereal (e * h * CMath.fabs w) ≤ Spec.ereal (e' * h * CMath.fabs w) := by
  have key : ∀ e : Fp F, e.Finite → 0 ≤ e.val → (e * h).Finite ∧ (e * h).val = F.rnd (e.val * h.val) ∧ 0 ≤ (e * h).val := by
    intro e fe ve
    have hb : F.rnd (e.val * h.val) ≤ F.maxFinite := by
      have h3 : e.val * h.val ≤ e.val := by nlinarith
      exact (rnd_le_rep (Fp.rep_val fe) h3).trans ((le_abs_self _).trans (Fp.abs_val_le e))
    obtain ⟨n1, n2⟩ := mul_up fe fh ve h1
    unfold Spec.fpUp at n2
    rw [if_pos hb] at n2
    have hf : (e * h).Finite := by
      cases hx : e * h with
      | nan => exact absurd hx n1
      | inf s => rw [hx] at n2; cases s <;> simp [Spec.ereal, Fp.ext] at n2
      | fin s m hm => trivial
    rw [Fp.ereal_val hf] at n2
    have hv : (e * h).val = F.rnd (e.val * h.val) := by exact_mod_cast n2
    exact ⟨hf, hv, by rw [hv]; exact rnd_nonneg (mul_nonneg ve h1)⟩
  obtain ⟨a1, a2, a3⟩ := key e fe ve
  obtain ⟨b1, b2, b3⟩ := key e' fe' (ve.trans he)
  obtain ⟨w1, w2⟩ := Fp.fabs_fin fw
  have w3 : 0 ≤ (CMath.fabs w : Fp F).val := by rw [w2]; exact abs_nonneg _
  obtain ⟨c1, c2⟩ := mul_up a1 w1 a3 w3
  obtain ⟨d1, d2⟩ := mul_up b1 w1 b3 w3
  refine ⟨⟨c1, by rw [c2]; exact fpUp_nonneg (mul_nonneg a3 w3)⟩, ⟨d1, by rw [d2]; exact fpUp_nonneg (mul_nonneg b3 w3)⟩, ?_⟩
  rw [c2, d2]
  apply fpUp_mono
  apply mul_le_mul_of_nonneg_right _ w3
  rw [a2, b2]
  exact rnd_mono (mul_le_mul_of_nonneg_right he h1)

/-- The interval `x'` has the centre of `x` and is at least as long, as the machine computes both. -/
def Spec.SameCentre (x x' : Vec 2 (Fp F)) : Prop :=
  Spec.Alike (x[0] + x[1]) (x'[0] + x'[1]) ∧ (x[1] - x[0]).Finite ∧ (x'[1] - x'[0]).Finite ∧ |(x[1] - x[0]).val| ≤ |(x'[1] - x'[0]).val|

/-- **C130** Growing a box about its centre never hides it: if the bounds have the same sums and the computed edges of the second box are at least as long (none overflows), then NONE
for the larger box is NONE for the smaller and FULL is FULL, whatever the finite planes; the plane values themselves may overflow. -/
theorem C130_box_grow (cfg : Cfg) (half : Fp F) (hh : half.Finite) (hv : half.val = 1 / 2) (k : Culler (Fp F)) (x y z x' y' z' : Vec 2 (Fp F))
    (hk : ∀ p ∈ Spec.six k, Spec.VFinite p) (hx : Spec.SameCentre x x') (hy : Spec.SameCentre y y') (hz : Spec.SameCentre z z') :
    ∃ r r', testAabb cfg half k x y z = .ok r ∧ testAabb cfg half k x' y' z' = .ok r' ∧ (r' = .none → r = .none) ∧ (r' = .full → r = .full) := by
  obtain ⟨r, hr, a1, a2⟩ := box_verdict cfg half k x y z
  obtain ⟨r', hr', c1, c2⟩ := box_verdict cfg half k x' y' z'
  refine ⟨r, r', hr, hr', ?_⟩
  have g : ∀ {u v : Fp F} (w : Fp F), Spec.Alike u v → Spec.Alike (w * (u * half)) (w * (v * half)) := fun w h => (Spec.Alike.refl w).mul (h.mul (Spec.Alike.refl _))
  have hd := fun p : Vec 4 (Fp F) => ((((Spec.Alike.refl (0 : Fp F)).add (g p[0] hx.1)).add (g p[1] hy.1)).add (g p[2] hz.1)).add (Spec.Alike.refl (p[3] * (1 : Fp F)))
  have tm : ∀ (x x' : Vec 2 (Fp F)) (w : Fp F), Spec.SameCentre x x' → w.Finite → Fp.Non (CMath.fabs (x[1] - x[0]) * half * CMath.fabs w) ∧ Fp.Non (CMath.fabs (x'[1] - x'[0]) * half * CMath.fabs w) ∧
      Spec.ereal (CMath.fabs (x[1] - x[0]) * half * CMath.fabs w) ≤ Spec.ereal (CMath.fabs (x'[1] - x'[0]) * half * CMath.fabs w) := by
    rintro x x' w ⟨-, f1, f2, hl⟩ fw
    obtain ⟨e1, e2⟩ := Fp.fabs_fin f1
    obtain ⟨e3, e4⟩ := Fp.fabs_fin f2
    exact term_mono e1 e3 (by rw [e2]; exact abs_nonneg _) (by rw [e2, e4]; exact hl) hh (by rw [hv]; norm_num) (by rw [hv]; norm_num) fw
  have hn : ∀ p ∈ Spec.six k, ∀ n n' : Fp F, n = CMath.fabs (x[1] - x[0]) * half * CMath.fabs p[0] + CMath.fabs (y[1] - y[0]) * half * CMath.fabs p[1] + CMath.fabs (z[1] - z[0]) * half * CMath.fabs p[2] →
      n' = CMath.fabs (x'[1] - x'[0]) * half * CMath.fabs p[0] + CMath.fabs (y'[1] - y'[0]) * half * CMath.fabs p[1] + CMath.fabs (z'[1] - z'[0]) * half * CMath.fabs p[2] →
      Fp.Non n ∧ Fp.Non n' ∧ Spec.ereal n ≤ Spec.ereal n' := by
    rintro p hp n n' rfl rfl
    obtain ⟨t1, t2, t3⟩ := tm x x' p[0] hx (hk p hp 0)
    obtain ⟨u1, u2, u3⟩ := tm y y' p[1] hy (hk p hp 1)
    obtain ⟨v1, v2, v3⟩ := tm z z' p[2] hz (hk p hp 2)
    exact ⟨Fp.non_add (Fp.non_add t1 u1) v1, Fp.non_add (Fp.non_add t2 u2) v2,
      Fp.add_mono_non (Fp.non_add t1 u1) v1 (Fp.non_add t2 u2) v2 (Fp.add_mono_non t1 u1 t2 u2 t3 u3) v3⟩
  have cmp : ∀ d d' n n' : Fp F, Spec.Alike d d' → Fp.Non n → Fp.Non n' → Spec.ereal n ≤ Spec.ereal n' →
      (((0 : Fp F) < d + n → (0 : Fp F) < d' + n') ∧ ((0 : Fp F) ≤ d' - n' → (0 : Fp F) ≤ d - n) ∧ ((0 : Fp F) ≤ d - n → ¬ (0 : Fp F) ≤ d' - n' → (0 : Fp F) < d' + n')) := by
    intro d d' n n' hd h1 h2 h3
    obtain ⟨i1, i2⟩ := box_cmp d n h1
    obtain ⟨j1, j2⟩ := box_cmp d' n' h2
    rw [i1, i2, j1, j2]
    have ed : d ≠ .nan → Spec.Same d d' := by
      intro hnn
      rcases hd with ⟨h, -⟩ | h
      · exact absurd h hnn
      · exact h
    have ninf : n = .inf false → n' = .inf false := by
      rintro rfl
      rcases Fp.non_cases h2 with h | ⟨-, -, h⟩
      · exact h
      · rw [h] at h3; exact absurd h3 (by show ¬ (⊤ : EReal) ≤ _; simp)
    have dinf : d = .inf false ↔ d' = .inf false := by
      rcases Spec.Alike.cases hd with rfl | ⟨s, t, rfl, rfl⟩
      · exact Iff.rfl
      · exact ⟨fun h => (by cases h), fun h => (by cases h)⟩
    refine ⟨fun h => ?_, fun h => ?_, fun h hnot => ?_⟩
    · obtain ⟨k1, k2, k3⟩ := lt_cases h
      obtain ⟨-, k4, k5⟩ := ed k2
      rw [Fp.lt_iff (fun h => h2.1 (neg_nan.1 h)) k4, ereal_neg, ← k5]
      rw [ereal_neg] at k3
      exact lt_of_le_of_lt (EReal.neg_le_neg_iff.2 h3) k3
    · obtain ⟨h, hne⟩ := h
      obtain ⟨k1, k2, k3⟩ := le_cases h
      have hdn : d ≠ .nan := by
        rcases hd with ⟨-, h⟩ | h
        · exact absurd h k2
        · exact h.1
      obtain ⟨-, k4, k5⟩ := ed hdn
      refine ⟨?_, fun h => hne ⟨ninf h.1, dinf.1 h.2⟩⟩
      rw [Fp.le_iff h1.1 hdn, k5]
      exact h3.trans k3
    · obtain ⟨h, hne⟩ := h
      obtain ⟨k1, k2, k3⟩ := le_cases h
      obtain ⟨-, k4, k5⟩ := ed k2
      rw [Fp.lt_iff (fun h => h2.1 (neg_nan.1 h)) k4, ereal_neg, ← k5]
      rcases Fp.non_cases h2 with rfl | ⟨f2, v2, e2⟩
      · have : Spec.ereal (.inf false : Fp F) = ⊤ := rfl
        rw [this, EReal.neg_top]
        exact lt_of_lt_of_le (lt_of_lt_of_le EReal.bot_lt_zero h1.2) k3
      · have hd0 : 0 ≤ Spec.ereal d := h1.2.trans k3
        have hlt : Spec.ereal d < Spec.ereal n' := by
          by_contra hc
          apply hnot
          refine ⟨(Fp.le_iff h2.1 k4).2 (by rw [← k5]; exact not_lt.1 hc), fun h => ?_⟩
          have := h.1 ▸ f2
          exact this
        have hpos : 0 < Spec.ereal n' := lt_of_le_of_lt hd0 hlt
        refine lt_of_lt_of_le ?_ hd0
        rw [← neg_zero, EReal.neg_lt_neg_iff]
        exact hpos
  constructor
  · intro h
    obtain ⟨p, hp, n1, n2⟩ := c1.1 h
    obtain ⟨g1, g2, g3⟩ := hn p hp _ _ rfl rfl
    obtain ⟨q1, q2, q3⟩ := cmp _ _ _ _ (hd p) g1 g2 g3
    exact a1.2 ⟨p, hp, fun hc => n2 (q3 hc n1), fun hc => n2 (q1 hc)⟩
  · intro h
    refine a2.2 fun p hp => ?_
    obtain ⟨g1, g2, g3⟩ := hn p hp _ _ rfl rfl
    exact (cmp _ _ _ _ (hd p) g1 g2 g3).2.1 (c2.1 h p hp)

/-- The hypotheses of `C130_box_grow` hold, for example, for a point at the origin and the cube from -1 to 1 about it, in single precision. -/
example : Spec.SameCentre (#v[0, 0] : Vec 2 (Fp single)) #v[-1, 1] := by
  obtain ⟨o1, o2⟩ := Fp.one_fin (F := single) (by norm_num)
  have hs : (-1 + 1 : Fp single) = .fin false 0 mag_zero := by
    obtain ⟨s, m, hm, h⟩ := Fp.finite_cases o1
    rw [h]
    show (if _ then _ else _) = _
    rw [if_pos (by cases s <;> simp)]
    cases s <;> rfl
  have hz : (0 + 0 : Fp single) = .fin false 0 mag_zero := by
    show (if _ then _ else _) = _
    rw [if_pos (by simp)]
    rfl
  have h00 := Fp.sub_fin (F := single) (by norm_num) (a := 0) (b := 0) Fp.finite_zero Fp.finite_zero (by rw [Fp.val_zero, sub_zero, abs_zero]; exact maxFinite_pos.le)
  have h11 := Fp.sub_fin (F := single) (by norm_num) (a := 1) (b := -1) o1 (Fp.finite_neg o1) (by
    rw [Fp.val_neg, o2]
    refine le_trans ?_ (pow_emax_le (F := single))
    norm_num)
  refine ⟨?_, h00.1, h11.1, ?_⟩
  · show Spec.Alike (0 + 0 : Fp single) (-1 + 1)
    rw [hs, hz]; exact Spec.Alike.refl _
  · show |(0 - 0 : Fp single).val| ≤ |(1 - -1 : Fp single).val|
    rw [h00.2, Fp.val_zero, sub_zero, rnd_zero, abs_zero]
    exact abs_nonneg _

end Vmml
