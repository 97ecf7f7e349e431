import Verif.Props.FloatFrustum
import Verif.Props.FloatPlanes
import Verif.Props.Float

/-!
# C132: from the frustum to the culling verdict in IEEE arithmetic
-/

namespace Vmml
open Format Culler
variable {F D : Format}

/-- The clip coordinate `i` of the point `(x, y, z, 1)` under the matrix `A`, in exact arithmetic. -/
def Spec.coord (A : Fin 4 → Fin 4 → ℝ) (i : Fin 4) (x y z : ℝ) : ℝ := A i 0 * x + A i 1 * y + A i 2 * z + A i 3
/-- Sum of the magnitudes in column `j` of row 3 and row `i`. -/
def Spec.both (B : Fin 4 → Fin 4 → ℝ) (i j : Fin 4) : ℝ := B 3 j + B i j
/-- The length of the normal of the plane `row 3 + s * row i`. -/
noncomputable def Spec.normalLen (A : Fin 4 → Fin 4 → ℝ) (s : ℝ) (i : Fin 4) : ℝ :=
  Real.sqrt ((A 3 0 + s * A i 0) ^ 2 + (A 3 1 + s * A i 1) ^ 2 + (A 3 2 + s * A i 2) ^ 2)
/-- The margin within which a clip coordinate may be misjudged, for points with coordinates of at most `X`, `Y`, `Z` in absolute value. -/
noncomputable def Spec.clipMargin (F : Format) (ε τ : ℝ) (B : Fin 4 → Fin 4 → ℝ) (i : Fin 4) (X Y Z : ℝ) : ℝ :=
  (ε + 23 * F.u) * (Spec.both B i 0 * X + Spec.both B i 1 * Y + Spec.both B i 2 * Z + Spec.both B i 3) +
    (3 * τ + 300 * F.eta * (Spec.both B i 0 + Spec.both B i 1 + Spec.both B i 2)) * (X + Y + Z + 1)
/-- The plane `row 3 + s * row i` survives errors of `ε` (relative to the magnitudes `B`) and `τ` (absolute) in the entries, and can be normalised in the format. -/
def Spec.Robust (F : Format) (ε τ : ℝ) (A B : Fin 4 → Fin 4 → ℝ) (s : ℝ) (i : Fin 4) : Prop :=
  2 * (ε * (Spec.both B i 0 + Spec.both B i 1 + Spec.both B i 2) + 6 * τ) ≤ Spec.normalLen A s i ∧
  8 * (2 : ℝ) ^ F.emin ≤ Spec.normalLen A s i ^ 2 ∧ 5 * Spec.normalLen A s i ^ 2 + 1 ≤ F.maxFinite ∧
  2 * (Spec.both B i 3 + τ) ≤ F.maxFinite ∧ 8 * (Spec.both B i 3 + τ) ≤ F.maxFinite * Spec.normalLen A s i
/-- The values of the plane at points with coordinates of at most `X`, `Y`, `Z` stay far enough from overflow. -/
def Spec.ValuesFit (F : Format) (τ : ℝ) (A B : Fin 4 → Fin 4 → ℝ) (s : ℝ) (i : Fin 4) (X Y Z : ℝ) : Prop :=
  Spec.grow F 8 (8 * ((Spec.both B i 0 + τ) * X + (Spec.both B i 1 + τ) * Y + (Spec.both B i 2 + τ) * Z + (Spec.both B i 3 + τ)) / Spec.normalLen A s i +
    F.eta * (X + Y + Z + 1) + 25 * F.tiny) ≤ F.maxFinite
/-- The computed matrix `m` is the exact matrix `A` up to the relative error `ε` (with respect to `B`) and the absolute error `τ`. -/
def Spec.MatrixNear (ε τ : ℝ) (A B : Fin 4 → Fin 4 → ℝ) (m : Mat 4 4 (Fp F)) : Prop :=
  ∀ i j, (m.get i j).Finite ∧ |A i j| ≤ B i j ∧ |(m.get i j).val - A i j| ≤ ε * B i j + τ

private theorem sqrt_near {a b c d e f x y z : ℝ} (h0 : |d - a| ≤ x) (h1 : |e - b| ≤ y) (h2 : |f - c| ≤ z) :
    Real.sqrt (d ^ 2 + e ^ 2 + f ^ 2) ≤ Real.sqrt (a ^ 2 + b ^ 2 + c ^ 2) + (x + y + z) := by
  obtain ⟨C, hC⟩ : ∃ C, C = Real.sqrt (a ^ 2 + b ^ 2 + c ^ 2) := ⟨_, rfl⟩
  have hC0 : 0 ≤ C := hC ▸ Real.sqrt_nonneg _
  have hC2 : C ^ 2 = a ^ 2 + b ^ 2 + c ^ 2 := by rw [hC]; exact Real.sq_sqrt (by positivity)
  rw [← hC]
  have x0 := (abs_nonneg _).trans h0
  have y0 := (abs_nonneg _).trans h1
  have z0 := (abs_nonneg _).trans h2
  apply Real.sqrt_le_iff.2 ⟨by positivity, ?_⟩
  have key : ∀ a d x : ℝ, |d - a| ≤ x → |a| ≤ C → d ^ 2 ≤ a ^ 2 + 2 * C * x + x ^ 2 := by
    intro a d x h g
    have hx := (abs_nonneg _).trans h
    have e : d ^ 2 = a ^ 2 + 2 * (a * (d - a)) + (d - a) ^ 2 := by ring
    have e1 : a * (d - a) ≤ C * x := (le_abs_self _).trans (by rw [abs_mul]; exact mul_le_mul g h (abs_nonneg _) hC0)
    have e2 : (d - a) ^ 2 ≤ x ^ 2 := sq_le_sq' (by linarith [(abs_le.1 h).1]) (abs_le.1 h).2
    linarith
  have a1 := key a d x h0 (abs_le_of_sq_le_sq (by nlinarith only [hC2, sq_nonneg b, sq_nonneg c]) hC0)
  have b1 := key b e y h1 (abs_le_of_sq_le_sq (by nlinarith only [hC2, sq_nonneg a, sq_nonneg c]) hC0)
  have c1 := key c f z h2 (abs_le_of_sq_le_sq (by nlinarith only [hC2, sq_nonneg b, sq_nonneg a]) hC0)
  nlinarith only [a1, b1, c1, hC2, mul_nonneg x0 y0, mul_nonneg x0 z0, mul_nonneg y0 z0]

/-- What is needed of a plane: `d` is the plane of the computed matrix, `c` the exact one. -/
private theorem plane_scalar {ε τ u η c0 c1 c2 c3 d0 d1 d2 d3 b0 b1 b2 b3 X Y Z : ℝ} (hu : 0 ≤ u) (hu1 : 60 * u ≤ 1) (hη : 0 ≤ η) (hε1 : 30 * ε ≤ 1) (hτ : 0 ≤ τ)
    (hX : 0 ≤ X) (hY : 0 ≤ Y) (hZ : 0 ≤ Z)
    (g0 : |c0| ≤ b0) (g1 : |c1| ≤ b1) (g2 : |c2| ≤ b2) (g3 : |c3| ≤ b3)
    (h0 : |d0 - c0| ≤ ε * b0 + 2 * τ) (h1 : |d1 - c1| ≤ ε * b1 + 2 * τ) (h2 : |d2 - c2| ≤ ε * b2 + 2 * τ) (h3 : |d3 - c3| ≤ ε * b3 + 2 * τ)
    (hR : 2 * (ε * (b0 + b1 + b2) + 6 * τ) ≤ Real.sqrt (c0 ^ 2 + c1 ^ 2 + c2 ^ 2)) :
    let R := Real.sqrt (c0 ^ 2 + c1 ^ 2 + c2 ^ 2)
    let L := Real.sqrt (d0 ^ 2 + d1 ^ 2 + d2 ^ 2)
    let mag := |d0| * X + |d1| * Y + |d2| * Z + |d3|
    R / 2 ≤ L ∧ L ≤ 3 / 2 * R ∧ |d3| ≤ 2 * (b3 + τ) ∧ mag ≤ 2 * ((b0 + τ) * X + (b1 + τ) * Y + (b2 + τ) * Z + (b3 + τ)) ∧
    ∀ x y z, |x| ≤ X → |y| ≤ Y → |z| ≤ Z →
      |(d0 * x + d1 * y + d2 * z + d3) - (c0 * x + c1 * y + c2 * z + c3)| + 22 * u * mag + 200 * η * (X + Y + Z + 1) * L ≤
        (ε + 23 * u) * (b0 * X + b1 * Y + b2 * Z + b3) + (3 * τ + 300 * η * (b0 + b1 + b2)) * (X + Y + Z + 1) := by
  intro R L mag
  have p0 := (abs_nonneg _).trans g0
  have p1 := (abs_nonneg _).trans g1
  have p2 := (abs_nonneg _).trans g2
  have p3 := (abs_nonneg _).trans g3
  have hRN : R ≤ b0 + b1 + b2 := by
    apply Real.sqrt_le_iff.2 ⟨by positivity, ?_⟩
    have := sq_abs c0; have := sq_abs c1; have := sq_abs c2
    nlinarith [abs_nonneg c0, abs_nonneg c1, abs_nonneg c2, mul_nonneg p0 p1, mul_nonneg p0 p2, mul_nonneg p1 p2]
  have l1 : L ≤ R + _ := sqrt_near h0 h1 h2
  have l2 : R ≤ L + ((ε * b0 + 2 * τ) + (ε * b1 + 2 * τ) + (ε * b2 + 2 * τ)) := by
    rw [abs_sub_comm] at h0 h1 h2
    exact sqrt_near h0 h1 h2
  have hR' : 2 * (ε * (b0 + b1 + b2) + 6 * τ) ≤ R := hR
  have big : ∀ {d c b : ℝ}, |c| ≤ b → |d - c| ≤ ε * b + 2 * τ → |d| ≤ (1 + ε) * b + 2 * τ := by
    intro d c b h1 h2
    have := abs_sub_abs_le_abs_sub d c
    linarith
  have m0 := big g0 h0
  have m1 := big g1 h1
  have m2 := big g2 h2
  have m3 := big g3 h3
  have eb : ∀ b : ℝ, 0 ≤ b → ε * b ≤ b / 30 := fun b hb => by nlinarith
  have hLle : L ≤ 3 / 2 * R := by linarith only [l1, hR']
  have hL0 : 0 ≤ L := Real.sqrt_nonneg _
  refine ⟨by linarith only [l2, hR'], hLle, by linarith only [m3, eb b3 p3, p3], ?_, ?_⟩
  · have q : ∀ {d b X : ℝ}, 0 ≤ X → 0 ≤ b → |d| ≤ (1 + ε) * b + 2 * τ → |d| * X ≤ 2 * ((b + τ) * X) := by
      intro d b X hX hb h
      have := mul_le_mul_of_nonneg_right (show |d| ≤ 2 * (b + τ) by linarith [eb b hb]) hX
      linarith
    have := q hX p0 m0
    have := q hY p1 m1
    have := q hZ p2 m2
    show |d0| * X + |d1| * Y + |d2| * Z + |d3| ≤ _
    linarith [eb b3 p3]
  · intro x y z hx hy hz
    have e : ∀ {d c b x X : ℝ}, |d - c| ≤ ε * b + 2 * τ → |x| ≤ X → |(d - c) * x| ≤ (ε * b + 2 * τ) * X := by
      intro d c b x X h1 h2
      rw [abs_mul]
      exact mul_le_mul h1 h2 (abs_nonneg _) ((abs_nonneg _).trans h1)
    have e0 := e h0 hx
    have e1 := e h1 hy
    have e2 := e h2 hz
    have tri : |(d0 * x + d1 * y + d2 * z + d3) - (c0 * x + c1 * y + c2 * z + c3)| ≤ |(d0 - c0) * x| + |(d1 - c1) * y| + |(d2 - c2) * z| + |d3 - c3| := by
      rw [show (d0 * x + d1 * y + d2 * z + d3) - (c0 * x + c1 * y + c2 * z + c3) = (d0 - c0) * x + (d1 - c1) * y + (d2 - c2) * z + (d3 - c3) by ring]
      exact (abs_add_le _ _).trans (add_le_add_left ((abs_add_le _ _).trans (add_le_add_left (abs_add_le _ _) _)) _)
    have w : ∀ {d b X : ℝ}, 0 ≤ X → 0 ≤ b → |d| ≤ (1 + ε) * b + 2 * τ → 22 * u * (|d| * X) ≤ 23 * u * (b * X) + τ * X := by
      intro d b X hX hb h
      have h1 : |d| * X ≤ (b + b / 30 + 2 * τ) * X := mul_le_mul_of_nonneg_right (by linarith [eb b hb]) hX
      have h2 : 22 * u * (|d| * X) ≤ 22 * u * ((b + b / 30 + 2 * τ) * X) := mul_le_mul_of_nonneg_left h1 (by positivity)
      have h3 : u * (τ * X) ≤ τ * X / 60 := by nlinarith [mul_nonneg hτ hX]
      have h4 : 0 ≤ u * (b * X) := by positivity
      have h5 : 22 * u * ((b + b / 30 + 2 * τ) * X) = 22 * (31 / 30) * (u * (b * X)) + 44 * (u * (τ * X)) := by ring
      linarith [mul_nonneg hτ hX]
    have w0 := w hX p0 m0
    have w1 := w hY p1 m1
    have w2 := w hZ p2 m2
    have w3 := w (X := 1) zero_le_one p3 m3
    have hm : 22 * u * mag = 22 * u * (|d0| * X) + 22 * u * (|d1| * Y) + 22 * u * (|d2| * Z) + 22 * u * (|d3| * 1) := by
      show 22 * u * (|d0| * X + |d1| * Y + |d2| * Z + |d3|) = _
      ring
    have hl : 200 * η * (X + Y + Z + 1) * L ≤ 300 * η * (b0 + b1 + b2) * (X + Y + Z + 1) := by
      have := mul_le_mul_of_nonneg_left (show L ≤ 3 / 2 * (b0 + b1 + b2) by linarith) (show 0 ≤ 200 * η * (X + Y + Z + 1) by positivity)
      linarith
    rw [hm]
    nlinarith only [tri, e0, e1, e2, h3, w0, w1, w2, w3, hl]

private theorem u_2048 (h10 : 10 ≤ F.p) : F.u ≤ 1 / 2048 := by
  unfold u
  calc ((2 : ℝ)⁻¹) ^ (F.p + 1) ≤ ((2 : ℝ)⁻¹) ^ 11 := pow_le_pow_of_le_one (by norm_num) (by norm_num) (by omega)
    _ = 1 / 2048 := by norm_num

/-- The planes of the computed matrix. -/
private theorem plane_data (h10 : 10 ≤ F.p) {ε τ : ℝ} (hε1 : 30 * ε ≤ 1) (hτ : 0 ≤ τ) {A B : Fin 4 → Fin 4 → ℝ} {m : Mat 4 4 (Fp F)}
    (hm : Spec.MatrixNear ε τ A B m) {s : ℝ} (hs : |s| = 1) {i : Fin 4} (hrob : Spec.Robust F ε τ A B s i) {X Y Z : ℝ} (hX : 0 ≤ X) (hY : 0 ≤ Y) (hZ : 0 ≤ Z)
    (hfit : Spec.ValuesFit F τ A B s i X Y Z) :
    Spec.PlaneFits F (Spec.exactPlane m s i) ∧ Spec.grow F 8 (2 * Spec.distMag (Spec.exactPlane m s i) X Y Z + F.eta * (X + Y + Z + 1) + 25 * F.tiny) ≤ F.maxFinite ∧
    ∀ x y z e, |x| ≤ X → |y| ≤ Y → |z| ≤ Z → e ≤ 22 * F.u * Spec.distMag (Spec.exactPlane m s i) X Y Z + 200 * F.eta * (X + Y + Z + 1) →
      (Spec.clipMargin F ε τ B i X Y Z < Spec.coord A 3 x y z + s * Spec.coord A i x y z → e < Spec.signedDist (Spec.exactPlane m s i) x y z) ∧
      (-e ≤ Spec.signedDist (Spec.exactPlane m s i) x y z → -Spec.clipMargin F ε τ B i X Y Z ≤ Spec.coord A 3 x y z + s * Spec.coord A i x y z) := by
  have hu := F.u_pos
  have hη := F.eta_pos
  have hu60 : 60 * F.u ≤ 1 := by have := u_2048 h10; linarith
  have near : ∀ j, |(m.get 3 j).val + s * (m.get i j).val - (A 3 j + s * A i j)| ≤ ε * Spec.both B i j + 2 * τ := by
    intro j
    have h1 := (hm 3 j).2.2
    have h2 := (hm i j).2.2
    rw [show (m.get 3 j).val + s * (m.get i j).val - (A 3 j + s * A i j) = ((m.get 3 j).val - A 3 j) + s * ((m.get i j).val - A i j) by ring]
    refine (abs_add_le _ _).trans ?_
    rw [abs_mul, hs, one_mul]
    unfold Spec.both
    linarith
  have bnd : ∀ j, |A 3 j + s * A i j| ≤ Spec.both B i j := by
    intro j
    refine (abs_add_le _ _).trans ?_
    rw [abs_mul, hs, one_mul]
    exact add_le_add (hm 3 j).2.1 (hm i j).2.1
  obtain ⟨r1, r2, r3, r4, r5⟩ := hrob
  obtain ⟨l1, l2, l3, l4, l5⟩ := plane_scalar (u := F.u) (η := F.eta) hu.le hu60 hη.le hε1 hτ hX hY hZ (bnd 0) (bnd 1) (bnd 2) (bnd 3) (near 0) (near 1) (near 2) (near 3) r1
  obtain ⟨q, hq⟩ : ∃ q, q = Spec.exactPlane m s i := ⟨_, rfl⟩
  have qj : ∀ j : Fin 4, q[j] = (m.get 3 j).val + s * (m.get i j).val := by
    intro j
    rw [hq]
    unfold Spec.exactPlane
    simp only [Fin.getElem_fin, Vector.getElem_ofFn]
  have q0 : q[0] = _ := qj 0
  have q1 : q[1] = _ := qj 1
  have q2 : q[2] = _ := qj 2
  have q3 : q[3] = _ := qj 3
  rw [← hq]
  have hR0 : 0 < Spec.normalLen A s i := by
    have : (0 : ℝ) < (2 : ℝ) ^ F.emin := by positivity
    exact lt_of_le_of_ne (Real.sqrt_nonneg _) (fun hc => by rw [← hc] at r2; norm_num at r2; linarith)
  have hlen : Spec.planeLen q = Real.sqrt (((m.get 3 0).val + s * (m.get i 0).val) ^ 2 + ((m.get 3 1).val + s * (m.get i 1).val) ^ 2 + ((m.get 3 2).val + s * (m.get i 2).val) ^ 2) := by
    unfold Spec.planeLen
    rw [q0, q1, q2]
  rw [← hlen] at l1 l2 l5
  change Spec.normalLen A s i / 2 ≤ _ at l1
  change _ ≤ 3 / 2 * Spec.normalLen A s i at l2
  have hL : 0 < Spec.planeLen q := by linarith
  rw [← q3] at l3
  rw [← q0, ← q1, ← q2, ← q3] at l4 l5
  obtain ⟨mag, hmag⟩ : ∃ t, t = |q[0]| * X + |q[1]| * Y + |q[2]| * Z + |q[3]| := ⟨_, rfl⟩
  have hdist : Spec.distMag q X Y Z = mag / Spec.planeLen q := by unfold Spec.distMag; rw [hmag]
  rw [← hmag] at l4 l5
  have hmag0 : 0 ≤ mag := by rw [hmag]; positivity
  refine ⟨⟨?_, ?_, ?_, ?_⟩, ?_, ?_⟩
  · have := pow_le_pow_left₀ (by linarith) l1 2
    nlinarith only [this, r2]
  · have := pow_le_pow_left₀ hL.le l2 2
    nlinarith only [this, r3, sq_nonneg (Spec.normalLen A s i)]
  · linarith only [l3, r4]
  · have := mul_le_mul_of_nonneg_left l1 maxFinite_pos.le (a := F.maxFinite)
    nlinarith only [this, r5, l3]
  · unfold Spec.ValuesFit at hfit
    refine le_trans ?_ hfit
    unfold Spec.grow
    apply mul_le_mul_of_nonneg_left _ (by positivity)
    have : Spec.distMag q X Y Z ≤ 4 * ((Spec.both B i 0 + τ) * X + (Spec.both B i 1 + τ) * Y + (Spec.both B i 2 + τ) * Z + (Spec.both B i 3 + τ)) / Spec.normalLen A s i := by
      rw [hdist, div_le_div_iff₀ hL hR0]
      nlinarith only [l4, l1, hmag0, hR0, hL]
    rw [mul_div_assoc] at this ⊢
    linarith only [this]
  · intro x y z e hx hy hz he
    have key := l5 x y z hx hy hz
    have hv : Spec.coord A 3 x y z + s * Spec.coord A i x y z = (A 3 0 + s * A i 0) * x + (A 3 1 + s * A i 1) * y + (A 3 2 + s * A i 2) * z + (A 3 3 + s * A i 3) := by
      unfold Spec.coord; ring
    rw [← hv] at key
    have hsd : Spec.signedDist q x y z * Spec.planeLen q = q[0] * x + q[1] * y + q[2] * z + q[3] := by
      unfold Spec.signedDist
      rw [div_mul_cancel₀ _ hL.ne']
    rw [← hsd] at key
    have heL : e * Spec.planeLen q ≤ 22 * F.u * mag + 200 * F.eta * (X + Y + Z + 1) * Spec.planeLen q := by
      rw [hdist] at he
      have := mul_le_mul_of_nonneg_right he hL.le
      rw [add_mul, mul_assoc (22 * F.u), div_mul_cancel₀ _ hL.ne'] at this
      exact this
    change _ ≤ Spec.clipMargin F ε τ B i X Y Z at key
    generalize Spec.coord A 3 x y z + s * Spec.coord A i x y z = v at *
    generalize Spec.clipMargin F ε τ B i X Y Z = W at *
    generalize Spec.signedDist q x y z = t at *
    obtain ⟨a1, a2⟩ := abs_le.1 (le_refl |t * Spec.planeLen q - v|)
    constructor
    · intro h
      by_contra hc
      have := mul_le_mul_of_nonneg_right (not_lt.1 hc) hL.le
      linarith
    · intro h
      have := mul_le_mul_of_nonneg_right h hL.le
      linarith

private theorem planes_iff (m : Mat 4 4 (Fp F)) (q : Vec 4 ℝ) : q ∈ Spec.exactPlanes m ↔ ∃ (s : ℝ) (i : Fin 4), |s| = 1 ∧ i ≠ 3 ∧ q = Spec.exactPlane m s i := by
  have a1 : |(1 : ℝ)| = 1 := abs_one
  have a2 : |(-1 : ℝ)| = 1 := by rw [abs_neg, abs_one]
  constructor
  · intro h
    simp only [Spec.exactPlanes, List.mem_cons, List.not_mem_nil, or_false] at h
    rcases h with h | h | h | h | h | h
    · exact ⟨1, 0, a1, by decide, h⟩
    · exact ⟨-1, 0, a2, by decide, h⟩
    · exact ⟨1, 1, a1, by decide, h⟩
    · exact ⟨-1, 1, a2, by decide, h⟩
    · exact ⟨1, 2, a1, by decide, h⟩
    · exact ⟨-1, 2, a2, by decide, h⟩
  · rintro ⟨s, i, hs, hi, rfl⟩
    simp only [Spec.exactPlanes, List.mem_cons, List.not_mem_nil, or_false]
    rcases (abs_eq zero_le_one).1 hs with rfl | rfl <;> match i, hi with
      | 0, _ => simp
      | 1, _ => simp
      | 2, _ => simp
      | 3, h => exact absurd rfl h

private theorem clip_iff {c w W : ℝ} : (∀ s : ℝ, |s| = 1 → W < w + s * c) ↔ |c| + W < w := by
  constructor
  · intro h
    have h1 := h 1 abs_one
    have h2 := h (-1) (by rw [abs_neg, abs_one])
    rcases abs_cases c with ⟨e, -⟩ | ⟨e, -⟩ <;> rw [e] <;> linarith
  · intro h s hs
    have := neg_abs_le (s * c)
    rw [abs_mul, hs, one_mul] at this
    linarith

private theorem clip_le {c w W : ℝ} (h : ∀ s : ℝ, |s| = 1 → -W ≤ w + s * c) : |c| ≤ w + W := by
  have h1 := h 1 abs_one
  have h2 := h (-1) (by rw [abs_neg, abs_one])
  rcases abs_cases c with ⟨e, -⟩ | ⟨e, -⟩ <;> rw [e] <;> linarith

private theorem distMag_mono (q : Vec 4 ℝ) {x y z X Y Z : ℝ} (hx : x ≤ X) (hy : y ≤ Y) (hz : z ≤ Z) : Spec.distMag q x y z ≤ Spec.distMag q X Y Z := by
  unfold Spec.distMag
  have hL : 0 ≤ Spec.planeLen q := Real.sqrt_nonneg _
  apply div_le_div_of_nonneg_right _ hL
  have h0 := mul_le_mul_of_nonneg_left hx (abs_nonneg q[0])
  have h1 := mul_le_mul_of_nonneg_left hy (abs_nonneg q[1])
  have h2 := mul_le_mul_of_nonneg_left hz (abs_nonneg q[2])
  linarith

private theorem grow_mono {n k : Nat} {a b : ℝ} (hk : n ≤ k) (ha : 0 ≤ a) (h : a ≤ b) : Spec.grow F n a ≤ Spec.grow F k b := by
  unfold Spec.grow
  have hu := F.u_pos
  exact mul_le_mul (pow_le_pow_right₀ (by linarith) hk) h ha (by positivity)

/-- **C132** `setup` and `test_sphere` in IEEE arithmetic on a computed matrix that is only near the intended matrix `A`: if some point of the sphere is inside the clip volume of `A` by more than the
margin, the sphere is not culled; if the sphere is reported fully visible, none of its points is outside the clip volume by more than the margin. -/
theorem C132_matrix_sphere (hD : Spec.Quotients F D) (hpe : F.p < F.emax) (h10 : 10 ≤ F.p) (cfg : Cfg) {ε τ : ℝ} (hε1 : 30 * ε ≤ 1) (hτ : 0 ≤ τ)
    (A B : Fin 4 → Fin 4 → ℝ) (m : Mat 4 4 (Fp F)) (hm : Spec.MatrixNear ε τ A B m) (s : Vec 4 (Fp F)) (hs : Spec.VFinite s) (hr : (0 : ℝ) ≤ s[3].val)
    {X Y Z : ℝ} (hX : |s[0].val| + s[3].val ≤ X) (hY : |s[1].val| + s[3].val ≤ Y) (hZ : |s[2].val| + s[3].val ≤ Z)
    (hrob : ∀ (σ : ℝ) (i : Fin 4), |σ| = 1 → i ≠ 3 → Spec.Robust F ε τ A B σ i ∧ Spec.ValuesFit F τ A B σ i X Y Z) :
    ∃ k, setupMatrixMixed D cfg m = .ok k ∧ ∀ x y z : ℝ, (x - s[0].val) ^ 2 + (y - s[1].val) ^ 2 + (z - s[2].val) ^ 2 ≤ s[3].val ^ 2 →
      ((∀ i : Fin 4, i ≠ 3 → |Spec.coord A i x y z| + Spec.clipMargin F ε τ B i X Y Z < Spec.coord A 3 x y z) → testSphere k s ≠ .none) ∧
      (testSphere k s = .full → ∀ i : Fin 4, i ≠ 3 → |Spec.coord A i x y z| ≤ Spec.coord A 3 x y z + Spec.clipMargin F ε τ B i X Y Z) := by
  have h0 : 0 < F.emax := by omega
  have hu := F.u_pos
  have hη := F.eta_pos
  have ht := F.tiny_pos
  have hX0 : 0 ≤ X := (add_nonneg (abs_nonneg _) hr).trans hX
  have hY0 : 0 ≤ Y := (add_nonneg (abs_nonneg _) hr).trans hY
  have hZ0 : 0 ≤ Z := (add_nonneg (abs_nonneg _) hr).trans hZ
  have sx : |s[0].val| ≤ X := by linarith
  have sy : |s[1].val| ≤ Y := by linarith
  have sz : |s[2].val| ≤ Z := by linarith
  have data := fun σ i (h1 : |σ| = 1) (h2 : i ≠ 3) => plane_data h10 hε1 hτ hm h1 (hrob σ i h1 h2).1 hX0 hY0 hZ0 (hrob σ i h1 h2).2
  obtain ⟨b1, b2, -⟩ := C118_bounds (F := F) h10 h0
  have hE : Spec.setupErr F ≤ 1 := by have := u_2048 h10; linarith
  have dm0 : ∀ q x y z, 0 ≤ x → 0 ≤ y → 0 ≤ z → 0 ≤ Spec.distMag q x y z := by
    intro q x y z hx hy hz
    unfold Spec.distMag
    exact div_nonneg (by positivity) (Real.sqrt_nonneg _)
  have hroom : ∀ q ∈ Spec.exactPlanes m, Spec.grow F 4 (Spec.sphereMag F q s[0].val s[1].val s[2].val) ≤ F.maxFinite := by
    intro q hq
    obtain ⟨σ, i, h1, h2, rfl⟩ := (planes_iff m q).1 hq
    refine le_trans ?_ (data σ i h1 h2).2.1
    have d0 := dm0 (Spec.exactPlane m σ i) |s[0].val| |s[1].val| |s[2].val| (abs_nonneg _) (abs_nonneg _) (abs_nonneg _)
    have d1 := distMag_mono (Spec.exactPlane m σ i) sx sy sz
    have e1 : ((1 : ℝ) + Spec.setupErr F) * Spec.distMag (Spec.exactPlane m σ i) |s[0].val| |s[1].val| |s[2].val| ≤ (2 : ℝ) * Spec.distMag (Spec.exactPlane m σ i) |s[0].val| |s[1].val| |s[2].val| :=
      mul_le_mul_of_nonneg_right (by linarith) d0
    have e2 : F.eta * (|s[0].val| + |s[1].val| + |s[2].val| + (1 : ℝ)) ≤ F.eta * (X + Y + Z + 1) := mul_le_mul_of_nonneg_left (by linarith) hη.le
    refine le_trans (mul_le_mul_of_nonneg_left ?_ (by positivity)) (grow_mono (n := 4) (by norm_num) ?_ le_rfl)
    · unfold Spec.sphereMag
      linarith
    · have := dm0 (Spec.exactPlane m σ i) X Y Z hX0 hY0 hZ0
      positivity
  obtain ⟨k, hk, hall⟩ := C118_sphere hD hpe (by omega) cfg m (fun i j => (hm i j).1)
    (fun q hq => by obtain ⟨σ, i, h1, h2, rfl⟩ := (planes_iff m q).1 hq; exact (data σ i h1 h2).1) s hs hr hroom
  refine ⟨k, hk, fun x y z hb => ?_⟩
  obtain ⟨c1, c2⟩ := hall x y z hb
  have inb : ∀ {x c r : ℝ}, 0 ≤ r → (x - c) ^ 2 ≤ r ^ 2 → |x| ≤ |c| + r := by
    intro x c r hr h
    have h1 := abs_le_of_sq_le_sq h hr
    have h2 := abs_sub_abs_le_abs_sub x c
    linarith
  have hx : |x| ≤ X := (inb hr (by nlinarith only [hb, sq_nonneg (y - s[1].val), sq_nonneg (z - s[2].val)])).trans hX
  have hy : |y| ≤ Y := (inb hr (by nlinarith only [hb, sq_nonneg (x - s[0].val), sq_nonneg (z - s[2].val)])).trans hY
  have hz : |z| ≤ Z := (inb hr (by nlinarith only [hb, sq_nonneg (y - s[1].val), sq_nonneg (x - s[0].val)])).trans hZ
  have he : ∀ q, Spec.sphereErr F q s[0].val s[1].val s[2].val ≤ 22 * F.u * Spec.distMag q X Y Z + 200 * F.eta * (X + Y + Z + 1) := by
    intro q
    have d1 := distMag_mono q sx sy sz
    have d0 := dm0 q |s[0].val| |s[1].val| |s[2].val| (abs_nonneg _) (abs_nonneg _) (abs_nonneg _)
    have e1 : (18 : ℝ) * F.u * Spec.distMag q |s[0].val| |s[1].val| |s[2].val| ≤ (22 : ℝ) * F.u * Spec.distMag q X Y Z := mul_le_mul (by linarith) d1 d0 (by positivity)
    have e2 : (17 : ℝ) * F.eta * (|s[0].val| + |s[1].val| + |s[2].val| + (1 : ℝ)) ≤ (200 : ℝ) * F.eta * (X + Y + Z + 1) := mul_le_mul (by linarith) (by linarith) (by positivity) (by positivity)
    exact (b2 q _ _ _).trans (add_le_add e1 e2)
  constructor
  · intro h
    apply c1
    intro q hq
    obtain ⟨σ, i, h1, h2, rfl⟩ := (planes_iff m q).1 hq
    exact ((data σ i h1 h2).2.2 x y z _ hx hy hz (he _)).1 (clip_iff.2 (h i h2) σ h1)
  · intro h i hi
    apply clip_le
    intro σ h1
    exact ((data σ i h1 hi).2.2 x y z _ hx hy hz (he _)).2 (c2 h _ ((planes_iff m _).2 ⟨σ, i, h1, hi, rfl⟩))

private theorem in_span' (x : Vec 2 (Fp F)) {a : ℝ} (h : a ∈ Set.uIcc x[0].val x[1].val) : |a| ≤ Spec.span x := by
  unfold Spec.span
  obtain ⟨p, hp⟩ : ∃ p, p = x[0].val := ⟨_, rfl⟩
  obtain ⟨r, hr⟩ : ∃ r, r = x[1].val := ⟨_, rfl⟩
  rw [← hp, ← hr] at h ⊢
  have p1 := neg_abs_le p
  have p2 := le_abs_self p
  have r1 := neg_abs_le r
  have r2 := le_abs_self r
  have p0 := abs_nonneg p
  have r0 := abs_nonneg r
  rw [abs_le]
  rcases Set.mem_uIcc.1 h with ⟨h1, h2⟩ | ⟨h1, h2⟩ <;> constructor <;> linarith

/-- **C132** The same for `test_aabb`. -/
theorem C132_matrix_box (hD : Spec.Quotients F D) (hpe : F.p < F.emax) (h10 : 10 ≤ F.p) (cfg : Cfg) {ε τ : ℝ} (hε1 : 30 * ε ≤ 1) (hτ : 0 ≤ τ)
    (A B : Fin 4 → Fin 4 → ℝ) (m : Mat 4 4 (Fp F)) (hm : Spec.MatrixNear ε τ A B m) (half : Fp F) (hh : half.Finite) (hv : half.val = 1 / 2) (x y z : Vec 2 (Fp F))
    (hx : Spec.VFinite x) (hy : Spec.VFinite y) (hz : Spec.VFinite z) (hbox : ∀ w ∈ [x, y, z], Spec.grow F 2 (Spec.span w + F.tiny) ≤ F.maxFinite)
    (hrob : ∀ (σ : ℝ) (i : Fin 4), |σ| = 1 → i ≠ 3 → Spec.Robust F ε τ A B σ i ∧ Spec.ValuesFit F τ A B σ i (Spec.span x) (Spec.span y) (Spec.span z)) :
    ∃ k r, setupMatrixMixed D cfg m = .ok k ∧ testAabb cfg half k x y z = .ok r ∧ ∀ a b c : ℝ, Spec.FBoxHas x y z a b c →
      ((∀ i : Fin 4, i ≠ 3 → |Spec.coord A i a b c| + Spec.clipMargin F ε τ B i (Spec.span x) (Spec.span y) (Spec.span z) < Spec.coord A 3 a b c) → r ≠ .none) ∧
      (r = .full → ∀ i : Fin 4, i ≠ 3 → |Spec.coord A i a b c| ≤ Spec.coord A 3 a b c + Spec.clipMargin F ε τ B i (Spec.span x) (Spec.span y) (Spec.span z)) := by
  have h0 : 0 < F.emax := by omega
  have hu := F.u_pos
  have hη := F.eta_pos
  have ht := F.tiny_pos
  have hX0 : 0 ≤ Spec.span x := add_nonneg (abs_nonneg _) (abs_nonneg _)
  have hY0 : 0 ≤ Spec.span y := add_nonneg (abs_nonneg _) (abs_nonneg _)
  have hZ0 : 0 ≤ Spec.span z := add_nonneg (abs_nonneg _) (abs_nonneg _)
  have data := fun σ i (h1 : |σ| = 1) (h2 : i ≠ 3) => plane_data h10 hε1 hτ hm h1 (hrob σ i h1 h2).1 hX0 hY0 hZ0 (hrob σ i h1 h2).2
  have inx := fun a (h : a ∈ Set.uIcc x[0].val x[1].val) => in_span' x h
  have iny := fun a (h : a ∈ Set.uIcc y[0].val y[1].val) => in_span' y h
  have inz := fun a (h : a ∈ Set.uIcc z[0].val z[1].val) => in_span' z h
  obtain ⟨b1, -, b2⟩ := C118_bounds (F := F) h10 h0
  have hu2 := u_2048 h10
  have hE : Spec.setupErr F ≤ 1 / 100 := by linarith
  have hη1 : F.eta ≤ 1 := by
    rw [eta_eq_tiny]
    have := tiny_le_one h0
    nlinarith
  have hroom : ∀ q ∈ Spec.exactPlanes m, Spec.grow F 8 (Spec.boxMagF F q (Spec.span x) (Spec.span y) (Spec.span z)) ≤ F.maxFinite := by
    intro q hq
    obtain ⟨σ, i, h1, h2, rfl⟩ := (planes_iff m q).1 hq
    refine le_trans (mul_le_mul_of_nonneg_left ?_ (by positivity)) (data σ i h1 h2).2.1
    have d0 : 0 ≤ Spec.distMag (Spec.exactPlane m σ i) (Spec.span x) (Spec.span y) (Spec.span z) := by
      unfold Spec.distMag
      exact div_nonneg (by positivity) (Real.sqrt_nonneg _)
    have e1 : (1 + Spec.setupErr F) * Spec.distMag (Spec.exactPlane m σ i) (Spec.span x) (Spec.span y) (Spec.span z) ≤ 2 * Spec.distMag (Spec.exactPlane m σ i) (Spec.span x) (Spec.span y) (Spec.span z) :=
      mul_le_mul_of_nonneg_right (by linarith) d0
    have e2 : (6 * (1 + Spec.setupErr F + F.eta) + 7) * F.tiny ≤ 25 * F.tiny := mul_le_mul_of_nonneg_right (by linarith) ht.le
    unfold Spec.boxMagF
    linarith
  obtain ⟨k, r, hk, hr, a1, a2⟩ := C118_box hD hpe (by omega) cfg m (fun i j => (hm i j).1)
    (fun q hq => by obtain ⟨σ, i, h1, h2, rfl⟩ := (planes_iff m q).1 hq; exact (data σ i h1 h2).1) half hh hv x y z hx hy hz hroom hbox
  refine ⟨k, r, hk, hr, fun a b c hb => ⟨fun h => ?_, fun h i hi => ?_⟩⟩
  · refine a1 a b c hb (fun q hq => ?_)
    obtain ⟨σ, i, h1, h2, rfl⟩ := (planes_iff m q).1 hq
    exact ((data σ i h1 h2).2.2 a b c _ (inx a hb.1) (iny b hb.2.1) (inz c hb.2.2) (b2 _ _ _ _ hX0 hY0 hZ0)).1 (clip_iff.2 (h i h2) σ h1)
  · apply clip_le
    intro σ h1
    exact ((data σ i h1 hi).2.2 a b c _ (inx a hb.1) (iny b hb.2.1) (inz c hb.2.2) (b2 _ _ _ _ hX0 hY0 hZ0)).2 (a2 h a b c hb _ ((planes_iff m _).2 ⟨σ, i, h1, hi, rfl⟩))

/-! ## From the frustum -/

/-- The exact perspective matrix of a frustum. -/
noncomputable def Spec.proj (f : Frustum (Fp F)) : Fin 4 → Fin 4 → ℝ := Spec.perspective f.left.val f.right.val f.bottom.val f.top.val f.nearPlane.val f.farPlane.val
/-- The absolute values of the entries. -/
def Spec.absEntries (A : Fin 4 → Fin 4 → ℝ) : Fin 4 → Fin 4 → ℝ := fun i j => |A i j|
/-- The projection matrix of the frustum can be computed without overflow or underflow (see `C119_perspective`). -/
def Spec.Projects (F D : Format) (f : Frustum (Fp F)) : Prop :=
  Spec.Proper f ∧ Spec.SumsFit F f.left.val f.right.val f.bottom.val f.top.val f.nearPlane.val f.farPlane.val ∧
  (∀ i j, 2 * |Spec.proj f i j| + 2 ≤ F.maxFinite) ∧ (2 : ℝ) ^ D.emin ≤ 2 * f.farPlane.val * f.nearPlane.val ∧ 2 * f.farPlane.val * f.nearPlane.val ≤ D.maxFinite ∧
  2 * f.farPlane.val ≤ D.maxFinite
/-- The frustum is not so wide or deep that its planes are lost in rounding: the near distance is at least `40 u` times the other numbers, about `2.4e-6` of them in `float`. -/
def Spec.NotTooWide (f : Frustum (Fp F)) : Prop :=
  40 * F.u * (|f.left.val| + |f.right.val|) ≤ f.nearPlane.val ∧ 40 * F.u * (|f.bottom.val| + |f.top.val|) ≤ f.nearPlane.val ∧ 40 * F.u * f.farPlane.val ≤ f.nearPlane.val
/-- The plane can be normalised in the format. -/
def Spec.Normalizable (F : Format) (τ : ℝ) (A B : Fin 4 → Fin 4 → ℝ) (s : ℝ) (i : Fin 4) : Prop :=
  8 * (2 : ℝ) ^ F.emin ≤ Spec.normalLen A s i ^ 2 ∧ 5 * Spec.normalLen A s i ^ 2 + 1 ≤ F.maxFinite ∧
  2 * (Spec.both B i 3 + τ) ≤ F.maxFinite ∧ 8 * (Spec.both B i 3 + τ) ≤ F.maxFinite * Spec.normalLen A s i

private theorem abs_le_sqrt3 {a b c x : ℝ} (h : |x| ≤ |a| ∨ |x| ≤ |b| ∨ |x| ≤ |c|) : |x| ≤ Real.sqrt (a ^ 2 + b ^ 2 + c ^ 2) := by
  apply Real.le_sqrt_of_sq_le
  rw [sq_abs]
  rcases h with h | h | h <;> have := sq_le_sq.2 h <;> nlinarith only [this, sq_nonneg a, sq_nonneg b, sq_nonneg c]

/-- The normals of the planes of a perspective matrix. -/
private theorem normal_big {u l r b t n f : ℝ} (hu0 : 0 ≤ u) (hu1 : u ≤ 1 / 2048) (hlr : l < r) (hbt : b < t) (hn : 0 < n) (hnf : n < f) (h1 : 40 * u * (|l| + |r|) ≤ n) (h2 : 40 * u * (|b| + |t|) ≤ n)
    (h3 : 40 * u * f ≤ n) (s : ℝ) (hs : |s| = 1) (i : Fin 4) (hi : i ≠ 3) :
    20 * u * (Spec.both (Spec.absEntries (Spec.perspective l r b t n f)) i 0 + Spec.both (Spec.absEntries (Spec.perspective l r b t n f)) i 1 +
      Spec.both (Spec.absEntries (Spec.perspective l r b t n f)) i 2) ≤ Spec.normalLen (Spec.perspective l r b t n f) s i := by
  have side : ∀ l r : ℝ, l < r → 40 * u * (|l| + |r|) ≤ n → 20 * u * (|2 * n / (r - l)| + (1 + |(r + l) / (r - l)|)) ≤ |s * (2 * n / (r - l))| := by
    intro l r hlr h
    have hw : 0 < r - l := by linarith
    rw [abs_mul, hs, one_mul, abs_div, abs_div, abs_of_pos hw, abs_of_pos (by linarith : (0 : ℝ) < 2 * n)]
    rw [show 20 * u * (2 * n / (r - l) + (1 + |r + l| / (r - l))) = 20 * u * (2 * n + (r - l) + |r + l|) / (r - l) by field_simp; ring]
    apply div_le_div_of_nonneg_right _ hw.le
    have e1 : r - l + |r + l| ≤ 2 * (|l| + |r|) := by
      have := abs_add_le r l
      have := le_abs_self r
      have := neg_abs_le l
      linarith
    nlinarith only [h, mul_le_mul_of_nonneg_left e1 hu0, hu1, hn, hu0]
  have depth : 20 * u * (1 + |(f + n) / (f - n)|) ≤ 2 * n / (f - n) := by
    have hw : 0 < f - n := by linarith
    rw [abs_div, abs_of_pos hw, abs_of_pos (by linarith), show 20 * u * (1 + (f + n) / (f - n)) = 40 * u * f / (f - n) by field_simp; ring]
    exact div_le_div_of_nonneg_right (by linarith) hw.le
  match i, hi with
  | 3, h => exact absurd rfl h
  | 0, _ =>
    refine le_trans ?_ (abs_le_sqrt3 (x := s * (2 * n / (r - l))) (.inl (le_of_eq ?_)))
    · refine le_trans (le_of_eq ?_) (side l r hlr h1)
      simp [Spec.both, Spec.absEntries, Spec.perspective]
    · simp [Spec.perspective]
  | 1, _ =>
    refine le_trans ?_ (abs_le_sqrt3 (x := s * (2 * n / (t - b))) (.inr (.inl (le_of_eq ?_))))
    · refine le_trans (le_of_eq ?_) (side b t hbt h2)
      simp [Spec.both, Spec.absEntries, Spec.perspective]
    · simp [Spec.perspective]
  | 2, _ =>
    have hw : 0 < f - n := by linarith
    have hf0 : 0 < f := by linarith
    refine le_trans ?_ (abs_le_sqrt3 (x := 2 * n / (f - n)) (.inr (.inr ?_)))
    · rw [abs_of_pos (by positivity)]
      refine le_trans (le_of_eq ?_) depth
      simp only [Spec.both, Spec.absEntries, Spec.perspective, Matrix.of_apply, Matrix.cons_val', Matrix.cons_val, abs_zero, abs_neg, abs_one, neg_div]
      ring
    · have e : Spec.perspective l r b t n f 3 2 + s * Spec.perspective l r b t n f 2 2 = -1 + s * (-(f + n) / (f - n)) := by simp [Spec.perspective]
      rw [e, abs_of_pos (by positivity : 0 < 2 * n / (f - n))]
      rcases (abs_eq zero_le_one).1 hs with rfl | rfl
      · rw [show -1 + 1 * (-(f + n) / (f - n)) = -(2 * f / (f - n)) by field_simp; ring, abs_neg, abs_of_pos (by positivity)]
        exact div_le_div_of_nonneg_right (by linarith) hw.le
      · rw [show -1 + -1 * (-(f + n) / (f - n)) = 2 * n / (f - n) by field_simp; ring, abs_of_pos (by positivity)]

/-- Rounding does not lose the planes of such a frustum. -/
private theorem robust_frustum (h10 : 10 ≤ F.p) (h0 : 0 < F.emax) (f : Frustum (Fp F)) (hf : Spec.Proper f) (hw : Spec.NotTooWide f) (s : ℝ) (hs : |s| = 1) (i : Fin 4) (hi : i ≠ 3)
    (hn : Spec.Normalizable F (3 * F.eta) (Spec.proj f) (Spec.absEntries (Spec.proj f)) s i) : Spec.Robust F (5 * F.u) (3 * F.eta) (Spec.proj f) (Spec.absEntries (Spec.proj f)) s i := by
  have hu := F.u_pos
  have hu2 := u_2048 h10
  obtain ⟨n1, n2, n3, n4⟩ := hn
  refine ⟨?_, n1, n2, n3, n4⟩
  have big := normal_big hu.le hu2 hf.2.1 hf.2.2.1 hf.2.2.2.1 hf.2.2.2.2 hw.1 hw.2.1 hw.2.2 s hs i hi
  change 20 * F.u * (Spec.both (Spec.absEntries (Spec.proj f)) i 0 + Spec.both (Spec.absEntries (Spec.proj f)) i 1 + Spec.both (Spec.absEntries (Spec.proj f)) i 2) ≤ Spec.normalLen (Spec.proj f) s i at big
  have ht : F.tiny ≤ Spec.normalLen (Spec.proj f) s i := by
    have ht0 := F.tiny_pos
    have ht1 := tiny_le_one h0
    have h8 : 8 * F.tiny ≤ Spec.normalLen (Spec.proj f) s i ^ 2 := n1
    have hR0 : 0 ≤ Spec.normalLen (Spec.proj f) s i := Real.sqrt_nonneg _
    by_contra hc
    nlinarith only [hc, h8, ht0, ht1, hR0]
  rw [eta_eq_tiny]
  have : F.u * F.tiny ≤ 1 / 2048 * Spec.normalLen (Spec.proj f) s i := mul_le_mul hu2 ht F.tiny_pos.le (by norm_num)
  have ht0 := F.tiny_pos
  linarith only [big, this, ht, ht0]

private theorem near_frustum (h10 : 10 ≤ F.p) (hp : F.p ≤ D.p) (he : F.emax ≤ D.emax) (h1 : 1 < F.emax) (cfg : Cfg) (f : Frustum (Fp F)) (m0 : Mat 4 4 (Fp F)) (hf : Spec.Projects F D f) :
    ∃ P, f.computeMatrixMixed D cfg m0 = .ok P ∧ Spec.MatrixNear (5 * F.u) (3 * F.eta) (Spec.proj f) (Spec.absEntries (Spec.proj f)) P := by
  obtain ⟨f1, f2, f3, f4, f5, f6⟩ := hf
  obtain ⟨P, hP, hn⟩ := C119_perspective hp he h1 (by omega) cfg f m0 f1 f2 f3 f4 f5 f6
  refine ⟨P, hP, fun i j => ⟨(hn i j).1, le_rfl, (hn i j).2.trans ?_⟩⟩
  have := mul_le_mul_of_nonneg_right (C119_bound (F := F) h10) (abs_nonneg (Spec.proj f i j))
  unfold Spec.absEntries
  exact add_le_add_left this _

/-- **C132** From the numbers of a frustum to the verdict on a sphere, all in IEEE arithmetic: `compute_matrix`, `setup`, `test_sphere`. If some point of the sphere is inside the frustum (in clip
coordinates of the exact perspective matrix) by more than the margin of about `28 u`, the sphere is not culled; if it is reported fully visible, none of its points is outside by more. -/
theorem C132_frustum_sphere (hD : Spec.Quotients F D) (hp : F.p ≤ D.p) (he : F.emax ≤ D.emax) (hpe : F.p < F.emax) (h10 : 10 ≤ F.p) (cfg : Cfg) (f : Frustum (Fp F)) (m0 : Mat 4 4 (Fp F))
    (hf : Spec.Projects F D f) (hw : Spec.NotTooWide f) (s : Vec 4 (Fp F)) (hs : Spec.VFinite s) (hr : (0 : ℝ) ≤ s[3].val)
    {X Y Z : ℝ} (hX : |s[0].val| + s[3].val ≤ X) (hY : |s[1].val| + s[3].val ≤ Y) (hZ : |s[2].val| + s[3].val ≤ Z)
    (hfit : ∀ (σ : ℝ) (i : Fin 4), |σ| = 1 → i ≠ 3 → Spec.Normalizable F (3 * F.eta) (Spec.proj f) (Spec.absEntries (Spec.proj f)) σ i ∧
      Spec.ValuesFit F (3 * F.eta) (Spec.proj f) (Spec.absEntries (Spec.proj f)) σ i X Y Z) :
    ∃ P k, f.computeMatrixMixed D cfg m0 = .ok P ∧ setupMatrixMixed D cfg P = .ok k ∧
      ∀ x y z : ℝ, (x - s[0].val) ^ 2 + (y - s[1].val) ^ 2 + (z - s[2].val) ^ 2 ≤ s[3].val ^ 2 →
      let w := Spec.coord (Spec.proj f) 3 x y z
      let margin := fun i => Spec.clipMargin F (5 * F.u) (3 * F.eta) (Spec.absEntries (Spec.proj f)) i X Y Z
      ((∀ i : Fin 4, i ≠ 3 → |Spec.coord (Spec.proj f) i x y z| + margin i < w) → testSphere k s ≠ .none) ∧
      (testSphere k s = .full → ∀ i : Fin 4, i ≠ 3 → |Spec.coord (Spec.proj f) i x y z| ≤ w + margin i) := by
  obtain ⟨P, hP, hn⟩ := near_frustum h10 hp he (by omega) cfg f m0 hf
  have hu := F.u_pos
  have hη := F.eta_pos
  obtain ⟨k, hk, h⟩ := C132_matrix_sphere hD hpe h10 cfg (ε := 5 * F.u) (τ := 3 * F.eta) (by have := u_2048 h10; linarith) (by positivity) _ _ P hn s hs hr hX hY hZ
    (fun σ i h1 h2 => ⟨robust_frustum h10 (by omega) f hf.1 hw σ h1 i h2 (hfit σ i h1 h2).1, (hfit σ i h1 h2).2⟩)
  exact ⟨P, k, hP, hk, h⟩

/-- **C132** The same for a box. -/
theorem C132_frustum_box (hD : Spec.Quotients F D) (hp : F.p ≤ D.p) (he : F.emax ≤ D.emax) (hpe : F.p < F.emax) (h10 : 10 ≤ F.p) (cfg : Cfg) (f : Frustum (Fp F)) (m0 : Mat 4 4 (Fp F))
    (hf : Spec.Projects F D f) (hw : Spec.NotTooWide f) (half : Fp F) (hh : half.Finite) (hv : half.val = 1 / 2) (x y z : Vec 2 (Fp F))
    (hx : Spec.VFinite x) (hy : Spec.VFinite y) (hz : Spec.VFinite z) (hbox : ∀ w ∈ [x, y, z], Spec.grow F 2 (Spec.span w + F.tiny) ≤ F.maxFinite)
    (hfit : ∀ (σ : ℝ) (i : Fin 4), |σ| = 1 → i ≠ 3 → Spec.Normalizable F (3 * F.eta) (Spec.proj f) (Spec.absEntries (Spec.proj f)) σ i ∧
      Spec.ValuesFit F (3 * F.eta) (Spec.proj f) (Spec.absEntries (Spec.proj f)) σ i (Spec.span x) (Spec.span y) (Spec.span z)) :
    ∃ P k v, f.computeMatrixMixed D cfg m0 = .ok P ∧ setupMatrixMixed D cfg P = .ok k ∧ testAabb cfg half k x y z = .ok v ∧
      ∀ a b c : ℝ, Spec.FBoxHas x y z a b c →
      let w := Spec.coord (Spec.proj f) 3 a b c
      let margin := fun i => Spec.clipMargin F (5 * F.u) (3 * F.eta) (Spec.absEntries (Spec.proj f)) i (Spec.span x) (Spec.span y) (Spec.span z)
      ((∀ i : Fin 4, i ≠ 3 → |Spec.coord (Spec.proj f) i a b c| + margin i < w) → v ≠ .none) ∧
      (v = .full → ∀ i : Fin 4, i ≠ 3 → |Spec.coord (Spec.proj f) i a b c| ≤ w + margin i) := by
  obtain ⟨P, hP, hn⟩ := near_frustum h10 hp he (by omega) cfg f m0 hf
  have hu := F.u_pos
  have hη := F.eta_pos
  obtain ⟨k, r, hk, hr, h⟩ := C132_matrix_box hD hpe h10 cfg (ε := 5 * F.u) (τ := 3 * F.eta) (by have := u_2048 h10; linarith) (by positivity) _ _ P hn half hh hv x y z hx hy hz hbox
    (fun σ i h1 h2 => ⟨robust_frustum h10 (by omega) f hf.1 hw σ h1 i h2 (hfit σ i h1 h2).1, (hfit σ i h1 h2).2⟩)
  exact ⟨P, k, r, hP, hk, hr, h⟩

/-- **C132** What the clip coordinates mean: the clip volume of the exact perspective matrix is the frustum with the apex at the origin. -/
theorem C132_clip_volume (f : Frustum (Fp F)) (hf : Spec.Proper f) (x y z : ℝ) :
    ((∀ i : Fin 4, i ≠ 3 → |Spec.coord (Spec.proj f) i x y z| ≤ Spec.coord (Spec.proj f) 3 x y z) ↔
      f.nearPlane.val ≤ -z ∧ -z ≤ f.farPlane.val ∧ f.left.val * -z ≤ f.nearPlane.val * x ∧ f.nearPlane.val * x ≤ f.right.val * -z ∧
        f.bottom.val * -z ≤ f.nearPlane.val * y ∧ f.nearPlane.val * y ≤ f.top.val * -z) := by
  obtain ⟨-, hlr, hbt, hn, hnf⟩ := hf
  unfold Spec.proj
  generalize f.left.val = l at *
  generalize f.right.val = r at *
  generalize f.bottom.val = b at *
  generalize f.top.val = t at *
  generalize f.nearPlane.val = n at *
  generalize f.farPlane.val = fa at *
  have w1 : 0 < r - l := by linarith
  have w2 : 0 < t - b := by linarith
  have w3 : 0 < fa - n := by linarith
  have c0 : Spec.coord (Spec.perspective l r b t n fa) 0 x y z = (2 * n * x + (r + l) * z) / (r - l) := by simp [Spec.coord, Spec.perspective]; field_simp
  have c1 : Spec.coord (Spec.perspective l r b t n fa) 1 x y z = (2 * n * y + (t + b) * z) / (t - b) := by simp [Spec.coord, Spec.perspective]; field_simp
  have c2 : Spec.coord (Spec.perspective l r b t n fa) 2 x y z = (-(fa + n) * z - 2 * fa * n) / (fa - n) := by simp [Spec.coord, Spec.perspective]; field_simp; ring
  have c3 : Spec.coord (Spec.perspective l r b t n fa) 3 x y z = -z := by simp [Spec.coord, Spec.perspective]
  have key : ∀ {a w z : ℝ}, 0 < w → (|a / w| ≤ -z ↔ z * w ≤ a ∧ a ≤ -z * w) := by
    intro a w z hw
    rw [abs_le, le_div_iff₀ hw, div_le_iff₀ hw, neg_neg]
  constructor
  · intro h
    have h0 := h 0 (by decide)
    have h1 := h 1 (by decide)
    have h2 := h 2 (by decide)
    rw [c0, c3, key w1] at h0
    rw [c1, c3, key w2] at h1
    rw [c2, c3, key w3] at h2
    refine ⟨?_, ?_, ?_, ?_, ?_, ?_⟩
    · nlinarith [h2.1, h2.2]
    · nlinarith [h2.1, h2.2]
    all_goals nlinarith [h0.1, h0.2, h1.1, h1.2]
  · rintro ⟨h1, h2, h3, h4, h5, h6⟩ i hi
    match i, hi with
    | 3, h => exact absurd rfl h
    | 0, _ => rw [c0, c3, key w1]; constructor <;> nlinarith
    | 1, _ => rw [c1, c3, key w2]; constructor <;> nlinarith
    | 2, _ => rw [c2, c3, key w3]; constructor <;> nlinarith

/-! ## Orthographic projection -/

/-- The exact orthographic matrix of a frustum. -/
noncomputable def Spec.orthoProj (f : Frustum (Fp F)) : Fin 4 → Fin 4 → ℝ := Spec.ortho f.left.val f.right.val f.bottom.val f.top.val f.nearPlane.val f.farPlane.val
/-- The orthographic matrix can be computed without overflow (see `C119_ortho`). -/
def Spec.OrthoProjects (F : Format) (f : Frustum (Fp F)) : Prop :=
  Spec.VFinite f.array ∧ f.left.val < f.right.val ∧ f.bottom.val < f.top.val ∧ f.nearPlane.val < f.farPlane.val ∧
  Spec.SumsFit F f.left.val f.right.val f.bottom.val f.top.val f.nearPlane.val f.farPlane.val ∧ ∀ i j, 2 * |Spec.orthoProj f i j| + 2 ≤ F.maxFinite

private theorem robust_ortho (h10 : 10 ≤ F.p) (h0 : 0 < F.emax) (f : Frustum (Fp F)) (s : ℝ) (hs : |s| = 1) (i : Fin 4) (hi : i ≠ 3)
    (hn : Spec.Normalizable F (3 * F.eta) (Spec.orthoProj f) (Spec.absEntries (Spec.orthoProj f)) s i) :
    Spec.Robust F (5 * F.u) (3 * F.eta) (Spec.orthoProj f) (Spec.absEntries (Spec.orthoProj f)) s i := by
  have hu := F.u_pos
  have hu2 := u_2048 h10
  obtain ⟨n1, n2, n3, n4⟩ := hn
  refine ⟨?_, n1, n2, n3, n4⟩
  have hR0 : 0 ≤ Spec.normalLen (Spec.orthoProj f) s i := Real.sqrt_nonneg _
  have big : Spec.both (Spec.absEntries (Spec.orthoProj f)) i 0 + Spec.both (Spec.absEntries (Spec.orthoProj f)) i 1 + Spec.both (Spec.absEntries (Spec.orthoProj f)) i 2 ≤
      Spec.normalLen (Spec.orthoProj f) s i := by
    unfold Spec.normalLen Spec.orthoProj
    match i, hi with
    | 3, h => exact absurd rfl h
    | 0, _ =>
      refine le_trans (le_of_eq ?_) (abs_le_sqrt3 (x := s * (2 / (f.right.val - f.left.val))) (.inl (le_of_eq ?_)))
      · rw [abs_mul, hs]; simp [Spec.both, Spec.absEntries, Spec.ortho]
      · simp [Spec.ortho]
    | 1, _ =>
      refine le_trans (le_of_eq ?_) (abs_le_sqrt3 (x := s * (2 / (f.top.val - f.bottom.val))) (.inr (.inl (le_of_eq ?_))))
      · rw [abs_mul, hs]; simp [Spec.both, Spec.absEntries, Spec.ortho]
      · simp [Spec.ortho]
    | 2, _ =>
      refine le_trans (le_of_eq ?_) (abs_le_sqrt3 (x := s * (-2 / (f.farPlane.val - f.nearPlane.val))) (.inr (.inr (le_of_eq ?_))))
      · rw [abs_mul, hs]; simp [Spec.both, Spec.absEntries, Spec.ortho]
      · simp [Spec.ortho]
  have ht : F.tiny ≤ Spec.normalLen (Spec.orthoProj f) s i := by
    have ht0 := F.tiny_pos
    have ht1 := tiny_le_one h0
    have h8 : 8 * F.tiny ≤ Spec.normalLen (Spec.orthoProj f) s i ^ 2 := n1
    by_contra hc
    nlinarith only [hc, h8, ht0, ht1, hR0]
  rw [eta_eq_tiny]
  have e1 : F.u * F.tiny ≤ 1 / 2048 * Spec.normalLen (Spec.orthoProj f) s i := mul_le_mul hu2 ht F.tiny_pos.le (by norm_num)
  have e2 : F.u * (Spec.both (Spec.absEntries (Spec.orthoProj f)) i 0 + Spec.both (Spec.absEntries (Spec.orthoProj f)) i 1 + Spec.both (Spec.absEntries (Spec.orthoProj f)) i 2) ≤
      1 / 2048 * Spec.normalLen (Spec.orthoProj f) s i := (mul_le_mul_of_nonneg_left big hu.le).trans (mul_le_mul_of_nonneg_right hu2 hR0)
  linarith only [e1, e2, hR0]

/-- **C132** From the numbers of an orthographic frustum to the verdicts on a sphere and on a box, all in IEEE arithmetic: `compute_ortho_matrix`, `setup`, `test_sphere`, `test_aabb`. No restriction on
the shape of the box volume is needed here. -/
theorem C132_ortho (hD : Spec.Quotients F D) (hp : F.p ≤ D.p) (he : F.emax ≤ D.emax) (hpe : F.p < F.emax) (h10 : 10 ≤ F.p) (cfg : Cfg) (f : Frustum (Fp F)) (m0 : Mat 4 4 (Fp F))
    (hf : Spec.OrthoProjects F f) (s : Vec 4 (Fp F)) (hs : Spec.VFinite s) (hr : (0 : ℝ) ≤ s[3].val) (half : Fp F) (hh : half.Finite) (hv : half.val = 1 / 2) (x y z : Vec 2 (Fp F))
    (hx : Spec.VFinite x) (hy : Spec.VFinite y) (hz : Spec.VFinite z) (hbox : ∀ w ∈ [x, y, z], Spec.grow F 2 (Spec.span w + F.tiny) ≤ F.maxFinite)
    {X Y Z : ℝ} (hX : |s[0].val| + s[3].val ≤ X) (hY : |s[1].val| + s[3].val ≤ Y) (hZ : |s[2].val| + s[3].val ≤ Z)
    (hfit : ∀ (σ : ℝ) (i : Fin 4), |σ| = 1 → i ≠ 3 → Spec.Normalizable F (3 * F.eta) (Spec.orthoProj f) (Spec.absEntries (Spec.orthoProj f)) σ i ∧
      Spec.ValuesFit F (3 * F.eta) (Spec.orthoProj f) (Spec.absEntries (Spec.orthoProj f)) σ i X Y Z ∧
      Spec.ValuesFit F (3 * F.eta) (Spec.orthoProj f) (Spec.absEntries (Spec.orthoProj f)) σ i (Spec.span x) (Spec.span y) (Spec.span z)) :
    let w := fun a b c => Spec.coord (Spec.orthoProj f) 3 a b c
    let margin := fun X Y Z i => Spec.clipMargin F (5 * F.u) (3 * F.eta) (Spec.absEntries (Spec.orthoProj f)) i X Y Z
    ∃ P k v, f.computeOrthoMatrixMixed D cfg m0 = .ok P ∧ setupMatrixMixed D cfg P = .ok k ∧ testAabb cfg half k x y z = .ok v ∧
      (∀ a b c : ℝ, (a - s[0].val) ^ 2 + (b - s[1].val) ^ 2 + (c - s[2].val) ^ 2 ≤ s[3].val ^ 2 →
        ((∀ i : Fin 4, i ≠ 3 → |Spec.coord (Spec.orthoProj f) i a b c| + margin X Y Z i < w a b c) → testSphere k s ≠ .none) ∧
        (testSphere k s = .full → ∀ i : Fin 4, i ≠ 3 → |Spec.coord (Spec.orthoProj f) i a b c| ≤ w a b c + margin X Y Z i)) ∧
      (∀ a b c : ℝ, Spec.FBoxHas x y z a b c →
        ((∀ i : Fin 4, i ≠ 3 → |Spec.coord (Spec.orthoProj f) i a b c| + margin (Spec.span x) (Spec.span y) (Spec.span z) i < w a b c) → v ≠ .none) ∧
        (v = .full → ∀ i : Fin 4, i ≠ 3 → |Spec.coord (Spec.orthoProj f) i a b c| ≤ w a b c + margin (Spec.span x) (Spec.span y) (Spec.span z) i)) := by
  intro w margin
  obtain ⟨f1, f2, f3, f4, f5, f6⟩ := hf
  obtain ⟨P, hP, hn⟩ := C119_ortho hp he (by omega) (by omega) cfg f m0 f1 f2 f3 f4 f5 f6
  have hn' : Spec.MatrixNear (5 * F.u) (3 * F.eta) (Spec.orthoProj f) (Spec.absEntries (Spec.orthoProj f)) P := fun i j => ⟨(hn i j).1, le_rfl, (hn i j).2.trans (by
    have := mul_le_mul_of_nonneg_right (C119_bound (F := F) h10) (abs_nonneg (Spec.orthoProj f i j))
    unfold Spec.absEntries
    exact add_le_add_left this _)⟩
  have hu := F.u_pos
  have hη := F.eta_pos
  obtain ⟨k, hk, h⟩ := C132_matrix_sphere hD hpe h10 cfg (ε := 5 * F.u) (τ := 3 * F.eta) (by have := u_2048 h10; linarith) (by positivity) _ _ P hn' s hs hr hX hY hZ
    (fun σ i h1 h2 => ⟨robust_ortho h10 (by omega) f σ h1 i h2 (hfit σ i h1 h2).1, (hfit σ i h1 h2).2.1⟩)
  obtain ⟨k', r, hk', hr', h'⟩ := C132_matrix_box hD hpe h10 cfg (ε := 5 * F.u) (τ := 3 * F.eta) (by have := u_2048 h10; linarith) (by positivity) _ _ P hn' half hh hv x y z hx hy hz hbox
    (fun σ i h1 h2 => ⟨robust_ortho h10 (by omega) f σ h1 i h2 (hfit σ i h1 h2).1, (hfit σ i h1 h2).2.2⟩)
  rw [hk] at hk'
  cases hk'
  exact ⟨P, k, r, hP, hk, hr', h, h'⟩

/-! ## With a model-view matrix -/

/-- The exact product of the perspective matrix and a model-view matrix. -/
noncomputable def Spec.projView (f : Frustum (Fp F)) (V : Mat 4 4 (Fp F)) : Fin 4 → Fin 4 → ℝ := fun i j => ∑ k, Spec.proj f i k * (V.get k j).val
/-- The sums of the absolute values of the terms. -/
noncomputable def Spec.projViewMag (f : Frustum (Fp F)) (V : Mat 4 4 (Fp F)) : Fin 4 → Fin 4 → ℝ := fun i j => ∑ k, |Spec.proj f i k| * |(V.get k j).val|

private theorem near_world (h10 : 10 ≤ F.p) (hp : F.p ≤ D.p) (he : F.emax ≤ D.emax) (h1 : 1 < F.emax) (cfg : Cfg) (f : Frustum (Fp F)) (m0 V : Mat 4 4 (Fp F)) (hf : Spec.Projects F D f)
    (hV : ∀ i j, (V.get i j).Finite) {v : ℝ} (hv : ∀ j, ∑ k, |(V.get k j).val| ≤ v) (hroom : ∀ i j, 4 * Spec.projViewMag f V i j + 8 * F.eta * (v + 1) ≤ F.maxFinite) :
    ∃ P m, f.computeMatrixMixed D cfg m0 = .ok P ∧ P.mul cfg V = .ok m ∧ Spec.MatrixNear (10 * F.u) (F.eta * (4 * v + 5)) (Spec.projView f V) (Spec.projViewMag f V) m := by
  have hu := F.u_pos
  have hη := F.eta_pos
  have hu2 := u_2048 h10
  have hM := maxFinite_pos (F := F)
  obtain ⟨P, hP, hn⟩ := near_frustum h10 hp he h1 cfg f m0 hf
  obtain ⟨m, hm, hall⟩ := C108_matrix_product (by omega) cfg P V (by push_cast; linarith)
  refine ⟨P, m, hP, hm, fun i j => ?_⟩
  obtain ⟨a1, a2⟩ := hall i j
  have v0 : 0 ≤ v := (Finset.sum_nonneg (fun k _ => abs_nonneg _)).trans (hv j)
  have B0 : 0 ≤ Spec.projViewMag f V i j := Finset.sum_nonneg (fun k _ => by positivity)
  -- the sum of the absolute products with the computed matrix
  have S : ∑ k, |(P.get i k).val * (V.get k j).val| ≤ (1 + 5 * F.u) * Spec.projViewMag f V i j + 3 * F.eta * v := by
    have : ∑ k, |(P.get i k).val * (V.get k j).val| ≤ ∑ k, ((1 + 5 * F.u) * (|Spec.proj f i k| * |(V.get k j).val|) + 3 * F.eta * |(V.get k j).val|) := by
      apply Finset.sum_le_sum
      intro k _
      rw [abs_mul]
      obtain ⟨-, -, h⟩ := hn i k
      have h' := abs_sub_abs_le_abs_sub (P.get i k).val (Spec.proj f i k)
      unfold Spec.absEntries at h
      have := mul_le_mul_of_nonneg_right (show |(P.get i k).val| ≤ (1 + 5 * F.u) * |Spec.proj f i k| + 3 * F.eta by linarith) (abs_nonneg (V.get k j).val)
      linarith
    rw [Finset.sum_add_distrib, ← Finset.mul_sum, ← Finset.mul_sum] at this
    refine this.trans ?_
    have := mul_le_mul_of_nonneg_left (hv j) (show 0 ≤ 3 * F.eta by positivity)
    unfold Spec.projViewMag
    linarith
  have E : |∑ k, (P.get i k).val * (V.get k j).val - Spec.projView f V i j| ≤ 5 * F.u * Spec.projViewMag f V i j + 3 * F.eta * v := by
    unfold Spec.projView
    rw [← Finset.sum_sub_distrib]
    refine (Finset.abs_sum_le_sum_abs _ _).trans ?_
    have : ∑ k, |(P.get i k).val * (V.get k j).val - Spec.proj f i k * (V.get k j).val| ≤ ∑ k, (5 * F.u * (|Spec.proj f i k| * |(V.get k j).val|) + 3 * F.eta * |(V.get k j).val|) := by
      apply Finset.sum_le_sum
      intro k _
      rw [← sub_mul, abs_mul]
      obtain ⟨-, -, h⟩ := hn i k
      have := mul_le_mul_of_nonneg_right h (abs_nonneg (V.get k j).val)
      unfold Spec.absEntries at this
      linarith
    rw [Finset.sum_add_distrib, ← Finset.mul_sum, ← Finset.mul_sum] at this
    refine this.trans ?_
    have := mul_le_mul_of_nonneg_left (hv j) (show 0 ≤ 3 * F.eta by positivity)
    unfold Spec.projViewMag
    linarith
  obtain ⟨B, hB⟩ : ∃ B, B = Spec.projViewMag f V i j := ⟨_, rfl⟩
  have room := hroom i j
  rw [← hB] at S E B0 room ⊢
  have hηv : 0 ≤ F.eta * v := by positivity
  have huB : F.u * B ≤ 1 / 2048 * B := mul_le_mul_of_nonneg_right hu2 B0
  have fin : (m.get i j).Finite := by
    apply a2 (fun p => ⟨(hn i p).1, hV p j⟩)
    have h1 : F.u * F.maxFinite ≤ 1 / 2048 * F.maxFinite := mul_le_mul_of_nonneg_right hu2 hM.le
    push_cast
    linarith only [S, room, h1, huB, hηv, hη, hM, B0]
  obtain ⟨-, a3⟩ := a1 fin
  refine ⟨fin, ?_, ?_⟩
  · rw [hB]
    unfold Spec.projView Spec.projViewMag
    refine (Finset.abs_sum_le_sum_abs _ _).trans (le_of_eq (Finset.sum_congr rfl fun k _ => abs_mul _ _))
  · have h4 : Spec.accErr F 4 (∑ k, |(P.get i k).val * (V.get k j).val|) ≤ 5 * F.u * B + F.eta * (v + 5) := by
      unfold Spec.accErr
      push_cast
      rw [div_le_iff₀ (by linarith)]
      have e1 := mul_le_mul_of_nonneg_left S (show 0 ≤ 4 * F.u by positivity)
      have uB : 0 ≤ F.u * B := by positivity
      have uuB : F.u * (F.u * B) ≤ 1 / 2048 * (F.u * B) := mul_le_mul_of_nonneg_right hu2 uB
      have uv : F.u * (F.eta * v) ≤ 1 / 2048 * (F.eta * v) := mul_le_mul_of_nonneg_right hu2 hηv
      have ue : F.u * F.eta ≤ 1 / 2048 * F.eta := mul_le_mul_of_nonneg_right hu2 hη.le
      nlinarith only [e1, uuB, uv, ue, uB, hηv, hη]
    have tri := abs_sub_le (m.get i j).val (∑ k, (P.get i k).val * (V.get k j).val) (Spec.projView f V i j)
    linarith only [tri, a3, h4, E]

/-- **C132** From the frustum and a model-view matrix to the verdict on a sphere in world coordinates, all in IEEE arithmetic: `compute_matrix`, the product `projection * modelview`, `setup`,
`test_sphere`; the margin is about `33 u` times the magnitude of the terms. -/
theorem C132_world_sphere (hD : Spec.Quotients F D) (hp : F.p ≤ D.p) (he : F.emax ≤ D.emax) (hpe : F.p < F.emax) (h10 : 10 ≤ F.p) (cfg : Cfg) (f : Frustum (Fp F)) (m0 V : Mat 4 4 (Fp F))
    (hf : Spec.Projects F D f) (hV : ∀ i j, (V.get i j).Finite) {v : ℝ} (hv : ∀ j, ∑ k, |(V.get k j).val| ≤ v)
    (hroom : ∀ i j, 4 * Spec.projViewMag f V i j + 8 * F.eta * (v + 1) ≤ F.maxFinite) (s : Vec 4 (Fp F)) (hs : Spec.VFinite s) (hr : (0 : ℝ) ≤ s[3].val)
    {X Y Z : ℝ} (hX : |s[0].val| + s[3].val ≤ X) (hY : |s[1].val| + s[3].val ≤ Y) (hZ : |s[2].val| + s[3].val ≤ Z)
    (hfit : ∀ (σ : ℝ) (i : Fin 4), |σ| = 1 → i ≠ 3 → Spec.Robust F (10 * F.u) (F.eta * (4 * v + 5)) (Spec.projView f V) (Spec.projViewMag f V) σ i ∧
      Spec.ValuesFit F (F.eta * (4 * v + 5)) (Spec.projView f V) (Spec.projViewMag f V) σ i X Y Z) :
    ∃ P m k, f.computeMatrixMixed D cfg m0 = .ok P ∧ P.mul cfg V = .ok m ∧ setupMatrixMixed D cfg m = .ok k ∧
      ∀ x y z : ℝ, (x - s[0].val) ^ 2 + (y - s[1].val) ^ 2 + (z - s[2].val) ^ 2 ≤ s[3].val ^ 2 →
      let w := Spec.coord (Spec.projView f V) 3 x y z
      let margin := fun i => Spec.clipMargin F (10 * F.u) (F.eta * (4 * v + 5)) (Spec.projViewMag f V) i X Y Z
      ((∀ i : Fin 4, i ≠ 3 → |Spec.coord (Spec.projView f V) i x y z| + margin i < w) → testSphere k s ≠ .none) ∧
      (testSphere k s = .full → ∀ i : Fin 4, i ≠ 3 → |Spec.coord (Spec.projView f V) i x y z| ≤ w + margin i) := by
  have v0 : 0 ≤ v := (Finset.sum_nonneg (fun k _ => abs_nonneg _)).trans (hv 0)
  have hu := F.u_pos
  have hη := F.eta_pos
  obtain ⟨P, m, hP, hm, hn⟩ := near_world h10 hp he (by omega) cfg f m0 V hf hV hv hroom
  obtain ⟨k, hk, h⟩ := C132_matrix_sphere hD hpe h10 cfg (by have := u_2048 h10; linarith) (by positivity) _ _ m hn s hs hr hX hY hZ hfit
  exact ⟨P, m, k, hP, hm, hk, h⟩

/-- **C132** The same for a box in world coordinates. -/
theorem C132_world_box (hD : Spec.Quotients F D) (hp : F.p ≤ D.p) (he : F.emax ≤ D.emax) (hpe : F.p < F.emax) (h10 : 10 ≤ F.p) (cfg : Cfg) (f : Frustum (Fp F)) (m0 V : Mat 4 4 (Fp F))
    (hf : Spec.Projects F D f) (hV : ∀ i j, (V.get i j).Finite) {v : ℝ} (hv : ∀ j, ∑ k, |(V.get k j).val| ≤ v)
    (hroom : ∀ i j, 4 * Spec.projViewMag f V i j + 8 * F.eta * (v + 1) ≤ F.maxFinite) (half : Fp F) (hh : half.Finite) (hhv : half.val = 1 / 2) (x y z : Vec 2 (Fp F))
    (hx : Spec.VFinite x) (hy : Spec.VFinite y) (hz : Spec.VFinite z) (hbox : ∀ w ∈ [x, y, z], Spec.grow F 2 (Spec.span w + F.tiny) ≤ F.maxFinite)
    (hfit : ∀ (σ : ℝ) (i : Fin 4), |σ| = 1 → i ≠ 3 → Spec.Robust F (10 * F.u) (F.eta * (4 * v + 5)) (Spec.projView f V) (Spec.projViewMag f V) σ i ∧
      Spec.ValuesFit F (F.eta * (4 * v + 5)) (Spec.projView f V) (Spec.projViewMag f V) σ i (Spec.span x) (Spec.span y) (Spec.span z)) :
    ∃ P m k r, f.computeMatrixMixed D cfg m0 = .ok P ∧ P.mul cfg V = .ok m ∧ setupMatrixMixed D cfg m = .ok k ∧ testAabb cfg half k x y z = .ok r ∧
      ∀ a b c : ℝ, Spec.FBoxHas x y z a b c →
      let w := Spec.coord (Spec.projView f V) 3 a b c
      let margin := fun i => Spec.clipMargin F (10 * F.u) (F.eta * (4 * v + 5)) (Spec.projViewMag f V) i (Spec.span x) (Spec.span y) (Spec.span z)
      ((∀ i : Fin 4, i ≠ 3 → |Spec.coord (Spec.projView f V) i a b c| + margin i < w) → r ≠ .none) ∧
      (r = .full → ∀ i : Fin 4, i ≠ 3 → |Spec.coord (Spec.projView f V) i a b c| ≤ w + margin i) := by
  have v0 : 0 ≤ v := (Finset.sum_nonneg (fun k _ => abs_nonneg _)).trans (hv 0)
  have hu := F.u_pos
  have hη := F.eta_pos
  obtain ⟨P, m, hP, hm, hn⟩ := near_world h10 hp he (by omega) cfg f m0 V hf hV hv hroom
  obtain ⟨k, r, hk, hr, h⟩ := C132_matrix_box hD hpe h10 cfg (by have := u_2048 h10; linarith) (by positivity) _ _ m hn half hh hhv x y z hx hy hz hbox hfit
  exact ⟨P, m, k, r, hP, hm, hk, hr, h⟩

/-! ## The hypotheses can be met -/

private theorem single_big : (2 : ℝ) ^ (100 : Nat) ≤ single.maxFinite := by
  refine le_trans ?_ (pow_emax_le (F := single))
  rw [← zpow_natCast]
  exact zpow_le_zpow_right₀ (by norm_num) (by norm_num)

private theorem single_num (n : Nat) (hn : n ≤ 100) : ∃ a : Fp single, a.Finite ∧ a.val = n := by
  have h12 : (n : ℝ) ≤ 100 := by exact_mod_cast hn
  have hr : single.Rep n := ⟨n, 0, by unfold emin; norm_num, by
    rw [Nat.abs_cast]; exact le_trans (by exact_mod_cast hn : (n : Int) ≤ 100) (by norm_num), by simp⟩
  have hm : single.Mag n := ⟨by positivity, hr, h12.trans (le_trans (by norm_num) single_big)⟩
  exact ⟨.fin false n hm, trivial, rfl⟩

private theorem single_u : single.u ≤ 1 / 10000000 := by unfold u; norm_num
private theorem single_tiny : single.tiny ≤ 1 / 1000000 := by
  unfold Format.tiny emin
  norm_num

/-- The hypotheses of `C132_frustum_sphere` hold in `float` (with `double` literals) for the frustum `(-1, 1, -1, 1, 1, 100)` and the unit sphere about `(0, 0, -10)`. -/
example : ∃ (f : Frustum (Fp single)) (s : Vec 4 (Fp single)), f.left.val = -1 ∧ f.right.val = 1 ∧ f.bottom.val = -1 ∧ f.top.val = 1 ∧ f.nearPlane.val = 1 ∧ f.farPlane.val = 100 ∧
    Spec.VFinite s ∧ (0 : ℝ) ≤ s[3].val ∧ |s[0].val| + s[3].val ≤ (1 : ℝ) ∧ |s[1].val| + s[3].val ≤ (1 : ℝ) ∧ |s[2].val| + s[3].val ≤ (11 : ℝ) ∧
    Spec.Projects single double f ∧ Spec.NotTooWide f ∧
    ∀ (σ : ℝ) (i : Fin 4), |σ| = 1 → i ≠ 3 → Spec.Normalizable single (3 * single.eta) (Spec.proj f) (Spec.absEntries (Spec.proj f)) σ i ∧
      Spec.ValuesFit single (3 * single.eta) (Spec.proj f) (Spec.absEntries (Spec.proj f)) σ i 1 1 11 := by
  obtain ⟨a1, f1, v1⟩ := single_num 1 (by norm_num)
  obtain ⟨a100, f100, v100⟩ := single_num 100 (by norm_num)
  obtain ⟨a10, f10, v10⟩ := single_num 10 (by norm_num)
  push_cast at v1 v100 v10
  have n1 : (-a1).val = -1 := by rw [Fp.val_neg, v1]
  have n10 : (-a10).val = -10 := by rw [Fp.val_neg, v10]
  have big := single_big
  have hu := single_u
  have hu0 := single.u_pos
  have ht := single_tiny
  have ht0 := single.tiny_pos
  have hη0 := single.eta_pos
  have hη : single.eta ≤ 1 / 1000000 := by
    rw [eta_eq_tiny]; nlinarith
  refine ⟨⟨#v[-a1, a1, -a1, a1, a1, a100]⟩, #v[0, 0, -a10, a1], n1, v1, n1, v1, v1, v100, ?_, ?_, ?_, ?_, ?_, ?_, ?_, ?_⟩
  · intro i
    match i with
    | 0 => exact Fp.finite_zero
    | 1 => exact Fp.finite_zero
    | 2 => exact Fp.finite_neg f10
    | 3 => exact f1
  · show (0 : ℝ) ≤ a1.val
    rw [v1]; norm_num
  · show |(0 : Fp single).val| + a1.val ≤ 1
    rw [v1, Fp.val_zero]; norm_num
  · show |(0 : Fp single).val| + a1.val ≤ 1
    rw [v1, Fp.val_zero]; norm_num
  · show |(-a10).val| + a1.val ≤ 11
    rw [v1, n10]; norm_num
  all_goals
    obtain ⟨f, hf⟩ : ∃ f : Frustum (Fp single), f = ⟨#v[-a1, a1, -a1, a1, a1, a100]⟩ := ⟨_, rfl⟩
    rw [← hf]
    have e1 : f.left.val = -1 := by rw [hf]; exact n1
    have e2 : f.right.val = 1 := by rw [hf]; exact v1
    have e3 : f.bottom.val = -1 := by rw [hf]; exact n1
    have e4 : f.top.val = 1 := by rw [hf]; exact v1
    have e5 : f.nearPlane.val = 1 := by rw [hf]; exact v1
    have e6 : f.farPlane.val = 100 := by rw [hf]; exact v100
    have ep : Spec.proj f = !![1, 0, 0, 0; 0, 1, 0, 0; 0, 0, -(101 / 99), -(200 / 99); 0, 0, -1, 0] := by
      unfold Spec.proj
      rw [e1, e2, e3, e4, e5, e6]
      unfold Spec.perspective
      norm_num
      rfl
  · have dbig : (2 : ℝ) ^ (100 : Nat) ≤ double.maxFinite := by
      refine le_trans ?_ (pow_emax_le (F := double))
      rw [← zpow_natCast]
      exact zpow_le_zpow_right₀ (by norm_num) (by norm_num)
    refine ⟨⟨?_, ?_⟩, ?_, ?_, ?_, ?_, ?_⟩
    · rw [hf]
      intro i
      match i with
      | 0 => exact Fp.finite_neg f1
      | 1 => exact f1
      | 2 => exact Fp.finite_neg f1
      | 3 => exact f1
      | 4 => exact f1
      | 5 => exact f100
    · rw [e1, e2, e3, e4, e5, e6]; norm_num
    · unfold Spec.SumsFit
      rw [e1, e2, e3, e4, e5, e6]
      norm_num
      norm_num at big
      refine ⟨?_, ?_, ?_, ?_, ?_, ?_⟩ <;> linarith
    · intro i j
      rw [ep]
      have : |(!![1, 0, 0, 0; 0, 1, 0, 0; 0, 0, -(101 / 99), -(200 / 99); 0, 0, -1, 0] : Matrix (Fin 4) (Fin 4) ℝ) i j| ≤ 3 := by
        fin_cases i <;> fin_cases j <;> norm_num [abs_of_pos]
      norm_num at big
      linarith
    · rw [e5, e6]
      refine le_trans (zpow_le_zpow_right₀ (by norm_num) (show double.emin ≤ 0 by unfold emin; norm_num)) (by norm_num)
    · rw [e5, e6]; norm_num at dbig ⊢; linarith
    · rw [e6]; norm_num at dbig ⊢; linarith
  · unfold Spec.NotTooWide
    rw [e1, e2, e3, e4, e5, e6]
    norm_num
    constructor <;> linarith
  · intro σ i hσ hi
    have hb : ∀ j, Spec.both (Spec.absEntries (Spec.proj f)) i j ≤ 5 ∧ 0 ≤ Spec.both (Spec.absEntries (Spec.proj f)) i j := by
      intro j
      constructor
      · have entry : ∀ i j, |Spec.proj f i j| ≤ 5 / 2 := by
          intro i j
          rw [ep]
          show |(!![1, 0, 0, 0; 0, 1, 0, 0; 0, 0, -(101 / 99), -(200 / 99); 0, 0, -1, 0] : Matrix (Fin 4) (Fin 4) ℝ) i j| ≤ 5 / 2
          fin_cases i <;> fin_cases j <;> norm_num [abs_of_pos]
        unfold Spec.both Spec.absEntries
        have := entry 3 j
        have := entry i j
        linarith
      · unfold Spec.both Spec.absEntries; positivity
    have hR : 1 / 100 ≤ Spec.normalLen (Spec.proj f) σ i ∧ Spec.normalLen (Spec.proj f) σ i ≤ 3 := by
      have two : (1 : ℝ) / 100 ≤ Real.sqrt 2 ∧ Real.sqrt 2 ≤ 3 := ⟨Real.le_sqrt_of_sq_le (by norm_num), Real.sqrt_le_iff.2 ⟨by norm_num, by norm_num⟩⟩
      have p30 : Spec.proj f 3 0 = 0 := by rw [ep]; rfl
      have p31 : Spec.proj f 3 1 = 0 := by rw [ep]; rfl
      have p32 : Spec.proj f 3 2 = -1 := by rw [ep]; rfl
      have p00 : Spec.proj f 0 0 = 1 := by rw [ep]; rfl
      have p01 : Spec.proj f 0 1 = 0 := by rw [ep]; rfl
      have p02 : Spec.proj f 0 2 = 0 := by rw [ep]; rfl
      have p10 : Spec.proj f 1 0 = 0 := by rw [ep]; rfl
      have p11 : Spec.proj f 1 1 = 1 := by rw [ep]; rfl
      have p12 : Spec.proj f 1 2 = 0 := by rw [ep]; rfl
      have p20 : Spec.proj f 2 0 = 0 := by rw [ep]; rfl
      have p21 : Spec.proj f 2 1 = 0 := by rw [ep]; rfl
      have p22 : Spec.proj f 2 2 = -(101 / 99) := by rw [ep]; rfl
      unfold Spec.normalLen
      match i, hi with
      | 3, h => exact absurd rfl h
      | 0, _ =>
        rw [p30, p31, p32, p00, p01, p02]
        rcases (abs_eq zero_le_one).1 hσ with rfl | rfl <;> norm_num <;> exact two
      | 1, _ =>
        rw [p30, p31, p32, p10, p11, p12]
        rcases (abs_eq zero_le_one).1 hσ with rfl | rfl <;> norm_num <;> exact two
      | 2, _ =>
        rw [p30, p31, p32, p20, p21, p22]
        rcases (abs_eq zero_le_one).1 hσ with rfl | rfl
        · rw [show (0 + 1 * 0 : ℝ) ^ 2 + (0 + 1 * 0) ^ 2 + (-1 + 1 * -(101 / 99)) ^ 2 = (200 / 99) ^ 2 by norm_num, Real.sqrt_sq (by norm_num)]
          norm_num
        · rw [show (0 + -1 * 0 : ℝ) ^ 2 + (0 + -1 * 0) ^ 2 + (-1 + -1 * -(101 / 99)) ^ 2 = (2 / 99) ^ 2 by norm_num, Real.sqrt_sq (by norm_num)]
          norm_num
    obtain ⟨r1, r2⟩ := hR
    obtain ⟨R, hRd⟩ : ∃ R, R = Spec.normalLen (Spec.proj f) σ i := ⟨_, rfl⟩
    have hp : (2 : ℝ) ^ (100 : Nat) ≤ single.maxFinite := big
    norm_num at hp
    constructor
    · unfold Spec.Normalizable
      rw [← hRd] at r1 r2 ⊢
      have := (hb 3).1
      refine ⟨?_, ?_, ?_, ?_⟩
      · change 8 * single.tiny ≤ _
        nlinarith
      · nlinarith
      · linarith
      · nlinarith
    · unfold Spec.ValuesFit
      rw [← hRd] at r1 r2 ⊢
      have b0 := hb 0
      have b1 := hb 1
      have b2 := hb 2
      have b3 := hb 3
      generalize Spec.both (Spec.absEntries (Spec.proj f)) i 0 = c0 at *
      generalize Spec.both (Spec.absEntries (Spec.proj f)) i 1 = c1 at *
      generalize Spec.both (Spec.absEntries (Spec.proj f)) i 2 = c2 at *
      generalize Spec.both (Spec.absEntries (Spec.proj f)) i 3 = c3 at *
      have hq : 8 * ((c0 + 3 * single.eta) * 1 + (c1 + 3 * single.eta) * 1 + (c2 + 3 * single.eta) * 11 + (c3 + 3 * single.eta)) / R ≤ 100000 := by
        rw [div_le_iff₀ (by linarith)]
        linarith
      have hg : (1 + single.u) ^ 8 ≤ 2 := by
        calc (1 + single.u) ^ 8 ≤ (1 + 1 / 100) ^ 8 := pow_le_pow_left₀ (by linarith) (by linarith) 8
          _ ≤ 2 := by norm_num
      unfold Spec.grow
      refine le_trans (mul_le_mul hg (show _ ≤ (200000 : ℝ) by linarith) ?_ (by norm_num)) (by linarith)
      have : 0 ≤ 8 * ((c0 + 3 * single.eta) * 1 + (c1 + 3 * single.eta) * 1 + (c2 + 3 * single.eta) * 11 + (c3 + 3 * single.eta)) / R :=
        div_nonneg (by linarith) (by linarith)
      linarith

end Vmml
