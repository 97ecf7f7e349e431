import Verif.Props.FloatDrift
import Verif.Props.FloatSetup
import Verif.Props.MatrixTransform

/-!
# C134: incremental rotations in IEEE 754 arithmetic, with an inexact sine and cosine

`rotate_x`, `rotate_y`, `rotate_z` and their `pre_` forms update a matrix in place. The mathematical library is a parameter here: the instance argument `L : CMath ( Fp F )` is what `std::sin` and
`std::cos` resolve to, and only its accuracy `σ` enters.
-/

namespace Vmml
open Format
open scoped Matrix
variable {F : Format}

/-! ## Specification -/

/-- The sine and the cosine of the library are finite and within `σ` of the true ones. -/
def Spec.Trig (L : CMath (Fp F)) (σ : ℝ) : Prop :=
  ∀ a : Fp F, a.Finite → ((L.sin a).Finite ∧ |(L.sin a).val - Real.sin a.val| ≤ σ) ∧ ((L.cos a).Finite ∧ |(L.cos a).val - Real.cos a.val| ≤ σ)

/-- One call of the interface: an axis (x, y, z), whether it is the `pre_` form, and the angle. -/
structure Spec.Turn (F : Format) where
  pre : Bool
  axis : Fin 3
  angle : Fp F

/-- The call. -/
noncomputable def Spec.Turn.call [CMath (Fp F)] (t : Spec.Turn F) (m : Mat 4 4 (Fp F)) : Mat 4 4 (Fp F) :=
  match t.pre, t.axis with
  | false, 0 => m.rotateX t.angle
  | false, 1 => m.rotateY t.angle
  | false, 2 => m.rotateZ t.angle
  | true, 0 => m.preRotateX t.angle
  | true, 1 => m.preRotateY t.angle
  | true, 2 => m.preRotateZ t.angle

/-- The rotation about a coordinate axis. -/
noncomputable def Spec.rotXYZ (axis : Fin 3) (θ : ℝ) : Matrix (Fin 4) (Fin 4) ℝ :=
  match axis with
  | 0 => Spec.rotX θ
  | 1 => Spec.rotY θ
  | 2 => Spec.rotZ θ

/-- What the call would give without rounding: the rotation by the angle from the right, or (`pre_`) the one by the opposite angle from the left (C37). -/
noncomputable def Spec.Turn.exact (t : Spec.Turn F) (A : Matrix (Fin 4) (Fin 4) ℝ) : Matrix (Fin 4) (Fin 4) ℝ :=
  if t.pre then Spec.rotXYZ t.axis (-t.angle.val) * A else A * Spec.rotXYZ t.axis t.angle.val

/-- The relative error of one entry. -/
noncomputable def Spec.turnErr (F : Format) (σ : ℝ) : ℝ := (1 + F.u) ^ 2 * (1 + σ) - 1

/-! ## One entry -/

private theorem sum_core {X Y : ℝ} : |F.rnd (F.rnd X + F.rnd Y) - (X + Y)| ≤ ((1 + F.u) ^ 2 - 1) * (|X| + |Y|) + 2 * (1 + F.u) * F.eta ∧
    |F.rnd X + F.rnd Y| ≤ (1 + F.u) * (|X| + |Y|) + 2 * F.eta := by
  have hu := u_pos (F := F)
  have a1 := rnd_err_add (F := F) X
  have a2 := rnd_err_add (F := F) Y
  have a3 := ((rnd_rep (F := F) X).grid.add (rnd_rep (F := F) Y).grid).rnd_err
  have b : |F.rnd X + F.rnd Y - (X + Y)| ≤ F.u * (|X| + |Y|) + 2 * F.eta := by
    calc _ = |(F.rnd X - X) + (F.rnd Y - Y)| := by congr 1; ring
      _ ≤ _ := abs_add_le _ _
      _ ≤ _ := by linarith only [a1, a2]
  have c : |F.rnd X + F.rnd Y| ≤ (1 + F.u) * (|X| + |Y|) + 2 * F.eta := by
    calc _ = |(F.rnd X + F.rnd Y - (X + Y)) + (X + Y)| := by congr 1; ring
      _ ≤ _ := abs_add_le _ _
      _ ≤ _ := by linarith only [b, abs_add_le X Y]
  refine ⟨?_, c⟩
  calc _ = |(F.rnd (F.rnd X + F.rnd Y) - (F.rnd X + F.rnd Y)) + (F.rnd X + F.rnd Y - (X + Y))| := by congr 1; ring
    _ ≤ _ := abs_add_le _ _
    _ ≤ F.u * ((1 + F.u) * (|X| + |Y|) + 2 * F.eta) + (F.u * (|X| + |Y|) + 2 * F.eta) := add_le_add (a3.trans (mul_le_mul_of_nonneg_left c hu.le)) b
    _ = _ := by ring

private theorem pair (h0 : 0 < F.emax) {x y c s : Fp F} (hx : x.Finite) (hy : y.Finite) (hc : c.Finite) (hs : s.Finite) {C S σ : ℝ} (hC : |C| ≤ 1) (hS : |S| ≤ 1)
    (ec : |c.val - C| ≤ σ) (es : |s.val - S| ≤ σ) (hroom : (1 + Spec.turnErr F σ) * (|x.val| + |y.val|) + 2 * (1 + F.u) * F.eta ≤ F.maxFinite) :
    ((x * c + y * s).Finite ∧ |(x * c + y * s).val - (x.val * C + y.val * S)| ≤ Spec.turnErr F σ * (|x.val| + |y.val|) + 2 * (1 + F.u) * F.eta) ∧
    ((x * c - y * s).Finite ∧ |(x * c - y * s).val - (x.val * C - y.val * S)| ≤ Spec.turnErr F σ * (|x.val| + |y.val|) + 2 * (1 + F.u) * F.eta) := by
  have hu := u_pos (F := F)
  have he := eta_pos (F := F)
  have hσ : 0 ≤ σ := (abs_nonneg _).trans ec
  unfold Spec.turnErr at *
  obtain ⟨B, hB⟩ : ∃ B, B = |x.val| + |y.val| := ⟨_, rfl⟩
  rw [← hB] at hroom ⊢
  have hx0 := abs_nonneg x.val
  have hy0 := abs_nonneg y.val
  have hB0 : 0 ≤ B := by rw [hB]; positivity
  have c1 : |c.val| ≤ 1 + σ := by
    calc |c.val| = |C + (c.val - C)| := by congr 1; ring
      _ ≤ _ := abs_add_le _ _
      _ ≤ _ := add_le_add hC ec
  have s1 : |s.val| ≤ 1 + σ := by
    calc |s.val| = |S + (s.val - S)| := by congr 1; ring
      _ ≤ _ := abs_add_le _ _
      _ ≤ _ := add_le_add hS es
  have x1 : |x.val * c.val| ≤ (1 + σ) * |x.val| := by rw [abs_mul, mul_comm]; exact mul_le_mul_of_nonneg_right c1 hx0
  have y1 : |y.val * s.val| ≤ (1 + σ) * |y.val| := by rw [abs_mul, mul_comm]; exact mul_le_mul_of_nonneg_right s1 hy0
  have xy : |x.val * c.val| + |y.val * s.val| ≤ (1 + σ) * B := by rw [hB]; linarith
  have nn : 0 ≤ (1 + σ) * B := by positivity
  have g1 : (1 + σ) * B ≤ (1 + F.u) * ((1 + σ) * B) := by nlinarith
  have g2 : (1 + F.u) * ((1 + σ) * B) ≤ (1 + F.u) ^ 2 * (1 + σ) * B := by nlinarith
  have hr : (1 + F.u) ^ 2 * (1 + σ) * B + 2 * (1 + F.u) * F.eta ≤ F.maxFinite := by linarith
  have hue : 0 ≤ F.u * F.eta := by positivity
  obtain ⟨fx, vx⟩ := Fp.mul_fin h0 hx hc (by linarith [abs_nonneg (y.val * s.val)])
  obtain ⟨fy, vy⟩ := Fp.mul_fin h0 hy hs (by linarith [abs_nonneg (x.val * c.val)])
  have k := mul_le_mul_of_nonneg_left xy (by linarith : (0 : ℝ) ≤ 1 + F.u)
  have k2 := mul_le_mul_of_nonneg_left xy (by nlinarith : (0 : ℝ) ≤ (1 + F.u) ^ 2 - 1)
  have dx : |x.val * c.val - x.val * C| ≤ σ * |x.val| := by rw [← mul_sub, abs_mul, mul_comm]; exact mul_le_mul_of_nonneg_right ec hx0
  have dy : |y.val * s.val - y.val * S| ≤ σ * |y.val| := by rw [← mul_sub, abs_mul, mul_comm]; exact mul_le_mul_of_nonneg_right es hy0
  have dxy : σ * |x.val| + σ * |y.val| = σ * B := by rw [hB]; ring
  constructor
  · obtain ⟨e1, e2⟩ := sum_core (F := F) (X := x.val * c.val) (Y := y.val * s.val)
    obtain ⟨f, v⟩ := Fp.add_fin h0 fx fy (by rw [vx, vy]; linarith)
    refine ⟨f, ?_⟩
    rw [v, vx, vy]
    calc _ = |(F.rnd (F.rnd (x.val * c.val) + F.rnd (y.val * s.val)) - (x.val * c.val + y.val * s.val)) + ((x.val * c.val - x.val * C) + (y.val * s.val - y.val * S))| := by congr 1; ring
      _ ≤ _ := (abs_add_le _ _).trans (add_le_add e1 ((abs_add_le _ _).trans (add_le_add dx dy)))
      _ ≤ _ := by linarith
  · obtain ⟨e1, e2⟩ := sum_core (F := F) (X := x.val * c.val) (Y := -(y.val * s.val))
    rw [rnd_neg, abs_neg, ← sub_eq_add_neg, ← sub_eq_add_neg] at e1
    rw [rnd_neg, abs_neg, ← sub_eq_add_neg] at e2
    obtain ⟨f, v⟩ := Fp.sub_fin h0 fx fy (by rw [vx, vy]; linarith)
    refine ⟨f, ?_⟩
    rw [v, vx, vy]
    calc _ = |(F.rnd (F.rnd (x.val * c.val) - F.rnd (y.val * s.val)) - (x.val * c.val - y.val * s.val)) + ((x.val * c.val - x.val * C) - (y.val * s.val - y.val * S))| := by congr 1; ring
      _ ≤ _ := (abs_add_le _ _).trans (add_le_add e1 ((abs_sub _ _).trans (add_le_add dx dy)))
      _ ≤ _ := by linarith

/-! ## One call -/

/-- Only two columns change. -/
private theorem frob_pair {κ e : ℝ} (hκ : 0 ≤ κ) (he : 0 ≤ e) (a Δ : Matrix (Fin 4) (Fin 4) ℝ) (p q : Fin 4) (hpq : p < q) (h : ∀ i j, |Δ i j| ≤ if j = p ∨ j = q then κ * (|a i p| + |a i q|) + e else 0) :
    Spec.frob Δ ≤ 2 * κ * Spec.frob a + 4 * e := by
  let B : Matrix (Fin 4) (Fin 4) ℝ := fun i j => if j = p ∨ j = q then |a i p| + |a i q| else 0
  have h1 : Spec.frob Δ ≤ Spec.frob ((fun i j => κ * B i j : Matrix (Fin 4) (Fin 4) ℝ) + (fun _ _ => e)) := by
    apply frob_mono
    intro i j
    refine (h i j).trans ?_
    simp only [B]
    show _ ≤ κ * (if _ then _ else _) + e
    split_ifs
    · exact le_rfl
    · simpa using he
  have hB : Spec.frob B ≤ 2 * Spec.frob a := by
    have h0 := frob_nonneg a
    refine le_of_sq_le_sq ?_ (by positivity)
    rw [mul_pow, frob_sq, frob_sq, Finset.mul_sum]
    refine Finset.sum_le_sum fun i _ => ?_
    have x := sq_abs (a i 0)
    have y := sq_abs (a i 1)
    have z := sq_abs (a i 2)
    have w := sq_abs (a i 3)
    simp only [Fin.sum_univ_four, B]
    fin_cases p <;> fin_cases q <;> simp at hpq ⊢ <;> nlinarith [sq_nonneg (|a i 0| - |a i 1|), sq_nonneg (|a i 0| - |a i 2|), sq_nonneg (|a i 0| - |a i 3|), sq_nonneg (|a i 1| - |a i 2|), sq_nonneg (|a i 1| - |a i 3|), sq_nonneg (|a i 2| - |a i 3|)]
  calc _ ≤ _ := h1
    _ ≤ _ := frob_add _ _
    _ = κ * Spec.frob B + 4 * e := by rw [frob_smul hκ, frob_const he]; norm_num
    _ ≤ κ * (2 * Spec.frob a) + 4 * e := by linarith [mul_le_mul_of_nonneg_left hB hκ]
    _ = _ := by ring

private theorem of_cols {κ e : ℝ} (hκ : 0 ≤ κ) (he : 0 ≤ e) (m m' : Mat 4 4 (Fp F)) (hm : ∀ i j, (m.get i j).Finite) (E : Matrix (Fin 4) (Fin 4) ℝ) (p q : Fin 4) (hpq : p < q)
    (hp : ∀ i, (m'.get i p).Finite ∧ |(m'.get i p).val - E i p| ≤ κ * (|(m.get i p).val| + |(m.get i q).val|) + e)
    (hq : ∀ i, (m'.get i q).Finite ∧ |(m'.get i q).val - E i q| ≤ κ * (|(m.get i p).val| + |(m.get i q).val|) + e)
    (ho : ∀ i j, j ≠ p → j ≠ q → m'.get i j = m.get i j ∧ E i j = (m.get i j).val) :
    (∀ i j, (m'.get i j).Finite) ∧ Spec.frob (Spec.fvals m' - E) ≤ 2 * κ * Spec.frob (Spec.fvals m) + 4 * e := by
  constructor
  · intro i j
    by_cases h1 : j = p
    · rw [h1]; exact (hp i).1
    by_cases h2 : j = q
    · rw [h2]; exact (hq i).1
    rw [(ho i j h1 h2).1]; exact hm i j
  · refine frob_pair hκ he (Spec.fvals m) _ p q hpq fun i j => ?_
    show |(m'.get i j).val - E i j| ≤ if j = p ∨ j = q then κ * (|(m.get i p).val| + |(m.get i q).val|) + e else 0
    by_cases h1 : j = p
    · rw [if_pos (.inl h1), h1]; exact (hp i).2
    by_cases h2 : j = q
    · rw [if_pos (.inr h2), h2]; exact (hq i).2
    rw [if_neg (by tauto), (ho i j h1 h2).1, (ho i j h1 h2).2]; simp

private theorem of_rows {κ e : ℝ} (hκ : 0 ≤ κ) (he : 0 ≤ e) (m m' : Mat 4 4 (Fp F)) (hm : ∀ i j, (m.get i j).Finite) (E : Matrix (Fin 4) (Fin 4) ℝ) (p q : Fin 4) (hpq : p < q)
    (hp : ∀ j, (m'.get p j).Finite ∧ |(m'.get p j).val - E p j| ≤ κ * (|(m.get p j).val| + |(m.get q j).val|) + e)
    (hq : ∀ j, (m'.get q j).Finite ∧ |(m'.get q j).val - E q j| ≤ κ * (|(m.get p j).val| + |(m.get q j).val|) + e)
    (ho : ∀ i j, i ≠ p → i ≠ q → m'.get i j = m.get i j ∧ E i j = (m.get i j).val) :
    (∀ i j, (m'.get i j).Finite) ∧ Spec.frob (Spec.fvals m' - E) ≤ 2 * κ * Spec.frob (Spec.fvals m) + 4 * e := by
  constructor
  · intro i j
    by_cases h1 : i = p
    · rw [h1]; exact (hp j).1
    by_cases h2 : i = q
    · rw [h2]; exact (hq j).1
    rw [(ho i j h1 h2).1]; exact hm i j
  · rw [← frob_transpose, ← frob_transpose (Spec.fvals m)]
    refine frob_pair hκ he (Spec.fvals m)ᵀ _ p q hpq fun j i => ?_
    show |(m'.get i j).val - E i j| ≤ if i = p ∨ i = q then κ * (|(m.get p j).val| + |(m.get q j).val|) + e else 0
    by_cases h1 : i = p
    · rw [if_pos (.inl h1), h1]; exact (hp j).2
    by_cases h2 : i = q
    · rw [if_pos (.inr h2), h2]; exact (hq j).2
    rw [if_neg (by tauto), (ho i j h1 h2).1, (ho i j h1 h2).2]; simp

section Entries
variable {α : Type} [Add α] [Sub α] [Mul α] [Neg α] [CMath α] (m : Mat 4 4 α) (θ : α)

macro "entries" "[" ls:Lean.Parser.Tactic.simpLemma,* "]" : tactic => `(tactic|
  (intro i; fin_cases i <;> simp [Mat.get, Vector.getElem_set, $ls,*]))

private theorem rotateX_get : ∀ i, (m.rotateX θ).get i 0 = m.get i 0 ∧ (m.rotateX θ).get i 1 = m.get i 1 * CMath.cos θ + m.get i 2 * CMath.sin θ ∧
    (m.rotateX θ).get i 2 = -m.get i 1 * CMath.sin θ + m.get i 2 * CMath.cos θ ∧ (m.rotateX θ).get i 3 = m.get i 3 := by entries [Mat.rotateX]
private theorem rotateY_get : ∀ i, (m.rotateY θ).get i 0 = m.get i 0 * CMath.cos θ - m.get i 2 * CMath.sin θ ∧ (m.rotateY θ).get i 1 = m.get i 1 ∧
    (m.rotateY θ).get i 2 = m.get i 0 * CMath.sin θ + m.get i 2 * CMath.cos θ ∧ (m.rotateY θ).get i 3 = m.get i 3 := by entries [Mat.rotateY]
private theorem rotateZ_get : ∀ i, (m.rotateZ θ).get i 0 = m.get i 0 * CMath.cos θ + m.get i 1 * CMath.sin θ ∧
    (m.rotateZ θ).get i 1 = -m.get i 0 * CMath.sin θ + m.get i 1 * CMath.cos θ ∧ (m.rotateZ θ).get i 2 = m.get i 2 ∧ (m.rotateZ θ).get i 3 = m.get i 3 := by entries [Mat.rotateZ]
private theorem preRotateX_get : ∀ j, (m.preRotateX θ).get 0 j = m.get 0 j ∧ (m.preRotateX θ).get 1 j = m.get 1 j * CMath.cos θ + m.get 2 j * CMath.sin θ ∧
    (m.preRotateX θ).get 2 j = m.get 1 j * -CMath.sin θ + m.get 2 j * CMath.cos θ ∧ (m.preRotateX θ).get 3 j = m.get 3 j := by entries [Mat.preRotateX]
private theorem preRotateY_get : ∀ j, (m.preRotateY θ).get 0 j = m.get 0 j * CMath.cos θ - m.get 2 j * CMath.sin θ ∧ (m.preRotateY θ).get 1 j = m.get 1 j ∧
    (m.preRotateY θ).get 2 j = m.get 0 j * CMath.sin θ + m.get 2 j * CMath.cos θ ∧ (m.preRotateY θ).get 3 j = m.get 3 j := by entries [Mat.preRotateY]
private theorem preRotateZ_get : ∀ j, (m.preRotateZ θ).get 0 j = m.get 0 j * CMath.cos θ + m.get 1 j * CMath.sin θ ∧
    (m.preRotateZ θ).get 1 j = m.get 0 j * -CMath.sin θ + m.get 1 j * CMath.cos θ ∧ (m.preRotateZ θ).get 2 j = m.get 2 j ∧ (m.preRotateZ θ).get 3 j = m.get 3 j := by entries [Mat.preRotateZ]
end Entries

variable [L : CMath (Fp F)] {σ : ℝ}

theorem turn_step (h0 : 0 < F.emax) (hL : Spec.Trig L σ) (t : Spec.Turn F) (ht : t.angle.Finite) (m : Mat 4 4 (Fp F)) (hm : ∀ i j, (m.get i j).Finite)
    (hroom : (1 + Spec.turnErr F σ) * (2 * Spec.frob (Spec.fvals m)) + 2 * (1 + F.u) * F.eta ≤ F.maxFinite) :
    (∀ i j, ((t.call m).get i j).Finite) ∧ Spec.frob (Spec.fvals (t.call m) - t.exact (Spec.fvals m)) ≤ 2 * Spec.turnErr F σ * Spec.frob (Spec.fvals m) + 4 * (2 * (1 + F.u) * F.eta) := by
  obtain ⟨pre, axis, θ⟩ := t
  have ht : θ.Finite := ht
  obtain ⟨⟨fs, es⟩, fc, ec⟩ := hL θ ht
  have hu := u_pos (F := F)
  have he := eta_pos (F := F)
  have hσ : 0 ≤ σ := (abs_nonneg _).trans es
  have hκ : 0 ≤ Spec.turnErr F σ := by unfold Spec.turnErr; nlinarith [sq_nonneg F.u, mul_nonneg hu.le hσ]
  have he' : 0 ≤ 2 * (1 + F.u) * F.eta := by positivity
  have hs1 := Real.abs_sin_le_one θ.val
  have hc1 := Real.abs_cos_le_one θ.val
  have room : ∀ i j i' j', (1 + Spec.turnErr F σ) * (|(m.get i j).val| + |(m.get i' j').val|) + 2 * (1 + F.u) * F.eta ≤ F.maxFinite := by
    intro i j i' j'
    have e1 := entry_le_frob (Spec.fvals m) i j
    have e2 := entry_le_frob (Spec.fvals m) i' j'
    have e1 : |(m.get i j).val| ≤ _ := e1
    have e2 : |(m.get i' j').val| ≤ _ := e2
    have := mul_le_mul_of_nonneg_left (show |(m.get i j).val| + |(m.get i' j').val| ≤ 2 * Spec.frob (Spec.fvals m) by linarith) (by linarith : 0 ≤ 1 + Spec.turnErr F σ)
    linarith
  have k1 : ∀ i j i' j', _ := fun i j i' j' => pair h0 (hm i j) (hm i' j') fc fs hc1 hs1 ec es (room i j i' j')
  have k2 : ∀ i j i' j', _ := fun i j i' j' => (pair h0 (hm i j) (hm i' j') fs fc hs1 hc1 es ec (room i j i' j')).1
  have k3 : ∀ i j i' j', (-(m.get i j) * CMath.sin θ + m.get i' j' * CMath.cos θ).Finite ∧
      |(-(m.get i j) * CMath.sin θ + m.get i' j' * CMath.cos θ).val - (-(m.get i j).val * Real.sin θ.val + (m.get i' j').val * Real.cos θ.val)| ≤
        Spec.turnErr F σ * (|(m.get i j).val| + |(m.get i' j').val|) + 2 * (1 + F.u) * F.eta := by
    intro i j i' j'
    have := (pair h0 (Fp.finite_neg (hm i j)) (hm i' j') fs fc hs1 hc1 es ec (by rw [Fp.val_neg, abs_neg]; exact room i j i' j')).1
    rwa [Fp.val_neg, abs_neg] at this
  have k4 : ∀ i j i' j', (m.get i j * -CMath.sin θ + m.get i' j' * CMath.cos θ).Finite ∧
      |(m.get i j * -CMath.sin θ + m.get i' j' * CMath.cos θ).val - ((m.get i j).val * -Real.sin θ.val + (m.get i' j').val * Real.cos θ.val)| ≤
        Spec.turnErr F σ * (|(m.get i j).val| + |(m.get i' j').val|) + 2 * (1 + F.u) * F.eta := by
    intro i j i' j'
    exact (pair h0 (hm i j) (hm i' j') (Fp.finite_neg fs) fc (by rwa [abs_neg]) hc1 (by rw [Fp.val_neg, ← neg_sub', abs_neg]; exact es) ec (room i j i' j')).1
  cases pre
  · match axis with
    | 0 =>
      show (∀ i j, ((m.rotateX θ).get i j).Finite) ∧ Spec.frob (Spec.fvals (m.rotateX θ) - Spec.fvals m * Spec.rotX θ.val) ≤ _
      have E : ∀ i, (Spec.fvals m * Spec.rotX θ.val) i 0 = (m.get i 0).val ∧ (Spec.fvals m * Spec.rotX θ.val) i 1 = (m.get i 1).val * Real.cos θ.val + (m.get i 2).val * Real.sin θ.val ∧
          (Spec.fvals m * Spec.rotX θ.val) i 2 = -(m.get i 1).val * Real.sin θ.val + (m.get i 2).val * Real.cos θ.val ∧ (Spec.fvals m * Spec.rotX θ.val) i 3 = (m.get i 3).val := by
        intro i; simp [Matrix.mul_apply, Fin.sum_univ_four, Spec.rotX, Spec.fvals]
      refine of_cols hκ he' m _ hm _ 1 2 (by decide) (fun i => ?_) (fun i => ?_) (fun i j h1 h2 => ?_)
      · rw [(rotateX_get m θ i).2.1, (E i).2.1]; exact (k1 i 1 i 2).1
      · rw [(rotateX_get m θ i).2.2.1, (E i).2.2.1]; exact k3 i 1 i 2
      · match j, h1, h2 with
        | 0, _, _ => exact ⟨(rotateX_get m θ i).1, (E i).1⟩
        | 1, h, _ => exact absurd rfl h
        | 2, _, h => exact absurd rfl h
        | 3, _, _ => exact ⟨(rotateX_get m θ i).2.2.2, (E i).2.2.2⟩
    | 1 =>
      show (∀ i j, ((m.rotateY θ).get i j).Finite) ∧ Spec.frob (Spec.fvals (m.rotateY θ) - Spec.fvals m * Spec.rotY θ.val) ≤ _
      have E : ∀ i, (Spec.fvals m * Spec.rotY θ.val) i 0 = (m.get i 0).val * Real.cos θ.val - (m.get i 2).val * Real.sin θ.val ∧ (Spec.fvals m * Spec.rotY θ.val) i 1 = (m.get i 1).val ∧
          (Spec.fvals m * Spec.rotY θ.val) i 2 = (m.get i 0).val * Real.sin θ.val + (m.get i 2).val * Real.cos θ.val ∧ (Spec.fvals m * Spec.rotY θ.val) i 3 = (m.get i 3).val := by
        intro i; simp [Matrix.mul_apply, Fin.sum_univ_four, Spec.rotY, Spec.fvals, sub_eq_add_neg]
      refine of_cols hκ he' m _ hm _ 0 2 (by decide) (fun i => ?_) (fun i => ?_) (fun i j h1 h2 => ?_)
      · rw [(rotateY_get m θ i).1, (E i).1]; exact (k1 i 0 i 2).2
      · rw [(rotateY_get m θ i).2.2.1, (E i).2.2.1]; exact k2 i 0 i 2
      · match j, h1, h2 with
        | 1, _, _ => exact ⟨(rotateY_get m θ i).2.1, (E i).2.1⟩
        | 0, h, _ => exact absurd rfl h
        | 2, _, h => exact absurd rfl h
        | 3, _, _ => exact ⟨(rotateY_get m θ i).2.2.2, (E i).2.2.2⟩
    | 2 =>
      show (∀ i j, ((m.rotateZ θ).get i j).Finite) ∧ Spec.frob (Spec.fvals (m.rotateZ θ) - Spec.fvals m * Spec.rotZ θ.val) ≤ _
      have E : ∀ i, (Spec.fvals m * Spec.rotZ θ.val) i 0 = (m.get i 0).val * Real.cos θ.val + (m.get i 1).val * Real.sin θ.val ∧
          (Spec.fvals m * Spec.rotZ θ.val) i 1 = -(m.get i 0).val * Real.sin θ.val + (m.get i 1).val * Real.cos θ.val ∧ (Spec.fvals m * Spec.rotZ θ.val) i 2 = (m.get i 2).val ∧
          (Spec.fvals m * Spec.rotZ θ.val) i 3 = (m.get i 3).val := by
        intro i; simp [Matrix.mul_apply, Fin.sum_univ_four, Spec.rotZ, Spec.fvals]
      refine of_cols hκ he' m _ hm _ 0 1 (by decide) (fun i => ?_) (fun i => ?_) (fun i j h1 h2 => ?_)
      · rw [(rotateZ_get m θ i).1, (E i).1]; exact (k1 i 0 i 1).1
      · rw [(rotateZ_get m θ i).2.1, (E i).2.1]; exact k3 i 0 i 1
      · match j, h1, h2 with
        | 2, _, _ => exact ⟨(rotateZ_get m θ i).2.2.1, (E i).2.2.1⟩
        | 0, h, _ => exact absurd rfl h
        | 1, _, h => exact absurd rfl h
        | 3, _, _ => exact ⟨(rotateZ_get m θ i).2.2.2, (E i).2.2.2⟩
  · match axis with
    | 0 =>
      show (∀ i j, ((m.preRotateX θ).get i j).Finite) ∧ Spec.frob (Spec.fvals (m.preRotateX θ) - Spec.rotX (-θ.val) * Spec.fvals m) ≤ _
      have E : ∀ j, (Spec.rotX (-θ.val) * Spec.fvals m) 0 j = (m.get 0 j).val ∧ (Spec.rotX (-θ.val) * Spec.fvals m) 1 j = (m.get 1 j).val * Real.cos θ.val + (m.get 2 j).val * Real.sin θ.val ∧
          (Spec.rotX (-θ.val) * Spec.fvals m) 2 j = (m.get 1 j).val * -Real.sin θ.val + (m.get 2 j).val * Real.cos θ.val ∧ (Spec.rotX (-θ.val) * Spec.fvals m) 3 j = (m.get 3 j).val := by
        intro j; simp [Matrix.mul_apply, Fin.sum_univ_four, Spec.rotX, Spec.fvals, mul_comm]
      refine of_rows hκ he' m _ hm _ 1 2 (by decide) (fun i => ?_) (fun i => ?_) (fun j i h1 h2 => ?_)
      · rw [(preRotateX_get m θ i).2.1, (E i).2.1]; exact (k1 1 i 2 i).1
      · rw [(preRotateX_get m θ i).2.2.1, (E i).2.2.1]; exact k4 1 i 2 i
      · match j, h1, h2 with
        | 0, _, _ => exact ⟨(preRotateX_get m θ i).1, (E i).1⟩
        | 1, h, _ => exact absurd rfl h
        | 2, _, h => exact absurd rfl h
        | 3, _, _ => exact ⟨(preRotateX_get m θ i).2.2.2, (E i).2.2.2⟩
    | 1 =>
      show (∀ i j, ((m.preRotateY θ).get i j).Finite) ∧ Spec.frob (Spec.fvals (m.preRotateY θ) - Spec.rotY (-θ.val) * Spec.fvals m) ≤ _
      have E : ∀ j, (Spec.rotY (-θ.val) * Spec.fvals m) 0 j = (m.get 0 j).val * Real.cos θ.val - (m.get 2 j).val * Real.sin θ.val ∧ (Spec.rotY (-θ.val) * Spec.fvals m) 1 j = (m.get 1 j).val ∧
          (Spec.rotY (-θ.val) * Spec.fvals m) 2 j = (m.get 0 j).val * Real.sin θ.val + (m.get 2 j).val * Real.cos θ.val ∧ (Spec.rotY (-θ.val) * Spec.fvals m) 3 j = (m.get 3 j).val := by
        intro j; simp [Matrix.mul_apply, Fin.sum_univ_four, Spec.rotY, Spec.fvals, mul_comm, sub_eq_add_neg]
      refine of_rows hκ he' m _ hm _ 0 2 (by decide) (fun i => ?_) (fun i => ?_) (fun j i h1 h2 => ?_)
      · rw [(preRotateY_get m θ i).1, (E i).1]; exact (k1 0 i 2 i).2
      · rw [(preRotateY_get m θ i).2.2.1, (E i).2.2.1]; exact k2 0 i 2 i
      · match j, h1, h2 with
        | 1, _, _ => exact ⟨(preRotateY_get m θ i).2.1, (E i).2.1⟩
        | 0, h, _ => exact absurd rfl h
        | 2, _, h => exact absurd rfl h
        | 3, _, _ => exact ⟨(preRotateY_get m θ i).2.2.2, (E i).2.2.2⟩
    | 2 =>
      show (∀ i j, ((m.preRotateZ θ).get i j).Finite) ∧ Spec.frob (Spec.fvals (m.preRotateZ θ) - Spec.rotZ (-θ.val) * Spec.fvals m) ≤ _
      have E : ∀ j, (Spec.rotZ (-θ.val) * Spec.fvals m) 0 j = (m.get 0 j).val * Real.cos θ.val + (m.get 1 j).val * Real.sin θ.val ∧
          (Spec.rotZ (-θ.val) * Spec.fvals m) 1 j = (m.get 0 j).val * -Real.sin θ.val + (m.get 1 j).val * Real.cos θ.val ∧ (Spec.rotZ (-θ.val) * Spec.fvals m) 2 j = (m.get 2 j).val ∧
          (Spec.rotZ (-θ.val) * Spec.fvals m) 3 j = (m.get 3 j).val := by
        intro j; simp [Matrix.mul_apply, Fin.sum_univ_four, Spec.rotZ, Spec.fvals, mul_comm]
      refine of_rows hκ he' m _ hm _ 0 1 (by decide) (fun i => ?_) (fun i => ?_) (fun j i h1 h2 => ?_)
      · rw [(preRotateZ_get m θ i).1, (E i).1]; exact (k1 0 i 1 i).1
      · rw [(preRotateZ_get m θ i).2.1, (E i).2.1]; exact k4 0 i 1 i
      · match j, h1, h2 with
        | 2, _, _ => exact ⟨(preRotateZ_get m θ i).2.2.1, (E i).2.2.1⟩
        | 0, h, _ => exact absurd rfl h
        | 1, _, h => exact absurd rfl h
        | 3, _, _ => exact ⟨(preRotateZ_get m θ i).2.2.2, (E i).2.2.2⟩

end Vmml
