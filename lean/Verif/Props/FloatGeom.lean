import Verif.Props.FloatLaws
import Verif.Props.FloatQR
import Verif.Props.FloatPlanes
import Verif.Props.VectorGeom

/-!
# C126: cross products, normals, planes and spheres in IEEE 754 arithmetic
-/

namespace Vmml
open Format
variable {F : Format}

private theorem room {n N : Nat} {m M X : ℝ} (h : (1 + F.u) ^ N * M ≤ X) (hn : n ≤ N) (hm : m ≤ M) (h0 : 0 ≤ m) : (1 + F.u) ^ n * m ≤ X := by
  have hu := F.u_pos
  refine le_trans (mul_le_mul (pow_le_pow_right₀ (by linarith) hn) hm h0 (by positivity)) h

/-! ## The cross product -/

/-- Component `i` of the cross product of real vectors. -/
def Spec.crossAt (a b : Fin 3 → ℝ) (i : Fin 3) : ℝ := a (i + 1) * b (i + 2) - a (i + 2) * b (i + 1)
/-- The same with magnitudes. -/
def Spec.crossMag (a b : Fin 3 → ℝ) (i : Fin 3) : ℝ := |a (i + 1) * b (i + 2)| + |a (i + 2) * b (i + 1)|
/-- The numbers of a vector. -/
def Spec.nums {M : Nat} (v : Vec M (Fp F)) (i : Fin M) : ℝ := v[i].val

private theorem minor2 (h0 : 0 < F.emax) (a b c d : Fp F) :
    ((a * b - c * d).Finite → (a.Finite ∧ b.Finite ∧ c.Finite ∧ d.Finite) ∧ |(a * b - c * d).val - (a.val * b.val - c.val * d.val)| ≤ ((1 + F.u) ^ 2 - 1) * (|a.val * b.val| + |c.val * d.val| + 2 * F.tiny)) ∧
      (a.Finite → b.Finite → c.Finite → d.Finite → (1 + F.u) ^ 2 * (|a.val * b.val| + |c.val * d.val| + 2 * F.tiny) ≤ F.maxFinite → (a * b - c * d).Finite) := by
  have ht := F.tiny_pos
  constructor
  · intro hf
    obtain ⟨⟨⟨h1, h2⟩, h3, h4⟩, h5⟩ := (((FApprox.exact a).mul (FApprox.exact b)).sub ((FApprox.exact c).mul (FApprox.exact d))) hf
    refine ⟨⟨h1, h2, h3, h4⟩, ?_⟩
    have := h5.err
    rw [← abs_mul, ← abs_mul] at this
    norm_num at this ⊢
    convert this using 2
    ring
  · intro fa fb fc fd hroom
    have a1 := abs_nonneg (a.val * b.val)
    have a2 := abs_nonneg (c.val * d.val)
    have ex : ∀ {x : Fp F}, x.Finite → FBound 0 x |x.val| := fun h => ⟨h, by simp⟩
    have p1 := (ex fa).mul h0 (ex fb) (by rw [← abs_mul]; exact room (N := 2) hroom (by norm_num) (by linarith) a1)
    have p2 := (ex fc).mul h0 (ex fd) (by rw [← abs_mul]; exact room (N := 2) hroom (by norm_num) (by linarith) a2)
    exact (p1.sub h0 p2 (by rw [← abs_mul, ← abs_mul]; exact room (N := 2) hroom (by norm_num) (by linarith) (by linarith))).finite

private theorem cross_get (a b : Vec 3 (Fp F)) (i : Fin 3) : (Vec.cross a b)[i] = a[i + 1] * b[i + 2] - a[i + 2] * b[i + 1] := by
  match i with
  | 0 => rfl
  | 1 => rfl
  | 2 => rfl

/-- **C126** `cross`: every component is the exact one up to two roundings of the magnitudes of its two products and two underflows, if the result is finite; it is finite if the products
are in range. -/
theorem C126_cross (h0 : 0 < F.emax) (a b : Vec 3 (Fp F)) (i : Fin 3) :
    ((Vec.cross a b)[i].Finite → (a[i + 1].Finite ∧ b[i + 2].Finite ∧ a[i + 2].Finite ∧ b[i + 1].Finite) ∧
      |(Vec.cross a b)[i].val - Spec.crossAt (Spec.nums a) (Spec.nums b) i| ≤ ((1 + F.u) ^ 2 - 1) * (Spec.crossMag (Spec.nums a) (Spec.nums b) i + 2 * F.tiny)) ∧
    ((∀ j : Fin 3, a[j].Finite ∧ b[j].Finite) → (1 + F.u) ^ 2 * (Spec.crossMag (Spec.nums a) (Spec.nums b) i + 2 * F.tiny) ≤ F.maxFinite → (Vec.cross a b)[i].Finite) := by
  rw [cross_get]
  obtain ⟨h1, h2⟩ := minor2 h0 a[i + 1] b[i + 2] a[i + 2] b[i + 1]
  exact ⟨h1, fun hf => h2 (hf _).1 (hf _).2 (hf _).1 (hf _).2⟩

/-- **C126** `cross( b, a )` is exactly `-cross( a, b )`, for all values (a zero component may have either sign). -/
theorem C126_cross_swap (a b : Vec 3 (Fp F)) (i : Fin 3) :
    (Vec.cross b a)[i] = -(Vec.cross a b)[i] ∨ Spec.IsZero (Vec.cross b a)[i] ∧ Spec.IsZero (Vec.cross a b)[i] := by
  rw [cross_get, cross_get, Fp.mul_comm' b[i + 1], Fp.mul_comm' b[i + 2]]
  rcases Fp.sub_swap (a[i + 1] * b[i + 2]) (a[i + 2] * b[i + 1]) with h | ⟨s, t, h1, h2⟩
  · exact .inl h
  · right
    rw [h1, h2]
    exact ⟨⟨trivial, by cases t <;> simp⟩, ⟨trivial, by cases s <;> simp⟩⟩

theorem Fp.sub_self_cases (p : Fp F) : (p.Finite → p - p = 0) ∧ (¬ p.Finite → p - p = .nan) := by
  cases p with
  | nan => exact ⟨fun h => absurd h id, fun _ => rfl⟩
  | inf s => exact ⟨fun h => absurd h id, fun _ => by show (if s = !s then (.inf s : Fp F) else .nan) = .nan; cases s <;> rfl⟩
  | fin s m hm =>
    refine ⟨fun _ => ?_, fun h => absurd trivial h⟩
    have hx : (Fp.fin s m hm : Fp F).val + (Fp.fin (!s) m hm : Fp F).val = 0 := by cases s <;> simp
    show (if (Fp.fin s m hm : Fp F).val + (Fp.fin (!s) m hm : Fp F).val = 0 then Fp.fin (s && !s) 0 mag_zero else _) = _
    rw [if_pos hx]
    cases s <;> rfl

/-- **C126** `cross( a, a )` is `+0` in each component whose product is finite and NaN in the others. -/
theorem C126_cross_self (a : Vec 3 (Fp F)) (i : Fin 3) :
    ((a[i + 1] * a[i + 2]).Finite → (Vec.cross a a)[i] = 0) ∧ (¬ (a[i + 1] * a[i + 2]).Finite → (Vec.cross a a)[i] = .nan) := by
  rw [cross_get, Fp.mul_comm' a[i + 2]]
  exact Fp.sub_self_cases _

/-! ## Normals -/

private theorem diff_approx {a b : Fp F} (hf : (b - a).Finite) : a.Finite ∧ b.Finite ∧ Approx F.u 1 (b - a).val (b.val - a.val) |b.val - a.val| := by
  obtain ⟨h1, h2, h3⟩ := Fp.sub_finite hf
  refine ⟨h2, h1, ?_, le_rfl⟩
  have := ((Fp.rep_val h1).grid.add (Fp.rep_val h2).grid.neg).rnd_err
  rw [← sub_eq_add_neg] at this
  rw [h3]
  simpa using this

/-- The real vector from `a` to `b`. -/
noncomputable def Spec.fedge (a b : Vec 3 (Fp F)) (i : Fin 3) : ℝ := b[i].val - a[i].val

/-- **C126** `compute_normal( a, b, c )`: the cross product `w` of the two edges is, in each finite component, the exact one up to four roundings of the magnitudes of its two products and
two underflows, and finite if the edges and these magnitudes are in range; and if `w` is finite with a squared length in the normal range, the normal is `w` divided by its length up to the error of `normalize` (C109). -/
theorem C126_normal (hp : F.p < F.emax) (h5 : 5 ≤ F.emax) (h3 : 3 * F.u < 1) (hε : Spec.flenErr F 3 ≤ 1 / 2) (cfg : Cfg) (a b c : Vec 3 (Fp F)) :
    ∃ w : Vec 3 (Fp F),
      (∀ i : Fin 3, w[i].Finite → |w[i].val - Spec.crossAt (Spec.fedge a b) (Spec.fedge a c) i| ≤ ((1 + F.u) ^ 4 - 1) * (Spec.crossMag (Spec.fedge a b) (Spec.fedge a c) i + 2 * F.tiny)) ∧
      (∀ i : Fin 3, (∀ j : Fin 3, a[j].Finite ∧ b[j].Finite ∧ c[j].Finite ∧ |Spec.fedge a b j| ≤ F.maxFinite ∧ |Spec.fedge a c j| ≤ F.maxFinite) →
        (1 + F.u) ^ 4 * (Spec.crossMag (Spec.fedge a b) (Spec.fedge a c) i + 2 * F.tiny) ≤ F.maxFinite → w[i].Finite) ∧
      ((∀ i : Fin 3, w[i].Finite) → (2 : ℝ) ^ F.emin ≤ ∑ i : Fin 3, w[i].val ^ 2 → ∑ i : Fin 3, w[i].val ^ 2 + 3 * F.eta ≤ (1 - 3 * F.u) * F.maxFinite →
        ∃ n, Vec.computeNormal cfg a b c = .ok n ∧ ∀ i : Fin 3, n[i].Finite ∧
          |n[i].val - w[i].val / Spec.flen w| ≤ ((1 + F.u) ^ 2 / (1 - Spec.flenErr F 3) - 1) * |w[i].val / Spec.flen w| + F.eta) := by
  refine ⟨Vec.cross (Vector.ofFn fun i => b[i] - a[i]) (Vector.ofFn fun i => c[i] - a[i]), ?_, ?_, ?_⟩
  · intro i
    rw [cross_get]
    have key : ∀ {p q r s : Fp F} {P Q R S : ℝ}, (p.Finite → Approx F.u 1 p.val P |P|) → (q.Finite → Approx F.u 1 q.val Q |Q|) → (r.Finite → Approx F.u 1 r.val R |R|) →
        (s.Finite → Approx F.u 1 s.val S |S|) → (p * q - r * s).Finite → |(p * q - r * s).val - (P * Q - R * S)| ≤ ((1 + F.u) ^ 4 - 1) * (|P * Q| + |R * S| + 2 * F.tiny) := by
      intro p q r s P Q R S hp hq hr hs hf
      have fp : FApprox True 1 p P |P| := fun h => ⟨trivial, hp h⟩
      have fq : FApprox True 1 q Q |Q| := fun h => ⟨trivial, hq h⟩
      have fr : FApprox True 1 r R |R| := fun h => ⟨trivial, hr h⟩
      have fs : FApprox True 1 s S |S| := fun h => ⟨trivial, hs h⟩
      have := (((fp.mul fq).sub (fr.mul fs)) hf).2.err
      rw [← abs_mul, ← abs_mul] at this
      norm_num at this ⊢
      convert this using 2
      ring
    simp only [Fin.getElem_fin, Vector.getElem_ofFn]
    exact key (fun h => (diff_approx h).2.2) (fun h => (diff_approx h).2.2) (fun h => (diff_approx h).2.2) (fun h => (diff_approx h).2.2)
  · intro i hj hroom
    rw [cross_get]
    have h0 : 0 < F.emax := by omega
    have ht := F.tiny_pos
    have ed : ∀ {x y : Fp F}, x.Finite → y.Finite → |y.val - x.val| ≤ F.maxFinite → FBound 1 (y - x) |y.val - x.val| := by
      intro x y hx hy h
      obtain ⟨h1, h2⟩ := Fp.sub_fin h0 hy hx h
      refine ⟨h1, ?_⟩
      have := (diff_approx h1).2.2.1
      have t := abs_sub_abs_le_abs_sub (y - x).val (y.val - x.val)
      simp only [pow_one] at this ⊢
      linarith
    simp only [Fin.getElem_fin, Vector.getElem_ofFn]
    have a1 := abs_nonneg (Spec.fedge a b (i + 1) * Spec.fedge a c (i + 2))
    have a2 := abs_nonneg (Spec.fedge a b (i + 2) * Spec.fedge a c (i + 1))
    unfold Spec.crossMag at hroom
    have e1 := ed (hj (i + 1)).1 (hj (i + 1)).2.1 (hj (i + 1)).2.2.2.1
    have e2 := ed (hj (i + 2)).1 (hj (i + 2)).2.2.1 (hj (i + 2)).2.2.2.2
    have e3 := ed (hj (i + 2)).1 (hj (i + 2)).2.1 (hj (i + 2)).2.2.2.1
    have e4 := ed (hj (i + 1)).1 (hj (i + 1)).2.2.1 (hj (i + 1)).2.2.2.2
    have p1 := e1.mul h0 e2 (by rw [← abs_mul]; exact room (N := 4) hroom (by norm_num) (by unfold Spec.fedge at *; linarith) (abs_nonneg _))
    have p2 := e3.mul h0 e4 (by rw [← abs_mul]; exact room (N := 4) hroom (by norm_num) (by unfold Spec.fedge at *; linarith) (abs_nonneg _))
    exact (p1.sub h0 p2 (by rw [← abs_mul, ← abs_mul]; exact room (N := 4) hroom (by norm_num) (by unfold Spec.fedge at *; linarith) (by unfold Spec.fedge at *; linarith))).finite
  · intro hw hlo hhi
    obtain ⟨n, len, hn, -, hval⟩ := C109_normalize hp h5 cfg (Vec.cross (Vector.ofFn fun i => b[i] - a[i]) (Vector.ofFn fun i => c[i] - a[i])) (by exact_mod_cast h3) hε hw hlo (by exact_mod_cast hhi)
    refine ⟨n, ?_, hval⟩
    unfold Vec.computeNormal
    rw [Vec.sub_eq, Vec.sub_eq, Vmml.bind_ok, Vmml.bind_ok, hn]
    rfl

/-! ## Planes -/

/-- The value of the plane at a point. -/
noncomputable def Spec.planeAt (p : Vec 4 (Fp F)) (x : Vec 3 (Fp F)) : ℝ := p[0].val * x[0].val + p[1].val * x[1].val + p[2].val * x[2].val + p[3].val
/-- The same with magnitudes. -/
noncomputable def Spec.planeMagAt (p : Vec 4 (Fp F)) (x : Vec 3 (Fp F)) : ℝ := |p[0].val * x[0].val| + |p[1].val * x[1].val| + |p[2].val * x[2].val| + |p[3].val|

private theorem plane_both {H : Prop} (h0 : 0 < F.emax) {N : Nat} (hN : 4 ≤ N) {a b c d x y z : Fp F} {K : ℝ}
    (hH : H → (a.Finite ∧ b.Finite ∧ c.Finite ∧ d.Finite ∧ x.Finite ∧ y.Finite ∧ z.Finite) ∧ (1 + F.u) ^ N * (|a.val * x.val| + |b.val * y.val| + |c.val * z.val| + |d.val| + 3 * F.tiny + K) ≤ F.maxFinite ∧ 0 ≤ K) :
    FBoth H (a.Finite ∧ b.Finite ∧ c.Finite ∧ d.Finite ∧ x.Finite ∧ y.Finite ∧ z.Finite) 5 ((0 : Fp F) + a * x + b * y + c * z + d)
      (a.val * x.val + b.val * y.val + c.val * z.val + d.val) (|a.val * x.val| + |b.val * y.val| + |c.val * z.val| + |d.val| + 3 * F.tiny)
      (|a.val * x.val| + |b.val * y.val| + |c.val * z.val| + |d.val| + 3 * F.tiny) := by
  have ht := F.tiny_pos
  have a1 := abs_nonneg (a.val * x.val)
  have a2 := abs_nonneg (b.val * y.val)
  have a3 := abs_nonneg (c.val * z.val)
  have a4 := abs_nonneg d.val
  have r : ∀ {n : Nat} {m : ℝ}, H → n ≤ N → m ≤ |a.val * x.val| + |b.val * y.val| + |c.val * z.val| + |d.val| + 3 * F.tiny → 0 ≤ m → (1 + F.u) ^ n * m ≤ F.maxFinite :=
    fun hh hn hm h0 => room (N := N) (hH hh).2.1 hn (by have := (hH hh).2.2; linarith) h0
  have p1 := (FBoth.exact (a := a) fun hh => (hH hh).1.1).mul h0 (FBoth.exact (a := x) fun hh => (hH hh).1.2.2.2.2.1) (by intro hh; rw [← abs_mul]; exact r hh (by omega) (by linarith) a1)
  have p2 := (FBoth.exact (a := b) fun hh => (hH hh).1.2.1).mul h0 (FBoth.exact (a := y) fun hh => (hH hh).1.2.2.2.2.2.1) (by intro hh; rw [← abs_mul]; exact r hh (by omega) (by linarith) a2)
  have p3 := (FBoth.exact (a := c) fun hh => (hH hh).1.2.2.1).mul h0 (FBoth.exact (a := z) fun hh => (hH hh).1.2.2.2.2.2.2) (by intro hh; rw [← abs_mul]; exact r hh (by omega) (by linarith) a3)
  rw [← abs_mul] at p1 p2 p3
  have z0 := FBoth.exact (H := H) (a := (0 : Fp F)) fun _ => Fp.finite_zero
  rw [Fp.val_zero, abs_zero] at z0
  have s1 := z0.add h0 p1 (fun hh => r hh (by norm_num; omega) (by linarith) (by linarith))
  have s2 := s1.add h0 p2 (fun hh => r hh (by norm_num; omega) (by linarith) (by linarith))
  have s3 := s2.add h0 p3 (fun hh => r hh (by norm_num; omega) (by linarith) (by linarith))
  have s4 := s3.add h0 (FBoth.exact (a := d) fun hh => (hH hh).1.2.2.2.1) (fun hh => r hh (by norm_num; omega) (by linarith) (by linarith))
  exact s4.conv (by norm_num) (by ring) (by linarith) (by linarith) (by tauto)

private theorem distance_closed (cfg : Cfg) (p : Vec 4 (Fp F)) (x : Vec 3 (Fp F)) :
    p.distanceToPlane cfg x = .ok ((0 : Fp F) + p[0] * x[0] + p[1] * x[1] + p[2] * x[2] + p[3]) := by
  unfold Vec.distanceToPlane
  rw [getSub3_eq, Vmml.bind_ok]
  simp [Vec.dot, loop, Vec.atGet]

/-- **C126** `distance_to_plane` is the plane's value at the point up to five roundings of the magnitudes of its terms and three underflows, if it is finite; it is finite if these magnitudes
are in range. -/
theorem C126_plane_distance (h0 : 0 < F.emax) (cfg : Cfg) (p : Vec 4 (Fp F)) (x : Vec 3 (Fp F)) :
    ∃ d, p.distanceToPlane cfg x = .ok d ∧
      (d.Finite → (∀ i : Fin 4, p[i].Finite) ∧ (∀ i : Fin 3, x[i].Finite) ∧ |d.val - Spec.planeAt p x| ≤ ((1 + F.u) ^ 5 - 1) * (Spec.planeMagAt p x + 3 * F.tiny)) ∧
      ((∀ i : Fin 4, p[i].Finite) → (∀ i : Fin 3, x[i].Finite) → (1 + F.u) ^ 5 * (Spec.planeMagAt p x + 3 * F.tiny) ≤ F.maxFinite → d.Finite) := by
  refine ⟨_, distance_closed cfg p x, ?_, ?_⟩
  · intro hf
    obtain ⟨⟨h1, h2, h3, h4, h5, h6, h7⟩, h8⟩ := (plane_both (H := False) h0 (N := 5) (K := 0) (by norm_num) (fun h => h.elim)).approx hf
    refine ⟨fun i => ?_, fun i => ?_, h8.err⟩
    · match i with
      | 0 => exact h1
      | 1 => exact h2
      | 2 => exact h3
      | 3 => exact h4
    · match i with
      | 0 => exact h5
      | 1 => exact h6
      | 2 => exact h7
  · intro hp hx hroom
    exact ((plane_both (H := True) h0 (N := 5) (K := 0) (by norm_num) (fun _ => ⟨⟨hp 0, hp 1, hp 2, hp 3, hx 0, hx 1, hx 2⟩, by rw [add_zero]; exact hroom, le_rfl⟩)).bound trivial).finite

/-- **C126** `project_point_onto_plane`: component `i` is `x_i - n_i ( n x + d )` up to seven roundings of the magnitudes and the underflows. -/
theorem C126_project_plane (h0 : 0 < F.emax) (cfg : Cfg) (p : Vec 4 (Fp F)) (x : Vec 3 (Fp F)) :
    ∃ r, p.projectPointOntoPlane cfg x = .ok r ∧ ∀ i : Fin 3,
      (r[i].Finite → |r[i].val - (x[i].val - p[i.1].val * Spec.planeAt p x)| ≤ ((1 + F.u) ^ 7 - 1) * (|x[i].val| + |p[i.1].val| * (Spec.planeMagAt p x + 3 * F.tiny) + F.tiny)) ∧
      ((∀ i : Fin 4, p[i].Finite) → (∀ i : Fin 3, x[i].Finite) →
        (1 + F.u) ^ 7 * (Spec.planeMagAt p x + 3 * F.tiny + (|x[i].val| + |p[i.1].val| * (Spec.planeMagAt p x + 3 * F.tiny) + F.tiny)) ≤ F.maxFinite → r[i].Finite) := by
  obtain ⟨d, hd⟩ : ∃ d, d = (0 : Fp F) + p[0] * x[0] + p[1] * x[1] + p[2] * x[2] + p[3] := ⟨_, rfl⟩
  have hr : p.projectPointOntoPlane cfg x = .ok (Vector.ofFn fun i => x[i] - p[i.1] * d) := by
    unfold Vec.projectPointOntoPlane
    rw [getSub3_eq, Vmml.bind_ok, distance_closed, Vmml.bind_ok, Vec.mulS_eq, Vmml.bind_ok, Vec.sub_eq, ← hd]
    congr 1
  refine ⟨_, hr, fun i => ?_⟩
  simp only [Fin.getElem_fin, Vector.getElem_ofFn]
  have ht := F.tiny_pos
  have pm : 0 ≤ Spec.planeMagAt p x := by unfold Spec.planeMagAt; positivity
  have a1 := abs_nonneg x[i].val
  have a2 : 0 ≤ |p[i.1].val| * (Spec.planeMagAt p x + 3 * F.tiny) := by positivity
  have key : ∀ {H : Prop} (hH : H → ((∀ i : Fin 4, p[i].Finite) ∧ ∀ i : Fin 3, x[i].Finite) ∧
      (1 + F.u) ^ 7 * (Spec.planeMagAt p x + 3 * F.tiny + (|x[i].val| + |p[i.1].val| * (Spec.planeMagAt p x + 3 * F.tiny) + F.tiny)) ≤ F.maxFinite),
      FBoth H True 7 (x[i] - p[i.1] * d) (x[i].val - p[i.1].val * Spec.planeAt p x) (|x[i].val| + |p[i.1].val| * (Spec.planeMagAt p x + 3 * F.tiny) + F.tiny)
        (|x[i].val| + |p[i.1].val| * (Spec.planeMagAt p x + 3 * F.tiny) + F.tiny) := by
    intro H hH
    have b := plane_both (H := H) h0 (N := 7) (by norm_num) (a := p[0]) (b := p[1]) (c := p[2]) (d := p[3]) (x := x[0]) (y := x[1]) (z := x[2])
      (K := |x[i].val| + |p[i.1].val| * (Spec.planeMagAt p x + 3 * F.tiny) + F.tiny)
      (fun hh => ⟨⟨(hH hh).1.1 0, (hH hh).1.1 1, (hH hh).1.1 2, (hH hh).1.1 3, (hH hh).1.2 0, (hH hh).1.2 1, (hH hh).1.2 2⟩, (hH hh).2, by linarith⟩)
    rw [← hd] at b
    have ep := FBoth.exact (H := H) (a := p[i.1]) fun hh => (hH hh).1.1 ⟨i.1, by omega⟩
    have ex := FBoth.exact (H := H) (a := x[i]) fun hh => (hH hh).1.2 i
    have m := ep.mul h0 b (fun hh => room (N := 7) (hH hh).2 (by norm_num) (by unfold Spec.planeMagAt at *; linarith) a2)
    have s := ex.sub h0 m (fun hh => room (N := 7) (hH hh).2 (by norm_num) (by unfold Spec.planeMagAt at *; linarith) (by unfold Spec.planeMagAt at *; linarith))
    exact s.conv (by norm_num) rfl (by unfold Spec.planeMagAt; linarith) (by unfold Spec.planeMagAt; linarith) (fun _ => trivial)
  constructor
  · intro hf
    exact ((key (H := False) (fun h => h.elim)).approx hf).2.err
  · intro hp hx hroom
    exact ((key (H := True) (fun _ => ⟨⟨hp, hx⟩, hroom⟩)).bound trivial).finite

/-- **C126** The plane returned by `compute_plane( a, b, c )` contains the point `a` up to three roundings of the magnitudes of its terms and three underflows. -/
theorem C126_plane_contains (cfg : Cfg) (a b c : Vec 3 (Fp F)) (p : Vec 4 (Fp F)) (hp : Vec.computePlane cfg a b c = .ok p) (hf : p[3].Finite) :
    (∀ i : Fin 3, p[i.1].Finite ∧ a[i].Finite) ∧
      |Spec.planeAt p a| ≤ (((1 : ℝ) + F.u) ^ 3 - (1 : ℝ)) * (|p[0].val * a[0].val| + |p[1].val * a[1].val| + |p[2].val * a[2].val| + (3 : ℝ) * F.tiny) := by
  obtain ⟨n, hn⟩ : ∃ n : Vec 4 (Fp F), p = n.set 3 (-n[0] * a[0] - n[1] * a[1] - n[2] * a[2]) := by
    unfold Vec.computePlane at hp
    rw [Vec.sub_eq, Vec.sub_eq, Vmml.bind_ok, Vmml.bind_ok, toHomogeneous_eq, Vmml.bind_ok] at hp
    cases hr : Vec.normalize cfg (Vector.ofFn fun j : Fin (3 + 1) => if h : j.1 < 3 then
        (Vec.cross (Vector.ofFn fun i : Fin 3 => b[i] - c[i]) (Vector.ofFn fun i : Fin 3 => a[i] - b[i]))[j.1] else (1 : Fp F)) with
    | error e => rw [hr] at hp; cases hp
    | ok r =>
      rw [hr, Vmml.bind_ok] at hp
      refine ⟨r.1, ?_⟩
      unfold Vec.setW at hp
      rw [Vec.rawSet_lt _ _ (by norm_num)] at hp
      exact (Except.ok.inj hp).symm
  have e0 : p[0] = n[0] := by rw [hn]; simp
  have e1 : p[1] = n[1] := by rw [hn]; simp
  have e2 : p[2] = n[2] := by rw [hn]; simp
  have e3 : p[3] = -p[0] * a[0] - p[1] * a[1] - p[2] * a[2] := by rw [e0, e1, e2]; rw [hn]; simp
  unfold Spec.planeAt
  have q0 : a[(0 : Fin 3)] = a[0] := rfl
  have q1 : a[(1 : Fin 3)] = a[1] := rfl
  have q2 : a[(2 : Fin 3)] = a[2] := rfl
  suffices key : ∀ p0 p1 p2 p3 a0 a1 a2 : Fp F, p3 = -p0 * a0 - p1 * a1 - p2 * a2 → p3.Finite → ((p0.Finite ∧ a0.Finite) ∧ (p1.Finite ∧ a1.Finite) ∧ p2.Finite ∧ a2.Finite) ∧
      |p0.val * a0.val + p1.val * a1.val + p2.val * a2.val + p3.val| ≤ ((1 + F.u) ^ 3 - 1) * (|p0.val * a0.val| + |p1.val * a1.val| + |p2.val * a2.val| + 3 * F.tiny) by
    obtain ⟨⟨k0, k1, k2⟩, k3⟩ := key p[0] p[1] p[2] p[3] a[0] a[1] a[2] e3 hf
    refine ⟨fun i => ?_, k3⟩
    match i with
    | 0 => exact k0
    | 1 => exact k1
    | 2 => exact k2
  intro p0 p1 p2 p3 a0 a1 a2 h hf
  subst h
  have ht := F.tiny_pos
  obtain ⟨⟨⟨⟨h1, h2⟩, h3, h4⟩, h5, h6⟩, h7⟩ := (((((FApprox.exact p0).neg).mul (FApprox.exact a0)).sub ((FApprox.exact p1).mul (FApprox.exact a1))).sub ((FApprox.exact p2).mul (FApprox.exact a2))) hf
  refine ⟨⟨⟨h1, h2⟩, ⟨h3, h4⟩, h5, h6⟩, ?_⟩
  have := h7.err
  rw [← abs_mul, ← abs_mul, ← abs_mul] at this
  norm_num at this ⊢
  convert this using 2
  · ring
  · ring

/-! ## Spheres -/

/-- The exact distance of a point from the centre of a sphere. -/
noncomputable def Spec.centreDist (s : Vec 4 (Fp F)) (x : Vec 3 (Fp F)) : ℝ := Real.sqrt (∑ i : Fin 3, (x[i].val - s[i.1].val) ^ 2)
/-- The relative error of a computed distance. -/
noncomputable def Spec.distErr (F : Format) : ℝ := Spec.flenErr F 3 * (1 + F.u) + F.u
/-- The relative error of a computed direction. -/
noncomputable def Spec.dirErr (F : Format) : ℝ := (1 + F.u) ^ 2 / (1 - Spec.flenErr F 3) * ((1 + F.u) / (1 - F.u)) - 1
/-- The squared distance is in the normal range. -/
def Spec.CentreFits (s : Vec 4 (Fp F)) (x : Vec 3 (Fp F)) : Prop :=
  (2 : ℝ) ^ F.emin ≤ ((1 - F.u) * Spec.centreDist s x) ^ 2 ∧ ((1 + F.u) * Spec.centreDist s x) ^ 2 + 3 * F.eta ≤ (1 - 3 * F.u) * F.maxFinite ∧ Spec.centreDist s x ≤ F.maxFinite

private theorem to_centre (h0 : 0 < F.emax) (hu1 : F.u < 1) (s : Vec 4 (Fp F)) (x : Vec 3 (Fp F)) (hs : ∀ i : Fin 4, s[i].Finite) (hx : ∀ i : Fin 3, x[i].Finite) (hfit : Spec.CentreFits s x) :
    ∃ q : Vec 3 (Fp F), q = Vector.ofFn (fun i : Fin 3 => x[i] - s[i.1]) ∧ (∀ i : Fin 3, q[i].Finite ∧ |q[i].val - (x[i].val - s[i.1].val)| ≤ F.u * |x[i].val - s[i.1].val|) ∧
      |Spec.flen q - Spec.centreDist s x| ≤ F.u * Spec.centreDist s x ∧ (2 : ℝ) ^ F.emin ≤ ∑ i : Fin 3, q[i].val ^ 2 ∧
      ∑ i : Fin 3, q[i].val ^ 2 + (3 : ℕ) * F.eta ≤ (1 - (3 : ℕ) * F.u) * F.maxFinite := by
  obtain ⟨f1, f2, f3⟩ := hfit
  have hu := F.u_pos
  have hD0 : 0 ≤ Spec.centreDist s x := Real.sqrt_nonneg _
  have hq : ∀ i : Fin 3, (x[i] - s[i.1]).Finite ∧ |(x[i] - s[i.1]).val - (x[i].val - s[i.1].val)| ≤ F.u * |x[i].val - s[i.1].val| := by
    intro i
    have hle : |x[i].val - s[i.1].val| ≤ F.maxFinite := by
      refine le_trans ?_ f3
      unfold Spec.centreDist
      apply Real.le_sqrt_of_sq_le
      rw [sq_abs]
      exact Finset.single_le_sum (f := fun i : Fin 3 => (x[i].val - s[i.1].val) ^ 2) (fun i _ => sq_nonneg _) (Finset.mem_univ i)
    have hsi : (s[i.1]).Finite := hs ⟨i.1, by omega⟩
    obtain ⟨g1, g2⟩ := Fp.sub_fin h0 (hx i) hsi hle
    refine ⟨g1, ?_⟩
    have := ((Fp.rep_val (hx i)).grid.add (Fp.rep_val hsi).grid.neg).rnd_err
    rw [← sub_eq_add_neg] at this
    rw [g2]
    exact this
  refine ⟨_, rfl, ?_, ?_⟩
  · intro i
    simp only [Fin.getElem_fin, Vector.getElem_ofFn]
    exact hq i
  have hcl := norm_close (fun i : Fin 3 => (x[i] - s[i.1]).val) (fun i : Fin 3 => x[i].val - s[i.1].val) F.u 0 hu.le le_rfl (by intro r; rw [add_zero]; exact (hq r).2)
  rw [mul_zero, add_zero] at hcl
  obtain ⟨q, hqd⟩ : ∃ q : Vec 3 (Fp F), q = Vector.ofFn (fun i : Fin 3 => x[i] - s[i.1]) := ⟨_, rfl⟩
  have hsum : ∑ i : Fin 3, q[i].val ^ 2 = ∑ i : Fin 3, (x[i] - s[i.1]).val ^ 2 := by
    rw [hqd]; simp only [Fin.getElem_fin, Vector.getElem_ofFn]
  rw [← hqd]
  have hlen : Spec.flen q = Real.sqrt (∑ i : Fin 3, (x[i] - s[i.1]).val ^ 2) := by unfold Spec.flen; rw [hsum]
  rw [← hlen] at hcl
  have hcl : |Spec.flen q - Spec.centreDist s x| ≤ F.u * Spec.centreDist s x := hcl
  have hnn : 0 ≤ ∑ i : Fin 3, q[i].val ^ 2 := Finset.sum_nonneg fun i _ => sq_nonneg _
  have hsq : ∑ i : Fin 3, q[i].val ^ 2 = Spec.flen q ^ 2 := (Real.sq_sqrt hnn).symm
  have hl0 : 0 ≤ Spec.flen q := Real.sqrt_nonneg _
  refine ⟨hcl, ?_, ?_⟩
  · rw [hsq]
    refine f1.trans ?_
    apply pow_le_pow_left₀ (mul_nonneg (by linarith) hD0)
    linarith [(abs_le.1 hcl).1]
  · rw [hsq]
    have : Spec.flen q ^ 2 ≤ ((1 + F.u) * Spec.centreDist s x) ^ 2 := by
      apply pow_le_pow_left₀ hl0
      linarith [(abs_le.1 hcl).2]
    push_cast
    linarith

/-- **C126** `distance_to_sphere`: with the distance from the centre in the normal range the result is finite and accurate to a relative error of about `8 u` of the distance from the centre
(and one rounding of the result). -/
theorem C126_sphere_distance (hp : F.p < F.emax) (h3 : 3 * F.u < 1) (cfg : Cfg) (s : Vec 4 (Fp F)) (x : Vec 3 (Fp F)) (hs : ∀ i : Fin 4, s[i].Finite) (hx : ∀ i : Fin 3, x[i].Finite)
    (hfit : Spec.CentreFits s x) (hr : ((1 : ℝ) + Spec.distErr F) * Spec.centreDist s x + |s[3].val| ≤ F.maxFinite) :
    ∃ d, s.distanceToSphere cfg x = .ok d ∧ d.Finite ∧
      |d.val - (Spec.centreDist s x - s[3].val)| ≤ ((1 : ℝ) + F.u) * Spec.distErr F * Spec.centreDist s x + F.u * |Spec.centreDist s x - s[3].val| := by
  have h0 : 0 < F.emax := by omega
  have hu := F.u_pos
  obtain ⟨q, hqd, hq, hcl, hlo, hhi⟩ := to_centre h0 (by linarith) s x hs hx hfit
  obtain ⟨len, l1, l2, l3⟩ := C109_length hp q (by exact_mod_cast h3) (fun i => (hq i).1) hlo hhi
  have hε0 : 0 ≤ Spec.flenErr F 3 := by
    have hpos : 0 < Spec.flen q := Real.sqrt_pos.2 (lt_of_lt_of_le (by positivity) hlo)
    have := (abs_nonneg _).trans l3
    by_contra hc
    push Not at hc
    nlinarith
  obtain ⟨D, hD⟩ : ∃ D, D = Spec.centreDist s x := ⟨_, rfl⟩
  obtain ⟨Q, hQ⟩ : ∃ Q, Q = Spec.flen q := ⟨_, rfl⟩
  have D0 : 0 ≤ D := by rw [hD]; exact Real.sqrt_nonneg _
  rw [← hD] at hr hcl ⊢
  rw [← hQ] at hcl l3
  have hlen : |len.val - D| ≤ Spec.distErr F * D := by
    have hQD : Q ≤ (1 + F.u) * D := by linarith [(abs_le.1 hcl).2]
    have := mul_le_mul_of_nonneg_left hQD hε0
    calc |len.val - D| = |(len.val - Q) + (Q - D)| := by congr 1; ring
      _ ≤ _ := abs_add_le _ _
      _ ≤ Spec.flenErr F 3 * Q + F.u * D := add_le_add l3 hcl
      _ ≤ Spec.distErr F * D := by unfold Spec.distErr; linarith
  have h3f : (s[3]).Finite := hs 3
  have hfin : |len.val - s[3].val| ≤ F.maxFinite := by
    refine le_trans (abs_sub _ _) (le_trans (add_le_add_left ?_ _) hr)
    calc |len.val| = |(len.val - D) + D| := by congr 1; ring
      _ ≤ _ := abs_add_le _ _
      _ ≤ _ := by rw [abs_of_nonneg D0]; linarith
  obtain ⟨d1, d2⟩ := Fp.sub_fin h0 l2 h3f hfin
  refine ⟨len - s[3], ?_, d1, ?_⟩
  · unfold Vec.distanceToSphere
    rw [getSub3_eq, Vmml.bind_ok, Vec.sub_eq, Vmml.bind_ok]
    have : (Vector.ofFn fun i : Fin 3 => x[i] - (#v[s[0], s[1], s[2]] : Vec 3 (Fp F))[i]) = q := by
      rw [hqd]
      ext i hi
      match i, hi with
      | 0, _ => rfl
      | 1, _ => rfl
      | 2, _ => rfl
    rw [this, l1]
    rfl
  · rw [d2]
    have he := ((Fp.rep_val l2).grid.add (Fp.rep_val h3f).grid.neg).rnd_err
    rw [← sub_eq_add_neg] at he
    have hb : |len.val - s[3].val| ≤ |D - s[3].val| + Spec.distErr F * D := by
      calc |len.val - s[3].val| = |(D - s[3].val) + (len.val - D)| := by congr 1; ring
        _ ≤ _ := abs_add_le _ _
        _ ≤ _ := by linarith
    have := mul_le_mul_of_nonneg_left hb hu.le
    calc |F.rnd (len.val - s[3].val) - (D - s[3].val)| = |(F.rnd (len.val - s[3].val) - (len.val - s[3].val)) + (len.val - D)| := by congr 1; ring
      _ ≤ _ := abs_add_le _ _
      _ ≤ F.u * |len.val - s[3].val| + Spec.distErr F * D := add_le_add he hlen
      _ ≤ _ := by linarith

private theorem dir_err {u q x Q D w κ η : ℝ} (hu : 0 < u) (hu1 : u < 1) (hD : 0 < D) (h1 : |q - x| ≤ u * |x|) (h2 : |Q - D| ≤ u * D) (hκ : 0 ≤ κ) (hw : |w - q / Q| ≤ κ * |q / Q| + η) :
    |w - x / D| ≤ ((1 + κ) * ((1 + u) / (1 - u)) - 1) * |x / D| + η := by
  have hQ : (1 - u) * D ≤ Q := by linarith [(abs_le.1 h2).1]
  have hQ0 : 0 < Q := lt_of_lt_of_le (mul_pos (by linarith) hD) hQ
  have h1u : 0 < 1 - u := by linarith
  have hx0 := abs_nonneg x
  have hxD : |x / D| = |x| / D := by rw [abs_div, abs_of_pos hD]
  have hinv : |x| / Q ≤ |x / D| / (1 - u) := by
    rw [hxD, div_div]
    apply div_le_div_of_nonneg_left hx0 (by positivity)
    linarith
  have e1 : |q / Q - x / D| ≤ ((1 + u) / (1 - u) - 1) * |x / D| := by
    have : q / Q - x / D = ((q - x) + x / D * (D - Q)) / Q := by field_simp; ring
    rw [this, abs_div, abs_of_pos hQ0]
    have h4 : |q - x + x / D * (D - Q)| ≤ 2 * u * |x| := by
      refine (abs_add_le _ _).trans ?_
      rw [abs_mul, hxD, abs_sub_comm D Q]
      have : |x| / D * |Q - D| ≤ |x| / D * (u * D) := mul_le_mul_of_nonneg_left h2 (by positivity)
      have e : |x| / D * (u * D) = u * |x| := by field_simp
      linarith
    calc |q - x + x / D * (D - Q)| / Q ≤ 2 * u * |x| / Q := div_le_div_of_nonneg_right h4 hQ0.le
      _ = 2 * u * (|x| / Q) := by ring
      _ ≤ 2 * u * (|x / D| / (1 - u)) := mul_le_mul_of_nonneg_left hinv (by positivity)
      _ = _ := by field_simp; ring
  have e2 : |q / Q| ≤ (1 + u) / (1 - u) * |x / D| := by
    calc |q / Q| = |(q / Q - x / D) + x / D| := by congr 1; ring
      _ ≤ _ := abs_add_le _ _
      _ ≤ _ := by linarith
  have e3 := mul_le_mul_of_nonneg_left e2 hκ
  calc |w - x / D| = |(w - q / Q) + (q / Q - x / D)| := by congr 1; ring
    _ ≤ _ := abs_add_le _ _
    _ ≤ (κ * |q / Q| + η) + ((1 + u) / (1 - u) - 1) * |x / D| := add_le_add hw e1
    _ ≤ _ := by linarith

/-- **C126** `project_point_onto_sphere`: component `i` is `c_i + R ( x - c )_i / |x - c|` up to a relative error of about `12 u` of the offset from the centre, the underflows, and one rounding
of the result. -/
theorem C126_project_sphere (hp : F.p < F.emax) (h5 : 5 ≤ F.emax) (h3 : 3 * F.u < 1) (hε : Spec.flenErr F 3 ≤ 1 / 2) (cfg : Cfg) (s : Vec 4 (Fp F)) (x : Vec 3 (Fp F))
    (hs : ∀ i : Fin 4, s[i].Finite) (hx : ∀ i : Fin 3, x[i].Finite) (hfit : Spec.CentreFits s x)
    (hr : ∀ i : Fin 3, |s[i.1].val| + ((1 : ℝ) + F.u) * ((1 : ℝ) + Spec.dirErr F + F.eta) * |s[3].val| + F.eta ≤ F.maxFinite) :
    ∃ r, s.projectPointOntoSphere cfg x = .ok r ∧ ∀ i : Fin 3,
      let y := s[3].val * ((x[i].val - s[i.1].val) / Spec.centreDist s x);
      r[i].Finite ∧ |r[i].val - (s[i.1].val + y)| ≤
        ((1 : ℝ) + F.u) * ((((1 : ℝ) + F.u) * ((1 : ℝ) + Spec.dirErr F) - (1 : ℝ)) * |y| + ((1 : ℝ) + F.u) * |s[3].val| * F.eta + F.eta) + F.u * |s[i.1].val + y| := by
  have h0 : 0 < F.emax := by omega
  have hu := F.u_pos
  have hη := F.eta_pos
  have hu1 : F.u < 1 := by linarith
  obtain ⟨q, hqd, hq, hcl, hlo, hhi⟩ := to_centre h0 hu1 s x hs hx hfit
  obtain ⟨w, len, n1, -, n3⟩ := C109_normalize hp h5 cfg q (by exact_mod_cast h3) hε (fun i => (hq i).1) hlo hhi
  have hε0 : 0 ≤ Spec.flenErr F 3 := by
    unfold Spec.flenErr Spec.gamma
    have : 0 ≤ (3 : ℕ) * F.u / (1 - (3 : ℕ) * F.u) := div_nonneg (by positivity) (by push_cast; linarith)
    nlinarith
  have D0 : 0 < Spec.centreDist s x := by
    have h1 := hfit.1
    have hpos : (0 : ℝ) < (2 : ℝ) ^ F.emin := by positivity
    have hnn : 0 ≤ Spec.centreDist s x := Real.sqrt_nonneg _
    rcases hnn.lt_or_eq with h | h
    · exact h
    · rw [← h] at h1; norm_num at h1; linarith
  have hr' : s.projectPointOntoSphere cfg x = .ok (Vector.ofFn fun i : Fin 3 => s[i.1] + w[i] * s[3]) := by
    unfold Vec.projectPointOntoSphere
    rw [getSub3_eq, Vmml.bind_ok, Vec.subAssign_eq, Vmml.bind_ok]
    have : (Vector.ofFn fun i : Fin 3 => x[i] - (#v[s[0], s[1], s[2]] : Vec 3 (Fp F))[i]) = q := by
      rw [hqd]
      ext i hi
      match i, hi with
      | 0, _ => rfl
      | 1, _ => rfl
      | 2, _ => rfl
    rw [this, n1]
    simp only [Vmml.bind_ok, Vec.mulAssignS_eq, Vec.add_eq]
    congr 1
  refine ⟨_, hr', fun i => ?_⟩
  simp only [Fin.getElem_fin, Vector.getElem_ofFn]
  obtain ⟨fw, ew⟩ := n3 i
  have κ0 : 0 ≤ (1 + F.u) ^ 2 / (1 - Spec.flenErr F 3) - 1 := by
    rw [sub_nonneg, le_div_iff₀ (by linarith)]
    nlinarith
  have hd := dir_err (x := x[i].val - s[i.1].val) (D := Spec.centreDist s x) hu hu1 D0 (hq i).2 hcl κ0 ew
  rw [show 1 + ((1 + F.u) ^ 2 / (1 - Spec.flenErr F 3) - 1) = (1 + F.u) ^ 2 / (1 - Spec.flenErr F 3) by ring] at hd
  have hdir : (1 + F.u) ^ 2 / (1 - Spec.flenErr F 3) * ((1 + F.u) / (1 - F.u)) - 1 = Spec.dirErr F := rfl
  rw [hdir] at hd
  have hk0 : 0 ≤ Spec.dirErr F := by
    rw [← hdir, sub_nonneg]
    have a1 : 1 ≤ (1 + F.u) ^ 2 / (1 - Spec.flenErr F 3) := by linarith
    have a2 : 1 ≤ (1 + F.u) / (1 - F.u) := by rw [le_div_iff₀ (by linarith)]; linarith
    nlinarith
  have hy1 : |(x[i].val - s[i.1].val) / Spec.centreDist s x| ≤ 1 := by
    rw [abs_div, abs_of_pos D0, div_le_one D0]
    unfold Spec.centreDist
    apply Real.le_sqrt_of_sq_le
    rw [sq_abs]
    exact Finset.single_le_sum (f := fun i : Fin 3 => (x[i].val - s[i.1].val) ^ 2) (fun i _ => sq_nonneg _) (Finset.mem_univ i)
  have hri := hr i
  have hsi : (s[i.1]).Finite := hs ⟨i.1, by omega⟩
  have hs3 : (s[3]).Finite := hs 3
  have hwi : w[i] = w[i.1] := rfl
  rw [hwi] at fw hd
  revert hd hy1 hri hsi hs3 fw
  generalize w[i.1] = wi
  generalize s[i.1] = ci
  generalize s[3] = R
  have hxi : x[i] = x[i.1] := rfl
  rw [hxi]
  generalize (x[i.1].val - ci.val) / Spec.centreDist s x = y
  generalize Spec.dirErr F = κ at hk0 ⊢
  intro fw hd hy1 hri hsi hs3
  have hw1 : |wi.val| ≤ (1 + κ) * |y| + F.eta := by
    calc |wi.val| = |(wi.val - y) + y| := by congr 1; ring
      _ ≤ _ := abs_add_le _ _
      _ ≤ _ := by linarith
  have hR0 := abs_nonneg R.val
  have hy0 := abs_nonneg y
  have hm : |wi.val * R.val| ≤ (1 + κ) * |R.val * y| + |R.val| * F.eta := by
    rw [abs_mul, abs_mul]
    have := mul_le_mul_of_nonneg_right hw1 hR0
    linarith
  have hRy : |R.val * y| ≤ |R.val| := by rw [abs_mul]; nlinarith
  have hm2 : |wi.val * R.val| ≤ (1 + κ + F.eta) * |R.val| := by
    have := mul_le_mul_of_nonneg_left hRy (show 0 ≤ 1 + κ by linarith)
    linarith
  have hmroom : |wi.val * R.val| ≤ F.maxFinite := by
    have h1 := abs_nonneg ci.val
    have h2 : 0 ≤ F.u * ((1 + κ + F.eta) * |R.val|) := by positivity
    linarith
  obtain ⟨m1, m2⟩ := Fp.mul_fin h0 fw hs3 hmroom
  have me := rnd_err_add (F := F) (wi.val * R.val)
  rw [← m2] at me
  have hmR : |(wi * R).val| ≤ (1 + F.u) * ((1 + κ + F.eta) * |R.val|) + F.eta := by
    calc |(wi * R).val| = |((wi * R).val - wi.val * R.val) + wi.val * R.val| := by congr 1; ring
      _ ≤ _ := abs_add_le _ _
      _ ≤ (1 + F.u) * |wi.val * R.val| + F.eta := by linarith
      _ ≤ _ := by
        have := mul_le_mul_of_nonneg_left hm2 (show 0 ≤ 1 + F.u by linarith)
        linarith
  have hE : |(wi * R).val - R.val * y| ≤ ((1 + F.u) * (1 + κ) - 1) * |R.val * y| + (1 + F.u) * |R.val| * F.eta + F.eta := by
    have e1 : |wi.val * R.val - R.val * y| ≤ κ * |R.val * y| + |R.val| * F.eta := by
      have : wi.val * R.val - R.val * y = (wi.val - y) * R.val := by ring
      rw [this, abs_mul, abs_mul]
      have := mul_le_mul_of_nonneg_right hd hR0
      linarith
    have e2 := mul_le_mul_of_nonneg_left hm hu.le
    calc |(wi * R).val - R.val * y| = |((wi * R).val - wi.val * R.val) + (wi.val * R.val - R.val * y)| := by congr 1; ring
      _ ≤ _ := abs_add_le _ _
      _ ≤ (F.u * |wi.val * R.val| + F.eta) + (κ * |R.val * y| + |R.val| * F.eta) := add_le_add me e1
      _ ≤ _ := by linarith
  have hsroom : |ci.val + (wi * R).val| ≤ F.maxFinite := by
    refine (abs_add_le _ _).trans ?_
    linarith
  obtain ⟨r1, r2⟩ := Fp.add_fin h0 hsi m1 hsroom
  refine ⟨r1, ?_⟩
  rw [r2]
  have re := ((Fp.rep_val hsi).grid.add (Fp.rep_val m1).grid).rnd_err
  generalize ((1 + F.u) * (1 + κ) - 1) * |R.val * y| + (1 + F.u) * |R.val| * F.eta + F.eta = E at hE ⊢
  have hb : |ci.val + (wi * R).val| ≤ |ci.val + R.val * y| + E := by
    calc |ci.val + (wi * R).val| = |(ci.val + R.val * y) + ((wi * R).val - R.val * y)| := by congr 1; ring
      _ ≤ _ := abs_add_le _ _
      _ ≤ _ := by linarith
  have := mul_le_mul_of_nonneg_left hb hu.le
  calc |F.rnd (ci.val + (wi * R).val) - (ci.val + R.val * y)| = |(F.rnd (ci.val + (wi * R).val) - (ci.val + (wi * R).val)) + ((wi * R).val - R.val * y)| := by congr 1; ring
    _ ≤ _ := abs_add_le _ _
    _ ≤ F.u * |ci.val + (wi * R).val| + E := add_le_add re hE
    _ ≤ _ := by linarith

/-! ## The hypotheses are met -/

/-- `float`: the hypotheses on the format. -/
example : single.p < single.emax ∧ 5 ≤ single.emax ∧ 3 * single.u < 1 ∧ Spec.flenErr single 3 ≤ 1 / 2 := by
  obtain ⟨hε0, hε1⟩ := single.flenErr_small (by norm_num)
  exact ⟨by norm_num, by norm_num, by norm_num [Format.u], by linarith⟩

/-- `float`: the unit sphere around the origin and the point `( 0, 1, 0 )`. -/
example : ∃ (s : Vec 4 (Fp single)) (x : Vec 3 (Fp single)), (∀ i : Fin 4, s[i].Finite) ∧ (∀ i : Fin 3, x[i].Finite) ∧ Spec.CentreFits s x ∧ s[3].val = 1 ∧ Spec.centreDist s x = 1 := by
  have h0 : 0 < single.emax := by norm_num
  have o := Fp.one_fin (F := single) h0
  have hD : Spec.centreDist (#v[0, 0, 0, 1] : Vec 4 (Fp single)) #v[0, 1, 0] = 1 := by
    unfold Spec.centreDist
    rw [Fin.sum_univ_three]
    show Real.sqrt ((Fp.val (0 : Fp single) - Fp.val (0 : Fp single)) ^ 2 + (Fp.val (1 : Fp single) - Fp.val (0 : Fp single)) ^ 2 + (Fp.val (0 : Fp single) - Fp.val (0 : Fp single)) ^ 2) = 1
    rw [o.2, Fp.val_zero]
    norm_num
  have hmax : (2 : ℝ) ^ 110 ≤ single.maxFinite := by
    refine le_trans ?_ (pow_emax_le (F := single))
    rw [← zpow_natCast]
    exact zpow_le_zpow_right₀ (by norm_num) (by norm_num)
  have hu0 := single.u_pos
  have hu : single.u ≤ 1 / 8 := by norm_num [Format.u]
  have hη : single.eta ≤ 1 := by
    rw [eta_eq_tiny]
    have : single.tiny ≤ 1 := zpow_le_one_of_nonpos₀ (by norm_num) (by norm_num [emin])
    have := single.tiny_pos
    nlinarith
  refine ⟨#v[0, 0, 0, 1], #v[0, 1, 0], ?_, ?_, ?_, o.2, hD⟩
  · intro i
    match i with
    | 0 => exact Fp.finite_zero
    | 1 => exact Fp.finite_zero
    | 2 => exact Fp.finite_zero
    | 3 => exact o.1
  · intro i
    match i with
    | 0 => exact Fp.finite_zero
    | 1 => exact o.1
    | 2 => exact Fp.finite_zero
  · unfold Spec.CentreFits
    rw [hD]
    refine ⟨?_, ?_, ?_⟩
    · have h1 : (2 : ℝ) ^ single.emin ≤ (2 : ℝ) ^ (-1 : Int) := zpow_le_zpow_right₀ (by norm_num) (by norm_num [emin])
      have h2 : (2 : ℝ) ^ (-1 : Int) = 1 / 2 := by norm_num
      have h3 : (7 / 8 : ℝ) ^ 2 ≤ ((1 - single.u) * 1) ^ 2 := pow_le_pow_left₀ (by norm_num) (by linarith) 2
      have h4 : (1 / 2 : ℝ) ≤ (7 / 8) ^ 2 := by norm_num
      exact h1.trans (h2.le.trans (h4.trans h3))
    · have h1 : ((1 + single.u) * 1) ^ 2 ≤ 4 := by nlinarith
      have h2 : (1 / 2 : ℝ) * 2 ^ 110 ≤ (1 - 3 * single.u) * single.maxFinite := mul_le_mul (by linarith) hmax (by positivity) (by linarith)
      have h3 : (7 : ℝ) ≤ 1 / 2 * 2 ^ 110 := by norm_num
      linarith
    · exact one_le_max h0

end Vmml
