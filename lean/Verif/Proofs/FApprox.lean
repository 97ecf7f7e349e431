import Verif.Proofs.Approx
import Verif.Proofs.FloatLemmas

/-!
# A calculus of rounding errors for polynomial expressions in IEEE 754 arithmetic

`FApprox S n a A m`: if the computed value `a` is finite, then `S` holds (the operands that entered it are finite) and `a` differs from the exact `A` by at most
`( ( 1 + u )ⁿ - 1 ) m`, where `m` is the expression with every term replaced by its absolute value and every product increased by the smallest normal number,
which accounts for underflow. `FBound n a m`: `a` is finite and at most `( 1 + u )ⁿ m` in magnitude.
-/

namespace Vmml
open Format
variable {F : Format}

/-- See above. -/
def FApprox (S : Prop) (n : Nat) (a : Fp F) (A m : ℝ) : Prop := a.Finite → S ∧ Approx F.u n a.val A m

/-- See above. -/
structure FBound (n : Nat) (a : Fp F) (m : ℝ) : Prop where
  finite : a.Finite
  bound : |a.val| ≤ (1 + F.u) ^ n * m

/-- The smallest normal number. -/
noncomputable def Format.tiny (F : Format) : ℝ := (2 : ℝ) ^ F.emin

theorem Format.tiny_pos : 0 < F.tiny := by unfold Format.tiny; positivity

theorem Format.eta_eq_tiny : F.eta = F.u * F.tiny := by
  unfold Format.tiny eta u
  rw [zpow_sub₀ (by norm_num), zpow_natCast, inv_pow, pow_succ]
  field_simp

theorem rnd_err_tiny (x : ℝ) : |F.rnd x - x| ≤ F.u * (|x| + F.tiny) := by
  rw [mul_add, ← Format.eta_eq_tiny]; exact rnd_err_add x

/-- A product with a rounding error of at most `u ( |x| + p )`. -/
theorem Approx.mul_pad {u p r : ℝ} (hu : 0 ≤ u) (hp : 0 ≤ p) {n k : Nat} {a A m b B m' : ℝ} (h : Approx u n a A m) (h' : Approx u k b B m')
    (hr : |r - a * b| ≤ u * (|a * b| + p)) : Approx u (n + k + 1) r (A * B) (m * m' + p) := by
  have p1 : (1 : ℝ) ≤ (1 + u) ^ n := one_le_pow₀ (by linarith)
  have p2 : (1 : ℝ) ≤ (1 + u) ^ k := one_le_pow₀ (by linarith)
  have p3 : (1 : ℝ) ≤ (1 + u) ^ (n + k) := one_le_pow₀ (by linarith)
  have m0 := h.mag_nonneg
  have m0' := h'.mag_nonneg
  have hAB : |A * B| ≤ m * m' := by rw [abs_mul]; exact mul_le_mul h.mag h'.mag (abs_nonneg _) m0
  refine ⟨?_, by linarith⟩
  have h1 : |a * b - A * B| ≤ ((1 + u) ^ (n + k) - 1) * (m * m') := by
    calc |a * b - A * B| = |(a - A) * b + A * (b - B)| := by congr 1; ring
      _ ≤ |a - A| * |b| + |A| * |b - B| := by
          rw [← abs_mul, ← abs_mul]; exact abs_add_le _ _
      _ ≤ (((1 + u) ^ n - 1) * m) * ((1 + u) ^ k * m') + m * (((1 + u) ^ k - 1) * m') := by
          apply add_le_add
          · exact mul_le_mul h.err h'.bound (abs_nonneg _) (mul_nonneg (by linarith) m0)
          · exact mul_le_mul h.mag h'.err (abs_nonneg _) m0
      _ = _ := by rw [pow_add]; ring
  have h2 : |a * b| ≤ (1 + u) ^ (n + k) * (m * m') := by
    rw [abs_mul]
    calc _ ≤ ((1 + u) ^ n * m) * ((1 + u) ^ k * m') :=
          mul_le_mul h.bound h'.bound (abs_nonneg _) (mul_nonneg (by linarith) m0)
      _ = _ := by rw [pow_add]; ring
  calc _ = |(r - a * b) + (a * b - A * B)| := by congr 1; ring
    _ ≤ _ := abs_add_le _ _
    _ ≤ u * ((1 + u) ^ (n + k) * (m * m') + p) + ((1 + u) ^ (n + k) - 1) * (m * m') := by
        have := mul_le_mul_of_nonneg_left (add_le_add_left h2 p) hu
        linarith
    _ ≤ ((1 + u) ^ (n + k + 1) - 1) * (m * m') + ((1 + u) ^ (n + k + 1) - 1) * p := by
        have e : (1 + u) ^ (n + k + 1) = (1 + u) ^ (n + k) * (1 + u) := pow_succ _ _
        have : u * p ≤ ((1 + u) ^ (n + k + 1) - 1) * p := by
          apply mul_le_mul_of_nonneg_right _ hp
          rw [e]; nlinarith
        rw [e] at this ⊢
        nlinarith
    _ = _ := by ring

/-- A sum with a relative rounding error. -/
theorem Approx.add_rel {u r : ℝ} (hu : 0 ≤ u) {n k : Nat} {a A m b B m' : ℝ} (h : Approx u n a A m) (h' : Approx u k b B m')
    (hr : |r - (a + b)| ≤ u * |a + b|) : Approx u (max n k + 1) r (A + B) (m + m') := by
  have h := h.mono hu (le_max_left n k) le_rfl
  have h' := h'.mono hu (le_max_right n k) le_rfl
  set n := max n k
  refine ⟨?_, (abs_add_le _ _).trans (add_le_add h.mag h'.mag)⟩
  have h1 : |(a + b) - (A + B)| ≤ ((1 + u) ^ n - 1) * (m + m') := by
    calc _ = |(a - A) + (b - B)| := by congr 1; ring
      _ ≤ _ := abs_add_le _ _
      _ ≤ _ := by linarith [h.err, h'.err]
  have h2 : |a + b| ≤ (1 + u) ^ n * (m + m') := by
    have := abs_add_le a b
    linarith [h.bound, h'.bound]
  calc _ = |(r - (a + b)) + ((a + b) - (A + B))| := by congr 1; ring
    _ ≤ _ := abs_add_le _ _
    _ ≤ u * ((1 + u) ^ n * (m + m')) + ((1 + u) ^ n - 1) * (m + m') := by
        have := mul_le_mul_of_nonneg_left h2 hu
        linarith
    _ = _ := by rw [pow_succ]; ring

namespace FApprox
variable {S S' : Prop} {n k : Nat} {a b : Fp F} {A B m m' : ℝ}

theorem exact (a : Fp F) : FApprox a.Finite 0 a a.val |a.val| := fun h => ⟨h, Approx.exact _⟩

theorem mono (h : FApprox S n a A m) (hn : n ≤ k) (hm : m ≤ m') : FApprox S k a A m' := fun hf => ⟨(h hf).1, (h hf).2.mono u_pos.le hn hm⟩

theorem conv {A' : ℝ} (h : FApprox S n a A m) (hn : n ≤ k) (hA : A = A') (hm : m ≤ m') (hS : S → S') : FApprox S' k a A' m' := by
  subst hA
  exact fun hf => ⟨hS (h hf).1, (h hf).2.mono u_pos.le hn hm⟩

theorem neg (h : FApprox S n a A m) : FApprox S n (-a) (-A) m := by
  intro hf
  have ha : a.Finite := by cases a <;> trivial
  rw [Fp.val_neg]
  exact ⟨(h ha).1, (h ha).2.neg⟩

theorem add (h : FApprox S n a A m) (h' : FApprox S' k b B m') : FApprox (S ∧ S') (max n k + 1) (a + b) (A + B) (m + m') := by
  intro hf
  obtain ⟨f1, f2, f3⟩ := Fp.add_finite hf
  refine ⟨⟨(h f1).1, (h' f2).1⟩, ?_⟩
  rw [f3]
  exact Approx.add_rel u_pos.le (h f1).2 (h' f2).2 ((Fp.rep_val f1).grid.add (Fp.rep_val f2).grid).rnd_err

theorem sub (h : FApprox S n a A m) (h' : FApprox S' k b B m') : FApprox (S ∧ S') (max n k + 1) (a - b) (A - B) (m + m') := by
  rw [sub_eq_add_neg A B]
  exact h.add h'.neg

theorem mul (h : FApprox S n a A m) (h' : FApprox S' k b B m') : FApprox (S ∧ S') (n + k + 1) (a * b) (A * B) (m * m' + F.tiny) := by
  intro hf
  obtain ⟨f1, f2, f3⟩ := Fp.mul_finite hf
  refine ⟨⟨(h f1).1, (h' f2).1⟩, ?_⟩
  exact Approx.mul_pad u_pos.le tiny_pos.le (h f1).2 (h' f2).2 (by rw [f3]; exact rnd_err_tiny _)

end FApprox

namespace FBound
variable {n k : Nat} {a b : Fp F} {m m' : ℝ}

theorem nonneg (h : FBound n a m) : 0 ≤ m := by
  have h1 := (abs_nonneg _).trans h.bound
  have h2 : (0 : ℝ) < (1 + F.u) ^ n := pow_pos (by linarith [u_pos (F := F)]) _
  by_contra hc
  nlinarith

theorem mono (h : FBound n a m) (hn : n ≤ k) (hm : m ≤ m') : FBound k a m' := by
  have hu := u_pos (F := F)
  refine ⟨h.finite, h.bound.trans (mul_le_mul (pow_le_pow_right₀ (by linarith) hn) hm h.nonneg (by positivity))⟩

theorem neg (h : FBound n a m) : FBound n (-a) m := ⟨Fp.finite_neg h.finite, by rw [Fp.val_neg, abs_neg]; exact h.bound⟩

theorem add (h0 : 0 < F.emax) (h : FBound n a m) (h' : FBound k b m') (hc : (1 + F.u) ^ max n k * (m + m') ≤ F.maxFinite) :
    FBound (max n k + 1) (a + b) (m + m') := by
  have hu := u_pos (F := F)
  have h1 := (h.mono (le_max_left n k) le_rfl).bound
  have h2 := (h'.mono (le_max_right n k) le_rfl).bound
  have h3 : |a.val + b.val| ≤ (1 + F.u) ^ max n k * (m + m') := by linarith [abs_add_le a.val b.val]
  obtain ⟨f1, f2⟩ := Fp.add_fin h0 h.finite h'.finite (h3.trans hc)
  refine ⟨f1, ?_⟩
  rw [f2]
  have h4 := ((Fp.rep_val h.finite).grid.add (Fp.rep_val h'.finite).grid).rnd_err
  have h5 : |F.rnd (a.val + b.val)| ≤ (1 + F.u) * |a.val + b.val| := by
    have := abs_add_le (F.rnd (a.val + b.val) - (a.val + b.val)) (a.val + b.val)
    rw [sub_add_cancel] at this
    linarith
  calc _ ≤ (1 + F.u) * ((1 + F.u) ^ max n k * (m + m')) := h5.trans (mul_le_mul_of_nonneg_left h3 (by linarith))
    _ = _ := by rw [pow_succ]; ring

theorem sub (h0 : 0 < F.emax) (h : FBound n a m) (h' : FBound k b m') (hc : (1 + F.u) ^ max n k * (m + m') ≤ F.maxFinite) :
    FBound (max n k + 1) (a - b) (m + m') := add h0 h h'.neg hc

theorem mul (h0 : 0 < F.emax) (h : FBound n a m) (h' : FBound k b m') (hc : (1 + F.u) ^ (n + k) * (m * m') ≤ F.maxFinite) :
    FBound (n + k + 1) (a * b) (m * m' + F.tiny) := by
  have hu := u_pos (F := F)
  have h3 : |a.val * b.val| ≤ (1 + F.u) ^ (n + k) * (m * m') := by
    rw [abs_mul, pow_add]
    calc _ ≤ ((1 + F.u) ^ n * m) * ((1 + F.u) ^ k * m') := mul_le_mul h.bound h'.bound (abs_nonneg _) ((abs_nonneg _).trans h.bound)
      _ = _ := by ring
  obtain ⟨f1, f2⟩ := Fp.mul_fin h0 h.finite h'.finite (h3.trans hc)
  refine ⟨f1, ?_⟩
  rw [f2]
  have h4 := rnd_err_tiny (F := F) (a.val * b.val)
  have h5 : |F.rnd (a.val * b.val)| ≤ (1 + F.u) * |a.val * b.val| + F.u * F.tiny := by
    have := abs_add_le (F.rnd (a.val * b.val) - (a.val * b.val)) (a.val * b.val)
    rw [sub_add_cancel] at this
    linarith
  have h6 : F.u * F.tiny ≤ (1 + F.u) ^ (n + k + 1) * F.tiny := by
    apply mul_le_mul_of_nonneg_right _ tiny_pos.le
    have : (1 + F.u) ^ 1 ≤ (1 + F.u) ^ (n + k + 1) := pow_le_pow_right₀ (by linarith) (by omega)
    rw [pow_one] at this
    linarith
  have h7 := mul_le_mul_of_nonneg_left h3 (show 0 ≤ 1 + F.u by linarith)
  have e : (1 + F.u) ^ (n + k + 1) * (m * m' + F.tiny) = (1 + F.u) * ((1 + F.u) ^ (n + k) * (m * m')) + (1 + F.u) ^ (n + k + 1) * F.tiny := by
    rw [pow_succ]; ring
  rw [e]
  linarith

end FBound
end Vmml

namespace Vmml
open Format
variable {F : Format}

/-- Both relations; the bound only under a hypothesis `H`. -/
structure FBoth (H S : Prop) (n : Nat) (a : Fp F) (A m M : ℝ) : Prop where
  approx : FApprox S n a A m
  bound : H → FBound n a M

namespace FBoth
variable {H S S' : Prop} {n k : Nat} {a b : Fp F} {A B m m' M M' : ℝ}

theorem conv {A' : ℝ} (h : FBoth H S n a A m M) (hn : n ≤ k) (hA : A = A') (hm : m ≤ m') (hM : M ≤ M') (hS : S → S') : FBoth H S' k a A' m' M' :=
  ⟨h.approx.conv hn hA hm hS, fun hh => (h.bound hh).mono hn hM⟩

theorem neg (h : FBoth H S n a A m M) : FBoth H S n (-a) (-A) m M := ⟨h.approx.neg, fun hh => (h.bound hh).neg⟩

theorem add (h0 : 0 < F.emax) (h : FBoth H S n a A m M) (h' : FBoth H S' k b B m' M') (hc : H → (1 + F.u) ^ max n k * (M + M') ≤ F.maxFinite) :
    FBoth H (S ∧ S') (max n k + 1) (a + b) (A + B) (m + m') (M + M') := ⟨h.approx.add h'.approx, fun hh => (h.bound hh).add h0 (h'.bound hh) (hc hh)⟩

theorem sub (h0 : 0 < F.emax) (h : FBoth H S n a A m M) (h' : FBoth H S' k b B m' M') (hc : H → (1 + F.u) ^ max n k * (M + M') ≤ F.maxFinite) :
    FBoth H (S ∧ S') (max n k + 1) (a - b) (A - B) (m + m') (M + M') := ⟨h.approx.sub h'.approx, fun hh => (h.bound hh).sub h0 (h'.bound hh) (hc hh)⟩

theorem mul (h0 : 0 < F.emax) (h : FBoth H S n a A m M) (h' : FBoth H S' k b B m' M') (hc : H → (1 + F.u) ^ (n + k) * (M * M') ≤ F.maxFinite) :
    FBoth H (S ∧ S') (n + k + 1) (a * b) (A * B) (m * m' + F.tiny) (M * M' + F.tiny) :=
  ⟨h.approx.mul h'.approx, fun hh => (h.bound hh).mul h0 (h'.bound hh) (hc hh)⟩

end FBoth
end Vmml
