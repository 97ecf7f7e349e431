import Verif.Proofs.FApprox
import Verif.Props.RoundingInverse
import Verif.Props.FloatNorm

/-!
# C110: determinants and inverses in IEEE 754 arithmetic, with overflow and underflow
-/

set_option linter.unusedSimpArgs false
set_option linter.unusedTactic false
set_option linter.unreachableTactic false

namespace Vmml
open Mat Format
variable {F : Format}

/-- The matrix of the exact values (0 for infinities and NaN). -/
def Spec.fvals {m n : Nat} (A : Mat m n (Fp F)) : Matrix (Fin m) (Fin n) ℝ := fun i j => (A.get i j).val

/-- The part of the error of an `n` by `n` determinant that is due to underflow: the smallest normal number times a polynomial in a bound of the entries. -/
noncomputable def Spec.pad (F : Format) (n : Nat) (B : ℝ) : ℝ := n.factorial * ((n - 1 : Nat) : ℝ) * B ^ (n - 2) * F.tiny

/-- Entries and intermediate results fit in the range of the format. -/
def Spec.InRange {n : Nat} (m : Mat n n (Fp F)) (B : ℝ) (k : Nat) : Prop :=
  (∀ i j, (m.get i j).Finite) ∧ (1 + F.u) ^ k * (n.factorial * B ^ n + Spec.pad F n B) ≤ F.maxFinite

private theorem cap {n k d : Nat} {m : Mat n n (Fp F)} {B x : ℝ} (hk : k ≤ d) (hx0 : 0 ≤ x) (hx : x ≤ n.factorial * B ^ n + Spec.pad F n B)
    (h : Spec.InRange m B d) : (1 + F.u) ^ k * x ≤ F.maxFinite := by
  have hu := F.u_pos
  refine le_trans (mul_le_mul (pow_le_pow_right₀ (by linarith) hk) hx hx0 (by positivity)) h.2

private theorem E {n d : Nat} (m : Mat n n (Fp F)) {B : ℝ} (hB : ∀ i j, |(m.get i j).val| ≤ B) (i j : Fin n) :
    FBoth (Spec.InRange m B d) (m.get i j).Finite 0 (m.get i j) (Spec.fvals m i j) |Spec.fvals m i j| B :=
  ⟨FApprox.exact _, fun h => ⟨h.1 i j, by rw [pow_zero, one_mul]; exact hB i j⟩⟩

private theorem pad2 (B : ℝ) : Spec.pad F 2 B = 2 * F.tiny := by simp [Spec.pad, Nat.factorial]
private theorem f3 : ((3 : Nat).factorial : ℝ) = 6 := by norm_num [Nat.factorial]
private theorem f4 : ((4 : Nat).factorial : ℝ) = 24 := by norm_num [Nat.factorial]
private theorem pad3 (B : ℝ) : Spec.pad F 3 B = 12 * B * F.tiny := by
  rw [Spec.pad, f3]; push_cast; ring
private theorem pad4 (B : ℝ) : Spec.pad F 4 B = 72 * B ^ 2 * F.tiny := by
  rw [Spec.pad, f4]; push_cast; ring

private theorem s3 : (0 : Fin 3).succAbove 0 = 1 ∧ (0 : Fin 3).succAbove 1 = 2 ∧ (1 : Fin 3).succAbove 0 = 0 ∧ (1 : Fin 3).succAbove 1 = 2 ∧
    (2 : Fin 3).succAbove 0 = 0 ∧ (2 : Fin 3).succAbove 1 = 1 := ⟨rfl, rfl, rfl, rfl, rfl, rfl⟩
private theorem s4 : (0 : Fin 4).succAbove 0 = 1 ∧ (0 : Fin 4).succAbove 1 = 2 ∧ (0 : Fin 4).succAbove 2 = 3 ∧ (1 : Fin 4).succAbove 0 = 0 ∧
    (1 : Fin 4).succAbove 1 = 2 ∧ (1 : Fin 4).succAbove 2 = 3 ∧ (2 : Fin 4).succAbove 0 = 0 ∧ (2 : Fin 4).succAbove 1 = 1 ∧
    (2 : Fin 4).succAbove 2 = 3 ∧ (3 : Fin 4).succAbove 0 = 0 ∧ (3 : Fin 4).succAbove 1 = 1 ∧ (3 : Fin 4).succAbove 2 = 2 :=
  ⟨rfl, rfl, rfl, rfl, rfl, rfl, rfl, rfl, rfl, rfl, rfl, rfl⟩

section two
variable (h0 : 0 < F.emax) {B : ℝ} (h1 : 1 ≤ B)
include h0 h1

private theorem two (m : Mat 2 2 (Fp F)) (hB : ∀ i j, |(m.get i j).val| ≤ B) :
    FBoth (Spec.InRange m B 2) (∀ i j, (m.get i j).Finite) 2 (m.get 0 0 * m.get 1 1 - m.get 0 1 * m.get 1 0) (Spec.fvals m).det
      (Spec.mags 2 (Spec.fvals m) + Spec.pad F 2 B) (2 * B ^ 2 + Spec.pad F 2 B) := by
  have ht := F.tiny_pos
  have B2 : 0 ≤ B * B := by positivity
  have P (a b c d : Fin 2) := (E (d := 2) m hB a b).mul h0 (E m hB c d) (cap (by decide) B2 (by rw [pad2]; norm_num [Nat.factorial]; nlinarith))
  refine ((P 0 0 1 1).sub h0 (P 0 1 1 0) (cap (by decide) (by positivity) (by rw [pad2]; norm_num [Nat.factorial]; nlinarith))).conv (by decide)
    (Matrix.det_fin_two _).symm (by rw [mags2, pad2]; linarith) (by rw [pad2]; nlinarith) ?_
  rintro ⟨⟨a, b⟩, c, d⟩ i j
  fin_cases i <;> fin_cases j <;> assumption
end two

section three
variable (h0 : 0 < F.emax) {B : ℝ} (h1 : 1 ≤ B) {D : Nat} (hD : 5 ≤ D)
include h0 h1 hD

/-- A two by two minor of a 3x3 matrix. -/
private theorem sub3 (m : Mat 3 3 (Fp F)) (hB : ∀ i j, |(m.get i j).val| ≤ B) (a b c d e f g h : Fin 3) :
    FBoth (Spec.InRange m B D) (((m.get a b).Finite ∧ (m.get c d).Finite) ∧ (m.get e f).Finite ∧ (m.get g h).Finite) 2
      (m.get a b * m.get c d - m.get e f * m.get g h)
      (Spec.fvals m a b * Spec.fvals m c d - Spec.fvals m e f * Spec.fvals m g h)
      (|Spec.fvals m a b| * |Spec.fvals m c d| + |Spec.fvals m e f| * |Spec.fvals m g h| + 2 * F.tiny) (2 * B ^ 2 + 2 * F.tiny) := by
  have ht := F.tiny_pos
  have B2 : 0 ≤ B * B := by positivity
  have B3 : B * B ≤ B ^ 3 := by nlinarith
  have hBt : F.tiny ≤ B * F.tiny := by nlinarith
  have P (a b c d : Fin 3) := (E (d := D) m hB a b).mul h0 (E m hB c d) (cap (by omega) B2 (by rw [pad3, f3]; nlinarith))
  exact ((P a b c d).sub h0 (P e f g h) (cap (by omega) (by positivity) (by rw [pad3, f3]; nlinarith))).conv (by decide)
    rfl (by linarith) (by nlinarith) id

private theorem term3 (m : Mat 3 3 (Fp F)) (hB : ∀ i j, |(m.get i j).val| ≤ B) {S : Prop} {x : Fp F} {X y : ℝ} (i j : Fin 3)
    (h : FBoth (Spec.InRange m B D) S 2 x X (y + 2 * F.tiny) (2 * B ^ 2 + 2 * F.tiny)) :
    FBoth (Spec.InRange m B D) ((m.get i j).Finite ∧ S) 3 (m.get i j * x) (Spec.fvals m i j * X)
      (|Spec.fvals m i j| * y + 4 * B * F.tiny) (2 * B ^ 3 + 4 * B * F.tiny) := by
  have ht := F.tiny_pos
  have hBt : F.tiny ≤ B * F.tiny := by nlinarith
  have hB3 : 0 ≤ B ^ 3 := by positivity
  refine ((E (d := D) m hB i j).mul h0 h (cap (by omega) (by positivity) (by rw [pad3, f3]; nlinarith))).conv (by decide) rfl ?_ ?_ id
  · have : |Spec.fvals m i j| * F.tiny ≤ B * F.tiny := mul_le_mul_of_nonneg_right (hB i j) ht.le
    nlinarith
  · nlinarith

private theorem fsum3 (m : Mat 3 3 (Fp F)) {S S' S'' : Prop} {x y z : Fp F} {X Y Z a b c : ℝ}
    (hx : FBoth (Spec.InRange m B D) S 3 x X (a + 4 * B * F.tiny) (2 * B ^ 3 + 4 * B * F.tiny))
    (hy : FBoth (Spec.InRange m B D) S' 3 y Y (b + 4 * B * F.tiny) (2 * B ^ 3 + 4 * B * F.tiny))
    (hz : FBoth (Spec.InRange m B D) S'' 3 z Z (c + 4 * B * F.tiny) (2 * B ^ 3 + 4 * B * F.tiny)) :
    FBoth (Spec.InRange m B D) ((S ∧ S') ∧ S'') 5 (x + y + z) (X + Y + Z) (a + b + c + Spec.pad F 3 B) (6 * B ^ 3 + Spec.pad F 3 B) := by
  have ht := F.tiny_pos
  have hBt : 0 ≤ B * F.tiny := by nlinarith
  have hB3 : 0 ≤ B ^ 3 := by positivity
  exact ((hx.add h0 hy (cap (by omega) (by positivity) (by rw [pad3, f3]; nlinarith))).add h0 hz
    (cap (by omega) (by positivity) (by rw [pad3, f3]; nlinarith))).conv (by decide) rfl (by rw [pad3]; linarith) (by rw [pad3]; linarith) id
/-- The cofactors of a 3x3 matrix. -/
private theorem fcof3 (m : Mat 3 3 (Fp F)) (hB : ∀ i j, |(m.get i j).val| ≤ B) (r c : Fin 3) :
    FBoth (Spec.InRange m B D) (∀ i j, i ≠ c → j ≠ r → (m.get i j).Finite) 2 (m.cof3.get r c) ((Spec.fvals m).adjugate r c)
      (Spec.magAdj (Spec.fvals m) r c + 2 * F.tiny) (2 * B ^ 2 + 2 * F.tiny) := by
  obtain ⟨e1, e2, e3, e4, e5, e6⟩ := s3
  rw [cof3, get_ofFn, adj3]
  have T := sub3 h0 h1 hD m hB
  fin_cases r <;> fin_cases c
  · exact (T 1 1 2 2 1 2 2 1).conv le_rfl rfl (le_of_eq (by simp [Spec.magAdj, mags2, e1, e2, e3, e4, e5, e6]; try ring1)) le_rfl (by
      rintro ⟨⟨_, _⟩, _, _⟩ i j hi hj
      fin_cases i <;> fin_cases j <;> first | assumption | exact absurd rfl hi | exact absurd rfl hj)
  · exact (T 0 2 2 1 0 1 2 2).conv le_rfl rfl (le_of_eq (by simp [Spec.magAdj, mags2, e1, e2, e3, e4, e5, e6]; try ring1)) le_rfl (by
      rintro ⟨⟨_, _⟩, _, _⟩ i j hi hj
      fin_cases i <;> fin_cases j <;> first | assumption | exact absurd rfl hi | exact absurd rfl hj)
  · exact (T 0 1 1 2 0 2 1 1).conv le_rfl rfl (le_of_eq (by simp [Spec.magAdj, mags2, e1, e2, e3, e4, e5, e6]; try ring1)) le_rfl (by
      rintro ⟨⟨_, _⟩, _, _⟩ i j hi hj
      fin_cases i <;> fin_cases j <;> first | assumption | exact absurd rfl hi | exact absurd rfl hj)
  · exact (T 1 2 2 0 1 0 2 2).conv le_rfl rfl (le_of_eq (by simp [Spec.magAdj, mags2, e1, e2, e3, e4, e5, e6]; try ring1)) le_rfl (by
      rintro ⟨⟨_, _⟩, _, _⟩ i j hi hj
      fin_cases i <;> fin_cases j <;> first | assumption | exact absurd rfl hi | exact absurd rfl hj)
  · exact (T 0 0 2 2 0 2 2 0).conv le_rfl rfl (le_of_eq (by simp [Spec.magAdj, mags2, e1, e2, e3, e4, e5, e6]; try ring1)) le_rfl (by
      rintro ⟨⟨_, _⟩, _, _⟩ i j hi hj
      fin_cases i <;> fin_cases j <;> first | assumption | exact absurd rfl hi | exact absurd rfl hj)
  · exact (T 0 2 1 0 0 0 1 2).conv le_rfl rfl (le_of_eq (by simp [Spec.magAdj, mags2, e1, e2, e3, e4, e5, e6]; try ring1)) le_rfl (by
      rintro ⟨⟨_, _⟩, _, _⟩ i j hi hj
      fin_cases i <;> fin_cases j <;> first | assumption | exact absurd rfl hi | exact absurd rfl hj)
  · exact (T 1 0 2 1 1 1 2 0).conv le_rfl rfl (le_of_eq (by simp [Spec.magAdj, mags2, e1, e2, e3, e4, e5, e6]; try ring1)) le_rfl (by
      rintro ⟨⟨_, _⟩, _, _⟩ i j hi hj
      fin_cases i <;> fin_cases j <;> first | assumption | exact absurd rfl hi | exact absurd rfl hj)
  · exact (T 0 1 2 0 0 0 2 1).conv le_rfl rfl (le_of_eq (by simp [Spec.magAdj, mags2, e1, e2, e3, e4, e5, e6]; try ring1)) le_rfl (by
      rintro ⟨⟨_, _⟩, _, _⟩ i j hi hj
      fin_cases i <;> fin_cases j <;> first | assumption | exact absurd rfl hi | exact absurd rfl hj)
  · exact (T 0 0 1 1 0 1 1 0).conv le_rfl rfl (le_of_eq (by simp [Spec.magAdj, mags2, e1, e2, e3, e4, e5, e6]; try ring1)) le_rfl (by
      rintro ⟨⟨_, _⟩, _, _⟩ i j hi hj
      fin_cases i <;> fin_cases j <;> first | assumption | exact absurd rfl hi | exact absurd rfl hj)

/-- The determinant of a 3x3 matrix from the first row and the cofactors. -/
private theorem three (m : Mat 3 3 (Fp F)) (hB : ∀ i j, |(m.get i j).val| ≤ B) :
    FBoth (Spec.InRange m B D) (∀ i j, (m.get i j).Finite) 5 (m.get 0 0 * m.cof3.get 0 0 + m.get 0 1 * m.cof3.get 1 0 + m.get 0 2 * m.cof3.get 2 0)
      (Spec.fvals m).det (Spec.mags 3 (Spec.fvals m) + Spec.pad F 3 B) (6 * B ^ 3 + Spec.pad F 3 B) := by
  have C := fcof3 h0 h1 hD m hB
  have T (j : Fin 3) := term3 h0 h1 hD m hB 0 j (C j 0)
  refine (fsum3 h0 h1 hD m (T 0) (T 1) (T 2)).conv le_rfl ?_ (le_of_eq ?_) le_rfl ?_
  · rw [Matrix.det_eq_sum_mul_adjugate_row _ 0, Fin.sum_univ_three]
  · rw [mags_row, Fin.sum_univ_three]
  · rintro ⟨⟨⟨a, a'⟩, b, b'⟩, c, c'⟩ i j
    by_cases hi : i = 0
    · subst hi; fin_cases j <;> assumption
    · by_cases hj : j = 0
      · exact b' i j hi (by rw [hj]; decide)
      · exact a' i j hi hj
end three

section four
variable (h0 : 0 < F.emax) {B : ℝ} (h1 : 1 ≤ B) {D : Nat} (hD : 9 ≤ D)
include h0 h1 hD

private theorem top4 {x : ℝ} {a b : ℝ} (ha : a ≤ 24) (hb : b ≤ 72) (hx : x ≤ a * B ^ 4 + b * B ^ 2 * F.tiny) :
    x ≤ (4 : Nat).factorial * B ^ 4 + Spec.pad F 4 B := by
  have ht := F.tiny_pos
  have hB4 : 0 ≤ B ^ 4 := by positivity
  have hBt : 0 ≤ B ^ 2 * F.tiny := by positivity
  rw [f4, pad4]
  nlinarith

/-- A two by two minor of a 4x4 matrix. -/
private theorem sub4 (m : Mat 4 4 (Fp F)) (hB : ∀ i j, |(m.get i j).val| ≤ B) (a b c d e f g h : Fin 4) :
    FBoth (Spec.InRange m B D) (((m.get a b).Finite ∧ (m.get c d).Finite) ∧ (m.get e f).Finite ∧ (m.get g h).Finite) 2
      (m.get a b * m.get c d - m.get e f * m.get g h)
      (Spec.fvals m a b * Spec.fvals m c d - Spec.fvals m e f * Spec.fvals m g h)
      (|Spec.fvals m a b| * |Spec.fvals m c d| + |Spec.fvals m e f| * |Spec.fvals m g h| + 2 * F.tiny) (2 * B ^ 2 + 2 * F.tiny) := by
  have ht := F.tiny_pos
  have B2 : 0 ≤ B * B := by positivity
  have B1 : 1 ≤ B ^ 2 := one_le_pow₀ h1
  have B4 : B * B ≤ B ^ 4 := by nlinarith
  have hBt : F.tiny ≤ B ^ 2 * F.tiny := by nlinarith
  have P (a b c d : Fin 4) := (E (d := D) m hB a b).mul h0 (E m hB c d)
    (cap (by omega) B2 (top4 h0 h1 hD (a := 1) (b := 0) (by norm_num) (by norm_num) (by linarith)))
  exact ((P a b c d).sub h0 (P e f g h) (cap (by omega) (by positivity)
    (top4 h0 h1 hD (a := 2) (b := 2) (by norm_num) (by norm_num) (by linarith)))).conv (by decide)
    rfl (by linarith) (by nlinarith) id

private theorem term4 (m : Mat 4 4 (Fp F)) (hB : ∀ i j, |(m.get i j).val| ≤ B) (x y a b c d e f g h : Fin 4) :
    FBoth (Spec.InRange m B D) ((m.get x y).Finite ∧ ((m.get a b).Finite ∧ (m.get c d).Finite) ∧ (m.get e f).Finite ∧ (m.get g h).Finite) 3
      (m.get x y * (m.get a b * m.get c d - m.get e f * m.get g h))
      (Spec.fvals m x y * (Spec.fvals m a b * Spec.fvals m c d - Spec.fvals m e f * Spec.fvals m g h))
      (|Spec.fvals m x y| * (|Spec.fvals m a b| * |Spec.fvals m c d| + |Spec.fvals m e f| * |Spec.fvals m g h|) + 4 * B * F.tiny)
      (2 * B ^ 3 + 4 * B * F.tiny) := by
  have ht := F.tiny_pos
  have hBt : F.tiny ≤ B * F.tiny := by nlinarith
  have hBt2 : B * F.tiny ≤ B ^ 2 * F.tiny := by nlinarith
  have hB3 : 0 ≤ B ^ 3 := by positivity
  have hB4 : B ^ 3 ≤ B ^ 4 := pow_le_pow_right₀ h1 (by omega)
  refine ((E (d := D) m hB x y).mul h0 (sub4 h0 h1 hD m hB a b c d e f g h)
    (cap (by omega) (by positivity) (top4 h0 h1 hD (a := 2) (b := 2) (by norm_num) (by norm_num) (by nlinarith)))).conv (by decide) rfl ?_ ?_ id
  · have : |Spec.fvals m x y| * F.tiny ≤ B * F.tiny := mul_le_mul_of_nonneg_right (hB x y) ht.le
    nlinarith
  · nlinarith

private theorem fsum4 (m : Mat 4 4 (Fp F)) {S S' S'' : Prop} {x y z : Fp F} {X Y Z a b c : ℝ}
    (hx : FBoth (Spec.InRange m B D) S 3 x X (a + 4 * B * F.tiny) (2 * B ^ 3 + 4 * B * F.tiny))
    (hy : FBoth (Spec.InRange m B D) S' 3 y Y (b + 4 * B * F.tiny) (2 * B ^ 3 + 4 * B * F.tiny))
    (hz : FBoth (Spec.InRange m B D) S'' 3 z Z (c + 4 * B * F.tiny) (2 * B ^ 3 + 4 * B * F.tiny)) :
    FBoth (Spec.InRange m B D) ((S ∧ S') ∧ S'') 5 (x - y + z) (X - Y + Z) (a + b + c + 12 * B * F.tiny) (6 * B ^ 3 + 12 * B * F.tiny) ∧
    FBoth (Spec.InRange m B D) ((S ∧ S') ∧ S'') 5 (x - y - z) (X - Y - Z) (a + b + c + 12 * B * F.tiny) (6 * B ^ 3 + 12 * B * F.tiny) := by
  have ht := F.tiny_pos
  have hBt2 : B * F.tiny ≤ B ^ 2 * F.tiny := mul_le_mul_of_nonneg_right (by nlinarith) ht.le
  have hB3 : 0 ≤ B ^ 3 := by positivity
  have hBt : 0 ≤ B * F.tiny := by nlinarith
  have hB4 : B ^ 3 ≤ B ^ 4 := pow_le_pow_right₀ h1 (by omega)
  have h := hx.sub h0 hy (cap (by omega) (by positivity) (top4 h0 h1 hD (a := 4) (b := 8) (by norm_num) (by norm_num) (by nlinarith)))
  have c : ∀ H : Spec.InRange m B D, (1 + F.u) ^ max (max 3 3 + 1) 3 * (2 * B ^ 3 + 4 * B * F.tiny + (2 * B ^ 3 + 4 * B * F.tiny) + (2 * B ^ 3 + 4 * B * F.tiny)) ≤ F.maxFinite :=
    cap (by omega) (by positivity) (top4 h0 h1 hD (a := 6) (b := 12) (by norm_num) (by norm_num) (by nlinarith))
  exact ⟨(h.add h0 hz c).conv (by decide) rfl (by linarith) (by linarith) id, (h.sub h0 hz c).conv (by decide) rfl (by linarith) (by linarith) id⟩

set_option maxHeartbeats 1600000 in
/-- The cofactors of a 4x4 matrix. -/
private theorem fcof4 (m : Mat 4 4 (Fp F)) (hB : ∀ i j, |(m.get i j).val| ≤ B) (r c : Fin 4) :
    FBoth (Spec.InRange m B D) (∀ i j, i ≠ c → j ≠ r → (m.get i j).Finite) 5 (m.cof4.get r c) ((Spec.fvals m).adjugate r c)
      (Spec.magAdj (Spec.fvals m) r c + 12 * B * F.tiny) (6 * B ^ 3 + 12 * B * F.tiny) := by
  have T := term4 h0 h1 hD m hB
  have H1 (x y a b c d e f g h x' y' a' b' c' d' e' f' g' h' x'' y'' a'' b'' c'' d'' e'' f'' g'' h'' : Fin 4) :=
    (fsum4 h0 h1 hD m (T x y a b c d e f g h) (T x' y' a' b' c' d' e' f' g' h') (T x'' y'' a'' b'' c'' d'' e'' f'' g'' h'')).1
  have H2 (x y a b c d e f g h x' y' a' b' c' d' e' f' g' h' x'' y'' a'' b'' c'' d'' e'' f'' g'' h'' : Fin 4) :=
    (fsum4 h0 h1 hD m (T x y a b c d e f g h) (T x' y' a' b' c' d' e' f' g' h') (T x'' y'' a'' b'' c'' d'' e'' f'' g'' h'')).2
  obtain ⟨e1, e2, e3, e4, e5, e6, e7, e8, e9, e10, e11, e12⟩ := s4
  rw [cof4, get_ofFn, adj4_entry, Matrix.det_fin_three]
  unfold Spec.magAdj
  rw [mags3]
  fin_cases r <;> fin_cases c
  · exact (H1 1 1 2 2 3 3 2 3 3 2 1 2 2 1 3 3 2 3 3 1 1 3 2 1 3 2 2 2 3 1).conv le_rfl (by simp [e1, e2, e3, e4, e5, e6, e7, e8, e9, e10, e11, e12]; try first | ring1 | (left; ring1))
      (le_of_eq (by simp [e1, e2, e3, e4, e5, e6, e7, e8, e9, e10, e11, e12]; try first | ring1 | (left; ring1))) le_rfl (by
      rintro ⟨⟨⟨_, ⟨_, _⟩, _, _⟩, _, ⟨_, _⟩, _, _⟩, _, ⟨_, _⟩, _, _⟩ i j hi hj
      fin_cases i <;> fin_cases j <;> first | assumption | exact absurd rfl hi | exact absurd rfl hj)
  · exact (H2 0 2 2 1 3 3 2 3 3 1 0 1 2 2 3 3 2 3 3 2 0 3 2 1 3 2 2 2 3 1).conv le_rfl (by simp [e1, e2, e3, e4, e5, e6, e7, e8, e9, e10, e11, e12]; try first | ring1 | (left; ring1))
      (le_of_eq (by simp [e1, e2, e3, e4, e5, e6, e7, e8, e9, e10, e11, e12]; try first | ring1 | (left; ring1))) le_rfl (by
      rintro ⟨⟨⟨_, ⟨_, _⟩, _, _⟩, _, ⟨_, _⟩, _, _⟩, _, ⟨_, _⟩, _, _⟩ i j hi hj
      fin_cases i <;> fin_cases j <;> first | assumption | exact absurd rfl hi | exact absurd rfl hj)
  · exact (H1 3 1 0 2 1 3 0 3 1 2 3 2 0 1 1 3 0 3 1 1 3 3 0 1 1 2 0 2 1 1).conv le_rfl (by simp [e1, e2, e3, e4, e5, e6, e7, e8, e9, e10, e11, e12]; try first | ring1 | (left; ring1))
      (le_of_eq (by simp [e1, e2, e3, e4, e5, e6, e7, e8, e9, e10, e11, e12]; try first | ring1 | (left; ring1))) le_rfl (by
      rintro ⟨⟨⟨_, ⟨_, _⟩, _, _⟩, _, ⟨_, _⟩, _, _⟩, _, ⟨_, _⟩, _, _⟩ i j hi hj
      fin_cases i <;> fin_cases j <;> first | assumption | exact absurd rfl hi | exact absurd rfl hj)
  · exact (H2 2 2 0 1 1 3 0 3 1 1 2 1 0 2 1 3 0 3 1 2 2 3 0 1 1 2 0 2 1 1).conv le_rfl (by simp [e1, e2, e3, e4, e5, e6, e7, e8, e9, e10, e11, e12]; try first | ring1 | (left; ring1))
      (le_of_eq (by simp [e1, e2, e3, e4, e5, e6, e7, e8, e9, e10, e11, e12]; try first | ring1 | (left; ring1))) le_rfl (by
      rintro ⟨⟨⟨_, ⟨_, _⟩, _, _⟩, _, ⟨_, _⟩, _, _⟩, _, ⟨_, _⟩, _, _⟩ i j hi hj
      fin_cases i <;> fin_cases j <;> first | assumption | exact absurd rfl hi | exact absurd rfl hj)
  · exact (H2 1 2 2 0 3 3 2 3 3 0 1 3 2 0 3 2 2 2 3 0 1 0 2 2 3 3 2 3 3 2).conv le_rfl (by simp [e1, e2, e3, e4, e5, e6, e7, e8, e9, e10, e11, e12]; try first | ring1 | (left; ring1))
      (le_of_eq (by simp [e1, e2, e3, e4, e5, e6, e7, e8, e9, e10, e11, e12]; try first | ring1 | (left; ring1))) le_rfl (by
      rintro ⟨⟨⟨_, ⟨_, _⟩, _, _⟩, _, ⟨_, _⟩, _, _⟩, _, ⟨_, _⟩, _, _⟩ i j hi hj
      fin_cases i <;> fin_cases j <;> first | assumption | exact absurd rfl hi | exact absurd rfl hj)
  · exact (H1 0 0 2 2 3 3 2 3 3 2 0 2 2 0 3 3 2 3 3 0 0 3 2 0 3 2 2 2 3 0).conv le_rfl (by simp [e1, e2, e3, e4, e5, e6, e7, e8, e9, e10, e11, e12]; try first | ring1 | (left; ring1))
      (le_of_eq (by simp [e1, e2, e3, e4, e5, e6, e7, e8, e9, e10, e11, e12]; try first | ring1 | (left; ring1))) le_rfl (by
      rintro ⟨⟨⟨_, ⟨_, _⟩, _, _⟩, _, ⟨_, _⟩, _, _⟩, _, ⟨_, _⟩, _, _⟩ i j hi hj
      fin_cases i <;> fin_cases j <;> first | assumption | exact absurd rfl hi | exact absurd rfl hj)
  · exact (H2 3 2 0 0 1 3 0 3 1 0 3 3 0 0 1 2 0 2 1 0 3 0 0 2 1 3 0 3 1 2).conv le_rfl (by simp [e1, e2, e3, e4, e5, e6, e7, e8, e9, e10, e11, e12]; try first | ring1 | (left; ring1))
      (le_of_eq (by simp [e1, e2, e3, e4, e5, e6, e7, e8, e9, e10, e11, e12]; try first | ring1 | (left; ring1))) le_rfl (by
      rintro ⟨⟨⟨_, ⟨_, _⟩, _, _⟩, _, ⟨_, _⟩, _, _⟩, _, ⟨_, _⟩, _, _⟩ i j hi hj
      fin_cases i <;> fin_cases j <;> first | assumption | exact absurd rfl hi | exact absurd rfl hj)
  · exact (H1 2 0 0 2 1 3 0 3 1 2 2 2 0 0 1 3 0 3 1 0 2 3 0 0 1 2 0 2 1 0).conv le_rfl (by simp [e1, e2, e3, e4, e5, e6, e7, e8, e9, e10, e11, e12]; try first | ring1 | (left; ring1))
      (le_of_eq (by simp [e1, e2, e3, e4, e5, e6, e7, e8, e9, e10, e11, e12]; try first | ring1 | (left; ring1))) le_rfl (by
      rintro ⟨⟨⟨_, ⟨_, _⟩, _, _⟩, _, ⟨_, _⟩, _, _⟩, _, ⟨_, _⟩, _, _⟩ i j hi hj
      fin_cases i <;> fin_cases j <;> first | assumption | exact absurd rfl hi | exact absurd rfl hj)
  · exact (H1 1 3 2 0 3 1 2 1 3 0 1 1 2 0 3 3 2 3 3 0 1 0 2 1 3 3 2 3 3 1).conv le_rfl (by simp [e1, e2, e3, e4, e5, e6, e7, e8, e9, e10, e11, e12]; try first | ring1 | (left; ring1))
      (le_of_eq (by simp [e1, e2, e3, e4, e5, e6, e7, e8, e9, e10, e11, e12]; try first | ring1 | (left; ring1))) le_rfl (by
      rintro ⟨⟨⟨_, ⟨_, _⟩, _, _⟩, _, ⟨_, _⟩, _, _⟩, _, ⟨_, _⟩, _, _⟩ i j hi hj
      fin_cases i <;> fin_cases j <;> first | assumption | exact absurd rfl hi | exact absurd rfl hj)
  · exact (H2 0 1 2 0 3 3 2 3 3 0 0 3 2 0 3 1 2 1 3 0 0 0 2 1 3 3 2 3 3 1).conv le_rfl (by simp [e1, e2, e3, e4, e5, e6, e7, e8, e9, e10, e11, e12]; try first | ring1 | (left; ring1))
      (le_of_eq (by simp [e1, e2, e3, e4, e5, e6, e7, e8, e9, e10, e11, e12]; try first | ring1 | (left; ring1))) le_rfl (by
      rintro ⟨⟨⟨_, ⟨_, _⟩, _, _⟩, _, ⟨_, _⟩, _, _⟩, _, ⟨_, _⟩, _, _⟩ i j hi hj
      fin_cases i <;> fin_cases j <;> first | assumption | exact absurd rfl hi | exact absurd rfl hj)
  · exact (H1 3 3 0 0 1 1 0 1 1 0 3 1 0 0 1 3 0 3 1 0 3 0 0 1 1 3 0 3 1 1).conv le_rfl (by simp [e1, e2, e3, e4, e5, e6, e7, e8, e9, e10, e11, e12]; try first | ring1 | (left; ring1))
      (le_of_eq (by simp [e1, e2, e3, e4, e5, e6, e7, e8, e9, e10, e11, e12]; try first | ring1 | (left; ring1))) le_rfl (by
      rintro ⟨⟨⟨_, ⟨_, _⟩, _, _⟩, _, ⟨_, _⟩, _, _⟩, _, ⟨_, _⟩, _, _⟩ i j hi hj
      fin_cases i <;> fin_cases j <;> first | assumption | exact absurd rfl hi | exact absurd rfl hj)
  · exact (H2 2 1 0 0 1 3 0 3 1 0 2 3 0 0 1 1 0 1 1 0 2 0 0 1 1 3 0 3 1 1).conv le_rfl (by simp [e1, e2, e3, e4, e5, e6, e7, e8, e9, e10, e11, e12]; try first | ring1 | (left; ring1))
      (le_of_eq (by simp [e1, e2, e3, e4, e5, e6, e7, e8, e9, e10, e11, e12]; try first | ring1 | (left; ring1))) le_rfl (by
      rintro ⟨⟨⟨_, ⟨_, _⟩, _, _⟩, _, ⟨_, _⟩, _, _⟩, _, ⟨_, _⟩, _, _⟩ i j hi hj
      fin_cases i <;> fin_cases j <;> first | assumption | exact absurd rfl hi | exact absurd rfl hj)
  · exact (H2 1 1 2 0 3 2 2 2 3 0 1 0 2 1 3 2 2 2 3 1 1 2 2 0 3 1 2 1 3 0).conv le_rfl (by simp [e1, e2, e3, e4, e5, e6, e7, e8, e9, e10, e11, e12]; try first | ring1 | (left; ring1))
      (le_of_eq (by simp [e1, e2, e3, e4, e5, e6, e7, e8, e9, e10, e11, e12]; try first | ring1 | (left; ring1))) le_rfl (by
      rintro ⟨⟨⟨_, ⟨_, _⟩, _, _⟩, _, ⟨_, _⟩, _, _⟩, _, ⟨_, _⟩, _, _⟩ i j hi hj
      fin_cases i <;> fin_cases j <;> first | assumption | exact absurd rfl hi | exact absurd rfl hj)
  · exact (H1 0 0 2 1 3 2 2 2 3 1 0 1 2 0 3 2 2 2 3 0 0 2 2 0 3 1 2 1 3 0).conv le_rfl (by simp [e1, e2, e3, e4, e5, e6, e7, e8, e9, e10, e11, e12]; try first | ring1 | (left; ring1))
      (le_of_eq (by simp [e1, e2, e3, e4, e5, e6, e7, e8, e9, e10, e11, e12]; try first | ring1 | (left; ring1))) le_rfl (by
      rintro ⟨⟨⟨_, ⟨_, _⟩, _, _⟩, _, ⟨_, _⟩, _, _⟩, _, ⟨_, _⟩, _, _⟩ i j hi hj
      fin_cases i <;> fin_cases j <;> first | assumption | exact absurd rfl hi | exact absurd rfl hj)
  · exact (H2 3 1 0 0 1 2 0 2 1 0 3 0 0 1 1 2 0 2 1 1 3 2 0 0 1 1 0 1 1 0).conv le_rfl (by simp [e1, e2, e3, e4, e5, e6, e7, e8, e9, e10, e11, e12]; try first | ring1 | (left; ring1))
      (le_of_eq (by simp [e1, e2, e3, e4, e5, e6, e7, e8, e9, e10, e11, e12]; try first | ring1 | (left; ring1))) le_rfl (by
      rintro ⟨⟨⟨_, ⟨_, _⟩, _, _⟩, _, ⟨_, _⟩, _, _⟩, _, ⟨_, _⟩, _, _⟩ i j hi hj
      fin_cases i <;> fin_cases j <;> first | assumption | exact absurd rfl hi | exact absurd rfl hj)
  · exact (H1 2 0 0 1 1 2 0 2 1 1 2 1 0 0 1 2 0 2 1 0 2 2 0 0 1 1 0 1 1 0).conv le_rfl (by simp [e1, e2, e3, e4, e5, e6, e7, e8, e9, e10, e11, e12]; try first | ring1 | (left; ring1))
      (le_of_eq (by simp [e1, e2, e3, e4, e5, e6, e7, e8, e9, e10, e11, e12]; try first | ring1 | (left; ring1))) le_rfl (by
      rintro ⟨⟨⟨_, ⟨_, _⟩, _, _⟩, _, ⟨_, _⟩, _, _⟩, _, ⟨_, _⟩, _, _⟩ i j hi hj
      fin_cases i <;> fin_cases j <;> first | assumption | exact absurd rfl hi | exact absurd rfl hj)

/-- The determinant of a 4x4 matrix from the first row and the cofactors. -/
private theorem four (m : Mat 4 4 (Fp F)) (hB : ∀ i j, |(m.get i j).val| ≤ B) :
    FBoth (Spec.InRange m B D) (∀ i j, (m.get i j).Finite) 9
      (m.get 0 0 * m.cof4.get 0 0 + m.get 0 1 * m.cof4.get 1 0 + m.get 0 2 * m.cof4.get 2 0 + m.get 0 3 * m.cof4.get 3 0)
      (Spec.fvals m).det (Spec.mags 4 (Spec.fvals m) + Spec.pad F 4 B) (24 * B ^ 4 + Spec.pad F 4 B) := by
  have ht := F.tiny_pos
  have hB4 : 0 ≤ B ^ 4 := by positivity
  have hBt : 0 ≤ B ^ 2 * F.tiny := by positivity
  have hBt1 : F.tiny ≤ B * F.tiny := by nlinarith
  have hBt2 : B * F.tiny ≤ B ^ 2 * F.tiny := by nlinarith
  have T (j : Fin 4) : FBoth (Spec.InRange m B D) ((m.get 0 j).Finite ∧ ∀ i j', i ≠ 0 → j' ≠ j → (m.get i j').Finite) 6 (m.get 0 j * m.cof4.get j 0)
      (Spec.fvals m 0 j * (Spec.fvals m).adjugate j 0) (|Spec.fvals m 0 j| * Spec.magAdj (Spec.fvals m) j 0 + 18 * B ^ 2 * F.tiny)
      (6 * B ^ 4 + 18 * B ^ 2 * F.tiny) := by
    refine ((E (d := D) m hB 0 j).mul h0 (fcof4 h0 h1 hD m hB j 0)
      (cap (by omega) (by positivity) (top4 h0 h1 hD (a := 6) (b := 12) (by norm_num) (by norm_num) (by nlinarith)))).conv (by decide) rfl ?_ ?_ id
    · have : |Spec.fvals m 0 j| * (B * F.tiny) ≤ B * (B * F.tiny) := mul_le_mul_of_nonneg_right (hB 0 j) (by nlinarith)
      nlinarith
    · nlinarith
  refine ((((T 0).add h0 (T 1) (cap (by omega) (by positivity) (top4 h0 h1 hD (a := 12) (b := 36) (by norm_num) (by norm_num) (by linarith)))).add h0 (T 2)
    (cap (by omega) (by positivity) (top4 h0 h1 hD (a := 18) (b := 54) (by norm_num) (by norm_num) (by linarith)))).add h0 (T 3)
    (cap (by omega) (by positivity) (top4 h0 h1 hD (a := 24) (b := 72) (by norm_num) (by norm_num) (by linarith)))).conv (by decide) ?_ ?_ ?_ ?_
  · rw [Matrix.det_eq_sum_mul_adjugate_row _ 0, Fin.sum_univ_four]
  · rw [mags_row, Fin.sum_univ_four, pad4]; linarith
  · rw [pad4]; linarith
  · rintro ⟨⟨⟨⟨a, a'⟩, b, b'⟩, c, c'⟩, d, d'⟩ i j
    by_cases hi : i = 0
    · subst hi; fin_cases j <;> assumption
    · by_cases hj : j = 0
      · exact b' i j hi (by rw [hj]; decide)
      · exact a' i j hi hj
end four

/-! ## `det` -/

private theorem det4_both (h0 : 0 < F.emax) {B : ℝ} (h1 : 1 ≤ B) (cfg : Cfg) (m : Mat 4 4 (Fp F)) (hB : ∀ i j, |(m.get i j).val| ≤ B) :
    ∃ d, m.det4 cfg = .ok d ∧ FBoth (Spec.InRange m B 26) (∀ i j, (m.get i j).Finite) 26 d (Spec.fvals m).det
      (Spec.mags 4 (Spec.fvals m) + Spec.pad F 4 B) (24 * B ^ 4 + Spec.pad F 4 B) := by
  have g0 : 0 < 4 := by omega
  have g1 : 1 < 4 := by omega
  have g2 : 2 < 4 := by omega
  have g3 : 3 < 4 := by omega
  have ht := F.tiny_pos
  have hD : 9 ≤ 26 := by omega
  have hB4 : 0 ≤ B ^ 4 := by positivity
  have hB2 : B ^ 2 ≤ B ^ 4 := pow_le_pow_right₀ h1 (by omega)
  have hB3 : B ^ 3 ≤ B ^ 4 := pow_le_pow_right₀ h1 (by omega)
  have hBt1 : F.tiny ≤ B * F.tiny := by nlinarith
  have hBt2 : B * F.tiny ≤ B ^ 2 * F.tiny := mul_le_mul_of_nonneg_right (by nlinarith) ht.le
  have hBt : 0 ≤ B ^ 2 * F.tiny := by positivity
  -- the products of four
  have T (a b c d e f g h : Fin 4) : FBoth (Spec.InRange m B 26) ((((m.get a b).Finite ∧ (m.get c d).Finite) ∧ (m.get e f).Finite) ∧ (m.get g h).Finite) 3
      (m.get a b * m.get c d * m.get e f * m.get g h) (Spec.fvals m a b * Spec.fvals m c d * Spec.fvals m e f * Spec.fvals m g h)
      (|Spec.fvals m a b| * |Spec.fvals m c d| * |Spec.fvals m e f| * |Spec.fvals m g h| + 3 * B ^ 2 * F.tiny) (B ^ 4 + 3 * B ^ 2 * F.tiny) := by
    have Q1 := (E (d := 26) m hB a b).mul h0 (E m hB c d)
      (cap (by omega) (by positivity) (top4 h0 h1 hD (a := 1) (b := 0) (by norm_num) (by norm_num) (by nlinarith)))
    have Q2 := Q1.mul h0 (E m hB e f)
      (cap (by omega) (by positivity) (top4 h0 h1 hD (a := 1) (b := 1) (by norm_num) (by norm_num) (by nlinarith)))
    have Q3 := Q2.mul h0 (E m hB g h)
      (cap (by omega) (by positivity) (top4 h0 h1 hD (a := 1) (b := 2) (by norm_num) (by norm_num) (by nlinarith)))
    refine Q3.conv (by decide) rfl ?_ ?_ id
    · have b1 : |Spec.fvals m e f| ≤ B := hB e f
      have b2 : |Spec.fvals m g h| ≤ B := hB g h
      have b3 : |Spec.fvals m e f| * |Spec.fvals m g h| ≤ B * B := mul_le_mul b1 b2 (abs_nonneg _) (by linarith)
      have b4 := mul_le_mul_of_nonneg_right b2 ht.le
      have b5 := mul_le_mul_of_nonneg_right b3 ht.le
      nlinarith
    · nlinarith
  -- adding one more product
  have A {S S' : Prop} {n : Nat} {x y : Fp F} {X Y a b : ℝ} (j : Nat) (hj : j + 1 ≤ 24) (hn : n + 1 ≤ 26)
      (h : FBoth (Spec.InRange m B 26) S n x X a (j * (B ^ 4 + 3 * B ^ 2 * F.tiny))) (hn3 : 3 ≤ n)
      (h' : FBoth (Spec.InRange m B 26) S' 3 y Y b (B ^ 4 + 3 * B ^ 2 * F.tiny)) :
      FBoth (Spec.InRange m B 26) (S ∧ S') (n + 1) (x + y) (X + Y) (a + b) ((j + 1 : Nat) * (B ^ 4 + 3 * B ^ 2 * F.tiny)) ∧
      FBoth (Spec.InRange m B 26) (S ∧ S') (n + 1) (x - y) (X - Y) (a + b) ((j + 1 : Nat) * (B ^ 4 + 3 * B ^ 2 * F.tiny)) := by
    have hj' : ((j : ℝ) + 1) ≤ 24 := by exact_mod_cast hj
    have c : ∀ H : Spec.InRange m B 26, (1 + F.u) ^ max n 3 * (j * (B ^ 4 + 3 * B ^ 2 * F.tiny) + (B ^ 4 + 3 * B ^ 2 * F.tiny)) ≤ F.maxFinite :=
      cap (by omega) (by positivity) (top4 h0 h1 hD (a := j + 1) (b := 3 * (j + 1)) hj' (by linarith) (by linarith))
    have e : ((j + 1 : Nat) : ℝ) * (B ^ 4 + 3 * B ^ 2 * F.tiny) = j * (B ^ 4 + 3 * B ^ 2 * F.tiny) + (B ^ 4 + 3 * B ^ 2 * F.tiny) := by push_cast; ring
    rw [e]
    exact ⟨(h.add h0 h' c).conv (by omega) rfl le_rfl le_rfl id, (h.sub h0 h' c).conv (by omega) rfl le_rfl le_rfl id⟩
  refine ⟨_, by simp only [det4, atGet_lt cfg m, g0, g1, g2, g3, bind_ok, pure_ok]; rfl, ?_⟩
  have s1 := (T 0 3 1 2 2 1 3 0).conv (k := 3) (M' := ((1 : Nat) : ℝ) * (B ^ 4 + 3 * B ^ 2 * F.tiny)) le_rfl rfl le_rfl (by push_cast; linarith) id
  have s2 := (A 1 (by omega) (by omega) s1 (by omega) (T 0 2 1 3 2 1 3 0)).2
  have s3 := (A 2 (by omega) (by omega) s2 (by omega) (T 0 3 1 1 2 2 3 0)).2
  have s4 := (A 3 (by omega) (by omega) s3 (by omega) (T 0 1 1 3 2 2 3 0)).1
  have s5 := (A 4 (by omega) (by omega) s4 (by omega) (T 0 2 1 1 2 3 3 0)).1
  have s6 := (A 5 (by omega) (by omega) s5 (by omega) (T 0 1 1 2 2 3 3 0)).2
  have s7 := (A 6 (by omega) (by omega) s6 (by omega) (T 0 3 1 2 2 0 3 1)).2
  have s8 := (A 7 (by omega) (by omega) s7 (by omega) (T 0 2 1 3 2 0 3 1)).1
  have s9 := (A 8 (by omega) (by omega) s8 (by omega) (T 0 3 1 0 2 2 3 1)).1
  have s10 := (A 9 (by omega) (by omega) s9 (by omega) (T 0 0 1 3 2 2 3 1)).2
  have s11 := (A 10 (by omega) (by omega) s10 (by omega) (T 0 2 1 0 2 3 3 1)).2
  have s12 := (A 11 (by omega) (by omega) s11 (by omega) (T 0 0 1 2 2 3 3 1)).1
  have s13 := (A 12 (by omega) (by omega) s12 (by omega) (T 0 3 1 1 2 0 3 2)).1
  have s14 := (A 13 (by omega) (by omega) s13 (by omega) (T 0 1 1 3 2 0 3 2)).2
  have s15 := (A 14 (by omega) (by omega) s14 (by omega) (T 0 3 1 0 2 1 3 2)).2
  have s16 := (A 15 (by omega) (by omega) s15 (by omega) (T 0 0 1 3 2 1 3 2)).1
  have s17 := (A 16 (by omega) (by omega) s16 (by omega) (T 0 1 1 0 2 3 3 2)).1
  have s18 := (A 17 (by omega) (by omega) s17 (by omega) (T 0 0 1 1 2 3 3 2)).2
  have s19 := (A 18 (by omega) (by omega) s18 (by omega) (T 0 2 1 1 2 0 3 3)).2
  have s20 := (A 19 (by omega) (by omega) s19 (by omega) (T 0 1 1 2 2 0 3 3)).1
  have s21 := (A 20 (by omega) (by omega) s20 (by omega) (T 0 2 1 0 2 1 3 3)).1
  have s22 := (A 21 (by omega) (by omega) s21 (by omega) (T 0 0 1 2 2 1 3 3)).2
  have s23 := (A 22 (by omega) (by omega) s22 (by omega) (T 0 1 1 0 2 2 3 3)).2
  have s24 := (A 23 (by omega) (by omega) s23 (by omega) (T 0 0 1 1 2 2 3 3)).1
  refine s24.conv (by omega) ?_ (le_of_eq ?_) (le_of_eq ?_) ?_
  · rw [det_fin_four]
    ring
  · rw [mags4, pad4]
    ring
  · rw [pad4]; push_cast; ring
  · intro hS
    obtain ⟨⟨⟨⟨⟨⟨⟨⟨⟨⟨⟨⟨⟨⟨⟨⟨⟨⟨⟨⟨⟨⟨⟨t1, t2⟩, t3⟩, t4⟩, t5⟩, t6⟩, t7⟩, t8⟩, t9⟩, t10⟩, t11⟩, t12⟩, t13⟩, t14⟩, t15⟩, t16⟩, t17⟩, t18⟩, t19⟩, t20⟩, t21⟩, t22⟩, t23⟩, t24⟩ := hS
    intro i j
    fin_cases i <;> fin_cases j
    · exact t24.1.1.1
    · exact t23.1.1.1
    · exact t21.1.1.1
    · exact t15.1.1.1
    · exact t23.1.1.2
    · exact t24.1.1.2
    · exact t22.1.1.2
    · exact t16.1.1.2
    · exact t20.1.2
    · exact t22.1.2
    · exact t24.1.2
    · exact t18.1.2
    · exact t6.2
    · exact t12.2
    · exact t18.2
    · exact t24.2

private theorem det_both (h0 : 0 < F.emax) {B : ℝ} (h1 : 1 ≤ B) (cfg : Cfg) {n : Nat} (hn : 1 ≤ n) (hn' : n ≤ 4) (m : Mat n n (Fp F))
    (hB : ∀ i j, |(m.get i j).val| ≤ B) :
    ∃ d, m.det cfg = .ok d ∧ FBoth (Spec.InRange m B (Spec.detDepth n)) (∀ i j, (m.get i j).Finite) (Spec.detDepth n) d (Spec.fvals m).det
      (Spec.mags n (Spec.fvals m) + Spec.pad F n B) (n.factorial * B ^ n + Spec.pad F n B) := by
  match n, hn, hn' with
  | 1, _, _ =>
    refine ⟨m.get 0 0, ?_, ?_⟩
    · rw [det, det1, rawGet_lt m (by omega)]; rfl
    · refine (E (d := 0) m hB 0 0).conv le_rfl ?_ (le_of_eq ?_) (le_of_eq ?_) ?_
      · simp [Matrix.det_unique]
      · simp [Spec.mags, Spec.pad]
      · simp [Spec.pad]
      · intro h i j; fin_cases i; fin_cases j; exact h
  | 2, _, _ =>
    refine ⟨m.get 0 0 * m.get 1 1 - m.get 0 1 * m.get 1 0, by simp [det, det2], ?_⟩
    have := two h0 h1 m hB
    exact this.conv le_rfl rfl le_rfl (by norm_num [Nat.factorial]) id
  | 3, _, _ =>
    refine ⟨m.get 0 0 * m.cof3.get 0 0 + m.get 0 1 * m.cof3.get 1 0 + m.get 0 2 * m.cof3.get 2 0, ?_, ?_⟩
    · simp only [det, det3, atGet_lt cfg m (show 0 < 3 by omega), atGet_lt cfg m (show 1 < 3 by omega),
        atGet_lt cfg m (show 2 < 3 by omega), show 0 < 3 from by omega, show 1 < 3 from by omega,
        show 2 < 3 from by omega, bind_ok, pure_ok]
      simp only [cof3, get_ofFn]
      rfl
    · exact (three h0 h1 (D := 5) le_rfl m hB).conv le_rfl rfl le_rfl (by rw [f3]) id
  | 4, _, _ =>
    obtain ⟨d, h, h'⟩ := det4_both h0 h1 cfg m hB
    exact ⟨d, h, h'.conv le_rfl rfl le_rfl (by rw [f4]) id⟩

/-- **C110** `det()` in IEEE arithmetic. A finite result means that every entry was finite, and the result is off by at most `( 1 + u )^k - 1` times the sum of
the magnitudes of the products plus the underflow term. Finite entries of magnitude at most `B` with `n! B^n` (and a little room) below the largest number have a
finite computed determinant. -/
theorem C110_det (h0 : 0 < F.emax) (cfg : Cfg) {n : Nat} (hn : 1 ≤ n) (hn' : n ≤ 4) (m : Mat n n (Fp F)) {B : ℝ} (h1 : 1 ≤ B)
    (hB : ∀ i j, |(m.get i j).val| ≤ B) :
    ∃ d, m.det cfg = .ok d ∧
      (d.Finite → (∀ i j, (m.get i j).Finite) ∧
        |d.val - (Spec.fvals m).det| ≤ ((1 + F.u) ^ Spec.detDepth n - 1) * (Spec.mags n (Spec.fvals m) + Spec.pad F n B)) ∧
      (Spec.InRange m B (Spec.detDepth n) → d.Finite) := by
  obtain ⟨d, h, h2⟩ := det_both h0 h1 cfg hn hn' m hB
  exact ⟨d, h, fun hd => ⟨(h2.approx hd).1, (h2.approx hd).2.err⟩, fun hr => (h2.bound hr).finite⟩

/-! ## `inverse` -/

/-- The bound of the error of the determinant computed by `inverse`. -/
noncomputable def Spec.fdetErr (F : Format) {K : Nat} (A : Matrix (Fin (K + 1)) (Fin (K + 1)) ℝ) (B : ℝ) : ℝ :=
  ((1 + F.u) ^ Spec.invDepth (K + 1) - 1) * (Spec.mags (K + 1) A + Spec.pad F (K + 1) B)

/-- The magnitude of an entry of the inverse, for a determinant of magnitude `d`. -/
noncomputable def Spec.fadjMag (F : Format) {K : Nat} (A : Matrix (Fin (K + 1)) (Fin (K + 1)) ℝ) (B d : ℝ) (i j : Fin (K + 1)) : ℝ :=
  (Spec.magAdj A i j + Spec.pad F K B) * (1 / d + F.tiny) + F.tiny

/-- The bound of the error of an entry of the inverse, for a determinant of magnitude `d`. -/
noncomputable def Spec.fadjErr (F : Format) {K : Nat} (A : Matrix (Fin (K + 1)) (Fin (K + 1)) ℝ) (B d : ℝ) (i j : Fin (K + 1)) : ℝ :=
  ((1 + F.u) ^ (Spec.adjDepth (K + 1) + 2) - 1) * Spec.fadjMag F A B d i j

private theorem inverse_both (h0 : 0 < F.emax) {B : ℝ} (h1 : 1 ≤ B) (cfg : Cfg) {K : Nat} (hK : 1 ≤ K) (hK' : K ≤ 3)
    (m inv : Mat (K + 1) (K + 1) (Fp F)) (tol : Fp F) (hB : ∀ i j, |(m.get i j).val| ≤ B) :
    ∃ (d : Fp F) (X Y : Mat (K + 1) (K + 1) (Fp F)) (b : Bool),
      m.inverse cfg inv tol = .ok (b, if b then Mat.ofFn fun r c => X.get r c * (1 / d) else Y) ∧
      (b = true ↔ if K + 1 = 2 then ¬ CMath.fabs d < tol else ¬ CMath.fabs d ≤ tol) ∧
      FBoth (Spec.InRange m B (Spec.invDepth (K + 1))) (∀ i j, (m.get i j).Finite) (Spec.invDepth (K + 1)) d (Spec.fvals m).det
        (Spec.mags (K + 1) (Spec.fvals m) + Spec.pad F (K + 1) B) ((K + 1).factorial * B ^ (K + 1) + Spec.pad F (K + 1) B) ∧
      ∀ r c, FBoth (Spec.InRange m B (Spec.invDepth (K + 1))) True (Spec.adjDepth (K + 1)) (X.get r c) ((Spec.fvals m).adjugate r c)
        (Spec.magAdj (Spec.fvals m) r c + Spec.pad F K B) (K.factorial * B ^ K + Spec.pad F K B) := by
  match K, hK, hK', m, inv, hB with
  | 1, _, _, m, inv, hB =>
    refine ⟨m.get 0 0 * m.get 1 1 - m.get 0 1 * m.get 1 0, m.cof2, inv,
      !(@decide (CMath.fabs (m.get 0 0 * m.get 1 1 - m.get 0 1 * m.get 1 0) < tol) (inferInstance)), ?_, ?_, ?_, ?_⟩
    · rw [inverse, inverse2_struct]
      by_cases h : CMath.fabs (m.get 0 0 * m.get 1 1 - m.get 0 1 * m.get 1 0) < tol
      · simp [h]
      · simp [h]
    · simp only [Bool.not_eq_true', decide_eq_false_iff_not, Nat.reduceAdd, if_true]
    · exact (two h0 h1 m hB).conv le_rfl rfl le_rfl (by norm_num [Nat.factorial]) id
    · intro r c
      have e := E (d := 2) m hB
      have hm : ∀ i j : Fin 2, Spec.magAdj (Spec.fvals m) i j = |Spec.fvals m (j.succAbove 0) (i.succAbove 0)| := by
        intro i j
        simp [Spec.magAdj, Spec.mags]
      have hp : Spec.pad F 1 B = 0 := by simp [Spec.pad]
      rw [cof2, get_ofFn, Matrix.adjugate_fin_two, hm, hp, Nat.factorial_one, Nat.cast_one, one_mul, pow_one, add_zero, add_zero]
      fin_cases r <;> fin_cases c
      · exact (e 1 1).conv le_rfl rfl le_rfl le_rfl fun _ => trivial
      · exact (e 0 1).neg.conv le_rfl rfl le_rfl le_rfl fun _ => trivial
      · exact (e 1 0).neg.conv le_rfl rfl le_rfl le_rfl fun _ => trivial
      · exact (e 0 0).conv le_rfl rfl le_rfl le_rfl fun _ => trivial
  | 2, _, _, m, inv, hB =>
    refine ⟨m.get 0 0 * m.cof3.get 0 0 + m.get 0 1 * m.cof3.get 1 0 + m.get 0 2 * m.cof3.get 2 0, m.cof3, m.cof3,
      !(@decide (CMath.fabs (m.get 0 0 * m.cof3.get 0 0 + m.get 0 1 * m.cof3.get 1 0 + m.get 0 2 * m.cof3.get 2 0) ≤ tol) (inferInstance)), ?_, ?_, ?_, ?_⟩
    · rw [inverse, inverse3_struct]
      by_cases h : CMath.fabs (m.get 0 0 * m.cof3.get 0 0 + m.get 0 1 * m.cof3.get 1 0 + m.get 0 2 * m.cof3.get 2 0) ≤ tol
      · simp [h]
      · simp [h]
    · simp only [Bool.not_eq_true', decide_eq_false_iff_not, Nat.reduceAdd, Nat.reduceEqDiff, if_false]
    · exact (three h0 h1 (D := 5) le_rfl m hB).conv le_rfl rfl le_rfl (by rw [f3]) id
    · intro r c
      exact (fcof3 h0 h1 (D := 5) le_rfl m hB r c).conv le_rfl rfl (by rw [pad2]) (by rw [pad2]; norm_num [Nat.factorial]) fun _ => trivial
  | 3, _, _, m, inv, hB =>
    refine ⟨m.get 0 0 * m.cof4.get 0 0 + m.get 0 1 * m.cof4.get 1 0 + m.get 0 2 * m.cof4.get 2 0 + m.get 0 3 * m.cof4.get 3 0, m.cof4, m.cof4,
      !(@decide (CMath.fabs (m.get 0 0 * m.cof4.get 0 0 + m.get 0 1 * m.cof4.get 1 0 + m.get 0 2 * m.cof4.get 2 0 + m.get 0 3 * m.cof4.get 3 0) ≤ tol)
        (inferInstance)), ?_, ?_, ?_, ?_⟩
    · rw [inverse, inverse4_struct]
      by_cases h : CMath.fabs (m.get 0 0 * m.cof4.get 0 0 + m.get 0 1 * m.cof4.get 1 0 + m.get 0 2 * m.cof4.get 2 0 + m.get 0 3 * m.cof4.get 3 0) ≤ tol
      · simp [h]
      · simp [h]
    · simp only [Bool.not_eq_true', decide_eq_false_iff_not, Nat.reduceAdd, Nat.reduceEqDiff, if_false]
    · exact (four h0 h1 (D := 9) le_rfl m hB).conv le_rfl rfl le_rfl (by rw [f4]) id
    · intro r c
      exact (fcof4 h0 h1 (D := 9) le_rfl m hB r c).conv le_rfl rfl (by rw [pad3]) (by rw [pad3, f3]) fun _ => trivial

private theorem fabs_lt {d t : Fp F} (hd : d.Finite) (ht : t.Finite) : CMath.fabs d < t ↔ |d.val| < t.val := by
  obtain ⟨s, n, hn, rfl⟩ := Fp.finite_cases hd
  obtain ⟨s', n', hn', rfl⟩ := Fp.finite_cases ht
  have e : |(Fp.fin s n hn).val| = n := by cases s <;> simp [abs_of_nonneg hn.1]
  rw [e]
  constructor
  · rintro ⟨x, hx, y, hy, hxy⟩
    cases hx; cases hy
    exact EReal.coe_lt_coe_iff.1 hxy
  · intro h
    exact ⟨_, rfl, _, rfl, EReal.coe_lt_coe_iff.2 h⟩

private theorem fabs_le {d t : Fp F} (hd : d.Finite) (ht : t.Finite) : CMath.fabs d ≤ t ↔ |d.val| ≤ t.val := by
  obtain ⟨s, n, hn, rfl⟩ := Fp.finite_cases hd
  obtain ⟨s', n', hn', rfl⟩ := Fp.finite_cases ht
  have e : |(Fp.fin s n hn).val| = n := by cases s <;> simp [abs_of_nonneg hn.1]
  rw [e]
  constructor
  · rintro ⟨x, hx, y, hy, hxy⟩
    cases hx; cases hy
    exact EReal.coe_le_coe_iff.1 hxy
  · intro h
    exact ⟨_, rfl, _, rfl, EReal.coe_le_coe_iff.2 h⟩

/-- An infinite or NaN number is not below a finite one. -/
private theorem fabs_not_lt {d t : Fp F} (hd : ¬ d.Finite) (ht : t.Finite) : ¬ CMath.fabs d < t ∧ ¬ CMath.fabs d ≤ t := by
  obtain ⟨s', n', hn', rfl⟩ := Fp.finite_cases ht
  cases d with
  | fin s m h => exact absurd trivial hd
  | nan =>
    constructor
    · rintro ⟨x, hx, -⟩
      cases hx
    · rintro ⟨x, hx, -⟩
      cases hx
  | inf s =>
    constructor
    · rintro ⟨x, hx, y, hy, hxy⟩
      cases hx; cases hy
      simp at hxy
    · rintro ⟨x, hx, y, hy, hxy⟩
      cases hx; cases hy
      simp at hxy

/-- Multiplying by the reciprocal of an infinity or NaN. -/
private theorem mul_recip {d : Fp F} (h0 : 0 < F.emax) (hd : ¬ d.Finite) (x : Fp F) : x * (1 / d) = .nan ∨ Spec.IsZero (x * (1 / d)) := by
  obtain ⟨s1, n1, hn1, e1⟩ := Fp.finite_cases (Fp.one_fin (F := F) h0).1
  cases d with
  | fin s m h => exact absurd trivial hd
  | nan =>
    left
    rw [e1]
    cases x <;> rfl
  | inf s =>
    have e2 : (1 / .inf s : Fp F) = .fin (s1 ^^ s) 0 mag_zero := by rw [e1]; rfl
    rw [e2]
    cases x with
    | nan => left; rfl
    | inf t => left; exact if_pos rfl
    | fin t m h =>
      right
      have e3 : (Fp.fin t m h * .fin (s1 ^^ s) 0 mag_zero : Fp F) = Fp.round (t ^^ (s1 ^^ s)) (m * 0) := rfl
      rw [e3, mul_zero, Fp.round_eq le_rfl (by rw [rnd_zero]; exact maxFinite_pos.le)]
      exact ⟨trivial, by simp⟩

/-- A finite reciprocal of a finite number. -/
private theorem recip_finite (h0 : 0 < F.emax) {d : Fp F} (hd : d.Finite) (h : (1 / d).Finite) : d.val ≠ 0 ∧ (1 / d).val = F.rnd (1 / d.val) := by
  obtain ⟨s, n, hn, rfl⟩ := Fp.finite_cases hd
  obtain ⟨s1, n1, hn1, e1⟩ := Fp.finite_cases (Fp.one_fin (F := F) h0).1
  have v1 : (if s1 then -n1 else n1) = 1 := by rw [← Fp.val_fin (h := hn1), ← e1]; exact (Fp.one_fin h0).2
  have hs1 : s1 = false := by
    cases s1
    · rfl
    · simp at v1; have := hn1.1; linarith
  subst hs1
  have hn1' : n1 = 1 := by simpa using v1
  subst hn1'
  by_cases hz : n = 0
  · subst hz
    rw [e1] at h
    have : (Fp.fin false 1 hn1 / Fp.fin s 0 hn : Fp F) = .inf (false ^^ s) := by
      show (if (0 : ℝ) = 0 then (if (1 : ℝ) = 0 then Fp.nan else Fp.inf (false ^^ s)) else _) = _
      rw [if_pos rfl, if_neg one_ne_zero]
    rw [this] at h
    exact absurd h id
  · have hv : (Fp.fin s n hn).val ≠ 0 := by cases s <;> simp [hz]
    have hn0 : 0 < n := lt_of_le_of_ne hn.1 (Ne.symm hz)
    refine ⟨hv, ?_⟩
    have e : (1 / Fp.fin s n hn : Fp F) = Fp.round (false ^^ s) |1 / (Fp.fin s n hn).val| := by
      rw [e1]
      show (if n = 0 then _ else Fp.round (false ^^ s) (1 / n)) = _
      rw [if_neg hz]
      congr 1
      cases s <;> simp [abs_of_pos hn0]
    rw [e] at h ⊢
    refine Fp.round_finite h fun _ => ?_
    cases s
    · simp [hn0.le]
    · simp [hn0]

/-- **C110** `inverse( inverse_, tolerance )` in IEEE arithmetic. Let `d` be the determinant the function computes. If `d` is infinite or NaN, the function returns
`true` with a matrix of zeros and NaNs. Otherwise all entries were finite, `d` is within `fdetErr` of the determinant of the given values, it alone decides the
flag, and every finite entry returned with `true` is that of the adjugate divided by `d`, up to `fadjErr`. -/
theorem C110_inverse (h0 : 0 < F.emax) (cfg : Cfg) {K : Nat} (hK : 1 ≤ K) (hK' : K ≤ 3) (m inv : Mat (K + 1) (K + 1) (Fp F)) (tol : Fp F) (htol : tol.Finite)
    {B : ℝ} (h1 : 1 ≤ B) (hB : ∀ i j, |(m.get i j).val| ≤ B) :
    ∃ (d : Fp F) (b : Bool) (r : Mat (K + 1) (K + 1) (Fp F)), m.inverse cfg inv tol = .ok (b, r) ∧
      (¬ d.Finite → b = true ∧ ∀ i j, r.get i j = .nan ∨ Spec.IsZero (r.get i j)) ∧
      (d.Finite → (∀ i j, (m.get i j).Finite) ∧ (b = true ↔ if K + 1 = 2 then tol.val ≤ |d.val| else tol.val < |d.val|) ∧
        |d.val - (Spec.fvals m).det| ≤ Spec.fdetErr F (Spec.fvals m) B ∧
        (b = true → ∀ i j, (r.get i j).Finite → d.val ≠ 0 ∧
          |(r.get i j).val - (Spec.fvals m).adjugate i j / d.val| ≤ Spec.fadjErr F (Spec.fvals m) B |d.val| i j)) ∧
      (Spec.InRange m B (Spec.invDepth (K + 1)) → d.Finite ∧
        (b = true → d.val ≠ 0 → 1 / |d.val| ≤ F.maxFinite → ∀ i j,
          (1 + F.u) ^ (Spec.adjDepth (K + 1) + 1) * Spec.fadjMag F (Spec.fvals m) B |d.val| i j ≤ F.maxFinite → (r.get i j).Finite)) := by
  obtain ⟨d, X, Y, b, g1, g2, g3, g4⟩ := inverse_both h0 h1 cfg hK hK' m inv tol hB
  have hu := F.u_pos
  have ht := F.tiny_pos
  refine ⟨d, b, _, g1, ?_, ?_, ?_⟩
  · intro hd
    have hb : b = true := by
      rw [g2]
      obtain ⟨a1, a2⟩ := fabs_not_lt hd htol
      split_ifs
      · exact a1
      · exact a2
    refine ⟨hb, fun i j => ?_⟩
    rw [if_pos hb, get_ofFn]
    exact mul_recip h0 hd _
  · intro hd
    obtain ⟨a1, a2⟩ := g3.approx hd
    refine ⟨a1, ?_, a2.err, ?_⟩
    · rw [g2, fabs_lt hd htol, fabs_le hd htol, not_lt, not_le]
    · intro hb i j hr
      rw [if_pos hb, get_ofFn] at hr ⊢
      obtain ⟨f1, f2, f3⟩ := Fp.mul_finite hr
      obtain ⟨z, e⟩ := recip_finite h0 hd f2
      refine ⟨z, ?_⟩
      have hinv : Approx F.u 1 ((1 / d : Fp F)).val (1 / d.val) (1 / |d.val| + F.tiny) := by
        have ha : |1 / d.val| = 1 / |d.val| := by rw [abs_div, abs_one]
        refine ⟨?_, by rw [ha]; linarith⟩
        rw [pow_one, add_sub_cancel_left, e, ← ha]
        exact rnd_err_tiny _
      have := (Approx.mul_pad hu.le ht.le ((g4 i j).approx f1).2 hinv (r := (X.get i j * (1 / d)).val) (by rw [f3]; exact rnd_err_tiny _)).err
      rw [mul_one_div] at this
      exact this
  · intro hr
    refine ⟨(g3.bound hr).finite, fun hb hz hmax i j hcap => ?_⟩
    rw [if_pos hb, get_ofFn]
    have hd := (g3.bound hr).finite
    have f1 := ((g4 i j).bound hr).finite
    obtain ⟨o1, o2⟩ := Fp.one_fin (F := F) h0
    have ha : |1 / d.val| = 1 / |d.val| := by rw [abs_div, abs_one]
    obtain ⟨f2, e2⟩ := Fp.div_fin h0 o1 hd hz (by rw [o2, ha]; exact hmax)
    rw [o2] at e2
    refine (Fp.mul_fin h0 f1 f2 (le_trans ?_ hcap)).1
    have b1 := ((g4 i j).approx f1).2.bound
    have b2 : |(1 / d : Fp F).val| ≤ (1 + F.u) * (1 / |d.val| + F.tiny) := by
      rw [e2]
      have := rnd_err_tiny (F := F) (1 / d.val)
      have h3 := abs_add_le (F.rnd (1 / d.val) - 1 / d.val) (1 / d.val)
      rw [sub_add_cancel] at h3
      rw [ha] at this h3
      nlinarith
    have hm0 := ((g4 i j).approx f1).2.mag_nonneg
    have hinv0 : 0 ≤ 1 / |d.val| := by positivity
    rw [abs_mul]
    calc _ ≤ ((1 + F.u) ^ Spec.adjDepth (K + 1) * (Spec.magAdj (Spec.fvals m) i j + Spec.pad F K B)) * ((1 + F.u) * (1 / |d.val| + F.tiny)) :=
          mul_le_mul b1 b2 (abs_nonneg _) (by positivity)
      _ = (1 + F.u) ^ (Spec.adjDepth (K + 1) + 1) * ((Spec.magAdj (Spec.fvals m) i j + Spec.pad F K B) * (1 / |d.val| + F.tiny)) := by rw [pow_succ]; ring
      _ ≤ _ := by
        apply mul_le_mul_of_nonneg_left _ (by positivity)
        unfold Spec.fadjMag
        linarith

private theorem fdetErr_nonneg {K : Nat} (A : Matrix (Fin (K + 1)) (Fin (K + 1)) ℝ) {B : ℝ} (h1 : 1 ≤ B) : 0 ≤ Spec.fdetErr F A B := by
  have hu := F.u_pos
  have ht := F.tiny_pos
  have hp : 0 ≤ Spec.pad F (K + 1) B := by unfold Spec.pad; positivity
  exact mul_nonneg (sub_nonneg.2 (one_le_pow₀ (by linarith))) (add_nonneg (mags_nonneg _ _) hp)

/-- **C110** The flag is reliable for matrices in range whose determinant is further from the tolerance than the rounding error. -/
theorem C110_flag (h0 : 0 < F.emax) (cfg : Cfg) {K : Nat} (hK : 1 ≤ K) (hK' : K ≤ 3) (m inv : Mat (K + 1) (K + 1) (Fp F)) (tol : Fp F) (htol : tol.Finite)
    {B : ℝ} (h1 : 1 ≤ B) (hB : ∀ i j, |(m.get i j).val| ≤ B) (hr : Spec.InRange m B (Spec.invDepth (K + 1))) :
    (tol.val + Spec.fdetErr F (Spec.fvals m) B < |(Spec.fvals m).det| → ∃ r, m.inverse cfg inv tol = .ok (true, r)) ∧
      (|(Spec.fvals m).det| + Spec.fdetErr F (Spec.fvals m) B < tol.val → ∃ r, m.inverse cfg inv tol = .ok (false, r)) := by
  obtain ⟨d, b, r, g1, -, g3, g4⟩ := C110_inverse h0 cfg hK hK' m inv tol htol h1 hB
  obtain ⟨-, h2, h3, -⟩ := g3 (g4 hr).1
  have a1 := abs_sub_abs_le_abs_sub d.val (Spec.fvals m).det
  have a2 := abs_sub_abs_le_abs_sub (Spec.fvals m).det d.val
  rw [abs_sub_comm] at a2
  refine ⟨fun h => ⟨r, ?_⟩, fun h => ⟨r, ?_⟩⟩
  · have : b = true := h2.2 (by split_ifs <;> linarith)
    rw [g1, this]
  · have : b ≠ true := fun hb => by have := h2.1 hb; split_ifs at this <;> linarith
    rw [g1, Bool.eq_false_iff.2 this]

/-- **C110** A returned inverse of a matrix in range, when the tolerance exceeds the rounding error of the determinant: the matrix is invertible, every
entry whose magnitude fits the format is finite, and every finite entry is the one of the inverse, up to the rounding errors. -/
theorem C110_error (h0 : 0 < F.emax) (cfg : Cfg) {K : Nat} (hK : 1 ≤ K) (hK' : K ≤ 3) (m inv r : Mat (K + 1) (K + 1) (Fp F)) (tol : Fp F) (htol : tol.Finite)
    {B : ℝ} (h1 : 1 ≤ B) (hB : ∀ i j, |(m.get i j).val| ≤ B) (hr : Spec.InRange m B (Spec.invDepth (K + 1)))
    (ht : Spec.fdetErr F (Spec.fvals m) B < tol.val) (hrun : m.inverse cfg inv tol = .ok (true, r)) :
    (Spec.fvals m).det ≠ 0 ∧ (∀ i j, (r.get i j).Finite →
      |(r.get i j).val - (Spec.fvals m)⁻¹ i j| ≤
        Spec.fadjErr F (Spec.fvals m) B tol.val i j + Spec.fdetErr F (Spec.fvals m) B * |(Spec.fvals m)⁻¹ i j| / tol.val) ∧
      (1 / tol.val ≤ F.maxFinite → ∀ i j,
        (1 + F.u) ^ (Spec.adjDepth (K + 1) + 1) * Spec.fadjMag F (Spec.fvals m) B tol.val i j ≤ F.maxFinite → (r.get i j).Finite) := by
  obtain ⟨d, b, r', g1, -, g3, g4⟩ := C110_inverse h0 cfg hK hK' m inv tol htol h1 hB
  rw [hrun] at g1
  obtain ⟨rfl, rfl⟩ := Prod.mk.inj (Except.ok.inj g1)
  obtain ⟨hd, g5⟩ := g4 hr
  obtain ⟨-, h2, h3, h4⟩ := g3 hd
  have hu := F.u_pos
  have hty := F.tiny_pos
  have hE := fdetErr_nonneg (F := F) (Spec.fvals m) h1
  have htd : tol.val ≤ |d.val| := by have := h2.1 rfl; split_ifs at this <;> linarith
  have ht0 : 0 < tol.val := by linarith
  have hd0 : d.val ≠ 0 := abs_pos.1 (by linarith)
  have a1 := abs_sub_abs_le_abs_sub d.val (Spec.fvals m).det
  have hdet : (Spec.fvals m).det ≠ 0 := abs_pos.1 (by linarith)
  have hinv : 1 / |d.val| ≤ 1 / tol.val := one_div_le_one_div_of_le ht0 htd
  set A := Spec.fvals m with hA
  have hpK : 0 ≤ Spec.pad F K B := by unfold Spec.pad; positivity
  have hmag : ∀ i j, Spec.fadjMag F A B |d.val| i j ≤ Spec.fadjMag F A B tol.val i j := by
    intro i j
    unfold Spec.fadjMag
    have := mags_nonneg K (A.submatrix j.succAbove i.succAbove)
    have h5 : 0 ≤ Spec.magAdj A i j + Spec.pad F K B := add_nonneg this hpK
    have := mul_le_mul_of_nonneg_left (add_le_add_left hinv F.tiny) h5
    linarith
  refine ⟨hdet, fun i j hf => ?_, fun hmax i j hcap => ?_⟩
  · have h5 := (h4 rfl i j hf).2
    have hi : A⁻¹ i j = A.adjugate i j / A.det := by
      rw [Matrix.inv_def, Ring.inverse_eq_inv', Matrix.smul_apply, smul_eq_mul, div_eq_inv_mul]
    have h6 : A.adjugate i j / d.val - A⁻¹ i j = -((d.val - A.det) * A⁻¹ i j / d.val) := by
      rw [hi]; field_simp; ring
    have h7 : |A.adjugate i j / d.val - A⁻¹ i j| ≤ Spec.fdetErr F A B * |A⁻¹ i j| / tol.val := by
      rw [h6, abs_neg, abs_div, abs_mul]
      gcongr
    have h8 : Spec.fadjErr F A B |d.val| i j ≤ Spec.fadjErr F A B tol.val i j :=
      mul_le_mul_of_nonneg_left (hmag i j) (sub_nonneg.2 (one_le_pow₀ (by linarith)))
    calc _ ≤ |(r.get i j).val - A.adjugate i j / d.val| + |A.adjugate i j / d.val - A⁻¹ i j| := abs_sub_le _ _ _
      _ ≤ _ := add_le_add (h5.trans h8) h7
  · exact g5 rfl hd0 (hinv.trans hmax) i j ((mul_le_mul_of_nonneg_left (hmag i j) (by positivity)).trans hcap)

/-- **C110** An infinite or NaN entry is not reported: `inverse` returns `true`, with a matrix of zeros and NaNs. -/
theorem C110_nonfinite (h0 : 0 < F.emax) (cfg : Cfg) {K : Nat} (hK : 1 ≤ K) (hK' : K ≤ 3) (m inv : Mat (K + 1) (K + 1) (Fp F)) (tol : Fp F)
    (htol : tol.Finite) (i j : Fin (K + 1)) (h : ¬ (m.get i j).Finite) :
    ∃ r, m.inverse cfg inv tol = .ok (true, r) ∧ ∀ i j, r.get i j = .nan ∨ Spec.IsZero (r.get i j) := by
  obtain ⟨d, b, r, g1, g2, g3, -⟩ := C110_inverse h0 cfg hK hK' m inv tol htol (one_le_max h0) fun i j => Fp.abs_val_le _
  obtain ⟨rfl, g5⟩ := g2 fun hd => h ((g3 hd).1 i j)
  exact ⟨r, g1, g5⟩

/-- **C110** Overflow of the determinant is not reported: `inverse` returns `true`, with a matrix of zeros and NaNs, whenever the exact determinant exceeds the
largest number by more than the rounding error, even though the inverse is far from overflow. -/
theorem C110_overflow (h0 : 0 < F.emax) (cfg : Cfg) {K : Nat} (hK : 1 ≤ K) (hK' : K ≤ 3) (m inv : Mat (K + 1) (K + 1) (Fp F)) (tol : Fp F)
    (htol : tol.Finite) {B : ℝ} (h1 : 1 ≤ B) (hB : ∀ i j, |(m.get i j).val| ≤ B)
    (h : F.maxFinite + Spec.fdetErr F (Spec.fvals m) B < |(Spec.fvals m).det|) :
    ∃ r, m.inverse cfg inv tol = .ok (true, r) ∧ ∀ i j, r.get i j = .nan ∨ Spec.IsZero (r.get i j) := by
  obtain ⟨d, b, r, g1, g2, g3, -⟩ := C110_inverse h0 cfg hK hK' m inv tol htol h1 hB
  have hd : ¬ d.Finite := by
    intro hd
    have h3 := (g3 hd).2.2.1
    have a2 := abs_sub_abs_le_abs_sub (Spec.fvals m).det d.val
    rw [abs_sub_comm] at a2
    have := Fp.abs_val_le d
    linarith
  obtain ⟨rfl, g5⟩ := g2 hd
  exact ⟨r, g1, g5⟩

/-- **C110** For example, the 4x4 scaling by `2^k` with `4k ≥ emax + 2` (`2^33` in `float`) is not inverted, although its inverse, the scaling by `2^-k`, is
representable. -/
theorem C110_scaling (hp : 6 ≤ F.p) (he : 8 ≤ F.emax) (cfg : Cfg) (m inv : Mat 4 4 (Fp F)) (tol : Fp F) (htol : tol.Finite) (k : Nat)
    (hk : F.emax + 2 ≤ 4 * k) (hm : ∀ i j, (m.get i j).val = if i = j then (2 : ℝ) ^ k else 0) :
    ∃ r, m.inverse cfg inv tol = .ok (true, r) ∧ ∀ i j, r.get i j = .nan ∨ Spec.IsZero (r.get i j) := by
  have hv : Spec.fvals m = Matrix.diagonal fun _ => (2 : ℝ) ^ k := by
    funext i j
    rw [Matrix.diagonal_apply]
    exact hm i j
  have h1 : (1 : ℝ) ≤ (2 : ℝ) ^ k := one_le_pow₀ (by norm_num)
  refine C110_overflow (by omega) cfg (K := 3) (by omega) (by omega) m inv tol htol (B := (2 : ℝ) ^ k) h1 ?_ ?_
  · intro i j
    rw [hm]
    split_ifs
    · rw [abs_of_nonneg (by positivity)]
    · simp
  · have hd : (Spec.fvals m).det = ((2 : ℝ) ^ k) ^ 4 := by
      rw [hv, Matrix.det_diagonal, Fin.prod_univ_four]; ring
    set x := (2 : ℝ) ^ k with hx
    have hx4 : 0 < x ^ 4 := by positivity
    have hmax : F.maxFinite < x ^ 4 / 2 := by
      refine lt_of_lt_of_le maxFinite_lt ?_
      rw [hx, ← pow_mul, le_div_iff₀ (by norm_num)]
      have : (2 : ℝ) ^ ((F.emax : Int) + 1) * 2 = (2 : ℝ) ^ (F.emax + 2) := by
        rw [show ((F.emax : Int) + 1) = ((F.emax + 1 : Nat) : Int) by push_cast; rfl, zpow_natCast]
        ring
      rw [this]
      exact pow_le_pow_right₀ (by norm_num) (by omega)
    have hmags : Spec.mags 4 (Spec.fvals m) = x ^ 4 := by
      rw [mags4, hv]
      simp only [Matrix.diagonal_apply, Fin.isValue]
      simp [abs_of_nonneg (show 0 ≤ x by linarith)]
      ring
    have hu : F.u ≤ 1 / 128 := by
      unfold u
      calc (2 : ℝ)⁻¹ ^ (F.p + 1) ≤ (2 : ℝ)⁻¹ ^ 7 := pow_le_pow_of_le_one (by norm_num) (by norm_num) (by omega)
        _ = 1 / 128 := by norm_num
    have hu0 := F.u_pos
    have hg : (1 + F.u) ^ 9 - 1 ≤ 1 / 8 := by
      have : (1 + F.u) ^ 9 ≤ (1 + 1 / 128 : ℝ) ^ 9 := pow_le_pow_left₀ (by linarith) (by linarith) 9
      refine le_trans (sub_le_sub_right this 1) ?_
      norm_num
    have htiny : 72 * F.tiny ≤ 1 := by
      have : F.tiny ≤ (2 : ℝ) ^ (-7 : Int) := zpow_le_zpow_right₀ (by norm_num) (by unfold emin; omega)
      have e : (2 : ℝ) ^ (-7 : Int) = 1 / 128 := by norm_num [zpow_neg]
      rw [e] at this
      linarith
    have hx2 : x ^ 2 ≤ x ^ 4 := pow_le_pow_right₀ h1 (by omega)
    have ht0 := F.tiny_pos
    rw [hd, abs_of_pos hx4, Spec.fdetErr, hmags, pad4]
    have hb : x ^ 4 + 72 * x ^ 2 * F.tiny ≤ 2 * x ^ 4 := by
      have : x ^ 2 * (72 * F.tiny) ≤ x ^ 4 * 1 := mul_le_mul hx2 htiny (by positivity) hx4.le
      linarith
    have hg0 : 0 ≤ (1 + F.u) ^ 9 - 1 := sub_nonneg.2 (one_le_pow₀ (by linarith))
    have : ((1 + F.u) ^ Spec.invDepth (3 + 1) - 1) * (x ^ 4 + 72 * x ^ 2 * F.tiny) ≤ 1 / 8 * (2 * x ^ 4) :=
      mul_le_mul hg hb (by positivity) (by norm_num)
    linarith

/-! ## Instances -/

/-- `2^e` as a `float`. -/
theorem mag_pow (e : Nat) (he : e ≤ F.emax) (h0 : 0 < F.emax) : F.Mag ((2 : ℝ) ^ e) := by
  refine ⟨by positivity, ?_, ?_⟩
  · have := rep_pow (F := F) (e := e) (by unfold emin; omega)
    rwa [zpow_natCast] at this
  · have h1 : (2 : ℝ) ^ e ≤ (2 : ℝ) ^ F.emax := pow_le_pow_right₀ (by norm_num) he
    refine h1.trans ?_
    unfold maxFinite
    have h2 : (1 : ℝ) ≤ (2 : ℝ) ^ F.p := one_le_pow₀ (by norm_num)
    have e : (2 : ℝ) ^ ((F.emax : Int) - F.p) = (2 : ℝ) ^ F.emax / (2 : ℝ) ^ F.p := by
      rw [zpow_sub₀ (by norm_num), zpow_natCast, zpow_natCast]
    rw [e, mul_div_assoc', le_div_iff₀ (by positivity), pow_succ]
    have : (0 : ℝ) < (2 : ℝ) ^ F.emax := by positivity
    nlinarith

/-- `C110_scaling`: the scaling by `2^40` in `float`. -/
example (cfg : Cfg) (inv : Mat 4 4 (Fp .single)) :
    ∃ r, (Mat.ofFn fun i j => if i = j then .fin false ((2 : ℝ) ^ 40) (mag_pow 40 (by decide) (by decide)) else 0 : Mat 4 4 (Fp .single)).inverse cfg inv 0
      = .ok (true, r) ∧ ∀ i j, r.get i j = .nan ∨ Spec.IsZero (r.get i j) := by
  refine C110_scaling (by decide) (by decide) cfg _ inv 0 trivial 40 (by decide) fun i j => ?_
  rw [get_ofFn]
  split_ifs
  · simp
  · simp

/-- `C110_flag`, `C110_error`: the matrix `diag( 2, 2 )` in `double` with the tolerance 1 is in range, and inverted. -/
theorem Witness.inverse_two (cfg : Cfg) (inv : Mat 2 2 (Fp .double)) :
    let m : Mat 2 2 (Fp .double) := Mat.ofFn fun i j => if i = j then .fin false ((2 : ℝ) ^ 1) (mag_pow 1 (by decide) (by decide)) else 0
    (∃ r, m.inverse cfg inv 1 = .ok (true, r)) ∧ Spec.InRange m 2 (Spec.invDepth 2) ∧ Spec.fdetErr .double (Spec.fvals m) 2 < (1 : Fp .double).val := by
  intro m
  have hm : ∀ i j, (m.get i j).Finite ∧ (m.get i j).val = if i = j then 2 else 0 := by
    intro i j
    simp only [m, get_ofFn]
    split_ifs
    · exact ⟨trivial, by simp⟩
    · exact ⟨trivial, by simp⟩
  have hv : Spec.fvals m = Matrix.diagonal fun _ => (2 : ℝ) := by
    funext i j
    rw [Matrix.diagonal_apply]
    exact (hm i j).2
  have hB : ∀ i j, |(m.get i j).val| ≤ 2 := by
    intro i j
    rw [(hm i j).2]
    split_ifs <;> norm_num
  have hu : (Format.double).u = 1 / 2 ^ 53 := by unfold u; norm_num
  have ht : (Format.double).tiny ≤ 1 / 4 := by
    have : (Format.double).tiny ≤ (2 : ℝ) ^ (-2 : Int) := zpow_le_zpow_right₀ (by norm_num) (by decide)
    refine this.trans (by norm_num [zpow_neg])
  have ht0 := (Format.double).tiny_pos
  have hd : (Spec.fvals m).det = 4 := by rw [hv, Matrix.det_diagonal]; norm_num
  have hmax : (100 : ℝ) ≤ (Format.double).maxFinite := by
    unfold maxFinite
    have h1 : (1 : ℝ) ≤ (2 : ℝ) ^ (((Format.double).emax : Int) - (Format.double).p) := one_le_zpow₀ (by norm_num) (by decide)
    have h2 : (100 : ℝ) ≤ (2 : ℝ) ^ ((Format.double).p + 1) - 1 := by norm_num
    nlinarith
  have hr : Spec.InRange m 2 (Spec.invDepth 2) := by
    refine ⟨fun i j => (hm i j).1, le_trans ?_ hmax⟩
    rw [pad2, hu]
    norm_num [Spec.invDepth, Nat.factorial]
    nlinarith
  obtain ⟨-, o⟩ := Fp.one_fin (F := .double) (by decide)
  have hE : Spec.fdetErr .double (Spec.fvals m) 2 < 1 := by
    rw [Spec.fdetErr, mags2, hv, pad2, hu]
    simp [Matrix.diagonal_apply, Spec.invDepth]
    nlinarith
  refine ⟨?_, hr, by rw [o]; exact hE⟩
  exact (C110_flag (by decide) cfg (K := 1) (by omega) (by omega) m inv 1 (Fp.one_fin (by decide)).1 (by norm_num) hB hr).1 (by
    rw [hd, o]; norm_num; linarith)

end Vmml
