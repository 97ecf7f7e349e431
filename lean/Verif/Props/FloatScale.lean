import Verif.Props.FloatCullLaws

/-!
# C131: change of units by a power of two is exact
-/

namespace Vmml
open Format Culler
variable {F : Format} {α : Type} {M N P : Nat}

/-- `b` is `2^k` times `a`, both being finite. -/
def Spec.Scaled (k : Nat) (a b : Fp F) : Prop := a.Finite ∧ b.Finite ∧ b.val = a.val * 2 ^ k
/-- The number loses nothing to underflow: it is at least the smallest normal number, or a multiple of the smallest positive one (zero is). -/
def Spec.NoUnderflow (F : Format) (x : ℝ) : Prop := F.tiny ≤ |x| ∨ ∃ j : Int, x = j * (2 : ℝ) ^ (F.emin - F.p)

private theorem log_scale (k : Nat) {x : ℝ} (hx : x ≠ 0) : Int.log 2 |x * 2 ^ k| = Int.log 2 |x| + k := by
  have h1 : |x * 2 ^ k| = |x| * (2 : ℝ) ^ (k : Int) := by rw [abs_mul, zpow_natCast, abs_of_pos (by positivity : (0 : ℝ) < 2 ^ k)]
  have hp := abs_pos.2 hx
  rw [h1]
  have h2 := Int.zpow_log_le_self (b := 2) (by norm_num) hp
  have h3 := Int.lt_zpow_succ_log_self (b := 2) (by norm_num) |x|
  push_cast at h2 h3
  have hk : (0 : ℝ) < (2 : ℝ) ^ (k : Int) := by positivity
  apply le_antisymm
  · rw [← Int.lt_add_one_iff, ← Int.lt_zpow_iff_log_lt (by norm_num) (by positivity)]
    push_cast
    rw [show Int.log 2 |x| + (k : Int) + 1 = (Int.log 2 |x| + 1) + k from by ring, zpow_add₀ (by norm_num)]
    exact mul_lt_mul_of_pos_right h3 hk
  · rw [← Int.zpow_le_iff_le_log (by norm_num) (by positivity)]
    push_cast
    rw [zpow_add₀ (by norm_num)]
    exact mul_le_mul_of_nonneg_right h2 hk.le

theorem Format.Rep.scale (k : Nat) {x : ℝ} (h : F.Rep x) : F.Rep (x * 2 ^ k) := by
  obtain ⟨j, e, he, hj, rfl⟩ := h
  refine ⟨j, e + k, by omega, hj, ?_⟩
  rw [zpow_add₀ (by norm_num), zpow_natCast, mul_assoc]

/-- Rounding commutes with the multiplication by a power of two, unless digits are lost to underflow. -/
theorem rnd_scale (k : Nat) {x : ℝ} (h : Spec.NoUnderflow F x) : F.rnd (x * 2 ^ k) = F.rnd x * 2 ^ k := by
  by_cases hx : x = 0
  · subst hx; simp [rnd_zero]
  rcases lt_or_ge |x| ((2 : ℝ) ^ F.emin) with hs | hn
  · have hg : F.Grid x := by
      rcases h with h | h
      · exact absurd h (not_le.2 (by unfold Format.tiny; exact hs))
      · exact h
    have h1 := hg.rnd_small hs
    have h2 : F.Rep x := by rw [← h1]; exact rnd_rep x
    rw [h1, (h2.scale k).rnd_eq]
  · have hl : F.emin ≤ Int.log 2 |x| := by
      rw [← Int.zpow_le_iff_le_log (by norm_num) (abs_pos.2 hx)]; exact_mod_cast hn
    have e1 : F.lastExp x = Int.log 2 |x| - F.p := by unfold lastExp; rw [max_eq_left hl]
    have e2 : F.lastExp (x * 2 ^ k) = F.lastExp x + k := by
      rw [e1]; unfold lastExp; rw [log_scale k hx, max_eq_left (by omega)]; ring
    unfold rnd
    rw [e2, zpow_add₀ (by norm_num), zpow_natCast, mul_div_mul_right _ _ (by positivity : ((2 : ℝ) ^ k) ≠ 0), mul_assoc]

private theorem grid_noUnderflow {x : ℝ} (h : F.Grid x) : Spec.NoUnderflow F x := .inr h

/-! ## The operations -/

private theorem le_scale (k : Nat) {x X : ℝ} (h : |x * 2 ^ k| ≤ X) : |x| ≤ X := by
  rw [abs_mul, abs_of_pos (by positivity : (0 : ℝ) < 2 ^ k)] at h
  have : (1 : ℝ) ≤ 2 ^ k := one_le_pow₀ (by norm_num)
  nlinarith [abs_nonneg x]

private theorem rnd_bound_fin {x : ℝ} (s : Bool) (hx : x ≠ 0 → (s = true ↔ x < 0)) (h : |F.rnd x| ≤ F.maxFinite) :
    (Fp.round s |x| : Fp F).Finite ∧ (Fp.round s |x| : Fp F).val = F.rnd x := by
  have hle : F.rnd |x| ≤ F.maxFinite := by rw [rnd_abs]; exact h
  have hf : (Fp.round s |x| : Fp F).Finite := by rw [Fp.round_eq (abs_nonneg x) hle]; trivial
  exact ⟨hf, Fp.round_finite hf hx⟩

private theorem add_of_bound {a b : Fp F} (ha : a.Finite) (hb : b.Finite) (h : |F.rnd (a.val + b.val)| ≤ F.maxFinite) : (a + b).Finite := by
  obtain ⟨s, m, hm, rfl⟩ := Fp.finite_cases ha
  obtain ⟨t, n, hn, rfl⟩ := Fp.finite_cases hb
  obtain ⟨x, hx⟩ : ∃ x, x = (Fp.fin s m hm : Fp F).val + (Fp.fin t n hn : Fp F).val := ⟨_, rfl⟩
  have e : (Fp.fin s m hm + Fp.fin t n hn : Fp F) = if x = 0 then .fin (s && t) 0 mag_zero else .round (@decide (x < 0) (Classical.propDecidable _)) |x| := by rw [hx]; rfl
  rw [← hx] at h
  rw [e]
  split_ifs
  · trivial
  · exact (rnd_bound_fin _ (fun _ => @decide_eq_true_iff _ (Classical.propDecidable _)) h).1

private theorem mul_of_bound {a b : Fp F} (ha : a.Finite) (hb : b.Finite) (h : |F.rnd (a.val * b.val)| ≤ F.maxFinite) : (a * b).Finite := by
  obtain ⟨s, m, hm, rfl⟩ := Fp.finite_cases ha
  obtain ⟨t, n, hn, rfl⟩ := Fp.finite_cases hb
  have e : (Fp.fin s m hm * Fp.fin t n hn : Fp F) = .round (s ^^ t) (m * n) := rfl
  have e2 : m * n = |(Fp.fin s m hm : Fp F).val * (Fp.fin t n hn : Fp F).val| := by
    rw [abs_mul]; cases s <;> cases t <;> simp [abs_of_nonneg, hm.1, hn.1]
  rw [e, Fp.round_eq (mul_nonneg hm.1 hn.1) (by rw [e2, rnd_abs]; exact h)]
  trivial

private theorem div_of_bound {a b : Fp F} (ha : a.Finite) (hb : b.Finite) (hz : b.val ≠ 0) (h : |F.rnd (a.val / b.val)| ≤ F.maxFinite) : (a / b).Finite := by
  obtain ⟨s, m, hm, rfl⟩ := Fp.finite_cases ha
  obtain ⟨t, n, hn, rfl⟩ := Fp.finite_cases hb
  have e : (Fp.fin s m hm / Fp.fin t n hn : Fp F) = @ite _ (n = 0) (Classical.propDecidable _)
      (@ite _ (m = 0) (Classical.propDecidable _) .nan (.inf (s ^^ t))) (.round (s ^^ t) (m / n)) := rfl
  have e2 : m / n = |(Fp.fin s m hm : Fp F).val / (Fp.fin t n hn : Fp F).val| := by
    rw [abs_div]; cases s <;> cases t <;> simp [abs_of_nonneg, hm.1, hn.1]
  have hn0 : n ≠ 0 := by rintro rfl; cases t <;> simp at hz
  rw [e, if_neg hn0, Fp.round_eq (div_nonneg hm.1 hn.1) (by rw [e2, rnd_abs]; exact h)]
  trivial

private theorem Scaled.add {k : Nat} {a a' b b' : Fp F} (h1 : Spec.Scaled k a a') (h2 : Spec.Scaled k b b') (hf : (a' + b').Finite) : Spec.Scaled k (a + b) (a' + b') := by
  obtain ⟨a1, a2, a3⟩ := h1
  obtain ⟨b1, b2, b3⟩ := h2
  obtain ⟨-, -, v⟩ := Fp.add_finite hf
  have hr : F.rnd (a'.val + b'.val) = F.rnd (a.val + b.val) * 2 ^ k := by
    rw [a3, b3, ← add_mul]
    exact rnd_scale k (grid_noUnderflow ((Fp.rep_val a1).grid.add (Fp.rep_val b1).grid))
  have hb : |F.rnd (a.val + b.val)| ≤ F.maxFinite := le_scale k (by rw [← hr, ← v]; exact Fp.abs_val_le _)
  have f := add_of_bound a1 b1 hb
  exact ⟨f, hf, by rw [v, hr, (Fp.add_finite f).2.2]⟩

private theorem Scaled.neg {k : Nat} {a a' : Fp F} (h : Spec.Scaled k a a') : Spec.Scaled k (-a) (-a') :=
  ⟨Fp.finite_neg h.1, Fp.finite_neg h.2.1, by rw [Fp.val_neg, Fp.val_neg, h.2.2]; ring⟩

private theorem Scaled.sub {k : Nat} {a a' b b' : Fp F} (h1 : Spec.Scaled k a a') (h2 : Spec.Scaled k b b') (hf : (a' - b').Finite) : Spec.Scaled k (a - b) (a' - b') :=
  Scaled.add h1 (Scaled.neg h2) hf

private theorem Scaled.mul {k l : Nat} {a a' b b' : Fp F} (h1 : Spec.Scaled k a a') (h2 : Spec.Scaled l b b') (hu : Spec.NoUnderflow F (a.val * b.val)) (hf : (a' * b').Finite) :
    Spec.Scaled (k + l) (a * b) (a' * b') := by
  obtain ⟨a1, a2, a3⟩ := h1
  obtain ⟨b1, b2, b3⟩ := h2
  obtain ⟨-, -, v⟩ := Fp.mul_finite hf
  have hr : F.rnd (a'.val * b'.val) = F.rnd (a.val * b.val) * 2 ^ (k + l) := by
    rw [a3, b3, ← rnd_scale (k + l) hu]
    congr 1
    ring
  have hb : |F.rnd (a.val * b.val)| ≤ F.maxFinite := le_scale (k + l) (by rw [← hr, ← v]; exact Fp.abs_val_le _)
  have f := mul_of_bound a1 b1 hb
  exact ⟨f, hf, by rw [v, hr, (Fp.mul_finite f).2.2]⟩

private theorem Scaled.sqrt (hp : F.p < F.emax) {k : Nat} {a a' : Fp F} (h : Spec.Scaled (k + k) a a') (hn : 0 ≤ a.val) : Spec.Scaled k (CMath.sqrt a) (CMath.sqrt a') := by
  have h0 : 0 < F.emax := by omega
  obtain ⟨a1, a2, a3⟩ := h
  have hn' : 0 ≤ a'.val := by rw [a3]; positivity
  obtain ⟨f, v⟩ := Fp.sqrt_fin h0 a1 hn
  obtain ⟨f', v'⟩ := Fp.sqrt_fin h0 a2 hn'
  refine ⟨f, f', ?_⟩
  have e : Real.sqrt a'.val = Real.sqrt a.val * 2 ^ k := by
    rw [a3, pow_add, ← sq, Real.sqrt_mul hn, Real.sqrt_sq (by positivity)]
  rw [v, v', e]
  apply rnd_scale
  rcases hn.eq_or_lt with h | h
  · right; exact ⟨0, by rw [← h]; simp⟩
  · left
    have hge : (2 : ℝ) ^ (F.emin - F.p) ≤ a.val := by
      obtain ⟨j, hj⟩ := (Fp.rep_val a1).grid
      have hq : (0 : ℝ) < (2 : ℝ) ^ (F.emin - F.p) := by positivity
      rw [hj] at h ⊢
      have : (0 : ℝ) < j := (mul_pos_iff_of_pos_right hq).1 h
      have : (1 : ℝ) ≤ j := by exact_mod_cast (by exact_mod_cast this : (0 : Int) < j)
      nlinarith
    rw [abs_of_nonneg (Real.sqrt_nonneg _)]
    apply Real.le_sqrt_of_sq_le
    refine le_trans ?_ hge
    unfold Format.tiny
    rw [← zpow_natCast, ← zpow_mul]
    exact zpow_le_zpow_right₀ (by norm_num) (by unfold emin; push_cast; omega)

/-! ## Sums of products -/

private theorem loop_scale (k l : Nat) (a a' b b' : Nat → Fp F) (ha : ∀ i, Spec.Scaled k (a i) (a' i)) (hb : ∀ i, Spec.Scaled l (b i) (b' i))
    (hu : ∀ i, Spec.NoUnderflow F ((a i).val * (b i).val)) (n : Nat) (hf : (iter (fun i s => s + a' i * b' i) n (0 : Fp F)).Finite) :
    Spec.Scaled (k + l) (iter (fun i s => s + a i * b i) n (0 : Fp F)) (iter (fun i s => s + a' i * b' i) n (0 : Fp F)) := by
  induction n with
  | zero => exact ⟨Fp.finite_zero, Fp.finite_zero, by show (0 : Fp F).val = (0 : Fp F).val * _; rw [Fp.val_zero, zero_mul]⟩
  | succ n ih =>
    have hf' : (iter (fun i s => s + a' i * b' i) n (0 : Fp F) + a' n * b' n).Finite := hf
    obtain ⟨f1, f2, -⟩ := Fp.add_finite hf'
    exact Scaled.add (ih f1) (Scaled.mul (ha n) (hb n) (hu n) f2) hf'

private theorem zero_scaled (k : Nat) : Spec.Scaled k (0 : Fp F) 0 := ⟨Fp.finite_zero, Fp.finite_zero, by rw [Fp.val_zero, zero_mul]⟩

/-- The same with the guarded index of the code. -/
private theorem sum_scale (k l n : Nat) (a a' b b' : Fin n → Fp F) (ha : ∀ i, Spec.Scaled k (a i) (a' i)) (hb : ∀ i, Spec.Scaled l (b i) (b' i))
    (hu : ∀ i, Spec.NoUnderflow F ((a i).val * (b i).val)) (t t' : Nat → Fp F) (ht : ∀ i (h : i < n), t i = a ⟨i, h⟩ * b ⟨i, h⟩) (ht' : ∀ i (h : i < n), t' i = a' ⟨i, h⟩ * b' ⟨i, h⟩)
    (hf : (iter (fun i s => s + t' i) n (0 : Fp F)).Finite) :
    Spec.Scaled (k + l) (iter (fun i s => s + t i) n (0 : Fp F)) (iter (fun i s => s + t' i) n (0 : Fp F)) := by
  let ext : (Fin n → Fp F) → Nat → Fp F := fun f i => if h : i < n then f ⟨i, h⟩ else 0
  have e : iter (fun i s => s + t i) n (0 : Fp F) = iter (fun i s => s + ext a i * ext b i) n (0 : Fp F) := by
    apply iter_congr
    intro i hi s
    simp only [ext, hi, dite_true, ht i hi]
  have e' : iter (fun i s => s + t' i) n (0 : Fp F) = iter (fun i s => s + ext a' i * ext b' i) n (0 : Fp F) := by
    apply iter_congr
    intro i hi s
    simp only [ext, hi, dite_true, ht' i hi]
  rw [e'] at hf
  rw [e, e']
  refine loop_scale k l _ _ _ _ ?_ ?_ ?_ n hf
  · intro i
    by_cases hi : i < n
    · simp only [ext, hi, dite_true]; exact ha _
    · simp only [ext, hi, dite_false]; exact zero_scaled k
  · intro i
    by_cases hi : i < n
    · simp only [ext, hi, dite_true]; exact hb _
    · simp only [ext, hi, dite_false]; exact zero_scaled l
  · intro i
    by_cases hi : i < n
    · simp only [ext, hi, dite_true]; exact hu _
    · simp only [ext, hi, dite_false]; right; exact ⟨0, by simp⟩

/-- **C131** `dot` after a change of units: if every component of `v` is multiplied by `2^k` and every one of `w` by `2^l`, and no product loses digits to underflow, then the computed
result, if it is finite, is exactly `2^(k+l)` times the computed result before: all the rounding errors scale along. -/
theorem C131_dot (cfg : Cfg) (k l : Nat) (v v' w w' : Vec M (Fp F)) (hv : ∀ i : Fin M, Spec.Scaled k v[i] v'[i]) (hw : ∀ i : Fin M, Spec.Scaled l w[i] w'[i])
    (hu : ∀ i : Fin M, Spec.NoUnderflow F (v[i].val * w[i].val)) :
    ∃ d d', v.dot cfg w = .ok d ∧ v'.dot cfg w' = .ok d' ∧ (d'.Finite → Spec.Scaled (k + l) d d') := by
  refine ⟨_, _, Vec.dot_iter cfg v w, Vec.dot_iter cfg v' w', fun hf => ?_⟩
  exact sum_scale k l M (fun i => v[i]) (fun i => v'[i]) (fun i => w[i]) (fun i => w'[i]) hv hw hu _ _ (by intro i h; simp [h]) (by intro i h; simp [h]) hf

/-- **C131** Matrix products and matrix-vector products after a change of units. -/
theorem C131_product (cfg : Cfg) (k l : Nat) (a a' : Mat M N (Fp F)) (b b' : Mat N P (Fp F)) (v v' : Vec N (Fp F)) (ha : ∀ r c, Spec.Scaled k (a.get r c) (a'.get r c))
    (hb : ∀ r c, Spec.Scaled l (b.get r c) (b'.get r c)) (hv : ∀ i : Fin N, Spec.Scaled l v[i] v'[i])
    (hu : ∀ r i c, Spec.NoUnderflow F ((a.get r i).val * (b.get i c).val)) (hu' : ∀ r (i : Fin N), Spec.NoUnderflow F ((a.get r i).val * v[i].val)) :
    (∃ m m', a.mul cfg b = .ok m ∧ a'.mul cfg b' = .ok m' ∧ ∀ r c, (m'.get r c).Finite → Spec.Scaled (k + l) (m.get r c) (m'.get r c)) ∧
    (∃ w w', a.mulVec cfg v = .ok w ∧ a'.mulVec cfg v' = .ok w' ∧ ∀ r : Fin M, w'[r].Finite → Spec.Scaled (k + l) w[r] w'[r]) := by
  have hm : ∀ (a : Mat M N (Fp F)) (b : Mat N P (Fp F)), a.mul cfg b = .ok (Mat.ofFn fun r c => iter (fun i s => s + (if h : i < N then a.get r ⟨i, h⟩ * b.get ⟨i, h⟩ c else 0)) N 0) := by
    intro a b
    unfold Mat.mul
    rw [Mat.ctor_eq, Vmml.bind_ok, Mat.multiply_iter]
  constructor
  · refine ⟨_, _, hm a b, hm a' b', fun r c => ?_⟩
    rw [Mat.get_ofFn, Mat.get_ofFn]
    intro hf
    exact sum_scale k l N (fun i => a.get r i) (fun i => a'.get r i) (fun i => b.get i c) (fun i => b'.get i c) (fun i => ha r i) (fun i => hb i c) (fun i => hu r i c) _ _
      (by intro i h; simp [h]) (by intro i h; simp [h]) hf
  · refine ⟨_, _, Mat.mulVec_iter cfg a v, Mat.mulVec_iter cfg a' v', fun r => ?_⟩
    simp only [Fin.getElem_fin, Vector.getElem_ofFn]
    intro hf
    exact sum_scale k l N (fun i => a.get r i) (fun i => a'.get r i) (fun i => v[i]) (fun i => v'[i]) (fun i => ha r i) hv (fun i => hu' r i) _ _
      (by intro i h; simp [h]) (by intro i h; simp [h]) hf

/-! ## Lengths -/

private theorem sum_nonneg (t : Nat → Fp F) (ht : ∀ i, Fp.Non (t i)) (n : Nat) : Fp.Non (iter (fun i s => s + t i) n (0 : Fp F)) := by
  exact (Fp.iter_mono_non t t ht ht (fun _ => le_rfl) n).1

private theorem sq_non {a : Fp F} (ha : a.Finite) : Fp.Non (a * a) := by
  obtain ⟨s, m, hm, rfl⟩ := Fp.finite_cases ha
  have e : (Fp.fin s m hm * Fp.fin s m hm : Fp F) = .round false (m * m) := by
    show Fp.round (s ^^ s) (m * m) = _
    rw [Bool.xor_self]
  rw [e]
  exact ⟨Fp.round_nan_free _ _, by rw [Fp.ereal_round (mul_self_nonneg m)]; exact fpUp_nonneg (mul_self_nonneg m)⟩

/-- **C131** `squared_length` and `length` after a change of units: `4^k` and `2^k` times the value before. -/
theorem C131_length (hp : F.p < F.emax) (k : Nat) (v v' : Vec M (Fp F)) (hv : ∀ i : Fin M, Spec.Scaled k v[i] v'[i]) (hu : ∀ i : Fin M, Spec.NoUnderflow F (v[i].val * v[i].val)) :
    ∃ s s' l l', v.squaredLength = .ok s ∧ v'.squaredLength = .ok s' ∧ v.length = .ok l ∧ v'.length = .ok l' ∧
      (s'.Finite → Spec.Scaled (k + k) s s' ∧ Spec.Scaled k l l') := by
  have h0 : 0 < F.emax := by omega
  refine ⟨_, _, _, _, Vec.squaredLength_iter v, Vec.squaredLength_iter v', by unfold Vec.length; rw [Vec.squaredLength_iter]; rfl, by unfold Vec.length; rw [Vec.squaredLength_iter]; rfl, fun hf => ?_⟩
  have h := sum_scale k k M (fun i => v[i]) (fun i => v'[i]) (fun i => v[i]) (fun i => v'[i]) hv hv hu (fun i => if h : i < M then v[i] * v[i] else 0) (fun i => if h : i < M then v'[i] * v'[i] else 0) (by intro i h; simp [h]) (by intro i h; simp [h]) hf
  refine ⟨h, Scaled.sqrt hp h ?_⟩
  have hn := sum_nonneg (F := F) (fun i => if h : i < M then v[i] * v[i] else 0) (by
    intro i
    split_ifs with hi
    · exact sq_non (hv ⟨i, hi⟩).1
    · exact Fp.non_zero) M
  rcases Fp.non_cases hn with hx | ⟨-, hx, -⟩
  · have := h.1
    rw [hx] at this
    exact absurd this id
  · exact hx

private theorem beq_zero_of {a : Fp F} (ha : a.Finite) (h : a.val ≠ 0) : (a == 0) = false := by
  by_contra hc
  have := Fp.beq_same.1 (Bool.eq_true_of_not_eq_false hc)
  obtain ⟨-, -, h3⟩ := this
  rw [Fp.ereal_val ha, Fp.ereal_val Fp.finite_zero, Fp.val_zero] at h3
  exact h (by exact_mod_cast h3)

private theorem mul_alike {a a' b b' : Fp F} (ha : a.Finite) (ha' : a'.Finite) (hb : b.Finite) (hb' : b'.Finite) (h : a.val * b.val = a'.val * b'.val) : Spec.Alike (a * b) (a' * b') := by
  have key : ∀ {a b : Fp F}, a.Finite → b.Finite → ∃ s, a * b = .round s |a.val * b.val| ∧ (a.val * b.val ≠ 0 → (s = true ↔ a.val * b.val < 0)) := by
    intro a b ha hb
    obtain ⟨s, m, hm, rfl⟩ := Fp.finite_cases ha
    obtain ⟨t, n, hn, rfl⟩ := Fp.finite_cases hb
    refine ⟨s ^^ t, ?_, fun hne => ?_⟩
    · have e2 : m * n = |(Fp.fin s m hm : Fp F).val * (Fp.fin t n hn : Fp F).val| := by
        rw [abs_mul]; cases s <;> cases t <;> simp [abs_of_nonneg, hm.1, hn.1]
      rw [← e2]; rfl
    · have hm' : 0 < m := lt_of_le_of_ne hm.1 (fun hc => hne (by simp [← hc]))
      have hn' : 0 < n := lt_of_le_of_ne hn.1 (fun hc => hne (by simp [← hc]))
      have := mul_pos hm' hn'
      cases s <;> cases t <;> simp <;> linarith
  obtain ⟨s, e1, h1⟩ := key ha hb
  obtain ⟨t, e2, h2⟩ := key ha' hb'
  rw [e1, e2, ← h]
  by_cases hz : a.val * b.val = 0
  · rw [hz, abs_zero, Fp.round_eq le_rfl (by rw [rnd_zero]; exact maxFinite_pos.le), Fp.round_eq le_rfl (by rw [rnd_zero]; exact maxFinite_pos.le)]
    simp only [rnd_zero]
    exact Spec.Alike.zeros _ _
  · rw [← h] at h2
    have : s = t := by
      have := (h1 hz).trans (h2 hz).symm
      cases s <;> cases t <;> simp_all
    rw [this]
    exact Spec.Alike.refl _

/-- **C131** `normalize` does not depend on the units: the normalized vector of the scaled one has the same components, exactly, if the squares lose nothing to underflow, the length of
the scaled vector is at most `2^(emax-1)` and the reciprocal of the unscaled length does not overflow. -/
theorem C131_normalize (hp : F.p < F.emax) (cfg : Cfg) (k : Nat) (v v' : Vec M (Fp F)) (hv : ∀ i : Fin M, Spec.Scaled k v[i] v'[i]) (hu : ∀ i : Fin M, Spec.NoUnderflow F (v[i].val * v[i].val))
    {l l' : Fp F} (hl : v.length = .ok l) (hl' : v'.length = .ok l') (hf : l'.Finite) (hz : l.val ≠ 0) (hr : (1 / l).Finite) (hle : l'.val ≤ (2 : ℝ) ^ ((F.emax : Int) - 1)) :
    ∃ r r', v.normalize cfg = .ok (r, l) ∧ v'.normalize cfg = .ok (r', l') ∧ Spec.Scaled k l l' ∧ ∀ i : Fin M, Spec.Alike r[i] r'[i] := by
  have h0 : 0 < F.emax := by omega
  obtain ⟨s, s', q, q', e1, e2, e3, e4, hsc⟩ := C131_length hp k v v' hv hu
  rw [hl] at e3
  rw [hl'] at e4
  cases e3; cases e4
  have fs' : s'.Finite := by
    unfold Vec.length at hl'
    rw [e2] at hl'
    have : CMath.sqrt s' = l' := by
      have h : (Except.ok (CMath.sqrt s') : Res (Fp F)) = .ok l' := hl'
      cases h; rfl
    rw [← this] at hf
    exact (Fp.sqrt_finite h0 hf).1
  obtain ⟨-, sl⟩ := hsc fs'
  obtain ⟨f1, f2, f3⟩ := id sl
  have hz' : l'.val ≠ 0 := by rw [f3]; exact mul_ne_zero hz (by positivity)
  have nrm : ∀ (v : Vec M (Fp F)) (l : Fp F), v.length = .ok l → l.Finite → l.val ≠ 0 → v.normalize cfg = .ok (Vector.ofFn fun i => v[i] * (1 / l), l) := by
    intro v l h1 h2 h3
    unfold Vec.normalize
    rw [h1, Vmml.bind_ok, beq_zero_of h2 h3]
    simp only [Bool.false_eq_true, if_false]
    rw [Vec.mulAssignS_eq, Vmml.bind_ok]
    rfl
  refine ⟨_, _, nrm v l hl f1 hz, nrm v' l' hl' f2 hz', sl, fun i => ?_⟩
  have lpos : 0 < l.val := by
    unfold Vec.length at hl
    rw [e1] at hl
    have : CMath.sqrt s = l := by
      have h : (Except.ok (CMath.sqrt s) : Res (Fp F)) = .ok l := hl
      cases h; rfl
    obtain ⟨g1, g2, g3⟩ := Fp.sqrt_finite (a := s) h0 (by rw [this]; exact f1)
    rw [this] at g3
    refine lt_of_le_of_ne ?_ (Ne.symm hz)
    rw [g3]; exact rnd_nonneg (Real.sqrt_nonneg _)
  have lpos' : 0 < l'.val := by rw [f3]; positivity
  obtain ⟨o1, o2⟩ := Fp.one_fin (F := F) h0
  -- the reciprocals
  obtain ⟨-, -, rv⟩ := Fp.div_finite hr f1
  rw [o2] at rv
  have hscale : F.rnd (1 / l'.val) * 2 ^ k = F.rnd (1 / l.val) := by
    rw [← rnd_scale k]
    · congr 1
      rw [f3]
      field_simp
    · left
      rw [abs_of_pos (by positivity), le_div_iff₀ lpos']
      unfold Format.tiny
      calc (2 : ℝ) ^ F.emin * l'.val ≤ (2 : ℝ) ^ F.emin * (2 : ℝ) ^ ((F.emax : Int) - 1) := mul_le_mul_of_nonneg_left hle (by positivity)
        _ = 1 := by rw [← zpow_add₀ (by norm_num)]; unfold emin; simp
  have rb : |F.rnd (1 / l'.val)| ≤ F.maxFinite := by
    apply le_scale k
    rw [hscale, ← rv]
    exact Fp.abs_val_le _
  have hr' : (1 / l').Finite := div_of_bound o1 f2 hz' (by rw [o2]; exact rb)
  have rv' := (Fp.div_finite hr' f2).2.2
  rw [o2] at rv'
  simp only [Fin.getElem_fin, Vector.getElem_ofFn]
  have hvi := hv i
  apply mul_alike hvi.1 hvi.2.1 hr hr'
  rw [rv, rv', ← hscale, hvi.2.2]
  ring

/-! ## Distances, cross products -/

/-- **C131** `squared_distance` and `distance` after a change of units: `4^k` and `2^k` times the value before, if no square of a computed difference loses digits to underflow and the
scaled result is finite. -/
theorem C131_distance (hp : F.p < F.emax) (cfg : Cfg) (k : Nat) (v v' w w' : Vec M (Fp F)) (hv : ∀ i : Fin M, Spec.Scaled k v[i] v'[i]) (hw : ∀ i : Fin M, Spec.Scaled k w[i] w'[i])
    (hf : ∀ i : Fin M, (v'[i] - w'[i]).Finite) (hu : ∀ i : Fin M, Spec.NoUnderflow F ((v[i] - w[i]).val * (v[i] - w[i]).val)) :
    ∃ s s' l l', v.squaredDistance cfg w = .ok s ∧ v'.squaredDistance cfg w' = .ok s' ∧ v.distance cfg w = .ok l ∧ v'.distance cfg w' = .ok l' ∧
      (s'.Finite → Spec.Scaled (k + k) s s' ∧ Spec.Scaled k l l') := by
  have e : ∀ v w : Vec M (Fp F), v.squaredDistance cfg w = Vec.squaredLength (Vector.ofFn fun i : Fin M => v[i] - w[i]) := by
    intro v w
    unfold Vec.squaredDistance
    rw [Vec.subAssign_eq, Vmml.bind_ok]
  have e' : ∀ v w : Vec M (Fp F), v.distance cfg w = Vec.length (Vector.ofFn fun i : Fin M => v[i] - w[i]) := by
    intro v w
    unfold Vec.distance
    rw [e]; rfl
  rw [e, e, e', e']
  refine C131_length hp k _ _ (fun i => ?_) (fun i => ?_)
  · simp only [Fin.getElem_fin, Vector.getElem_ofFn]; exact Scaled.sub (hv i) (hw i) (hf i)
  · simp only [Fin.getElem_fin, Vector.getElem_ofFn]; exact hu i

/-- **C131** `cross` after a change of units. -/
theorem C131_cross (k l : Nat) (v v' w w' : Vec 3 (Fp F)) (hv : ∀ i : Fin 3, Spec.Scaled k v[i] v'[i]) (hw : ∀ i : Fin 3, Spec.Scaled l w[i] w'[i])
    (hu : ∀ i j : Fin 3, Spec.NoUnderflow F (v[i].val * w[j].val)) (i : Fin 3) (hf : ((Vec.cross v' w')[i]).Finite) :
    Spec.Scaled (k + l) (Vec.cross v w)[i] (Vec.cross v' w')[i] := by
  have key : ∀ a b : Fin 3, (v'[a] * w'[b] - v'[b] * w'[a]).Finite → Spec.Scaled (k + l) (v[a] * w[b] - v[b] * w[a]) (v'[a] * w'[b] - v'[b] * w'[a]) := by
    intro a b h
    obtain ⟨f1, f2, -⟩ := Fp.sub_finite h
    exact Scaled.sub (Scaled.mul (hv a) (hw b) (hu a b) f1) (Scaled.mul (hv b) (hw a) (hu b a) f2) h
  match i with
  | 0 => exact key 1 2 hf
  | 1 => exact key 2 0 hf
  | 2 => exact key 0 1 hf

/-! ## The culling verdict -/

/-- The same plane after a change of units: the normal is the same, the offset is scaled. -/
def Spec.PlaneScaled (k : Nat) (p p' : Vec 4 (Fp F)) : Prop := p'[0] = p[0] ∧ p'[1] = p[1] ∧ p'[2] = p[2] ∧ Spec.Scaled k p[3] p'[3]

private theorem le_scaled {k : Nat} {a a' b b' : Fp F} (h : Spec.Scaled k a a') (g : Spec.Scaled k b b') : (a' ≤ b' ↔ a ≤ b) ∧ (a' < b' ↔ a < b) := by
  have hk : (0 : ℝ) < 2 ^ k := by positivity
  rw [Fp.le_val h.1 g.1, Fp.le_val h.2.1 g.2.1, Fp.lt_val h.1 g.1, Fp.lt_val h.2.1 g.2.1, h.2.2, g.2.2]
  exact ⟨mul_le_mul_iff_left₀ hk, mul_lt_mul_iff_left₀ hk⟩

private theorem vis_same {a b : Visibility} (h1 : a = .none ↔ b = .none) (h2 : a = .full ↔ b = .full) : a = b := by
  cases a <;> cases b <;> simp_all

/-- **C131** The verdict of `test_sphere` does not depend on the units: with the plane offsets, the centre and the radius multiplied by `2^k`, no product losing digits to underflow and no
plane value of the scaled scene overflowing, it is the same verdict - not only for spheres that are clearly on one side. -/
theorem C131_sphere (k : Nat) (K K' : Culler (Fp F)) (s s' : Vec 4 (Fp F)) (hK : List.Forall₂ (Spec.PlaneScaled k) (Spec.six K) (Spec.six K'))
    (hs : ∀ i : Fin 4, Spec.Scaled k s[i] s'[i]) (hu : ∀ p ∈ Spec.six K, Spec.NoUnderflow F (p[0].val * s[0].val) ∧ Spec.NoUnderflow F (p[1].val * s[1].val) ∧ Spec.NoUnderflow F (p[2].val * s[2].val))
    (hf : ∀ p ∈ Spec.six K', (Spec.planeValue p s'[0] s'[1] s'[2]).Finite) : testSphere K s = testSphere K' s' := by
  have val : ∀ p p' : Vec 4 (Fp F), Spec.PlaneScaled k p p' → (Spec.NoUnderflow F (p[0].val * s[0].val) ∧ Spec.NoUnderflow F (p[1].val * s[1].val) ∧ Spec.NoUnderflow F (p[2].val * s[2].val)) →
      (Spec.planeValue p' s'[0] s'[1] s'[2]).Finite → Spec.Scaled k (Spec.planeValue p s[0] s[1] s[2]) (Spec.planeValue p' s'[0] s'[1] s'[2]) := by
    intro p p' ⟨e0, e1, e2, e3⟩ ⟨u0, u1, u2⟩ h
    unfold Spec.planeValue at h ⊢
    obtain ⟨f1, f2, -⟩ := Fp.add_finite h
    obtain ⟨f3, f4, -⟩ := Fp.add_finite f1
    obtain ⟨f5, f6, -⟩ := Fp.add_finite f3
    have prod : ∀ {a a' b b' : Fp F}, a' = a → Spec.Scaled k b b' → Spec.NoUnderflow F (a.val * b.val) → (a' * b').Finite → Spec.Scaled k (a * b) (a' * b') := by
      intro a a' b b' h1 h2 h3 h4
      subst h1
      have := Scaled.mul (k := 0) (l := k) ⟨(Fp.mul_finite h4).1, (Fp.mul_finite h4).1, by rw [pow_zero, mul_one]⟩ h2 h3 h4
      rwa [Nat.zero_add] at this
    exact Scaled.add (Scaled.add (Scaled.add (prod e0 (hs 0) u0 f5) (prod e1 (hs 1) u1 f6) f3) (prod e2 (hs 2) u2 f4) f1) e3 h
  obtain ⟨a1, a2⟩ := sphere_verdict K s
  obtain ⟨b1, b2⟩ := sphere_verdict K' s'
  have cmp : ∀ p p' : Vec 4 (Fp F), Spec.PlaneScaled k p p' → p ∈ Spec.six K → p' ∈ Spec.six K' →
      (Spec.planeValue p' s'[0] s'[1] s'[2] ≤ -s'[3] ↔ Spec.planeValue p s[0] s[1] s[2] ≤ -s[3]) ∧ (Spec.planeValue p' s'[0] s'[1] s'[2] < s'[3] ↔ Spec.planeValue p s[0] s[1] s[2] < s[3]) :=
    fun p p' h hp hp' => ⟨(le_scaled (val p p' h (hu p hp) (hf p' hp')) (Scaled.neg (hs 3))).1, (le_scaled (val p p' h (hu p hp) (hf p' hp')) (hs 3)).2⟩
  have pair : ∀ (l l' : List (Vec 4 (Fp F))), List.Forall₂ (Spec.PlaneScaled k) l l' → (∀ p ∈ l, ∃ p' ∈ l', Spec.PlaneScaled k p p') ∧ (∀ p' ∈ l', ∃ p ∈ l, Spec.PlaneScaled k p p') := by
    intro l l' h
    induction h with
    | nil => simp
    | cons h _ ih =>
      refine ⟨fun p hp => ?_, fun p hp => ?_⟩
      · rcases List.mem_cons.1 hp with rfl | hp
        · exact ⟨_, List.mem_cons_self, h⟩
        · obtain ⟨q, hq, hr⟩ := ih.1 p hp; exact ⟨q, List.mem_cons_of_mem _ hq, hr⟩
      · rcases List.mem_cons.1 hp with rfl | hp
        · exact ⟨_, List.mem_cons_self, h⟩
        · obtain ⟨q, hq, hr⟩ := ih.2 p hp; exact ⟨q, List.mem_cons_of_mem _ hq, hr⟩
  obtain ⟨p1, p2⟩ := pair _ _ hK
  apply vis_same
  · rw [a1, b1]
    constructor
    · rintro ⟨p, hp, h⟩
      obtain ⟨q, hq, hr⟩ := p1 p hp
      exact ⟨q, hq, (cmp p q hr hp hq).1.2 h⟩
    · rintro ⟨q, hq, h⟩
      obtain ⟨p, hp, hr⟩ := p2 q hq
      exact ⟨p, hp, (cmp p q hr hp hq).1.1 h⟩
  · rw [a2, b2]
    constructor
    · intro h q hq
      obtain ⟨p, hp, hr⟩ := p2 q hq
      exact ⟨fun hc => (h p hp).1 ((cmp p q hr hp hq).1.1 hc), fun hc => (h p hp).2 ((cmp p q hr hp hq).2.1 hc)⟩
    · intro h p hp
      obtain ⟨q, hq, hr⟩ := p1 p hp
      exact ⟨fun hc => (h q hq).1 ((cmp p q hr hp hq).1.2 hc), fun hc => (h q hq).2 ((cmp p q hr hp hq).2.2 hc)⟩

/-! ## The hypotheses can be met -/

/-- **C131** A change of units is possible for every finite number that stays in range. -/
theorem C131_exists (k : Nat) {a : Fp F} (ha : a.Finite) (h : |a.val| * 2 ^ k ≤ F.maxFinite) : ∃ b, Spec.Scaled k a b := by
  obtain ⟨s, m, hm, rfl⟩ := Fp.finite_cases ha
  have hv : |(Fp.fin s m hm : Fp F).val| = m := by cases s <;> simp [abs_of_nonneg, hm.1]
  rw [hv] at h
  refine ⟨.fin s (m * 2 ^ k) ⟨mul_nonneg hm.1 (by positivity), hm.2.1.scale k, h⟩, trivial, trivial, ?_⟩
  cases s
  · rfl
  · show -(m * 2 ^ k) = -m * 2 ^ k
    ring

/-- The hypotheses of `C131_length`, `C131_normalize` hold for the vector (3, 4, 12) in `float` and the same vector in a unit 1024 times smaller. -/
example : ∃ v v' : Vec 3 (Fp single), v[0].val = 3 ∧ v[1].val = 4 ∧ v[2].val = 12 ∧ (∀ i : Fin 3, Spec.Scaled 10 v[i] v'[i]) ∧ (∀ i : Fin 3, Spec.NoUnderflow single (v[i].val * v[i].val)) := by
  have big : (2 : ℝ) ^ (20 : Nat) ≤ single.maxFinite := by
    refine le_trans ?_ (pow_emax_le (F := single))
    rw [← zpow_natCast]
    exact zpow_le_zpow_right₀ (by norm_num) (by norm_num)
  have num : ∀ n : Nat, n ≤ 12 → ∃ a b : Fp single, a.val = n ∧ Spec.Scaled 10 a b ∧ Spec.NoUnderflow single (a.val * a.val) := by
    intro n hn
    have h12 : (n : ℝ) ≤ 12 := by exact_mod_cast hn
    have hr : single.Rep n := ⟨n, 0, by unfold emin; norm_num, by
      rw [Nat.abs_cast]; exact le_trans (by exact_mod_cast hn : (n : Int) ≤ 12) (by norm_num), by simp⟩
    have hm : single.Mag n := ⟨by positivity, hr, h12.trans (le_trans (by norm_num) big)⟩
    have hv : (Fp.fin false n hm : Fp single).val = n := by simp
    obtain ⟨b, hb⟩ := C131_exists (F := single) 10 (a := .fin false n hm) trivial (by
      rw [hv, abs_of_nonneg hm.1]
      exact le_trans (by nlinarith) big)
    refine ⟨_, b, hv, hb, .inr ⟨(n * n * 2 ^ 149 : Nat), ?_⟩⟩
    rw [hv, show single.emin - (single.p : Int) = -149 from by unfold emin; norm_num, zpow_neg, show (149 : Int) = ((149 : Nat) : Int) from rfl, zpow_natCast]
    push_cast
    field_simp
    norm_num
  obtain ⟨a0, b0, e0, s0, u0⟩ := num 3 (by norm_num)
  obtain ⟨a1, b1, e1, s1, u1⟩ := num 4 (by norm_num)
  obtain ⟨a2, b2, e2, s2, u2⟩ := num 12 (by norm_num)
  refine ⟨#v[a0, a1, a2], #v[b0, b1, b2], by simpa using e0, by simpa using e1, by simpa using e2, fun i => ?_, fun i => ?_⟩
  · match i with
    | 0 => exact s0
    | 1 => exact s1
    | 2 => exact s2
  · match i with
    | 0 => exact u0
    | 1 => exact u1
    | 2 => exact u2

end Vmml
