import Verif.Props.Float

/-!
# C109: length and normalisation in IEEE 754 arithmetic
-/

namespace Vmml
open Format
variable {M N : Nat} {F : Format}

/-! ## Squares and sums of squares -/

private theorem mul_self_eq (s : Bool) (m : ℝ) (h : F.Mag m) : (Fp.fin s m h * Fp.fin s m h : Fp F) = Fp.round false (m * m) := by
  show Fp.round (s ^^ s) (m * m) = _
  rw [Bool.xor_self]

/-- Non-negative (never NaN) values. -/
private def NonNeg (a : Fp F) : Prop := a = .inf false ∨ ∃ m h, a = .fin false m h

private theorem nonneg_round (x : ℝ) (h : 0 ≤ x) : NonNeg (Fp.round false x : Fp F) := by
  by_cases hle : F.rnd x ≤ F.maxFinite
  · rw [Fp.round_eq h hle]; exact Or.inr ⟨_, _, rfl⟩
  · rw [Fp.round_inf (not_le.1 hle)]; exact Or.inl rfl

private theorem add_pos_fin (m n : ℝ) (hm : F.Mag m) (hn : F.Mag n) : (Fp.fin false m hm + Fp.fin false n hn : Fp F) =
    if m + n = 0 then Fp.fin false 0 mag_zero else Fp.round false (m + n) := by
  have e : (Fp.fin false m hm + Fp.fin false n hn : Fp F) = @ite _ (m + n = 0) (Classical.propDecidable _) (Fp.fin (false && false) 0 mag_zero)
    (Fp.round (@decide (m + n < 0) (Classical.propDecidable _)) |m + n|) := by
    show (@ite _ ((if false = true then -m else m) + (if false = true then -n else n) = 0) _ _ _ : Fp F) = _
    simp only [Bool.false_eq_true, if_false]
    rfl
  rw [e]
  have h0 : 0 ≤ m + n := add_nonneg hm.1 hn.1
  have hd : @decide (m + n < 0) (Classical.propDecidable _) = false := by
    rw [decide_eq_false_iff_not]; exact not_lt.2 h0
  rw [hd, abs_of_nonneg h0]
  split_ifs <;> rfl

private theorem nonneg_add {a b : Fp F} (ha : NonNeg a) (hb : NonNeg b) : NonNeg (a + b) ∧ (a = .inf false ∨ b = .inf false → a + b = .inf false) := by
  rcases ha with rfl | ⟨m, hm, rfl⟩ <;> rcases hb with rfl | ⟨n, hn, rfl⟩
  · exact ⟨Or.inl rfl, fun _ => rfl⟩
  · exact ⟨Or.inl rfl, fun _ => rfl⟩
  · exact ⟨Or.inl rfl, fun _ => rfl⟩
  · refine ⟨?_, by rintro (h | h) <;> cases h⟩
    rw [add_pos_fin]
    split_ifs
    · exact Or.inr ⟨_, _, rfl⟩
    · exact nonneg_round _ (add_nonneg hm.1 hn.1)

private theorem sq_loop (v : Vec M (Fp F)) (hv : ∀ i : Fin M, v[i].Finite) :
    ∃ s, v.squaredLength = .ok s ∧ NonNeg s ∧ ((∃ i : Fin M, v[i] * v[i] = .inf false) → s = .inf false) := by
  have key : ∀ k, k ≤ M → ∃ s, loop k (fun i s => do pure (s + (← v.rawGet i) * (← v.rawGet i))) (0 : Fp F) = .ok s ∧ NonNeg s ∧
      ((∃ i : Fin M, i.1 < k ∧ v[i] * v[i] = .inf false) → s = .inf false) := by
    intro k
    induction k with
    | zero => intro _; exact ⟨0, by simp, Or.inr ⟨_, _, rfl⟩, by rintro ⟨i, hi, -⟩; omega⟩
    | succ k ih =>
      intro hk
      have hk' : k < M := hk
      obtain ⟨s, h1, h2, h3⟩ := ih hk'.le
      obtain ⟨sg, m, hm, he⟩ := Fp.finite_cases (hv ⟨k, hk'⟩)
      have he' : v[k] = Fp.fin sg m hm := he
      have hsq : NonNeg (v[k] * v[k]) := by
        rw [he', mul_self_eq]; exact nonneg_round _ (mul_nonneg hm.1 hm.1)
      obtain ⟨g1, g2⟩ := nonneg_add h2 hsq
      refine ⟨s + v[k] * v[k], by rw [loop_succ, h1, bind_ok]; simp [hk'], g1, ?_⟩
      rintro ⟨i, hi, hii⟩
      rcases Nat.lt_succ_iff_lt_or_eq.1 hi with hlt | heq
      · exact g2 (Or.inl (h3 ⟨i, hlt, hii⟩))
      · refine g2 (Or.inr ?_)
        have : i = ⟨k, hk'⟩ := Fin.ext heq
        subst this
        exact hii
  obtain ⟨s, h1, h2, h3⟩ := key M le_rfl
  exact ⟨s, h1, h2, fun ⟨i, hi⟩ => h3 ⟨i, i.2, hi⟩⟩

private theorem sq_overflow {a : Fp F} (ha : a.Finite) (k : Int) (hk : (F.emax : Int) + 1 ≤ 2 * k) (h : (2 : ℝ) ^ k ≤ |a.val|) :
    a * a = .inf false := by
  obtain ⟨s, m, hm, rfl⟩ := Fp.finite_cases ha
  have hm' : |(Fp.fin s m hm).val| = m := by cases s <;> simp [abs_of_nonneg hm.1]
  rw [hm'] at h
  rw [mul_self_eq]
  apply Fp.round_inf
  refine lt_of_lt_of_le maxFinite_lt (le_rnd_pow (by unfold emin; omega) ?_)
  calc (2 : ℝ) ^ ((F.emax : Int) + 1) ≤ (2 : ℝ) ^ (k + k) := zpow_le_zpow_right₀ (by norm_num) (by omega)
    _ = (2 : ℝ) ^ k * (2 : ℝ) ^ k := zpow_add₀ (by norm_num) _ _
    _ ≤ m * m := mul_le_mul h h (by positivity) hm.1

/-- A zero of either sign. -/
def Spec.IsZero (a : Fp F) : Prop := a.Finite ∧ a.val = 0

private theorem beq_inf_zero : ((.inf false : Fp F) == 0) = false := by
  show @decide (Fp.eqP (.inf false) 0) (Classical.propDecidable _) = false
  rw [decide_eq_false_iff_not]
  rintro ⟨x, hx, y, hy, rfl⟩
  have h1 : (⊤ : EReal) = x := by simpa [Fp.ext] using hx
  have h2 : (((if false = true then -(0 : ℝ) else 0 : ℝ)) : EReal) = x := by
    have : x ∈ some (((if false = true then -(0 : ℝ) else 0 : ℝ)) : EReal) := hy
    simpa using this
  rw [← h1] at h2
  exact EReal.coe_ne_top _ h2

private theorem one_eq (h0 : 0 < F.emax) : ∃ h, (1 : Fp F) = .fin false 1 h := by
  have hr : F.Rep 1 := by simpa using rep_pow (F := F) (e := 0) (by unfold emin; omega)
  have h1 : F.rnd 1 = 1 := hr.rnd_eq
  have e : (1 : Fp F) = .fin false (F.rnd 1) (mag_rnd (by norm_num) (by rw [h1]; exact one_le_max h0)) :=
    Fp.round_eq (by norm_num) (by rw [h1]; exact one_le_max h0)
  refine ⟨⟨by norm_num, hr, one_le_max h0⟩, ?_⟩
  rw [e]
  simp only [h1]

private theorem normalize_of (cfg : Cfg) (v : Vec M (Fp F)) (len : Fp F) (h : v.length = .ok len) :
    v.normalize cfg = if (len == 0) = true then .ok (v, 0) else .ok (Vector.ofFn fun i => v[i] * (1 / len), len) := by
  unfold Vec.normalize
  rw [h, bind_ok]
  split_ifs with hc
  · simp
  · simp [Vec.mulAssignS_eq]

/-- Multiplying a finite number by a finite zero. -/
private theorem mul_zero_fin {a : Fp F} (ha : a.Finite) (s : Bool) : Spec.IsZero (a * .fin s 0 mag_zero : Fp F) := by
  obtain ⟨sg, m, hm, rfl⟩ := Fp.finite_cases ha
  have e : (Fp.fin sg m hm * .fin s 0 mag_zero : Fp F) = Fp.round (sg ^^ s) (m * 0) := rfl
  rw [e, mul_zero, Fp.round_eq le_rfl (by rw [rnd_zero]; exact maxFinite_pos.le)]
  exact ⟨trivial, by simp⟩

/-- **C109** Overflow: a finite vector with a component of at least `2^k`, `2k ≥ emax + 1` (`2^64` in `float`, `2^512` in `double`; both far below the largest
number) has length `+∞`, and `normalize` turns it into the zero vector, while a unit vector in its direction exists. -/
theorem C109_overflow (h0 : 0 < F.emax) (cfg : Cfg) (v : Vec M (Fp F)) (hv : ∀ i : Fin M, v[i].Finite) (k : Int) (hk : (F.emax : Int) + 1 ≤ 2 * k)
    (i : Fin M) (hi : (2 : ℝ) ^ k ≤ |v[i].val|) :
    v.length = .ok (.inf false) ∧ ∃ w, v.normalize cfg = .ok (w, .inf false) ∧ ∀ j : Fin M, Spec.IsZero w[j] := by
  obtain ⟨s, h1, -, h3⟩ := sq_loop v hv
  have hs := h3 ⟨i, sq_overflow (hv i) k hk hi⟩
  subst hs
  have hlen : v.length = .ok (.inf false) := by
    unfold Vec.length
    rw [h1, bind_ok]; rfl
  refine ⟨hlen, Vector.ofFn fun i => v[i] * (1 / .inf false), ?_, ?_⟩
  · rw [normalize_of cfg v _ hlen, beq_inf_zero]; rfl
  · intro j
    obtain ⟨h, e1⟩ := one_eq (F := F) h0
    have e2 : (1 / .inf false : Fp F) = .fin false 0 mag_zero := by rw [e1]; rfl
    simp only [Fin.getElem_fin, Vector.getElem_ofFn, e2]
    exact mul_zero_fin (hv j) false

/-! ## Underflow -/

theorem rnd_tiny {x : ℝ} (h0 : 0 ≤ x) (h : x < F.eta) : F.rnd x = 0 := by
  by_cases hx : x = 0
  · subst hx; exact rnd_zero
  have hsm : |x| < (2 : ℝ) ^ F.emin := by
    rw [abs_of_nonneg h0]
    refine h.trans_le ?_
    unfold eta
    have : (2 : ℝ) ^ (F.emin - F.p) ≤ (2 : ℝ) ^ F.emin := zpow_le_zpow_right₀ (by norm_num) (by omega)
    have h2 : (0 : ℝ) < (2 : ℝ) ^ (F.emin - F.p) := by positivity
    linarith
  have hp : (0 : ℝ) < (2 : ℝ) ^ (F.emin - F.p) := by positivity
  unfold rnd
  rw [lastExp_small hx hsm]
  have hy0 : 0 ≤ x / (2 : ℝ) ^ (F.emin - F.p) := by positivity
  have hy : x / (2 : ℝ) ^ (F.emin - F.p) < 1 / 2 := by rw [div_lt_iff₀ hp]; exact h
  have hf : ⌊x / (2 : ℝ) ^ (F.emin - F.p)⌋ = 0 := by rw [Int.floor_eq_zero_iff]; exact ⟨hy0, by linarith⟩
  have : nearest (x / (2 : ℝ) ^ (F.emin - F.p)) = 0 := by
    unfold nearest
    rw [hf]
    simp only [Int.cast_zero, sub_zero]
    rw [if_pos hy]
  rw [this]; simp

private theorem beq_zero_zero : ((0 : Fp F) == 0) = true := by
  show @decide (Fp.eqP 0 0) (Classical.propDecidable _) = true
  exact @decide_eq_true _ (Classical.propDecidable _) ⟨_, rfl, _, rfl, rfl⟩

/-- **C109** Underflow: a finite vector all of whose components have a square below half of the smallest positive number (below about `2.6e-23` in `float`,
`1.5e-162` in `double`) has length zero, and `normalize` returns `0` and leaves it as it is, also when it is not the zero vector. -/
theorem C109_underflow (cfg : Cfg) (v : Vec M (Fp F)) (hv : ∀ i : Fin M, v[i].Finite) (hi : ∀ i : Fin M, v[i].val ^ 2 < F.eta) :
    v.length = .ok 0 ∧ v.normalize cfg = .ok (v, 0) := by
  have hz : (0 : Fp F) = .fin false 0 mag_zero := rfl
  have hsq : v.squaredLength = .ok 0 := by
    unfold Vec.squaredLength
    have key : ∀ k, k ≤ M → loop k (fun i s => do pure (s + (← v.rawGet i) * (← v.rawGet i))) (0 : Fp F) = .ok 0 := by
      intro k
      induction k with
      | zero => intro _; simp
      | succ k ih =>
        intro hk
        have hk' : k < M := hk
        rw [loop_succ, ih hk'.le, bind_ok, Vec.rawGet_lt _ hk', bind_ok, bind_ok]
        obtain ⟨sg, m, hm, he⟩ := Fp.finite_cases (hv ⟨k, hk'⟩)
        have he' : v[k] = Fp.fin sg m hm := he
        have h1 := hi ⟨k, hk'⟩
        rw [Fin.getElem_fin, he'] at h1
        have h2 : m * m < F.eta := by cases sg <;> simp at h1 <;> nlinarith
        have h3 : F.rnd (m * m) = 0 := rnd_tiny (mul_self_nonneg m) h2
        have h4 : v[k] * v[k] = (0 : Fp F) := by
          rw [he', mul_self_eq, Fp.round_eq (mul_self_nonneg m) (by rw [h3]; exact maxFinite_pos.le)]
          simp only [h3]; rfl
        rw [h4]
        show Except.ok ((0 : Fp F) + 0) = _
        congr 1
        rw [hz, add_pos_fin, if_pos (by norm_num)]
    exact key M le_rfl
  have hlen : v.length = .ok 0 := by
    unfold Vec.length
    rw [hsq, bind_ok]
    show Except.ok (CMath.sqrt (0 : Fp F)) = _
    congr 1
    exact if_pos rfl
  exact ⟨hlen, by rw [normalize_of cfg v _ hlen, beq_zero_zero]; rfl⟩

/-! ## NaN and infinities -/

private theorem nan_add (a : Fp F) : .nan + a = .nan := rfl
private theorem add_nan (a : Fp F) : a + .nan = .nan := by cases a <;> rfl
private theorem nan_mul (a : Fp F) : .nan * a = .nan := rfl
private theorem mul_nan (a : Fp F) : a * .nan = .nan := by cases a <;> rfl

/-- **C109** A NaN component makes the length NaN and, after `normalize`, every component NaN. -/
theorem C109_nan (cfg : Cfg) (v : Vec M (Fp F)) (i : Fin M) (hi : v[i] = .nan) :
    v.length = .ok .nan ∧ ∃ w, v.normalize cfg = .ok (w, .nan) ∧ ∀ j : Fin M, w[j] = .nan := by
  have hsq : v.squaredLength = .ok .nan := by
    have key : ∀ k, k ≤ M → ∃ s, loop k (fun i s => do pure (s + (← v.rawGet i) * (← v.rawGet i))) (0 : Fp F) = .ok s ∧ (i.1 < k → s = .nan) := by
      intro k
      induction k with
      | zero => intro _; exact ⟨0, by simp, fun h => absurd h (by omega)⟩
      | succ k ih =>
        intro hk
        have hk' : k < M := hk
        obtain ⟨s, h1, h2⟩ := ih hk'.le
        refine ⟨s + v[k] * v[k], by rw [loop_succ, h1, bind_ok]; simp [hk'], ?_⟩
        intro hik
        rcases Nat.lt_succ_iff_lt_or_eq.1 hik with hlt | heq
        · rw [h2 hlt, nan_add]
        · have : v[k] = .nan := by
            have : i = ⟨k, hk'⟩ := Fin.ext heq
            subst this
            exact hi
          rw [this, nan_mul, add_nan]
    obtain ⟨s, h1, h2⟩ := key M le_rfl
    rw [h2 i.2] at h1
    exact h1
  have hlen : v.length = .ok .nan := by
    unfold Vec.length
    rw [hsq, bind_ok]; rfl
  have hb : ((.nan : Fp F) == 0) = false := by
    show @decide (Fp.eqP .nan 0) (Classical.propDecidable _) = false
    rw [decide_eq_false_iff_not]
    rintro ⟨x, hx, -⟩
    simp [Fp.ext] at hx
  refine ⟨hlen, Vector.ofFn fun i => v[i] * (1 / .nan), by rw [normalize_of cfg v _ hlen, hb]; rfl, ?_⟩
  intro j
  have : (1 / .nan : Fp F) = .nan := by cases (1 : Fp F) <;> rfl
  simp only [Fin.getElem_fin, Vector.getElem_ofFn, this, mul_nan]

/-! ## What holds: the squared length in the normal range -/

/-- The exact length of a vector of finite values. -/
noncomputable def Spec.flen (v : Vec M (Fp F)) : ℝ := Real.sqrt (∑ i : Fin M, v[i].val ^ 2)
/-- Relative error of the length. -/
noncomputable def Spec.flenErr (F : Format) (M : Nat) : ℝ := (1 + 2 * Spec.gamma F.u M) * (1 + F.u) - 1

private theorem eta_eq : F.eta = F.u * (2 : ℝ) ^ F.emin := by
  unfold eta u
  rw [zpow_sub₀ (by norm_num), zpow_natCast, inv_pow, pow_succ]
  field_simp

private theorem nonneg_val {a : Fp F} (h : NonNeg a) : 0 ≤ a.val := by
  rcases h with rfl | ⟨m, hm, rfl⟩
  · simp [Fp.val]
  · simpa using hm.1

/-- The length, when the sum of squares is finite and the exact one at least the smallest normal number. -/
theorem length_err (hp : F.p < F.emax) (v : Vec M (Fp F)) (hM : M * F.u < 1) {s : Fp F} (h1 : v.squaredLength = .ok s) (hs : s.Finite)
    (hlo : (2 : ℝ) ^ F.emin ≤ ∑ i : Fin M, v[i].val ^ 2) :
    (CMath.sqrt s).Finite ∧ |(CMath.sqrt s).val - Spec.flen v| ≤ Spec.flenErr F M * Spec.flen v := by
  have h0 : 0 < F.emax := by omega
  obtain ⟨s', h1', h2, -⟩ := C108_squared_length h0 v hM
  obtain rfl : s = s' := Except.ok.inj (h1.symm.trans h1')
  obtain ⟨hv, herr⟩ := h2 hs
  obtain ⟨s', h1', hnn, -⟩ := sq_loop v hv
  obtain rfl : s = s' := Except.ok.inj (h1.symm.trans h1')
  have hs0 := nonneg_val hnn
  obtain ⟨g1, g2⟩ := Fp.sqrt_fin h0 hs hs0
  refine ⟨g1, ?_⟩
  set S := ∑ i : Fin M, v[i].val ^ 2 with hS
  have hpow : (0 : ℝ) < (2 : ℝ) ^ F.emin := by positivity
  have hSpos : 0 < S := lt_of_lt_of_le hpow hlo
  have hL : Spec.flen v = Real.sqrt S := rfl
  have hLpos : 0 < Real.sqrt S := Real.sqrt_pos.2 hSpos
  have hu := F.u_pos
  have hd : 0 < 1 - (M : ℝ) * F.u := by linarith
  -- the squared length
  have hsq : |s.val - S| ≤ 2 * Spec.gamma F.u M * S := by
    refine herr.trans ?_
    unfold Spec.accErr Spec.gamma
    rw [eta_eq, mul_div_assoc', div_mul_eq_mul_div]
    apply div_le_div_of_nonneg_right _ hd.le
    have : (M : ℝ) * F.u * (2 : ℝ) ^ F.emin ≤ M * F.u * S := mul_le_mul_of_nonneg_left hlo (by positivity)
    nlinarith
  -- its root
  have hroot : |Real.sqrt s.val - Real.sqrt S| ≤ 2 * Spec.gamma F.u M * Real.sqrt S := by
    have hr0 := Real.sqrt_nonneg s.val
    have e1 : (Real.sqrt s.val - Real.sqrt S) * (Real.sqrt s.val + Real.sqrt S) = s.val - S := by
      have a1 := Real.mul_self_sqrt hs0
      have a2 := Real.mul_self_sqrt hSpos.le
      nlinarith
    have e2 : |Real.sqrt s.val - Real.sqrt S| * (Real.sqrt s.val + Real.sqrt S) = |s.val - S| := by
      rw [← e1, abs_mul, abs_of_pos (by linarith : 0 < Real.sqrt s.val + Real.sqrt S)]
    have e3 : |Real.sqrt s.val - Real.sqrt S| * Real.sqrt S ≤ 2 * Spec.gamma F.u M * Real.sqrt S * Real.sqrt S := by
      calc _ ≤ |Real.sqrt s.val - Real.sqrt S| * (Real.sqrt s.val + Real.sqrt S) := mul_le_mul_of_nonneg_left (by linarith) (abs_nonneg _)
        _ = |s.val - S| := e2
        _ ≤ _ := by rw [mul_assoc, Real.mul_self_sqrt hSpos.le]; exact hsq
    exact le_of_mul_le_mul_right e3 hLpos
  have hrnd : |F.rnd (Real.sqrt s.val) - Real.sqrt s.val| ≤ F.u * Real.sqrt s.val := by
    by_cases hz : s.val = 0
    · rw [hz]; simp
    have hpos : 0 < s.val := lt_of_le_of_ne hs0 (Ne.symm hz)
    have hge : (2 : ℝ) ^ F.emin ≤ |Real.sqrt s.val| := by
      rw [abs_of_nonneg (Real.sqrt_nonneg _)]
      apply Real.le_sqrt_of_sq_le
      obtain ⟨k, hk⟩ := (Fp.rep_val hs).grid
      have hk1 : 1 ≤ k := by
        by_contra hc
        have : (k : ℝ) ≤ 0 := by exact_mod_cast (by omega : k ≤ 0)
        have h2 : (0 : ℝ) < (2 : ℝ) ^ (F.emin - F.p) := by positivity
        nlinarith
      have hk2 : (1 : ℝ) ≤ k := by exact_mod_cast hk1
      calc ((2 : ℝ) ^ F.emin) ^ 2 = (2 : ℝ) ^ (F.emin + F.emin) := by rw [sq, zpow_add₀ (by norm_num)]
        _ ≤ (2 : ℝ) ^ (F.emin - F.p) := zpow_le_zpow_right₀ (by norm_num) (by unfold emin; omega)
        _ ≤ k * (2 : ℝ) ^ (F.emin - F.p) := le_mul_of_one_le_left (by positivity) hk2
        _ = s.val := hk.symm
    have := rnd_err_normal hge
    rwa [abs_of_nonneg (Real.sqrt_nonneg s.val)] at this
  rw [g2, hL]
  have hle : Real.sqrt s.val ≤ (1 + 2 * Spec.gamma F.u M) * Real.sqrt S := by
    have := (abs_le.1 hroot).2
    linarith
  calc |F.rnd (Real.sqrt s.val) - Real.sqrt S| = |(F.rnd (Real.sqrt s.val) - Real.sqrt s.val) + (Real.sqrt s.val - Real.sqrt S)| := by congr 1; ring
    _ ≤ _ := abs_add_le _ _
    _ ≤ F.u * ((1 + 2 * Spec.gamma F.u M) * Real.sqrt S) + 2 * Spec.gamma F.u M * Real.sqrt S :=
        add_le_add (hrnd.trans (mul_le_mul_of_nonneg_left hle hu.le)) hroot
    _ = _ := by unfold Spec.flenErr; ring

/-- **C109** `length`: for finite components whose exact sum of squares is in the normal range (at least `2^emin`, with room for rounding below the largest
number), the length is finite and accurate to a relative error of about `( 2M + 1 ) u`. -/
theorem C109_length (hp : F.p < F.emax) (v : Vec M (Fp F)) (hM : M * F.u < 1) (hv : ∀ i : Fin M, v[i].Finite)
    (hlo : (2 : ℝ) ^ F.emin ≤ ∑ i : Fin M, v[i].val ^ 2) (hhi : ∑ i : Fin M, v[i].val ^ 2 + M * F.eta ≤ (1 - M * F.u) * F.maxFinite) :
    ∃ len, v.length = .ok len ∧ len.Finite ∧ |len.val - Spec.flen v| ≤ Spec.flenErr F M * Spec.flen v := by
  have h0 : 0 < F.emax := by omega
  obtain ⟨s, h1, -, h3⟩ := C108_squared_length h0 v hM
  obtain ⟨g1, g2⟩ := length_err hp v hM h1 (h3 hv hhi) hlo
  exact ⟨CMath.sqrt s, by unfold Vec.length; rw [h1, bind_ok]; rfl, g1, g2⟩

private theorem pow_le_max : (2 : ℝ) ^ (F.emax : Int) ≤ F.maxFinite := by
  unfold maxFinite
  have h2 : (1 : ℝ) ≤ (2 : ℝ) ^ F.p := one_le_pow₀ (by norm_num)
  have e : (2 : ℝ) ^ (F.emax : Int) = (2 : ℝ) ^ F.p * (2 : ℝ) ^ ((F.emax : Int) - F.p) := by
    rw [← zpow_natCast (2 : ℝ) F.p, ← zpow_add₀ (by norm_num)]; congr 1; ring
  rw [e, pow_succ]
  apply mul_le_mul_of_nonneg_right _ (by positivity)
  linarith

private theorem two_le (a e : ℝ) (ha : 0 ≤ a) (he : 0 ≤ e) (h1 : e < 1) : 2 ≤ (1 + a) / (1 - e) + (1 - a) / (1 + e) := by
  rw [div_add_div _ _ (by linarith) (by linarith), le_div_iff₀ (by nlinarith)]
  nlinarith [mul_nonneg ha he, sq_nonneg e]

set_option maxHeartbeats 800000 in
/-- The reciprocal of the length. -/
theorem recip_length (hp : F.p < F.emax) (h5 : 5 ≤ F.emax) (v : Vec M (Fp F)) (hM : M * F.u < 1) (hε : Spec.flenErr F M ≤ 1 / 2)
    (hv : ∀ i : Fin M, v[i].Finite) (hlo : (2 : ℝ) ^ F.emin ≤ ∑ i : Fin M, v[i].val ^ 2)
    (hhi : ∑ i : Fin M, v[i].val ^ 2 + M * F.eta ≤ (1 - M * F.u) * F.maxFinite) :
    ∃ len, v.length = .ok len ∧ len.Finite ∧ (len == 0) = false ∧ (1 / len : Fp F).Finite ∧ 0 ≤ (1 / len : Fp F).val ∧ 0 ≤ Spec.flenErr F M ∧ 0 < Spec.flen v ∧
      |(1 / len : Fp F).val * Spec.flen v - 1| ≤ (1 + F.u) / (1 - Spec.flenErr F M) - 1 ∧ (4 : ℝ) ≤ F.maxFinite := by
  have h0 : 0 < F.emax := by omega
  have hu := F.u_pos
  obtain ⟨len, hl1, hl2, hl3⟩ := C109_length hp v hM hv hlo hhi
  set ε := Spec.flenErr F M with hεd
  set S := ∑ i : Fin M, v[i].val ^ 2 with hS
  have hSpos : 0 < S := lt_of_lt_of_le (by positivity) hlo
  obtain ⟨L, hLd⟩ : ∃ L, L = Spec.flen v := ⟨_, rfl⟩
  rw [← hLd] at hl3 ⊢
  have hLL : L * L = S := by rw [hLd]; exact Real.mul_self_sqrt hSpos.le
  have hLpos : 0 < L := by rw [hLd]; exact Real.sqrt_pos.2 hSpos
  have hε0 : 0 ≤ ε := by
    have := (abs_nonneg _).trans hl3
    by_contra hc
    push Not at hc
    nlinarith
  have b1 : (1 - ε) * L ≤ len.val := by have := (abs_le.1 hl3).1; linarith
  have b2 : len.val ≤ (1 + ε) * L := by have := (abs_le.1 hl3).2; linarith
  have hlen : 0 < len.val := lt_of_lt_of_le (mul_pos (by linarith) hLpos) b1
  have hlenhalf : L / 2 ≤ len.val := by nlinarith
  have hlen32 : len.val ≤ 3 / 2 * L := by nlinarith
  have hmaxpow := pow_le_max (F := F)
  have hmaxlt := maxFinite_lt (F := F)
  -- `len` is not zero
  have hne : (len == 0) = false := by
    show @decide (Fp.eqP len 0) (Classical.propDecidable _) = false
    rw [decide_eq_false_iff_not]
    rintro ⟨x, hx, y, hy, rfl⟩
    obtain ⟨sg, m, hm, rfl⟩ := Fp.finite_cases hl2
    have e1 : ((Fp.fin sg m hm).val : EReal) = x := by simpa [Fp.ext] using hx
    have e2 : (((0 : Fp F).val : ℝ) : EReal) = x := by
      have : x ∈ some (((0 : Fp F).val : ℝ) : EReal) := hy
      simpa using this
    rw [← e1, EReal.coe_eq_coe_iff, Fp.val_zero] at e2
    linarith
  -- the reciprocal
  obtain ⟨o1, o2⟩ := Fp.one_fin (F := F) h0
  have hSmax : S ≤ F.maxFinite := by
    have a1 : 0 ≤ (M : ℝ) * F.eta := mul_nonneg (Nat.cast_nonneg _) F.eta_pos.le
    have a2 : 0 ≤ (M : ℝ) * F.u * F.maxFinite := mul_nonneg (mul_nonneg (Nat.cast_nonneg _) hu.le) maxFinite_pos.le
    nlinarith
  have hinvle : 1 / len.val ≤ F.maxFinite := by
    refine le_trans ?_ hmaxpow
    rw [div_le_iff₀ hlen]
    have hq : 0 < (2 : ℝ) ^ (F.emax : Int) := by positivity
    have hsq : (1 : ℝ) ≤ ((2 : ℝ) ^ (F.emax : Int) * (L / 2)) ^ 2 := by
      have e1 : ((2 : ℝ) ^ (F.emax : Int) * (L / 2)) ^ 2 = (2 : ℝ) ^ (2 * (F.emax : Int) - 2) * S := by
        rw [← hLL, zpow_sub₀ (by norm_num), two_mul, zpow_add₀ (by norm_num)]; norm_num; ring
      rw [e1]
      calc (1 : ℝ) ≤ (2 : ℝ) ^ (2 * (F.emax : Int) - 2 + F.emin) := one_le_zpow₀ (by norm_num) (by unfold emin; omega)
        _ = (2 : ℝ) ^ (2 * (F.emax : Int) - 2) * (2 : ℝ) ^ F.emin := zpow_add₀ (by norm_num) _ _
        _ ≤ _ := by gcongr
    have h1 : 1 ≤ (2 : ℝ) ^ (F.emax : Int) * (L / 2) := by
      by_contra hc
      push Not at hc
      have : 0 ≤ (2 : ℝ) ^ (F.emax : Int) * (L / 2) := by positivity
      nlinarith
    nlinarith
  have hinvge : (2 : ℝ) ^ F.emin ≤ 1 / len.val := by
    rw [le_div_iff₀ hlen]
    have hlsq : len.val ^ 2 ≤ (2 : ℝ) ^ ((F.emax : Int) + 3) := by
      have e1 : len.val ^ 2 ≤ (3 / 2 * L) ^ 2 := by gcongr
      have e2 : (3 / 2 * L) ^ 2 = 9 / 4 * S := by rw [← hLL]; ring
      have e3 : (2 : ℝ) ^ ((F.emax : Int) + 3) = 4 * (2 : ℝ) ^ ((F.emax : Int) + 1) := by
        rw [show (F.emax : Int) + 3 = 2 + ((F.emax : Int) + 1) by ring, zpow_add₀ (by norm_num)]; norm_num
      linarith
    have hsq : ((2 : ℝ) ^ F.emin * len.val) ^ 2 ≤ 1 := by
      rw [mul_pow]
      calc ((2 : ℝ) ^ F.emin) ^ 2 * len.val ^ 2 ≤ ((2 : ℝ) ^ F.emin) ^ 2 * (2 : ℝ) ^ ((F.emax : Int) + 3) := by gcongr
        _ = (2 : ℝ) ^ (F.emin + F.emin + ((F.emax : Int) + 3)) := by rw [sq, ← zpow_add₀ (by norm_num), ← zpow_add₀ (by norm_num)]
        _ ≤ 1 := zpow_le_one_of_nonpos₀ (by norm_num) (by unfold emin; omega)
    have hnn : 0 ≤ (2 : ℝ) ^ F.emin * len.val := by positivity
    by_contra hc
    push Not at hc
    nlinarith
  have habsinv : |1 / len.val| = 1 / len.val := abs_of_pos (by positivity)
  obtain ⟨t1, t2⟩ := Fp.div_fin h0 o1 hl2 hlen.ne' (by rw [o2, habsinv]; exact hinvle)
  rw [o2] at t2
  have terr : |(1 / len).val - 1 / len.val| ≤ F.u * (1 / len.val) := by
    rw [t2]
    have := rnd_err_normal (F := F) (x := 1 / len.val) (by rw [habsinv]; exact hinvge)
    rwa [habsinv] at this
  obtain ⟨tv, htv⟩ : ∃ tv, tv = (1 / len).val := ⟨_, rfl⟩
  rw [← htv] at terr
  have c1 : tv ≤ (1 + F.u) * (1 / len.val) := by have := (abs_le.1 terr).2; linarith
  have c2 : (1 - F.u) * (1 / len.val) ≤ tv := by have := (abs_le.1 terr).1; linarith
  have hi1 : 1 / len.val ≤ 1 / ((1 - ε) * L) := one_div_le_one_div_of_le (mul_pos (by linarith) hLpos) b1
  have hi2 : 1 / ((1 + ε) * L) ≤ 1 / len.val := one_div_le_one_div_of_le hlen b2
  have hu1 : F.u ≤ 1 / 2 := by
    unfold u
    rw [pow_succ]
    have : (2 : ℝ)⁻¹ ^ F.p ≤ 1 := pow_le_one₀ (by norm_num) (by norm_num)
    linarith
  have htv0 : 0 ≤ tv := le_trans (mul_nonneg (by linarith) (by positivity)) c2
  have hεpos : 0 < 1 - ε := by linarith
  have hT1 : tv * L ≤ (1 + F.u) / (1 - ε) := by
    calc tv * L ≤ (1 + F.u) * (1 / ((1 - ε) * L)) * L := by
          apply mul_le_mul_of_nonneg_right _ hLpos.le
          exact c1.trans (mul_le_mul_of_nonneg_left hi1 (by linarith))
      _ = _ := by field_simp
  have hT2 : (1 - F.u) / (1 + ε) ≤ tv * L := by
    calc (1 - F.u) / (1 + ε) = (1 - F.u) * (1 / ((1 + ε) * L)) * L := by field_simp
      _ ≤ tv * L := by
          apply mul_le_mul_of_nonneg_right _ hLpos.le
          exact le_trans (mul_le_mul_of_nonneg_left hi2 (by linarith)) c2
  have hT : |tv * L - 1| ≤ (1 + F.u) / (1 - ε) - 1 := by
    rw [abs_le]
    refine ⟨?_, by linarith⟩
    have : 2 ≤ (1 + F.u) / (1 - ε) + (1 - F.u) / (1 + ε) := two_le _ _ hu.le hε0 (by linarith)
    linarith
  have h4max : (4 : ℝ) ≤ F.maxFinite := by
    refine le_trans ?_ hmaxpow
    calc (4 : ℝ) = (2 : ℝ) ^ (2 : Int) := by norm_num
      _ ≤ _ := zpow_le_zpow_right₀ (by norm_num) (by omega)
  rw [htv] at hT htv0
  exact ⟨len, hl1, hl2, hne, t1, htv0, hε0, hLpos, hT, h4max⟩

set_option maxHeartbeats 800000 in
/-- **C109** Vectors whose squared length is out of the normal range are covered by `C109_overflow` and `C109_underflow`. `normalize`
returns the length above, and every component is the exact one up to a relative error of about `( 2M + 3 ) u` (plus the underflow of a tiny component). -/
theorem C109_normalize (hp : F.p < F.emax) (h5 : 5 ≤ F.emax) (cfg : Cfg) (v : Vec M (Fp F)) (hM : M * F.u < 1) (hε : Spec.flenErr F M ≤ 1 / 2)
    (hv : ∀ i : Fin M, v[i].Finite) (hlo : (2 : ℝ) ^ F.emin ≤ ∑ i : Fin M, v[i].val ^ 2)
    (hhi : ∑ i : Fin M, v[i].val ^ 2 + M * F.eta ≤ (1 - M * F.u) * F.maxFinite) :
    ∃ w len, v.normalize cfg = .ok (w, len) ∧ v.length = .ok len ∧ ∀ i : Fin M, w[i].Finite ∧
      |w[i].val - v[i].val / Spec.flen v| ≤ ((1 + F.u) ^ 2 / (1 - Spec.flenErr F M) - 1) * |v[i].val / Spec.flen v| + F.eta := by
  have h0 : 0 < F.emax := by omega
  have hu := F.u_pos
  obtain ⟨len, hl1, hl2, hne, t1, htv0, hε0, hLpos, hT, h4max⟩ := recip_length hp h5 v hM hε hv hlo hhi
  set ε := Spec.flenErr F M with hεd
  obtain ⟨L, hLd⟩ : ∃ L, L = Spec.flen v := ⟨_, rfl⟩
  rw [← hLd] at hLpos hT ⊢
  obtain ⟨tv, htv⟩ : ∃ tv, tv = (1 / len).val := ⟨_, rfl⟩
  rw [← htv] at htv0 hT
  have hT1 : tv * L ≤ (1 + F.u) / (1 - ε) := by have := (abs_le.1 hT).2; linarith
  have hu1 : F.u ≤ 1 / 2 := by
    unfold u
    rw [pow_succ]
    have : (2 : ℝ)⁻¹ ^ F.p ≤ 1 := pow_le_one₀ (by norm_num) (by norm_num)
    linarith
  have hεpos : 0 < 1 - ε := by linarith
  refine ⟨Vector.ofFn fun i => v[i] * (1 / len), len, by rw [normalize_of cfg v _ hl1, hne]; rfl, hl1, ?_⟩
  intro i
  simp only [Fin.getElem_fin, Vector.getElem_ofFn]
  have hvi : |v[i].val| ≤ L := by
    rw [hLd]
    unfold Spec.flen
    apply Real.abs_le_sqrt
    exact Finset.single_le_sum (f := fun i : Fin M => v[i].val ^ 2) (fun i _ => sq_nonneg _) (Finset.mem_univ i)
  have hprod : |v[i].val * tv| ≤ 4 := by
    rw [abs_mul, abs_of_nonneg htv0]
    have : (1 + F.u) / (1 - ε) ≤ 4 := by rw [div_le_iff₀ hεpos]; linarith
    calc |v[i].val| * tv ≤ L * tv := mul_le_mul_of_nonneg_right hvi htv0
      _ ≤ 4 := by linarith
  have hvi' : v[i.1].Finite := hv i
  obtain ⟨r1, r2⟩ := Fp.mul_fin h0 hvi' t1 (by rw [← htv]; exact hprod.trans h4max)
  refine ⟨r1, ?_⟩
  rw [r2, ← htv]
  have q1 : |v[i.1].val * tv - v[i.1].val / L| ≤ ((1 + F.u) / (1 - ε) - 1) * |v[i.1].val / L| := by
    have : v[i.1].val * tv - v[i.1].val / L = (tv * L - 1) * (v[i.1].val / L) := by field_simp
    rw [this, abs_mul]
    exact mul_le_mul_of_nonneg_right hT (abs_nonneg _)
  have q2 : |v[i.1].val * tv| ≤ (1 + F.u) / (1 - ε) * |v[i.1].val / L| := by
    calc |v[i.1].val * tv| = |(v[i.1].val * tv - v[i.1].val / L) + v[i.1].val / L| := by congr 1; ring
      _ ≤ _ := abs_add_le _ _
      _ ≤ _ := by linarith
  calc |F.rnd (v[i.1].val * tv) - v[i.1].val / L| = |(F.rnd (v[i.1].val * tv) - v[i.1].val * tv) + (v[i.1].val * tv - v[i.1].val / L)| := by congr 1; ring
    _ ≤ _ := abs_add_le _ _
    _ ≤ (F.u * ((1 + F.u) / (1 - ε) * |v[i.1].val / L|) + F.eta) + ((1 + F.u) / (1 - ε) - 1) * |v[i.1].val / L| :=
        add_le_add ((rnd_err_add _).trans (by gcongr)) q1
    _ = _ := by ring

/-! ## Concrete cases -/

/-- A power of two as a `float`. -/
private noncomputable def two (e : Int) (h1 : -149 ≤ e) (h2 : e ≤ 127) : Fp single :=
  .fin false ((2 : ℝ) ^ e) ⟨by positivity, rep_pow (by simpa [emin] using h1), by
    have h := pow_le_max (F := single)
    refine le_trans ?_ h
    exact zpow_le_zpow_right₀ (by norm_num) (by simpa using h2)⟩

/-- `float`: `( 2^100, 2^100 )` has finite components and normalises to zero; `( 2^-80, 2^-80 )` is left unchanged. -/
example (cfg : Cfg) : ∃ w, Vec.normalize cfg (#v[two 100 (by norm_num) (by norm_num), two 100 (by norm_num) (by norm_num)] : Vec 2 (Fp single)) =
    .ok (w, .inf false) ∧ ∀ j : Fin 2, Spec.IsZero w[j] :=
  (C109_overflow (F := single) (by norm_num) cfg _ (by intro i; fin_cases i <;> trivial) 64 (by norm_num) 0 (by
    show (2 : ℝ) ^ (64 : Int) ≤ |if false = true then -(2 : ℝ) ^ (100 : Int) else (2 : ℝ) ^ (100 : Int)|
    norm_num)).2

example (cfg : Cfg) := C109_underflow cfg (#v[two (-80) (by norm_num) (by norm_num), two (-80) (by norm_num) (by norm_num)] : Vec 2 (Fp single))
  (by intro i; fin_cases i <;> trivial) (by
    intro i
    have : ((2 : ℝ) ^ (-80 : Int)) ^ 2 < single.eta := by
      unfold eta emin
      norm_num
    fin_cases i <;> exact this)

/-- `( 3, 4 )`-like case in the safe range: `( 1, 2^10 )` as `float`. -/
example (cfg : Cfg) := C109_normalize (F := single) (by norm_num) (by norm_num) cfg
  (#v[two 0 (by norm_num) (by norm_num), two 10 (by norm_num) (by norm_num)] : Vec 2 (Fp single)) (by norm_num [u])
  (by norm_num [Spec.flenErr, Spec.gamma, u]) (by intro i; fin_cases i <;> trivial)
  (by
    rw [Fin.sum_univ_two]
    show (2 : ℝ) ^ (emin single) ≤ ((2 : ℝ) ^ (0 : Int)) ^ 2 + ((2 : ℝ) ^ (10 : Int)) ^ 2
    norm_num [emin])
  (by
    rw [Fin.sum_univ_two]
    show ((2 : ℝ) ^ (0 : Int)) ^ 2 + ((2 : ℝ) ^ (10 : Int)) ^ 2 + (2 : Nat) * single.eta ≤ (1 - (2 : Nat) * single.u) * single.maxFinite
    norm_num [eta, emin, u, maxFinite])

end Vmml
