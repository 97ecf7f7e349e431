import Verif.Props.FloatInverse
import Verif.Props.FloatBox
import Verif.Props.PositiveDefinite

/-!
# C140: `is_positive_definite` in IEEE 754 arithmetic
-/

set_option linter.unusedSimpArgs false

namespace Vmml
open Mat Format
variable {F : Format} {n : Nat}

/-! ## Specification -/

/-- The upper left `k` by `k` block. -/
def Spec.lead (m : Mat n n (Fp F)) (k : Nat) (hk : k ≤ n) : Mat k k (Fp F) := ofFn fun r c => m.get (Fin.castLE hk r) (Fin.castLE hk c)

/-- The bound of the error of the computed leading principal minor of order `k` of a matrix with entries of magnitude at most `B`. -/
noncomputable def Spec.minorErr (m : Mat n n (Fp F)) (B : ℝ) (k : Nat) (hk : k ≤ n) : ℝ :=
  ((1 + F.u) ^ Spec.detDepth k - 1) * (Spec.mags k (Spec.fvals (Spec.lead m k hk)) + Spec.pad F k B)

/-- The entries are finite and of magnitude at most `B`, and the computation of the determinant of a block cannot overflow. -/
structure Spec.PosFits (m : Mat n n (Fp F)) (B : ℝ) : Prop where
  finite : ∀ i j, (m.get i j).Finite
  one : 1 ≤ B
  le : ∀ i j, |(m.get i j).val| ≤ B
  room : ∀ k, 1 ≤ k → k ≤ n → (1 + F.u) ^ Spec.detDepth k * (k.factorial * B ^ k + Spec.pad F k B) ≤ F.maxFinite

/-! ## The run -/

private noncomputable def dExp (m : Mat n n (Fp F)) (k : Nat) : Fp F :=
  let g (i j : Nat) : Fp F := if h : i < n ∧ j < n then m.get ⟨i, h.1⟩ ⟨j, h.2⟩ else 0
  match k with
  | 1 => g 0 0
  | 2 => g 0 0 * g 1 1 - g 0 1 * g 1 0
  | 3 => g 0 0 * (g 1 1 * g 2 2 - g 1 2 * g 2 1) + g 0 1 * (g 1 2 * g 2 0 - g 1 0 * g 2 2) + g 0 2 * (g 1 0 * g 2 1 - g 1 1 * g 2 0)
  | _ => 0

private theorem det2_run (cfg : Cfg) (m : Mat 2 2 (Fp F)) : m.det2 cfg = .ok (m.get 0 0 * m.get 1 1 - m.get 0 1 * m.get 1 0) := by simp [det2]

private theorem det3_run (cfg : Cfg) (m : Mat 3 3 (Fp F)) :
    m.det3 cfg = .ok (m.get 0 0 * (m.get 1 1 * m.get 2 2 - m.get 1 2 * m.get 2 1) + m.get 0 1 * (m.get 1 2 * m.get 2 0 - m.get 1 0 * m.get 2 2)
      + m.get 0 2 * (m.get 1 0 * m.get 2 1 - m.get 1 1 * m.get 2 0)) := by
  simp only [det3, atGet_lt cfg m (show 0 < 3 by omega), atGet_lt cfg m (show 1 < 3 by omega),
    atGet_lt cfg m (show 2 < 3 by omega), show 0 < 3 from by omega, show 1 < 3 from by omega,
    show 2 < 3 from by omega, Vmml.bind_ok, pure_ok]
  rfl

private theorem lead_det (cfg : Cfg) (h3 : n ≤ 3) (m : Mat n n (Fp F)) (k : Nat) (hk : k ≤ n) (hk1 : 1 ≤ k) :
    (Spec.lead m k hk).det cfg = .ok (dExp m k) := by
  match k, hk1, hk.trans h3, hk with
  | 1, _, _, hk =>
    rw [det, det1, rawGet_lt _ (by omega)]
    simp only [dExp, show 0 < n by omega, and_self, dite_true]
    exact congrArg Except.ok (get_ofFn _ 0 0)
  | 2, _, _, hk =>
    rw [det, det2_run]
    simp only [dExp, show 0 < n by omega, show 1 < n by omega, and_self, dite_true, Spec.lead, get_ofFn]
    rfl
  | 3, _, _, hk =>
    rw [det, det3_run]
    simp only [dExp, show 0 < n by omega, show 1 < n by omega, show 2 < n by omega, and_self, dite_true, Spec.lead, get_ofFn]
    rfl

private theorem run (cfg : Cfg) (h1 : 1 ≤ n) (h3 : n ≤ 3) (m : Mat n n (Fp F)) (limit : Fp F) :
    ∃ b, m.isPositiveDefinite cfg limit = .ok b ∧ (b = true ↔ ∀ k, 1 ≤ k → k ≤ n → ¬ dExp m k < limit) := by
  unfold isPositiveDefinite
  rw [atGet_lt cfg m (by omega) (by omega), Vmml.bind_ok]
  have e1 : m.get ⟨0, by omega⟩ ⟨0, by omega⟩ = dExp m 1 := by simp [dExp, show 0 < n by omega]
  rw [e1]
  by_cases c1 : dExp m 1 < limit
  · rw [if_pos c1]
    exact ⟨false, rfl, by simp only [Bool.false_eq_true, false_iff]; intro h; exact h 1 le_rfl h1 c1⟩
  rw [if_neg c1]
  have D2 (h : 2 ≤ n) : (ofFn fun r c => m.get ⟨0 + r, by omega⟩ ⟨0 + c, by omega⟩ : Mat 2 2 (Fp F)).det2 cfg = .ok (dExp m 2) := by
    rw [det2_run]; simp [dExp, show 0 < n by omega, show 1 < n by omega]
  have D3 (h : 3 ≤ n) : (ofFn fun r c => m.get ⟨0 + r, by omega⟩ ⟨0 + c, by omega⟩ : Mat 3 3 (Fp F)).det3 cfg = .ok (dExp m 3) := by
    rw [det3_run]; simp [dExp, show 0 < n by omega, show 1 < n by omega, show 2 < n by omega]
  by_cases n1 : 1 < n
  · rw [if_pos n1, ctor_eq, Vmml.bind_ok, getSubMatrix_eq cfg m _ 0 0 (show 2 + 0 ≤ n by omega) (show 2 + 0 ≤ n by omega), Vmml.bind_ok, D2 n1, Vmml.bind_ok,
      pure_ok, Vmml.bind_ok]
    beta_reduce
    by_cases c2 : dExp m 2 < limit
    · exact ⟨false, by simp [c2], by simp only [Bool.false_eq_true, false_iff]; intro h; exact h 2 (by omega) n1 c2⟩
    rw [if_neg (by simp [c2])]
    by_cases n2 : 2 < n
    · rw [if_pos n2, ctor_eq, Vmml.bind_ok, getSubMatrix_eq cfg m _ 0 0 (show 3 + 0 ≤ n by omega) (show 3 + 0 ≤ n by omega), Vmml.bind_ok, D3 n2, Vmml.bind_ok]
      refine ⟨_, rfl, ?_⟩
      rw [decide_eq_true_eq]
      constructor
      · intro c3 k k1 kn
        rcases (show k = 1 ∨ k = 2 ∨ k = 3 by omega) with rfl | rfl | rfl <;> assumption
      · intro h; exact h 3 (by omega) n2
    · rw [if_neg n2]
      refine ⟨true, rfl, ?_⟩
      simp only [true_iff]
      intro k k1 kn
      rcases (show k = 1 ∨ k = 2 by omega) with rfl | rfl <;> assumption
  · rw [if_neg n1, if_neg (by omega : ¬ 2 < n)]
    refine ⟨true, rfl, ?_⟩
    simp only [true_iff]
    intro k k1 kn
    obtain rfl : k = 1 := by omega
    exact c1

/-! ## C140 -/

/-- **C140** The verdict compares the computed leading principal minors with the limit, for matrices of any contents: the call returns, and it returns true exactly when no
computed minor (each of them the result of `det()` on the block) is below the limit. -/
theorem C140_minors (cfg : Cfg) (h1 : 1 ≤ n) (h3 : n ≤ 3) (m : Mat n n (Fp F)) (limit : Fp F) :
    ∃ b, ∃ d : Nat → Fp F, m.isPositiveDefinite cfg limit = .ok b ∧ (∀ k (hk : k ≤ n), 1 ≤ k → (Spec.lead m k hk).det cfg = .ok (d k)) ∧
      (b = true ↔ ∀ k, 1 ≤ k → k ≤ n → ¬ d k < limit) := by
  obtain ⟨b, hb, hb'⟩ := run cfg h1 h3 m limit
  exact ⟨b, dExp m, hb, fun k hk hk1 => lead_det cfg h3 m k hk hk1, hb'⟩

private theorem minor_err (h0 : 0 < F.emax) (cfg : Cfg) (h3 : n ≤ 3) (m : Mat n n (Fp F)) {B : ℝ} (hm : Spec.PosFits m B) (k : Nat) (hk : k ≤ n) (hk1 : 1 ≤ k) :
    (dExp m k).Finite ∧ |(dExp m k).val - leadingMinor (Spec.fvals m) k hk| ≤ Spec.minorErr m B k hk := by
  obtain ⟨d, hd, ha, hf⟩ := C110_det h0 cfg hk1 (by omega) (Spec.lead m k hk) hm.one (by intro i j; simp only [Spec.lead, get_ofFn]; exact hm.le _ _)
  rw [lead_det cfg h3 m k hk hk1] at hd
  cases hd
  have fin : (dExp m k).Finite := hf ⟨by intro i j; simp only [Spec.lead, get_ofFn]; exact hm.finite _ _, hm.room k hk1 hk⟩
  refine ⟨fin, ?_⟩
  have e : leadingMinor (Spec.fvals m) k hk = (Spec.fvals (Spec.lead m k hk)).det := by
    rw [leadingMinor]; congr 1; ext i j
    simp [Spec.fvals, Spec.lead]
  rw [e]
  exact (ha fin).2

/-- **C140** Without overflow, the answer "true" means that every exact leading principal minor is at least the limit minus the error bound, and the answer "false" means that some
minor is below the limit plus the error bound. -/
theorem C140_verdict (h0 : 0 < F.emax) (cfg : Cfg) (h1 : 1 ≤ n) (h3 : n ≤ 3) (m : Mat n n (Fp F)) {B : ℝ} (hm : Spec.PosFits m B) (limit : Fp F) (hl : limit.Finite) :
    ∃ b, m.isPositiveDefinite cfg limit = .ok b ∧
      (b = true → ∀ k (hk : k ≤ n), 1 ≤ k → limit.val - Spec.minorErr m B k hk ≤ leadingMinor (Spec.fvals m) k hk) ∧
      (b = false → ∃ k, ∃ hk : k ≤ n, 1 ≤ k ∧ leadingMinor (Spec.fvals m) k hk < limit.val + Spec.minorErr m B k hk) := by
  obtain ⟨b, hb, hb'⟩ := run cfg h1 h3 m limit
  refine ⟨b, hb, ?_, ?_⟩
  · intro h k hk hk1
    obtain ⟨f, e⟩ := minor_err h0 cfg h3 m hm k hk hk1
    have := hb'.1 h k hk1 hk
    rw [Fp.lt_val f hl, not_lt] at this
    have := (abs_le.1 e).2
    linarith
  · rintro rfl
    have : ¬ ∀ k, 1 ≤ k → k ≤ n → ¬ dExp m k < limit := fun h => by simpa using hb'.2 h
    push Not at this
    obtain ⟨k, hk1, hk, hlt⟩ := this
    obtain ⟨f, e⟩ := minor_err h0 cfg h3 m hm k hk hk1
    rw [Fp.lt_val f hl] at hlt
    have := (abs_le.1 e).1
    exact ⟨k, hk, hk1, by linarith⟩

/-- **C140** A symmetric matrix that is accepted with a limit above the error bounds is positive definite. -/
theorem C140_sound (h0 : 0 < F.emax) (cfg : Cfg) (h1 : 1 ≤ n) (h3 : n ≤ 3) (m : Mat n n (Fp F)) {B : ℝ} (hm : Spec.PosFits m B) (limit : Fp F) (hl : limit.Finite)
    (hs : ∀ i j, (m.get i j).val = (m.get j i).val) (he : ∀ k (hk : k ≤ n), 1 ≤ k → Spec.minorErr m B k hk < limit.val)
    (h : m.isPositiveDefinite cfg limit = .ok true) : IsPosDef (Spec.fvals m) := by
  obtain ⟨b, hb, ht, -⟩ := C140_verdict h0 cfg h1 h3 m hm limit hl
  rw [hb] at h
  cases h
  rw [sylvester h1 h3 (Spec.fvals m) hs]
  intro k hk hk1
  have := ht rfl k hk hk1
  have := he k hk hk1
  linarith

/-- **C140** A positive definite matrix is accepted with every limit that is below minus the error bounds. -/
theorem C140_complete (h0 : 0 < F.emax) (cfg : Cfg) (h1 : 1 ≤ n) (h3 : n ≤ 3) (m : Mat n n (Fp F)) {B : ℝ} (hm : Spec.PosFits m B) (limit : Fp F) (hl : limit.Finite)
    (he : ∀ k (hk : k ≤ n), 1 ≤ k → limit.val ≤ -Spec.minorErr m B k hk) (h : IsPosDef (Spec.fvals m)) : m.isPositiveDefinite cfg limit = .ok true := by
  obtain ⟨b, hb, -, hf⟩ := C140_verdict h0 cfg h1 h3 m hm limit hl
  cases b with
  | true => exact hb
  | false =>
    obtain ⟨k, hk, hk1, hlt⟩ := hf rfl
    have := (sylvester h1 h3 _ h.1).1 h k hk hk1
    have := he k hk hk1
    linarith

/-- **C140** More precisely, a matrix all whose leading principal minors are at least the limit plus the error bound is accepted. -/
theorem C140_accept (h0 : 0 < F.emax) (cfg : Cfg) (h1 : 1 ≤ n) (h3 : n ≤ 3) (m : Mat n n (Fp F)) {B : ℝ} (hm : Spec.PosFits m B) (limit : Fp F) (hl : limit.Finite)
    (h : ∀ k (hk : k ≤ n), 1 ≤ k → limit.val + Spec.minorErr m B k hk ≤ leadingMinor (Spec.fvals m) k hk) : m.isPositiveDefinite cfg limit = .ok true := by
  obtain ⟨b, hb, -, hf⟩ := C140_verdict h0 cfg h1 h3 m hm limit hl
  cases b with
  | true => exact hb
  | false =>
    obtain ⟨k, hk, hk1, hlt⟩ := hf rfl
    have := h k hk hk1
    linarith

private theorem nan_mul (a : Fp F) : Fp.nan * a = (Fp.nan : Fp F) := by rcases a with _ | _ | _ <;> rfl
private theorem nan_sub (a : Fp F) : Fp.nan - a = (Fp.nan : Fp F) := by rcases a with _ | _ | _ <;> rfl
private theorem nan_add (a : Fp F) : Fp.nan + a = (Fp.nan : Fp F) := by rcases a with _ | _ | _ <;> rfl

/-- **C140** fails for a NaN: whatever the other entries and the limit are, a matrix whose first entry is NaN is accepted, because every computed minor is NaN and NaN is not below
the limit. -/
theorem C140_nan_violated (cfg : Cfg) (h1 : 1 ≤ n) (h3 : n ≤ 3) (m : Mat n n (Fp F)) (hm : m.get ⟨0, by omega⟩ ⟨0, by omega⟩ = Fp.nan) (limit : Fp F) :
    m.isPositiveDefinite cfg limit = .ok true := by
  obtain ⟨b, hb, hb'⟩ := run cfg h1 h3 m limit
  rw [hb, hb'.2]
  intro k hk1 hk
  have e : dExp m k = Fp.nan := by
    rcases (show k = 1 ∨ k = 2 ∨ k = 3 by omega) with rfl | rfl | rfl <;> simp [dExp, show 0 < n by omega, hm, nan_mul, nan_sub, nan_add]
  rw [e]
  exact Fp.not_lt_nan_left _

private theorem pad1 (B : ℝ) : Spec.pad F 1 B = 0 := by simp [Spec.pad]
private theorem pad2' (B : ℝ) : Spec.pad F 2 B = 2 * F.tiny := by simp [Spec.pad]

/-- `C140_verdict`, `C140_accept`, `C140_sound`: the matrix with rows `2 1` and `1 2` in single precision fits, is accepted with the limit 1, and this proves that it is positive definite. -/
example (cfg : Cfg) :
    let m : Mat 2 2 (Fp .single) := Mat.ofFn fun i j => if i = j then .fin false ((2 : ℝ) ^ 1) (mag_pow 1 (by decide) (by decide)) else 1
    Spec.PosFits m 2 ∧ m.isPositiveDefinite cfg 1 = .ok true ∧ IsPosDef (Spec.fvals m) := by
  intro m
  obtain ⟨of, o⟩ := Fp.one_fin (F := .single) (by decide)
  have hm : ∀ i j, (m.get i j).Finite ∧ (m.get i j).val = if i = j then 2 else 1 := by
    intro i j
    simp only [m, get_ofFn]
    split_ifs
    · exact ⟨trivial, by simp⟩
    · exact ⟨of, o⟩
  have hB : ∀ i j, |(m.get i j).val| ≤ 2 := by
    intro i j
    rw [(hm i j).2]
    split_ifs <;> norm_num
  have hu : (Format.single).u = 1 / 2 ^ 24 := by unfold u; norm_num
  have ht : (Format.single).tiny ≤ 1 / 4 := by
    have : (Format.single).tiny ≤ (2 : ℝ) ^ (-2 : Int) := zpow_le_zpow_right₀ (by norm_num) (by decide)
    refine this.trans (by norm_num [zpow_neg])
  have ht0 := (Format.single).tiny_pos
  have hmax : (100 : ℝ) ≤ (Format.single).maxFinite := by
    unfold maxFinite
    have h1 : (1 : ℝ) ≤ (2 : ℝ) ^ (((Format.single).emax : Int) - (Format.single).p) := one_le_zpow₀ (by norm_num) (by decide)
    have h2 : (100 : ℝ) ≤ (2 : ℝ) ^ ((Format.single).p + 1) - 1 := by norm_num
    nlinarith
  have hf : Spec.PosFits m 2 := by
    refine ⟨fun i j => (hm i j).1, by norm_num, hB, fun k hk1 hk => le_trans ?_ hmax⟩
    rcases (show k = 1 ∨ k = 2 by omega) with rfl | rfl
    · rw [pad1, hu]; norm_num [Spec.detDepth]
    · rw [pad2', hu]; norm_num [Spec.detDepth, Nat.factorial]; nlinarith
  have e1 : ∀ hk, Spec.minorErr m 2 1 hk = 0 := by intro hk; simp [Spec.minorErr, Spec.detDepth]
  have e2 : ∀ hk, Spec.minorErr m 2 2 hk < 1 := by
    intro hk
    have : Spec.mags 2 (Spec.fvals (Spec.lead m 2 hk)) = 5 := by
      rw [mags2]
      simp only [Spec.fvals, Spec.lead, get_ofFn, (hm _ _).2]
      norm_num
    rw [Spec.minorErr, this, pad2', hu]
    norm_num [Spec.detDepth]
    linarith
  have l1 : ∀ hk, leadingMinor (Spec.fvals m) 1 hk = 2 := by
    intro hk; rw [leading1 (n := 1)]; simp [Spec.fvals, (hm _ _).2]
  have l2 : ∀ hk, leadingMinor (Spec.fvals m) 2 hk = 3 := by
    intro hk; rw [leading2 (n := 0)]; simp [Spec.fvals, (hm _ _).2]; norm_num
  have acc : m.isPositiveDefinite cfg 1 = .ok true := by
    refine C140_accept (by decide) cfg (by omega) (by omega) m hf 1 of fun k hk hk1 => ?_
    rcases (show k = 1 ∨ k = 2 by omega) with rfl | rfl
    · rw [e1, l1, o]; norm_num
    · rw [l2, o]; linarith [e2 hk]
  refine ⟨hf, acc, C140_sound (by decide) cfg (by omega) (by omega) m hf 1 of (fun i j => ?_) (fun k hk hk1 => ?_) acc⟩
  · rw [(hm i j).2, (hm j i).2]; simp only [eq_comm]
  · rcases (show k = 1 ∨ k = 2 by omega) with rfl | rfl
    · rw [e1, o]; norm_num
    · rw [o]; exact e2 hk

end Vmml
