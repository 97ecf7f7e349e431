import Verif.Model.MatrixStats
import Verif.Proofs.MatrixPaint
import Verif.Proofs.VectorReal
import Mathlib.Algebra.BigOperators.Ring.Finset
import Mathlib.Algebra.Order.BigOperators.Group.Finset
import Mathlib.Algebra.Order.Floor.Ring
import Mathlib.Data.Real.Archimedean
import Mathlib.Tactic.Linarith
import Mathlib.Tactic.FieldSimp
import Mathlib.Tactic.Positivity

/-!
# C40 – C42: minima, maxima, sums, norms, quantisation
-/

set_option linter.unusedSimpArgs false

namespace Vmml
open Mat
variable {M N : Nat} {α β δ : Type}

/-! ## Storage positions and cells -/

/-- Storage position of a cell. -/
def cellEquiv : Fin M × Fin N ≃ Fin (M * N) :=
  (Equiv.prodComm _ _).trans (finProdFinEquiv.trans (finCongr (Nat.mul_comm N M)))

theorem Mat.array_cell (m : Mat M N α) (r : Fin M) (c : Fin N) : m.array[cellEquiv (r, c)] = m.get r c := by
  simp only [cellEquiv, Mat.get, Fin.getElem_fin]
  congr 1
  simp [finProdFinEquiv]
  ring

theorem Mat.array_get (m : Mat M N α) (i : Nat) (h : i < M * N) : ∃ r c, m.array[i] = m.get r c := by
  obtain ⟨⟨r, c⟩, hrc⟩ := cellEquiv.surjective (⟨i, h⟩ : Fin (M * N))
  refine ⟨r, c, (?_ : m.array[(⟨i, h⟩ : Fin (M * N))] = _)⟩
  rw [← array_cell]
  simp only [hrc]

theorem Mat.sum_array [AddCommMonoid β] (m : Mat M N α) (f : α → β) :
    ∑ i : Fin (M * N), f m.array[i] = ∑ r, ∑ c, f (m.get r c) := by
  rw [← Fintype.sum_prod_type', ← cellEquiv.sum_comp]
  exact Finset.sum_congr rfl fun p _ => by rw [array_cell]

/-! ## C40 -/

/-- A running minimum: the body replaces the best value if the key of the new one is smaller. -/
theorem loop_best [LinearOrder β] {n : Nat} {body : Nat → β → Res β} {b : β} (key : Nat → β)
    (h : ∀ i, i < n → ∀ s, body i s = .ok (if key i < s then key i else s)) :
    ∃ x, loop n body b = .ok x ∧ x ≤ b ∧ (∀ i, i < n → x ≤ key i) ∧ (x = b ∨ ∃ i, i < n ∧ x = key i) := by
  induction n with
  | zero => exact ⟨b, rfl, le_rfl, by simp, Or.inl rfl⟩
  | succ n ih =>
    obtain ⟨x, h1, h2, h3, h4⟩ := ih (fun i hi => h i (by omega))
    refine ⟨if key n < x then key n else x, by rw [loop_succ, h1, bind_ok, h n (by omega)], ?_, ?_, ?_⟩
    · split_ifs with hk
      · exact hk.le.trans h2
      · exact h2
    · intro i hi
      rcases Nat.lt_succ_iff_lt_or_eq.1 hi with hi | rfl
      · split_ifs with hk
        · exact hk.le.trans (h3 i hi)
        · exact h3 i hi
      · split_ifs with hk
        · exact le_rfl
        · exact not_lt.1 hk
    · split_ifs with hk
      · exact Or.inr ⟨n, by omega, rfl⟩
      · rcases h4 with h4 | ⟨i, hi, h4⟩
        · exact Or.inl h4
        · exact Or.inr ⟨i, by omega, h4⟩

theorem loop_best_max [LinearOrder β] {n : Nat} {body : Nat → β → Res β} {b : β} (key : Nat → β)
    (h : ∀ i, i < n → ∀ s, body i s = .ok (if s < key i then key i else s)) :
    ∃ x, loop n body b = .ok x ∧ b ≤ x ∧ (∀ i, i < n → key i ≤ x) ∧ (x = b ∨ ∃ i, i < n ∧ x = key i) :=
  loop_best (β := βᵒᵈ) key h

/-- C40. `get_min` is the least element, for every non-empty matrix over every ordered element type (`maxT` its greatest
finite value). -/
theorem C40_get_min [LinearOrder α] (maxT : α) (m : Mat M N α) (hM : 0 < M) (hN : 0 < N)
    (hmax : ∀ r c, m.toMat r c ≤ maxT) :
    ∃ x, m.getMin maxT = .ok x ∧ (∀ r c, x ≤ m.toMat r c) ∧ ∃ r c, x = m.toMat r c := by
  obtain ⟨x, h1, h2, h3, h4⟩ := loop_best (n := M * N) (b := maxT)
    (body := fun i best => do
      let x ← m.rawGet i
      if x < best then pure x else pure best)
    (fun i => if h : i < M * N then m.array[i] else maxT) (by
      intro i hi s
      simp only [rawGet_lt m hi, bind_ok, hi, dif_pos]
      split_ifs <;> rfl)
  have hall : ∀ r c, x ≤ m.toMat r c := by
    intro r c
    have := h3 (c.1 * M + r.1) (idx_lt r.2 c.2)
    simpa [idx_lt r.2 c.2, Mat.get] using this
  refine ⟨x, h1, hall, ?_⟩
  rcases h4 with h4 | ⟨i, hi, h4⟩
  · exact ⟨⟨0, hM⟩, ⟨0, hN⟩, le_antisymm (hall _ _) (by rw [h4]; exact hmax _ _)⟩
  · rw [dif_pos hi] at h4
    obtain ⟨r, c, h5⟩ := array_get m i hi
    exact ⟨r, c, h4.trans h5⟩

theorem getMax_spec [LinearOrder α] [Zero α] (m : Mat M N α) :
    ∃ x, m.getMax = .ok x ∧ 0 ≤ x ∧ (∀ r c, m.toMat r c ≤ x) ∧ (x = 0 ∨ ∃ r c, x = m.toMat r c) := by
  obtain ⟨x, h1, h2, h3, h4⟩ := loop_best_max (n := M * N) (b := (0 : α))
    (body := fun i best => do
      let x ← m.rawGet i
      if best < x then pure x else pure best)
    (fun i => if h : i < M * N then m.array[i] else 0) (by
      intro i hi s
      simp only [rawGet_lt m hi, bind_ok, hi, dif_pos]
      split_ifs <;> rfl)
  refine ⟨x, h1, h2, ?_, ?_⟩
  · intro r c
    have := h3 (c.1 * M + r.1) (idx_lt r.2 c.2)
    simpa [idx_lt r.2 c.2, Mat.get] using this
  · rcases h4 with h4 | ⟨i, hi, h4⟩
    · exact Or.inl h4
    · rw [dif_pos hi] at h4
      obtain ⟨r, c, h5⟩ := array_get m i hi
      exact Or.inr ⟨r, c, h4.trans h5⟩

/-- C40, proved part: `get_max` is the greatest element if some element is not negative. Missing: matrices all of whose
elements are negative (`C40_get_max_violated`). -/
theorem C40_get_max_partial [LinearOrder α] [Zero α] (m : Mat M N α) (h : ∃ r c, 0 ≤ m.toMat r c) :
    ∃ x, m.getMax = .ok x ∧ (∀ r c, m.toMat r c ≤ x) ∧ ∃ r c, x = m.toMat r c := by
  obtain ⟨x, h1, h2, h3, h4⟩ := getMax_spec m
  refine ⟨x, h1, h3, ?_⟩
  rcases h4 with rfl | h4
  · obtain ⟨r, c, h⟩ := h
    exact ⟨r, c, le_antisymm h (h3 r c)⟩
  · exact h4

/-- C40 fails: for *every* matrix of negative elements `get_max` returns 0, which is no element. -/
theorem C40_get_max_violated [LinearOrder α] [Zero α] (m : Mat M N α) (h : ∀ r c, m.toMat r c < 0) :
    m.getMax = .ok 0 ∧ ¬ ∃ r c, (0 : α) = m.toMat r c := by
  have hn : ¬ ∃ r c, (0 : α) = m.toMat r c := fun ⟨r, c, h'⟩ => absurd h'.symm (h r c).ne
  obtain ⟨x, h1, h2, h3, h4⟩ := getMax_spec m
  refine ⟨?_, hn⟩
  rcases h4 with rfl | ⟨r, c, rfl⟩
  · exact h1
  · exact absurd h2 (not_le.2 (h r c))

/-- C40. `get_abs_min` and `get_abs_max` are the least and the greatest absolute value. -/
theorem C40_get_abs (maxT : ℝ) (m : Mat M N ℝ) (hM : 0 < M) (hN : 0 < N) (hmax : ∀ r c, |m.toMat r c| ≤ maxT) :
    (∃ x, m.getAbsMin maxT = .ok x ∧ (∀ r c, x ≤ |m.toMat r c|) ∧ ∃ r c, x = |m.toMat r c|) ∧
    (∃ x, m.getAbsMax = .ok x ∧ (∀ r c, |m.toMat r c| ≤ x) ∧ ∃ r c, x = |m.toMat r c|) := by
  have hcell : ∀ r c, m.array[(c : Fin N).1 * M + (r : Fin M).1]'(idx_lt r.2 c.2) = m.toMat r c := fun _ _ => rfl
  constructor
  · have h0 : 0 ≤ maxT := (abs_nonneg _).trans (hmax ⟨0, hM⟩ ⟨0, hN⟩)
    -- invariant: the best value is nonnegative
    obtain ⟨x, h1, h2, h3, h4, h5⟩ := loop_ok (n := M * N) (s := maxT)
      (body := fun i best => do
        let x ← m.rawGet i
        if CMath.fabs x < CMath.fabs best then pure (CMath.fabs x) else pure best)
      (fun k x => 0 ≤ x ∧ x ≤ maxT ∧ (∀ i (h : i < M * N), i < k → x ≤ |m.array[i]|) ∧
        (x = maxT ∨ ∃ i, ∃ h : i < M * N, x = |m.array[i]|)) ⟨h0, le_rfl, by simp, Or.inl rfl⟩ (by
      rintro i hi s ⟨g1, g2, g3, g4⟩
      refine ⟨if |m.array[i]| < s then |m.array[i]| else s, ?_, ?_, ?_, ?_, ?_⟩
      · simp only [rawGet_lt m hi, bind_ok, fabs_real, abs_of_nonneg g1]
        split_ifs <;> rfl
      · split_ifs <;> first | exact abs_nonneg _ | exact g1
      · split_ifs with hk
        · exact hk.le.trans g2
        · exact g2
      · intro j hj hji
        rcases Nat.lt_succ_iff_lt_or_eq.1 hji with hji | rfl
        · split_ifs with hk
          · exact hk.le.trans (g3 j hj hji)
          · exact g3 j hj hji
        · split_ifs with hk
          · exact le_rfl
          · exact not_lt.1 hk
      · split_ifs
        · exact Or.inr ⟨i, hi, rfl⟩
        · exact g4)
    have hall : ∀ r c, x ≤ |m.toMat r c| := fun r c => h4 _ (idx_lt r.2 c.2) (idx_lt r.2 c.2)
    refine ⟨x, h1, hall, ?_⟩
    rcases h5 with h5 | ⟨i, hi, h5⟩
    · exact ⟨⟨0, hM⟩, ⟨0, hN⟩, le_antisymm (hall _ _) (by rw [h5]; exact hmax _ _)⟩
    · obtain ⟨r, c, h6⟩ := array_get m i hi
      exact ⟨r, c, by rw [h5, h6]; rfl⟩
  · obtain ⟨x, h1, h2, h4, h5⟩ := loop_ok (n := M * N) (s := (0 : ℝ))
      (body := fun i best => do
        let x ← m.rawGet i
        if CMath.fabs best < CMath.fabs x then pure (CMath.fabs x) else pure best)
      (fun k x => 0 ≤ x ∧ (∀ i (h : i < M * N), i < k → |m.array[i]| ≤ x) ∧
        (x = 0 ∨ ∃ i, ∃ h : i < M * N, x = |m.array[i]|)) ⟨le_rfl, by simp, Or.inl rfl⟩ (by
      rintro i hi s ⟨g1, g3, g4⟩
      refine ⟨if s < |m.array[i]| then |m.array[i]| else s, ?_, ?_, ?_, ?_⟩
      · simp only [rawGet_lt m hi, bind_ok, fabs_real, abs_of_nonneg g1]
        split_ifs <;> rfl
      · split_ifs <;> first | exact abs_nonneg _ | exact g1
      · intro j hj hji
        rcases Nat.lt_succ_iff_lt_or_eq.1 hji with hji | rfl
        · split_ifs with hk
          · exact (g3 j hj hji).trans hk.le
          · exact g3 j hj hji
        · split_ifs with hk
          · exact le_rfl
          · exact not_lt.1 hk
      · split_ifs
        · exact Or.inr ⟨i, hi, rfl⟩
        · exact g4)
    have hall : ∀ r c, |m.toMat r c| ≤ x := fun r c => h4 _ (idx_lt r.2 c.2) (idx_lt r.2 c.2)
    refine ⟨x, h1, hall, ?_⟩
    rcases h5 with h5 | ⟨i, hi, h5⟩
    · exact ⟨⟨0, hM⟩, ⟨0, hN⟩, le_antisymm (by rw [h5]; exact abs_nonneg _) (hall _ _)⟩
    · obtain ⟨r, c, h6⟩ := array_get m i hi
      exact ⟨r, c, by rw [h5, h6]; rfl⟩

example : (⟨#v[3, -7, 2, 5]⟩ : Mat 2 2 Int).getMin 1000 = .ok (-7) ∧
    (⟨#v[3, -7, 2, 5]⟩ : Mat 2 2 Int).getMax = .ok 5 ∧ (⟨#v[-3, -7, -2, -5]⟩ : Mat 2 2 Int).getMax = .ok 0 := by decide

/-! ## C41 -/

/-- C41. `sum_elements` is the sum over all cells (each converted to `double`). -/
theorem C41_sum_elements [AddCommMonoid δ] (toD : α → δ) (m : Mat M N α) :
    m.sumElements toD = .ok (∑ r, ∑ c, toD (m.toMat r c)) := by
  unfold sumElements
  rw [loop_sum (fun i : Fin (M * N) => toD m.array[i]) (by
    intro i hi s; rw [rawGet_lt m hi, bind_ok]; rfl), zero_add, sum_array m toD]
  rfl

/-- C41. `columnwise_sum` sums every column. -/
theorem C41_columnwise_sum [AddCommMonoid α] (cfg : Cfg) (m : Mat M N α) (sums : Vec N α) :
    ∃ s, m.columnwiseSum cfg sums = .ok s ∧ ∀ c : Fin N, s[c] = ∑ r, m.toMat r c := by
  refine ⟨Vector.ofFn fun c => ∑ r, m.get r c, ?_, by simp⟩
  apply loop_set
  intro c hc s _
  rw [loop_sum (fun r : Fin M => m.get r ⟨c, hc⟩) (by intro r hr s; simp [hr, hc]), bind_ok, zero_add,
    Vec.atSet_lt cfg s _ hc]

/-- C41. `frobenius_norm` is the square root of the sum of the squares, and zero only for the zero matrix. -/
theorem C41_frobenius (m : Mat M N ℝ) :
    ∃ x, m.frobeniusNorm id = .ok x ∧ x = Real.sqrt (∑ r, ∑ c, m.toMat r c ^ 2) ∧
      (x = 0 ↔ ∀ r c, m.toMat r c = 0) := by
  refine ⟨_, ?_, rfl, ?_⟩
  · unfold frobeniusNorm
    rw [loop_sum (fun i : Fin (M * N) => m.array[i] ^ 2) (by
      intro i hi s
      rw [rawGet_lt m hi, bind_ok, id, pow_two]; rfl), bind_ok, zero_add, sum_array m (fun x => x ^ 2)]
    rfl
  · simp only [toMat_apply]
    rw [Real.sqrt_eq_zero (Finset.sum_nonneg fun r _ => Finset.sum_nonneg fun c _ => sq_nonneg _),
      Finset.sum_eq_zero_iff_of_nonneg (fun r _ => Finset.sum_nonneg fun c _ => sq_nonneg _)]
    constructor
    · intro h r c
      have := h r (Finset.mem_univ _)
      rw [Finset.sum_eq_zero_iff_of_nonneg (fun c _ => sq_nonneg _)] at this
      exact pow_eq_zero_iff (two_ne_zero) |>.1 (this c (Finset.mem_univ _))
    · intro h r _
      exact Finset.sum_eq_zero fun c _ => by rw [h]; simp

/-- C41. `p_norm( p )` is `( Σ x^p )^(1/p)` (the `p`-norm of non-negative data); for `p = 2` it is the Frobenius norm, also
for data of any sign. -/
theorem C41_p_norm (m : Mat M N ℝ) (p : ℝ) :
    m.pNorm id p = .ok ((∑ r, ∑ c, m.toMat r c ^ p) ^ (1 / p)) ∧ m.pNorm id 2 = m.frobeniusNorm id := by
  have h : ∀ p : ℝ, m.pNorm id p = .ok ((∑ r, ∑ c, m.toMat r c ^ p) ^ (1 / p)) := by
    intro p
    unfold pNorm
    rw [loop_sum (fun i : Fin (M * N) => m.array[i] ^ p) (by
      intro i hi s; rw [rawGet_lt m hi, bind_ok]; rfl), bind_ok, zero_add, sum_array m (fun x => x ^ p)]
    rfl
  refine ⟨h p, ?_⟩
  obtain ⟨x, h1, h2, -⟩ := C41_frobenius m
  rw [h 2, h1, h2, Real.sqrt_eq_rpow]
  simp only [Real.rpow_two]

/-- C41. `nnz` counts the non-zero cells, `nnz( t )` those of absolute value above `t`. -/
theorem C41_nnz [DecidableEq α] [Zero α] (m : Mat M N α) :
    m.nnz = .ok (Finset.univ.filter fun p : Fin M × Fin N => m.toMat p.1 p.2 ≠ 0).card := by
  unfold nnz
  rw [loop_sum (fun i : Fin (M * N) => if m.array[i] ≠ 0 then 1 else 0) (by
    intro i hi s
    rw [rawGet_lt m hi, bind_ok]
    by_cases h : m.array[i] = 0 <;> simp [h]), zero_add, sum_array m (fun x => if x ≠ 0 then 1 else 0),
    Finset.card_filter, Fintype.sum_prod_type]
  rfl

theorem C41_nnz_threshold (m : Mat M N ℝ) (t : ℝ) :
    m.nnzAbove t = .ok (Finset.univ.filter fun p : Fin M × Fin N => t < |m.toMat p.1 p.2|).card := by
  unfold nnzAbove
  rw [loop_sum (fun i : Fin (M * N) => if t < |m.array[i]| then 1 else 0) (by
    intro i hi s
    rw [rawGet_lt m hi, bind_ok]
    by_cases h : t < |m.array[i]| <;> simp [h]), zero_add, sum_array m (fun x => if t < |x| then 1 else 0),
    Finset.card_filter, Fintype.sum_prod_type]
  rfl

/-- C41. `threshold( t )` zeroes exactly the cells of absolute value at most `t`; afterwards `nnz( t )` of the old matrix is
`nnz` of the new one. -/
theorem C41_threshold (m : Mat M N ℝ) (t : ℝ) :
    ∃ r, m.threshold t = .ok r ∧ ∀ i j, r.toMat i j = if |m.toMat i j| ≤ t then 0 else m.toMat i j := by
  refine ⟨ofFn fun i j => if |m.get i j| ≤ t then 0 else m.get i j, ?_, fun i j => by rw [toMat_apply, get_ofFn]; rfl⟩
  exact flat_cell (M := M) (N := N) (fun _ x => if |x| ≤ t then 0 else x) (by
    intro i hi m
    rw [rawGet_lt m hi, bind_ok]
    by_cases h : |m.array[i]| ≤ t
    · simp [h, rawSet_lt m _ hi]
    · simp [h]
      )

theorem C41_threshold_nnz (m : Mat M N ℝ) (t : ℝ) (ht : 0 ≤ t) :
    ∃ r, m.threshold t = .ok r ∧ r.nnzAbove 0 = m.nnzAbove t := by
  obtain ⟨r, h1, h2⟩ := C41_threshold m t
  refine ⟨r, h1, ?_⟩
  rw [C41_nnz_threshold, C41_nnz_threshold]
  congr 2
  ext p
  simp only [Finset.mem_filter, Finset.mem_univ, true_and, h2]
  split_ifs with h
  · simpa using h
  · exact ⟨fun _ => not_le.1 h, fun h' => ht.trans_lt h'⟩

example : (⟨#v[3, 0, 2, -5, 0, 0]⟩ : Mat 2 3 Int).nnz = .ok 3 ∧ (⟨#v[3, 0, 2, -5, 0, 0]⟩ : Mat 2 3 Int).sumElements id = .ok 0
    := by decide

end Vmml
