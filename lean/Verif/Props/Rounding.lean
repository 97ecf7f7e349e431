import Verif.Model.Rounding
import Verif.Proofs.MatrixLemmas
import Verif.Proofs.VectorLemmas
import Mathlib.Algebra.Order.BigOperators.Group.Finset

/-!
# C81: rounding errors of accumulations

All statements are for an arbitrary rounding function with relative error at most `u` (`Rounding u`) in every single operation of the code;
`binRounding 23` and `binRounding 52` (IEEE single and double precision without overflow and underflow) are instances.
-/

namespace Vmml
variable {M N P : Nat} {u : ℝ} {ρ : Rounding u}

/-- The classical constant `γ_n = n u / ( 1 - n u )`. -/
noncomputable def Spec.gamma (u : ℝ) (n : Nat) : ℝ := n * u / (1 - n * u)

theorem pow_le_gamma (hu : 0 ≤ u) (n : Nat) (hn : n * u < 1) : (1 + u) ^ n - 1 ≤ Spec.gamma u n := by
  have key : ∀ n : Nat, n * u < 1 → (1 + u) ^ n * (1 - n * u) ≤ 1 := by
    intro n
    induction n with
    | zero => intro _; simp
    | succ n ih =>
      intro h
      push_cast at h ⊢
      have h1 : (n : ℝ) * u < 1 := by nlinarith
      have h2 := ih h1
      have h3 : 0 ≤ (1 + u) ^ n := by positivity
      have h4 : (0 : ℝ) ≤ (n : ℝ) * u ^ 2 + u ^ 2 := by positivity
      calc (1 + u) ^ (n + 1) * (1 - (n + 1) * u) = (1 + u) ^ n * (1 - n * u) - (1 + u) ^ n * (n * u ^ 2 + u ^ 2) := by ring
        _ ≤ 1 := by nlinarith [mul_nonneg h3 h4]
  have h0 : 0 < 1 - (n : ℝ) * u := by linarith
  unfold Spec.gamma
  rw [le_div_iff₀ h0]
  have := key n hn
  nlinarith

/-- Recursive summation with rounding after each addition, of summands that carry a relative error `u` themselves; the first addition (to zero) does
not round again. -/
theorem rounded_sum (ρ : Rounding u) (e t s : Nat → ℝ) (h0 : s 0 = 0) (hs : ∀ k, s (k + 1) = ρ.rnd (s k + t k)) (ht : ∀ k, |t k - e k| ≤ u * |e k|)
    (hr : ρ.rnd (t 0) = t 0) (n : Nat) :
    |s n - ∑ i ∈ Finset.range n, e i| ≤ ((1 + u) ^ n - 1) * ∑ i ∈ Finset.range n, |e i| := by
  have hu := ρ.nonneg
  induction n with
  | zero => simp [h0]
  | succ k ih =>
    rw [Finset.sum_range_succ, Finset.sum_range_succ]
    rcases Nat.eq_zero_or_pos k with rfl | hk
    · simp only [hs, h0, zero_add, hr, Finset.range_zero, Finset.sum_empty, pow_one, add_sub_cancel_left]
      exact ht 0
    · set A := ∑ i ∈ Finset.range k, e i
      set S := ∑ i ∈ Finset.range k, |e i| with hS
      have hS0 : 0 ≤ S := Finset.sum_nonneg fun i _ => abs_nonneg _
      have hA : |A| ≤ S := Finset.abs_sum_le_sum_abs _ _
      set w := s k + t k with hw
      have hpow : u ≤ (1 + u) ^ k - 1 := by
        have : (1 + u) ^ 1 ≤ (1 + u) ^ k := pow_le_pow_right₀ (by linarith) hk
        simpa [le_sub_iff_add_le, add_comm] using this
      have h1 : |w - (A + e k)| ≤ ((1 + u) ^ k - 1) * (S + |e k|) := by
        have : w - (A + e k) = (s k - A) + (t k - e k) := by rw [hw]; ring
        rw [this]
        calc _ ≤ |s k - A| + |t k - e k| := abs_add_le _ _
          _ ≤ ((1 + u) ^ k - 1) * S + u * |e k| := add_le_add ih (ht k)
          _ ≤ _ := by nlinarith [abs_nonneg (e k)]
      have h2 : |w| ≤ (1 + u) ^ k * (S + |e k|) := by
        calc |w| = |(w - (A + e k)) + (A + e k)| := by congr 1; ring
          _ ≤ |w - (A + e k)| + |A + e k| := abs_add_le _ _
          _ ≤ ((1 + u) ^ k - 1) * (S + |e k|) + (S + |e k|) := by
              refine add_le_add h1 (le_trans (abs_add_le _ _) ?_)
              linarith
          _ = _ := by ring
      rw [hs]
      calc |ρ.rnd w - (A + e k)| = |(ρ.rnd w - w) + (w - (A + e k))| := by congr 1; ring
        _ ≤ |ρ.rnd w - w| + |w - (A + e k)| := abs_add_le _ _
        _ ≤ u * |w| + ((1 + u) ^ k - 1) * (S + |e k|) := add_le_add (ρ.err w) h1
        _ ≤ u * ((1 + u) ^ k * (S + |e k|)) + ((1 + u) ^ k - 1) * (S + |e k|) := by gcongr
        _ = _ := by ring

private noncomputable def ext0 (n : Nat) (g : Fin n → ℝ) (k : Nat) : ℝ := if h : k < n then g ⟨k, h⟩ else 0

private theorem ext0_sum (n : Nat) (g : Fin n → ℝ) (f : ℝ → ℝ) : ∑ i ∈ Finset.range n, f (ext0 n g i) = ∑ i, f (g i) := by
  rw [Finset.sum_range]
  apply Finset.sum_congr rfl
  intro i _
  simp [ext0]

/-- The accumulation loop of `dot`, `squared_length` and the matrix products. -/
theorem rounded_loop {body : Nat → Fl ρ → Res (Fl ρ)} (x y : Fin N → Fl ρ)
    (h : ∀ i (hi : i < N) s, body i s = .ok (s + x ⟨i, hi⟩ * y ⟨i, hi⟩)) :
    ∃ d, loop N body 0 = .ok d ∧
      |d.val - ∑ i, (x i).val * (y i).val| ≤ ((1 + u) ^ N - 1) * ∑ i, |(x i).val * (y i).val| := by
  let f : Nat → Fl ρ → Fl ρ := fun i s => if hi : i < N then s + x ⟨i, hi⟩ * y ⟨i, hi⟩ else s + 0
  refine ⟨_, loop_iter f (fun i hi s => by rw [h i hi]; simp [f, hi]), ?_⟩
  have := rounded_sum ρ (ext0 N fun i => (x i).val * (y i).val) (fun k => if hi : k < N then ρ.rnd ((x ⟨k, hi⟩).val * (y ⟨k, hi⟩).val) else 0)
    (fun k => (iter f k 0).val) rfl ?_ ?_ ?_ N
  · have e1 := ext0_sum N (fun i => (x i).val * (y i).val) id
    simp only [id] at e1
    rw [e1, ext0_sum N (fun i => (x i).val * (y i).val) (fun z => |z|)] at this
    exact this
  · intro k
    by_cases hk : k < N
    · simp only [iter, f, hk, dif_pos, Fl.val_add, Fl.val_mul]
    · simp only [iter, f, hk, dif_neg, not_false_eq_true, Fl.val_add, Fl.val_zero]
  · intro k
    by_cases hk : k < N
    · simp only [ext0, hk, dif_pos]
      exact ρ.err _
    · simp [ext0, hk]
  · by_cases hk : 0 < N
    · simp only [hk, dif_pos]
      exact ρ.idem _
    · simp only [hk, dif_neg, not_false_eq_true]
      have := ρ.err 0
      simpa using this

private theorem gamma_of {a S : ℝ} (ρ : Rounding u) (n : Nat) (hn : n * u < 1) (hS : 0 ≤ S) (h : a ≤ ((1 + u) ^ n - 1) * S) : a ≤ Spec.gamma u n * S :=
  h.trans (mul_le_mul_of_nonneg_right (pow_le_gamma ρ.nonneg n hn) hS)

/-- **C81** `dot`: for every dimension `M`, all vectors and every rounding: the error is at most `γ_M` times the sum of the absolute products. -/
theorem C81_dot (cfg : Cfg) (v w : Vec M (Fl ρ)) (hM : M * u < 1) :
    ∃ d, v.dot cfg w = .ok d ∧
      |d.val - ∑ i : Fin M, v[i].val * w[i].val| ≤ Spec.gamma u M * ∑ i : Fin M, |v[i].val * w[i].val| := by
  obtain ⟨d, h1, h2⟩ := rounded_loop (body := fun i tmp => do pure (tmp + (← v.atGet cfg i) * (← w.atGet cfg i)))
    (fun i : Fin M => v[i]) (fun i : Fin M => w[i]) (by intro i hi s; simp [hi])
  exact ⟨d, h1, gamma_of ρ M hM (Finset.sum_nonneg fun i _ => abs_nonneg _) h2⟩

/-- **C81** `squared_length`: no cancellation, so the *relative* error is at most `γ_M`; in particular the result is not negative. -/
theorem C81_squared_length (v : Vec M (Fl ρ)) (hM : M * u < 1) :
    ∃ d, v.squaredLength = .ok d ∧
      |d.val - ∑ i : Fin M, v[i].val ^ 2| ≤ Spec.gamma u M * ∑ i : Fin M, v[i].val ^ 2 := by
  obtain ⟨d, h1, h2⟩ := rounded_loop (body := fun i s => do pure (s + (← v.rawGet i) * (← v.rawGet i)))
    (fun i : Fin M => v[i]) (fun i : Fin M => v[i]) (by intro i hi s; simp [hi])
  refine ⟨d, h1, ?_⟩
  have e : ∀ i : Fin M, v[i].val * v[i].val = v[i].val ^ 2 := fun i => (sq _).symm
  have e' : ∀ i : Fin M, |v[i].val ^ 2| = v[i].val ^ 2 := fun i => abs_of_nonneg (sq_nonneg _)
  simp only [e, e'] at h2
  exact gamma_of ρ M hM (Finset.sum_nonneg fun i _ => sq_nonneg _) h2

/-- Accumulation into one cell, without any law for the addition. -/
private theorem loop_acc_iter {n : Nat} {body : Nat → Mat M N (Fl ρ) → Res (Mat M N (Fl ρ))} {m : Mat M N (Fl ρ)}
    {r : Fin M} {c : Fin N} (g : Nat → Fl ρ)
    (h : ∀ i (_ : i < n) (m : Mat M N (Fl ρ)), body i m = .ok (m.put r c (m.get r c + g i))) :
    loop n body m = .ok (m.put r c (iter (fun i s => s + g i) n (m.get r c))) := by
  induction n with
  | zero => simp [iter]
  | succ n ih =>
    rw [loop_succ, ih (fun i hi m => h i (by omega) m)]
    simp [h n (by omega), iter]

/-- **C81** Matrix product (`multiply`, `operator*`): for every size, every cell has an error of at most `γ_N` times the sum of the absolute products. -/
theorem C81_matrix_product (cfg : Cfg) (a : Mat M N (Fl ρ)) (b : Mat N P (Fl ρ)) (hN : N * u < 1) :
    ∃ m, a.mul cfg b = .ok m ∧ ∀ r c,
      |(m.get r c).val - ∑ p, (a.get r p).val * (b.get p c).val| ≤ Spec.gamma u N * ∑ p, |(a.get r p).val * (b.get p c).val| := by
  have hmul : ∀ m0 : Mat M P (Fl ρ), m0.multiply cfg a b = .ok (Mat.ofFn fun r c =>
      iter (fun i s => s + (if h : i < N then a.get r ⟨i, h⟩ * b.get ⟨i, h⟩ c else 0)) N 0) := by
    intro m0
    unfold Mat.multiply
    apply Mat.loop2_const
    intro r hr c hc m
    rw [Mat.atSet_lt cfg m 0 hr hc, bind_ok]
    rw [loop_acc_iter (r := ⟨r, hr⟩) (c := ⟨c, hc⟩)
      (fun i => if h : i < N then a.get ⟨r, hr⟩ ⟨i, h⟩ * b.get ⟨i, h⟩ ⟨c, hc⟩ else 0) (by intro i hi m; simp [hr, hc, hi])]
    simp
  refine ⟨_, by rw [Mat.mul, Mat.ctor_eq, bind_ok, hmul], ?_⟩
  intro r c
  rw [Mat.get_ofFn]
  obtain ⟨d, h1, h2⟩ := rounded_loop (N := N) (body := fun i s => .ok (s + (if h : i < N then a.get r ⟨i, h⟩ * b.get ⟨i, h⟩ c else 0)))
    (fun p => a.get r p) (fun p => b.get p c) (by intro i hi s; simp [hi])
  rw [loop_iter (fun i s => s + (if h : i < N then a.get r ⟨i, h⟩ * b.get ⟨i, h⟩ c else 0)) (fun i _ s => rfl)] at h1
  rw [Except.ok.inj h1]
  exact gamma_of ρ N hN (Finset.sum_nonneg fun i _ => abs_nonneg _) h2

/-- **C81** Matrix times vector. -/
theorem C81_matrix_vector (cfg : Cfg) (a : Mat M N (Fl ρ)) (v : Vec N (Fl ρ)) (hN : N * u < 1) :
    ∃ w, a.mulVec cfg v = .ok w ∧ ∀ r : Fin M,
      |w[r].val - ∑ p, (a.get r p).val * v[p].val| ≤ Spec.gamma u N * ∑ p, |(a.get r p).val * v[p].val| := by
  have hcell : ∀ r : Fin M, ∃ d, loop N (fun j tmp => do pure (tmp + (← a.atGet cfg r j) * (← v.atGet cfg j))) 0 = .ok d ∧
      |d.val - ∑ p, (a.get r p).val * v[p].val| ≤ ((1 + u) ^ N - 1) * ∑ p, |(a.get r p).val * v[p].val| := by
    intro r
    exact rounded_loop (fun p => a.get r p) (fun p => v[p]) (by intro i hi s; simp [hi])
  choose d hd1 hd2 using hcell
  refine ⟨Vector.ofFn d, ?_, ?_⟩
  · unfold Mat.mulVec
    apply loop_set
    intro i hi w _
    have := hd1 ⟨i, hi⟩
    simp only at this
    rw [this, bind_ok, Vec.atSet_lt _ _ _ hi]
  · intro r
    simp only [Fin.getElem_fin, Vector.getElem_ofFn]
    exact gamma_of ρ N hN (Finset.sum_nonneg fun i _ => abs_nonneg _) (hd2 r)

/-- **C81** Sum of all matrix elements (`sum_elements`, accumulated in the same type), for elements that are representable. -/
theorem C81_sum (m : Mat M N (Fl ρ)) (hrep : ∀ i (h : i < M * N), ρ.rnd m.array[i].val = m.array[i].val) (hn : (M * N : Nat) * u < 1) :
    ∃ d, m.sumElements id = .ok d ∧
      |d.val - ∑ i : Fin (M * N), m.array[i].val| ≤ Spec.gamma u (M * N) * ∑ i : Fin (M * N), |m.array[i].val| := by
  let f : Nat → Fl ρ → Fl ρ := fun i s => if hi : i < M * N then s + m.array[i] else s + 0
  refine ⟨iter f (M * N) 0, loop_iter f (fun i hi s => by simp [f, hi, Mat.rawGet_lt]), ?_⟩
  refine gamma_of ρ (M * N) hn (Finset.sum_nonneg fun i _ => abs_nonneg _) ?_
  have := rounded_sum ρ (ext0 (M * N) fun i => m.array[i].val) (ext0 (M * N) fun i => m.array[i].val)
    (fun k => (iter f k 0).val) rfl ?_ ?_ ?_ (M * N)
  · have e1 := ext0_sum (M * N) (fun i => m.array[i].val) id
    simp only [id] at e1
    rw [e1, ext0_sum (M * N) (fun i => m.array[i].val) (fun z => |z|)] at this
    exact this
  · intro k
    by_cases hk : k < M * N
    · simp only [iter, f, hk, dif_pos, Fl.val_add, ext0]; rfl
    · simp only [iter, f, hk, dif_neg, not_false_eq_true, Fl.val_add, Fl.val_zero, ext0]
  · intro k
    simp only [sub_self, abs_zero]
    exact mul_nonneg ρ.nonneg (abs_nonneg _)
  · by_cases hk : 0 < M * N
    · simp only [ext0, hk, dif_pos]
      exact hrep 0 hk
    · simp only [ext0, hk, dif_neg, not_false_eq_true]
      have := ρ.err 0
      simpa using this

/-- **C81** Cross product: every component is within `γ₂` of the exact one, relative to the two products. -/
theorem C81_cross (a b : Vec 3 (Fl ρ)) (hu : 2 * u < 1) :
    |(a.cross b)[0].val - (a[1].val * b[2].val - a[2].val * b[1].val)| ≤ Spec.gamma u 2 * (|a[1].val * b[2].val| + |a[2].val * b[1].val|) ∧
    |(a.cross b)[1].val - (a[2].val * b[0].val - a[0].val * b[2].val)| ≤ Spec.gamma u 2 * (|a[2].val * b[0].val| + |a[0].val * b[2].val|) ∧
    |(a.cross b)[2].val - (a[0].val * b[1].val - a[1].val * b[0].val)| ≤ Spec.gamma u 2 * (|a[0].val * b[1].val| + |a[1].val * b[0].val|) := by
  have key : ∀ p q : ℝ, |ρ.rnd (ρ.rnd p - ρ.rnd q) - (p - q)| ≤ Spec.gamma u 2 * (|p| + |q|) := by
    intro p q
    refine gamma_of ρ 2 (by exact_mod_cast hu) (by positivity) ?_
    have h0 := ρ.nonneg
    have h1 : |(ρ.rnd p - ρ.rnd q) - (p - q)| ≤ u * (|p| + |q|) := by
      calc _ = |(ρ.rnd p - p) - (ρ.rnd q - q)| := by congr 1; ring
        _ ≤ |ρ.rnd p - p| + |ρ.rnd q - q| := abs_sub _ _
        _ ≤ u * |p| + u * |q| := add_le_add (ρ.err p) (ρ.err q)
        _ = _ := by ring
    have h2 : |ρ.rnd p - ρ.rnd q| ≤ (1 + u) * (|p| + |q|) := by
      calc _ = |((ρ.rnd p - ρ.rnd q) - (p - q)) + (p - q)| := by congr 1; ring
        _ ≤ |(ρ.rnd p - ρ.rnd q) - (p - q)| + |p - q| := abs_add_le _ _
        _ ≤ u * (|p| + |q|) + (|p| + |q|) := add_le_add h1 (abs_sub _ _)
        _ = _ := by ring
    calc _ = |(ρ.rnd (ρ.rnd p - ρ.rnd q) - (ρ.rnd p - ρ.rnd q)) + ((ρ.rnd p - ρ.rnd q) - (p - q))| := by congr 1; ring
      _ ≤ _ := abs_add_le _ _
      _ ≤ u * |ρ.rnd p - ρ.rnd q| + u * (|p| + |q|) := add_le_add (ρ.err _) h1
      _ ≤ u * ((1 + u) * (|p| + |q|)) + u * (|p| + |q|) := by gcongr
      _ = _ := by ring
  exact ⟨key _ _, key _ _, key _ _⟩

/-- The hypotheses are met by IEEE single precision (`u = 2⁻²⁴`) up to dimension `10⁷`, and the rounding is not the identity there. -/
example : ((10 ^ 7 : Nat) : ℝ) * (2 : ℝ)⁻¹ ^ (23 + 1) < 1 := by norm_num

example : (binRounding 0).rnd 3 = 4 ∧ (3 : Nat) * ((2 : ℝ)⁻¹ ^ (3 + 1)) < 1 := by
  constructor
  · have h : Int.log 2 (3 : ℝ) = 1 := by
      have h3 := Int.log_natCast (R := ℝ) 2 3
      have h4 : Nat.log 2 3 = 1 := (Nat.log_eq_iff (by norm_num)).2 (by norm_num)
      rw [h4] at h3
      exact_mod_cast h3
    simp only [binRounding, roundBin, abs_of_pos (show (0 : ℝ) < 3 by norm_num), h]
    norm_num [round_eq]
  · norm_num

end Vmml
