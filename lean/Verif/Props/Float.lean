import Verif.Proofs.FloatLemmas
import Verif.Props.Rounding
import Verif.Props.Machine

/-!
# C108: accumulations in IEEE 754 arithmetic, with overflow and underflow

The element type is `Fp F`, the IEEE 754 values of a binary format `F` (`Format.single`, `Format.double`): signed zeros, subnormal numbers, infinities and NaN,
every operation correctly rounded. `F.u` is the unit roundoff `2^-(p+1)`, `F.eta` half of the smallest positive number.
-/

namespace Vmml
open Format
variable {M N P : Nat} {F : Format}

/-- The error of a sum of `n` products: relative to the sum of the absolute products, plus the underflow of the products. -/
noncomputable def Spec.accErr (F : Format) (n : Nat) (S : ℝ) : ℝ := (n * F.u * S + n * F.eta) / (1 - n * F.u)

private theorem pow_le_inv (n : Nat) (hn : n * F.u < 1) : (1 + F.u) ^ n ≤ 1 / (1 - n * F.u) := by
  have h := pow_le_gamma F.u_pos.le n hn
  have h0 : 0 < 1 - (n : ℝ) * F.u := by linarith
  have e : Spec.gamma F.u n + 1 = 1 / (1 - n * F.u) := by unfold Spec.gamma; field_simp; ring
  linarith

/-- The accumulation loop of `dot`, `squared_length` and the matrix products. -/
theorem fp_loop (h0 : 0 < F.emax) {body : Nat → Fp F → Res (Fp F)} (x y : Fin N → Fp F)
    (h : ∀ i (hi : i < N) s, body i s = .ok (s + x ⟨i, hi⟩ * y ⟨i, hi⟩)) (hN : N * F.u < 1) :
    ∃ d, loop N body 0 = .ok d ∧
      (d.Finite → (∀ i, (x i).Finite ∧ (y i).Finite) ∧
        |d.val - ∑ i, (x i).val * (y i).val| ≤ Spec.accErr F N (∑ i, |(x i).val * (y i).val|)) ∧
      ((∀ i, (x i).Finite ∧ (y i).Finite) → ∑ i, |(x i).val * (y i).val| + N * F.eta ≤ (1 - N * F.u) * F.maxFinite → d.Finite) := by
  have hu := F.u_pos
  have hη := F.eta_pos
  have hN0 : 0 < 1 - (N : ℝ) * F.u := by linarith
  -- prefixes
  let e : Nat → ℝ := fun k => if hk : k < N then (x ⟨k, hk⟩).val * (y ⟨k, hk⟩).val else 0
  have hsum : ∀ f : ℝ → ℝ, ∑ i ∈ Finset.range N, f (e i) = ∑ i, f ((x i).val * (y i).val) := by
    intro f
    rw [Finset.sum_range]
    exact Finset.sum_congr rfl fun i _ => by simp [e]
  have key : ∀ k, k ≤ N → ∃ d, loop k body 0 = .ok d ∧
      (d.Finite → (∀ i (hi : i < N), i < k → (x ⟨i, hi⟩).Finite ∧ (y ⟨i, hi⟩).Finite) ∧
        |d.val - ∑ i ∈ Finset.range k, e i| ≤ ((1 + F.u) ^ k - 1) * ∑ i ∈ Finset.range k, |e i| + k * (1 + F.u) ^ k * F.eta) ∧
      ((∀ i, (x i).Finite ∧ (y i).Finite) → ∑ i ∈ Finset.range N, |e i| + N * F.eta ≤ (1 - N * F.u) * F.maxFinite → d.Finite) := by
    intro k
    induction k with
    | zero => intro _; exact ⟨0, by simp, fun _ => by simp, fun _ _ => trivial⟩
    | succ k ih =>
      intro hk
      have hk' : k < N := hk
      obtain ⟨s, hs1, hs2, hs3⟩ := ih hk'.le
      have hek : e k = (x ⟨k, hk'⟩).val * (y ⟨k, hk'⟩).val := by simp [e, hk']
      set A := ∑ i ∈ Finset.range k, e i with hA
      set S := ∑ i ∈ Finset.range k, |e i| with hS
      have hS0 : 0 ≤ S := Finset.sum_nonneg fun i _ => abs_nonneg _
      have hAS : |A| ≤ S := Finset.abs_sum_le_sum_abs _ _
      have hp1 : (1 : ℝ) ≤ (1 + F.u) ^ k := one_le_pow₀ (by linarith)
      -- the sum before rounding, from the two operands
      have hw : ∀ (sv tv : ℝ), |sv - A| ≤ ((1 + F.u) ^ k - 1) * S + k * (1 + F.u) ^ k * F.eta → |tv - e k| ≤ F.u * |e k| + F.eta → (k = 0 → sv = 0) →
          |sv + tv| ≤ (1 + F.u) ^ (k + 1) * (S + |e k| + (k + 1) * F.eta) ∧
          (k ≠ 0 → |sv + tv - (A + e k)| ≤ ((1 + F.u) ^ k - 1) * (S + |e k|) + (k + 1) * (1 + F.u) ^ k * F.eta) := by
        intro sv tv h1 h2 h3
        have ha := abs_nonneg (e k)
        have hsv : |sv| ≤ (1 + F.u) ^ k * S + k * (1 + F.u) ^ k * F.eta := by
          calc |sv| = |(sv - A) + A| := by congr 1; ring
            _ ≤ |sv - A| + |A| := abs_add_le _ _
            _ ≤ _ := by linarith
        have htv : |tv| ≤ (1 + F.u) * |e k| + F.eta := by
          calc |tv| = |(tv - e k) + e k| := by congr 1; ring
            _ ≤ |tv - e k| + |e k| := abs_add_le _ _
            _ ≤ _ := by linarith
        have hpp : (1 + F.u) ^ k * (1 + F.u) = (1 + F.u) ^ (k + 1) := (pow_succ _ _).symm
        constructor
        · have b1 : |sv + tv| ≤ (1 + F.u) ^ k * S + k * (1 + F.u) ^ k * F.eta + ((1 + F.u) * |e k| + F.eta) := (abs_add_le _ _).trans (by linarith)
          refine b1.trans ?_
          rw [← hpp]
          have hk0 : (0 : ℝ) ≤ k := Nat.cast_nonneg k
          have c1 : 0 ≤ (1 + F.u) ^ k * F.u * S := by positivity
          have c2 : 0 ≤ (1 + F.u) ^ k * F.u * (k * F.eta) := by positivity
          have c3 : (1 + F.u) * |e k| ≤ (1 + F.u) ^ k * ((1 + F.u) * |e k|) := le_mul_of_one_le_left (by positivity) hp1
          have c4 : F.eta ≤ (1 + F.u) ^ k * F.eta := le_mul_of_one_le_left hη.le hp1
          have c5 : 0 ≤ (1 + F.u) ^ k * F.u * F.eta := by positivity
          nlinarith
        · intro hk1
          have hku : F.u ≤ (1 + F.u) ^ k - 1 := by
            have : (1 + F.u) ^ 1 ≤ (1 + F.u) ^ k := pow_le_pow_right₀ (by linarith) (Nat.pos_of_ne_zero hk1)
            simpa [le_sub_iff_add_le, add_comm] using this
          have : sv + tv - (A + e k) = (sv - A) + (tv - e k) := by ring
          rw [this]
          have c4 : F.eta ≤ (1 + F.u) ^ k * F.eta := le_mul_of_one_le_left hη.le hp1
          have c6 : F.u * |e k| ≤ ((1 + F.u) ^ k - 1) * |e k| := mul_le_mul_of_nonneg_right hku ha
          refine (abs_add_le _ _).trans ?_
          nlinarith
      refine ⟨s + x ⟨k, hk'⟩ * y ⟨k, hk'⟩, by rw [loop_succ, hs1, bind_ok, h k hk'], ?_, ?_⟩
      · intro hd
        obtain ⟨f1, f2, f3⟩ := Fp.add_finite hd
        obtain ⟨g1, g2, g3⟩ := Fp.mul_finite f2
        obtain ⟨i1, i2⟩ := hs2 f1
        refine ⟨?_, ?_⟩
        · intro i hi hik
          rcases Nat.lt_succ_iff_lt_or_eq.1 hik with hlt | rfl
          · exact i1 i hi hlt
          · exact ⟨g1, g2⟩
        · rw [Finset.sum_range_succ, Finset.sum_range_succ, ← hA, ← hS, f3]
          set tv := (x ⟨k, hk'⟩ * y ⟨k, hk'⟩).val with htv
          have ht : |tv - e k| ≤ F.u * |e k| + F.eta := by rw [g3, ← hek]; exact rnd_err_add _
          by_cases hk1 : k = 0
          · subst hk1
            have hs0 : s = 0 := by simpa [loop_zero] using hs1.symm
            have hA0 : A = 0 := by rw [hA]; simp
            have hS0' : S = 0 := by rw [hS]; simp
            rw [hs0, Fp.val_zero, zero_add, (Fp.rep_val f2).rnd_eq, hA0, hS0']
            simp only [zero_add, pow_one]
            push_cast
            nlinarith [abs_nonneg (e 0), mul_pos hu hη, ht]
          · obtain ⟨w1, w2⟩ := hw s.val tv i2 ht (fun hc => absurd hc hk1)
            have w2 := w2 hk1
            have hg : F.Grid (s.val + tv) := (Fp.rep_val f1).grid.add (Fp.rep_val f2).grid
            have herr := hg.rnd_err
            have hwabs : |s.val + tv| ≤ (1 + F.u) ^ k * (S + |e k|) + (k + 1) * (1 + F.u) ^ k * F.eta := by
              calc |s.val + tv| = |(s.val + tv - (A + e k)) + (A + e k)| := by congr 1; ring
                _ ≤ |s.val + tv - (A + e k)| + |A + e k| := abs_add_le _ _
                _ ≤ _ := by nlinarith [abs_add_le A (e k)]
            calc |F.rnd (s.val + tv) - (A + e k)| = |(F.rnd (s.val + tv) - (s.val + tv)) + (s.val + tv - (A + e k))| := by congr 1; ring
              _ ≤ |F.rnd (s.val + tv) - (s.val + tv)| + |s.val + tv - (A + e k)| := abs_add_le _ _
              _ ≤ F.u * ((1 + F.u) ^ k * (S + |e k|) + (k + 1) * (1 + F.u) ^ k * F.eta) + (((1 + F.u) ^ k - 1) * (S + |e k|) + (k + 1) * (1 + F.u) ^ k * F.eta) :=
                  add_le_add (herr.trans (mul_le_mul_of_nonneg_left hwabs hu.le)) w2
              _ = _ := by push_cast; rw [pow_succ]; ring
      · intro hfin hbd
        have f1 := hs3 hfin hbd
        obtain ⟨i1, i2⟩ := hs2 f1
        have hmem : |e k| ≤ ∑ i ∈ Finset.range N, |e i| :=
          Finset.single_le_sum (f := fun i => |e i|) (fun i _ => abs_nonneg _) (Finset.mem_range.2 hk')
        have hNη : 0 ≤ (N : ℝ) * F.eta := by positivity
        have hmax := F.maxFinite_pos
        have hem : |e k| ≤ F.maxFinite := by
          have : (1 - (N : ℝ) * F.u) * F.maxFinite ≤ F.maxFinite := by
            have : 0 ≤ (N : ℝ) * F.u * F.maxFinite := by positivity
            nlinarith
          linarith
        obtain ⟨g1, g2⟩ := Fp.mul_fin h0 (hfin ⟨k, hk'⟩).1 (hfin ⟨k, hk'⟩).2 (by rw [← hek]; exact hem)
        have ht : |(x ⟨k, hk'⟩ * y ⟨k, hk'⟩).val - e k| ≤ F.u * |e k| + F.eta := by rw [g2, ← hek]; exact rnd_err_add _
        obtain ⟨w1, -⟩ := hw s.val _ i2 ht (fun hc => by subst hc; rw [show s = 0 by simpa [loop_zero] using hs1.symm]; simp)
        refine (Fp.add_fin h0 f1 g1 (w1.trans ?_)).1
        have hsub : S + |e k| ≤ ∑ i ∈ Finset.range N, |e i| := by
          rw [hS, ← Finset.sum_range_succ (fun i => |e i|)]
          exact Finset.sum_le_sum_of_subset_of_nonneg (Finset.range_mono hk) (fun i _ _ => abs_nonneg _)
        have hkN : ((k : ℝ) + 1) * F.eta ≤ N * F.eta := mul_le_mul_of_nonneg_right (by exact_mod_cast hk) hη.le
        calc (1 + F.u) ^ (k + 1) * (S + |e k| + (k + 1) * F.eta) ≤ (1 + F.u) ^ N * ((1 - N * F.u) * F.maxFinite) := by
              apply mul_le_mul (pow_le_pow_right₀ (by linarith) hk) (by linarith) (by positivity) (by positivity)
          _ ≤ 1 / (1 - N * F.u) * ((1 - N * F.u) * F.maxFinite) := mul_le_mul_of_nonneg_right (pow_le_inv N hN) (by positivity)
          _ = F.maxFinite := by field_simp
  obtain ⟨d, d1, d2, d3⟩ := key N le_rfl
  have hid := hsum id
  have habs := hsum fun z => |z|
  simp only [id] at hid
  rw [hid, habs] at d2
  rw [habs] at d3
  refine ⟨d, d1, fun hd => ⟨fun i => (d2 hd).1 i.1 i.2 i.2, (d2 hd).2.trans ?_⟩, d3⟩
  have hS0 : 0 ≤ ∑ i, |(x i).val * (y i).val| := Finset.sum_nonneg fun i _ => abs_nonneg _
  have h1 := mul_le_mul_of_nonneg_right (pow_le_gamma hu.le N hN) hS0
  have h2 := mul_le_mul_of_nonneg_left (pow_le_inv N hN) (by positivity : 0 ≤ (N : ℝ) * F.eta)
  have e2 : Spec.accErr F N (∑ i, |(x i).val * (y i).val|) =
      Spec.gamma F.u N * ∑ i, |(x i).val * (y i).val| + N * F.eta * (1 / (1 - N * F.u)) := by
    unfold Spec.accErr Spec.gamma; field_simp
  rw [e2]
  nlinarith

/-- **C108** `dot` of IEEE vectors of any dimension. Whenever the result is finite, all operands are, and the result is within the stated error of the exact
product; and it is finite whenever the operands are and the sum of the absolute products leaves the stated room below the largest number. -/
theorem C108_dot (h0 : 0 < F.emax) (cfg : Cfg) (v w : Vec M (Fp F)) (hM : M * F.u < 1) :
    ∃ d, v.dot cfg w = .ok d ∧
      (d.Finite → (∀ i : Fin M, v[i].Finite ∧ w[i].Finite) ∧
        |d.val - ∑ i : Fin M, v[i].val * w[i].val| ≤ Spec.accErr F M (∑ i : Fin M, |v[i].val * w[i].val|)) ∧
      ((∀ i : Fin M, v[i].Finite ∧ w[i].Finite) →
        ∑ i : Fin M, |v[i].val * w[i].val| + M * F.eta ≤ (1 - M * F.u) * F.maxFinite → d.Finite) :=
  fp_loop h0 (fun i : Fin M => v[i]) (fun i : Fin M => w[i]) (by intro i hi s; simp [hi]) hM

/-- **C108** `squared_length`. -/
theorem C108_squared_length (h0 : 0 < F.emax) (v : Vec M (Fp F)) (hM : M * F.u < 1) :
    ∃ d, v.squaredLength = .ok d ∧
      (d.Finite → (∀ i : Fin M, v[i].Finite) ∧ |d.val - ∑ i : Fin M, v[i].val ^ 2| ≤ Spec.accErr F M (∑ i : Fin M, v[i].val ^ 2)) ∧
      ((∀ i : Fin M, v[i].Finite) → ∑ i : Fin M, v[i].val ^ 2 + M * F.eta ≤ (1 - M * F.u) * F.maxFinite → d.Finite) := by
  obtain ⟨d, h1, h2, h3⟩ := fp_loop h0 (body := fun i s => do pure (s + (← v.rawGet i) * (← v.rawGet i)))
    (fun i : Fin M => v[i]) (fun i : Fin M => v[i]) (by intro i hi s; simp [hi]) hM
  have e : ∀ i : Fin M, v[i].val * v[i].val = v[i].val ^ 2 := fun i => (sq _).symm
  have e' : ∀ i : Fin M, |v[i].val ^ 2| = v[i].val ^ 2 := fun i => abs_of_nonneg (sq_nonneg _)
  simp only [e, e', and_self] at h2 h3
  exact ⟨d, h1, h2, h3⟩

/-- **C108** Matrix product: every cell. -/
theorem C108_matrix_product (h0 : 0 < F.emax) (cfg : Cfg) (a : Mat M N (Fp F)) (b : Mat N P (Fp F)) (hN : N * F.u < 1) :
    ∃ m, a.mul cfg b = .ok m ∧ ∀ r c,
      ((m.get r c).Finite → (∀ p, (a.get r p).Finite ∧ (b.get p c).Finite) ∧
        |(m.get r c).val - ∑ p, (a.get r p).val * (b.get p c).val| ≤ Spec.accErr F N (∑ p, |(a.get r p).val * (b.get p c).val|)) ∧
      ((∀ p, (a.get r p).Finite ∧ (b.get p c).Finite) →
        ∑ p, |(a.get r p).val * (b.get p c).val| + N * F.eta ≤ (1 - N * F.u) * F.maxFinite → (m.get r c).Finite) := by
  refine ⟨_, by rw [Mat.mul, Mat.ctor_eq, bind_ok, Mat.multiply_iter], ?_⟩
  intro r c
  rw [Mat.get_ofFn]
  obtain ⟨d, h1, h2⟩ := fp_loop h0 (N := N) (body := fun i s => .ok (s + (if h : i < N then a.get r ⟨i, h⟩ * b.get ⟨i, h⟩ c else 0)))
    (fun p => a.get r p) (fun p => b.get p c) (by intro i hi s; simp [hi]) hN
  rw [loop_iter (fun i s => s + (if h : i < N then a.get r ⟨i, h⟩ * b.get ⟨i, h⟩ c else 0)) (fun i _ s => rfl)] at h1
  rw [Except.ok.inj h1]
  exact h2

/-- **C108** Matrix times vector. -/
theorem C108_matrix_vector (h0 : 0 < F.emax) (cfg : Cfg) (a : Mat M N (Fp F)) (v : Vec N (Fp F)) (hN : N * F.u < 1) :
    ∃ w, a.mulVec cfg v = .ok w ∧ ∀ r : Fin M,
      (w[r].Finite → (∀ p : Fin N, (a.get r p).Finite ∧ v[p].Finite) ∧
        |w[r].val - ∑ p : Fin N, (a.get r p).val * v[p].val| ≤ Spec.accErr F N (∑ p : Fin N, |(a.get r p).val * v[p].val|)) ∧
      ((∀ p : Fin N, (a.get r p).Finite ∧ v[p].Finite) →
        ∑ p : Fin N, |(a.get r p).val * v[p].val| + N * F.eta ≤ (1 - N * F.u) * F.maxFinite → w[r].Finite) := by
  have hcell : ∀ r : Fin M, _ := fun r => fp_loop (body := fun j tmp => do pure (tmp + (← a.atGet cfg r j) * (← v.atGet cfg j))) h0
    (fun p => a.get r p) (fun p : Fin N => v[p]) (by intro i hi s; simp [hi]) hN
  choose d hd1 hd2 using hcell
  refine ⟨Vector.ofFn d, ?_, ?_⟩
  · unfold Mat.mulVec
    apply loop_set
    intro i hi w _
    have := hd1 ⟨i, hi⟩
    simp only at this
    rw [this, bind_ok, Vec.atSet_lt _ _ _ hi]
  · intro r
    simp only [Fin.getElem_fin, Vector.getElem_ofFn]
    exact hd2 r

/-! ## Concrete cases -/
example (v w : Vec 1000 (Fp single)) := C108_dot (by norm_num) ⟨true, true, false⟩ v w (by norm_num [u])
example (v : Vec 1000 (Fp single)) := C108_squared_length (by norm_num) v (by norm_num [u])
example (a b : Mat 4 4 (Fp double)) := C108_matrix_product (by norm_num) ⟨true, true, false⟩ a b (by norm_num [u])
example (a : Mat 4 4 (Fp double)) (v : Vec 4 (Fp double)) := C108_matrix_vector (by norm_num) ⟨true, true, false⟩ a v (by norm_num [u])
/-- The room below the largest number: four products of magnitude `2^100` fit. -/
example : (4 * (2 : ℝ) ^ 100) + (4 : Nat) * single.eta ≤ (1 - (4 : Nat) * single.u) * single.maxFinite := by norm_num [eta, emin, u, maxFinite]

end Vmml
