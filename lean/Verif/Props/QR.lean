import Verif.Model.QR
import Verif.Model.Ieee
import Verif.Props.MatrixAccess
import Verif.Proofs.VectorReal
import Mathlib.Analysis.InnerProductSpace.GramSchmidtOrtho

/-!
# C77: QR decomposition

The columns of `A` are linearly independent; `Q` and `R` are the two output matrices, whatever they contained before.
-/

namespace Vmml
open Mat QR InnerProductSpace
variable {M N : Nat}

/-- Column `j` of `A` as a point of Euclidean space. -/
private noncomputable def col (A : Mat M N ℝ) (j : Fin N) : EuclideanSpace ℝ (Fin M) := euc (Vector.ofFn fun r => A.get r j)

private theorem col_apply (A : Mat M N ℝ) (j : Fin N) (r : Fin M) : (col A j).ofLp r = A.get r j := by simp [col, euc]

private noncomputable def gq (A : Mat M N ℝ) (j : Fin N) : EuclideanSpace ℝ (Fin M) := gramSchmidtNormed ℝ (col A) j

private noncomputable def gr (A : Mat M N ℝ) (i j : Fin N) : ℝ :=
  if i < j then inner ℝ (gq A i) (col A j) else if i = j then ‖gramSchmidt ℝ (col A) j‖ else 0

private theorem inner_sum (x y : EuclideanSpace ℝ (Fin M)) : inner ℝ x y = ∑ r, x.ofLp r * y.ofLp r := by
  simp [PiLp.inner_apply, mul_comm]

/-- Gram-Schmidt as the code computes it. -/
private theorem gs_step (A : Mat M N ℝ) (j : Fin N) :
    gramSchmidt ℝ (col A) j = col A j - ∑ i ∈ Finset.Iio j, inner ℝ (gq A i) (col A j) • gq A i := by
  have h := gramSchmidt_def'' ℝ (col A) j
  rw [eq_sub_iff_add_eq, h]
  rw [← h]
  conv_rhs => rw [h]
  congr 1
  apply Finset.sum_congr rfl
  intro i _
  simp only [gq, gramSchmidtNormed, inner_smul_left, smul_smul]
  congr 1
  simp
  ring

private theorem filter_succ (k : Nat) (hk : k < N) :
    (Finset.univ.filter fun i : Fin N => i.1 < k + 1) = insert ⟨k, hk⟩ (Finset.univ.filter fun i : Fin N => i.1 < k) := by
  ext i
  simp only [Finset.mem_filter, Finset.mem_univ, true_and, Finset.mem_insert, Fin.ext_iff]
  omega

private theorem inner_eq (cfg : Cfg) (mem : Vec M ℝ) (A : Mat M N ℝ) (Q : Mat M M ℝ) (j : Fin N) (R : Mat N N ℝ) (v : Vec M ℝ) (hNM : N ≤ M)
    (hQ : ∀ (i : Fin N), i < j → ∀ r, Q.get r ⟨i, by omega⟩ = (gq A i).ofLp r) (hv : ∀ r : Fin M, v[r] = A.get r j) :
    ∃ R' v', QR.inner cfg mem A Q j R v = .ok (R', v') ∧
      (∀ i c, R'.get i c = if c = j ∧ i < j then inner ℝ (gq A i) (col A j) else R.get i c) ∧
      euc v' = gramSchmidt ℝ (col A) j := by
  obtain ⟨⟨R', v'⟩, h1, h2, h3⟩ := loop_ok (n := j.1) (s := (R, v))
    (body := fun i ((R, v) : Mat N N ℝ × Vec M ℝ) => do
      let q_column ← Q.getColumn cfg i mem
      let a_column ← A.getColumn cfg j mem
      let R ← R.atSet cfg i j (← q_column.dot cfg a_column)
      let v ← v.subAssign cfg (← q_column.mulS cfg (← R.atGet cfg i j))
      pure (R, v))
    (fun k s => (∀ i c, s.1.get i c = if c = j ∧ i.1 < k then inner ℝ (gq A i) (col A j) else R.get i c) ∧
      ∀ r : Fin M, s.2[r] = A.get r j - ∑ i ∈ Finset.univ.filter (fun i : Fin N => i.1 < k), inner ℝ (gq A i) (col A j) * (gq A i).ofLp r)
    ⟨by simp, by simpa using hv⟩ (by
      rintro k hk ⟨R1, v1⟩ ⟨hR1, hv1⟩
      have hkN : k < N := by omega
      have hq := Mat.getColumn_eq cfg Q ⟨k, by omega⟩ mem
      have ha := Mat.getColumn_eq cfg A j mem
      have hdot : (∑ i : Fin M, (Vector.ofFn fun r => Q.get r ⟨k, by omega⟩)[i] * (Vector.ofFn fun r => A.get r j)[i])
          = inner ℝ (gq A ⟨k, hkN⟩) (col A j) := by
        rw [inner_sum]
        apply Finset.sum_congr rfl
        intro i _
        rw [col_apply, ← hQ ⟨k, hkN⟩ (Fin.lt_def.2 hk)]
        simp
      simp only at hq
      refine ⟨(R1.put ⟨k, hkN⟩ j (inner ℝ (gq A ⟨k, hkN⟩) (col A j)),
        Vector.ofFn fun r => v1[r] - (Q.get r ⟨k, by omega⟩) * inner ℝ (gq A ⟨k, hkN⟩) (col A j)), ?_, ?_, ?_⟩
      · simp only [hq, ha, bind_ok, Vec.dot_eq, hdot]
        rw [atSet_lt cfg _ _ hkN j.2]
        simp only [bind_ok]
        rw [atGet_lt cfg _ hkN j.2]
        simp only [bind_ok, Vec.mulS_eq, Vec.subAssign_eq, pure_ok]
        simp
      · intro i c
        simp only [get_put, hR1]
        by_cases hc : c = j
        · subst hc
          by_cases hi : i = ⟨k, hkN⟩
          · subst hi; simp
          · have : i.1 ≠ k := fun h => hi (Fin.ext h)
            have e : i.1 < k + 1 ↔ i.1 < k := by omega
            simp [Ne.symm hi, e]
        · simp [hc, Ne.symm hc]
      · intro r
        rw [filter_succ k hkN, Finset.sum_insert (by simp)]
        have := hv1 r
        simp only [Fin.getElem_fin] at this
        simp only [Fin.getElem_fin, Vector.getElem_ofFn, this]
        rw [← hQ ⟨k, hkN⟩ (Fin.lt_def.2 hk)]
        ring)
  refine ⟨R', v', h1, ?_, ?_⟩
  · intro i c
    rw [h2]
    simp only [Fin.lt_def]
  · rw [gs_step]
    ext r
    have := h3 r
    simp only [Fin.getElem_fin] at this
    simp only [euc, this, Fin.getElem_fin, PiLp.sub_apply, col_apply, WithLp.ofLp_sum, Finset.sum_apply, PiLp.smul_apply, smul_eq_mul]
    congr 1
    apply Finset.sum_congr _ (fun _ _ => rfl)
    ext i
    simp only [Finset.mem_filter, Finset.mem_univ, true_and, Finset.mem_Iio, Fin.lt_def]

private theorem li_le (A : Mat M N ℝ) (h : LinearIndependent ℝ (col A)) : N ≤ M := by
  have := h.fintype_card_le_finrank
  simpa using this

private theorem decompose_eq (cfg : Cfg) (A : Mat M N ℝ) (Q₀ : Mat M M ℝ) (R₀ : Mat N N ℝ) (hNM : N ≤ M) :
    ∃ Q R, decompose cfg A Q₀ R₀ = .ok (Q, R) ∧
      (∀ r (c : Fin M), Q.get r c = if h : c.1 < N then (gq A ⟨c, h⟩).ofLp r else 0) ∧ ∀ i j, R.get i j = gr A i j := by
  unfold decompose
  simp only [assignFill_eq, bind_ok]
  obtain ⟨⟨Q, R⟩, h1, h2, h3⟩ := loop_ok (n := N) (s := ((ofFn fun _ _ => 0 : Mat M M ℝ), (ofFn fun _ _ => 0 : Mat N N ℝ)))
    (body := fun j ((Q, R) : Mat M M ℝ × Mat N N ℝ) => do
      let v ← A.getColumn cfg j Vec.zeroCtor
      let (R, v) ← QR.inner cfg Vec.zeroCtor A Q j R v
      let R ← R.atSet cfg j j (← v.length)
      let Q ← Q.setColumn cfg j (← v.divS cfg (← R.atGet cfg j j))
      pure (Q, R))
    (fun k s => (∀ r (c : Fin M), s.1.get r c = if h : c.1 < k ∧ c.1 < N then (gq A ⟨c, h.2⟩).ofLp r else 0) ∧
      ∀ i j, s.2.get i j = if j.1 < k then gr A i j else 0)
    ⟨by simp, by simp⟩ (by
      rintro k hk ⟨Q, R⟩ ⟨hQ, hR⟩
      have ha := Mat.getColumn_eq cfg A ⟨k, hk⟩ Vec.zeroCtor
      obtain ⟨R', v', e1, e2, e3⟩ := inner_eq cfg Vec.zeroCtor A Q ⟨k, hk⟩ R (Vector.ofFn fun r => A.get r ⟨k, hk⟩) hNM
        (by intro i hi r; rw [hQ, dif_pos ⟨hi, i.2⟩]) (by simp)
      have hset := fun v => Mat.setColumn_eq cfg Q ⟨k, by omega⟩ v
      have hn : Real.sqrt (∑ i : Fin M, v'[i] * v'[i]) = ‖gramSchmidt ℝ (col A) ⟨k, hk⟩‖ := by rw [← e3, norm_euc]
      simp only at ha e1 hset
      refine ⟨(ofFn fun r c => if c = ⟨k, by omega⟩ then v'[r] / ‖gramSchmidt ℝ (col A) ⟨k, hk⟩‖ else Q.get r c,
        R'.put ⟨k, hk⟩ ⟨k, hk⟩ ‖gramSchmidt ℝ (col A) ⟨k, hk⟩‖), ?_, ?_, ?_⟩
      · simp only [ha, bind_ok, e1, length_eq, hn]
        rw [atSet_lt cfg _ _ hk hk]
        simp only [bind_ok]
        rw [atGet_lt cfg _ hk hk]
        simp only [bind_ok, Vec.divS_eq, hset, pure_ok]
        simp
      · intro r c
        simp only [get_ofFn, hQ]
        by_cases hc : c = ⟨k, by omega⟩
        · subst hc
          rw [if_pos rfl, dif_pos ⟨Nat.lt_succ_self _, hk⟩]
          simp only [gq, gramSchmidtNormed, ← e3, PiLp.smul_apply, smul_eq_mul]
          simp [euc]
          ring
        · have : c.1 ≠ k := fun h => hc (Fin.ext h)
          have e : (c.1 < k ∧ c.1 < N) ↔ (c.1 < k + 1 ∧ c.1 < N) := by omega
          rw [if_neg hc]
          by_cases h : c.1 < k ∧ c.1 < N
          · rw [dif_pos h, dif_pos (e.1 h)]
          · rw [dif_neg h, dif_neg (fun h' => h (e.2 h'))]
      · intro i j
        simp only [get_put, e2, hR]
        by_cases hj : j = ⟨k, hk⟩
        · subst hj
          by_cases hi : (⟨k, hk⟩ : Fin N) = i
          · subst hi; simp [gr]
          · simp only [hi, false_and, if_false, true_and, gr, Nat.lt_succ_self, if_true, Ne.symm hi, lt_irrefl]
        · have : j.1 ≠ k := fun h => hj (Fin.ext h)
          have e : j.1 < k + 1 ↔ j.1 < k := by omega
          simp [hj, Ne.symm hj, e])
  refine ⟨Q, R, h1, ?_, ?_⟩
  · intro r c
    rw [h2]
    by_cases h : c.1 < N <;> simp [h]
  · intro i j
    rw [h3]; simp

/-- **C77** For every `M × N` matrix with linearly independent columns (then `N ≤ M`), every build configuration and any previous content of `Q` and
`R`: the first `N` columns of `Q` are orthonormal (the remaining ones are zero), `R` is upper triangular with positive diagonal, and `A` is the
product of the first `N` columns of `Q` with `R`. -/
theorem C77_qr (cfg : Cfg) (A : Mat M N ℝ) (Q₀ : Mat M M ℝ) (R₀ : Mat N N ℝ) (hA : LinearIndependent ℝ A.toMat.col) :
    ∃ (hNM : N ≤ M) (Q : Mat M M ℝ) (R : Mat N N ℝ), decompose cfg A Q₀ R₀ = .ok (Q, R) ∧
      (∀ i j : Fin N, ∑ r, Q.get r (i.castLE hNM) * Q.get r (j.castLE hNM) = if i = j then 1 else 0) ∧
      (∀ r (c : Fin M), N ≤ c → Q.get r c = 0) ∧
      (∀ i j, j < i → R.get i j = 0) ∧ (∀ j, 0 < R.get j j) ∧
      ∀ r j, A.get r j = ∑ i, Q.get r (i.castLE hNM) * R.get i j := by
  have hli : LinearIndependent ℝ (col A) := by
    have := hA.map' (WithLp.linearEquiv 2 ℝ (Fin M → ℝ)).symm.toLinearMap (LinearEquiv.ker _)
    have e : col A = (⇑(WithLp.linearEquiv 2 ℝ (Fin M → ℝ)).symm.toLinearMap ∘ A.toMat.col) := by
      funext j
      ext r
      rw [col_apply]
      rfl
    rw [e]
    exact this
  have hNM := li_le A hli
  obtain ⟨Q, R, h1, h2, h3⟩ := decompose_eq cfg A Q₀ R₀ hNM
  have hQ : ∀ r (i : Fin N), Q.get r (i.castLE hNM) = (gq A i).ofLp r := by
    intro r i
    rw [h2, dif_pos (by simp)]
    rfl
  refine ⟨hNM, Q, R, h1, ?_, ?_, ?_, ?_, ?_⟩
  · intro i j
    simp only [hQ]
    rw [← inner_sum]
    exact orthonormal_iff_ite.1 (gramSchmidtNormed_orthonormal hli) i j
  · intro r c hc
    rw [h2, dif_neg (by omega)]
  · intro i j hij
    rw [h3, gr, if_neg (not_lt.2 hij.le), if_neg hij.ne']
  · intro j
    rw [h3, gr, if_neg (lt_irrefl _), if_pos rfl]
    exact norm_pos_iff.2 (gramSchmidt_ne_zero j hli)
  · intro r j
    simp only [hQ, h3]
    have hs := gs_step A j
    rw [eq_sub_iff_add_eq] at hs
    have hr : A.get r j = (col A j).ofLp r := (col_apply A j r).symm
    rw [hr, ← hs]
    have hg : gramSchmidt ℝ (col A) j = ‖gramSchmidt ℝ (col A) j‖ • gq A j := by
      have hne : ‖gramSchmidt ℝ (col A) j‖ ≠ 0 := norm_ne_zero_iff.2 (gramSchmidt_ne_zero j hli)
      simp only [gq, gramSchmidtNormed, smul_smul]
      simp [hne]
    have e : ∀ i, (gq A i).ofLp r * gr A i j =
        (if i = j then ‖gramSchmidt ℝ (col A) j‖ * (gq A j).ofLp r else 0) +
        (if i < j then inner ℝ (gq A i) (col A j) * (gq A i).ofLp r else 0) := by
      intro i
      unfold gr
      rcases lt_trichotomy i j with h | h | h
      · simp [h, h.ne, mul_comm]
      · subst h; simp [mul_comm]
      · simp [h.ne', not_lt.2 h.le]
    simp only [e]
    rw [Finset.sum_add_distrib, Finset.sum_ite_eq' Finset.univ j]
    simp only [Finset.mem_univ, if_true]
    conv_lhs => rw [PiLp.add_apply]
    congr 1
    · conv_lhs => rw [hg]
      rfl
    · simp only [WithLp.ofLp_sum, Finset.sum_apply, PiLp.smul_apply, smul_eq_mul]
      rw [← Finset.sum_filter]
      apply Finset.sum_congr _ (fun _ _ => rfl)
      ext i; simp

/-- **C77**, square matrices: for every invertible `A`, `Q` is an orthogonal matrix and `A = Q R`. -/
theorem C77_square (cfg : Cfg) (A Q₀ R₀ : Mat M M ℝ) (hA : IsUnit A.toMat.det) :
    ∃ Q R, decompose cfg A Q₀ R₀ = .ok (Q, R) ∧ Q.toMat.transpose * Q.toMat = 1 ∧ Q.toMat * Q.toMat.transpose = 1 ∧
      Matrix.BlockTriangular R.toMat id ∧ (∀ j, 0 < R.get j j) ∧ A.toMat = Q.toMat * R.toMat := by
  have hli : LinearIndependent ℝ A.toMat.col :=
    Matrix.linearIndependent_cols_iff_isUnit.2 ((Matrix.isUnit_iff_isUnit_det _).2 hA)
  obtain ⟨hNM, Q, R, h1, h2, _, h3, h4, h5⟩ := C77_qr cfg A Q₀ R₀ hli
  have hQ : Q.toMat.transpose * Q.toMat = 1 := by
    ext i j
    rw [Matrix.mul_apply, Matrix.one_apply]
    exact h2 i j
  refine ⟨Q, R, h1, hQ, mul_eq_one_comm.1 hQ, ?_, h4, ?_⟩
  · intro i j hij
    exact h3 i j hij
  · ext r j
    rw [Matrix.mul_apply]
    exact h5 r j

private theorem loop_error {σ : Type} {n : Nat} {body : Nat → σ → Res σ} {s : σ} {e : Fault} (h : loop n body s = .error e) (k : Nat) :
    loop (n + k) body s = .error e := by
  induction k with
  | zero => exact h
  | succ k ih => rw [← Nat.add_assoc, loop_succ, ih]; rfl

private theorem setColumn_out {α : Type} {K : Nat} (cfg : Cfg) (m : Mat K K α) (v : Vec K α) (hK : 0 < K) :
    (m.setColumn cfg K v = .error (if cfg.safe && cfg.throws then .thrown else if cfg.safe && !cfg.ndebug then .aborted else .ub)) := by
  unfold Mat.setColumn
  have hl : loop K (fun i m => do m.rawSet (K * K + i) (← v.rawGet i)) m = .error .ub := by
    obtain ⟨k, rfl⟩ : ∃ k, K = 1 + k := ⟨K - 1, by omega⟩
    apply loop_error
    rw [loop_succ, loop_zero, bind_ok, Vec.rawGet_lt v hK, bind_ok, Mat.rawSet_ge _ _ (by omega)]
  obtain ⟨a, b, c⟩ := cfg
  rcases a <;> rcases b <;> rcases c <;> simp [vmmlibError, hl]

/-- **C77** More columns than rows (`0 < M < N`): the columns of `Q` run out and the call never returns; depending on the build it throws, aborts
or writes out of bounds. -/
theorem C77_wide (cfg : Cfg) (A : Mat M N ℝ) (Q₀ : Mat M M ℝ) (R₀ : Mat N N ℝ) (hM : 0 < M) (hMN : M < N) :
    decompose cfg A Q₀ R₀ = .error (if cfg.safe && cfg.throws then .thrown else if cfg.safe && !cfg.ndebug then .aborted else .ub) := by
  unfold decompose
  simp only [assignFill_eq, bind_ok]
  have hin : ∀ (j : Nat) (hj : j ≤ M) (Q : Mat M M ℝ) (R : Mat N N ℝ) (v : Vec M ℝ), ∃ s, QR.inner cfg Vec.zeroCtor A Q j R v = .ok s := by
    intro j hj Q R v
    obtain ⟨s, h, _⟩ := loop_ok (n := j) (s := (R, v))
      (body := fun i ((R, v) : Mat N N ℝ × Vec M ℝ) => do
        let q_column ← Q.getColumn cfg i Vec.zeroCtor
        let a_column ← A.getColumn cfg j Vec.zeroCtor
        let R ← R.atSet cfg i j (← q_column.dot cfg a_column)
        let v ← v.subAssign cfg (← q_column.mulS cfg (← R.atGet cfg i j))
        pure (R, v)) (fun _ _ => True) trivial (by
          rintro i hi ⟨R, v⟩ _
          have hq := Mat.getColumn_eq cfg Q ⟨i, by omega⟩ Vec.zeroCtor
          have ha := Mat.getColumn_eq cfg A ⟨j, by omega⟩ Vec.zeroCtor
          simp only at hq ha
          simp only [hq, ha, bind_ok, Vec.dot_eq]
          rw [atSet_lt cfg _ _ (by omega) (by omega)]
          simp only [bind_ok]
          rw [atGet_lt cfg _ (by omega) (by omega)]
          simp only [bind_ok, Vec.mulS_eq, Vec.subAssign_eq, pure_ok]
          exact ⟨_, rfl, trivial⟩)
    exact ⟨s, h⟩
  obtain ⟨s, h, _⟩ := loop_ok (n := M) (s := ((ofFn fun _ _ => 0 : Mat M M ℝ), (ofFn fun _ _ => 0 : Mat N N ℝ)))
    (body := fun j ((Q, R) : Mat M M ℝ × Mat N N ℝ) => do
      let v ← A.getColumn cfg j Vec.zeroCtor
      let (R, v) ← QR.inner cfg Vec.zeroCtor A Q j R v
      let R ← R.atSet cfg j j (← v.length)
      let Q ← Q.setColumn cfg j (← v.divS cfg (← R.atGet cfg j j))
      pure (Q, R)) (fun _ _ => True) trivial (by
        rintro j hj ⟨Q, R⟩ _
        have ha := Mat.getColumn_eq cfg A ⟨j, by omega⟩ Vec.zeroCtor
        have hset := fun v => Mat.setColumn_eq cfg Q ⟨j, hj⟩ v
        simp only at ha hset
        obtain ⟨⟨R', v'⟩, e⟩ := hin j hj.le Q R (Vector.ofFn fun r => A.get r ⟨j, by omega⟩)
        simp only [ha, bind_ok, e, length_eq]
        rw [atSet_lt cfg _ _ (by omega) (by omega)]
        simp only [bind_ok]
        rw [atGet_lt cfg _ (by omega) (by omega)]
        simp only [bind_ok, Vec.divS_eq, hset, pure_ok]
        exact ⟨_, rfl, trivial⟩)
  obtain ⟨k, rfl⟩ : ∃ k, N = M + 1 + k := ⟨N - M - 1, by omega⟩
  apply loop_error
  rw [loop_succ, h, bind_ok]
  obtain ⟨Q, R⟩ := s
  have ha := Mat.getColumn_eq cfg A ⟨M, by omega⟩ Vec.zeroCtor
  simp only at ha
  obtain ⟨⟨R', v'⟩, e⟩ := hin M le_rfl Q R (Vector.ofFn fun r => A.get r ⟨M, by omega⟩)
  simp only [ha, bind_ok, e, length_eq]
  rw [atSet_lt cfg _ _ (by omega) (by omega)]
  simp only [bind_ok]
  rw [atGet_lt cfg _ (by omega) (by omega)]
  simp only [bind_ok, Vec.divS_eq, setColumn_out cfg Q _ hM, bind_error]

/-- Linear independence is needed: for the zero `1 × 1` matrix the division by the zero norm makes `Q` NaN (nothing is reported). -/
theorem C77_singular_violated (cfg : Cfg) :
    decompose cfg (⟨#v[0]⟩ : Mat 1 1 NaNable) ⟨#v[0]⟩ ⟨#v[0]⟩ = .ok (⟨#v[.nan]⟩, ⟨#v[0]⟩) := by
  obtain ⟨a, b, c⟩ := cfg
  simp [decompose, assignFill, loop, Mat.getColumn, Mat.rawGet, Vec.rawGet, Vec.rawSet, Mat.rawSet, QR.inner, Mat.atSet, Mat.atGet, Vec.length,
    Vec.squaredLength, Vec.divS, Vec.atSet, Vec.atGet, Mat.setColumn, Vec.zeroCtor]
  simp [NaNable.zero_def, NaNable.sqrt_num]

/-- A non-trivial input: a `3 × 2` matrix with linearly independent columns. -/
example : LinearIndependent ℝ (⟨#v[1, 1, 0, 1, 0, 1]⟩ : Mat 3 2 ℝ).toMat.col := by
  rw [Fintype.linearIndependent_iff]
  intro g hg
  have h1 := congrFun hg 1
  have h2 := congrFun hg 2
  simp [Fin.sum_univ_two, Matrix.col, Mat.get] at h1 h2
  intro i
  fin_cases i
  · exact h1
  · exact h2

end Vmml
