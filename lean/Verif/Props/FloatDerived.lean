import Verif.Props.FloatConvolve
import Verif.Props.FloatLaws
import Verif.Props.FloatVector
import Verif.Props.MatrixAlgebra

/-!
# C147: covariance, Kronecker and Khatri-Rao products, pair sums and random matrices in IEEE 754 arithmetic
-/

namespace Vmml
open Format
variable {F D : Format} {M N O P : Nat}

/-- The sum of products computed by the code, in its order. -/
private theorem cov_iter (cfg : Cfg) (a : Mat M N (Fp F)) (cov : Mat M M (Fp F)) :
    a.symmetricCovariance cfg cov = .ok (Mat.ofFn fun r c =>
      iter (fun i s => s + (if h : i < N then a.get r ⟨i, h⟩ * a.get c ⟨i, h⟩ else 0)) N 0) := by
  unfold Mat.symmetricCovariance
  set G : Fin M → Fin M → Fp F := fun r c =>
    iter (fun i s => s + (if h : i < N then a.get r ⟨i, h⟩ * a.get c ⟨i, h⟩ else 0)) N 0 with hG
  have hsym : ∀ r c, G r c = G c r := by
    intro r c; simp only [hG]; congr 1; funext i s; simp only [Fp.mul_comm' (a.get r _)]
  obtain ⟨s, h1, -, h2⟩ := Mat.loop_paint (M := M) (N := M) (α := Fp F) (fun s : Mat M M (Fp F) × Fp F => s.1) (fun _ s => s.2 = 0)
    (n := M) (s := (cov, 0)) (fun r r' c' => (r'.1 = r ∧ r ≤ c'.1) ∨ (c'.1 = r ∧ r ≤ r'.1)) G
    (body := fun r s => loop (M - r) (fun d s => do
      let c := r + d
      let tmp ← loop N (fun k tmp => do pure (tmp + (← a.atGet cfg r k) * (← a.atGet cfg c k))) s.2
      let cov ← s.1.atSet cfg r c tmp
      let cov ← cov.atSet cfg c r tmp
      pure (cov, 0)) s) rfl (by
    intro r hr s hs
    obtain ⟨s', h1, h2, h3⟩ := Mat.loop_paint (M := M) (N := M) (α := Fp F) (fun s : Mat M M (Fp F) × Fp F => s.1) (fun _ s => s.2 = 0)
      (n := M - r) (s := s)
      (fun d r' c' => (r'.1 = r ∧ c'.1 = r + d) ∨ (c'.1 = r ∧ r'.1 = r + d)) G
      (body := fun d s => do
        let c := r + d
        let tmp ← loop N (fun k tmp => do pure (tmp + (← a.atGet cfg r k) * (← a.atGet cfg c k))) s.2
        let cov ← s.1.atSet cfg r c tmp
        let cov ← cov.atSet cfg c r tmp
        pure (cov, 0)) hs (by
      rintro d hd ⟨m, t⟩ (ht : t = 0)
      subst ht
      have hc : r + d < M := by omega
      have hsum : loop N (fun k tmp => do pure (tmp + (← a.atGet cfg r k) * (← a.atGet cfg (r + d) k))) (0 : Fp F) =
          .ok (G ⟨r, hr⟩ ⟨r + d, hc⟩) :=
        loop_iter (fun i s => s + (if h : i < N then a.get ⟨r, hr⟩ ⟨i, h⟩ * a.get ⟨r + d, hc⟩ ⟨i, h⟩ else 0))
          (by intro k hk s; simp [hr, hc, hk])
      refine ⟨((m.put ⟨r, hr⟩ ⟨r + d, hc⟩ (G ⟨r, hr⟩ ⟨r + d, hc⟩)).put ⟨r + d, hc⟩ ⟨r, hr⟩
        (G ⟨r + d, hc⟩ ⟨r, hr⟩), 0), ?_, rfl, ((Mat.Paint.put m _ _ G).trans (Mat.Paint.put _ _ _ G)).congr ?_⟩
      · simp only [hsum, bind_ok, Mat.atSet_lt cfg _ _ hr hc, Mat.atSet_lt cfg _ _ hc hr]
        rw [hsym ⟨r + d, hc⟩]; rfl
      · intro r' c'; simp only [Fin.ext_iff]; omega)
    refine ⟨s', h1, h2, h3.congr fun r' c' => ?_⟩
    constructor
    · rintro (⟨e1, e2⟩ | ⟨e1, e2⟩)
      · exact ⟨c'.1 - r, by have := c'.2; omega, Or.inl ⟨e1, by omega⟩⟩
      · exact ⟨r'.1 - r, by have := r'.2; omega, Or.inr ⟨e1, by omega⟩⟩
    · rintro ⟨d, _, h⟩; omega)
  refine (congrArg (· >>= fun s => pure s.1) h1).trans ?_
  simp only [bind_ok, pure_ok]
  rw [h2.all fun r c => ?_]
  rcases Nat.le_total r.1 c.1 with h | h
  · exact ⟨r.1, r.2, Or.inl ⟨rfl, h⟩⟩
  · exact ⟨c.1, c.2, Or.inr ⟨rfl, h⟩⟩

/-- C147. `symmetric_covariance` is, bit for bit, the product of the matrix with its transpose, whatever the entries (infinities and NaN included) and the
previous contents of the target. -/
theorem C147_covariance_product (cfg : Cfg) (a : Mat M N (Fp F)) (cov : Mat M M (Fp F)) :
    a.symmetricCovariance cfg cov = (a.transpose cfg >>= fun t => a.mul cfg t) := by
  rw [cov_iter, Mat.transpose_eq, bind_ok, Mat.mul, Mat.ctor_eq, bind_ok, Mat.multiply_iter]
  simp only [Mat.get_ofFn]

/-- C147. The computed covariance is exactly symmetric; each entry is within the error of an accumulated sum of the exact one, and finite if there is room. -/
theorem C147_covariance (h0 : 0 < F.emax) (cfg : Cfg) (a : Mat M N (Fp F)) (cov : Mat M M (Fp F)) (hN : N * F.u < 1) :
    ∃ x, a.symmetricCovariance cfg cov = .ok x ∧ (∀ r c, x.get r c = x.get c r) ∧ ∀ r c,
      ((x.get r c).Finite → (∀ k, (a.get r k).Finite ∧ (a.get c k).Finite) ∧
        |(x.get r c).val - ∑ k, (a.get r k).val * (a.get c k).val| ≤ Spec.accErr F N (∑ k, |(a.get r k).val * (a.get c k).val|)) ∧
      ((∀ k, (a.get r k).Finite ∧ (a.get c k).Finite) →
        ∑ k, |(a.get r k).val * (a.get c k).val| + N * F.eta ≤ (1 - N * F.u) * F.maxFinite → (x.get r c).Finite) := by
  obtain ⟨t, ht1, -, ht2⟩ : ∃ t, a.transpose cfg = .ok t ∧ True ∧ ∀ r c, t.get r c = a.get c r :=
    ⟨_, Mat.transpose_eq cfg a, trivial, fun r c => Mat.get_ofFn _ _ _⟩
  obtain ⟨x, hx, hx2⟩ := C108_matrix_product h0 cfg a t hN
  simp only [ht2] at hx2
  have e : a.symmetricCovariance cfg cov = .ok x := by rw [C147_covariance_product, ht1, bind_ok, hx]
  refine ⟨x, e, fun r c => ?_, hx2⟩
  rw [cov_iter] at e
  rw [← Except.ok.inj e, Mat.get_ofFn, Mat.get_ofFn]
  congr 1; funext i s; simp only [Fp.mul_comm' (a.get r _)]

/-- The diagonal sums only grow. -/
private theorem square_sum_nonneg (x : Nat → Fp F) (n : Nat) :
    let s := iter (fun i s => s + x i * x i) n (0 : Fp F)
    s.Finite → 0 ≤ s.val ∧ ∀ i < n, F.rnd ((x i).val ^ 2) ≤ s.val := by
  induction n with
  | zero => intro s _; exact ⟨by simp [s, iter], fun i hi => absurd hi (by omega)⟩
  | succ n ih =>
    intro s hs
    have e : s = iter (fun i s => s + x i * x i) n (0 : Fp F) + x n * x n := rfl
    rw [e] at hs ⊢
    obtain ⟨f1, f2, f3⟩ := Fp.add_finite hs
    obtain ⟨i1, i2⟩ := ih f1
    obtain ⟨g1, -, g2⟩ := Fp.mul_finite f2
    rw [← sq] at g2
    have hm : 0 ≤ F.rnd ((x n).val ^ 2) := rnd_nonneg (sq_nonneg _)
    rw [f3, g2]
    have l1 : (iter (fun i s => s + x i * x i) n (0 : Fp F)).val ≤ F.rnd ((iter (fun i s => s + x i * x i) n (0 : Fp F)).val + F.rnd ((x n).val ^ 2)) := by
      rw [← (Fp.rep_val f1).rnd_eq]
      conv_lhs => rw [← (Fp.rep_val f1).rnd_eq]
      refine rnd_mono ?_
      rw [(Fp.rep_val f1).rnd_eq]; linarith
    have l2 : F.rnd ((x n).val ^ 2) ≤ F.rnd ((iter (fun i s => s + x i * x i) n (0 : Fp F)).val + F.rnd ((x n).val ^ 2)) := by
      rw [← g2]
      conv_lhs => rw [← (Fp.rep_val f2).rnd_eq]
      exact rnd_mono (by linarith)
    refine ⟨i1.trans l1, fun i hi => ?_⟩
    rcases Nat.lt_succ_iff_lt_or_eq.1 hi with h | rfl
    · exact (i2 i h).trans l1
    · exact l2

/-- C147. The variances on the diagonal are never negative, and at least the rounded square of each entry of the row. -/
theorem C147_variance (cfg : Cfg) (a : Mat M N (Fp F)) (cov : Mat M M (Fp F)) :
    ∃ x, a.symmetricCovariance cfg cov = .ok x ∧ ∀ r, (x.get r r).Finite →
      0 ≤ (x.get r r).val ∧ ∀ k, F.rnd ((a.get r k).val ^ 2) ≤ (x.get r r).val := by
  refine ⟨_, cov_iter cfg a cov, fun r => ?_⟩
  rw [Mat.get_ofFn]
  intro hf
  set x : Nat → Fp F := fun i => if h : i < N then a.get r ⟨i, h⟩ else 0 with hx
  have e : ∀ n ≤ N, iter (fun i s => s + (if h : i < N then a.get r ⟨i, h⟩ * a.get r ⟨i, h⟩ else 0)) n (0 : Fp F) =
      iter (fun i s => s + x i * x i) n 0 := by
    intro n hn
    induction n with
    | zero => rfl
    | succ n ih =>
      show iter _ n 0 + _ = iter _ n 0 + _
      rw [ih (by omega)]
      have : n < N := by omega
      simp [hx, this]
  rw [e N le_rfl] at hf ⊢
  obtain ⟨p1, p2⟩ := square_sum_nonneg x N hf
  refine ⟨p1, fun k => ?_⟩
  have := p2 k k.2
  simpa [hx] using this

/-- C147. The computed covariance is positive semidefinite up to the errors of its entries. -/
theorem C147_covariance_psd (h0 : 0 < F.emax) (cfg : Cfg) (a : Mat M N (Fp F)) (cov : Mat M M (Fp F)) (hN : N * F.u < 1) :
    ∃ x, a.symmetricCovariance cfg cov = .ok x ∧ ((∀ r c, (x.get r c).Finite) → ∀ v : Fin M → ℝ,
      -(∑ i, ∑ j, |v i| * Spec.accErr F N (∑ k, |(a.get i k).val * (a.get j k).val|) * |v j|) ≤ ∑ i, ∑ j, v i * (x.get i j).val * v j) := by
  obtain ⟨x, hx, -, h⟩ := C147_covariance h0 cfg a cov hN
  refine ⟨x, hx, fun hf v => ?_⟩
  have hpsd : 0 ≤ ∑ i, ∑ j, v i * (∑ k, (a.get i k).val * (a.get j k).val) * v j := by
    obtain ⟨y, hy, -, h⟩ := C35_symmetric_psd cfg (Mat.ofFn fun i j => (a.get i j).val) (Mat.ofFn fun _ _ => 0 : Mat M M ℝ)
    obtain ⟨y', hy', e⟩ := C35_covariance cfg (Mat.ofFn fun i j => (a.get i j).val) (Mat.ofFn fun _ _ => 0 : Mat M M ℝ)
    rw [hy] at hy'
    cases hy'
    have := h v
    rw [e] at this
    simpa [Matrix.mul_apply] using this
  have hterm : ∀ i j, v i * (∑ k, (a.get i k).val * (a.get j k).val) * v j - |v i| * Spec.accErr F N (∑ k, |(a.get i k).val * (a.get j k).val|) * |v j| ≤
      v i * (x.get i j).val * v j := by
    intro i j
    have hb := ((h i j).1 (hf i j)).2
    have h1 : |v i * ((x.get i j).val - ∑ k, (a.get i k).val * (a.get j k).val) * v j| ≤
        |v i| * Spec.accErr F N (∑ k, |(a.get i k).val * (a.get j k).val|) * |v j| := by
      rw [abs_mul, abs_mul]
      exact mul_le_mul_of_nonneg_right (mul_le_mul_of_nonneg_left hb (abs_nonneg _)) (abs_nonneg _)
    have h2 := (abs_le.1 h1).1
    have h3 : v i * ((x.get i j).val - ∑ k, (a.get i k).val * (a.get j k).val) * v j =
      v i * (x.get i j).val * v j - v i * (∑ k, (a.get i k).val * (a.get j k).val) * v j := by ring
    rw [h3] at h2
    linarith only [h2]
  have := Finset.sum_le_sum fun i (_ : i ∈ Finset.univ) => Finset.sum_le_sum fun j (_ : j ∈ Finset.univ) => hterm i j
  simp only [Finset.sum_sub_distrib] at this
  linarith only [this, hpsd]

/-- C147. Every entry of a Kronecker product is the exact product of the two entries, rounded once. -/
theorem C147_kronecker (h0 : 0 < F.emax) (cfg : Cfg) (a : Mat M N (Fp F)) (b : Mat O P (Fp F)) (res : Mat (M * O) (N * P) (Fp F)) :
    ∃ x, a.kronecker cfg b res = .ok x ∧ ∀ (m : Fin M) (n : Fin N) (o : Fin O) (p : Fin P) (hr : O * m.1 + o.1 < M * O) (hc : P * n.1 + p.1 < N * P),
      let e := x.get ⟨O * m.1 + o.1, hr⟩ ⟨P * n.1 + p.1, hc⟩
      (e.Finite → (a.get m n).Finite ∧ (b.get o p).Finite ∧ e.val = F.rnd ((a.get m n).val * (b.get o p).val)) ∧
      ((a.get m n).Finite → (b.get o p).Finite → |(a.get m n).val * (b.get o p).val| ≤ F.maxFinite → e.Finite) := by
  obtain ⟨x, hx, h⟩ := C34_kronecker cfg a b res
  refine ⟨x, hx, fun m n o p hr hc => ?_⟩
  have e1 : (⟨O * m.1 + o.1, hr⟩ : Fin (M * O)) = finProdFinEquiv (m, o) := Fin.ext (C34_index_convention m o).symm
  have e2 : (⟨P * n.1 + p.1, hc⟩ : Fin (N * P)) = finProdFinEquiv (n, p) := Fin.ext (C34_index_convention n p).symm
  have := h m n o p
  rw [← e1, ← e2] at this
  simp only [Mat.toMat_apply] at this
  intro e
  have he : e = a.get m n * b.get o p := this
  rw [he]
  exact ⟨Fp.mul_finite, fun f1 f2 hle => (Fp.mul_fin h0 f1 f2 hle).1⟩

/-- C147. Every entry of a Khatri-Rao product is the exact product of the two entries, rounded once. -/
theorem C147_khatri_rao (h0 : 0 < F.emax) (cfg : Cfg) (a : Mat M N (Fp F)) (b : Mat O N (Fp F)) (res : Mat (M * O) N (Fp F)) :
    ∃ x, a.khatriRao cfg b res = .ok x ∧ ∀ (m : Fin M) (o : Fin O) (c : Fin N) (hr : O * m.1 + o.1 < M * O),
      let e := x.get ⟨O * m.1 + o.1, hr⟩ c
      (e.Finite → (a.get m c).Finite ∧ (b.get o c).Finite ∧ e.val = F.rnd ((a.get m c).val * (b.get o c).val)) ∧
      ((a.get m c).Finite → (b.get o c).Finite → |(a.get m c).val * (b.get o c).val| ≤ F.maxFinite → e.Finite) := by
  obtain ⟨x, hx, h⟩ := C34_khatri_rao cfg a b res
  refine ⟨x, hx, fun m o c hr => ?_⟩
  have e1 : (⟨O * m.1 + o.1, hr⟩ : Fin (M * O)) = finProdFinEquiv (m, o) := Fin.ext (C34_index_convention m o).symm
  have := h m o c
  rw [← e1] at this
  simp only [Mat.toMat_apply] at this
  intro e
  have he : e = a.get m c * b.get o c := this
  rw [he]
  exact ⟨Fp.mul_finite, fun f1 f2 hle => (Fp.mul_fin h0 f1 f2 hle).1⟩

/-- C147. `sum_rows`: every entry is the exact sum of the two entries above each other, rounded once. -/
theorem C147_sum_rows (h0 : 0 < F.emax) (cfg : Cfg) (m : Mat M N (Fp F)) (other : Mat (M / 2) N (Fp F)) :
    ∃ x, m.sumRows cfg other = .ok x ∧ ∀ (k : Fin (M / 2)) (c : Fin N) (h1 : 2 * k.1 < M) (h2 : 2 * k.1 + 1 < M),
      ((x.get k c).Finite → (m.get ⟨2 * k.1, h1⟩ c).Finite ∧ (m.get ⟨2 * k.1 + 1, h2⟩ c).Finite ∧
        (x.get k c).val = F.rnd ((m.get ⟨2 * k.1, h1⟩ c).val + (m.get ⟨2 * k.1 + 1, h2⟩ c).val)) ∧
      ((m.get ⟨2 * k.1, h1⟩ c).Finite → (m.get ⟨2 * k.1 + 1, h2⟩ c).Finite →
        |(m.get ⟨2 * k.1, h1⟩ c).val + (m.get ⟨2 * k.1 + 1, h2⟩ c).val| ≤ F.maxFinite → (x.get k c).Finite) := by
  obtain ⟨x, hx, h⟩ := C44_sum_rows cfg m other
  refine ⟨x, hx, fun k c h1 h2 => ?_⟩
  have := h k c
  simp only [Mat.toMat_apply] at this
  rw [this]
  exact ⟨Fp.add_finite, fun f1 f2 hle => (Fp.add_fin h0 f1 f2 hle).1⟩

/-- C147. `sum_columns` likewise. -/
theorem C147_sum_columns (h0 : 0 < F.emax) (cfg : Cfg) (m : Mat M N (Fp F)) (other : Mat M (N / 2) (Fp F)) :
    ∃ x, m.sumColumns cfg other = .ok x ∧ ∀ (r : Fin M) (k : Fin (N / 2)) (h1 : 2 * k.1 < N) (h2 : 2 * k.1 + 1 < N),
      ((x.get r k).Finite → (m.get r ⟨2 * k.1, h1⟩).Finite ∧ (m.get r ⟨2 * k.1 + 1, h2⟩).Finite ∧
        (x.get r k).val = F.rnd ((m.get r ⟨2 * k.1, h1⟩).val + (m.get r ⟨2 * k.1 + 1, h2⟩).val)) ∧
      ((m.get r ⟨2 * k.1, h1⟩).Finite → (m.get r ⟨2 * k.1 + 1, h2⟩).Finite →
        |(m.get r ⟨2 * k.1, h1⟩).val + (m.get r ⟨2 * k.1 + 1, h2⟩).val| ≤ F.maxFinite → (x.get r k).Finite) := by
  obtain ⟨x, hx, h⟩ := C44_sum_columns cfg m other
  refine ⟨x, hx, fun r k h1 h2 => ?_⟩
  have := h r k
  simp only [Mat.toMat_apply] at this
  rw [this]
  exact ⟨Fp.add_finite, fun f1 f2 hle => (Fp.add_fin h0 f1 f2 hle).1⟩

private theorem two_eq (h0 : 0 < D.emax) : (1 : Fp D) + 1 = Fp.ofReal 2 := by
  obtain ⟨o1, o2⟩ := Fp.one_fin (F := D) h0
  generalize (1 : Fp D) = x at *
  obtain ⟨s, m, hm, rfl⟩ := Fp.finite_cases o1
  show (if (Fp.fin s m hm).val + (Fp.fin s m hm).val = 0 then Fp.fin (s && s) 0 mag_zero else
    Fp.round (decide ((Fp.fin s m hm).val + (Fp.fin s m hm).val < 0)) |(Fp.fin s m hm).val + (Fp.fin s m hm).val| : Fp D) = _
  rw [o2, if_neg (by norm_num), show (1 : ℝ) + 1 = 2 by norm_num]
  rfl

/-- C147. `set_random()` of a matrix: every entry is finite and between -1 and 1, a larger random number never gives a smaller entry, 0 gives -1 and
`RAND_MAX` gives 1. -/
theorem C147_set_random (hD : Spec.Wider F D) (hF : F.p < F.emax) (h2 : 2 ≤ F.emax) (cfg : Cfg) (randMax : ℕ) (hpos : 0 < randMax)
    (hmax : randMax ≤ 2 ^ (D.p + 1)) (hDp : D.p < D.emax) (rnd : ℕ → ℕ) (hr : ∀ k, rnd k ≤ randMax) (m : Mat M N (Fp F)) :
    ∃ x, m.setRandom cfg (fun k => (Fp.ofReal (k : ℝ) : Fp D)) (Fp.convert F) randMax rnd = .ok x ∧
      (∀ (i : Fin M) (j : Fin N), (x.get i j).Finite ∧ -1 ≤ (x.get i j).val ∧ (x.get i j).val ≤ 1 ∧
        (rnd (i * N + j) = 0 → (x.get i j).val = -1) ∧ (rnd (i * N + j) = randMax → (x.get i j).val = 1)) ∧
      ∀ (i i' : Fin M) (j j' : Fin N), rnd (i * N + j) ≤ rnd (i' * N + j') → (x.get i j).val ≤ (x.get i' j').val := by
  obtain ⟨r, hr1, hr2, hr3⟩ := C139_set_random hD hF h2 cfg randMax hpos hmax hDp rnd hr (Vector.ofFn fun _ : Fin (M * N) => (0 : Fp F))
  have e : Vec.setRandomFp D cfg randMax rnd (Vector.ofFn fun _ : Fin (M * N) => (0 : Fp F)) = .ok (Vector.ofFn fun i : Fin (M * N) =>
      Fp.convert F (-(1 : Fp D) + Fp.ofReal 2 * ((Fp.ofReal (rnd i : ℝ) : Fp D) / Fp.ofReal (randMax : ℝ)))) := by
    unfold Vec.setRandomFp
    apply loop_set
    intro i hi u hu
    rw [Vec.atSet_lt cfg u _ hi]
  rw [e] at hr1
  have hidx : ∀ (i : Fin M) (j : Fin N), i.1 * N + j.1 < M * N := fun i j => by
    have h1 := i.2
    have h2 := j.2
    nlinarith
  have hcell : ∀ (i : Fin M) (j : Fin N), r[(⟨i.1 * N + j.1, hidx i j⟩ : Fin (M * N))] =
      Fp.convert F (-(1 : Fp D) + Fp.ofReal 2 * ((Fp.ofReal (rnd (i.1 * N + j.1) : ℝ) : Fp D) / Fp.ofReal (randMax : ℝ))) := fun i j => by
    rw [← Except.ok.inj hr1]; simp
  refine ⟨Mat.ofFn fun i j => r[(⟨i.1 * N + j.1, hidx i j⟩ : Fin (M * N))], ?_, fun i j => ?_, fun i i' j j' h => ?_⟩
  · unfold Mat.setRandom
    apply Mat.loop2_full
    intro i hi j hj m _
    rw [Mat.atSet_lt cfg m _ hi hj, two_eq (by omega), hcell ⟨i, hi⟩ ⟨j, hj⟩]
  · rw [Mat.get_ofFn]; exact hr2 ⟨_, hidx i j⟩
  · rw [Mat.get_ofFn, Mat.get_ofFn]; exact hr3 ⟨_, hidx i j⟩ ⟨_, hidx i' j'⟩ h

/-! ## Concrete cases -/

/-- All entries 1: the hypotheses hold and the covariance of a 3 x 10 matrix of ones is finite. -/
example (cov : Mat 3 3 (Fp single)) : ∃ x, (Mat.ofFn fun _ _ => 1 : Mat 3 10 (Fp single)).symmetricCovariance ⟨true, true, false⟩ cov = .ok x ∧
    ∀ r c, (x.get r c).Finite := by
  obtain ⟨o1, o2⟩ := Fp.one_fin (F := single) (by norm_num)
  obtain ⟨x, hx, -, h⟩ := C147_covariance (by norm_num) ⟨true, true, false⟩ (Mat.ofFn fun _ _ => 1 : Mat 3 10 (Fp single)) cov (by norm_num [u])
  refine ⟨x, hx, fun r c => (h r c).2 (fun k => ?_) ?_⟩
  · rw [Mat.get_ofFn, Mat.get_ofFn]; exact ⟨o1, o1⟩
  · simp only [Mat.get_ofFn, o2]
    norm_num [eta, emin, u, maxFinite]
example (m : Mat 4 4 (Fp single)) (rnd : ℕ → ℕ) (hr : ∀ k, rnd k ≤ 2 ^ 31 - 1) :=
  C147_set_random (D := double) (Or.inr (by norm_num)) (by norm_num) (by norm_num) ⟨true, true, false⟩ (2 ^ 31 - 1) (by norm_num) (by norm_num) (by norm_num) rnd hr m
example (a : Mat 3 5 (Fp double)) (cov : Mat 3 3 (Fp double)) := C147_covariance_psd (by norm_num) ⟨true, true, false⟩ a cov (by norm_num [u])

end Vmml
