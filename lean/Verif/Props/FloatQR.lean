import Verif.Props.FloatSetup
import Verif.Proofs.TotalRest
import Verif.Model.QR
import Mathlib.Analysis.InnerProductSpace.PiL2

/-!
# C120: QR decomposition in IEEE 754 arithmetic
-/

namespace Vmml
open Format Mat QR
variable {M N : Nat} {F : Format}

section
variable {α : Type}

/-- The vector the code holds after `k` subtractions for column `j`, from the final `Q` and `R`. -/
private def rest [Sub α] [Mul α] (A : Fin M → Fin N → α) (Q : Fin M → ℕ → α) (R : ℕ → Fin N → α) (j : Fin N) : ℕ → Fin M → α
  | 0, r => A r j
  | k + 1, r => rest A Q R j k r - Q r k * R k j

private theorem rest_congr [Sub α] [Mul α] {A : Fin M → Fin N → α} {Q Q' : Fin M → ℕ → α} {R R' : ℕ → Fin N → α} {j : Fin N} {k : ℕ}
    (hQ : ∀ r i, i < k → Q r i = Q' r i) (hR : ∀ i, i < k → R i j = R' i j) : rest A Q R j k = rest A Q' R' j k := by
  induction k with
  | zero => rfl
  | succ k ih =>
    funext r
    show rest A Q R j k r - Q r k * R k j = rest A Q' R' j k r - Q' r k * R' k j
    rw [ih (fun r i hi => hQ r i (by omega)) (fun i hi => hR i (by omega)), hQ r k (by omega), hR k (by omega)]

private def nq (z : α) (Q : Mat M M α) (r : Fin M) (c : ℕ) : α := if h : c < M then Q.get r ⟨c, h⟩ else z
private def nr (z : α) (R : Mat N N α) (r : ℕ) (c : Fin N) : α := if h : r < N then R.get ⟨r, h⟩ c else z

/-- What holds of column `j` when it is done. -/
private def Done [Zero α] [Sub α] [Add α] [Mul α] [Div α] [CMath α] (cfg : Cfg) (A : Mat M N α) (Q : Mat M M α) (R : Mat N N α) (j : Fin N) : Prop :=
  (∀ i : Fin N, i < j → Vec.dot cfg (Vector.ofFn fun r => nq 0 Q r i) (Vector.ofFn fun r => A.get r j) = .ok (R.get i j)) ∧
  (∀ i : Fin N, j < i → R.get i j = 0) ∧
  Vec.length (Vector.ofFn (rest A.get (nq 0 Q) (nr 0 R) j j)) = .ok (R.get j j) ∧
  ∀ r, nq 0 Q r j = rest A.get (nq 0 Q) (nr 0 R) j j r / R.get j j

private theorem Done.congr [Zero α] [Sub α] [Add α] [Mul α] [Div α] [CMath α] {cfg : Cfg} {A : Mat M N α} {Q Q' : Mat M M α} {R R' : Mat N N α} {j : Fin N}
    (h : Done cfg A Q R j) (hQ : ∀ r i, i ≤ j.1 → nq 0 Q r i = nq 0 Q' r i) (hR : ∀ i, R.get i j = R'.get i j) : Done cfg A Q' R' j := by
  obtain ⟨h1, h2, h3, h4⟩ := h
  have e : rest A.get (nq 0 Q) (nr 0 R) j j = rest A.get (nq 0 Q') (nr 0 R') j j :=
    rest_congr (fun r i hi => hQ r i (by omega)) (fun i hi => by
      simp only [nr]
      split
      · exact hR _
      · rfl)
  refine ⟨fun i hi => ?_, fun i hi => by rw [← hR]; exact h2 i hi, by rw [← e, ← hR]; exact h3, fun r => by rw [← e, ← hR, ← hQ r j le_rfl]; exact h4 r⟩
  rw [← hR, ← h1 i hi]
  congr 2
  funext r
  exact (hQ r i (by have := Fin.lt_def.1 hi; omega)).symm

private theorem inner_spec [Zero α] [Sub α] [Add α] [Mul α] (cfg : Cfg) (mem : Vec M α) (A : Mat M N α) (Q : Mat M M α) (j : Fin N) (R : Mat N N α)
    (hNM : N ≤ M) :
    ∃ R' v', QR.inner cfg mem A Q j R (Vector.ofFn fun r => A.get r j) = .ok (R', v') ∧
      (∀ i c, ¬ (c = j ∧ i < j) → R'.get i c = R.get i c) ∧
      (∀ i : Fin N, i < j → Vec.dot cfg (Vector.ofFn fun r => nq 0 Q r i) (Vector.ofFn fun r => A.get r j) = .ok (R'.get i j)) ∧
      v' = Vector.ofFn (rest A.get (nq 0 Q) (nr 0 R') j j) := by
  obtain ⟨⟨R', v'⟩, h1, h2, h3, h4⟩ := loop_ok (n := j.1) (s := (R, (Vector.ofFn fun r => A.get r j : Vec M α)))
    (body := fun i ((R, v) : Mat N N α × Vec M α) => do
      let q_column ← Q.getColumn cfg i mem
      let a_column ← A.getColumn cfg j mem
      let R ← R.atSet cfg i j (← q_column.dot cfg a_column)
      let v ← v.subAssign cfg (← q_column.mulS cfg (← R.atGet cfg i j))
      pure (R, v))
    (fun k s => (∀ i c, ¬ (c = j ∧ i.1 < k) → s.1.get i c = R.get i c) ∧
      (∀ i : Fin N, i.1 < k → Vec.dot cfg (Vector.ofFn fun r => nq 0 Q r i) (Vector.ofFn fun r => A.get r j) = .ok (s.1.get i j)) ∧
      s.2 = Vector.ofFn (rest A.get (nq 0 Q) (nr 0 s.1) j k))
    ⟨by simp, by simp, rfl⟩ (by
      rintro k hk ⟨R1, v1⟩ ⟨hR1, hd1, hv1⟩
      have hkN : k < N := by omega
      have hq := Mat.getColumn_eq cfg Q ⟨k, by omega⟩ mem
      have ha := Mat.getColumn_eq cfg A j mem
      obtain ⟨d, hd⟩ := Vec.total_dot (Vector.ofFn fun r => nq 0 Q r k : Vec M α) (Vector.ofFn fun r => A.get r j)
      have hd := hd cfg
      have en : (Vector.ofFn fun r => Q.get r ⟨k, by omega⟩ : Vec M α) = Vector.ofFn fun r => nq 0 Q r k := by
        congr 1; funext r; simp [nq, show k < M by omega]
      simp only at hq hv1
      rw [en] at hq
      refine ⟨(R1.put ⟨k, hkN⟩ j d, Vector.ofFn fun r => rest A.get (nq 0 Q) (nr 0 R1) j k r - nq 0 Q r k * d), ?_, ?_, ?_, ?_⟩
      · simp only [hq, ha, Vmml.bind_ok, hd]
        rw [atSet_lt cfg _ _ hkN j.2]
        simp only [Vmml.bind_ok]
        rw [atGet_lt cfg _ hkN j.2]
        simp only [Vmml.bind_ok, Vec.mulS_eq, Vec.subAssign_eq, pure_ok, hv1]
        simp
      · intro i c hic
        simp only [get_put]
        rw [if_neg (by rintro ⟨rfl, rfl⟩; exact hic ⟨rfl, by simp⟩)]
        exact hR1 i c (fun h => hic ⟨h.1, by omega⟩)
      · intro i hi
        simp only [get_put]
        by_cases hik : i.1 = k
        · rw [if_pos ⟨Fin.ext hik.symm, trivial⟩, hik]
          exact hd
        · rw [if_neg (by rintro ⟨h, -⟩; exact hik (by rw [← h]))]
          exact hd1 i (by omega)
      · have e : rest A.get (nq 0 Q) (nr 0 (R1.put ⟨k, hkN⟩ j d)) j k = rest A.get (nq 0 Q) (nr 0 R1) j k :=
          rest_congr (fun _ _ _ => rfl) (fun i hi => by
            simp only [nr, get_put]
            rw [dif_pos (by omega), dif_pos (by omega), if_neg (by rintro ⟨h, -⟩; have := Fin.ext_iff.1 h; simp at this; omega)])
        show Vector.ofFn _ = Vector.ofFn _
        congr 1
        funext r
        show _ = rest A.get (nq 0 Q) (nr 0 (R1.put ⟨k, hkN⟩ j d)) j k r - nq 0 Q r k * nr 0 (R1.put ⟨k, hkN⟩ j d) k j
        rw [e]
        simp [nr, hkN, get_put])
  exact ⟨R', v', h1, h2, h3, h4⟩

private theorem decompose_spec [Zero α] [Sub α] [Add α] [Mul α] [Div α] [CMath α] (cfg : Cfg) (A : Mat M N α) (Q₀ : Mat M M α) (R₀ : Mat N N α) (hNM : N ≤ M) :
    ∃ Q R, decompose cfg A Q₀ R₀ = .ok (Q, R) ∧ (∀ r (c : Fin M), N ≤ c → Q.get r c = 0) ∧ ∀ j, Done cfg A Q R j := by
  unfold decompose
  simp only [assignFill_eq, Vmml.bind_ok]
  obtain ⟨⟨Q, R⟩, h1, h2, h3, -⟩ := loop_ok (n := N) (s := ((ofFn fun _ _ => 0 : Mat M M α), (ofFn fun _ _ => 0 : Mat N N α)))
    (body := fun j ((Q, R) : Mat M M α × Mat N N α) => do
      let v ← A.getColumn cfg j Vec.zeroCtor
      let (R, v) ← QR.inner cfg Vec.zeroCtor A Q j R v
      let R ← R.atSet cfg j j (← v.length)
      let Q ← Q.setColumn cfg j (← v.divS cfg (← R.atGet cfg j j))
      pure (Q, R))
    (fun k s => (∀ r (c : Fin M), k ≤ c → s.1.get r c = 0) ∧ (∀ j : Fin N, j.1 < k → Done cfg A s.1 s.2 j) ∧ ∀ i (j : Fin N), k ≤ j → s.2.get i j = 0)
    ⟨by simp, by simp, by simp⟩ (by
      rintro k hk ⟨Q, R⟩ ⟨hQ, hD, hR⟩
      have ha := Mat.getColumn_eq cfg A ⟨k, hk⟩ Vec.zeroCtor
      obtain ⟨R', v', e1, e2, e3, e4⟩ := inner_spec cfg Vec.zeroCtor A Q ⟨k, hk⟩ R hNM
      have hset := fun v => Mat.setColumn_eq cfg Q ⟨k, by omega⟩ v
      obtain ⟨l, hl⟩ := Vec.total_length v'
      have hl := hl cfg
      simp only at ha e1 hset hl hQ hD hR
      let Q2 : Mat M M α := ofFn fun r c => if c = ⟨k, by omega⟩ then v'[r] / l else Q.get r c
      let R2 : Mat N N α := R'.put ⟨k, hk⟩ ⟨k, hk⟩ l
      have qQ : ∀ r i, i < k → nq 0 Q r i = nq 0 Q2 r i := by
        intro r i hi
        simp only [nq]
        rw [dif_pos (by omega), dif_pos (by omega)]
        simp only [Q2, get_ofFn]
        rw [if_neg (by intro h; have := Fin.ext_iff.1 h; simp at this; omega)]
      have rR : ∀ i (c : Fin N), c.1 ≠ k → R.get i c = R2.get i c := by
        intro i c hc
        simp only [R2, get_put]
        rw [if_neg (by rintro ⟨-, h⟩; exact hc (by rw [← h])), e2 i c (fun h => hc (by rw [h.1]))]
      have rR' : ∀ i : Fin N, i.1 ≠ k → R'.get i ⟨k, hk⟩ = R2.get i ⟨k, hk⟩ := by
        intro i hi
        simp only [R2, get_put]
        rw [if_neg (by rintro ⟨h, -⟩; exact hi (by rw [← h]))]
      have er : rest A.get (nq 0 Q) (nr 0 R') ⟨k, hk⟩ k = rest A.get (nq 0 Q2) (nr 0 R2) ⟨k, hk⟩ k :=
        rest_congr qQ (fun i hi => by
          simp only [nr]
          rw [dif_pos (by omega), dif_pos (by omega)]
          exact rR' _ (by simp; omega))
      refine ⟨(Q2, R2), ?_, ?_, ?_, ?_⟩
      · simp only [ha, Vmml.bind_ok, e1, hl]
        rw [atSet_lt cfg _ _ hk hk]
        simp only [Vmml.bind_ok]
        rw [atGet_lt cfg _ hk hk]
        simp only [Vmml.bind_ok, Vec.divS_eq, hset, pure_ok]
        simp [Q2, R2]
      · intro r c hc
        simp only [Q2, get_ofFn]
        rw [if_neg (by intro h; rw [h] at hc; simp at hc), hQ r c (by omega)]
      · intro j hj
        rcases Nat.lt_succ_iff_lt_or_eq.1 hj with hlt | heq
        · exact (hD j hlt).congr (fun r i hi => qQ r i (by omega)) (fun i => rR i j (by omega))
        · obtain rfl : j = ⟨k, hk⟩ := Fin.ext heq
          refine ⟨fun i hi => ?_, fun i hi => ?_, ?_, ?_⟩
          · have hi' : i.1 < k := hi
            rw [← rR' i (by omega), ← e3 i hi]
            congr 2
            funext r
            exact (qQ r i hi').symm
          · have hi' : k < i.1 := hi
            show R2.get i ⟨k, hk⟩ = 0
            rw [← rR' i (by omega), e2 i _ (by rintro ⟨-, h⟩; exact absurd hi (not_lt.2 h.le))]
            exact hR i _ le_rfl
          · show Vec.length (Vector.ofFn (rest A.get (nq 0 Q2) (nr 0 R2) ⟨k, hk⟩ k)) = _
            rw [← er, ← e4, hl]
            simp [R2, get_put]
          · intro r
            show nq 0 Q2 r k = rest A.get (nq 0 Q2) (nr 0 R2) ⟨k, hk⟩ k r / R2.get ⟨k, hk⟩ ⟨k, hk⟩
            rw [← er]
            have ev : v'[r] = rest A.get (nq 0 Q) (nr 0 R') ⟨k, hk⟩ k r := by rw [e4]; simp
            simp only [nq]
            rw [dif_pos (by omega)]
            simp only [Q2, R2, get_ofFn, get_put, and_self, if_true]
            rw [ev]
      · intro i j hj
        rw [← rR i j (by omega)]
        exact hR i j (by omega))
  exact ⟨Q, R, h1, fun r c hc => h2 r c hc, fun j => h3 j j.2⟩
end

/-- Rounding error relative to the result. -/
theorem Format.rnd_err_res (x : ℝ) : |F.rnd x - x| ≤ F.u * |F.rnd x| + F.eta := by
  by_cases h : (2 : ℝ) ^ F.emin ≤ |x|
  · have hx : 0 < |x| := lt_of_lt_of_le (by positivity) h
    have hl : F.emin ≤ Int.log 2 |x| := (Int.zpow_le_iff_le_log (b := 2) (by norm_num) hx).1 (by exact_mod_cast h)
    have h1 : (2 : ℝ) ^ Int.log 2 |x| ≤ |x| := by exact_mod_cast Int.zpow_log_le_self (b := 2) (by norm_num) hx
    have h2 : (2 : ℝ) ^ Int.log 2 |x| ≤ |F.rnd x| := by rw [← rnd_abs]; exact le_rnd_pow hl h1
    have h3 := F.rnd_err x
    have e : 1 / 2 * (2 : ℝ) ^ F.lastExp x = F.u * (2 : ℝ) ^ Int.log 2 |x| := by
      unfold lastExp u
      rw [max_eq_left hl, zpow_sub₀ (by norm_num), zpow_natCast, inv_pow, pow_succ]
      field_simp
    rw [e] at h3
    have h4 := mul_le_mul_of_nonneg_left h2 F.u_pos.le
    linarith [F.eta_pos]
  · have := rnd_err_small (not_le.1 h)
    have h2 := mul_nonneg F.u_pos.le (abs_nonneg (F.rnd x))
    linarith

theorem Format.Grid.rnd_err_res {x : ℝ} (hg : F.Grid x) : |F.rnd x - x| ≤ F.u * |F.rnd x| := by
  by_cases h : (2 : ℝ) ^ F.emin ≤ |x|
  · have hx : 0 < |x| := lt_of_lt_of_le (by positivity) h
    have hl : F.emin ≤ Int.log 2 |x| := (Int.zpow_le_iff_le_log (b := 2) (by norm_num) hx).1 (by exact_mod_cast h)
    have h1 : (2 : ℝ) ^ Int.log 2 |x| ≤ |x| := by exact_mod_cast Int.zpow_log_le_self (b := 2) (by norm_num) hx
    have h2 : (2 : ℝ) ^ Int.log 2 |x| ≤ |F.rnd x| := by rw [← rnd_abs]; exact le_rnd_pow hl h1
    have h3 := F.rnd_err x
    have e : 1 / 2 * (2 : ℝ) ^ F.lastExp x = F.u * (2 : ℝ) ^ Int.log 2 |x| := by
      unfold lastExp u
      rw [max_eq_left hl, zpow_sub₀ (by norm_num), zpow_natCast, inv_pow, pow_succ]
      field_simp
    rw [e] at h3
    have h4 := mul_le_mul_of_nonneg_left h2 F.u_pos.le
    linarith
  · rw [hg.rnd_small (not_le.1 h)]
    simp only [sub_self, abs_zero]
    exact mul_nonneg F.u_pos.le (abs_nonneg _)

/-- A finite quotient with finite divisor. -/
theorem Fp.div_finite {a b : Fp F} (h : (a / b).Finite) (hb : b.Finite) : a.Finite ∧ b.val ≠ 0 ∧ (a / b).val = F.rnd (a.val / b.val) := by
  obtain ⟨t, n, hn, rfl⟩ := finite_cases hb
  cases a with
  | nan => exact absurd h id
  | inf s => exact absurd h id
  | fin s m hm =>
    have e : (fin s m hm / fin t n hn : Fp F) = @ite _ (n = 0) (Classical.propDecidable _)
      (@ite _ (m = 0) (Classical.propDecidable _) nan (inf (s ^^ t))) (round (s ^^ t) (m / n)) := rfl
    by_cases hz : n = 0
    · rw [e, if_pos hz] at h
      split_ifs at h <;> exact absurd h id
    rw [e, if_neg hz] at h ⊢
    have hn' : 0 < n := lt_of_le_of_ne hn.1 (Ne.symm hz)
    refine ⟨trivial, by cases t <;> simp [hz], ?_⟩
    have ev : m / n = |(fin s m hm).val / (fin t n hn).val| := by
      rw [abs_div]
      cases s <;> cases t <;> simp [abs_of_nonneg hm.1, abs_of_pos hn']
    rw [ev] at h ⊢
    refine round_finite h (fun hne => ?_)
    have hm' : 0 < m := lt_of_le_of_ne hm.1 (fun hc => hne (by simp [← hc]))
    have := div_pos hm' hn'
    have h2 : -m / n < 0 := by rw [neg_div]; linarith
    cases s <;> cases t <;> simp [div_neg, neg_div] <;> linarith

/-- A finite length: the components are finite, and so is the sum of their squares. -/
theorem length_finite (h0 : 0 < F.emax) (v : Vec M (Fp F)) (hM : M * F.u < 1) {l : Fp F} (hl : v.length = .ok l) (hf : l.Finite) :
    ∃ s, v.squaredLength = .ok s ∧ s.Finite ∧ 0 ≤ s.val ∧ l.val = F.rnd (Real.sqrt s.val) ∧ ∀ i : Fin M, v[i].Finite := by
  obtain ⟨s, h1, h2, -⟩ := C108_squared_length h0 v hM
  have e : v.length = .ok (CMath.sqrt s) := by unfold Vec.length; rw [h1, Vmml.bind_ok]; rfl
  rw [hl] at e
  obtain rfl := Except.ok.inj e
  obtain ⟨g1, g2, g3⟩ := Fp.sqrt_finite h0 hf
  exact ⟨s, h1, g1, g2, g3, (h2 g1).1⟩

/-- The error bound for an entry of column `j`: `S` is the sum of the absolute products, `d` the diagonal entry. -/
noncomputable def Spec.qrErr (F : Format) (j : ℕ) (S d : ℝ) : ℝ := ((j + 1) * F.u * S + (d + j) * F.eta) / (1 - (j + 1) * F.u)

private theorem column_err (A : Fin M → Fin N → Fp F) (Q : Fin M → ℕ → Fp F) (R : ℕ → Fin N → Fp F) (j : Fin N) (r : Fin M) (n : ℕ)
    (hw : (rest A Q R j n r).Finite) (hd : (R n j).Finite) (hq : (Q r n).Finite) (hQ : Q r n = rest A Q R j n r / R n j) :
    ∀ k, k ≤ n → (rest A Q R j (n - k) r).Finite ∧ (∀ i, n - k ≤ i → i < n → (Q r i).Finite ∧ (R i j).Finite) ∧
      |(rest A Q R j (n - k) r).val - ∑ i ∈ Finset.Icc (n - k) n, (Q r i).val * (R i j).val| ≤
        ((1 + F.u) ^ (k + 1) - 1) * ∑ i ∈ Finset.Icc (n - k) n, |(Q r i).val * (R i j).val| + (1 + F.u) ^ k * ((|(R n j).val| + k) * F.eta) := by
  have hu := F.u_pos
  have hη := F.eta_pos
  intro k
  induction k with
  | zero =>
    intro _
    refine ⟨hw, fun i hi hi' => by omega, ?_⟩
    simp only [Nat.sub_zero, Finset.Icc_self, Finset.sum_singleton, zero_add, pow_one, pow_zero, one_mul, Nat.cast_zero, add_zero, add_sub_cancel_left]
    rw [hQ] at hq
    obtain ⟨-, g2, g3⟩ := Fp.div_finite hq hd
    rw [← hQ] at g3
    have h1 := F.rnd_err_res ((rest A Q R j n r).val / (R n j).val)
    rw [← g3] at h1
    have e : (rest A Q R j n r).val - (Q r n).val * (R n j).val = -(((Q r n).val - (rest A Q R j n r).val / (R n j).val) * (R n j).val) := by
      field_simp; ring
    rw [e, abs_neg, abs_mul, abs_mul]
    have := mul_le_mul_of_nonneg_right h1 (abs_nonneg (R n j).val)
    linarith
  | succ k ih =>
    intro hk
    obtain ⟨f1, f2, f3⟩ := ih (by omega)
    obtain ⟨m, hm⟩ : ∃ m, n - (k + 1) = m := ⟨_, rfl⟩
    have hm' : n - k = m + 1 := by omega
    rw [hm'] at f1 f2 f3
    rw [hm]
    have er : rest A Q R j (m + 1) r = rest A Q R j m r - Q r m * R m j := rfl
    have f1' := f1
    rw [er] at f1'
    obtain ⟨g1, g2, g3⟩ := Fp.sub_finite f1'
    obtain ⟨i1, i2, i3⟩ := Fp.mul_finite g2
    rw [← er] at g3
    refine ⟨g1, ?_, ?_⟩
    · intro i hi hi'
      rcases Nat.lt_or_ge m i with h | h
      · exact f2 i h hi'
      · obtain rfl : i = m := by omega
        exact ⟨i1, i2⟩
    have hmn : m ≤ n := by omega
    rw [show Finset.Icc m n = insert m (Finset.Icc (m + 1) n) by ext i; simp; omega]
    rw [Finset.sum_insert (by simp), Finset.sum_insert (by simp)]
    set T := ∑ i ∈ Finset.Icc (m + 1) n, (Q r i).val * (R i j).val with hT
    set S := ∑ i ∈ Finset.Icc (m + 1) n, |(Q r i).val * (R i j).val| with hS
    have hTS : |T| ≤ S := Finset.abs_sum_le_sum_abs _ _
    obtain ⟨p, hp⟩ : ∃ p, p = (Q r m).val * (R m j).val := ⟨_, rfl⟩
    rw [← hp] at i3 ⊢
    obtain ⟨P, hP⟩ : ∃ P, P = (Q r m * R m j).val := ⟨_, rfl⟩
    rw [← hP] at i3 g3
    obtain ⟨w, hwd⟩ : ∃ w, w = (rest A Q R j m r).val := ⟨_, rfl⟩
    obtain ⟨w', hwd'⟩ : ∃ w', w' = (rest A Q R j (m + 1) r).val := ⟨_, rfl⟩
    rw [← hwd'] at f3 g3
    have hgrid : F.Grid (w - P) := by
      rw [hwd, sub_eq_add_neg]
      exact (Fp.rep_val g1).grid.add (by rw [hP]; exact (Fp.rep_val g2).grid.neg)
    rw [← hwd] at g3 ⊢
    have hP1 : |P - p| ≤ F.u * |p| + F.eta := by rw [i3]; exact rnd_err_add p
    have he := hgrid.rnd_err_res
    rw [← g3] at he
    obtain ⟨D, hD⟩ : ∃ D, D = |(R n j).val| := ⟨_, rfl⟩
    rw [← hD] at f3 ⊢
    have hD0 : 0 ≤ D := by rw [hD]; exact abs_nonneg _
    have hw1 : |w'| ≤ |w' - T| + S := by
      calc |w'| = |(w' - T) + T| := by congr 1; ring
        _ ≤ |w' - T| + |T| := abs_add_le _ _
        _ ≤ _ := by linarith
    have e1 : w - (p + T) = (w' - T) + (P - p) - (w' - (w - P)) := by ring
    have h2 : |w - (p + T)| ≤ |w' - T| + |P - p| + |w' - (w - P)| := by
      rw [e1]
      exact (abs_sub _ _).trans (by linarith [abs_add_le (w' - T) (P - p)])
    have hpw : (1 + F.u) ^ (k + 1 + 1) = (1 + F.u) ^ (k + 1) * (1 + F.u) := pow_succ _ _
    have hpw0 : (1 + F.u) ^ (k + 1) = (1 + F.u) ^ k * (1 + F.u) := pow_succ _ _
    obtain ⟨X, hX⟩ : ∃ X, X = (1 + F.u) ^ (k + 1) := ⟨_, rfl⟩
    have hX1 : 1 ≤ X := by rw [hX]; exact one_le_pow₀ (by linarith)
    obtain ⟨Y, hY⟩ : ∃ Y, Y = (1 + F.u) ^ k := ⟨_, rfl⟩
    rw [← hX, ← hY] at hpw0 f3
    rw [hpw, ← hX]
    have hS0 : 0 ≤ S := le_trans (abs_nonneg _) hTS
    have h3 := mul_le_mul_of_nonneg_left hw1 hu.le
    have h4 := mul_le_mul_of_nonneg_left f3 (by linarith : 0 ≤ 1 + F.u)
    have h5 : F.eta ≤ X * F.eta := le_mul_of_one_le_left hη.le hX1
    have h6 : 0 ≤ F.u * |p| := mul_nonneg hu.le (abs_nonneg _)
    have h7 : 0 ≤ (X - 1) * (1 + F.u) * |p| := mul_nonneg (mul_nonneg (by linarith) (by linarith)) (abs_nonneg _)
    push_cast
    have e2 : (1 + F.u) * ((X - 1) * S + Y * ((D + k) * F.eta)) = (X * (1 + F.u) - 1 - F.u) * S + X * ((D + k) * F.eta) := by rw [hpw0]; ring
    rw [e2] at h4
    have e3 : (X * (1 + F.u) - 1) * (|p| + S) + X * ((D + (k + 1)) * F.eta) =
      (X - 1) * (1 + F.u) * |p| + F.u * |p| + ((X * (1 + F.u) - 1 - F.u) * S + X * ((D + k) * F.eta)) + F.u * S + X * F.eta := by ring
    rw [e3]
    linarith only [h2, h3, h4, h5, h7, he, hP1]

private theorem pow_le_inv' (n : Nat) (hn : n * F.u < 1) : (1 + F.u) ^ n ≤ 1 / (1 - n * F.u) := by
  have h := pow_le_gamma F.u_pos.le n hn
  have h0 : 0 < 1 - (n : ℝ) * F.u := by linarith
  have e : Spec.gamma F.u n + 1 = 1 / (1 - n * F.u) := by unfold Spec.gamma; field_simp; ring
  linarith

/-- What the loops establish about the outputs. -/
private theorem column_facts (h0 : 0 < F.emax) (cfg : Cfg) (A : Mat M N (Fp F)) (Q : Mat M M (Fp F)) (R : Mat N N (Fp F)) (hNM : N ≤ M) (hM : M * F.u < 1)
    (j : Fin N) (hD : Done cfg A Q R j) (hR : (R.get j j).Finite) (hQ : ∀ r, (Q.get r (j.castLE hNM)).Finite) :
    ∃ w : Vec M (Fp F), w.length = .ok (R.get j j) ∧ (∀ r, Q.get r (j.castLE hNM) = w[r] / R.get j j) ∧ (∀ r : Fin M, w[r].Finite) ∧
      ∀ r : Fin M, (A.get r j).Finite ∧ (∀ i : Fin N, i ≤ j → (Q.get r (i.castLE hNM)).Finite ∧ (R.get i j).Finite) ∧
      |(A.get r j).val - ∑ i, (Q.get r (i.castLE hNM)).val * (R.get i j).val| ≤
        Spec.qrErr F j (∑ i, |(Q.get r (i.castLE hNM)).val * (R.get i j).val|) (R.get j j).val := by
  obtain ⟨h1, h2, h3, h4⟩ := hD
  have hjM : j.1 < M := by omega
  have eq : ∀ (i : Fin N) r, nq 0 Q r i = Q.get r (i.castLE hNM) := by
    intro i r
    simp only [nq]
    rw [dif_pos (by omega)]
    rfl
  have er : ∀ (i : Fin N), nr 0 R i j = R.get i j := by
    intro i
    simp [nr]
  obtain ⟨s, -, hs1, hs2, hs3, hs4⟩ := length_finite h0 _ hM h3 hR
  have hd0 : 0 ≤ (R.get j j).val := by rw [hs3]; exact rnd_nonneg (Real.sqrt_nonneg _)
  have hu := F.u_pos
  have hη := F.eta_pos
  refine ⟨_, h3, ?_, hs4, ?_⟩
  · intro r
    rw [← eq, h4 r]
    simp
  · intro r
    have hw : (rest A.get (nq 0 Q) (nr 0 R) j j r).Finite := by simpa using hs4 r
    obtain ⟨k1, k2, k3⟩ := column_err A.get (nq 0 Q) (nr 0 R) j r j hw (by rw [er]; exact hR) (by rw [eq]; exact hQ r) (by rw [er]; exact h4 r) j le_rfl
    rw [Nat.sub_self] at k1 k2 k3
    refine ⟨k1, ?_, ?_⟩
    · intro i hi
      rcases hi.lt_or_eq with h | h
      · have := k2 i (Nat.zero_le _) h
        rw [eq, er] at this
        exact this
      · subst h
        exact ⟨hQ r, hR⟩
    have hsum : ∀ f : ℝ → ℝ, f 0 = 0 → ∑ i ∈ Finset.Icc 0 j.1, f ((nq 0 Q r i).val * (nr 0 R i j).val) =
        ∑ i, f ((Q.get r (i.castLE hNM)).val * (R.get i j).val) := by
      intro f hf
      have e1 : ∑ i, f ((Q.get r (i.castLE hNM)).val * (R.get i j).val) = ∑ i : Fin N, f ((nq 0 Q r i).val * (nr 0 R i j).val) :=
        Finset.sum_congr rfl fun i _ => by rw [eq, er]
      rw [e1, ← Finset.sum_range (fun i => f ((nq 0 Q r i).val * (nr 0 R i j).val))]
      apply Finset.sum_subset
      · intro i hi
        simp at hi ⊢
        omega
      · intro i hi hi'
        simp at hi hi'
        have := h2 ⟨i, hi⟩ hi'
        rw [← er] at this
        simp only at this
        rw [this, Fp.val_zero, mul_zero, hf]
    have s1 := hsum id rfl
    have s2 := hsum (fun x => |x|) abs_zero
    simp only [id] at s1
    rw [s1, s2, er, abs_of_nonneg hd0] at k3
    refine k3.trans ?_
    set S := ∑ i, |(Q.get r (i.castLE hNM)).val * (R.get i j).val| with hS
    have hS0 : 0 ≤ S := Finset.sum_nonneg fun i _ => abs_nonneg _
    have hj : ((j.1 + 1 : ℕ) : ℝ) * F.u < 1 := by
      refine lt_of_le_of_lt ?_ hM
      apply mul_le_mul_of_nonneg_right _ hu.le
      exact_mod_cast (by omega : j.1 + 1 ≤ M)
    have p1 := pow_le_gamma hu.le (j.1 + 1) hj
    have p2 := pow_le_inv' (j.1 + 1) hj
    have p3 : (1 + F.u) ^ j.1 ≤ (1 + F.u) ^ (j.1 + 1) := pow_le_pow_right₀ (by linarith) (by omega)
    unfold Spec.gamma at p1
    unfold Spec.qrErr
    push_cast at p1 p2 hj
    have hden : 0 < 1 - ((j.1 : ℝ) + 1) * F.u := by linarith
    have q1 := mul_le_mul_of_nonneg_right p1 hS0
    have q2 := mul_le_mul_of_nonneg_right (p3.trans p2) (by positivity : 0 ≤ ((R.get j j).val + j.1) * F.eta)
    calc _ ≤ ((j.1 : ℝ) + 1) * F.u / (1 - ((j.1 : ℝ) + 1) * F.u) * S + 1 / (1 - ((j.1 : ℝ) + 1) * F.u) * (((R.get j j).val + j.1) * F.eta) := add_le_add q1 q2
      _ = _ := by field_simp

/-- **C120** `Q R` reproduces `A`. For every matrix (of any rank and condition) with at least as many rows as columns: `R` is upper triangular, the columns of
`Q` beyond the `N`-th are zero, and for every column `j` whose diagonal entry and whose column of `Q` come out finite, column `j` of `A` differs
from that of `Q R` by at most about `( j + 1 ) u` times the sum of the absolute products; the upper part of column `j` of `R` consists of the products of the columns of
`Q` with column `j` of `A`, up to the rounding of a scalar product. -/
theorem C120_residual (h0 : 0 < F.emax) (cfg : Cfg) (A : Mat M N (Fp F)) (Q₀ : Mat M M (Fp F)) (R₀ : Mat N N (Fp F)) (hNM : N ≤ M) (hM : M * F.u < 1) :
    ∃ Q R, decompose cfg A Q₀ R₀ = .ok (Q, R) ∧ (∀ r (c : Fin M), N ≤ c → Q.get r c = 0) ∧ (∀ i j, j < i → R.get i j = 0) ∧
      ∀ j : Fin N, (R.get j j).Finite → (∀ r, (Q.get r (j.castLE hNM)).Finite) →
        (∀ r, (A.get r j).Finite ∧ (∀ i : Fin N, i ≤ j → (Q.get r (i.castLE hNM)).Finite ∧ (R.get i j).Finite) ∧
          |(A.get r j).val - ∑ i, (Q.get r (i.castLE hNM)).val * (R.get i j).val| ≤
            Spec.qrErr F j (∑ i, |(Q.get r (i.castLE hNM)).val * (R.get i j).val|) (R.get j j).val) ∧
        ∀ i : Fin N, i < j → |(R.get i j).val - ∑ r, (Q.get r (i.castLE hNM)).val * (A.get r j).val| ≤
          Spec.accErr F M (∑ r, |(Q.get r (i.castLE hNM)).val * (A.get r j).val|) := by
  obtain ⟨Q, R, h1, h2, h3⟩ := decompose_spec cfg A Q₀ R₀ hNM
  refine ⟨Q, R, h1, h2, fun i j hij => (h3 j).2.1 i hij, fun j hR hQ => ?_⟩
  obtain ⟨-, -, -, -, k⟩ := column_facts h0 cfg A Q R hNM hM j (h3 j) hR hQ
  refine ⟨k, fun i hi => ?_⟩
  have hd := (h3 j).1 i hi
  obtain ⟨d, e1, e2, -⟩ := C108_dot h0 cfg (Vector.ofFn fun r => nq 0 Q r i : Vec M (Fp F)) (Vector.ofFn fun r => A.get r j) hM
  rw [hd] at e1
  obtain rfl := Except.ok.inj e1
  have hMpos : 0 < M := lt_of_lt_of_le (lt_of_le_of_lt (Nat.zero_le _) j.2) hNM
  have e3 := (e2 ((k ⟨0, hMpos⟩).2.1 i hi.le).2).2
  have eq : ∀ r : Fin M, nq 0 Q r i = Q.get r (i.castLE hNM) := by
    intro r
    simp only [nq]
    rw [dif_pos (by omega)]
    rfl
  simpa [eq] using e3

theorem norm_close (x y : Fin M → ℝ) (a b : ℝ) (ha : 0 ≤ a) (hb : 0 ≤ b) (h : ∀ r, |x r - y r| ≤ a * |y r| + b) :
    |Real.sqrt (∑ r, x r ^ 2) - Real.sqrt (∑ r, y r ^ 2)| ≤ a * Real.sqrt (∑ r, y r ^ 2) + Real.sqrt M * b := by
  have en : ∀ z : Fin M → ℝ, ‖(WithLp.toLp 2 z : EuclideanSpace ℝ (Fin M))‖ = Real.sqrt (∑ r, z r ^ 2) := by
    intro z; rw [EuclideanSpace.norm_eq]; simp
  have h1 : |Real.sqrt (∑ r, x r ^ 2) - Real.sqrt (∑ r, y r ^ 2)| ≤ Real.sqrt (∑ r, (x r - y r) ^ 2) := by
    rw [← en, ← en, ← en]
    exact abs_norm_sub_norm_le _ _
  have h2 : Real.sqrt (∑ r, (x r - y r) ^ 2) ≤ Real.sqrt (∑ r, (a * |y r| + b) ^ 2) := by
    apply Real.sqrt_le_sqrt
    apply Finset.sum_le_sum
    intro r _
    rw [← sq_abs]
    exact pow_le_pow_left₀ (abs_nonneg _) (h r) 2
  have h3 : Real.sqrt (∑ r, (a * |y r| + b) ^ 2) ≤ Real.sqrt (∑ r, (a * |y r|) ^ 2) + Real.sqrt (∑ _r : Fin M, b ^ 2) := by
    have := norm_add_le (WithLp.toLp 2 (fun r => a * |y r|) : EuclideanSpace ℝ (Fin M)) (WithLp.toLp 2 (fun _ => b))
    rw [en, en, ← WithLp.toLp_add, en] at this
    exact this
  have h4 : Real.sqrt (∑ r, (a * |y r|) ^ 2) = a * Real.sqrt (∑ r, y r ^ 2) := by
    simp only [mul_pow, sq_abs]
    rw [← Finset.mul_sum, Real.sqrt_mul (sq_nonneg a), Real.sqrt_sq ha]
  have h5 : Real.sqrt (∑ _r : Fin M, b ^ 2) = Real.sqrt M * b := by
    rw [Finset.sum_const, Finset.card_univ, Fintype.card_fin, nsmul_eq_mul, Real.sqrt_mul (Nat.cast_nonneg M), Real.sqrt_sq hb]
  linarith

/-- **C120** The columns of `Q` are unit vectors: for every column `j` whose diagonal entry and whose column of `Q` come out finite, and whose diagonal entry is not
so small that its square leaves the normal range, the exact norm of the computed column of `Q` is `1` up to about `( 2M + 2 ) u`. -/
theorem C120_unit (hp : F.p < F.emax) (cfg : Cfg) (A : Mat M N (Fp F)) (Q₀ : Mat M M (Fp F)) (R₀ : Mat N N (Fp F)) (hNM : N ≤ M) (hM : M * F.u ≤ 1 / 4)
    (hε : Spec.flenErr F M ≤ 1 / 2) {Q : Mat M M (Fp F)} {R : Mat N N (Fp F)} (h : decompose cfg A Q₀ R₀ = .ok (Q, R)) (j : Fin N)
    (hR : (R.get j j).Finite) (hQ : ∀ r, (Q.get r (j.castLE hNM)).Finite) (hlo : 4 * (2 : ℝ) ^ F.emin ≤ (R.get j j).val ^ 2) :
    |Real.sqrt (∑ r, (Q.get r (j.castLE hNM)).val ^ 2) - 1| ≤ (Spec.flenErr F M + F.u) / (1 - Spec.flenErr F M) + Real.sqrt M * F.eta := by
  have h0 : 0 < F.emax := by omega
  have hM' : M * F.u < 1 := by linarith
  have hu := F.u_pos
  have hη := F.eta_pos
  obtain ⟨Q', R', h1, h2, h3⟩ := decompose_spec cfg A Q₀ R₀ hNM
  obtain ⟨rfl, rfl⟩ := Prod.mk.inj (Except.ok.inj (h.symm.trans h1))
  obtain ⟨w, k1, k2, k3, -⟩ := column_facts h0 cfg A Q R hNM hM' j (h3 j) hR hQ
  obtain ⟨s, s1, s2, s3, s4, -⟩ := length_finite h0 w hM' k1 hR
  have hlen : R.get j j = CMath.sqrt s := by
    have e : w.length = .ok (CMath.sqrt s) := by unfold Vec.length; rw [s1, Vmml.bind_ok]; rfl
    rw [k1] at e
    exact Except.ok.inj e
  obtain ⟨d, hd⟩ : ∃ d, d = (R.get j j).val := ⟨_, rfl⟩
  rw [← hd] at hlo s4
  have hpow : (0 : ℝ) < (2 : ℝ) ^ F.emin := by positivity
  have hd0 : 0 ≤ d := by rw [s4]; exact rnd_nonneg (Real.sqrt_nonneg _)
  have hdpos : 0 < d := lt_of_le_of_ne hd0 (fun hc => by rw [← hc] at hlo; norm_num at hlo; linarith)
  have hM1 : 0 < M := lt_of_lt_of_le (lt_of_le_of_lt (Nat.zero_le _) j.2) hNM
  have hu4 : F.u ≤ 1 / 4 := by
    have : (1 : ℝ) ≤ M := by exact_mod_cast hM1
    nlinarith
  set S := ∑ i : Fin M, w[i].val ^ 2 with hS
  have hS0 : 0 ≤ S := Finset.sum_nonneg fun i _ => sq_nonneg _
  have hemin : (2 : ℝ) ^ F.emin ≤ 1 := zpow_le_one_of_nonpos₀ (by norm_num) (by unfold emin; omega)
  -- the exact sum of squares is in the normal range
  have hnorm : (2 : ℝ) ^ F.emin ≤ S := by
    obtain ⟨s', t1, t2, -⟩ := C108_squared_length h0 w hM'
    obtain rfl : s = s' := Except.ok.inj (s1.symm.trans t1)
    have herr := (t2 s2).2
    rw [← hS] at herr
    have hden : 0 < 1 - (M : ℝ) * F.u := by linarith
    unfold Spec.accErr at herr
    have e1 : s.val ≤ S + (M * F.u * S + M * F.eta) / (1 - M * F.u) := by linarith [(abs_le.1 herr).2]
    have e2 : (M * F.u * S + M * F.eta) / (1 - M * F.u) ≤ 1 / 3 * S + 1 / 3 * (2 : ℝ) ^ F.emin := by
      rw [div_le_iff₀ hden]
      have a1 : F.eta = F.u * (2 : ℝ) ^ F.emin := by
        unfold eta u
        rw [zpow_sub₀ (by norm_num), zpow_natCast, inv_pow, pow_succ]
        field_simp
      rw [a1, ← mul_assoc]
      have a2 := mul_le_mul_of_nonneg_right hM hS0
      have a3 := mul_le_mul_of_nonneg_right hM hpow.le
      nlinarith
    have hsqrt : d ≤ 5 / 4 * Real.sqrt s.val + 1 / 4 * (2 : ℝ) ^ F.emin := by
      have b1 := rnd_err_add (F := F) (Real.sqrt s.val)
      rw [← s4, abs_of_nonneg (Real.sqrt_nonneg s.val)] at b1
      have b2 := (abs_le.1 b1).2
      have b3 : F.eta ≤ 1 / 4 * (2 : ℝ) ^ F.emin := by
        have a1 : F.eta = F.u * (2 : ℝ) ^ F.emin := by
          unfold eta u
          rw [zpow_sub₀ (by norm_num), zpow_natCast, inv_pow, pow_succ]
          field_simp
        rw [a1]
        exact mul_le_mul_of_nonneg_right hu4 hpow.le
      have b4 := mul_le_mul_of_nonneg_right hu4 (Real.sqrt_nonneg s.val)
      linarith
    set t := Real.sqrt s.val with ht
    have ht2 : t * t = s.val := Real.mul_self_sqrt s3
    have ht0 : 0 ≤ t := Real.sqrt_nonneg _
    set e := (2 : ℝ) ^ F.emin with he
    have c1 : d ^ 2 ≤ (5 / 4 * t + 1 / 4 * e) ^ 2 := pow_le_pow_left₀ hd0 hsqrt 2
    have c2 : (5 / 4 * t + 1 / 4 * e) ^ 2 ≤ 15 / 8 * (t * t) + 3 / 8 * e := by
      nlinarith [sq_nonneg (t - e), mul_nonneg hpow.le (sub_nonneg.2 hemin)]
    nlinarith
  obtain ⟨-, hl⟩ := length_err hp w hM' s1 s2 hnorm
  rw [← hlen, ← hd] at hl
  obtain ⟨L, hL⟩ : ∃ L, L = Spec.flen w := ⟨_, rfl⟩
  rw [← hL] at hl
  have hLpos : 0 < L := by rw [hL]; exact Real.sqrt_pos.2 (lt_of_lt_of_le hpow hnorm)
  obtain ⟨ε, hεd⟩ : ∃ ε, ε = Spec.flenErr F M := ⟨_, rfl⟩
  rw [← hεd] at hl hε ⊢
  have hε0 : 0 ≤ ε := by
    have := (abs_nonneg _).trans hl
    by_contra hc
    push Not at hc
    nlinarith
  -- the exact quotient
  let y : Fin M → ℝ := fun r => w[r].val / d
  have hy : Real.sqrt (∑ r, y r ^ 2) = L / d := by
    have : ∑ r, y r ^ 2 = S / d ^ 2 := by
      simp only [y, div_pow]
      rw [← Finset.sum_div]
    rw [this, Real.sqrt_div hS0, Real.sqrt_sq hd0, hL]
    rfl
  have hclose := norm_close (fun r => (Q.get r (j.castLE hNM)).val) y F.u F.eta hu.le hη.le (by
    intro r
    have := hQ r
    rw [k2 r] at this
    obtain ⟨-, -, g3⟩ := Fp.div_finite this hR
    rw [← k2 r, ← hd] at g3
    simp only [g3, y]
    exact rnd_err_add _)
  rw [hy] at hclose
  set n := Real.sqrt (∑ r, (Q.get r (j.castLE hNM)).val ^ 2) with hn
  have b1 : (1 - ε) * L ≤ d := by have := (abs_le.1 hl).1; linarith
  have b2 : d ≤ (1 + ε) * L := by have := (abs_le.1 hl).2; linarith
  have hq1 : L / d ≤ 1 / (1 - ε) := by
    rw [div_le_div_iff₀ hdpos (by linarith)]
    linarith
  have hq2 : 1 / (1 + ε) ≤ L / d := by
    rw [div_le_div_iff₀ (by linarith) hdpos]
    linarith
  have hq3 : |L / d - 1| ≤ ε / (1 - ε) := by
    have e1 : 1 / (1 - ε) - 1 = ε / (1 - ε) := by
      have : (1 - ε) ≠ 0 := by linarith
      field_simp; ring
    have e2 : 1 - 1 / (1 + ε) ≤ ε / (1 - ε) := by
      have : 1 - 1 / (1 + ε) = ε / (1 + ε) := by
        have : (1 + ε) ≠ 0 := by linarith
        field_simp; ring
      rw [this]
      exact div_le_div_of_nonneg_left hε0 (by linarith) (by linarith)
    rw [abs_le]
    constructor <;> linarith
  have h9 : F.u * (L / d) ≤ F.u * (1 / (1 - ε)) := mul_le_mul_of_nonneg_left hq1 hu.le
  calc |n - 1| = |(n - L / d) + (L / d - 1)| := by congr 1; ring
    _ ≤ |n - L / d| + |L / d - 1| := abs_add_le _ _
    _ ≤ F.u * (1 / (1 - ε)) + Real.sqrt M * F.eta + ε / (1 - ε) := by linarith
    _ = _ := by rw [add_div]; ring

/-- The scalar product of two computed columns of `Q`, exactly. -/
noncomputable def Spec.qdot (Q : Mat M M (Fp F)) (a b : Fin M) : ℝ := ∑ r, (Q.get r a).val * (Q.get r b).val

/-- **C120** What is known about orthogonality: the scalar product of columns `i < j` of `Q`, times the diagonal entry of column `j`, is at most the sum of four terms:
the rounding of the scalar product in `R`, the deviation of column `i` from unit length, the products of column `i` with the other earlier columns, and the
residual. So orthogonality is lost in proportion to `1 / R( j, j )`; for the first two columns the third term is absent. -/
theorem C120_orthogonality (h0 : 0 < F.emax) (cfg : Cfg) (A : Mat M N (Fp F)) (Q₀ : Mat M M (Fp F)) (R₀ : Mat N N (Fp F)) (hNM : N ≤ M) (hM : M * F.u < 1)
    {Q : Mat M M (Fp F)} {R : Mat N N (Fp F)} (h : decompose cfg A Q₀ R₀ = .ok (Q, R)) (i j : Fin N) (hij : i < j)
    (hR : (R.get j j).Finite) (hQ : ∀ r, (Q.get r (j.castLE hNM)).Finite) :
    (R.get j j).val * |Spec.qdot Q (i.castLE hNM) (j.castLE hNM)| ≤
      Spec.accErr F M (∑ r, |(Q.get r (i.castLE hNM)).val * (A.get r j).val|) +
      |(R.get i j).val| * |1 - Spec.qdot Q (i.castLE hNM) (i.castLE hNM)| +
      ∑ k ∈ Finset.univ.filter (fun k => k < j ∧ k ≠ i), |(R.get k j).val| * |Spec.qdot Q (i.castLE hNM) (k.castLE hNM)| +
      ∑ r, |(Q.get r (i.castLE hNM)).val| * Spec.qrErr F j (∑ k, |(Q.get r (k.castLE hNM)).val * (R.get k j).val|) (R.get j j).val := by
  obtain ⟨Q', R', h1, -, h3⟩ := decompose_spec cfg A Q₀ R₀ hNM
  obtain ⟨rfl, rfl⟩ := Prod.mk.inj (Except.ok.inj (h.symm.trans h1))
  obtain ⟨Q', R', h1', -, hlow, hres⟩ := C120_residual h0 cfg A Q₀ R₀ hNM hM
  obtain ⟨rfl, rfl⟩ := Prod.mk.inj (Except.ok.inj (h1.symm.trans h1'))
  obtain ⟨k1, k2⟩ := hres j hR hQ
  have k2 := k2 i hij
  obtain ⟨w, w1, -, -, -⟩ := column_facts h0 cfg A Q R hNM hM j (h3 j) hR hQ
  obtain ⟨s, -, -, -, s4, -⟩ := length_finite h0 w hM w1 hR
  have hd0 : 0 ≤ (R.get j j).val := by rw [s4]; exact rnd_nonneg (Real.sqrt_nonneg _)
  let q : Fin N → Fin M → ℝ := fun k r => (Q.get r (k.castLE hNM)).val
  let ρ : Fin N → ℝ := fun k => (R.get k j).val
  let a : Fin M → ℝ := fun r => (A.get r j).val
  let E : Fin M → ℝ := fun r => a r - ∑ k, q k r * ρ k
  have hE : ∀ r, |E r| ≤ Spec.qrErr F j (∑ k, |(Q.get r (k.castLE hNM)).val * (R.get k j).val|) (R.get j j).val := fun r => (k1 r).2.2
  have hsplit : ∑ r, q i r * a r = ∑ k, ρ k * (∑ r, q i r * q k r) + ∑ r, q i r * E r := by
    have : ∑ k, ρ k * (∑ r, q i r * q k r) = ∑ r, q i r * ∑ k, q k r * ρ k := by
      simp only [Finset.mul_sum]
      rw [Finset.sum_comm]
      exact Finset.sum_congr rfl fun r _ => Finset.sum_congr rfl fun k _ => by ring
    rw [this, ← Finset.sum_add_distrib]
    exact Finset.sum_congr rfl fun r _ => by simp only [E]; ring
  have hsum : ∑ k, ρ k * (∑ r, q i r * q k r) = ρ j * (∑ r, q i r * q j r) + ρ i * (∑ r, q i r * q i r) +
      ∑ k ∈ Finset.univ.filter (fun k => k < j ∧ k ≠ i), ρ k * (∑ r, q i r * q k r) := by
    rw [← Finset.sum_subset (Finset.subset_univ (insert j (insert i (Finset.univ.filter (fun k => k < j ∧ k ≠ i))))), Finset.sum_insert, Finset.sum_insert]
    · ring
    · simp
    · simp [hij.ne']
    · intro k _ hk
      simp only [Finset.mem_insert, Finset.mem_filter, Finset.mem_univ, true_and, not_or, not_and, not_not] at hk
      have : j < k := lt_of_le_of_ne (not_lt.1 fun hc => hk.2.1 (hk.2.2 hc)) (Ne.symm hk.1)
      simp only [ρ]
      rw [hlow k j this, Fp.val_zero, zero_mul]
  have hid : ρ j * (∑ r, q i r * q j r) = -(ρ i - ∑ r, q i r * a r) + ρ i * (1 - ∑ r, q i r * q i r) -
      ∑ k ∈ Finset.univ.filter (fun k => k < j ∧ k ≠ i), ρ k * (∑ r, q i r * q k r) - ∑ r, q i r * E r := by
    rw [hsplit, hsum]; ring
  have e : (R.get j j).val * |Spec.qdot Q (i.castLE hNM) (j.castLE hNM)| = |ρ j * (∑ r, q i r * q j r)| := by
    rw [abs_mul, abs_of_nonneg hd0]; rfl
  rw [e, hid]
  have b1 : |ρ i * (1 - ∑ r, q i r * q i r)| = |(R.get i j).val| * |1 - Spec.qdot Q (i.castLE hNM) (i.castLE hNM)| := abs_mul _ _
  have b2 : |∑ k ∈ Finset.univ.filter (fun k => k < j ∧ k ≠ i), ρ k * (∑ r, q i r * q k r)| ≤
      ∑ k ∈ Finset.univ.filter (fun k => k < j ∧ k ≠ i), |(R.get k j).val| * |Spec.qdot Q (i.castLE hNM) (k.castLE hNM)| := by
    refine (Finset.abs_sum_le_sum_abs _ _).trans (le_of_eq ?_)
    exact Finset.sum_congr rfl fun k _ => abs_mul _ _
  have b3 : |∑ r, q i r * E r| ≤ ∑ r, |(Q.get r (i.castLE hNM)).val| * Spec.qrErr F j (∑ k, |(Q.get r (k.castLE hNM)).val * (R.get k j).val|) (R.get j j).val := by
    refine (Finset.abs_sum_le_sum_abs _ _).trans (Finset.sum_le_sum fun r _ => ?_)
    rw [abs_mul]
    exact mul_le_mul_of_nonneg_left (hE r) (abs_nonneg _)
  have t1 := abs_sub (-(ρ i - ∑ r, q i r * a r) + ρ i * (1 - ∑ r, q i r * q i r) -
      ∑ k ∈ Finset.univ.filter (fun k => k < j ∧ k ≠ i), ρ k * (∑ r, q i r * q k r)) (∑ r, q i r * E r)
  have t2 := abs_sub (-(ρ i - ∑ r, q i r * a r) + ρ i * (1 - ∑ r, q i r * q i r))
      (∑ k ∈ Finset.univ.filter (fun k => k < j ∧ k ≠ i), ρ k * (∑ r, q i r * q k r))
  have t3 := abs_add_le (-(ρ i - ∑ r, q i r * a r)) (ρ i * (1 - ∑ r, q i r * q i r))
  rw [abs_neg] at t3
  have k2' : |ρ i - ∑ r, q i r * a r| ≤ Spec.accErr F M (∑ r, |(Q.get r (i.castLE hNM)).val * (A.get r j).val|) := k2
  linarith only [t1, t2, t3, b1, b2, b3, k2']

/-! ## Orthogonality is lost -/

/-- A finite value with the given number. -/
def Fp.Is (a : Fp F) (x : ℝ) : Prop := a.Finite ∧ a.val = x

theorem Fp.Is.add (h0 : 0 < F.emax) {a b : Fp F} {x y z : ℝ} (ha : Fp.Is a x) (hb : Fp.Is b y) (hz : F.rnd (x + y) = z) (hm : |x + y| ≤ F.maxFinite) : Fp.Is (a + b) z := by
  obtain ⟨h1, h2⟩ := Fp.add_fin h0 ha.1 hb.1 (by rw [ha.2, hb.2]; exact hm)
  exact ⟨h1, by rw [h2, ha.2, hb.2, hz]⟩
theorem Fp.Is.sub (h0 : 0 < F.emax) {a b : Fp F} {x y z : ℝ} (ha : Fp.Is a x) (hb : Fp.Is b y) (hz : F.rnd (x - y) = z) (hm : |x - y| ≤ F.maxFinite) : Fp.Is (a - b) z := by
  obtain ⟨h1, h2⟩ := Fp.sub_fin h0 ha.1 hb.1 (by rw [ha.2, hb.2]; exact hm)
  exact ⟨h1, by rw [h2, ha.2, hb.2, hz]⟩
theorem Fp.Is.mul (h0 : 0 < F.emax) {a b : Fp F} {x y z : ℝ} (ha : Fp.Is a x) (hb : Fp.Is b y) (hz : F.rnd (x * y) = z) (hm : |x * y| ≤ F.maxFinite) : Fp.Is (a * b) z := by
  obtain ⟨h1, h2⟩ := Fp.mul_fin h0 ha.1 hb.1 (by rw [ha.2, hb.2]; exact hm)
  exact ⟨h1, by rw [h2, ha.2, hb.2, hz]⟩
theorem Fp.Is.div (h0 : 0 < F.emax) {a b : Fp F} {x y z : ℝ} (ha : Fp.Is a x) (hb : Fp.Is b y) (hy : y ≠ 0) (hz : F.rnd (x / y) = z) (hm : |x / y| ≤ F.maxFinite) : Fp.Is (a / b) z := by
  obtain ⟨h1, h2⟩ := Fp.div_fin h0 ha.1 hb.1 (by rw [hb.2]; exact hy) (by rw [ha.2, hb.2]; exact hm)
  exact ⟨h1, by rw [h2, ha.2, hb.2, hz]⟩
theorem Fp.Is.sqrt (h0 : 0 < F.emax) {a : Fp F} {x z : ℝ} (ha : Fp.Is a x) (hx : 0 ≤ x) (hz : F.rnd (Real.sqrt x) = z) : Fp.Is (CMath.sqrt a) z := by
  obtain ⟨h1, h2⟩ := Fp.sqrt_fin h0 ha.1 (by rw [ha.2]; exact hx)
  exact ⟨h1, by rw [h2, ha.2, hz]⟩
theorem Fp.Is.zero : Fp.Is (0 : Fp F) 0 := ⟨trivial, Fp.val_zero⟩

private theorem dot3 (cfg : Cfg) (a b : Vec 3 (Fp F)) : a.dot cfg b = .ok ((0 : Fp F) + a[0] * b[0] + a[1] * b[1] + a[2] * b[2]) := by
  simp [Vec.dot, loop]
private theorem len3 (a : Vec 3 (Fp F)) : a.length = .ok (CMath.sqrt ((0 : Fp F) + a[0] * a[0] + a[1] * a[1] + a[2] * a[2])) := by
  simp [Vec.length, Vec.squaredLength, loop]

private theorem ok_of {β : Type} {a b : β} (h : (Except.ok a : Res β) = .ok b) : b = a := (Except.ok.inj h).symm

/-- **C120** (refuted part) Orthogonality is not guaranteed: the code subtracts the products with the original column (classical Gram-Schmidt). For every format with
`p + 3 ≤ 2 k`, `2 k < emax` (`k = 13` in `float`, `k = 28` in `double`) there is an invertible `3 × 3` matrix of numbers `0`, `1`, `2^-k` whose decomposition is
finite and has two columns of `Q` with a scalar product of at least `1 / 2`. -/
theorem C120_orthogonality_violated (k : ℕ) (hk1 : F.p + 3 ≤ 2 * k) (hk2 : 2 * k < F.emax) (cfg : Cfg) (Q₀ R₀ : Mat 3 3 (Fp F)) :
    ∃ A : Mat 3 3 (Fp F), (∀ r c, (A.get r c).Finite ∧ ((A.get r c).val = 0 ∨ (A.get r c).val = 1 ∨ (A.get r c).val = (2 : ℝ) ^ (-(k : Int)))) ∧
      (Matrix.of fun r c => (A.get r c).val).det ≠ 0 ∧
      ∃ Q R, decompose cfg A Q₀ R₀ = .ok (Q, R) ∧ (∀ r c, (Q.get r c).Finite ∧ (R.get r c).Finite) ∧
        1 / 2 ≤ ∑ r, (Q.get r 1).val * (Q.get r 2).val := by
  have h0 : 0 < F.emax := by omega
  have hu := F.u_pos
  obtain ⟨ε, hε⟩ : ∃ ε, ε = (2 : ℝ) ^ (-(k : Int)) := ⟨_, rfl⟩
  have hεpos : 0 < ε := by rw [hε]; positivity
  have hε1 : ε ≤ 1 := by rw [hε]; exact zpow_le_one_of_nonpos₀ (by norm_num) (by omega)
  have hεε : ε * ε = (2 : ℝ) ^ (-(2 * k : Int)) := by rw [hε, ← zpow_add₀ (by norm_num)]; congr 1; ring
  have hεu : ε * ε ≤ F.u / 4 := by
    rw [hεε]
    have : F.u / 4 = (2 : ℝ) ^ (-(F.p + 3 : Int)) := by
      unfold u
      rw [zpow_neg, ← inv_zpow, show (F.p + 3 : Int) = ((F.p + 1 + 2 : ℕ) : Int) by push_cast; ring, zpow_natCast, pow_add _ (F.p + 1) 2]
      ring
    rw [this]
    exact zpow_le_zpow_right₀ (by norm_num) (by omega)
  have hmax : (2 : ℝ) ≤ F.maxFinite := by
    refine le_trans ?_ pow_emax_le
    calc (2 : ℝ) = (2 : ℝ) ^ (1 : Int) := by norm_num
      _ ≤ _ := zpow_le_zpow_right₀ (by norm_num) (by omega)
  have r1 : F.Rep 1 := by simpa using rep_pow (F := F) (e := 0) (by unfold emin; omega)
  have rhalf : F.Rep (1 / 2) := by
    have := rep_pow (F := F) (e := -1) (by unfold emin; omega)
    norm_num at this ⊢
    exact this
  have rε : F.Rep ε := by rw [hε]; exact rep_pow (by unfold emin; omega)
  have r2ε : F.Rep (2 * ε) := by
    have := rep_pow (F := F) (e := 1 + -(k : Int)) (by unfold emin; omega)
    rw [zpow_add₀ (by norm_num), ← hε] at this
    simpa using this
  have rεε : F.Rep (ε * ε) := by rw [hεε]; exact rep_pow (by unfold emin; omega)
  have r2εε : F.Rep (ε * ε + ε * ε) := by
    have := rep_pow (F := F) (e := 1 + -(2 * k : Int)) (by unfold emin; omega)
    rw [zpow_add₀ (by norm_num), ← hεε] at this
    rw [← two_mul]
    simpa using this
  have n1 : F.rnd (-1) = -1 := by rw [rnd_neg, r1.rnd_eq]
  have nε : F.rnd (-ε) = -ε := by rw [rnd_neg, rε.rnd_eq]
  have ab : F.rnd (1 + ε * ε) = 1 := absorb r1 one_pos (by rw [abs_of_nonneg (by positivity)]; linarith)
  have hεε1 : ε * ε ≤ 1 := mul_le_one₀ hε1 hεpos.le hε1
  -- the matrix
  let e : Fp F := .fin false ε ⟨hεpos.le, rε, by linarith⟩
  have ie : Fp.Is e ε := ⟨trivial, rfl⟩
  have i1 : Fp.Is (1 : Fp F) 1 := Fp.one_fin h0
  have i0 : Fp.Is (0 : Fp F) 0 := Fp.Is.zero
  let A : Mat 3 3 (Fp F) := ⟨#v[1, e, e, 1, e, 0, 1, 0, e]⟩
  have a00 : A.get 0 0 = 1 := rfl
  have a10 : A.get 1 0 = e := rfl
  have a20 : A.get 2 0 = e := rfl
  have a01 : A.get 0 1 = 1 := rfl
  have a11 : A.get 1 1 = e := rfl
  have a21 : A.get 2 1 = 0 := rfl
  have a02 : A.get 0 2 = 1 := rfl
  have a12 : A.get 1 2 = 0 := rfl
  have a22 : A.get 2 2 = e := rfl
  obtain ⟨Q, R, hqr, -, hD⟩ := decompose_spec cfg A Q₀ R₀ le_rfl
  obtain ⟨-, -, d03, d04⟩ := hD 0
  obtain ⟨d11, -, d13, d14⟩ := hD 1
  obtain ⟨d21, -, d23, d24⟩ := hD 2
  rw [len3] at d03 d13 d23
  have d110 := d11 0 (by decide)
  have d210 := d21 0 (by decide)
  have d211 := d21 1 (by decide)
  rw [dot3] at d110 d210 d211
  replace d03 := ok_of d03
  replace d13 := ok_of d13
  replace d23 := ok_of d23
  replace d110 := ok_of d110
  replace d210 := ok_of d210
  replace d211 := ok_of d211
  -- column 0
  replace d03 : R.get 0 0 = CMath.sqrt (0 + A.get 0 0 * A.get 0 0 + A.get 1 0 * A.get 1 0 + A.get 2 0 * A.get 2 0) := by simpa [rest] using d03
  have R00 : Fp.Is (R.get 0 0) 1 := by
    rw [d03, a00, a10, a20]
    have p1 : Fp.Is (1 * 1 : Fp F) 1 := i1.mul h0 i1 (by rw [mul_one]; exact r1.rnd_eq) (by norm_num; linarith)
    have p2 : Fp.Is (0 + 1 * 1 : Fp F) 1 := i0.add h0 p1 (by rw [zero_add]; exact r1.rnd_eq) (by norm_num; linarith)
    have p3 : Fp.Is (e * e) (ε * ε) := ie.mul h0 ie rεε.rnd_eq (by rw [abs_of_nonneg (by positivity)]; linarith)
    have p4 : Fp.Is (0 + 1 * 1 + e * e : Fp F) 1 := p2.add h0 p3 ab (by rw [abs_of_nonneg (by positivity)]; linarith)
    have p5 : Fp.Is (0 + 1 * 1 + e * e + e * e : Fp F) 1 := p4.add h0 p3 ab (by rw [abs_of_nonneg (by positivity)]; linarith)
    exact p5.sqrt h0 zero_le_one (by rw [Real.sqrt_one]; exact r1.rnd_eq)
  have Q00 : Fp.Is (Q.get 0 0) 1 := by
    have := d04 0
    replace this : Q.get 0 0 = A.get 0 0 / R.get 0 0 := this
    rw [this, a00]
    exact i1.div h0 R00 one_ne_zero (by rw [div_one]; exact r1.rnd_eq) (by norm_num; linarith)
  have Q10 : Fp.Is (Q.get 1 0) ε := by
    have := d04 1
    replace this : Q.get 1 0 = A.get 1 0 / R.get 0 0 := this
    rw [this, a10]
    exact ie.div h0 R00 one_ne_zero (by rw [div_one]; exact rε.rnd_eq) (by rw [div_one, abs_of_pos hεpos]; linarith)
  have Q20 : Fp.Is (Q.get 2 0) ε := by
    have := d04 2
    replace this : Q.get 2 0 = A.get 2 0 / R.get 0 0 := this
    rw [this, a20]
    exact ie.div h0 R00 one_ne_zero (by rw [div_one]; exact rε.rnd_eq) (by rw [div_one, abs_of_pos hεpos]; linarith)
  -- column 1
  have R01 : Fp.Is (R.get 0 1) 1 := by
    replace d110 : R.get 0 1 = 0 + Q.get 0 0 * A.get 0 1 + Q.get 1 0 * A.get 1 1 + Q.get 2 0 * A.get 2 1 := by simpa [nq] using d110
    rw [d110, a01, a11, a21]
    have p1 : Fp.Is (Q.get 0 0 * 1) 1 := Q00.mul h0 i1 (by rw [mul_one]; exact r1.rnd_eq) (by norm_num; linarith)
    have p2 : Fp.Is (0 + Q.get 0 0 * 1) 1 := i0.add h0 p1 (by rw [zero_add]; exact r1.rnd_eq) (by norm_num; linarith)
    have p3 : Fp.Is (Q.get 1 0 * e) (ε * ε) := Q10.mul h0 ie rεε.rnd_eq (by rw [abs_of_nonneg (by positivity)]; linarith)
    have p4 := p2.add h0 p3 ab (by rw [abs_of_nonneg (by positivity)]; linarith)
    have p5 : Fp.Is (Q.get 2 0 * 0) 0 := Q20.mul h0 i0 (by rw [mul_zero]; exact rnd_zero) (by rw [mul_zero, abs_zero]; linarith)
    exact p4.add h0 p5 (by rw [add_zero]; exact r1.rnd_eq) (by norm_num; linarith)
  obtain ⟨v1, hv1⟩ : ∃ v1 : Fin 3 → Fp F, v1 = fun r => A.get r 1 - Q.get r 0 * R.get 0 1 := ⟨_, rfl⟩
  have e1 : rest A.get (nq 0 Q) (nr 0 R) 1 1 = v1 := by rw [hv1]; rfl
  have v10 : Fp.Is (v1 0) 0 := by
    rw [hv1]
    show Fp.Is (A.get 0 1 - Q.get 0 0 * R.get 0 1) 0
    rw [a01]
    exact i1.sub h0 (Q00.mul h0 R01 (z := 1) (by rw [mul_one]; exact r1.rnd_eq) (by norm_num; linarith)) (by rw [sub_self]; exact rnd_zero) (by norm_num; linarith)
  have v11 : Fp.Is (v1 1) 0 := by
    rw [hv1]
    show Fp.Is (A.get 1 1 - Q.get 1 0 * R.get 0 1) 0
    rw [a11]
    exact ie.sub h0 (Q10.mul h0 R01 (z := ε) (by rw [mul_one]; exact rε.rnd_eq) (by rw [mul_one, abs_of_pos hεpos]; linarith))
      (by rw [sub_self]; exact rnd_zero) (by norm_num; linarith)
  have v12 : Fp.Is (v1 2) (-ε) := by
    rw [hv1]
    show Fp.Is (A.get 2 1 - Q.get 2 0 * R.get 0 1) (-ε)
    rw [a21]
    exact i0.sub h0 (Q20.mul h0 R01 (z := ε) (by rw [mul_one]; exact rε.rnd_eq) (by rw [mul_one, abs_of_pos hεpos]; linarith))
      (by rw [zero_sub]; exact nε) (by rw [zero_sub, abs_neg, abs_of_pos hεpos]; linarith)
  have z00 : ∀ a b : Fp F, Fp.Is a 0 → Fp.Is b 0 → Fp.Is (a * b) 0 := fun a b ha hb => ha.mul h0 hb (by rw [mul_zero]; exact rnd_zero) (by norm_num; linarith)
  have s00 : ∀ a b : Fp F, Fp.Is a 0 → Fp.Is b 0 → Fp.Is (a + b) 0 := fun a b ha hb => ha.add h0 hb (by rw [add_zero]; exact rnd_zero) (by norm_num; linarith)
  have R11 : Fp.Is (R.get 1 1) ε := by
    replace d13 : R.get 1 1 = CMath.sqrt (0 + v1 0 * v1 0 + v1 1 * v1 1 + v1 2 * v1 2) := by rw [← e1]; simpa using d13
    rw [d13]
    have p1 := s00 _ _ (s00 _ _ i0 (z00 _ _ v10 v10)) (z00 _ _ v11 v11)
    have p2 : Fp.Is (v1 2 * v1 2) (ε * ε) := v12.mul h0 v12 (by rw [neg_mul_neg]; exact rεε.rnd_eq) (by rw [neg_mul_neg, abs_of_nonneg (by positivity)]; linarith)
    have p3 := p1.add h0 p2 (z := ε * ε) (by rw [zero_add]; exact rεε.rnd_eq) (by rw [zero_add, abs_of_nonneg (by positivity)]; linarith)
    exact p3.sqrt h0 (by positivity) (by rw [Real.sqrt_mul_self hεpos.le]; exact rε.rnd_eq)
  have Q01 : Fp.Is (Q.get 0 1) 0 := by
    have : Q.get 0 1 = v1 0 / R.get 1 1 := by rw [← e1]; exact d14 0
    rw [this]
    exact v10.div h0 R11 hεpos.ne' (by rw [zero_div]; exact rnd_zero) (by rw [zero_div, abs_zero]; linarith)
  have Q11 : Fp.Is (Q.get 1 1) 0 := by
    have : Q.get 1 1 = v1 1 / R.get 1 1 := by rw [← e1]; exact d14 1
    rw [this]
    exact v11.div h0 R11 hεpos.ne' (by rw [zero_div]; exact rnd_zero) (by rw [zero_div, abs_zero]; linarith)
  have Q21 : Fp.Is (Q.get 2 1) (-1) := by
    have : Q.get 2 1 = v1 2 / R.get 1 1 := by rw [← e1]; exact d14 2
    rw [this]
    have hq : -ε / ε = -1 := by field_simp
    exact v12.div h0 R11 hεpos.ne' (by rw [hq]; exact n1) (by rw [hq]; norm_num; linarith)
  -- column 2
  have R02 : Fp.Is (R.get 0 2) 1 := by
    replace d210 : R.get 0 2 = 0 + Q.get 0 0 * A.get 0 2 + Q.get 1 0 * A.get 1 2 + Q.get 2 0 * A.get 2 2 := by simpa [nq] using d210
    rw [d210, a02, a12, a22]
    have p1 : Fp.Is (Q.get 0 0 * 1) 1 := Q00.mul h0 i1 (by rw [mul_one]; exact r1.rnd_eq) (by norm_num; linarith)
    have p2 : Fp.Is (0 + Q.get 0 0 * 1) 1 := i0.add h0 p1 (by rw [zero_add]; exact r1.rnd_eq) (by norm_num; linarith)
    have p5 : Fp.Is (Q.get 1 0 * 0) 0 := Q10.mul h0 i0 (by rw [mul_zero]; exact rnd_zero) (by rw [mul_zero, abs_zero]; linarith)
    have p6 := p2.add h0 p5 (z := 1) (by rw [add_zero]; exact r1.rnd_eq) (by norm_num; linarith)
    have p3 : Fp.Is (Q.get 2 0 * e) (ε * ε) := Q20.mul h0 ie rεε.rnd_eq (by rw [abs_of_nonneg (by positivity)]; linarith)
    exact p6.add h0 p3 ab (by rw [abs_of_nonneg (by positivity)]; linarith)
  have R12 : Fp.Is (R.get 1 2) (-ε) := by
    replace d211 : R.get 1 2 = 0 + Q.get 0 1 * A.get 0 2 + Q.get 1 1 * A.get 1 2 + Q.get 2 1 * A.get 2 2 := by simpa [nq] using d211
    rw [d211, a02, a12, a22]
    have p1 : Fp.Is (Q.get 0 1 * 1) 0 := Q01.mul h0 i1 (by rw [zero_mul]; exact rnd_zero) (by norm_num; linarith)
    have p2 := s00 _ _ (s00 _ _ i0 p1) (z00 _ _ Q11 i0)
    have p3 : Fp.Is (Q.get 2 1 * e) (-ε) := Q21.mul h0 ie (by rw [neg_one_mul]; exact nε) (by rw [neg_one_mul, abs_neg, abs_of_pos hεpos]; linarith)
    exact p2.add h0 p3 (by rw [zero_add]; exact nε) (by rw [zero_add, abs_neg, abs_of_pos hεpos]; linarith)
  obtain ⟨v2, hv2⟩ : ∃ v2 : Fin 3 → Fp F, v2 = fun r => A.get r 2 - Q.get r 0 * R.get 0 2 - Q.get r 1 * R.get 1 2 := ⟨_, rfl⟩
  have e2 : rest A.get (nq 0 Q) (nr 0 R) 2 2 = v2 := by rw [hv2]; rfl
  have v20 : Fp.Is (v2 0) 0 := by
    rw [hv2]
    show Fp.Is (A.get 0 2 - Q.get 0 0 * R.get 0 2 - Q.get 0 1 * R.get 1 2) 0
    rw [a02]
    have p1 := i1.sub h0 (Q00.mul h0 R02 (z := 1) (by rw [mul_one]; exact r1.rnd_eq) (by norm_num; linarith)) (z := 0) (by rw [sub_self]; exact rnd_zero) (by norm_num; linarith)
    exact p1.sub h0 (Q01.mul h0 R12 (z := 0) (by rw [zero_mul]; exact rnd_zero) (by rw [zero_mul, abs_zero]; linarith)) (by rw [sub_zero]; exact rnd_zero) (by norm_num; linarith)
  have v21 : Fp.Is (v2 1) (-ε) := by
    rw [hv2]
    show Fp.Is (A.get 1 2 - Q.get 1 0 * R.get 0 2 - Q.get 1 1 * R.get 1 2) (-ε)
    rw [a12]
    have p1 := i0.sub h0 (Q10.mul h0 R02 (z := ε) (by rw [mul_one]; exact rε.rnd_eq) (by rw [mul_one, abs_of_pos hεpos]; linarith)) (z := -ε)
      (by rw [zero_sub]; exact nε) (by rw [zero_sub, abs_neg, abs_of_pos hεpos]; linarith)
    exact p1.sub h0 (Q11.mul h0 R12 (z := 0) (by rw [zero_mul]; exact rnd_zero) (by rw [zero_mul, abs_zero]; linarith)) (by rw [sub_zero]; exact nε)
      (by rw [sub_zero, abs_neg, abs_of_pos hεpos]; linarith)
  have v22 : Fp.Is (v2 2) (-ε) := by
    rw [hv2]
    show Fp.Is (A.get 2 2 - Q.get 2 0 * R.get 0 2 - Q.get 2 1 * R.get 1 2) (-ε)
    rw [a22]
    have p1 := ie.sub h0 (Q20.mul h0 R02 (z := ε) (by rw [mul_one]; exact rε.rnd_eq) (by rw [mul_one, abs_of_pos hεpos]; linarith)) (z := 0)
      (by rw [sub_self]; exact rnd_zero) (by rw [sub_self, abs_zero]; linarith)
    exact p1.sub h0 (Q21.mul h0 R12 (z := ε) (by rw [neg_one_mul, neg_neg]; exact rε.rnd_eq) (by rw [neg_one_mul, neg_neg, abs_of_pos hεpos]; linarith))
      (by rw [zero_sub]; exact nε) (by rw [zero_sub, abs_neg, abs_of_pos hεpos]; linarith)
  obtain ⟨l, hl⟩ : ∃ l, l = F.rnd (Real.sqrt (ε * ε + ε * ε)) := ⟨_, rfl⟩
  have hl1 : ε ≤ l := by
    rw [hl]
    apply rep_le_rnd rε
    apply Real.le_sqrt_of_sq_le
    nlinarith
  have hl2 : l ≤ 2 * ε := by
    rw [hl]
    apply rnd_le_rep r2ε
    rw [Real.sqrt_le_left (by positivity)]
    nlinarith
  have hlpos : 0 < l := lt_of_lt_of_le hεpos hl1
  have R22 : Fp.Is (R.get 2 2) l := by
    replace d23 : R.get 2 2 = CMath.sqrt (0 + v2 0 * v2 0 + v2 1 * v2 1 + v2 2 * v2 2) := by rw [← e2]; simpa using d23
    rw [d23]
    have p1 := s00 _ _ i0 (z00 _ _ v20 v20)
    have p2 : Fp.Is (v2 1 * v2 1) (ε * ε) := v21.mul h0 v21 (by rw [neg_mul_neg]; exact rεε.rnd_eq) (by rw [neg_mul_neg, abs_of_nonneg (by positivity)]; linarith)
    have p3 : Fp.Is (v2 2 * v2 2) (ε * ε) := v22.mul h0 v22 (by rw [neg_mul_neg]; exact rεε.rnd_eq) (by rw [neg_mul_neg, abs_of_nonneg (by positivity)]; linarith)
    have p4 := p1.add h0 p2 (z := ε * ε) (by rw [zero_add]; exact rεε.rnd_eq) (by rw [zero_add, abs_of_nonneg (by positivity)]; linarith)
    have p5 := p4.add h0 p3 (z := ε * ε + ε * ε) r2εε.rnd_eq (by rw [abs_of_nonneg (by positivity)]; linarith)
    exact p5.sqrt h0 (by positivity) hl.symm
  have hq1 : ε / l ≤ 1 := (div_le_one hlpos).2 hl1
  have hq2 : 1 / 2 ≤ ε / l := by rw [le_div_iff₀ hlpos]; linarith
  have hc : 1 / 2 ≤ F.rnd (ε / l) := rep_le_rnd rhalf hq2
  have hq3 : F.rnd (-ε / l) = -F.rnd (ε / l) := by rw [neg_div, rnd_neg]
  have hq4 : |-ε / l| ≤ F.maxFinite := by rw [neg_div, abs_neg, abs_of_pos (by positivity)]; linarith
  have Q02 : Fp.Is (Q.get 0 2) 0 := by
    have : Q.get 0 2 = v2 0 / R.get 2 2 := by rw [← e2]; exact d24 0
    rw [this]
    exact v20.div h0 R22 hlpos.ne' (by rw [zero_div]; exact rnd_zero) (by rw [zero_div, abs_zero]; linarith)
  have Q12 : Fp.Is (Q.get 1 2) (-F.rnd (ε / l)) := by
    have : Q.get 1 2 = v2 1 / R.get 2 2 := by rw [← e2]; exact d24 1
    rw [this]
    exact v21.div h0 R22 hlpos.ne' hq3 hq4
  have Q22 : Fp.Is (Q.get 2 2) (-F.rnd (ε / l)) := by
    have : Q.get 2 2 = v2 2 / R.get 2 2 := by rw [← e2]; exact d24 2
    rw [this]
    exact v22.div h0 R22 hlpos.ne' hq3 hq4
  have lo : ∀ i j : Fin 3, j < i → R.get i j = 0 := fun i j hij => (hD j).2.1 i hij
  have R10 := lo 1 0 (by decide)
  have R20 := lo 2 0 (by decide)
  have R21 := lo 2 1 (by decide)
  refine ⟨A, ?_, ?_, Q, R, hqr, ?_, ?_⟩
  · rw [← hε]
    intro r c
    fin_cases r <;> fin_cases c
    · exact ⟨i1.1, Or.inr (Or.inl i1.2)⟩
    · exact ⟨i1.1, Or.inr (Or.inl i1.2)⟩
    · exact ⟨i1.1, Or.inr (Or.inl i1.2)⟩
    · exact ⟨ie.1, Or.inr (Or.inr ie.2)⟩
    · exact ⟨ie.1, Or.inr (Or.inr ie.2)⟩
    · exact ⟨i0.1, Or.inl i0.2⟩
    · exact ⟨ie.1, Or.inr (Or.inr ie.2)⟩
    · exact ⟨i0.1, Or.inl i0.2⟩
    · exact ⟨ie.1, Or.inr (Or.inr ie.2)⟩
  · rw [Matrix.det_fin_three]
    simp only [Matrix.of_apply, a00, a01, a02, a10, a11, a12, a20, a21, a22, i1.2, ie.2, i0.2]
    nlinarith [mul_pos hεpos hεpos]
  · intro r c
    fin_cases r <;> fin_cases c
    · exact ⟨Q00.1, R00.1⟩
    · exact ⟨Q01.1, R01.1⟩
    · exact ⟨Q02.1, R02.1⟩
    · refine ⟨Q10.1, ?_⟩
      show (R.get 1 0).Finite
      rw [R10]; trivial
    · exact ⟨Q11.1, R11.1⟩
    · exact ⟨Q12.1, R12.1⟩
    · refine ⟨Q20.1, ?_⟩
      show (R.get 2 0).Finite
      rw [R20]; trivial
    · refine ⟨Q21.1, ?_⟩
      show (R.get 2 1).Finite
      rw [R21]; trivial
    · exact ⟨Q22.1, R22.1⟩
  · rw [Fin.sum_univ_three, Q01.2, Q11.2, Q21.2, Q02.2, Q12.2, Q22.2]
    linarith

/-! ## Concrete cases -/

example (cfg : Cfg) (A : Mat 4 3 (Fp single)) (Q₀ : Mat 4 4 (Fp single)) (R₀ : Mat 3 3 (Fp single)) :=
  C120_residual (by norm_num) cfg A Q₀ R₀ (by norm_num) (by norm_num [u])
example (cfg : Cfg) (Q₀ R₀ : Mat 3 3 (Fp single)) := C120_orthogonality_violated 13 (by norm_num) (by norm_num) cfg Q₀ R₀
example (cfg : Cfg) (Q₀ R₀ : Mat 3 3 (Fp double)) := C120_orthogonality_violated 28 (by norm_num) (by norm_num) cfg Q₀ R₀

/-- The hypotheses of `C120_unit`: the column `( 2, 0 )` of `float`. -/
example (cfg : Cfg) (Q₀ : Mat 2 2 (Fp single)) (R₀ : Mat 1 1 (Fp single)) : ∃ (A : Mat 2 1 (Fp single)) (Q : Mat 2 2 (Fp single)) (R : Mat 1 1 (Fp single)),
    decompose cfg A Q₀ R₀ = .ok (Q, R) ∧
      |Real.sqrt (∑ r, (Q.get r 0).val ^ 2) - 1| ≤ (Spec.flenErr single 2 + single.u) / (1 - Spec.flenErr single 2) + Real.sqrt (2 : ℕ) * single.eta := by
  have h0 : 0 < single.emax := by norm_num
  have r2 : single.Rep 2 := by simpa using rep_pow (F := single) (e := 1) (by norm_num [emin])
  have r4 : single.Rep 4 := by
    have := rep_pow (F := single) (e := 2) (by norm_num [emin])
    norm_num at this
    exact this
  have hmax : (8 : ℝ) ≤ single.maxFinite := by norm_num [maxFinite]
  have r1 : single.Rep 1 := by simpa using rep_pow (F := single) (e := 0) (by norm_num [emin])
  let t : Fp single := .fin false 2 ⟨by norm_num, r2, by linarith⟩
  have it : Fp.Is t 2 := ⟨trivial, rfl⟩
  let A : Mat 2 1 (Fp single) := ⟨#v[t, 0]⟩
  obtain ⟨Q, R, h1, -, h3⟩ := decompose_spec cfg A Q₀ R₀ (by norm_num)
  obtain ⟨-, -, d3, d4⟩ := h3 0
  have hl : ∀ a : Vec 2 (Fp single), a.length = .ok (CMath.sqrt ((0 : Fp single) + a[0] * a[0] + a[1] * a[1])) := by
    intro a; simp [Vec.length, Vec.squaredLength, loop]
  rw [hl] at d3
  replace d3 := ok_of d3
  replace d3 : R.get 0 0 = CMath.sqrt (0 + t * t + 0 * 0) := by rw [d3]; rfl
  have i0 : Fp.Is (0 : Fp single) 0 := Fp.Is.zero
  have hR : Fp.Is (R.get 0 0) 2 := by
    rw [d3]
    have p1 : Fp.Is (t * t) 4 := it.mul h0 it (by norm_num; exact r4.rnd_eq) (by norm_num; linarith)
    have p2 := i0.add h0 p1 (z := 4) (by norm_num; exact r4.rnd_eq) (by norm_num; linarith)
    have p3 := p2.add h0 (i0.mul h0 i0 (z := 0) (by rw [mul_zero]; exact rnd_zero) (by norm_num; linarith)) (z := 4) (by norm_num; exact r4.rnd_eq) (by norm_num; linarith)
    refine p3.sqrt h0 (by norm_num) ?_
    rw [show (4 : ℝ) = 2 ^ 2 by norm_num, Real.sqrt_sq (by norm_num)]
    exact r2.rnd_eq
  have hQ0 : Fp.Is (Q.get 0 0) 1 := by
    have : Q.get 0 0 = t / R.get 0 0 := d4 0
    rw [this]
    exact it.div h0 hR (by norm_num) (by norm_num; exact r1.rnd_eq) (by norm_num; linarith)
  have hQ1 : Fp.Is (Q.get 1 0) 0 := by
    have : Q.get 1 0 = 0 / R.get 0 0 := d4 1
    rw [this]
    exact i0.div h0 hR (by norm_num) (by rw [zero_div]; exact rnd_zero) (by norm_num; linarith)
  refine ⟨A, Q, R, h1, C120_unit (by norm_num) cfg A Q₀ R₀ (by norm_num) (by norm_num [u]) (by norm_num [Spec.flenErr, Spec.gamma, u]) h1 0 hR.1 ?_ ?_⟩
  · intro r
    fin_cases r
    · exact hQ0.1
    · exact hQ1.1
  · rw [hR.2]
    norm_num [emin]
end Vmml
