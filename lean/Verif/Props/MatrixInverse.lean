import Verif.Props.MatrixAlgebra
import Mathlib.LinearAlgebra.Matrix.Determinant.Basic
import Mathlib.LinearAlgebra.Matrix.Adjugate
import Mathlib.Analysis.Real.Sqrt

/-!
# C29-C31, C50: determinants, minors, adjugates, inverses, positive definiteness
-/
set_option linter.unusedSimpArgs false

namespace Vmml
open Mat
variable {M N P Q O : Nat} {α β : Type}

/-! ## C29 -/

theorem Mat.det1_eq [CommRing α] (m : Mat 1 1 α) : m.det1 = .ok m.toMat.det := by
  rw [det1, rawGet_lt m (by omega)]
  simp [Matrix.det_unique, Mat.get]

theorem Mat.det2_eq [CommRing α] (cfg : Cfg) (m : Mat 2 2 α) : m.det2 cfg = .ok m.toMat.det := by
  simp [det2, Matrix.det_fin_two]

theorem Mat.det3_eq [CommRing α] (cfg : Cfg) (m : Mat 3 3 α) : m.det3 cfg = .ok m.toMat.det := by
  simp only [det3, atGet_lt cfg m (show 0 < 3 by omega), atGet_lt cfg m (show 1 < 3 by omega),
    atGet_lt cfg m (show 2 < 3 by omega), show 0 < 3 from by omega, show 1 < 3 from by omega,
    show 2 < 3 from by omega, bind_ok, pure_ok]
  congr 1
  rw [Matrix.det_fin_three]
  simp only [toMat_apply, Fin.mk_zero, Fin.mk_one, Fin.reduceFinMk, Fin.zero_eta]
  ring

theorem det_fin_four [CommRing α] (A : Matrix (Fin 4) (Fin 4) α) : A.det =
    A 0 0 * (A 1 1 * (A 2 2 * A 3 3 - A 2 3 * A 3 2) - A 1 2 * (A 2 1 * A 3 3 - A 2 3 * A 3 1)
      + A 1 3 * (A 2 1 * A 3 2 - A 2 2 * A 3 1))
    - A 0 1 * (A 1 0 * (A 2 2 * A 3 3 - A 2 3 * A 3 2) - A 1 2 * (A 2 0 * A 3 3 - A 2 3 * A 3 0)
      + A 1 3 * (A 2 0 * A 3 2 - A 2 2 * A 3 0))
    + A 0 2 * (A 1 0 * (A 2 1 * A 3 3 - A 2 3 * A 3 1) - A 1 1 * (A 2 0 * A 3 3 - A 2 3 * A 3 0)
      + A 1 3 * (A 2 0 * A 3 1 - A 2 1 * A 3 0))
    - A 0 3 * (A 1 0 * (A 2 1 * A 3 2 - A 2 2 * A 3 1) - A 1 1 * (A 2 0 * A 3 2 - A 2 2 * A 3 0)
      + A 1 2 * (A 2 0 * A 3 1 - A 2 1 * A 3 0)) := by
  rw [Matrix.det_succ_row_zero, Fin.sum_univ_four]
  simp only [Matrix.det_fin_three, Matrix.submatrix_apply]
  have e00 : (0 : Fin 4).succAbove 0 = 1 := rfl
  have e01 : (0 : Fin 4).succAbove 1 = 2 := rfl
  have e02 : (0 : Fin 4).succAbove 2 = 3 := rfl
  have e10 : (1 : Fin 4).succAbove 0 = 0 := rfl
  have e11 : (1 : Fin 4).succAbove 1 = 2 := rfl
  have e12 : (1 : Fin 4).succAbove 2 = 3 := rfl
  have e20 : (2 : Fin 4).succAbove 0 = 0 := rfl
  have e21 : (2 : Fin 4).succAbove 1 = 1 := rfl
  have e22 : (2 : Fin 4).succAbove 2 = 3 := rfl
  have e30 : (3 : Fin 4).succAbove 0 = 0 := rfl
  have e31 : (3 : Fin 4).succAbove 1 = 1 := rfl
  have e32 : (3 : Fin 4).succAbove 2 = 2 := rfl
  have s0 : (0 : Fin 3).succ = 1 := rfl
  have s1 : (1 : Fin 3).succ = 2 := rfl
  have s2 : (2 : Fin 3).succ = 3 := rfl
  have v2 : ((2 : Fin 4) : Nat) = 2 := rfl
  have v3 : ((3 : Fin 4) : Nat) = 3 := rfl
  simp only [e00, e01, e02, e10, e11, e12, e20, e21, e22, e30, e31, e32, s0, s1, s2, Fin.val_zero, Fin.val_one, v2, v3]
  ring

theorem Mat.det4_eq [CommRing α] (cfg : Cfg) (m : Mat 4 4 α) : m.det4 cfg = .ok m.toMat.det := by
  have h0 : 0 < 4 := by omega
  have h1 : 1 < 4 := by omega
  have h2 : 2 < 4 := by omega
  have h3 : 3 < 4 := by omega
  simp only [det4, atGet_lt cfg m, h0, h1, h2, h3, bind_ok, pure_ok]
  congr 1
  rw [det_fin_four]
  simp only [toMat_apply, Fin.mk_zero, Fin.mk_one, Fin.reduceFinMk, Fin.zero_eta]
  ring

/-- C29. `det()` is the determinant, for the sizes 1 to 4, over every commutative ring. -/
theorem C29_det [CommRing α] (cfg : Cfg) {n : Nat} (hn : 1 ≤ n) (hn' : n ≤ 4) (m : Mat n n α) :
    m.det cfg = .ok m.toMat.det := by
  match n, hn, hn' with
  | 1, _, _ => exact det1_eq m
  | 2, _, _ => exact det2_eq cfg m
  | 3, _, _ => exact det3_eq cfg m
  | 4, _, _ => exact det4_eq cfg m

/-- C29. The laws of the determinant through the API: multiplicative, invariant under transposition, `1` on the
identity, zero if two rows are equal, sign change under a row exchange. -/
theorem C29_laws [CommRing α] (cfg : Cfg) {n : Nat} (hn : 1 ≤ n) (hn' : n ≤ 4) (a b : Mat n n α) :
    (∃ x y z, (do (← a.mul cfg b).det cfg) = .ok z ∧ a.det cfg = .ok x ∧ b.det cfg = .ok y ∧ z = x * y) ∧
    (do (← a.transpose cfg).det cfg) = a.det cfg ∧
    (do (← (IDENTITY cfg : Res (Mat n n α))).det cfg) = .ok 1 ∧
    (∀ i j, i ≠ j → (∀ k, a.toMat i k = a.toMat j k) → a.det cfg = .ok 0) ∧
    (∀ i j, i ≠ j → (∀ k, b.toMat i k = a.toMat j k) → (∀ k, b.toMat j k = a.toMat i k) →
      (∀ r k, r ≠ i → r ≠ j → b.toMat r k = a.toMat r k) → ∃ x, a.det cfg = .ok x ∧ b.det cfg = .ok (-x)) := by
  obtain ⟨x, hx, -, hx'⟩ := C25_mul cfg (ofFn fun _ _ => 0) a b
  obtain ⟨t, -, ht, ht'⟩ := C28_transpose cfg a a
  obtain ⟨i, hi, hi'⟩ := (C21_construction (M := n) (N := n) (α := α) cfg).2.2.2.2.2.1
  refine ⟨⟨_, _, _, by rw [hx, bind_ok, C29_det cfg hn hn'], C29_det cfg hn hn' a, C29_det cfg hn hn' b, ?_⟩,
    ?_, ?_, ?_, ?_⟩
  · rw [hx', Matrix.det_mul]
  · rw [ht, bind_ok, C29_det cfg hn hn', C29_det cfg hn hn', ht', Matrix.det_transpose]
  · rw [hi, bind_ok, C29_det cfg hn hn', hi', Matrix.det_one]
  · intro i j hij h
    rw [C29_det cfg hn hn', Matrix.det_zero_of_row_eq hij (funext h)]
  · intro i j hij h1 h2 h3
    refine ⟨_, C29_det cfg hn hn' a, ?_⟩
    rw [C29_det cfg hn hn']
    congr 1
    have : b.toMat = a.toMat.submatrix (Equiv.swap i j) id := by
      ext r k
      simp only [Matrix.submatrix_apply, id]
      by_cases e : r = i
      · subst e; rw [Equiv.swap_apply_left, h1]
      · by_cases e' : r = j
        · subst e'; rw [Equiv.swap_apply_right, h2]
        · rw [Equiv.swap_apply_of_ne_of_ne e e', h3 r k e e']
    rw [this, Matrix.det_permute, Equiv.Perm.sign_swap hij]
    simp

example : (⟨#v[1, 2, 3, 4, 5, 6, 7, 8, 10]⟩ : Mat 3 3 Int).det ⟨true, true, false⟩ = .ok (-3) := by decide

/-! ## C31 -/

theorem Mat.minorLoop_eq {K : Nat} (cfg : Cfg) (m : Mat (K + 1) (K + 1) α) (minor : Mat K K α)
    (rcut ccut : Fin (K + 1)) (hK : K + 1 < 2 ^ 64) :
    m.minorLoop cfg minor rcut ccut = .ok (ofFn fun r c => m.get (rcut.succAbove r) (ccut.succAbove c)) := by
  unfold minorLoop
  set G : Fin K → Fin K → α := fun r c => m.get (rcut.succAbove r) (ccut.succAbove c) with hG
  have hsa : ∀ (p : Fin (K + 1)) (i : Fin K), (p.succAbove i).1 = if i.1 < p.1 then i.1 else i.1 + 1 := by
    intro p i
    simp only [Fin.succAbove, Fin.lt_def, Fin.val_castSucc]
    split_ifs <;> rfl
  obtain ⟨s, h1, -, h2⟩ := loop_paint (M := K) (N := K) (α := α) (fun s : Mat K K α × Nat × Nat => s.1)
    (fun r s => s.2.1 = (if rcut.1 < r then sizeMinusOne else 0) ∧ s.2.2 = 0)
    (n := K + 1) (s := (minor, 0, 0)) (fun r R _ => (rcut.succAbove R).1 = r) G
    (body := fun r s =>
      if r = rcut.1 then pure (s.1, sizeMinusOne, s.2.2)
      else do
        let s ← loop (K + 1) (fun c s =>
          if c = ccut.1 then pure (s.1, s.2.1, sizeMinusOne)
          else do
            let x ← m.atGet cfg r c
            let mn ← s.1.atSet cfg (sizeAdd r s.2.1) (sizeAdd c s.2.2) x
            pure (mn, s.2.1, s.2.2)) s
        pure (s.1, s.2.1, 0)) ⟨by simp, rfl⟩ (by
    rintro r hr ⟨mn, ro, co⟩ ⟨hro, hco⟩
    simp only at hro hco
    subst hco
    by_cases hcut : r = rcut.1
    · refine ⟨(mn, sizeMinusOne, 0), by simp [hcut], ⟨by simp [hcut], rfl⟩, (Paint.refl mn G).congr ?_⟩
      intro R C
      simp only [iff_false, hcut]
      intro h
      exact Fin.succAbove_ne rcut R (Fin.ext h)
    · obtain ⟨s', h1, ⟨h2a, h2b⟩, h3⟩ := loop_paint (M := K) (N := K) (α := α)
        (fun s : Mat K K α × Nat × Nat => s.1)
        (fun c s => s.2.1 = ro ∧ s.2.2 = (if ccut.1 < c then sizeMinusOne else 0))
        (n := K + 1) (s := (mn, ro, 0)) (fun c R C => (rcut.succAbove R).1 = r ∧ (ccut.succAbove C).1 = c) G
        (body := fun c s =>
          if c = ccut.1 then pure (s.1, s.2.1, sizeMinusOne)
          else do
            let x ← m.atGet cfg r c
            let mn ← s.1.atSet cfg (sizeAdd r s.2.1) (sizeAdd c s.2.2) x
            pure (mn, s.2.1, s.2.2)) ⟨rfl, by simp⟩ (by
        rintro c hc ⟨mn, ro', co⟩ ⟨hro', hco⟩
        simp only at hro' hco
        subst hro'
        by_cases hcc : c = ccut.1
        · refine ⟨(mn, ro', sizeMinusOne), by simp [hcc], ⟨rfl, by simp [hcc]⟩, (Paint.refl mn G).congr ?_⟩
          intro R C
          simp only [iff_false, hcc]
          rintro ⟨-, h⟩
          exact Fin.succAbove_ne ccut C (Fin.ext h)
        · have er : sizeAdd r ro' = if r < rcut.1 then r else r - 1 := by
            rw [hro]; unfold sizeAdd sizeMinusOne; split_ifs <;> omega
          have ec : sizeAdd c co = if c < ccut.1 then c else c - 1 := by
            rw [hco]; unfold sizeAdd sizeMinusOne; split_ifs <;> omega
          have hR : sizeAdd r ro' < K := by rw [er]; have := rcut.2; split_ifs <;> omega
          have hC : sizeAdd c co < K := by rw [ec]; have := ccut.2; split_ifs <;> omega
          have eR : rcut.succAbove ⟨sizeAdd r ro', hR⟩ = ⟨r, hr⟩ := by
            apply Fin.ext; rw [hsa]; simp only [er]; split_ifs <;> omega
          have eC : ccut.succAbove ⟨sizeAdd c co, hC⟩ = ⟨c, hc⟩ := by
            apply Fin.ext; rw [hsa]; simp only [ec]; split_ifs <;> omega
          refine ⟨(mn.put ⟨_, hR⟩ ⟨_, hC⟩ (G ⟨_, hR⟩ ⟨_, hC⟩), ro', co), ?_, ⟨rfl, ?_⟩,
            (Paint.put mn _ _ G).congr ?_⟩
          · simp only [hcc, if_false, atGet_lt cfg m hr hc, bind_ok, atSet_lt cfg mn _ hR hC, hG, eR, eC]
            rfl
          · show co = _
            rw [hco]; split_ifs <;> first | rfl | omega
          · intro R C
            constructor
            · rintro ⟨h, h'⟩
              constructor
              · apply Fin.succAbove_right_injective (p := rcut); rw [eR]; exact Fin.ext h.symm
              · apply Fin.succAbove_right_injective (p := ccut); rw [eC]; exact Fin.ext h'.symm
            · rintro ⟨h, h'⟩; rw [← h, ← h', eR, eC]; exact ⟨rfl, rfl⟩)
      refine ⟨(s'.1, s'.2.1, 0), ?_, ⟨?_, rfl⟩, h3.congr ?_⟩
      · simp only [hcut, if_false]; rw [h1]; rfl
      · rw [h2a, hro]; split_ifs <;> first | rfl | omega
      · intro R C
        constructor
        · intro h; exact ⟨_, Fin.is_lt _, h, rfl⟩
        · rintro ⟨_, _, h, _⟩; exact h)
  rw [h1, bind_ok, pure_ok]
  congr 1
  exact h2.all fun R C => ⟨_, Fin.is_lt _, rfl⟩

/-- C31. The minor: `get_minor` fills its argument with the rows other than `r` and the columns other than `c`, in
order, for every size (below the range of `size_t`), row and column, in spite of the `size_t` arithmetic with `-1`. -/
theorem C31_minor {K : Nat} (cfg : Cfg) (m : Mat (K + 1) (K + 1) α) (minor : Mat K K α)
    (r c : Fin (K + 1)) (hK : K + 1 < 2 ^ 64) :
    ∃ x, m.minorLoop cfg minor r c = .ok x ∧ x.toMat = m.toMat.submatrix r.succAbove c.succAbove :=
  ⟨_, minorLoop_eq cfg m minor r c hK, by ext; simp⟩

theorem Mat.getMinor_eq [CommRing α] {K : Nat} (hK : 1 ≤ K) (hK' : K ≤ 4) (cfg : Cfg) (m : Mat (K + 1) (K + 1) α)
    (minor : Mat K K α) (r c : Fin (K + 1)) :
    m.getMinor cfg minor r c = .ok (ofFn fun i j => m.get (r.succAbove i) (c.succAbove j),
      (m.toMat.submatrix r.succAbove c.succAbove).det) := by
  unfold getMinor
  rw [minorLoop_eq cfg m minor r c (by omega), bind_ok, C29_det cfg hK hK', bind_ok, toMat_ofFn]
  rfl

/-- C31. `get_minor` returns the determinant of the minor (sizes 2 to 5, for which it compiles). -/
theorem C31_minor_value [CommRing α] {K : Nat} (hK : 1 ≤ K) (hK' : K ≤ 4) (cfg : Cfg) (m : Mat (K + 1) (K + 1) α)
    (minor : Mat K K α) (r c : Fin (K + 1)) :
    ∃ x, m.getMinor cfg minor r c = .ok (x, (m.toMat.submatrix r.succAbove c.succAbove).det) :=
  ⟨_, getMinor_eq hK hK' cfg m minor r c⟩

theorem Mat.getCofactors_eq [CommRing α] {K : Nat} (hK : 1 ≤ K) (hK' : K ≤ 4) (cfg : Cfg)
    (m cof : Mat (K + 1) (K + 1) α) : m.getCofactors cfg cof = .ok (ofFn fun r c =>
      (-1) ^ (r.1 + c.1) * (m.toMat.submatrix r.succAbove c.succAbove).det) := by
  unfold getCofactors
  rw [ctor_eq, bind_ok]
  set G : Fin (K + 1) → Fin (K + 1) → α := fun r c =>
    (-1) ^ (r.1 + c.1) * (m.toMat.submatrix r.succAbove c.succAbove).det with hG
  obtain ⟨s, h1, -, h2⟩ := loop_paint (M := K + 1) (N := K + 1) (α := α)
    (fun s : Mat (K + 1) (K + 1) α × Mat K K α => s.1) (fun _ _ => True) (n := K + 1)
    (s := (cof, ofFn fun r c => if K = K ∧ r.1 = c.1 then 1 else 0)) (fun r r' _ => r'.1 = r) G
    (body := fun r s => loop (K + 1) (fun c s => do
      let (minor, d) ← m.getMinor cfg s.2 r c
      let x := if (r + c) % 2 = 1 then -d else d
      let cof ← s.1.atSet cfg r c x
      pure (cof, minor)) s) trivial (by
    intro r hr s _
    obtain ⟨s', h1, -, h3⟩ := loop_paint (M := K + 1) (N := K + 1) (α := α)
      (fun s : Mat (K + 1) (K + 1) α × Mat K K α => s.1) (fun _ _ => True) (n := K + 1)
      (s := s) (fun c r' c' => r'.1 = r ∧ c'.1 = c) G
      (body := fun c s => do
        let (minor, d) ← m.getMinor cfg s.2 r c
        let x := if (r + c) % 2 = 1 then -d else d
        let cof ← s.1.atSet cfg r c x
        pure (cof, minor)) trivial (by
      rintro c hc ⟨mm, mn⟩ _
      refine ⟨(mm.put ⟨r, hr⟩ ⟨c, hc⟩ (G ⟨r, hr⟩ ⟨c, hc⟩), ofFn fun i j =>
        m.get ((⟨r, hr⟩ : Fin (K + 1)).succAbove i) ((⟨c, hc⟩ : Fin (K + 1)).succAbove j)), ?_, trivial,
        (Paint.put mm _ _ G).congr ?_⟩
      · simp only
        rw [getMinor_eq hK hK' cfg m mn ⟨r, hr⟩ ⟨c, hc⟩]
        simp only [bind_ok]
        rw [atSet_lt cfg mm _ hr hc, bind_ok, pure_ok]
        congr 3
        simp only [hG]
        split_ifs with h
        · rw [Odd.neg_one_pow (Nat.odd_iff.2 h), neg_one_mul]
        · rw [Even.neg_one_pow (Nat.even_iff.2 (by omega)), one_mul]
      · intro r' c'; simp [Fin.ext_iff, eq_comm])
    refine ⟨s', h1, trivial, h3.congr ?_⟩
    intro r' c'
    exact ⟨fun h => ⟨c'.1, c'.2, h, rfl⟩, fun ⟨_, _, h, _⟩ => h⟩)
  have h3 := h2.all fun r c => ⟨r.1, r.2, rfl⟩
  refine (congrArg (· >>= fun s => pure s.1) h1).trans ?_
  simp only [bind_ok, pure_ok]
  rw [h3]

/-- C31. Cofactors are the signed minors (sizes 2 to 5). -/
theorem C31_cofactors [CommRing α] {K : Nat} (hK : 1 ≤ K) (hK' : K ≤ 4) (cfg : Cfg) (m cof : Mat (K + 1) (K + 1) α) :
    ∃ x, m.getCofactors cfg cof = .ok x ∧ ∀ r c,
      x.toMat r c = (-1) ^ (r.1 + c.1) * (m.toMat.submatrix r.succAbove c.succAbove).det :=
  ⟨_, getCofactors_eq hK hK' cfg m cof, by simp⟩

/-- C31. `get_adjugate` is the adjugate: `A * adj = adj * A = det( A ) * I` (sizes 2 to 5). -/
theorem C31_adjugate [CommRing α] {K : Nat} (hK : 1 ≤ K) (hK' : K ≤ 4) (cfg : Cfg) (m adj : Mat (K + 1) (K + 1) α) :
    ∃ x, m.getAdjugate cfg adj = .ok x ∧ x.toMat = m.toMat.adjugate ∧
      m.toMat * x.toMat = m.toMat.det • (1 : Matrix _ _ α) ∧ x.toMat * m.toMat = m.toMat.det • (1 : Matrix _ _ α) := by
  have h : ∃ x, m.getAdjugate cfg adj = .ok x ∧ x.toMat = m.toMat.adjugate := by
    unfold getAdjugate
    rw [getCofactors_eq hK hK', bind_ok, transpose_eq, bind_ok, assign_eq]
    refine ⟨_, rfl, ?_⟩
    ext r c
    simp only [toMat_apply, get_ofFn, Matrix.adjugate_fin_succ_eq_det_submatrix]
  obtain ⟨x, h1, h2⟩ := h
  exact ⟨x, h1, h2, by rw [h2, Matrix.mul_adjugate], by rw [h2, Matrix.adjugate_mul]⟩

example : (⟨#v[1, 4, 7, 2, 5, 8, 3, 6, 9]⟩ : Mat 3 3 Int).minorLoop ⟨true, true, false⟩ ⟨#v[0, 0, 0, 0]⟩ 1 0 =
    .ok ⟨#v[2, 8, 3, 9]⟩ := by decide

/-! ## C30 -/

/-- The specification of a successful inversion. -/
def IsInverse {n : Nat} (a r : Matrix (Fin n) (Fin n) ℝ) : Prop := a * r = 1 ∧ r * a = 1

theorem isInverse_of_adjugate {n : Nat} {a r : Matrix (Fin n) (Fin n) ℝ} (hd : a.det ≠ 0)
    (h : ∀ i j, r i j = a.adjugate i j * (1 / a.det)) : IsInverse a r := by
  have e : r = (1 / a.det) • a.adjugate := by
    ext i j; rw [h, Matrix.smul_apply, smul_eq_mul, mul_comm]
  constructor
  · rw [e, Matrix.mul_smul, Matrix.mul_adjugate, smul_smul, one_div, inv_mul_cancel₀ hd, one_smul]
  · rw [e, Matrix.smul_mul, Matrix.adjugate_mul, smul_smul, one_div, inv_mul_cancel₀ hd, one_smul]

/-- C30 (2x2), proved part: for a positive tolerance the call returns false exactly if `|det| < tol`, leaving the target
unchanged, and otherwise returns the inverse. Missing: the boundary `|det| = tol` counts as invertible, unlike for the
other sizes, and a zero tolerance accepts singular matrices (`C30_inverse2_singular_violated`). -/
theorem C30_inverse2_partial (cfg : Cfg) (m inv : Mat 2 2 ℝ) (tol : ℝ) (ht : 0 < tol) :
    (|m.toMat.det| < tol → m.inverse2 cfg inv tol = .ok (false, inv)) ∧
    (tol ≤ |m.toMat.det| → ∃ r, m.inverse2 cfg inv tol = .ok (true, r) ∧ IsInverse m.toMat r.toMat) := by
  unfold inverse2
  rw [det2_eq, bind_ok]
  constructor
  · intro h; simp [h]
  · intro h
    obtain ⟨x, h1, h2, -, -⟩ := C31_adjugate (K := 1) le_rfl (by omega) cfg m inv
    rw [if_neg (by simpa using h), h1]
    simp only [bind_ok, mulAssignS_eq, pure_ok]
    refine ⟨_, rfl, isInverse_of_adjugate ?_ ?_⟩
    · intro h0; rw [h0, abs_zero] at h; linarith
    · intro i j
      simp only [toMat_apply, get_ofFn]
      rw [← toMat_apply, h2]

/-- C30 fails for 2x2 with tolerance 0: a singular matrix is reported as inverted (here for *every* singular matrix). -/
theorem C30_inverse2_singular_violated (cfg : Cfg) (m inv : Mat 2 2 ℝ) (h : m.toMat.det = 0) :
    ∃ r, m.inverse2 cfg inv 0 = .ok (true, r) ∧ ¬ IsInverse m.toMat r.toMat := by
  obtain ⟨x, h1, h2, -, -⟩ := C31_adjugate (K := 1) le_rfl (by omega) cfg m inv
  unfold inverse2
  rw [det2_eq, bind_ok, if_neg (by simp [h]), h1]
  simp only [bind_ok, mulAssignS_eq, pure_ok]
  refine ⟨_, rfl, ?_⟩
  rintro ⟨h3, -⟩
  have := congrArg Matrix.det h3
  rw [Matrix.det_mul, h, zero_mul, Matrix.det_one] at this
  exact zero_ne_one this

theorem Mat.get3 (m : Mat 3 3 α) :
    m.get 0 0 = m.array[0] ∧ m.get 1 0 = m.array[1] ∧ m.get 2 0 = m.array[2] ∧
    m.get 0 1 = m.array[3] ∧ m.get 1 1 = m.array[4] ∧ m.get 2 1 = m.array[5] ∧
    m.get 0 2 = m.array[6] ∧ m.get 1 2 = m.array[7] ∧ m.get 2 2 = m.array[8] :=
  ⟨rfl, rfl, rfl, rfl, rfl, rfl, rfl, rfl, rfl⟩

theorem adj3 (A : Matrix (Fin 3) (Fin 3) ℝ) : A.adjugate =
    !![A 1 1 * A 2 2 - A 1 2 * A 2 1, A 0 2 * A 2 1 - A 0 1 * A 2 2, A 0 1 * A 1 2 - A 0 2 * A 1 1;
       A 1 2 * A 2 0 - A 1 0 * A 2 2, A 0 0 * A 2 2 - A 0 2 * A 2 0, A 0 2 * A 1 0 - A 0 0 * A 1 2;
       A 1 0 * A 2 1 - A 1 1 * A 2 0, A 0 1 * A 2 0 - A 0 0 * A 2 1, A 0 0 * A 1 1 - A 0 1 * A 1 0] := by
  rw [Matrix.adjugate_fin_three]
  ext i j
  fin_cases i <;> fin_cases j <;> simp <;> ring

/-- Multiplying the nine cells one after another. -/
theorem Mat.scale9 (X : Mat 3 3 ℝ) (d : ℝ) :
    (let Y := X.put 0 0 (X.get 0 0 * d)
     let Y := Y.put 0 1 (Y.get 0 1 * d)
     let Y := Y.put 0 2 (Y.get 0 2 * d)
     let Y := Y.put 1 0 (Y.get 1 0 * d)
     let Y := Y.put 1 1 (Y.get 1 1 * d)
     let Y := Y.put 1 2 (Y.get 1 2 * d)
     let Y := Y.put 2 0 (Y.get 2 0 * d)
     let Y := Y.put 2 1 (Y.get 2 1 * d)
     Y.put 2 2 (Y.get 2 2 * d)) = ofFn fun r c => X.get r c * d := by
  have e : ∀ (Z : Mat 3 3 ℝ) (r c r' c' : Fin 3) (x : ℝ),
      (Z.put r c x).get r' c' = if r' = r ∧ c' = c then x else Z.get r' c' := by
    intro Z r c r' c' x; rw [get_put]; simp [eq_comm]
  ext r c
  rw [get_ofFn]
  fin_cases r <;> fin_cases c <;> simp [e]

/-- The 3x3 cofactor table computed by `compute_inverse`. -/
theorem Mat.inverse3_eq (cfg : Cfg) (m inv : Mat 3 3 ℝ) (tol : ℝ) :
    m.inverse3 cfg inv tol = .ok (if |m.toMat.det| ≤ tol then (false, ofFn fun r c => m.toMat.adjugate r c)
      else (true, ofFn fun r c => m.toMat.adjugate r c * (1 / m.toMat.det))) := by
  have h0 : 0 < 3 := by omega
  have h1 : 1 < 3 := by omega
  have h2 : 2 < 3 := by omega
  unfold inverse3
  simp only [atGet_lt cfg, atSet_lt cfg, h0, h1, h2, bind_ok, pure_ok, fabs_real, Fin.mk_zero, Fin.mk_one,
    Fin.reduceFinMk, Fin.zero_eta]
  have hadj := adj3 m.toMat
  have hdet : m.toMat.det = m.toMat 0 0 * m.toMat.adjugate 0 0 + m.toMat 0 1 * m.toMat.adjugate 1 0 +
      m.toMat 0 2 * m.toMat.adjugate 2 0 := by
    have := congrFun (congrFun (Matrix.mul_adjugate m.toMat) 0) 0
    simp only [Matrix.mul_apply, Fin.sum_univ_three, Matrix.smul_apply, Matrix.one_apply_eq, smul_eq_mul, mul_one] at this
    exact this.symm
  set X : Mat 3 3 ℝ := ofFn fun r c => m.toMat.adjugate r c with hX
  have hXe : ∀ (i : Mat 3 3 ℝ), ((((((((i.put 0 0 (m.get 1 1 * m.get 2 2 - m.get 1 2 * m.get 2 1)).put 0 1
        (m.get 0 2 * m.get 2 1 - m.get 0 1 * m.get 2 2)).put 0 2 (m.get 0 1 * m.get 1 2 - m.get 0 2 * m.get 1 1)).put 1 0
        (m.get 1 2 * m.get 2 0 - m.get 1 0 * m.get 2 2)).put 1 1 (m.get 0 0 * m.get 2 2 - m.get 0 2 * m.get 2 0)).put 1 2
        (m.get 0 2 * m.get 1 0 - m.get 0 0 * m.get 1 2)).put 2 0 (m.get 1 0 * m.get 2 1 - m.get 1 1 * m.get 2 0)).put 2 1
        (m.get 0 1 * m.get 2 0 - m.get 0 0 * m.get 2 1)).put 2 2 (m.get 0 0 * m.get 1 1 - m.get 0 1 * m.get 1 0) = X := by
    intro i
    ext r c
    rw [hX, get_ofFn, hadj]
    fin_cases r <;> fin_cases c <;> simp [get_put]
  rw [hXe]
  have hd : m.get 0 0 * X.get 0 0 + m.get 0 1 * X.get 1 0 + m.get 0 2 * X.get 2 0 = m.toMat.det := by
    rw [hdet, hX]; simp only [get_ofFn, toMat_apply]
  rw [hd]
  split_ifs with ht
  · rfl
  · rw [show (ofFn fun r c => m.toMat.adjugate r c * (1 / m.toMat.det) : Mat 3 3 ℝ) =
      ofFn fun r c => X.get r c * (1 / m.toMat.det) by rw [hX]; simp only [get_ofFn]]
    exact congrArg (fun y => Except.ok (true, y)) (scale9 X _)

/-- C30 (3x3). For a nonnegative tolerance: true is returned exactly if `|det| > tol`, and then the result is the
inverse; otherwise the target has been overwritten (by the adjugate). -/
theorem C30_inverse3 (cfg : Cfg) (m inv : Mat 3 3 ℝ) (tol : ℝ) (ht : 0 ≤ tol) :
    (tol < |m.toMat.det| → ∃ r, m.inverse3 cfg inv tol = .ok (true, r) ∧ IsInverse m.toMat r.toMat) ∧
    (|m.toMat.det| ≤ tol → ∃ r, m.inverse3 cfg inv tol = .ok (false, r) ∧ r.toMat = m.toMat.adjugate) := by
  rw [inverse3_eq]
  constructor
  · intro h
    rw [if_neg (not_le.2 h)]
    refine ⟨_, rfl, isInverse_of_adjugate ?_ (by simp)⟩
    intro h0; rw [h0, abs_zero] at h; linarith
  · intro h
    rw [if_pos h]
    exact ⟨_, rfl, by ext; simp⟩

theorem adj4_entry (A : Matrix (Fin 4) (Fin 4) ℝ) (i j : Fin 4) :
    A.adjugate i j = (-1) ^ (j.1 + i.1) * (A.submatrix j.succAbove i.succAbove).det :=
  Matrix.adjugate_fin_succ_eq_det_submatrix A i j

theorem Mat.comatrix4_eq (m inv : Mat 4 4 ℝ) :
    (⟨comatrix4 m.array inv.array⟩ : Mat 4 4 ℝ) = ofFn fun r c => m.toMat.adjugate r c := by
  have e00 : (0 : Fin 4).succAbove 0 = 1 := rfl
  have e01 : (0 : Fin 4).succAbove 1 = 2 := rfl
  have e02 : (0 : Fin 4).succAbove 2 = 3 := rfl
  have e10 : (1 : Fin 4).succAbove 0 = 0 := rfl
  have e11 : (1 : Fin 4).succAbove 1 = 2 := rfl
  have e12 : (1 : Fin 4).succAbove 2 = 3 := rfl
  have e20 : (2 : Fin 4).succAbove 0 = 0 := rfl
  have e21 : (2 : Fin 4).succAbove 1 = 1 := rfl
  have e22 : (2 : Fin 4).succAbove 2 = 3 := rfl
  have e30 : (3 : Fin 4).succAbove 0 = 0 := rfl
  have e31 : (3 : Fin 4).succAbove 1 = 1 := rfl
  have e32 : (3 : Fin 4).succAbove 2 = 2 := rfl
  have a0 : ∀ c : Fin 4, ∀ r : Fin 4, m.get r c = m.array[c.1 * 4 + r.1]'(idx_lt r.2 c.2) := fun _ _ => rfl
  ext r c
  rw [get_ofFn, adj4_entry, Matrix.det_fin_three]
  simp only [Matrix.submatrix_apply, toMat_apply]
  fin_cases r <;> fin_cases c <;>
    simp [e00, e01, e02, e10, e11, e12, e20, e21, e22, e30, e31, e32, Mat.get, comatrix4, Vector.getElem_set] <;> ring

theorem Mat.inverse4_eq (m inv : Mat 4 4 ℝ) (tol : ℝ) :
    m.inverse4 inv tol = .ok (if |m.toMat.det| ≤ tol then (false, ofFn fun r c => m.toMat.adjugate r c)
      else (true, ofFn fun r c => m.toMat.adjugate r c * (1 / m.toMat.det))) := by
  unfold inverse4
  set X : Mat 4 4 ℝ := ofFn fun r c => m.toMat.adjugate r c with hX
  have hc : comatrix4 m.array inv.array = X.array := congrArg Mat.array (comatrix4_eq m inv)
  simp only [hc, fabs_real]
  have hd : m.array[0] * X.array[0] + m.array[4] * X.array[1] + m.array[8] * X.array[2] + m.array[12] * X.array[3] =
      m.toMat.det := by
    have := congrFun (congrFun (Matrix.mul_adjugate m.toMat) 0) 0
    simp only [Matrix.mul_apply, Fin.sum_univ_four, Matrix.smul_apply, Matrix.one_apply_eq, smul_eq_mul, mul_one] at this
    rw [← this]
    have g : ∀ i j, m.toMat.adjugate i j = X.get i j := by intro i j; simp [hX]
    rw [g, g, g, g]
    rfl
  rw [hd]
  split_ifs with ht
  · rfl
  · have hl : loop 16 (fun i inv => do inv.rawSet i ((← inv.rawGet i) * (1 / m.toMat.det))) X =
        .ok (ofFn fun r c => X.get r c * (1 / m.toMat.det)) :=
      flat_cell (M := 4) (N := 4) (fun _ x => x * (1 / m.toMat.det))
        (by intro i hi m; simp [Mat.rawGet_lt, Mat.rawSet_lt, hi])
    rw [hl]
    simp only [bind_ok, pure_ok, hX, get_ofFn]

/-- C30 (4x4). As for 3x3. -/
theorem C30_inverse4 (m inv : Mat 4 4 ℝ) (tol : ℝ) (ht : 0 ≤ tol) :
    (tol < |m.toMat.det| → ∃ r, m.inverse4 inv tol = .ok (true, r) ∧ IsInverse m.toMat r.toMat) ∧
    (|m.toMat.det| ≤ tol → ∃ r, m.inverse4 inv tol = .ok (false, r) ∧ r.toMat = m.toMat.adjugate) := by
  rw [inverse4_eq]
  constructor
  · intro h
    rw [if_neg (not_le.2 h)]
    refine ⟨_, rfl, isInverse_of_adjugate ?_ (by simp)⟩
    intro h0; rw [h0, abs_zero] at h; linarith
  · intro h
    rw [if_pos h]
    exact ⟨_, rfl, by ext; simp⟩

/-- Non-vacuity: the identity is inverted with any tolerance below 1. -/
example (cfg : Cfg) : ∃ m r : Mat 3 3 ℝ, m.inverse3 cfg m (1 / 2) = .ok (true, r) ∧ IsInverse m.toMat r.toMat := by
  obtain ⟨i, -, hi'⟩ := (C21_construction (M := 3) (N := 3) (α := ℝ) cfg).2.2.2.2.2.1
  obtain ⟨r, h⟩ := (C30_inverse3 cfg i i (1 / 2) (by norm_num)).1 (by rw [hi', Matrix.det_one, abs_one]; norm_num)
  exact ⟨i, r, h⟩

/-! ## C50 -/

/-- The leading principal minors of a real matrix. -/
def leadingMinor {n : Nat} (A : Matrix (Fin n) (Fin n) ℝ) (k : Nat) (hk : k ≤ n) : ℝ :=
  (A.submatrix (Fin.castLE hk) (Fin.castLE hk)).det

/-- C50, proved part: the result is true iff all leading principal minors are `≥ limit`. Missing: with the default limit
`-1e12` (and with every nonpositive limit) this is not positive definiteness, see `C50_violated`. -/
theorem C50_positive_definite_partial (cfg : Cfg) {n : Nat} (h1 : 1 ≤ n) (h3 : n ≤ 3) (m : Mat n n ℝ) (limit : ℝ) :
    ∃ b, m.isPositiveDefinite cfg limit = .ok b ∧
      (b = true ↔ ∀ k (hk : k ≤ n), 1 ≤ k → limit ≤ leadingMinor m.toMat k hk) := by
  have m1 : ∀ h, leadingMinor m.toMat 1 h = m.get ⟨0, by omega⟩ ⟨0, by omega⟩ := by
    intro h; simp only [leadingMinor, Matrix.det_unique]; rfl
  unfold isPositiveDefinite
  rw [atGet_lt cfg m (by omega) (by omega), bind_ok]
  by_cases c1 : m.get ⟨0, by omega⟩ ⟨0, by omega⟩ < limit
  · rw [if_pos c1]
    refine ⟨false, rfl, ?_⟩
    simp only [Bool.false_eq_true, false_iff]
    intro h
    have := h 1 h1 le_rfl
    rw [m1] at this; linarith
  rw [if_neg c1]
  push Not at c1
  match n, h1, h3, m, c1, m1 with
  | 1, h1, h3, m, c1, m1 =>
    refine ⟨true, by simp, ?_⟩
    simp only [true_iff]
    intro k hk hk1
    obtain rfl : k = 1 := by omega
    rw [m1]; exact c1
  | 2, h1, h3, m, c1, m1 =>
    have m2 : ∀ h, leadingMinor m.toMat 2 h = m.toMat.det := by
      intro h; rfl
    have e : (ofFn fun r c => m.get ⟨0 + r, by omega⟩ ⟨0 + c, by omega⟩ : Mat 2 2 ℝ) = m := by
      ext r c; simp
    refine ⟨decide (¬ m.toMat.det < limit), ?_, ?_⟩
    · simp only [ctor_eq, bind_ok, getSubMatrix_eq cfg m _ 0 0 (show 2 + 0 ≤ 2 by omega) (show 2 + 0 ≤ 2 by omega),
        e, det2_eq, show 1 < 2 from by omega, if_true, pure_ok]
      by_cases hh : m.toMat.det < limit <;> simp [hh]
    · simp only [decide_eq_true_eq, not_lt]
      constructor
      · intro h k hk hk1
        rcases (show k = 1 ∨ k = 2 by omega) with rfl | rfl
        · rw [m1]; exact c1
        · rw [m2]; exact h
      · intro h; exact h 2 le_rfl (by omega)
  | 3, h1, h3, m, c1, m1 =>
    have m3 : ∀ h, leadingMinor m.toMat 3 h = m.toMat.det := by
      intro h; rfl
    have e2 : ∀ h, leadingMinor m.toMat 2 h =
        (ofFn fun r c => m.get ⟨0 + r, by omega⟩ ⟨0 + c, by omega⟩ : Mat 2 2 ℝ).toMat.det := by
      intro h; rw [leadingMinor]; congr 1; ext r c
      simp only [Matrix.submatrix_apply, toMat_apply, get_ofFn]
      congr 1 <;> apply Fin.ext <;> simp
    have e3 : (ofFn fun r c => m.get ⟨0 + r, by omega⟩ ⟨0 + c, by omega⟩ : Mat 3 3 ℝ) = m := by
      ext r c; simp
    set d2 := leadingMinor m.toMat 2 (by omega) with hd2
    refine ⟨decide (¬ d2 < limit) && decide (¬ m.toMat.det < limit), ?_, ?_⟩
    · simp only [ctor_eq, bind_ok, getSubMatrix_eq cfg m (ofFn _ : Mat 2 2 ℝ) 0 0 (show 2 + 0 ≤ 3 by omega)
        (show 2 + 0 ≤ 3 by omega), getSubMatrix_eq cfg m (ofFn _ : Mat 3 3 ℝ) 0 0 (show 3 + 0 ≤ 3 by omega)
        (show 3 + 0 ≤ 3 by omega), e3, det2_eq, det3_eq, ← e2 (by omega), show 1 < 3 from by omega,
        show 2 < 3 from by omega, if_true, pure_ok, ← hd2]
      by_cases hh : d2 < limit <;> simp [hh]
    · simp only [Bool.and_eq_true, decide_eq_true_eq, not_lt]
      constructor
      · intro h k hk hk1
        rcases (show k = 1 ∨ k = 2 ∨ k = 3 by omega) with rfl | rfl | rfl
        · rw [m1]; exact c1
        · exact h.1
        · rw [m3]; exact h.2
      · intro h; exact ⟨h 2 (by omega) (by omega), h 3 le_rfl (by omega)⟩

/-- C50 fails with the default limit `-1e12`: the negative definite matrix `-1` is accepted. -/
theorem C50_violated (cfg : Cfg) : (⟨#v[-1]⟩ : Mat 1 1 ℝ).isPositiveDefinite cfg (-(10 ^ 12)) = .ok true := by
  obtain ⟨b, h1, h2⟩ := C50_positive_definite_partial cfg (n := 1) le_rfl (by omega) (⟨#v[-1]⟩ : Mat 1 1 ℝ) (-(10 ^ 12))
  rw [h1, h2.2]
  intro k hk hk1
  obtain rfl : k = 1 := by omega
  have : leadingMinor (⟨#v[-1]⟩ : Mat 1 1 ℝ).toMat 1 hk = -1 := by
    simp only [leadingMinor, Matrix.det_unique]; rfl
  rw [this]; norm_num

/-- C50. With limit `0` the test is "all leading principal minors nonnegative", which also accepts the zero matrix. -/
theorem C50_limit_zero_accepts_zero (cfg : Cfg) : (⟨#v[0]⟩ : Mat 1 1 ℝ).isPositiveDefinite cfg 0 = .ok true := by
  obtain ⟨b, h1, h2⟩ := C50_positive_definite_partial cfg (n := 1) le_rfl (by omega) (⟨#v[0]⟩ : Mat 1 1 ℝ) 0
  rw [h1, h2.2]
  intro k hk hk1
  obtain rfl : k = 1 := by omega
  have : leadingMinor (⟨#v[0]⟩ : Mat 1 1 ℝ).toMat 1 hk = 0 := by
    simp only [leadingMinor, Matrix.det_unique]; rfl
  rw [this]

end Vmml
