import Verif.Props.FloatLaws
import Verif.Model.Util
import Verif.Props.FloatQuantize

/-!
# C163: `manhattan( vector )` in IEEE arithmetic
-/

namespace Vmml
open Format
variable {F : Format} {M : Nat}

private noncomputable def term (v : Vec M (Fp F)) (i : ℕ) : ℝ := if h : i < M then |v[i].val| else 0

private theorem total (v : Vec M (Fp F)) : ∑ i ∈ Finset.range M, term v i = ∑ i : Fin M, |v[i].val| := by
  rw [Finset.sum_range]
  exact Finset.sum_congr rfl fun i _ => by simp [term]

private theorem fabs_finite {a : Fp F} : (CMath.fabs a : Fp F).Finite ↔ a.Finite := by cases a <;> exact Iff.rfl

private theorem fabs_val (a : Fp F) : (CMath.fabs a : Fp F).val = |a.val| := by
  cases a with
  | nan => show (0 : ℝ) = |0|; simp
  | inf s => show (0 : ℝ) = |0|; simp
  | fin s m h =>
    show m = |if s then -m else m|
    cases s <;> simp [abs_of_nonneg h.1]

private def Inv (v : Vec M (Fp F)) (k : ℕ) (s : Fp F) : Prop :=
  (s.Finite → (∀ i (h : i < M), i < k → v[i].Finite) ∧ 0 ≤ s.val ∧ (∀ i, i < k → term v i ≤ s.val) ∧ |s.val - ∑ i ∈ Finset.range k, term v i| ≤ ((1 + F.u) ^ k - 1) * ∑ i ∈ Finset.range k, term v i) ∧
  ((∀ i (h : i < M), i < k → v[i].Finite) → (1 + F.u) ^ k * ∑ i ∈ Finset.range k, term v i ≤ F.maxFinite → s.Finite)

private theorem bound {u S E a : ℝ} {k : ℕ} (hu : 0 < u) (ha : 0 ≤ a) (h : |S - E| ≤ ((1 + u) ^ k - 1) * E) {r : ℝ} (hr : |r - (S + a)| ≤ u * (S + a)) :
    |r - (E + a)| ≤ ((1 + u) ^ (k + 1) - 1) * (E + a) := by
  have h1 : (1 : ℝ) ≤ (1 + u) ^ k := one_le_pow₀ (by linarith)
  have h2 : S ≤ (1 + u) ^ k * E := by have := (abs_le.1 h).2; linarith
  have h3 : |r - (E + a)| ≤ |r - (S + a)| + |S - E| := by
    have e : r - (E + a) = (r - (S + a)) + (S - E) := by ring
    rw [e]; exact abs_add_le _ _
  have h4 : u * (S + a) ≤ u * ((1 + u) ^ k * E + a) := mul_le_mul_of_nonneg_left (by linarith) hu.le
  have h5 : 0 ≤ ((1 + u) ^ k - 1) * ((1 + u) * a) := mul_nonneg (by linarith) (mul_nonneg (by linarith) ha)
  have e : ((1 + u) ^ (k + 1) - 1) * (E + a) = u * ((1 + u) ^ k * E + a) + ((1 + u) ^ k - 1) * E + ((1 + u) ^ k - 1) * ((1 + u) * a) := by rw [pow_succ]; ring
  linarith

private theorem run (h0 : 0 < F.emax) (v : Vec M (Fp F)) : ∃ r, Util.manhattan v = .ok r ∧ Inv v M r := by
  unfold Util.manhattan
  refine loop_ok (Inv v) ?_ ?_
  · refine ⟨fun _ => ⟨fun i _ h => absurd h (by omega), ?_, fun i h => absurd h (by omega), ?_⟩, fun _ _ => Fp.finite_zero⟩
    · rw [Fp.val_zero]
    · simp [Fp.val_zero]
  · intro k hk s hs
    refine ⟨s + CMath.fabs v[k], by simp [hk], ?_⟩
    have ht : ∀ j, 0 ≤ term v j := by intro j; unfold term; split_ifs; exacts [abs_nonneg _, le_rfl]
    have hE : 0 ≤ ∑ i ∈ Finset.range k, term v i := Finset.sum_nonneg fun i _ => ht i
    have hu := F.u_pos
    have hk' : term v k = |v[k].val| := by simp [term, hk]
    unfold Inv
    rw [Finset.sum_range_succ]
    have hpow : (1 : ℝ) ≤ (1 + F.u) ^ k := one_le_pow₀ (by linarith)
    constructor
    · intro hf
      obtain ⟨f1, f2, f3⟩ := Fp.add_finite hf
      obtain ⟨i1, i2, i4, i3⟩ := hs.1 f1
      have f2' := fabs_finite.1 f2
      rw [fabs_val, ← hk'] at f3
      have hg : F.Grid (s.val + term v k) := by
        rw [hk', ← fabs_val]
        exact (Fp.rep_val f1).grid.add (Fp.rep_val f2).grid
      have hsum : 0 ≤ s.val + term v k := add_nonneg i2 (ht k)
      have he := hg.rnd_err
      rw [abs_of_nonneg hsum] at he
      refine ⟨fun i hi hik => ?_, ?_, fun i hik => ?_, ?_⟩
      · rcases Nat.lt_succ_iff_lt_or_eq.1 hik with h | rfl
        · exact i1 i hi h
        · exact f2'
      · rw [f3]; exact rnd_nonneg hsum
      · rw [f3]
        rcases Nat.lt_succ_iff_lt_or_eq.1 hik with h | rfl
        · exact (i4 i h).trans (rep_le_rnd (Fp.rep_val f1) (by linarith [ht k]))
        · have hr : F.Rep (term v i) := by rw [hk', ← fabs_val]; exact Fp.rep_val f2
          exact rep_le_rnd hr (by linarith)
      · rw [f3]; exact bound hu (ht k) i3 he
    · intro hv hb
      have h1 : (1 + F.u) ^ k * ∑ i ∈ Finset.range k, term v i + (1 + F.u) ^ k * term v k ≤ F.maxFinite := by
        rw [pow_succ] at hb
        have : (1 + F.u) ^ k * (∑ i ∈ Finset.range k, term v i + term v k) ≤ (1 + F.u) ^ k * (1 + F.u) * (∑ i ∈ Finset.range k, term v i + term v k) :=
          mul_le_mul_of_nonneg_right (by nlinarith) (add_nonneg hE (ht k))
        linarith
      have h2 : term v k ≤ (1 + F.u) ^ k * term v k := le_mul_of_one_le_left (ht k) hpow
      have hs' := hs.2 (fun i hi hik => hv i hi (by omega)) (by linarith [ht k])
      obtain ⟨i1, i2, i4, i3⟩ := hs.1 hs'
      have h3 := (abs_le.1 i3).2
      refine (Fp.add_fin h0 hs' (fabs_finite.2 (hv k hk (by omega))) ?_).1
      rw [fabs_val, ← hk', abs_of_nonneg (add_nonneg i2 (ht k))]
      linarith

/-- **C163** `manhattan( v )`: whenever the result is a number, all components were finite and the result is the sum of the magnitudes up to the relative error `( 1 + u )^M - 1`, without any error
from underflow; and it is a number whenever the sum is below the largest number by that factor. -/
theorem C163_error (h0 : 0 < F.emax) (v : Vec M (Fp F)) :
    ∃ r, Util.manhattan v = .ok r ∧
      (r.Finite → (∀ i : Fin M, v[i].Finite) ∧ |r.val - (∑ i : Fin M, |v[i].val|)| ≤ ((1 + F.u) ^ M - 1) * ∑ i : Fin M, |v[i].val|) ∧
      ((∀ i : Fin M, v[i].Finite) → (1 + F.u) ^ M * ∑ i : Fin M, |v[i].val| ≤ F.maxFinite → r.Finite) := by
  obtain ⟨r, h1, h2, h3⟩ := run h0 v
  rw [total] at h2 h3
  refine ⟨r, h1, fun hf => ?_, fun hv hb => h3 (fun i hi _ => hv ⟨i, hi⟩) hb⟩
  obtain ⟨a, -, -, c⟩ := h2 hf
  exact ⟨fun i => a i.1 i.2 i.2, c⟩

/-- **C163** It is at least the magnitude of every component, exactly, so never negative, and zero only for the zero vector: no small component is lost. -/
theorem C163_zero (h0 : 0 < F.emax) (v : Vec M (Fp F)) :
    ∃ r, Util.manhattan v = .ok r ∧ (r.Finite → 0 ≤ r.val ∧ (∀ i : Fin M, |v[i].val| ≤ r.val) ∧ (r.val = 0 ↔ ∀ i : Fin M, v[i].val = 0)) := by
  obtain ⟨r, h1, h2, -⟩ := run h0 v
  refine ⟨r, h1, fun hf => ?_⟩
  obtain ⟨-, a, b, c⟩ := h2 hf
  have b' : ∀ i : Fin M, |v[i].val| ≤ r.val := fun i => by simpa [term] using b i.1 i.2
  refine ⟨a, b', fun h i => ?_, fun h => ?_⟩
  · have := b' i
    rw [h] at this
    exact abs_eq_zero.1 (le_antisymm this (abs_nonneg _))
  · rw [total, Finset.sum_eq_zero fun i _ => by rw [h i, abs_zero]] at c
    rw [mul_zero, sub_zero] at c
    exact abs_eq_zero.1 (le_antisymm c (abs_nonneg _))

/-- **C163** It does not depend on the signs of the components, exactly. -/
theorem C163_signs (v : Vec M (Fp F)) (σ : Fin M → Bool) : Util.manhattan (Vector.ofFn fun i : Fin M => if σ i then -v[i] else v[i]) = Util.manhattan v := by
  unfold Util.manhattan
  apply loop_congr
  intro i hi s
  have : (CMath.fabs (if σ ⟨i, hi⟩ then -v[i] else v[i]) : Fp F) = CMath.fabs v[i] := by
    split_ifs
    · cases v[i] <;> rfl
    · rfl
  simp [hi, this]

/-- The hypotheses are met by `( 1, -2, 3 )` in `float`. -/
example : ∃ v : Vec 3 (Fp single), v[0].val = 1 ∧ v[1].val = -2 ∧ v[2].val = 3 ∧ ∃ r, Util.manhattan v = .ok r ∧ r.Finite ∧ 3 ≤ r.val := by
  have mk : ∀ k : Int, |k| ≤ 4 → ∃ x : Fp single, x.Finite ∧ x.val = k := by
    intro k hk
    obtain ⟨h1, h2⟩ := Quant.ofReal_int (F := single) (by decide) (k := k) (hk.trans (by decide))
    exact ⟨_, h1, h2⟩
  obtain ⟨x1, f1, v1⟩ := mk 1 (by decide)
  obtain ⟨x2, f2, v2⟩ := mk (-2) (by decide)
  obtain ⟨x3, f3, v3⟩ := mk 3 (by decide)
  push_cast at v1 v2 v3
  refine ⟨#v[x1, x2, x3], v1, v2, v3, ?_⟩
  obtain ⟨r, h1, -, h3⟩ := C163_error (by decide) (#v[x1, x2, x3] : Vec 3 (Fp single))
  obtain ⟨r', k1, k2⟩ := C163_zero (by decide) (#v[x1, x2, x3] : Vec 3 (Fp single))
  rw [h1] at k1
  cases k1
  have hf : r.Finite := by
    refine h3 ?_ ?_
    · intro i
      match i with
      | 0 => exact f1
      | 1 => exact f2
      | 2 => exact f3
    · have e : ∑ i : Fin 3, |(#v[x1, x2, x3] : Vec 3 (Fp single))[i].val| = 6 := by
        rw [Fin.sum_univ_three]
        show |x1.val| + |x2.val| + |x3.val| = 6
        rw [v1, v2, v3]; norm_num
      have hu : single.u ≤ 1 := u_le_one
      have hu0 := single.u_pos
      have h8 : (1 + single.u) ^ 3 ≤ 2 ^ 3 := pow_le_pow_left₀ (by linarith) (by linarith) 3
      have hm : (2 : ℝ) ^ (6 : Int) ≤ single.maxFinite := le_trans (zpow_le_zpow_right₀ (by norm_num) (by decide)) (pow_emax_le (F := single))
      rw [e]
      norm_num at hm h8
      linarith
  refine ⟨r, h1, hf, ?_⟩
  have := (k2 hf).2.1 2
  have e : |(#v[x1, x2, x3] : Vec 3 (Fp single))[(2 : Fin 3)].val| = 3 := by show |x3.val| = 3; rw [v3]; norm_num
  linarith
end Vmml
