import Verif.Props.FloatRay
import Verif.Props.FloatQuat
import Verif.Props.FloatOrder
import Verif.Props.MatrixStats
import Verif.Model.FilterFloat

/-!
# C128: sums and the norm of a matrix in IEEE 754 arithmetic
-/

namespace Vmml
open Format
variable {F D : Format} {M N : Nat}

/-- The sum of the magnitudes of the cells. -/
noncomputable def Spec.magSum (m : Mat M N (Fp F)) : ℝ := ∑ r, ∑ c, |(m.get r c).val|
/-- The sum of the squares of the cells. -/
noncomputable def Spec.sqSum (m : Mat M N (Fp F)) : ℝ := ∑ r, ∑ c, (m.get r c).val ^ 2
/-- The largest relative error of the norm: `n` roundings to `double` and one to the element type. -/
noncomputable def Spec.normRel (F D : Format) (n : Nat) : ℝ := (1 + D.u) ^ n * (1 + F.u) - 1

/-! ## A sum -/

/-- A sum of representable numbers: no underflow, and the first addition is exact. -/
theorem fp_sum (h0 : 0 < F.emax) {body : Nat → Fp F → Res (Fp F)} (x : Fin N → Fp F)
    (h : ∀ i (hi : i < N) s, body i s = .ok (s + x ⟨i, hi⟩)) :
    ∃ d, loop N body 0 = .ok d ∧
      (d.Finite → (∀ i, (x i).Finite) ∧ |d.val - ∑ i, (x i).val| ≤ ((1 + F.u) ^ (N - 1) - 1) * ∑ i, |(x i).val|) ∧
      ((∀ i, (x i).Finite) → (1 + F.u) ^ (N - 1) * ∑ i, |(x i).val| ≤ F.maxFinite → d.Finite) := by
  have hu := F.u_pos
  let e : Nat → ℝ := fun k => if hk : k < N then (x ⟨k, hk⟩).val else 0
  have hsum : ∀ f : ℝ → ℝ, ∑ i ∈ Finset.range N, f (e i) = ∑ i, f (x i).val := by
    intro f
    rw [Finset.sum_range]
    exact Finset.sum_congr rfl fun i _ => by simp [e]
  have key : ∀ k, k ≤ N → ∃ d, loop k body 0 = .ok d ∧ (k = 0 → d.val = 0) ∧
      (d.Finite → (∀ i (hi : i < N), i < k → (x ⟨i, hi⟩).Finite) ∧
        |d.val - ∑ i ∈ Finset.range k, e i| ≤ ((1 + F.u) ^ (k - 1) - 1) * ∑ i ∈ Finset.range k, |e i|) ∧
      ((∀ i, (x i).Finite) → (1 + F.u) ^ (N - 1) * ∑ i ∈ Finset.range N, |e i| ≤ F.maxFinite → d.Finite) := by
    intro k
    induction k with
    | zero => intro _; exact ⟨0, by simp, fun _ => Fp.val_zero, fun _ => by simp, fun _ _ => trivial⟩
    | succ k ih =>
      intro hk
      have hk' : k < N := hk
      obtain ⟨s, hs1, hsz, hs2, hs3⟩ := ih hk'.le
      have hek : e k = (x ⟨k, hk'⟩).val := by simp [e, hk']
      set A := ∑ i ∈ Finset.range k, e i with hA
      set S := ∑ i ∈ Finset.range k, |e i| with hS
      have hS0 : 0 ≤ S := Finset.sum_nonneg fun i _ => abs_nonneg _
      have hAS : |A| ≤ S := Finset.abs_sum_le_sum_abs _ _
      have hp1 : (1 : ℝ) ≤ (1 + F.u) ^ (k - 1) := one_le_pow₀ (by linarith)
      have ha := abs_nonneg (e k)
      -- the sum before rounding
      have hw : s.Finite → |s.val + e k| ≤ (1 + F.u) ^ (k - 1) * (S + |e k|) := by
        intro hf
        have h1 := (hs2 hf).2
        have hsv : |s.val| ≤ (1 + F.u) ^ (k - 1) * S := by
          calc |s.val| = |(s.val - A) + A| := by congr 1; ring
            _ ≤ |s.val - A| + |A| := abs_add_le _ _
            _ ≤ _ := by linarith
        have : |e k| ≤ (1 + F.u) ^ (k - 1) * |e k| := le_mul_of_one_le_left ha hp1
        calc |s.val + e k| ≤ |s.val| + |e k| := abs_add_le _ _
          _ ≤ _ := by rw [mul_add]; linarith
      refine ⟨s + x ⟨k, hk'⟩, by rw [loop_succ, hs1, bind_ok, h k hk'], by omega, ?_, ?_⟩
      · intro hf
        obtain ⟨f1, f2, f3⟩ := Fp.add_finite hf
        obtain ⟨g1, g2⟩ := hs2 f1
        refine ⟨fun i hi hik => ?_, ?_⟩
        · rcases Nat.lt_succ_iff_lt_or_eq.1 hik with h' | rfl
          · exact g1 i hi h'
          · exact f2
        rw [Finset.sum_range_succ, Finset.sum_range_succ, ← hA, ← hS, Nat.add_sub_cancel, f3, ← hek]
        rcases Nat.eq_zero_or_pos k with rfl | hkp
        · have r := Fp.rep_val f2
          rw [← hek] at r
          rw [hsz rfl, zero_add, r.rnd_eq]
          have : A = 0 := by rw [hA]; simp
          rw [this]; simp
        · have hg : F.Grid (s.val + e k) := (Fp.rep_val f1).grid.add (by rw [hek]; exact (Fp.rep_val f2).grid)
          have b1 := hg.rnd_err
          have b2 := hw f1
          have hpow : (1 + F.u) ^ k = (1 + F.u) ^ (k - 1) * (1 + F.u) := by
            rw [← pow_succ]; congr 1; omega
          have c1 : F.u * |s.val + e k| ≤ F.u * ((1 + F.u) ^ (k - 1) * (S + |e k|)) := mul_le_mul_of_nonneg_left b2 hu.le
          have c2 : ((1 + F.u) ^ (k - 1) - 1) * S ≤ ((1 + F.u) ^ (k - 1) - 1) * (S + |e k|) :=
            mul_le_mul_of_nonneg_left (by linarith) (by linarith)
          calc |F.rnd (s.val + e k) - (A + e k)| = |(F.rnd (s.val + e k) - (s.val + e k)) + (s.val - A)| := by congr 1; ring
            _ ≤ |F.rnd (s.val + e k) - (s.val + e k)| + |s.val - A| := abs_add_le _ _
            _ ≤ F.u * ((1 + F.u) ^ (k - 1) * (S + |e k|)) + ((1 + F.u) ^ (k - 1) - 1) * (S + |e k|) := by linarith
            _ = _ := by rw [hpow]; ring
      · intro hx hmax
        have f1 := hs3 hx hmax
        refine (Fp.add_fin h0 f1 (hx _) ?_).1
        rw [← hek]
        refine (hw f1).trans (le_trans ?_ hmax)
        have c1 : (1 + F.u) ^ (k - 1) ≤ (1 + F.u) ^ (N - 1) := pow_le_pow_right₀ (by linarith) (by omega)
        have c2 : S + |e k| ≤ ∑ i ∈ Finset.range N, |e i| := by
          rw [hS, ← Finset.sum_range_succ]
          exact Finset.sum_le_sum_of_subset_of_nonneg (Finset.range_subset_range.2 hk) fun _ _ _ => abs_nonneg _
        exact mul_le_mul c1 c2 (by positivity) (by positivity)
  obtain ⟨d, h1, _, h2, h3⟩ := key N le_rfl
  have e1 := hsum id
  have e2 := hsum fun z => |z|
  simp only [id] at e1
  rw [e1, e2] at h2
  rw [e2] at h3
  exact ⟨d, h1, fun hf => ⟨fun i => (h2 hf).1 i i.2 i.2, (h2 hf).2⟩, h3⟩

private theorem wide (hD : Spec.Wider F D) : F.p ≤ D.p ∧ F.emax ≤ D.emax := by
  rcases hD with rfl | ⟨h1, h2⟩
  · exact ⟨le_rfl, le_rfl⟩
  · exact ⟨h1, h2.le⟩

/-- A conversion to a wider type never turns an infinity or a NaN into a number. -/
theorem Fp.convert_finite {a : Fp F} (h : (Fp.convert D a).Finite) : a.Finite := by
  cases a with
  | nan => exact h
  | inf s => exact h
  | fin s m hm => trivial

/-- **C128** `sum_elements()`: the result is a `double`; if it is finite, no cell is an infinity or NaN, and the error is at most
`(1+u)^(MN-1) - 1` times the sum of the magnitudes: there is no contribution of underflow, and the value of a single cell is exact. The result is
finite if the magnitudes fit. -/
theorem C128_sum (hD : Spec.Wider F D) (h0 : 0 < F.emax) (m : Mat M N (Fp F)) :
    ∃ d, m.sumElements (Fp.convert D) = .ok d ∧
      (d.Finite → (∀ r c, (m.get r c).Finite) ∧
        |d.val - ∑ r, ∑ c, (m.get r c).val| ≤ ((1 + D.u) ^ (M * N - 1) - 1) * Spec.magSum m) ∧
      ((∀ r c, (m.get r c).Finite) → (1 + D.u) ^ (M * N - 1) * Spec.magSum m ≤ D.maxFinite → d.Finite) := by
  obtain ⟨hp, he⟩ := wide hD
  obtain ⟨d, h1, h2, h3⟩ := fp_sum (F := D) (by omega) (N := M * N) (body := fun i sum => do pure (sum + Fp.convert D (← m.rawGet i)))
    (fun i => Fp.convert D m.array[i]) (by intro i hi s; rw [Mat.rawGet_lt m hi, Vmml.bind_ok]; rfl)
  have hv : ∀ a : Fp F, (Fp.convert D a).val = a.val := by
    intro a
    cases a with
    | nan => rfl
    | inf s => rfl
    | fin s m hm => exact (Fp.widen_fin hp he h0 (a := .fin s m hm) trivial).2
  have s1 := Mat.sum_array m fun a : Fp F => a.val
  have s2 := Mat.sum_array m fun a : Fp F => |a.val|
  simp only [hv] at h2 h3
  have hall : (∀ i : Fin (M * N), (Fp.convert D m.array[i]).Finite) ↔ ∀ r c, (m.get r c).Finite := by
    constructor
    · intro h r c
      have := h (cellEquiv (r, c))
      rw [Mat.array_cell] at this
      exact Fp.convert_finite this
    · intro h i
      obtain ⟨r, c, e⟩ := Mat.array_get m i i.2
      have : (m.array[(i : Nat)]).Finite := by rw [e]; exact h r c
      exact (Fp.widen_fin hp he h0 this).1
  refine ⟨d, h1, fun hf => ⟨hall.1 (h2 hf).1, ?_⟩, fun hf hm => h3 (hall.2 hf) ?_⟩
  · have := (h2 hf).2
    rw [s1, s2] at this
    exact this
  · rw [s2]; exact hm

/-- **C128** `columnwise_sum()`: every column, accumulated in the element type. -/
theorem C128_columnwise_sum (h0 : 0 < F.emax) (cfg : Cfg) (m : Mat M N (Fp F)) (sums : Vec N (Fp F)) :
    ∃ s, m.columnwiseSum cfg sums = .ok s ∧ ∀ c : Fin N,
      (s[c].Finite → (∀ r, (m.get r c).Finite) ∧
        |s[c].val - ∑ r, (m.get r c).val| ≤ ((1 + F.u) ^ (M - 1) - 1) * ∑ r, |(m.get r c).val|) ∧
      ((∀ r, (m.get r c).Finite) → (1 + F.u) ^ (M - 1) * ∑ r, |(m.get r c).val| ≤ F.maxFinite → s[c].Finite) := by
  have hcell := fun c : Fin N => fp_sum (F := F) h0 (N := M) (body := fun r value => do pure (value + (← m.atGet cfg r c)))
    (fun r => m.get r c) (by intro i hi s; simp [hi])
  choose d hd1 hd2 using hcell
  refine ⟨Vector.ofFn d, ?_, ?_⟩
  · unfold Mat.columnwiseSum
    apply loop_set
    intro i hi w _
    have := hd1 ⟨i, hi⟩
    simp only at this
    rw [this, bind_ok, Vec.atSet_lt _ _ _ hi]
  · intro r
    simp only [Fin.getElem_fin, Vector.getElem_ofFn]
    exact hd2 r

/-! ## The norm -/

/-- Not NaN, and the sign is not set. -/
def Fp.Pos (a : Fp F) : Prop := a = .inf false ∨ ∃ m h, a = .fin false m h

namespace Fp
theorem Pos.round (x : ℝ) : (Fp.round false x : Fp F).Pos := by
  unfold Fp.round
  split
  · exact Or.inr ⟨_, _, rfl⟩
  · exact Or.inl rfl

theorem Pos.zero : (0 : Fp F).Pos := Or.inr ⟨_, _, rfl⟩

theorem Pos.sq {a : Fp F} (h : a ≠ nan) : (a * a).Pos := by
  cases a with
  | nan => exact absurd rfl h
  | inf s => exact Or.inl (by show inf (s ^^ s) = _; simp)
  | fin s m hm =>
    show (Fp.round (s ^^ s) (m * m) : Fp F).Pos
    rw [Bool.xor_self]
    exact Pos.round _

theorem Pos.conv {a : Fp F} (h : a.Pos) : (convert D a).Pos := by
  rcases h with rfl | ⟨m, hm, rfl⟩
  · exact Or.inl rfl
  · exact Pos.round _

theorem Pos.add {a b : Fp F} (ha : a.Pos) (hb : b.Pos) : (a + b).Pos ∧ (a = .inf false ∨ b = .inf false → a + b = .inf false) := by
  rcases ha with rfl | ⟨m, hm, rfl⟩ <;> rcases hb with rfl | ⟨n, hn, rfl⟩
  · exact ⟨Or.inl (if_pos rfl), fun _ => if_pos rfl⟩
  · exact ⟨Or.inl rfl, fun _ => rfl⟩
  · exact ⟨Or.inl rfl, fun _ => rfl⟩
  · refine ⟨?_, by rintro (h | h) <;> cases h⟩
    have h1 := hm.1
    have h2 := hn.1
    show Pos (if m + n = 0 then fin (false && false) 0 Format.mag_zero else Fp.round (decide (m + n < 0)) |m + n|)
    split
    · exact Or.inr ⟨_, _, rfl⟩
    · rw [decide_eq_false (by linarith)]
      exact Pos.round _

theorem Pos.nonneg {a : Fp F} (h : a.Pos) : 0 ≤ a.val := by
  rcases h with rfl | ⟨m, hm, rfl⟩
  · exact le_rfl
  · exact hm.1
end Fp

/-- A sum of numbers that are not negative. -/
private theorem fp_sum_pos {body : Nat → Fp F → Res (Fp F)} (x : Fin N → Fp F)
    (h : ∀ i (hi : i < N) s, body i s = .ok (s + x ⟨i, hi⟩)) (hx : ∀ i, (x i).Pos) :
    ∃ d, loop N body 0 = .ok d ∧ d.Pos ∧ ((∃ i, x i = .inf false) → d = .inf false) := by
  have key : ∀ k, k ≤ N → ∃ d, loop k body 0 = .ok d ∧ d.Pos ∧ ((∃ i, i.1 < k ∧ x i = .inf false) → d = .inf false) := by
    intro k
    induction k with
    | zero => intro _; exact ⟨0, by simp, Fp.Pos.zero, by rintro ⟨i, h, _⟩; omega⟩
    | succ k ih =>
      intro hk
      obtain ⟨s, h1, h2, h3⟩ := ih (by omega)
      have := Fp.Pos.add h2 (hx ⟨k, hk⟩)
      refine ⟨s + x ⟨k, hk⟩, by rw [loop_succ, h1, bind_ok, h k hk], this.1, ?_⟩
      rintro ⟨i, hi, e⟩
      apply this.2
      rcases Nat.lt_succ_iff_lt_or_eq.1 hi with h' | h'
      · exact Or.inl (h3 ⟨i, h', e⟩)
      · right
        rw [← e]
        congr 1
        exact Fin.ext h'.symm
  obtain ⟨d, h1, h2, h3⟩ := key N le_rfl
  exact ⟨d, h1, h2, fun ⟨i, e⟩ => h3 ⟨i, i.2, e⟩⟩

private theorem root_close {a b c E : ℝ} (a0 : 0 ≤ a) (b0 : 0 ≤ b) (c0 : 0 ≤ c) (hE : 0 ≤ E) (h : |a ^ 2 - b ^ 2| ≤ E * b ^ 2 + c ^ 2) :
    |a - b| ≤ E * b + c := by
  have hd0 := abs_nonneg (a - b)
  have hfac : |a - b| * (a + b) ≤ E * b ^ 2 + c ^ 2 := by
    rw [← abs_of_nonneg (add_nonneg a0 b0), ← abs_mul]
    refine le_trans (le_of_eq ?_) h
    congr 1; ring
  rcases (add_nonneg a0 b0).eq_or_lt with hz | hpos
  · have ea : a = 0 := by linarith
    have eb : b = 0 := by linarith
    rw [ea, eb]; simp [c0]
  · rcases le_total c (a + b) with hc | hc
    · have k1 : E * b ^ 2 + c ^ 2 ≤ (E * b + c) * (a + b) := by
        nlinarith [mul_nonneg (mul_nonneg hE b0) a0, mul_nonneg c0 (sub_nonneg.2 hc)]
      exact le_of_mul_le_mul_right (hfac.trans k1) hpos
    · have k1 : |a - b| ≤ a + b := abs_le.2 ⟨by linarith, by linarith⟩
      have := mul_nonneg hE b0
      linarith

private theorem sqrt_close {s Q E B : ℝ} (hs : 0 ≤ s) (hQ : 0 ≤ Q) (hE : 0 ≤ E) (hB : 0 ≤ B) (h : |s - Q| ≤ E * Q + B) :
    |Real.sqrt s - Real.sqrt Q| ≤ E * Real.sqrt Q + Real.sqrt B :=
  root_close (Real.sqrt_nonneg s) (Real.sqrt_nonneg Q) (Real.sqrt_nonneg B) hE (by
    rw [Real.sq_sqrt hs, Real.sq_sqrt hQ, Real.sq_sqrt hB]; exact h)

private theorem convert_val (hp : F.p ≤ D.p) (he : F.emax ≤ D.emax) (h0 : 0 < F.emax) (a : Fp F) : (Fp.convert D a).val = a.val := by
  cases a with
  | nan => rfl
  | inf s => rfl
  | fin s m hm => exact (Fp.widen_fin hp he h0 (a := .fin s m hm) trivial).2

/-- The norm of a finite result, for a given error of the squares. -/
private theorem norm_core (hD : Spec.Wider F D) (h0 : 0 < F.emax) (hDp : D.p < D.emax) (m : Mat M N (Fp F)) :
    ∃ d, m.frobeniusNorm (Fp.convert D) = .ok d ∧
      (d.Finite → (∀ r c, (m.get r c).Finite) ∧ ∀ β : ℝ, 0 ≤ β →
        (∀ r c, |F.rnd ((m.get r c).val * (m.get r c).val) - (m.get r c).val ^ 2| ≤ F.u * (m.get r c).val ^ 2 + β) →
        |d.val - Real.sqrt (Spec.sqSum m)| ≤
          Spec.normRel F D (M * N) * Real.sqrt (Spec.sqSum m) + (1 + D.u) ^ (M * N) * Real.sqrt ((M * N : Nat) * β)) ∧
      ((∀ r c, (m.get r c).Finite ∧ (m.get r c).val ^ 2 ≤ F.maxFinite) →
        (1 + D.u) ^ (M * N - 1) * ((1 + F.u) * Spec.sqSum m + (M * N : Nat) * F.eta) ≤ D.maxFinite → d.Finite) := by
  obtain ⟨hp, he⟩ := wide hD
  have hv := convert_val hp he h0
  have hu := F.u_pos
  have hw := D.u_pos
  obtain ⟨s, h1, h2, h3⟩ := fp_sum (F := D) (by omega) (N := M * N)
    (body := fun i norm => do let x ← m.rawGet i; pure (norm + Fp.convert D (x * x)))
    (fun i => Fp.convert D (m.array[i] * m.array[i])) (by intro i hi s; rw [Mat.rawGet_lt m hi, Vmml.bind_ok]; rfl)
  simp only [hv] at h2 h3
  have s1 := Mat.sum_array m fun a : Fp F => (a * a).val
  have s2 := Mat.sum_array m fun a : Fp F => |(a * a).val|
  have hQ0 : 0 ≤ Spec.sqSum m := Finset.sum_nonneg fun _ _ => Finset.sum_nonneg fun _ _ => sq_nonneg _
  have hcard : ∀ y : ℝ, ∑ _r : Fin M, ∑ _c : Fin N, y = (M * N : Nat) * y := by
    intro y; simp; ring
  refine ⟨CMath.sqrt s, by unfold Mat.frobeniusNorm; rw [h1, Vmml.bind_ok]; rfl, ?_, ?_⟩
  · intro hf
    obtain ⟨f1, f2, f3⟩ := Fp.sqrt_finite (by omega) hf
    obtain ⟨g1, g2⟩ := h2 f1
    have hsq : ∀ r c, ((m.get r c) * (m.get r c)).Finite := by
      intro r c
      have := g1 (cellEquiv (r, c))
      rw [Mat.array_cell] at this
      exact Fp.convert_finite this
    refine ⟨fun r c => (Fp.mul_finite (hsq r c)).1, ?_⟩
    intro β hβ hcells
    rw [s1, s2] at g2
    have hcell : ∀ r c, |((m.get r c) * (m.get r c)).val - (m.get r c).val ^ 2| ≤ F.u * (m.get r c).val ^ 2 + β := by
      intro r c
      rw [(Fp.mul_finite (hsq r c)).2.2]
      exact hcells r c
    have hmag : ∑ r, ∑ c, |((m.get r c) * (m.get r c)).val| ≤ (1 + F.u) * Spec.sqSum m + (M * N : Nat) * β := by
      rw [← hcard, Spec.sqSum, Finset.mul_sum, ← Finset.sum_add_distrib]
      refine Finset.sum_le_sum fun r _ => ?_
      rw [Finset.mul_sum, ← Finset.sum_add_distrib]
      refine Finset.sum_le_sum fun c _ => ?_
      have a1 := hcell r c
      have a2 : |((m.get r c) * (m.get r c)).val| ≤ |((m.get r c) * (m.get r c)).val - (m.get r c).val ^ 2| + |(m.get r c).val ^ 2| := by
        have := abs_add_le (((m.get r c) * (m.get r c)).val - (m.get r c).val ^ 2) ((m.get r c).val ^ 2)
        rwa [sub_add_cancel] at this
      rw [abs_of_nonneg (sq_nonneg (m.get r c).val)] at a2
      linarith
    have hsub : |∑ r, ∑ c, ((m.get r c) * (m.get r c)).val - Spec.sqSum m| ≤ F.u * Spec.sqSum m + (M * N : Nat) * β := by
      rw [← hcard, Spec.sqSum, Finset.mul_sum, ← Finset.sum_add_distrib, ← Finset.sum_sub_distrib]
      refine (Finset.abs_sum_le_sum_abs _ _).trans (Finset.sum_le_sum fun r _ => ?_)
      rw [Finset.mul_sum, ← Finset.sum_add_distrib, ← Finset.sum_sub_distrib]
      exact (Finset.abs_sum_le_sum_abs _ _).trans (Finset.sum_le_sum fun c _ => hcell r c)
    obtain ⟨P, hP⟩ : ∃ P, P = (1 + D.u) ^ (M * N - 1) := ⟨_, rfl⟩
    have hP1 : 1 ≤ P := by rw [hP]; exact one_le_pow₀ (by linarith)
    rw [← hP] at g2
    have hB0 : (0 : ℝ) ≤ (M * N : Nat) * β := by positivity
    have hs : |s.val - Spec.sqSum m| ≤ (P * (1 + F.u) - 1) * Spec.sqSum m + P * ((M * N : Nat) * β) := by
      have k1 := mul_le_mul_of_nonneg_left hmag (show 0 ≤ P - 1 by linarith)
      have k2 := abs_add_le (s.val - ∑ r, ∑ c, ((m.get r c) * (m.get r c)).val) (∑ r, ∑ c, ((m.get r c) * (m.get r c)).val - Spec.sqSum m)
      rw [sub_add_sub_cancel] at k2
      linarith
    have hE0 : 0 ≤ P * (1 + F.u) - 1 := by nlinarith
    have hr := sqrt_close f2 hQ0 hE0 (by positivity) hs
    have hd := sqrt_rel hDp (Fp.rep_val f1) f2
    rw [← f3] at hd
    have hroot : Real.sqrt (P * ((M * N : Nat) * β)) ≤ P * Real.sqrt ((M * N : Nat) * β) := by
      rw [Real.sqrt_mul (by linarith)]
      refine mul_le_mul_of_nonneg_right ?_ (Real.sqrt_nonneg _)
      exact Real.sqrt_le_iff.2 ⟨by linarith, by nlinarith⟩
    have hsv : Real.sqrt s.val ≤ Real.sqrt (Spec.sqSum m) + ((P * (1 + F.u) - 1) * Real.sqrt (Spec.sqSum m) + P * Real.sqrt ((M * N : Nat) * β)) := by
      have := (abs_le.1 hr).2
      linarith
    have htot := abs_add_le ((CMath.sqrt s : Fp D).val - Real.sqrt s.val) (Real.sqrt s.val - Real.sqrt (Spec.sqSum m))
    rw [sub_add_sub_cancel] at htot
    have k3 := mul_le_mul_of_nonneg_left hsv hw.le
    have hfin : |(CMath.sqrt s : Fp D).val - Real.sqrt (Spec.sqSum m)| ≤
        ((1 + D.u) * P * (1 + F.u) - 1) * Real.sqrt (Spec.sqSum m) + (1 + D.u) * P * Real.sqrt ((M * N : Nat) * β) := by
      linarith
    rcases Nat.eq_zero_or_pos (M * N) with hz | hpos
    · have hq : Spec.sqSum m = 0 := by
        rcases Nat.mul_eq_zero.1 hz with rfl | rfl <;> simp [Spec.sqSum]
      rw [hq, hz] at hfin ⊢
      simpa using hfin
    · have hpow : (1 + D.u) ^ (M * N) = (1 + D.u) * P := by
        rw [hP, ← pow_succ']; congr 1; omega
      unfold Spec.normRel
      rw [hpow]; exact hfin
  · intro hall hmax
    have hsq : ∀ r c, ((m.get r c) * (m.get r c)).Finite ∧ ((m.get r c) * (m.get r c)).val = F.rnd ((m.get r c).val * (m.get r c).val) := by
      intro r c
      refine Fp.mul_fin h0 (hall r c).1 (hall r c).1 ?_
      rw [← sq, abs_of_nonneg (sq_nonneg _)]
      exact (hall r c).2
    have hfin : s.Finite := by
      apply h3
      · intro i
        obtain ⟨r, c, e⟩ := Mat.array_get m i i.2
        have : (m.array[(i : Nat)] * m.array[(i : Nat)]).Finite := by rw [e]; exact (hsq r c).1
        exact (Fp.widen_fin hp he h0 this).1
      · rw [s2]
        refine le_trans (mul_le_mul_of_nonneg_left ?_ (by positivity)) hmax
        rw [← hcard, Spec.sqSum, Finset.mul_sum, ← Finset.sum_add_distrib]
        refine Finset.sum_le_sum fun r _ => ?_
        rw [Finset.mul_sum, ← Finset.sum_add_distrib]
        refine Finset.sum_le_sum fun c _ => ?_
        rw [(hsq r c).2]
        have a1 := rnd_err_add (F := F) ((m.get r c).val * (m.get r c).val)
        rw [abs_of_nonneg (mul_self_nonneg (m.get r c).val)] at a1
        have a2 := abs_add_le (F.rnd ((m.get r c).val * (m.get r c).val) - (m.get r c).val * (m.get r c).val) ((m.get r c).val * (m.get r c).val)
        rw [sub_add_cancel, abs_of_nonneg (mul_self_nonneg (m.get r c).val)] at a2
        rw [sq]
        linarith
    have hnn : ∀ r c, m.get r c ≠ Fp.nan := fun r c => (hall r c).1.ne_nan
    obtain ⟨s', e1, e2, _⟩ := fp_sum_pos (F := D) (N := M * N)
      (body := fun i norm => do let x ← m.rawGet i; pure (norm + Fp.convert D (x * x)))
      (fun i => Fp.convert D (m.array[i] * m.array[i])) (by intro i hi s; rw [Mat.rawGet_lt m hi, Vmml.bind_ok]; rfl) (by
        intro i
        obtain ⟨r, c, e⟩ := Mat.array_get m i i.2
        have : m.array[(i : Nat)] ≠ Fp.nan := by rw [e]; exact hnn r c
        exact (Fp.Pos.sq this).conv)
    have es : s = s' := Except.ok.inj (h1.symm.trans e1)
    exact (Fp.sqrt_fin (by omega) hfin (by rw [es]; exact e2.nonneg)).1

/-- **C128** `frobenius_norm()`: the squares are rounded to the element type and added in `double`. A finite result is within `(1+u)^(MN) (1+u_T) - 1` relative to
the norm, plus the underflow of the squares; no cell is then an infinity or NaN. The result is finite if the square of every cell fits the element
type and the sum fits `double`. -/
theorem C128_norm (hD : Spec.Wider F D) (h0 : 0 < F.emax) (hDp : D.p < D.emax) (m : Mat M N (Fp F)) :
    ∃ d, m.frobeniusNorm (Fp.convert D) = .ok d ∧
      (d.Finite → (∀ r c, (m.get r c).Finite) ∧
        |d.val - Real.sqrt (Spec.sqSum m)| ≤
          Spec.normRel F D (M * N) * Real.sqrt (Spec.sqSum m) + (1 + D.u) ^ (M * N) * Real.sqrt ((M * N : Nat) * F.eta)) ∧
      ((∀ r c, (m.get r c).Finite ∧ (m.get r c).val ^ 2 ≤ F.maxFinite) →
        (1 + D.u) ^ (M * N - 1) * ((1 + F.u) * Spec.sqSum m + (M * N : Nat) * F.eta) ≤ D.maxFinite → d.Finite) := by
  obtain ⟨d, h1, h2, h3⟩ := norm_core hD h0 hDp m
  refine ⟨d, h1, fun hf => ⟨(h2 hf).1, (h2 hf).2 _ F.eta_pos.le fun r c => ?_⟩, h3⟩
  have := rnd_err_add (F := F) ((m.get r c).val * (m.get r c).val)
  rw [abs_of_nonneg (mul_self_nonneg (m.get r c).val)] at this
  rwa [sq]

/-- **C128** ... and if no square underflows, a finite result has only the relative error. -/
theorem C128_norm_relative (hD : Spec.Wider F D) (h0 : 0 < F.emax) (hDp : D.p < D.emax) (m : Mat M N (Fp F))
    (hn : ∀ r c, (m.get r c).val = 0 ∨ (2 : ℝ) ^ F.emin ≤ (m.get r c).val ^ 2) :
    ∃ d, m.frobeniusNorm (Fp.convert D) = .ok d ∧
      (d.Finite → |d.val - Real.sqrt (Spec.sqSum m)| ≤ Spec.normRel F D (M * N) * Real.sqrt (Spec.sqSum m)) := by
  obtain ⟨d, h1, h2, _⟩ := norm_core hD h0 hDp m
  refine ⟨d, h1, fun hf => ?_⟩
  have := (h2 hf).2 0 le_rfl fun r c => by
    rw [add_zero, ← sq]
    rcases hn r c with h | h
    · rw [h]; simp
    · have := rnd_err_normal (F := F) (x := (m.get r c).val ^ 2) (by rw [abs_of_nonneg (sq_nonneg _)]; exact h)
      rwa [abs_of_nonneg (sq_nonneg (m.get r c).val)] at this
  simpa using this

/-- **C128** ... but the squares overflow in the element type, although the result is a `double`: if a cell reaches `2^k` with `2k > emax` (for `float`:
`2^64`) and no cell is NaN, the result is infinite. -/
theorem C128_norm_overflow (m : Mat M N (Fp F)) (hn : ∀ r c, m.get r c ≠ .nan) (r : Fin M) (c : Fin N) (k : Nat)
    (hk : F.emax < 2 * k) (h : (2 : ℝ) ^ k ≤ |(m.get r c).val|) : m.frobeniusNorm (Fp.convert D) = .ok (.inf false) := by
  obtain ⟨s, e1, _, e3⟩ := fp_sum_pos (F := D) (N := M * N)
    (body := fun i norm => do let x ← m.rawGet i; pure (norm + Fp.convert D (x * x)))
    (fun i => Fp.convert D (m.array[i] * m.array[i])) (by intro i hi s; rw [Mat.rawGet_lt m hi, Vmml.bind_ok]; rfl) (by
      intro i
      obtain ⟨r, c, e⟩ := Mat.array_get m i i.2
      have : m.array[(i : Nat)] ≠ Fp.nan := by rw [e]; exact hn r c
      exact (Fp.Pos.sq this).conv)
  have hinf : m.get r c * m.get r c = .inf false := by
    rcases hx : m.get r c with _ | s | ⟨s, y, hy⟩
    · exact absurd hx (hn r c)
    · show Fp.inf (s ^^ s) = _; simp
    · rw [hx] at h
      have hy0 := hy.1
      have hle : (2 : ℝ) ^ k ≤ y := by
        have e : |(Fp.fin s y hy).val| = y := by cases s <;> simp [abs_of_nonneg hy0]
        rwa [e] at h
      show Fp.round (s ^^ s) (y * y) = _
      rw [Bool.xor_self]
      apply Fp.round_inf
      have b : (2 : ℝ) ^ ((F.emax : Int) + 1) ≤ y * y := by
        calc (2 : ℝ) ^ ((F.emax : Int) + 1) = (2 : ℝ) ^ (F.emax + 1) := by rw [← zpow_natCast]; push_cast; rfl
          _ ≤ (2 : ℝ) ^ (k + k) := pow_le_pow_right₀ (by norm_num) (by omega)
          _ = 2 ^ k * 2 ^ k := pow_add _ _ _
          _ ≤ y * y := mul_le_mul hle hle (by positivity) hy0
      exact lt_of_lt_of_le maxFinite_lt (le_rnd_pow (by unfold emin; omega) b)
  have hs := e3 ⟨cellEquiv (r, c), by
    show Fp.convert D (m.array[cellEquiv (r, c)] * m.array[cellEquiv (r, c)]) = _
    rw [Mat.array_cell, hinf]; rfl⟩
  unfold Mat.frobeniusNorm
  rw [e1, Vmml.bind_ok, hs]
  rfl

/-! ## Extremes and counts -/

/-- A running choice. -/
private theorem loop_pick {α : Type} (R : α → α → Prop) [DecidableRel R] (htr : ∀ a b c, R a b → R b c → R a c) (hir : ∀ a, ¬ R a a)
    {n : Nat} {body : Nat → α → Res α} (b : α) (key : Fin n → α)
    (h : ∀ i (hi : i < n) s, (s = b ∨ ∃ j, s = key j) → body i s = .ok (if R (key ⟨i, hi⟩) s then key ⟨i, hi⟩ else s)) :
    ∃ x, loop n body b = .ok x ∧ (∀ i, ¬ R (key i) x) ∧ ((x = b ∧ ∀ i, ¬ R (key i) b) ∨ ∃ i, x = key i ∧ R (key i) b) := by
  have main : ∀ k, k ≤ n → ∃ x, loop k body b = .ok x ∧ (∀ i : Fin n, i.1 < k → ¬ R (key i) x) ∧
      (x = b ∨ ∃ i, x = key i ∧ R (key i) b) := by
    intro k
    induction k with
    | zero => intro _; exact ⟨b, by simp, by intro i hi; omega, Or.inl rfl⟩
    | succ k ih =>
      intro hk
      obtain ⟨s, h1, h2, h3⟩ := ih (by omega)
      have hb := h k hk s (h3.imp id fun ⟨i, e, _⟩ => ⟨i, e⟩)
      refine ⟨if R (key ⟨k, hk⟩) s then key ⟨k, hk⟩ else s, by rw [loop_succ, h1, bind_ok, hb], ?_, ?_⟩
      · intro i hi
        split
        · rename_i hr
          rcases Nat.lt_succ_iff_lt_or_eq.1 hi with h' | h'
          · exact fun hc => h2 i h' (htr _ _ _ hc hr)
          · have e : i = ⟨k, hk⟩ := Fin.ext h'
            rw [e]; exact hir _
        · rename_i hr
          rcases Nat.lt_succ_iff_lt_or_eq.1 hi with h' | h'
          · exact h2 i h'
          · have e : i = ⟨k, hk⟩ := Fin.ext h'
            rw [e]; exact hr
      · split
        · rename_i hr
          right
          rcases h3 with rfl | ⟨i, e, h3⟩
          · exact ⟨_, rfl, hr⟩
          · exact ⟨_, rfl, htr _ _ _ hr (by rw [e]; exact h3)⟩
        · exact h3
  obtain ⟨x, h1, h2, h3⟩ := main n le_rfl
  refine ⟨x, h1, fun i => h2 i i.2, ?_⟩
  rcases h3 with rfl | h3
  · exact Or.inl ⟨rfl, fun i => h2 i i.2⟩
  · exact Or.inr h3

private theorem below_trans (a b c : Fp F) (h : Spec.Below a b) (h' : Spec.Below b c) : Spec.Below a c :=
  ⟨h.1, h'.2.1, h.2.2.trans h'.2.2⟩
private theorem below_irrefl (a : Fp F) : ¬ Spec.Below a a := fun h => lt_irrefl _ h.2.2

/-- **C128** `get_min()` with infinities and NaN: the result is not NaN and no cell is below it; it is a cell, or the starting value
(`numeric_limits<T>::max()`) if no cell is below that. NaN cells are ignored. -/
theorem C128_min (m : Mat M N (Fp F)) (top : Fp F) (ht : top ≠ .nan) :
    ∃ x, m.getMin top = .ok x ∧ x ≠ .nan ∧ (∀ r c, ¬ Spec.Below (m.get r c) x) ∧
      ((x = top ∧ ∀ r c, ¬ Spec.Below (m.get r c) top) ∨ ∃ r c, x = m.get r c ∧ Spec.Below x top) := by
  classical
  obtain ⟨x, h1, h2, h3⟩ := loop_pick (Spec.Below (F := F)) below_trans below_irrefl (n := M * N) top (fun i => m.array[i])
    (body := fun i best => do
      let x ← m.rawGet i
      if x < best then pure x else pure best) (by
    intro i hi s _
    rw [Mat.rawGet_lt m hi, Vmml.bind_ok]
    by_cases h : m.array[i] < s
    · have := Fp.lt_below.1 h
      simp [h, this]
    · have : ¬ Spec.Below m.array[i] s := fun hc => h (Fp.lt_below.2 hc)
      simp [h, this])
  have hcells : ∀ y, (∀ i : Fin (M * N), ¬ Spec.Below m.array[i] y) → ∀ r c, ¬ Spec.Below (m.get r c) y := by
    intro y hy r c
    have := hy (cellEquiv (r, c))
    rwa [Mat.array_cell] at this
  refine ⟨x, h1, ?_, hcells x h2, ?_⟩
  · rcases h3 with ⟨rfl, _⟩ | ⟨i, rfl, h⟩
    · exact ht
    · exact h.1
  · rcases h3 with ⟨rfl, h⟩ | ⟨i, rfl, h⟩
    · exact Or.inl ⟨rfl, hcells _ h⟩
    · obtain ⟨r, c, e⟩ := Mat.array_get m i i.2
      exact Or.inr ⟨r, c, e, h⟩

/-- **C128** `get_max()`: the same with the starting value 0, which is also the result if no cell is above 0. -/
theorem C128_max (m : Mat M N (Fp F)) :
    ∃ x, m.getMax = .ok x ∧ x ≠ .nan ∧ (∀ r c, ¬ Spec.Below x (m.get r c)) ∧
      ((x = 0 ∧ ∀ r c, ¬ Spec.Below 0 (m.get r c)) ∨ ∃ r c, x = m.get r c ∧ Spec.Below 0 x) := by
  classical
  obtain ⟨x, h1, h2, h3⟩ := loop_pick (fun a b : Fp F => Spec.Below b a) (fun a b c h h' => below_trans _ _ _ h' h) below_irrefl
    (n := M * N) (0 : Fp F) (fun i => m.array[i])
    (body := fun i best => do
      let x ← m.rawGet i
      if best < x then pure x else pure best) (by
    intro i hi s _
    rw [Mat.rawGet_lt m hi, Vmml.bind_ok]
    by_cases h : s < m.array[i]
    · have := Fp.lt_below.1 h
      simp [h, this]
    · have : ¬ Spec.Below s m.array[i] := fun hc => h (Fp.lt_below.2 hc)
      simp [h, this])
  have hcells : ∀ y, (∀ i : Fin (M * N), ¬ Spec.Below y m.array[i]) → ∀ r c, ¬ Spec.Below y (m.get r c) := by
    intro y hy r c
    have := hy (cellEquiv (r, c))
    rwa [Mat.array_cell] at this
  refine ⟨x, h1, ?_, hcells x h2, ?_⟩
  · rcases h3 with ⟨rfl, _⟩ | ⟨i, rfl, h⟩
    · exact Fp.finite_zero.ne_nan
    · exact h.2.1
  · rcases h3 with ⟨rfl, h⟩ | ⟨i, rfl, h⟩
    · exact Or.inl ⟨rfl, hcells _ h⟩
    · obtain ⟨r, c, e⟩ := Mat.array_get m i i.2
      exact Or.inr ⟨r, c, e, h⟩

/-- The magnitude: the sign is cleared. -/
def Spec.mag1 (a : Fp F) : Fp F := match a with
  | .nan => .nan
  | .inf _ => .inf false
  | .fin _ m h => .fin false m h

private theorem fabs_mag (a : Fp F) : CMath.fabs a = Spec.mag1 a := by cases a <;> rfl
private theorem mag_mag (a : Fp F) : Spec.mag1 (Spec.mag1 a) = Spec.mag1 a := by cases a <;> rfl

/-- **C128** `get_abs_min()` and `get_abs_max()`: the same for the magnitudes. -/
theorem C128_abs (m : Mat M N (Fp F)) (top : Fp F) (ht : Spec.mag1 top = top) (hn : top ≠ .nan) :
    (∃ x, m.getAbsMin top = .ok x ∧ x ≠ .nan ∧ (∀ r c, ¬ Spec.Below (Spec.mag1 (m.get r c)) x) ∧
      ((x = top ∧ ∀ r c, ¬ Spec.Below (Spec.mag1 (m.get r c)) top) ∨ ∃ r c, x = Spec.mag1 (m.get r c) ∧ Spec.Below x top)) ∧
    (∃ x, m.getAbsMax = .ok x ∧ x ≠ .nan ∧ (∀ r c, ¬ Spec.Below x (Spec.mag1 (m.get r c))) ∧
      ((x = 0 ∧ ∀ r c, ¬ Spec.Below 0 (Spec.mag1 (m.get r c))) ∨ ∃ r c, x = Spec.mag1 (m.get r c) ∧ Spec.Below 0 x)) := by
  classical
  have hs : ∀ {b s : Fp F}, Spec.mag1 b = b → (s = b ∨ ∃ j : Fin (M * N), s = Spec.mag1 m.array[j]) → Spec.mag1 s = s := by
    rintro b s hb (rfl | ⟨j, rfl⟩)
    · exact hb
    · exact mag_mag _
  constructor
  · obtain ⟨x, h1, h2, h3⟩ := loop_pick (Spec.Below (F := F)) below_trans below_irrefl (n := M * N) top (fun i => Spec.mag1 m.array[i])
      (body := fun i best => do
        let x ← m.rawGet i
        if CMath.fabs x < CMath.fabs best then pure (CMath.fabs x) else pure best) (by
      intro i hi s hh
      rw [Mat.rawGet_lt m hi, Vmml.bind_ok]
      simp only [fabs_mag, hs ht hh]
      by_cases h : Spec.mag1 m.array[i] < s
      · have := Fp.lt_below.1 h
        simp [h, this]
      · have : ¬ Spec.Below (Spec.mag1 m.array[i]) s := fun hc => h (Fp.lt_below.2 hc)
        simp [h, this])
    have hcells : ∀ y, (∀ i : Fin (M * N), ¬ Spec.Below (Spec.mag1 m.array[i]) y) → ∀ r c, ¬ Spec.Below (Spec.mag1 (m.get r c)) y := by
      intro y hy r c
      have := hy (cellEquiv (r, c))
      rwa [Mat.array_cell] at this
    refine ⟨x, h1, ?_, hcells x h2, ?_⟩
    · rcases h3 with ⟨rfl, _⟩ | ⟨i, rfl, h⟩
      · exact hn
      · exact h.1
    · rcases h3 with ⟨rfl, h⟩ | ⟨i, rfl, h⟩
      · exact Or.inl ⟨rfl, hcells _ h⟩
      · obtain ⟨r, c, e⟩ := Mat.array_get m i i.2
        exact Or.inr ⟨r, c, congrArg Spec.mag1 e, h⟩
  · obtain ⟨x, h1, h2, h3⟩ := loop_pick (fun a b : Fp F => Spec.Below b a) (fun a b c h h' => below_trans _ _ _ h' h) below_irrefl
      (n := M * N) (0 : Fp F) (fun i => Spec.mag1 m.array[i])
      (body := fun i best => do
        let x ← m.rawGet i
        if CMath.fabs best < CMath.fabs x then pure (CMath.fabs x) else pure best) (by
      intro i hi s hh
      rw [Mat.rawGet_lt m hi, Vmml.bind_ok]
      simp only [fabs_mag, hs (b := 0) rfl hh]
      by_cases h : s < Spec.mag1 m.array[i]
      · have := Fp.lt_below.1 h
        simp [h, this]
      · have : ¬ Spec.Below s (Spec.mag1 m.array[i]) := fun hc => h (Fp.lt_below.2 hc)
        simp [h, this])
    have hcells : ∀ y, (∀ i : Fin (M * N), ¬ Spec.Below y (Spec.mag1 m.array[i])) → ∀ r c, ¬ Spec.Below y (Spec.mag1 (m.get r c)) := by
      intro y hy r c
      have := hy (cellEquiv (r, c))
      rwa [Mat.array_cell] at this
    refine ⟨x, h1, ?_, hcells x h2, ?_⟩
    · rcases h3 with ⟨rfl, _⟩ | ⟨i, rfl, h⟩
      · exact Fp.finite_zero.ne_nan
      · exact h.2.1
    · rcases h3 with ⟨rfl, h⟩ | ⟨i, rfl, h⟩
      · exact Or.inl ⟨rfl, hcells _ h⟩
      · obtain ⟨r, c, e⟩ := Mat.array_get m i i.2
        exact Or.inr ⟨r, c, congrArg Spec.mag1 e, h⟩

open Classical in
/-- **C128** `nnz()` counts the cells that are not a zero, including NaN; `nnz( t )` the cells with a magnitude above `t`, without NaN; `threshold( t )` clears
the cells that are not above `t` and leaves NaN. -/
theorem C128_counts (m : Mat M N (Fp F)) (t : Fp F) (hF : t ≠ .nan) :
    m.nnz = .ok (Finset.univ.filter fun p : Fin M × Fin N => ¬ Spec.IsZero (m.get p.1 p.2)).card ∧
    m.nnzAbove t = .ok (Finset.univ.filter fun p : Fin M × Fin N => Spec.Below t (Spec.mag1 (m.get p.1 p.2))).card ∧
    ∃ r, m.threshold t = .ok r ∧ ∀ i j,
      ((m.get i j ≠ .nan ∧ ¬ Spec.Below t (Spec.mag1 (m.get i j))) → r.get i j = 0) ∧
      ((m.get i j = .nan ∨ Spec.Below t (Spec.mag1 (m.get i j))) → r.get i j = m.get i j) := by
  have hz : ∀ a : Fp F, (a == 0) = true ↔ Spec.IsZero a := by
    intro a
    rw [Fp.beq_same]
    cases a with
    | nan => exact ⟨fun h => absurd rfl h.1, fun h => h.1.elim⟩
    | inf s =>
      refine ⟨fun h => ?_, fun h => h.1.elim⟩
      have := h.2.2
      rw [Fp.ereal_val Fp.finite_zero, Fp.val_zero] at this
      cases s <;> simp [Spec.ereal, Fp.ext] at this
    | fin s x hx =>
      have hf : (Fp.fin s x hx : Fp F).Finite := trivial
      constructor
      · intro h
        have := h.2.2
        rw [Fp.ereal_val Fp.finite_zero, Fp.val_zero, Fp.ereal_val hf] at this
        exact ⟨hf, by exact_mod_cast this⟩
      · intro h
        refine ⟨hf.ne_nan, Fp.finite_zero.ne_nan, ?_⟩
        rw [Fp.ereal_val Fp.finite_zero, Fp.val_zero, Fp.ereal_val hf, h.2]
  refine ⟨?_, ?_, ?_⟩
  · unfold Mat.nnz
    rw [loop_sum (fun i : Fin (M * N) => if ¬ Spec.IsZero m.array[i] then 1 else 0) (by
      intro i hi s
      rw [Mat.rawGet_lt m hi, Vmml.bind_ok]
      by_cases h : Spec.IsZero m.array[i]
      · have := (hz _).2 h
        simp [bne, h, this]
      · have : ¬ (m.array[i] == 0) = true := fun hc => h ((hz _).1 hc)
        simp [bne, h, this]), zero_add, Mat.sum_array m (fun x => if ¬ Spec.IsZero x then 1 else 0),
      Finset.card_filter, Fintype.sum_prod_type]
  · unfold Mat.nnzAbove
    rw [loop_sum (fun i : Fin (M * N) => if Spec.Below t (Spec.mag1 m.array[i]) then 1 else 0) (by
      intro i hi s
      rw [Mat.rawGet_lt m hi, Vmml.bind_ok, fabs_mag]
      by_cases h : t < Spec.mag1 m.array[i]
      · have := Fp.lt_below.1 h
        simp [h, this]
      · have : ¬ Spec.Below t (Spec.mag1 m.array[i]) := fun hc => h (Fp.lt_below.2 hc)
        simp [h, this]), zero_add, Mat.sum_array m (fun x => if Spec.Below t (Spec.mag1 x) then 1 else 0),
      Finset.card_filter, Fintype.sum_prod_type]
  · refine ⟨Mat.ofFn fun i j => if Spec.mag1 (m.get i j) ≤ t then 0 else m.get i j, ?_, fun i j => ?_⟩
    · exact Mat.flat_cell (M := M) (N := N) (fun _ x => if Spec.mag1 x ≤ t then 0 else x) (by
        intro i hi m
        rw [Mat.rawGet_lt m hi, Vmml.bind_ok, fabs_mag]
        by_cases h : Spec.mag1 m.array[i] ≤ t
        · simp [h, Mat.rawSet_lt m _ hi]
        · simp [h])
    · rw [Mat.get_ofFn]
      have hle : m.get i j ≠ .nan → (Spec.mag1 (m.get i j) ≤ t ↔ ¬ Spec.Below t (Spec.mag1 (m.get i j))) := by
        intro hne
        have hne' : Spec.mag1 (m.get i j) ≠ .nan := by
          intro hc
          rcases hx : m.get i j with _ | s | ⟨s, y, hy⟩ <;> rw [hx] at hne hc
          · exact hne rfl
          · cases hc
          · cases hc
        rw [Fp.le_iff hne' hF]
        unfold Spec.Below
        simp only [hF, hne', ne_eq, not_false_eq_true, true_and, not_lt]
      constructor
      · rintro ⟨h1, h2⟩
        rw [if_pos ((hle h1).2 h2)]
      · rintro (h | h)
        · rw [h, if_neg]
          exact Fp.not_le_nan_left t
        · have hne : m.get i j ≠ .nan := by
            intro hc
            rw [hc] at h
            exact h.2.1 rfl
          rw [if_neg fun hc => (hle hne).1 hc h]

/-- A `float` matrix of ones meets the hypotheses of the theorems on sums and on the norm, and one with a cell `2^64` those of the overflow. -/
example : Spec.Wider single double ∧ (0 < single.emax ∧ double.p < double.emax) ∧
    (let m : Mat 2 2 (Fp single) := ⟨#v[1, -1, 0, 1]⟩
     (∀ r c, (m.get r c).Finite ∧ (m.get r c).val ^ 2 ≤ single.maxFinite) ∧
     (∀ r c, (m.get r c).val = 0 ∨ (2 : ℝ) ^ single.emin ≤ (m.get r c).val ^ 2) ∧
     (1 + double.u) ^ (2 * 2 - 1) * Spec.magSum m ≤ double.maxFinite ∧
     (1 + double.u) ^ (2 * 2 - 1) * ((1 + single.u) * Spec.sqSum m + (2 * 2 : Nat) * single.eta) ≤ double.maxFinite) ∧
    ∃ x : Fp single, (2 : ℝ) ^ 64 ≤ |x.val| ∧ single.emax < 2 * 64 := by
  have h0 : 0 < single.emax := by norm_num
  have o := Fp.one_fin h0
  have n : (-1 : Fp single).Finite := Fp.finite_neg o.1
  have nv : (-1 : Fp single).val = -1 := by rw [Fp.val_neg, o.2]
  refine ⟨wider_single, ⟨h0, by norm_num⟩, ?_, ?_⟩
  · intro m
    have hv : ∀ r c, (m.get r c).Finite ∧ ((m.get r c).val = 0 ∨ (m.get r c).val = 1 ∨ (m.get r c).val = -1) := by
      intro r c
      have hm : m.get r c = 1 ∨ m.get r c = -1 ∨ m.get r c = 0 := by
        match r, c with
        | 0, 0 => exact Or.inl rfl
        | 1, 0 => exact Or.inr (Or.inl rfl)
        | 0, 1 => exact Or.inr (Or.inr rfl)
        | 1, 1 => exact Or.inl rfl
      rcases hm with e | e | e <;> rw [e]
      · exact ⟨o.1, Or.inr (Or.inl o.2)⟩
      · exact ⟨n, Or.inr (Or.inr nv)⟩
      · exact ⟨Fp.finite_zero, Or.inl Fp.val_zero⟩
    have h1 := one_le_max h0
    have hsq : ∀ r c, (m.get r c).val ^ 2 ≤ 1 := by
      intro r c
      rcases (hv r c).2 with e | e | e <;> rw [e] <;> norm_num
    have hab : ∀ r c, |(m.get r c).val| ≤ 1 := by
      intro r c
      rcases (hv r c).2 with e | e | e <;> rw [e] <;> norm_num
    have hmag : Spec.magSum m ≤ 4 := by
      refine (Finset.sum_le_sum fun r _ => Finset.sum_le_sum fun c _ => hab r c).trans ?_
      norm_num
    have hsqs : Spec.sqSum m ≤ 4 := by
      refine (Finset.sum_le_sum fun r _ => Finset.sum_le_sum fun c _ => hsq r c).trans ?_
      norm_num
    have hmax : (2 : ℝ) ^ 20 ≤ double.maxFinite := by
      refine le_trans ?_ (pow_emax_le (F := double))
      rw [← zpow_natCast]
      exact zpow_le_zpow_right₀ (by norm_num) (by norm_num)
    have hu : double.u ≤ 1 := u_le_one
    have hu0 := double.u_pos
    have hu' : single.u ≤ 1 := u_le_one
    have hp : (1 + double.u) ^ (2 * 2 - 1) ≤ 2 ^ 3 := pow_le_pow_left₀ (by linarith) (by linarith) 3
    have he : single.eta ≤ 1 := by
      rw [eta_eq_tiny]
      have := tiny_le_one h0
      have := single.tiny_pos
      have := single.u_pos
      nlinarith
    have hq0 : 0 ≤ Spec.sqSum m := Finset.sum_nonneg fun _ _ => Finset.sum_nonneg fun _ _ => sq_nonneg _
    have hm0 : 0 ≤ Spec.magSum m := Finset.sum_nonneg fun _ _ => Finset.sum_nonneg fun _ _ => abs_nonneg _
    refine ⟨fun r c => ⟨(hv r c).1, (hsq r c).trans h1⟩, fun r c => ?_, ?_, ?_⟩
    · have hmin : (2 : ℝ) ^ single.emin ≤ 1 := zpow_le_one_of_nonpos₀ (by norm_num) (by norm_num [emin])
      rcases (hv r c).2 with e | e | e
      · exact Or.inl e
      · right; rw [e]; exact hmin.trans (by norm_num)
      · right; rw [e]; exact hmin.trans (by norm_num)
    · refine (mul_le_mul hp hmag hm0 (by norm_num)).trans (le_trans (by norm_num) hmax)
    · have e1 : (1 + single.u) * Spec.sqSum m + ((2 * 2 : Nat) : ℝ) * single.eta ≤ 12 := by
        push_cast
        nlinarith
      have := single.u_pos
      have := single.eta_pos
      refine (mul_le_mul hp e1 (by positivity) (by norm_num)).trans (le_trans (by norm_num) hmax)
  · have r : single.Rep ((2 : ℝ) ^ (64 : Int)) := rep_pow (by norm_num [emin])
    have hm : single.Mag ((2 : ℝ) ^ (64 : Int)) := ⟨by positivity, r, by
      refine le_trans ?_ (pow_emax_le (F := single))
      exact zpow_le_zpow_right₀ (by norm_num) (by norm_num)⟩
    refine ⟨.fin false _ hm, ?_, by norm_num⟩
    rw [Fp.val_fin, ← zpow_natCast]
    exact le_abs_self _

end Vmml
