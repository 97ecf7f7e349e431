import Verif.Props.FloatSums
import Verif.Props.FloatInverse
import Verif.Props.FloatLaws

/-!
# C129: integer data is computed without rounding
-/

set_option linter.unusedSimpArgs false
set_option linter.unusedTactic false
set_option linter.unreachableTactic false

namespace Vmml
open Format Mat
variable {F D : Format} {M N P : Nat}

/-- `a` is a number, and it is the integer `k`. -/
def Spec.IsInt (a : Fp F) (k : ℤ) : Prop := a.Finite ∧ a.val = k
/-- Every cell is a number, and it is the integer at that place. -/
def Spec.Ints (m : Mat M N (Fp F)) (Z : Matrix (Fin M) (Fin N) ℤ) : Prop := ∀ r c, Spec.IsInt (m.get r c) (Z r c)
/-- Every component is a number, and it is the integer at that place. -/
def Spec.VInts (v : Vec M (Fp F)) (z : Fin M → ℤ) : Prop := ∀ i : Fin M, Spec.IsInt v[i] (z i)

/-! ## One operation -/

private theorem rep_int (hF : F.p < F.emax) {k : ℤ} (hk : |k| ≤ 2 ^ (F.p + 1)) : F.Rep (k : ℝ) :=
  ⟨k, 0, by unfold emin; omega, hk, by simp⟩

private theorem int_fits (hF : F.p < F.emax) {k : ℤ} (hk : |k| ≤ 2 ^ (F.p + 1)) : |(k : ℝ)| ≤ F.maxFinite := by
  have h : |(k : ℝ)| ≤ (2 : ℝ) ^ (F.p + 1) := by exact_mod_cast hk
  refine h.trans (le_trans ?_ pow_emax_le)
  rw [zpow_natCast]
  exact pow_le_pow_right₀ (by norm_num) hF

namespace Spec.IsInt
variable {a b : Fp F} {k l : ℤ}
theorem add (hF : F.p < F.emax) (ha : Spec.IsInt a k) (hb : Spec.IsInt b l) (h : |k + l| ≤ 2 ^ (F.p + 1)) : Spec.IsInt (a + b) (k + l) := by
  have e : a.val + b.val = ((k + l : ℤ) : ℝ) := by rw [ha.2, hb.2]; push_cast; rfl
  obtain ⟨h1, h2⟩ := Fp.add_fin (by omega) ha.1 hb.1 (by rw [e]; exact int_fits hF h)
  exact ⟨h1, by rw [h2, e, (rep_int hF h).rnd_eq]⟩
theorem neg (ha : Spec.IsInt a k) : Spec.IsInt (-a) (-k) := ⟨Fp.finite_neg ha.1, by rw [Fp.val_neg, ha.2]; push_cast; rfl⟩
theorem sub (hF : F.p < F.emax) (ha : Spec.IsInt a k) (hb : Spec.IsInt b l) (h : |k - l| ≤ 2 ^ (F.p + 1)) : Spec.IsInt (a - b) (k - l) := by
  have e : a.val - b.val = ((k - l : ℤ) : ℝ) := by rw [ha.2, hb.2]; push_cast; rfl
  obtain ⟨h1, h2⟩ := Fp.sub_fin (by omega) ha.1 hb.1 (by rw [e]; exact int_fits hF h)
  exact ⟨h1, by rw [h2, e, (rep_int hF h).rnd_eq]⟩
theorem mul (hF : F.p < F.emax) (ha : Spec.IsInt a k) (hb : Spec.IsInt b l) (h : |k * l| ≤ 2 ^ (F.p + 1)) : Spec.IsInt (a * b) (k * l) := by
  have e : a.val * b.val = ((k * l : ℤ) : ℝ) := by rw [ha.2, hb.2]; push_cast; rfl
  obtain ⟨h1, h2⟩ := Fp.mul_fin (by omega) ha.1 hb.1 (by rw [e]; exact int_fits hF h)
  exact ⟨h1, by rw [h2, e, (rep_int hF h).rnd_eq]⟩
theorem zero : Spec.IsInt (0 : Fp F) 0 := ⟨Fp.finite_zero, by simp⟩
theorem unique (ha : Spec.IsInt a k) (hb : Spec.IsInt a l) : k = l := by exact_mod_cast ha.2.symm.trans hb.2
end Spec.IsInt

/-! ## Sums -/

private theorem int_sum (hF : F.p < F.emax) {body : Nat → Fp F → Res (Fp F)} (x : Fin N → Fp F) (z : Fin N → ℤ)
    (h : ∀ i (hi : i < N) s, body i s = .ok (s + x ⟨i, hi⟩)) (hx : ∀ i, Spec.IsInt (x i) (z i)) (hz : ∑ i, |z i| ≤ 2 ^ (F.p + 1)) :
    ∃ d, loop N body 0 = .ok d ∧ Spec.IsInt d (∑ i, z i) := by
  let e : Nat → ℤ := fun k => if hk : k < N then z ⟨k, hk⟩ else 0
  have hsum : ∀ f : ℤ → ℤ, ∑ i ∈ Finset.range N, f (e i) = ∑ i, f (z i) := by
    intro f
    rw [Finset.sum_range]
    exact Finset.sum_congr rfl fun i _ => by simp [e]
  have key : ∀ k, k ≤ N → ∃ d, loop k body 0 = .ok d ∧ Spec.IsInt d (∑ i ∈ Finset.range k, e i) := by
    intro k
    induction k with
    | zero => intro _; exact ⟨0, by simp, by simpa using Spec.IsInt.zero⟩
    | succ k ih =>
      intro hk
      obtain ⟨s, h1, h2⟩ := ih (by omega)
      have hek : e k = z ⟨k, hk⟩ := by simp [e, show k < N from hk]
      refine ⟨s + x ⟨k, hk⟩, by rw [loop_succ, h1, bind_ok, h k hk], ?_⟩
      rw [Finset.sum_range_succ, hek]
      refine h2.add hF (hx _) ?_
      rw [← hek, ← Finset.sum_range_succ]
      refine (Finset.abs_sum_le_sum_abs _ _).trans (le_trans ?_ hz)
      rw [← hsum fun z => |z|]
      exact Finset.sum_le_sum_of_subset_of_nonneg (Finset.range_subset_range.2 hk) fun _ _ _ => abs_nonneg _
  obtain ⟨d, h1, h2⟩ := key N le_rfl
  have := hsum id
  simp only [id] at this
  rw [this] at h2
  exact ⟨d, h1, h2⟩

private theorem int_loop (hF : F.p < F.emax) {body : Nat → Fp F → Res (Fp F)} (x y : Fin N → Fp F) (z w : Fin N → ℤ)
    (h : ∀ i (hi : i < N) s, body i s = .ok (s + x ⟨i, hi⟩ * y ⟨i, hi⟩)) (hx : ∀ i, Spec.IsInt (x i) (z i)) (hy : ∀ i, Spec.IsInt (y i) (w i))
    (hz : ∑ i, |z i * w i| ≤ 2 ^ (F.p + 1)) :
    ∃ d, loop N body 0 = .ok d ∧ Spec.IsInt d (∑ i, z i * w i) := by
  refine int_sum hF (fun i => x i * y i) (fun i => z i * w i) h (fun i => (hx i).mul hF (hy i) ?_) hz
  exact (Finset.single_le_sum (f := fun i => |z i * w i|) (fun _ _ => abs_nonneg _) (Finset.mem_univ i)).trans hz

/-- **C129** `dot` of integer vectors is exact as long as the sum of the magnitudes of the products is at most `2^(p+1)` (`2^24` for `float`, `2^53` for `double`). -/
theorem C129_dot (hF : F.p < F.emax) (cfg : Cfg) (v w : Vec M (Fp F)) (x y : Fin M → ℤ) (hv : Spec.VInts v x) (hw : Spec.VInts w y)
    (hb : ∑ i, |x i * y i| ≤ 2 ^ (F.p + 1)) : ∃ d, v.dot cfg w = .ok d ∧ Spec.IsInt d (∑ i, x i * y i) :=
  int_loop hF (fun i => v[i]) (fun i => w[i]) x y (by intro i hi s; simp [hi]) hv hw hb

/-- **C129** `squared_length` likewise. -/
theorem C129_squared_length (hF : F.p < F.emax) (v : Vec M (Fp F)) (x : Fin M → ℤ) (hv : Spec.VInts v x)
    (hb : ∑ i, x i ^ 2 ≤ 2 ^ (F.p + 1)) : ∃ d, v.squaredLength = .ok d ∧ Spec.IsInt d (∑ i, x i ^ 2) := by
  simp only [sq] at hb ⊢
  exact int_loop hF (fun i => v[i]) (fun i => v[i]) x x (by intro i hi s; simp [hi]) hv hv (by simpa only [abs_mul_self] using hb)

/-- **C129** The matrix product of integer matrices is the product of the integer matrices. -/
theorem C129_matrix_product (hF : F.p < F.emax) (cfg : Cfg) (a : Mat M N (Fp F)) (b : Mat N P (Fp F)) (A : Matrix (Fin M) (Fin N) ℤ)
    (B : Matrix (Fin N) (Fin P) ℤ) (ha : Spec.Ints a A) (hb : Spec.Ints b B) (h : ∀ r c, ∑ p, |A r p * B p c| ≤ 2 ^ (F.p + 1)) :
    ∃ m, a.mul cfg b = .ok m ∧ Spec.Ints m (A * B) := by
  have hcell : ∀ (r : Fin M) (c : Fin P), ∃ d, loop N (fun i s => .ok (s + (if h : i < N then a.get r ⟨i, h⟩ * b.get ⟨i, h⟩ c else 0))) 0 = .ok d ∧
      Spec.IsInt d ((A * B) r c) := fun r c =>
    int_loop hF (fun p => a.get r p) (fun p => b.get p c) (fun p => A r p) (fun p => B p c) (by intro i hi s; simp [hi])
      (fun p => ha r p) (fun p => hb p c) (h r c)
  choose d hd1 hd2 using hcell
  have hmul : ∀ m0 : Mat M P (Fp F), m0.multiply cfg a b = .ok (Mat.ofFn d) := by
    intro m0
    have : ∀ r c, iter (fun i s => s + (if h : i < N then a.get r ⟨i, h⟩ * b.get ⟨i, h⟩ c else 0)) N 0 = d r c := by
      intro r c
      have := hd1 r c
      rw [loop_iter (fun i s => s + (if h : i < N then a.get r ⟨i, h⟩ * b.get ⟨i, h⟩ c else 0)) (fun i _ s => rfl)] at this
      exact Except.ok.inj this
    rw [Mat.multiply_iter]
    simp only [this]
  exact ⟨Mat.ofFn d, by rw [Mat.mul, Mat.ctor_eq, Vmml.bind_ok, hmul], fun r c => by rw [Mat.get_ofFn]; exact hd2 r c⟩

/-- **C129** Matrix times vector. -/
theorem C129_matrix_vector (hF : F.p < F.emax) (cfg : Cfg) (a : Mat M N (Fp F)) (v : Vec N (Fp F)) (A : Matrix (Fin M) (Fin N) ℤ) (x : Fin N → ℤ)
    (ha : Spec.Ints a A) (hv : Spec.VInts v x) (h : ∀ r, ∑ p, |A r p * x p| ≤ 2 ^ (F.p + 1)) :
    ∃ w, a.mulVec cfg v = .ok w ∧ Spec.VInts w (A.mulVec x) := by
  have hcell : ∀ r : Fin M, ∃ d, loop N (fun j tmp => do pure (tmp + (← a.atGet cfg r j) * (← v.atGet cfg j))) 0 = .ok d ∧
      Spec.IsInt d (A.mulVec x r) := fun r =>
    int_loop hF (fun p => a.get r p) (fun p => v[p]) (fun p => A r p) x (by intro i hi s; simp [hi]) (fun p => ha r p) hv (h r)
  choose d hd1 hd2 using hcell
  refine ⟨Vector.ofFn d, ?_, ?_⟩
  · unfold Mat.mulVec
    apply loop_set
    intro i hi w _
    have := hd1 ⟨i, hi⟩
    simp only at this
    rw [this, Vmml.bind_ok, Vec.atSet_lt _ _ _ hi]
  · intro r
    have : (Vector.ofFn d)[r] = d r := by simp
    rw [this]
    exact hd2 r

/-- **C129** `sum_elements()` of an integer matrix is exact up to `2^53` (in `double`). -/
theorem C129_sum (hD : Spec.Wider F D) (h0 : 0 < F.emax) (hDp : D.p < D.emax) (m : Mat M N (Fp F)) (Z : Matrix (Fin M) (Fin N) ℤ) (hm : Spec.Ints m Z)
    (hz : ∑ r, ∑ c, |Z r c| ≤ 2 ^ (D.p + 1)) : ∃ d, m.sumElements (Fp.convert D) = .ok d ∧ Spec.IsInt d (∑ r, ∑ c, Z r c) := by
  have hpe : F.p ≤ D.p ∧ F.emax ≤ D.emax := by
    rcases hD with rfl | ⟨h1, h2⟩
    · exact ⟨le_rfl, le_rfl⟩
    · exact ⟨h1, h2.le⟩
  let z : Mat M N ℤ := Mat.ofFn Z
  have hzget : ∀ r c, z.get r c = Z r c := fun r c => Mat.get_ofFn _ _ _
  have s1 := Mat.sum_array z id
  have s2 := Mat.sum_array z fun k => |k|
  simp only [id, hzget] at s1 s2
  rw [← s1]
  refine int_sum hDp (fun i => Fp.convert D m.array[i]) (fun i => z.array[i]) (by intro i hi s; rw [Mat.rawGet_lt m hi, Vmml.bind_ok]; rfl)
    (fun i => ?_) (by rw [s2]; exact hz)
  obtain ⟨⟨r, c⟩, rfl⟩ := (cellEquiv (M := M) (N := N)).surjective i
  simp only [Mat.array_cell]
  rw [hzget]
  obtain ⟨h1, h2⟩ := Fp.widen_fin (D := D) hpe.1 hpe.2 h0 (hm r c).1
  exact ⟨h1, by rw [h2, (hm r c).2]⟩

/-- **C129** `cross` of integer vectors. -/
theorem C129_cross (hF : F.p < F.emax) (a b : Vec 3 (Fp F)) (x y : Fin 3 → ℤ) (ha : Spec.VInts a x) (hb : Spec.VInts b y)
    (h : ∀ i j, 2 * |x i * y j| ≤ 2 ^ (F.p + 1)) :
    Spec.VInts (a.cross b) ![x 1 * y 2 - x 2 * y 1, x 2 * y 0 - x 0 * y 2, x 0 * y 1 - x 1 * y 0] := by
  have key : ∀ (s t u v : Fp F) (k l i j : ℤ), Spec.IsInt s k → Spec.IsInt t l → Spec.IsInt u i → Spec.IsInt v j →
      2 * |k * l| ≤ 2 ^ (F.p + 1) → 2 * |i * j| ≤ 2 ^ (F.p + 1) → Spec.IsInt (s * t - u * v) (k * l - i * j) := by
    intro s t u v k l i j h1 h2 h3 h4 h5 h6
    have p1 := abs_nonneg (k * l)
    have p2 := abs_nonneg (i * j)
    refine (h1.mul hF h2 (by linarith)).sub hF (h3.mul hF h4 (by linarith)) ?_
    have := abs_sub (k * l) (i * j)
    linarith
  intro i
  match i with
  | 0 => exact key _ _ _ _ _ _ _ _ (ha 1) (hb 2) (ha 2) (hb 1) (h _ _) (h _ _)
  | 1 => exact key _ _ _ _ _ _ _ _ (ha 2) (hb 0) (ha 0) (hb 2) (h _ _) (h _ _)
  | 2 => exact key _ _ _ _ _ _ _ _ (ha 0) (hb 1) (ha 1) (hb 0) (h _ _) (h _ _)

/-! ## Determinants and inverses -/

/-- `a` is the integer `k`, which is at most `c B^n`. -/
private structure Trk (B : ℕ) (n c : ℕ) (a : Fp F) (k : ℤ) : Prop where
  int : Spec.IsInt a k
  bound : |k| ≤ c * (B : ℤ) ^ n

/-- Everything up to `C B^d` is exact. -/
private structure Lim (F : Format) (B C d : ℕ) : Prop where
  fmt : F.p < F.emax
  one : 1 ≤ B
  max : (C : ℤ) * (B : ℤ) ^ d ≤ 2 ^ (F.p + 1)

namespace Trk
variable {B C d n c n' c' : ℕ} {a b : Fp F} {k l : ℤ}

private theorem fits (hL : Lim F B C d) (h : |k| ≤ c * (B : ℤ) ^ n) (hc : c ≤ C) (hn : n ≤ d) : |k| ≤ 2 ^ (F.p + 1) := by
  refine h.trans (le_trans ?_ hL.max)
  have h1 : (1 : ℤ) ≤ B := by exact_mod_cast hL.one
  exact mul_le_mul (by exact_mod_cast hc) (pow_le_pow_right₀ h1 hn) (by positivity) (by positivity)

private theorem add (hL : Lim F B C d) (h : Trk B n c a k) (h' : Trk B n c' b l) (hn : n ≤ d) (hc : c + c' ≤ C) : Trk B n (c + c') (a + b) (k + l) := by
  have hb : |k + l| ≤ ((c + c' : ℕ) : ℤ) * (B : ℤ) ^ n := by
    have := abs_add_le k l
    have := h.bound
    have := h'.bound
    push_cast
    linarith
  exact ⟨h.int.add hL.fmt h'.int (fits hL hb hc hn), hb⟩
private theorem sub (hL : Lim F B C d) (h : Trk B n c a k) (h' : Trk B n c' b l) (hn : n ≤ d) (hc : c + c' ≤ C) : Trk B n (c + c') (a - b) (k - l) := by
  have hb : |k - l| ≤ ((c + c' : ℕ) : ℤ) * (B : ℤ) ^ n := by
    have := abs_sub k l
    have := h.bound
    have := h'.bound
    push_cast
    linarith
  exact ⟨h.int.sub hL.fmt h'.int (fits hL hb hc hn), hb⟩
private theorem mul (hL : Lim F B C d) (h : Trk B n c a k) (h' : Trk B n' c' b l) (hn : n + n' ≤ d) (hc : c * c' ≤ C) :
    Trk B (n + n') (c * c') (a * b) (k * l) := by
  have hb : |k * l| ≤ ((c * c' : ℕ) : ℤ) * (B : ℤ) ^ (n + n') := by
    rw [abs_mul]
    refine (mul_le_mul h.bound h'.bound (abs_nonneg _) (by positivity)).trans (le_of_eq ?_)
    push_cast; ring
  exact ⟨h.int.mul hL.fmt h'.int (fits hL hb hc hn), hb⟩
private theorem neg (h : Trk B n c a k) : Trk B n c (-a) (-k) := ⟨h.int.neg, by rw [abs_neg]; exact h.bound⟩
private theorem conv (h : Trk B n c a k) (hn : n = n') (hc : c = c') (hk : k = l) : Trk B n' c' a l := by
  subst hn hc hk; exact h
end Trk

section
variable {B : ℕ}

private theorem cof3_int (hL : Lim F B 6 3) (m : Mat 3 3 (Fp F)) (Z : Matrix (Fin 3) (Fin 3) ℤ) (hE : ∀ i j, Trk B 1 1 (m.get i j) (Z i j)) (r c : Fin 3) :
    Trk B 2 2 (m.cof3.get r c) (Z.adjugate r c) := by
  have H (a b c d e f g h : Fin 3) : Trk B 2 2 (m.get a b * m.get c d - m.get e f * m.get g h) (Z a b * Z c d - Z e f * Z g h) :=
    (((hE a b).mul hL (hE c d) (by decide) (by decide)).sub hL ((hE e f).mul hL (hE g h) (by decide) (by decide)) (by decide) (by decide)).conv rfl rfl rfl
  rw [cof3, get_ofFn, Matrix.adjugate_fin_three]
  fin_cases r <;> fin_cases c <;> exact (H _ _ _ _ _ _ _ _).conv rfl rfl (by simp; try ring)

private theorem cof4_int (hL : Lim F B 24 4) (m : Mat 4 4 (Fp F)) (Z : Matrix (Fin 4) (Fin 4) ℤ) (hE : ∀ i j, Trk B 1 1 (m.get i j) (Z i j)) (r c : Fin 4) :
    Trk B 3 6 (m.cof4.get r c) (Z.adjugate r c) := by
  have T (x y a b c d e f g h : Fin 4) : Trk B 3 2 (m.get x y * (m.get a b * m.get c d - m.get e f * m.get g h)) (Z x y * (Z a b * Z c d - Z e f * Z g h)) :=
    ((hE x y).mul hL (((hE a b).mul hL (hE c d) (by decide) (by decide)).sub hL ((hE e f).mul hL (hE g h) (by decide) (by decide)) (by decide) (by decide))
      (by decide) (by decide)).conv rfl rfl rfl
  have H1 {x y z : Fp F} {k l i : ℤ} (hx : Trk B 3 2 x k) (hy : Trk B 3 2 y l) (hz : Trk B 3 2 z i) : Trk B 3 6 (x - y + z) (k - l + i) :=
    ((hx.sub hL hy (by decide) (by decide)).add hL hz (by decide) (by decide)).conv rfl rfl rfl
  have H2 {x y z : Fp F} {k l i : ℤ} (hx : Trk B 3 2 x k) (hy : Trk B 3 2 y l) (hz : Trk B 3 2 z i) : Trk B 3 6 (x - y - z) (k - l - i) :=
    ((hx.sub hL hy (by decide) (by decide)).sub hL hz (by decide) (by decide)).conv rfl rfl rfl
  have e : (0 : Fin 4).succAbove 0 = 1 ∧ (0 : Fin 4).succAbove 1 = 2 ∧ (0 : Fin 4).succAbove 2 = 3 ∧ (1 : Fin 4).succAbove 0 = 0 ∧
    (1 : Fin 4).succAbove 1 = 2 ∧ (1 : Fin 4).succAbove 2 = 3 ∧ (2 : Fin 4).succAbove 0 = 0 ∧ (2 : Fin 4).succAbove 1 = 1 ∧
    (2 : Fin 4).succAbove 2 = 3 ∧ (3 : Fin 4).succAbove 0 = 0 ∧ (3 : Fin 4).succAbove 1 = 1 ∧ (3 : Fin 4).succAbove 2 = 2 :=
    ⟨rfl, rfl, rfl, rfl, rfl, rfl, rfl, rfl, rfl, rfl, rfl, rfl⟩
  obtain ⟨e1, e2, e3, e4, e5, e6, e7, e8, e9, e10, e11, e12⟩ := e
  rw [cof4, get_ofFn, Matrix.adjugate_fin_succ_eq_det_submatrix, Matrix.det_fin_three]
  fin_cases r <;> fin_cases c <;>
    first
    | exact (H1 (T _ _ _ _ _ _ _ _ _ _) (T _ _ _ _ _ _ _ _ _ _) (T _ _ _ _ _ _ _ _ _ _)).conv rfl rfl
        (by simp [e1, e2, e3, e4, e5, e6, e7, e8, e9, e10, e11, e12]; try ring)
    | exact (H2 (T _ _ _ _ _ _ _ _ _ _) (T _ _ _ _ _ _ _ _ _ _) (T _ _ _ _ _ _ _ _ _ _)).conv rfl rfl
        (by simp [e1, e2, e3, e4, e5, e6, e7, e8, e9, e10, e11, e12]; try ring)

private theorem det2_int (hL : Lim F B 2 2) (m : Mat 2 2 (Fp F)) (Z : Matrix (Fin 2) (Fin 2) ℤ) (hE : ∀ i j, Trk B 1 1 (m.get i j) (Z i j)) :
    Trk B 2 2 (m.get 0 0 * m.get 1 1 - m.get 0 1 * m.get 1 0) Z.det :=
  (((hE 0 0).mul hL (hE 1 1) (by decide) (by decide)).sub hL ((hE 0 1).mul hL (hE 1 0) (by decide) (by decide)) (by decide) (by decide)).conv rfl rfl
    (Matrix.det_fin_two _).symm

private theorem det3_int (hL : Lim F B 6 3) (m : Mat 3 3 (Fp F)) (Z : Matrix (Fin 3) (Fin 3) ℤ) (hE : ∀ i j, Trk B 1 1 (m.get i j) (Z i j)) :
    Trk B 3 6 (m.get 0 0 * m.cof3.get 0 0 + m.get 0 1 * m.cof3.get 1 0 + m.get 0 2 * m.cof3.get 2 0) Z.det := by
  have C := cof3_int hL m Z hE
  have T (j : Fin 3) := (hE 0 j).mul hL (C j 0) (by decide) (by decide)
  refine (((T 0).add hL (T 1) (by decide) (by decide)).add hL (T 2) (by decide) (by decide)).conv rfl rfl ?_
  rw [Matrix.det_eq_sum_mul_adjugate_row _ 0, Fin.sum_univ_three]

private theorem det4c_int (hL : Lim F B 24 4) (m : Mat 4 4 (Fp F)) (Z : Matrix (Fin 4) (Fin 4) ℤ) (hE : ∀ i j, Trk B 1 1 (m.get i j) (Z i j)) :
    Trk B 4 24 (m.get 0 0 * m.cof4.get 0 0 + m.get 0 1 * m.cof4.get 1 0 + m.get 0 2 * m.cof4.get 2 0 + m.get 0 3 * m.cof4.get 3 0) Z.det := by
  have C := cof4_int hL m Z hE
  have T (j : Fin 4) := (hE 0 j).mul hL (C j 0) (by decide) (by decide)
  refine ((((T 0).add hL (T 1) (by decide) (by decide)).add hL (T 2) (by decide) (by decide)).add hL (T 3) (by decide) (by decide)).conv rfl rfl ?_
  rw [Matrix.det_eq_sum_mul_adjugate_row _ 0, Fin.sum_univ_four]

private theorem det4_int (hL : Lim F B 24 4) (cfg : Cfg) (m : Mat 4 4 (Fp F)) (Z : Matrix (Fin 4) (Fin 4) ℤ) (hE : ∀ i j, Trk B 1 1 (m.get i j) (Z i j)) :
    ∃ d, m.det4 cfg = .ok d ∧ Trk B 4 24 d Z.det := by
  have g0 : 0 < 4 := by omega
  have g1 : 1 < 4 := by omega
  have g2 : 2 < 4 := by omega
  have g3 : 3 < 4 := by omega
  have T (a b c d e f g h : Fin 4) : Trk B 4 1 (m.get a b * m.get c d * m.get e f * m.get g h) (Z a b * Z c d * Z e f * Z g h) :=
    ((((hE a b).mul hL (hE c d) (by decide) (by decide)).mul hL (hE e f) (by decide) (by decide)).mul hL (hE g h) (by decide) (by decide)).conv rfl rfl rfl
  have hA {x y : Fp F} {k l : ℤ} {j : ℕ} (hj : j + 1 ≤ 24) (hx : Trk B 4 j x k) (hy : Trk B 4 1 y l) : Trk B 4 (j + 1) (x + y) (k + l) :=
    hx.add hL hy (by decide) hj
  have hS {x y : Fp F} {k l : ℤ} {j : ℕ} (hj : j + 1 ≤ 24) (hx : Trk B 4 j x k) (hy : Trk B 4 1 y l) : Trk B 4 (j + 1) (x - y) (k - l) :=
    hx.sub hL hy (by decide) hj
  refine ⟨_, by simp only [det4, atGet_lt cfg m, g0, g1, g2, g3, bind_ok, pure_ok]; rfl, ?_⟩
  have s1 := T 0 3 1 2 2 1 3 0
  have s2 := hS (by omega) s1 (T 0 2 1 3 2 1 3 0)
  have s3 := hS (by omega) s2 (T 0 3 1 1 2 2 3 0)
  have s4 := hA (by omega) s3 (T 0 1 1 3 2 2 3 0)
  have s5 := hA (by omega) s4 (T 0 2 1 1 2 3 3 0)
  have s6 := hS (by omega) s5 (T 0 1 1 2 2 3 3 0)
  have s7 := hS (by omega) s6 (T 0 3 1 2 2 0 3 1)
  have s8 := hA (by omega) s7 (T 0 2 1 3 2 0 3 1)
  have s9 := hA (by omega) s8 (T 0 3 1 0 2 2 3 1)
  have s10 := hS (by omega) s9 (T 0 0 1 3 2 2 3 1)
  have s11 := hS (by omega) s10 (T 0 2 1 0 2 3 3 1)
  have s12 := hA (by omega) s11 (T 0 0 1 2 2 3 3 1)
  have s13 := hA (by omega) s12 (T 0 3 1 1 2 0 3 2)
  have s14 := hS (by omega) s13 (T 0 1 1 3 2 0 3 2)
  have s15 := hS (by omega) s14 (T 0 3 1 0 2 1 3 2)
  have s16 := hA (by omega) s15 (T 0 0 1 3 2 1 3 2)
  have s17 := hA (by omega) s16 (T 0 1 1 0 2 3 3 2)
  have s18 := hS (by omega) s17 (T 0 0 1 1 2 3 3 2)
  have s19 := hS (by omega) s18 (T 0 2 1 1 2 0 3 3)
  have s20 := hA (by omega) s19 (T 0 1 1 2 2 0 3 3)
  have s21 := hA (by omega) s20 (T 0 2 1 0 2 1 3 3)
  have s22 := hS (by omega) s21 (T 0 0 1 2 2 1 3 3)
  have s23 := hS (by omega) s22 (T 0 1 1 0 2 2 3 3)
  have s24 := hA (by omega) s23 (T 0 0 1 1 2 2 3 3)
  refine s24.conv rfl rfl ?_
  rw [det_fin_four]
  ring
end

private theorem leaf {n : ℕ} {B : ℕ} {m : Mat n n (Fp F)} {Z : Matrix (Fin n) (Fin n) ℤ} (hm : Spec.Ints m Z) (hB : ∀ i j, |Z i j| ≤ B) (i j : Fin n) :
    Trk B 1 1 (m.get i j) (Z i j) := ⟨hm i j, by have := hB i j; simpa using this⟩

private theorem lim {n : ℕ} {B : ℕ} (hF : F.p < F.emax) (h1 : 1 ≤ B) (hmax : n.factorial * B ^ n ≤ 2 ^ (F.p + 1)) : Lim F B n.factorial n :=
  ⟨hF, h1, by exact_mod_cast hmax⟩

/-- **C129** `det()` of an integer matrix with entries up to `B` is exact if `n! B^n` is at most `2^(p+1)`: for `float` and `4x4` this allows entries up to 28, for
`double` up to 4401. -/
theorem C129_det (hF : F.p < F.emax) (cfg : Cfg) {n : Nat} (hn : 1 ≤ n) (hn' : n ≤ 4) (m : Mat n n (Fp F)) (Z : Matrix (Fin n) (Fin n) ℤ)
    (hm : Spec.Ints m Z) {B : ℕ} (h1 : 1 ≤ B) (hB : ∀ i j, |Z i j| ≤ B) (hmax : n.factorial * B ^ n ≤ 2 ^ (F.p + 1)) :
    ∃ d, m.det cfg = .ok d ∧ Spec.IsInt d Z.det := by
  have hL := lim hF h1 hmax
  have hE := leaf hm hB
  match n, hn, hn' with
  | 1, _, _ =>
    refine ⟨m.get 0 0, ?_, ?_⟩
    · rw [det, det1, rawGet_lt m (by omega)]; rfl
    · rw [Matrix.det_unique]; exact hm 0 0
  | 2, _, _ => exact ⟨m.get 0 0 * m.get 1 1 - m.get 0 1 * m.get 1 0, by simp [det, det2], (det2_int hL m Z hE).int⟩
  | 3, _, _ =>
    refine ⟨m.get 0 0 * m.cof3.get 0 0 + m.get 0 1 * m.cof3.get 1 0 + m.get 0 2 * m.cof3.get 2 0, ?_, (det3_int hL m Z hE).int⟩
    simp only [det, det3, atGet_lt cfg m (show 0 < 3 by omega), atGet_lt cfg m (show 1 < 3 by omega),
      atGet_lt cfg m (show 2 < 3 by omega), show 0 < 3 from by omega, show 1 < 3 from by omega,
      show 2 < 3 from by omega, bind_ok, pure_ok]
    simp only [cof3, get_ofFn]
    rfl
  | 4, _, _ =>
    obtain ⟨d, h, h'⟩ := det4_int hL cfg m Z hE
    exact ⟨d, h, h'.int⟩

private theorem inverse_int (hF : F.p < F.emax) (cfg : Cfg) {K : Nat} (hK : 1 ≤ K) (hK' : K ≤ 3) (m inv : Mat (K + 1) (K + 1) (Fp F)) (tol : Fp F)
    (Z : Matrix (Fin (K + 1)) (Fin (K + 1)) ℤ) (hm : Spec.Ints m Z) {B : ℕ} (h1 : 1 ≤ B) (hB : ∀ i j, |Z i j| ≤ B)
    (hmax : (K + 1).factorial * B ^ (K + 1) ≤ 2 ^ (F.p + 1)) :
    ∃ (d : Fp F) (X Y : Mat (K + 1) (K + 1) (Fp F)) (b : Bool),
      m.inverse cfg inv tol = .ok (b, if b then Mat.ofFn fun r c => X.get r c * (1 / d) else Y) ∧
      (b = true ↔ if K + 1 = 2 then ¬ CMath.fabs d < tol else ¬ CMath.fabs d ≤ tol) ∧
      Spec.IsInt d Z.det ∧ ∀ r c, Trk B K K.factorial (X.get r c) (Z.adjugate r c) := by
  have hL := lim hF h1 hmax
  have hE := leaf hm hB
  match K, hK, hK' with
  | 1, _, _ =>
    refine ⟨m.get 0 0 * m.get 1 1 - m.get 0 1 * m.get 1 0, m.cof2, inv,
      !(@decide (CMath.fabs (m.get 0 0 * m.get 1 1 - m.get 0 1 * m.get 1 0) < tol) (inferInstance)), ?_, ?_, (det2_int hL m Z hE).int, ?_⟩
    · rw [inverse, inverse2_struct]
      by_cases h : CMath.fabs (m.get 0 0 * m.get 1 1 - m.get 0 1 * m.get 1 0) < tol
      · simp [h]
      · simp [h]
    · simp only [Bool.not_eq_true', decide_eq_false_iff_not, Nat.reduceAdd, if_true]
    · intro r c
      rw [cof2, get_ofFn, Matrix.adjugate_fin_two]
      fin_cases r <;> fin_cases c
      · exact (hE 1 1).conv rfl rfl rfl
      · exact (hE 0 1).neg.conv rfl rfl rfl
      · exact (hE 1 0).neg.conv rfl rfl rfl
      · exact (hE 0 0).conv rfl rfl rfl
  | 2, _, _ =>
    refine ⟨m.get 0 0 * m.cof3.get 0 0 + m.get 0 1 * m.cof3.get 1 0 + m.get 0 2 * m.cof3.get 2 0, m.cof3, m.cof3,
      !(@decide (CMath.fabs (m.get 0 0 * m.cof3.get 0 0 + m.get 0 1 * m.cof3.get 1 0 + m.get 0 2 * m.cof3.get 2 0) ≤ tol) (inferInstance)), ?_, ?_,
      (det3_int hL m Z hE).int, fun r c => (cof3_int hL m Z hE r c).conv rfl rfl rfl⟩
    · rw [inverse, inverse3_struct]
      by_cases h : CMath.fabs (m.get 0 0 * m.cof3.get 0 0 + m.get 0 1 * m.cof3.get 1 0 + m.get 0 2 * m.cof3.get 2 0) ≤ tol
      · simp [h]
      · simp [h]
    · simp only [Bool.not_eq_true', decide_eq_false_iff_not, Nat.reduceAdd, Nat.reduceEqDiff, if_false]
  | 3, _, _ =>
    refine ⟨m.get 0 0 * m.cof4.get 0 0 + m.get 0 1 * m.cof4.get 1 0 + m.get 0 2 * m.cof4.get 2 0 + m.get 0 3 * m.cof4.get 3 0, m.cof4, m.cof4,
      !(@decide (CMath.fabs (m.get 0 0 * m.cof4.get 0 0 + m.get 0 1 * m.cof4.get 1 0 + m.get 0 2 * m.cof4.get 2 0 + m.get 0 3 * m.cof4.get 3 0) ≤ tol)
        (inferInstance)), ?_, ?_, (det4c_int hL m Z hE).int, fun r c => (cof4_int hL m Z hE r c).conv rfl rfl rfl⟩
    · rw [inverse, inverse4_struct]
      by_cases h : CMath.fabs (m.get 0 0 * m.cof4.get 0 0 + m.get 0 1 * m.cof4.get 1 0 + m.get 0 2 * m.cof4.get 2 0 + m.get 0 3 * m.cof4.get 3 0) ≤ tol
      · simp [h]
      · simp [h]
    · simp only [Bool.not_eq_true', decide_eq_false_iff_not, Nat.reduceAdd, Nat.reduceEqDiff, if_false]

/-- Division of one by a unit. -/
private theorem recip_unit (hF : F.p < F.emax) {d : Fp F} {k : ℤ} (hd : Spec.IsInt d k) (hk : k = 1 ∨ k = -1) : Spec.IsInt (1 / d) k := by
  have o := Fp.one_fin (F := F) (by omega)
  have e : (1 : Fp F).val / d.val = (k : ℝ) := by
    rw [o.2, hd.2]
    rcases hk with rfl | rfl <;> norm_num
  have hk' : |k| ≤ 2 ^ (F.p + 1) := by
    have : (1 : ℤ) ≤ 2 ^ (F.p + 1) := one_le_pow₀ (by norm_num)
    rcases hk with rfl | rfl <;> simpa using this
  obtain ⟨h1, h2⟩ := Fp.div_fin (by omega) o.1 hd.1 (by rw [hd.2]; rcases hk with rfl | rfl <;> norm_num) (by rw [e]; exact int_fits hF hk')
  exact ⟨h1, by rw [h2, e, (rep_int hF hk').rnd_eq]⟩

/-- **C129** `inverse()` of an integer matrix with determinant 1 or -1 (integer translations, shears, permutations, quarter turns, mirrors and their products)
succeeds with any tolerance below 1 and returns the inverse exactly; and the computed product with it is exactly the identity. -/
theorem C129_inverse (hF : F.p < F.emax) (cfg : Cfg) {K : Nat} (hK : 1 ≤ K) (hK' : K ≤ 3) (m inv : Mat (K + 1) (K + 1) (Fp F)) (tol : Fp F)
    (htol : tol.Finite) (htol1 : tol.val < 1) (Z : Matrix (Fin (K + 1)) (Fin (K + 1)) ℤ) (hm : Spec.Ints m Z) (hdet : Z.det = 1 ∨ Z.det = -1)
    {B : ℕ} (h1 : 1 ≤ B) (hB : ∀ i j, |Z i j| ≤ B) (hmax : (K + 1).factorial * B ^ (K + 1) ≤ 2 ^ (F.p + 1)) :
    ∃ (r : Mat (K + 1) (K + 1) (Fp F)) (W : Matrix (Fin (K + 1)) (Fin (K + 1)) ℤ), m.inverse cfg inv tol = .ok (true, r) ∧
      Spec.Ints r W ∧ Z * W = 1 ∧ W * Z = 1 ∧
      (∃ p, m.mul cfg r = .ok p ∧ Spec.Ints p 1) ∧ (∃ p, r.mul cfg m = .ok p ∧ Spec.Ints p 1) := by
  obtain ⟨d, X, Y, b, g1, g2, g3, g4⟩ := inverse_int hF cfg hK hK' m inv tol Z hm h1 hB hmax
  have habs : (CMath.fabs d).Finite ∧ (CMath.fabs d).val = 1 := by
    obtain ⟨a1, a2⟩ := Fp.fabs_fin g3.1
    refine ⟨a1, ?_⟩
    rw [a2, g3.2]
    rcases hdet with e | e <;> rw [e] <;> norm_num
  have hb : b = true := by
    rw [g2]
    split
    · rw [Fp.lt_val habs.1 htol, habs.2]; linarith
    · rw [Fp.le_val habs.1 htol, habs.2]; linarith
  subst hb
  have hunit : Z.det * Z.det = 1 := by rcases hdet with e | e <;> rw [e] <;> norm_num
  have hr := recip_unit hF g3 hdet
  have hdabs : |Z.det| = 1 := by rcases hdet with e | e <;> rw [e] <;> norm_num
  have hcof : ∀ i j, |(Z.det • Z.adjugate) i j| ≤ K.factorial * (B : ℤ) ^ K := by
    intro i j
    rw [Matrix.smul_apply, smul_eq_mul, abs_mul, hdabs, one_mul]
    exact (g4 i j).bound
  have hB1 : (1 : ℤ) ≤ B := by exact_mod_cast h1
  have hmax' : ((K + 1 : ℕ) : ℤ) * (K.factorial * (B : ℤ) ^ K * B) ≤ 2 ^ (F.p + 1) := by
    have : (((K + 1).factorial : ℕ) : ℤ) * (B : ℤ) ^ (K + 1) ≤ 2 ^ (F.p + 1) := by exact_mod_cast hmax
    rw [Nat.factorial_succ] at this
    push_cast at this ⊢
    calc _ = _ := by ring
      _ ≤ _ := this
  have hW : Spec.Ints (Mat.ofFn fun r c => X.get r c * (1 / d)) (Z.det • Z.adjugate) := by
    intro i j
    rw [Mat.get_ofFn]
    have : (Z.det • Z.adjugate) i j = Z.adjugate i j * Z.det := by rw [Matrix.smul_apply, smul_eq_mul]; ring
    have hc := hcof i j
    rw [this] at hc ⊢
    refine (g4 i j).int.mul hF hr (hc.trans (le_trans ?_ hmax'))
    have p1 : (0 : ℤ) ≤ K.factorial * (B : ℤ) ^ K := by positivity
    push_cast
    nlinarith [mul_nonneg p1 (sub_nonneg.2 hB1), mul_nonneg (show (0 : ℤ) ≤ K by positivity) (mul_nonneg p1 (show (0 : ℤ) ≤ B by positivity))]
  have e1 : Z * (Z.det • Z.adjugate) = 1 := by rw [Matrix.mul_smul, Matrix.mul_adjugate, smul_smul, hunit, one_smul]
  have e2 : (Z.det • Z.adjugate) * Z = 1 := by rw [Matrix.smul_mul, Matrix.adjugate_mul, smul_smul, hunit, one_smul]
  have hprod : ∀ x y : ℤ, |x| ≤ B → |y| ≤ K.factorial * (B : ℤ) ^ K → |x * y| ≤ K.factorial * (B : ℤ) ^ K * B := by
    intro x y hx hy
    rw [abs_mul, mul_comm]
    exact mul_le_mul hy hx (abs_nonneg _) (by positivity)
  refine ⟨_, _, g1, hW, e1, e2, ?_, ?_⟩
  · have := C129_matrix_product hF cfg m _ Z _ hm hW (fun r c => by
      refine (Finset.sum_le_card_nsmul _ _ _ fun p _ => hprod _ _ (hB r p) (hcof p c)).trans ?_
      simpa using hmax')
    rwa [e1] at this
  · have := C129_matrix_product hF cfg _ m _ Z hW hm (fun r c => by
      refine (Finset.sum_le_card_nsmul _ _ _ fun p _ => ?_).trans (by simpa using hmax')
      rw [mul_comm]
      exact hprod _ _ (hB p c) (hcof r p))
    rwa [e2] at this

private theorem sum_abs_le {n : ℕ} {b : ℤ} (f : Fin n → ℤ) (h : ∀ i, |f i| ≤ b) : ∑ i, |f i| ≤ n * b := by
  refine (Finset.sum_le_card_nsmul _ _ _ fun i _ => h i).trans ?_
  simp

private theorem dot_abs_le {n : ℕ} {a b : ℤ} (_hb : 0 ≤ b) (f g : Fin n → ℤ) (hf : ∀ i, |f i| ≤ a) (hg : ∀ i, |g i| ≤ b) :
    ∑ i, |f i * g i| ≤ n * (a * b) := by
  refine sum_abs_le _ fun i => ?_
  rw [abs_mul]
  exact mul_le_mul (hf i) (hg i) (abs_nonneg _) ((abs_nonneg _).trans (hf i))

/-- **C129** Transforming by a product is exactly transforming twice: for integer entries up to `α`, `β`, `ξ` with `N P α β ξ` at most
`2^(p+1)`, both sides are the same vector. -/
theorem C129_associative (hF : F.p < F.emax) (cfg : Cfg) (a : Mat M N (Fp F)) (b : Mat N P (Fp F)) (v : Vec P (Fp F)) (A : Matrix (Fin M) (Fin N) ℤ)
    (B : Matrix (Fin N) (Fin P) ℤ) (x : Fin P → ℤ) (ha : Spec.Ints a A) (hb : Spec.Ints b B) (hv : Spec.VInts v x) {α β ξ : ℤ}
    (hα : ∀ i j, |A i j| ≤ α) (hβ : ∀ i j, |B i j| ≤ β) (hξ : ∀ i, |x i| ≤ ξ) (h1 : 1 ≤ α) (h2 : 1 ≤ β) (h3 : 1 ≤ ξ)
    (hmax : N * P * (α * β * ξ) ≤ 2 ^ (F.p + 1)) :
    ∃ ab abv bv abv' , a.mul cfg b = .ok ab ∧ ab.mulVec cfg v = .ok abv ∧ b.mulVec cfg v = .ok bv ∧ a.mulVec cfg bv = .ok abv' ∧
      (∀ i : Fin M, abv[i].Finite ∧ abv'[i].Finite ∧ abv[i].val = abv'[i].val) ∧ Spec.VInts abv ((A * B).mulVec x) := by
  have hab0 : 0 ≤ α * β := by positivity
  have hbx0 : 0 ≤ β * ξ := by positivity
  have hN0 : (0 : ℤ) ≤ N := by positivity
  have hP0 : (0 : ℤ) ≤ P := by positivity
  obtain ⟨ab, e1, e1'⟩ := C129_matrix_product hF cfg a b A B ha hb (fun r c => by
    have hP : (1 : ℤ) ≤ P := by exact_mod_cast (show 1 ≤ P from (Nat.zero_le _).trans_lt c.2)
    refine (dot_abs_le (by linarith) _ _ (fun p => hα r p) fun p => hβ p c).trans (le_trans ?_ hmax)
    have : (1 : ℤ) ≤ P * ξ := by nlinarith
    nlinarith [mul_nonneg (mul_nonneg hN0 hab0) (sub_nonneg.2 this)])
  have hAB : ∀ r c, |(A * B) r c| ≤ N * (α * β) := by
    intro r c
    rw [Matrix.mul_apply]
    exact (Finset.abs_sum_le_sum_abs _ _).trans (dot_abs_le (by linarith) _ _ (fun p => hα r p) fun p => hβ p c)
  obtain ⟨abv, e2, e2'⟩ := C129_matrix_vector hF cfg ab v (A * B) x e1' hv (fun r => by
    refine (dot_abs_le (by linarith) _ _ (fun p => hAB r p) hξ).trans (le_trans (le_of_eq ?_) hmax)
    ring)
  obtain ⟨bv, e3, e3'⟩ := C129_matrix_vector hF cfg b v B x hb hv (fun r => by
    have hN : (1 : ℤ) ≤ N := by exact_mod_cast (show 1 ≤ N from (Nat.zero_le _).trans_lt r.2)
    refine (dot_abs_le (by linarith) _ _ (fun p => hβ r p) hξ).trans (le_trans ?_ hmax)
    have : (1 : ℤ) ≤ N * α := by nlinarith
    nlinarith [mul_nonneg (mul_nonneg hP0 hbx0) (sub_nonneg.2 this)])
  have hBx : ∀ r, |B.mulVec x r| ≤ P * (β * ξ) := by
    intro r
    exact (Finset.abs_sum_le_sum_abs _ _).trans (dot_abs_le (by linarith) _ _ (fun p => hβ r p) hξ)
  obtain ⟨abv', e4, e4'⟩ := C129_matrix_vector hF cfg a bv A (B.mulVec x) ha e3' (fun r => by
    refine (dot_abs_le (by positivity) _ _ (fun p => hα r p) hBx).trans (le_trans (le_of_eq ?_) hmax)
    ring)
  refine ⟨ab, abv, bv, abv', e1, e2, e3, e4, fun i => ⟨(e2' i).1, (e4' i).1, ?_⟩, e2'⟩
  rw [(e2' i).2, (e4' i).2, Matrix.mulVec_mulVec]

/-- **C129** Every integer up to `2^(p+1)` is a number of the format, so the theorems apply to every integer matrix with such entries ... -/
theorem C129_every_integer (hF : F.p < F.emax) (Z : Matrix (Fin M) (Fin N) ℤ) (h : ∀ r c, |Z r c| ≤ 2 ^ (F.p + 1)) : ∃ m : Mat M N (Fp F), Spec.Ints m Z := by
  have key : ∀ k : ℤ, |k| ≤ 2 ^ (F.p + 1) → ∃ a : Fp F, Spec.IsInt a k := by
    intro k hk
    have hr : F.Rep |(k : ℝ)| := by
      have : F.Rep ((|k| : ℤ) : ℝ) := rep_int hF (by rwa [abs_abs])
      simpa using this
    have hm : F.Mag |(k : ℝ)| := ⟨abs_nonneg _, hr, int_fits hF hk⟩
    rcases le_total 0 k with h | h
    · refine ⟨.fin false _ hm, trivial, ?_⟩
      rw [Fp.val_fin, if_neg (by simp), abs_of_nonneg (by exact_mod_cast h)]
    · refine ⟨.fin true _ hm, trivial, ?_⟩
      rw [Fp.val_fin, if_pos rfl, abs_of_nonpos (by exact_mod_cast h), neg_neg]
  choose f hf using fun r c => key (Z r c) (h r c)
  exact ⟨Mat.ofFn f, fun r c => by rw [Mat.get_ofFn]; exact hf r c⟩

/-- **C129** ... and the bound cannot be raised: the next integer is not a number of the format, so the sum of `2^(p+1)` and 1 is not exact. -/
theorem C129_sharp (a : Fp F) : ¬ Spec.IsInt a (2 ^ (F.p + 1) + 1) := by
  rintro ⟨h1, h2⟩
  obtain ⟨k, e, he, hk, hx⟩ := Fp.rep_val h1
  rw [h2] at hx
  have hpos : (0 : ℝ) < (2 : ℝ) ^ e := by positivity
  rcases le_or_gt e 0 with h | h
  · have hle : (2 : ℝ) ^ e ≤ 1 := zpow_le_one_of_nonpos₀ (by norm_num) h
    have hk' : |(k : ℝ)| ≤ 2 ^ (F.p + 1) := by exact_mod_cast hk
    have h3 : ((2 ^ (F.p + 1) + 1 : ℤ) : ℝ) ≤ |(k : ℝ)| * 1 := by
      rw [hx]
      refine (mul_le_mul_of_nonneg_right (le_abs_self _) hpos.le).trans ?_
      exact mul_le_mul_of_nonneg_left hle (abs_nonneg _)
    push_cast at h3
    linarith
  · obtain ⟨n, rfl⟩ : ∃ n : ℕ, e = (n + 1 : ℕ) := ⟨(e - 1).toNat, by omega⟩
    rw [zpow_natCast] at hx
    have hx' : (2 ^ (F.p + 1) + 1 : ℤ) = k * 2 ^ (n + 1) := by exact_mod_cast hx
    rw [pow_succ, pow_succ] at hx'
    have : (2 : ℤ) ∣ 1 := ⟨k * 2 ^ n - 2 ^ F.p, by linarith⟩
    omega

/-- A shear with a translation meets the hypotheses of the inverse in `float`. -/
example : ∃ m : Mat 4 4 (Fp single), Spec.Ints m !![1, 2, 0, 7; 0, 1, 0, -5; 0, 3, 1, 9; 0, 0, 0, 1] ∧
    single.p < single.emax ∧ (!![1, 2, 0, 7; 0, 1, 0, -5; 0, 3, 1, 9; 0, 0, 0, 1] : Matrix (Fin 4) (Fin 4) ℤ).det = 1 ∧
    (∀ i j, |(!![1, 2, 0, 7; 0, 1, 0, -5; 0, 3, 1, 9; 0, 0, 0, 1] : Matrix (Fin 4) (Fin 4) ℤ) i j| ≤ (9 : ℕ)) ∧
    (3 + 1).factorial * 9 ^ (3 + 1) ≤ 2 ^ (single.p + 1) := by
  have hb : ∀ i j, |(!![1, 2, 0, 7; 0, 1, 0, -5; 0, 3, 1, 9; 0, 0, 0, 1] : Matrix (Fin 4) (Fin 4) ℤ) i j| ≤ (9 : ℕ) := by decide
  obtain ⟨m, hm⟩ := C129_every_integer (F := single) (by norm_num) !![1, 2, 0, 7; 0, 1, 0, -5; 0, 3, 1, 9; 0, 0, 0, 1] (fun r c => (hb r c).trans (by norm_num))
  exact ⟨m, hm, by norm_num, by rw [det_fin_four]; decide, hb, by norm_num [Nat.factorial]⟩

end Vmml
