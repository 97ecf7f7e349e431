import Verif.Model.Machine
import Verif.Props.MatrixInverse
import Verif.Proofs.VectorLemmas
import Mathlib.Algebra.Order.BigOperators.Group.Finset
import Mathlib.Data.Fintype.BigOperators

/-!
# C99: integer element types
-/

namespace Vmml
open Mat
variable {M N P : Nat} {B : Int} {α : Type}

namespace Signed

theorem val_make (x d : Int) : (make x : Signed B).val = some d ↔ InRange B x ∧ d = x := by
  unfold make
  by_cases h : InRange B x <;> simp [h, eq_comm]

theorem val_op2 (f : Int → Int → Signed B) (a b : Signed B) (d : Int) :
    (op2 f a b).val = some d ↔ ∃ x y, a.val = some x ∧ b.val = some y ∧ (f x y).val = some d := by
  unfold op2
  rcases a with ⟨_ | x⟩ <;> rcases b with ⟨_ | y⟩ <;> simp

theorem val_add (a b : Signed B) (d : Int) : (a + b).val = some d ↔ ∃ x y, a.val = some x ∧ b.val = some y ∧ InRange B (x + y) ∧ d = x + y :=
  (val_op2 _ a b d).trans (by simp only [val_make])
theorem val_sub (a b : Signed B) (d : Int) : (a - b).val = some d ↔ ∃ x y, a.val = some x ∧ b.val = some y ∧ InRange B (x - y) ∧ d = x - y :=
  (val_op2 _ a b d).trans (by simp only [val_make])
theorem val_mul (a b : Signed B) (d : Int) : (a * b).val = some d ↔ ∃ x y, a.val = some x ∧ b.val = some y ∧ InRange B (x * y) ∧ d = x * y :=
  (val_op2 _ a b d).trans (by simp only [val_make])
theorem val_neg (a : Signed B) (d : Int) : (-a).val = some d ↔ ∃ x, a.val = some x ∧ InRange B (-x) ∧ d = -x :=
  (val_op2 _ _ a d).trans (by simp [val_make])
theorem val_div (a b : Signed B) (d : Int) : (a / b).val = some d ↔
    ∃ x y, a.val = some x ∧ b.val = some y ∧ y ≠ 0 ∧ InRange B (x.tdiv y) ∧ d = x.tdiv y := by
  refine (val_op2 _ a b d).trans ?_
  constructor
  · rintro ⟨x, y, hx, hy, h⟩
    refine ⟨x, y, hx, hy, ?_⟩
    by_cases h0 : y = 0
    · simp [h0] at h
    · rw [if_neg h0, val_make] at h
      exact ⟨h0, h⟩
  · rintro ⟨x, y, hx, hy, h0, h⟩
    refine ⟨x, y, hx, hy, ?_⟩
    rw [if_neg h0, val_make]
    exact h

theorem inRange_of_abs {x : Int} (h : |x| < B) : InRange B x := by
  have := abs_lt.1 h
  exact ⟨by omega, this.2⟩

/-- The value is `x` and `x` is at most `b` in magnitude. -/
def Near (s : Signed B) (x b : Int) : Prop := s.val = some x ∧ |x| ≤ b

theorem Near.add {s t : Signed B} {x y a b : Int} (h : Near s x a) (h' : Near t y b) (hb : a + b < B) : Near (s + t) (x + y) (a + b) := by
  have e : |x + y| ≤ a + b := (abs_add_le _ _).trans (add_le_add h.2 h'.2)
  exact ⟨(val_add _ _ _).2 ⟨x, y, h.1, h'.1, inRange_of_abs (by omega), rfl⟩, e⟩
theorem Near.sub {s t : Signed B} {x y a b : Int} (h : Near s x a) (h' : Near t y b) (hb : a + b < B) : Near (s - t) (x - y) (a + b) := by
  have e : |x - y| ≤ a + b := (abs_sub _ _).trans (add_le_add h.2 h'.2)
  exact ⟨(val_sub _ _ _).2 ⟨x, y, h.1, h'.1, inRange_of_abs (by omega), rfl⟩, e⟩
theorem Near.mul {s t : Signed B} {x y a b : Int} (h : Near s x a) (h' : Near t y b) (hb : a * b < B) : Near (s * t) (x * y) (a * b) := by
  have e : |x * y| ≤ a * b := by rw [abs_mul]; exact mul_le_mul h.2 h'.2 (abs_nonneg _) ((abs_nonneg _).trans h.2)
  exact ⟨(val_mul _ _ _).2 ⟨x, y, h.1, h'.1, inRange_of_abs (by omega), rfl⟩, e⟩

end Signed
open Signed

/-! ### Signed types: exactly when there is no overflow -/

/-- Accumulation `s += f( i )`: there is no overflow exactly if every summand is a value and every partial sum is representable. -/
theorem signed_sum (n : Nat) (f : Nat → Signed B) (d : Int) :
    (iter (fun i s => s + f i) n (0 : Signed B)).val = some d ↔
      ∃ g : Nat → Int, (∀ i, i < n → (f i).val = some (g i)) ∧ (∀ k, k < n → InRange B (∑ i ∈ Finset.range (k + 1), g i))
        ∧ d = ∑ i ∈ Finset.range n, g i := by
  induction n generalizing d with
  | zero =>
    have : (iter (fun i s => s + f i) 0 (0 : Signed B)).val = some 0 := rfl
    rw [this]
    simp [eq_comm]
  | succ n ih =>
    have : iter (fun i s => s + f i) (n + 1) (0 : Signed B) = iter (fun i s => s + f i) n (0 : Signed B) + f n := rfl
    rw [this, val_add]
    constructor
    · rintro ⟨x, y, hx, hy, hr, rfl⟩
      obtain ⟨g, g1, g2, rfl⟩ := (ih x).1 hx
      refine ⟨fun i => if i = n then y else g i, ?_, ?_, ?_⟩
      · intro i hi
        by_cases e : i = n
        · simp [e, hy]
        · simp [e, g1 i (by omega)]
      · intro k hk
        by_cases e : k = n
        · subst e
          rw [Finset.sum_range_succ, if_pos rfl, Finset.sum_congr rfl (g := g)]
          · exact hr
          · intro i hi; rw [if_neg (by have := Finset.mem_range.1 hi; omega)]
        · rw [Finset.sum_congr rfl (g := g)]
          · exact g2 k (by omega)
          · intro i hi; exact if_neg (by have := Finset.mem_range.1 hi; omega)
      · rw [Finset.sum_range_succ, if_pos rfl]
        congr 1
        refine Finset.sum_congr rfl fun i hi => ?_
        exact (if_neg (by have := Finset.mem_range.1 hi; omega)).symm
    · rintro ⟨g, g1, g2, rfl⟩
      refine ⟨∑ i ∈ Finset.range n, g i, g n, (ih _).2 ⟨g, fun i hi => g1 i (by omega), fun k hk => g2 k (by omega), rfl⟩, g1 n (by omega), ?_, ?_⟩
      · rw [← Finset.sum_range_succ]; exact g2 n (by omega)
      · rw [Finset.sum_range_succ]

/-- The sum of the first `k + 1` terms. -/
def Spec.partialSum {n : Nat} (t : Fin n → Int) (k : Fin n) : Int := ∑ i : Fin n, if i ≤ k then t i else 0

private theorem sum_fin_range {n : Nat} (t : Fin n → Int) : ∑ i ∈ Finset.range n, (if h : i < n then t ⟨i, h⟩ else 0) = ∑ i, t i := by
  rw [Finset.sum_range]
  simp

private theorem partial_range {n : Nat} (t : Fin n → Int) (k : Fin n) :
    ∑ i ∈ Finset.range (k.1 + 1), (if h : i < n then t ⟨i, h⟩ else 0) = Spec.partialSum t k := by
  unfold Spec.partialSum
  rw [← sum_fin_range]
  have hk := k.2
  rw [← Finset.sum_subset (Finset.range_subset_range.2 (show k.1 + 1 ≤ n by omega))]
  · refine Finset.sum_congr rfl fun i hi => ?_
    have hi := Finset.mem_range.1 hi
    have h : i < n := by omega
    have h2 : (⟨i, h⟩ : Fin n) ≤ k := by rw [Fin.le_def]; simp only; omega
    simp only [h, dif_pos, h2, if_true]
  · intro i hi hn
    have hi := Finset.mem_range.1 hi
    rw [Finset.mem_range] at hn
    have h2 : ¬ (⟨i, hi⟩ : Fin n) ≤ k := by rw [Fin.le_def]; simp only; omega
    simp only [hi, dif_pos, h2, if_false]

/-- No product and no partial sum of the accumulation overflows. -/
def Spec.NoOverflow (B : Int) {n : Nat} (t : Fin n → Int) : Prop := (∀ i, InRange B (t i)) ∧ ∀ k, InRange B (Spec.partialSum t k)

theorem abs_partialSum {n : Nat} (t : Fin n → Int) (k : Fin n) : |Spec.partialSum t k| ≤ ∑ i, |t i| := by
  refine (Finset.abs_sum_le_sum_abs _ _).trans (Finset.sum_le_sum fun i _ => ?_)
  split_ifs
  · exact le_rfl
  · simp

/-- A sufficient condition: the magnitudes of the terms add up to less than `B`. -/
theorem noOverflow_of_sum {n : Nat} (t : Fin n → Int) (h : ∑ i, |t i| < B) : Spec.NoOverflow B t := by
  refine ⟨fun i => inRange_of_abs (lt_of_le_of_lt ?_ h), fun k => inRange_of_abs (lt_of_le_of_lt (abs_partialSum t k) h)⟩
  exact Finset.single_le_sum (f := fun i => |t i|) (fun i _ => abs_nonneg _) (Finset.mem_univ i)

/-- The accumulation loop of `dot`, `squared_length` and the matrix products on values `x`, `y`. -/
theorem signed_acc {n : Nat} (p q : Fin n → Signed B) (x y : Fin n → Int) (hx : ∀ i, (p i).val = some (x i)) (hy : ∀ i, (q i).val = some (y i)) (d : Int) :
    (iter (fun i s => s + (if h : i < n then p ⟨i, h⟩ * q ⟨i, h⟩ else 0)) n (0 : Signed B)).val = some d ↔
      Spec.NoOverflow B (fun i => x i * y i) ∧ d = ∑ i, x i * y i := by
  rw [signed_sum]
  constructor
  · rintro ⟨g, g1, g2, rfl⟩
    have e : ∀ i : Fin n, InRange B (x i * y i) ∧ g i = x i * y i := by
      intro i
      have := g1 i i.2
      rw [dif_pos i.2, val_mul] at this
      obtain ⟨a, b, ha, hb, hr, hd⟩ := this
      have e1 := Option.some.inj (ha.symm.trans (hx i))
      have e2 := Option.some.inj (hb.symm.trans (hy i))
      subst e1 e2
      exact ⟨hr, hd⟩
    have e' : ∀ i ∈ Finset.range n, g i = if h : i < n then x ⟨i, h⟩ * y ⟨i, h⟩ else 0 := by
      intro i hi
      have hi := Finset.mem_range.1 hi
      rw [dif_pos hi]
      exact (e ⟨i, hi⟩).2
    refine ⟨⟨fun i => (e i).1, fun k => ?_⟩, ?_⟩
    · rw [← partial_range]
      have := g2 k k.2
      rwa [Finset.sum_congr rfl (fun i hi => e' i (Finset.mem_range.2 (by have := Finset.mem_range.1 hi; omega)))] at this
    · rw [Finset.sum_congr rfl e', sum_fin_range fun i => x i * y i]
  · rintro ⟨⟨h1, h2⟩, rfl⟩
    refine ⟨fun i => if h : i < n then x ⟨i, h⟩ * y ⟨i, h⟩ else 0, ?_, ?_, ?_⟩
    · intro i hi
      simp only [dif_pos hi]
      rw [val_mul]
      exact ⟨_, _, hx _, hy _, h1 ⟨i, hi⟩, rfl⟩
    · intro k hk
      rw [partial_range (fun i => x i * y i) ⟨k, hk⟩]
      exact h2 ⟨k, hk⟩
    · rw [sum_fin_range fun i => x i * y i]

/-- The elements of `v` are the integers `x`. -/
def Spec.IsVec (v : Vec M (Signed B)) (x : Fin M → Int) : Prop := ∀ i : Fin M, v[i].val = some (x i)
/-- The cells of `m` are the integers `x`. -/
def Spec.IsMat (m : Mat M N (Signed B)) (x : Matrix (Fin M) (Fin N) Int) : Prop := ∀ i j, (m.get i j).val = some (x i j)

/-- C99. `dot` of two vectors of a signed type overflows unless every product and every partial sum is representable; otherwise it is the exact inner
product. -/
theorem C99_dot (cfg : Cfg) (v w : Vec M (Signed B)) (x y : Fin M → Int) (hv : Spec.IsVec v x) (hw : Spec.IsVec w y) :
    ∃ s, v.dot cfg w = .ok s ∧ ∀ d, s.val = some d ↔ Spec.NoOverflow B (fun i => x i * y i) ∧ d = ∑ i, x i * y i := by
  refine ⟨_, loop_iter (fun i s => s + (if h : i < M then v[i] * w[i] else 0)) ?_, signed_acc (fun i => v[i]) (fun i => w[i]) x y hv hw⟩
  intro i hi s
  simp [hi]

/-- C99. `squared_length`: the terms are not negative, so there is no overflow exactly if the exact squared length is representable. -/
theorem C99_squared_length (v : Vec M (Signed B)) (x : Fin M → Int) (hv : Spec.IsVec v x) (hB : 0 < B) :
    ∃ s, v.squaredLength = .ok s ∧ ∀ d, s.val = some d ↔ ∑ i, x i ^ 2 < B ∧ d = ∑ i, x i ^ 2 := by
  refine ⟨_, loop_iter (fun i s => s + (if h : i < M then v[i] * v[i] else 0)) ?_, fun d => ?_⟩
  · intro i hi s
    simp [hi]
  · refine (signed_acc (fun i => v[i]) (fun i => v[i]) x x hv hv d).trans ?_
    simp only [← sq]
    refine and_congr_left fun _ => ⟨fun h => ?_, fun h => noOverflow_of_sum _ ?_⟩
    · rcases Nat.eq_zero_or_pos M with rfl | hM
      · simpa using hB
      · have := (h.2 ⟨M - 1, by omega⟩).2
        unfold Spec.partialSum at this
        rwa [Finset.sum_congr rfl (fun i _ => if_pos (by rw [Fin.le_def]; simp only; omega))] at this
    · simpa using h

/-- Accumulation into one cell, without any law for the addition. -/
theorem Mat.loop_acc_iter' [Add α] {n : Nat} {body : Nat → Mat M N α → Res (Mat M N α)} {m : Mat M N α}
    {r : Fin M} {c : Fin N} (g : Nat → α)
    (h : ∀ i (_ : i < n) (m : Mat M N α), body i m = .ok (m.put r c (m.get r c + g i))) :
    loop n body m = .ok (m.put r c (iter (fun i s => s + g i) n (m.get r c))) := by
  induction n with
  | zero => simp [iter]
  | succ n ih =>
    rw [loop_succ, ih (fun i hi m => h i (by omega) m)]
    simp [h n (by omega), iter]

/-- The matrix product without any law for the arithmetic. -/
theorem Mat.multiply_iter [Zero α] [Add α] [Mul α] (cfg : Cfg) (m0 : Mat M P α) (a : Mat M N α) (b : Mat N P α) :
    m0.multiply cfg a b = .ok (Mat.ofFn fun r c => iter (fun i s => s + (if h : i < N then a.get r ⟨i, h⟩ * b.get ⟨i, h⟩ c else 0)) N 0) := by
  unfold Mat.multiply
  apply Mat.loop2_const
  intro r hr c hc m
  rw [Mat.atSet_lt cfg m 0 hr hc, bind_ok]
  rw [Mat.loop_acc_iter' (r := ⟨r, hr⟩) (c := ⟨c, hc⟩)
    (fun i => if h : i < N then a.get ⟨r, hr⟩ ⟨i, h⟩ * b.get ⟨i, h⟩ ⟨c, hc⟩ else 0) (by intro i hi m; simp [hr, hc, hi])]
  simp

/-- C99. Matrix product: a cell overflows unless all its products and partial sums are representable, otherwise it is the cell of the exact product. -/
theorem C99_matrix_product (cfg : Cfg) (a : Mat M N (Signed B)) (b : Mat N P (Signed B)) (A : Matrix (Fin M) (Fin N) Int) (C : Matrix (Fin N) (Fin P) Int)
    (ha : Spec.IsMat a A) (hb : Spec.IsMat b C) :
    ∃ m, a.mul cfg b = .ok m ∧ ∀ r c d, (m.get r c).val = some d ↔ Spec.NoOverflow B (fun i => A r i * C i c) ∧ d = (A * C) r c := by
  refine ⟨_, by rw [Mat.mul, Mat.ctor_eq, bind_ok, Mat.multiply_iter], ?_⟩
  intro r c d
  rw [Mat.get_ofFn, signed_acc (fun i => a.get r i) (fun i => b.get i c) (fun i => A r i) (fun i => C i c) (fun i => ha r i) (fun i => hb i c),
    Matrix.mul_apply]

/-- C99. Entries bounded by `p` and `q` with `n p q < B` (`n` the inner size) multiply exactly. -/
theorem C99_matrix_product_exact (cfg : Cfg) (a : Mat M N (Signed B)) (b : Mat N P (Signed B)) (A : Matrix (Fin M) (Fin N) Int)
    (C : Matrix (Fin N) (Fin P) Int) (ha : Spec.IsMat a A) (hb : Spec.IsMat b C) (p q : Int) (hp : ∀ i j, |A i j| ≤ p) (hq : ∀ i j, |C i j| ≤ q)
    (h : N * (p * q) < B) : ∃ m, a.mul cfg b = .ok m ∧ Spec.IsMat m (A * C) := by
  obtain ⟨m, hm, hd⟩ := C99_matrix_product cfg a b A C ha hb
  refine ⟨m, hm, fun r c => (hd r c _).2 ⟨noOverflow_of_sum _ (lt_of_le_of_lt ?_ h), rfl⟩⟩
  calc ∑ i, |A r i * C i c| ≤ ∑ _i : Fin N, p * q := Finset.sum_le_sum fun i _ => by
        rw [abs_mul]
        exact mul_le_mul (hp _ _) (hq _ _) (abs_nonneg _) ((abs_nonneg _).trans (hp r i))
    _ = N * (p * q) := by simp

/-- C99. Matrix times vector, likewise. -/
theorem C99_matrix_vector (cfg : Cfg) (a : Mat M N (Signed B)) (v : Vec N (Signed B)) (A : Matrix (Fin M) (Fin N) Int) (x : Fin N → Int)
    (ha : Spec.IsMat a A) (hv : Spec.IsVec v x) :
    ∃ w, a.mulVec cfg v = .ok w ∧ ∀ (r : Fin M) d, w[r].val = some d ↔ Spec.NoOverflow B (fun i => A r i * x i) ∧ d = A.mulVec x r := by
  refine ⟨Vector.ofFn fun r : Fin M => iter (fun i s => s + (if h : i < N then a.get r ⟨i, h⟩ * v[i] else 0)) N 0, ?_, ?_⟩
  · unfold Mat.mulVec
    apply loop_set
    intro i hi w _
    rw [loop_iter (fun j s => s + (if h : j < N then a.get ⟨i, hi⟩ ⟨j, h⟩ * v[j] else 0)) (by intro j hj s; simp [hj, hi]), bind_ok, Vec.atSet_lt _ _ _ hi]
  · intro r d
    simp only [Fin.getElem_fin, Vector.getElem_ofFn, Fin.eta]
    exact signed_acc (fun i => a.get r i) (fun i => v[i]) (fun i => A r i) x (fun i => ha r i) hv d

/-- C99. Element-wise operations: component `i` overflows unless its own exact result is representable; division also needs a nonzero divisor. -/
theorem C99_elementwise (cfg : Cfg) (v w : Vec M (Signed B)) (x y : Fin M → Int) (hv : Spec.IsVec v x) (hw : Spec.IsVec w y) :
    (∃ u, v.add cfg w = .ok u ∧ ∀ (i : Fin M) d, u[i].val = some d ↔ InRange B (x i + y i) ∧ d = x i + y i) ∧
    (∃ u, v.sub cfg w = .ok u ∧ ∀ (i : Fin M) d, u[i].val = some d ↔ InRange B (x i - y i) ∧ d = x i - y i) ∧
    (∃ u, v.mul cfg w = .ok u ∧ ∀ (i : Fin M) d, u[i].val = some d ↔ InRange B (x i * y i) ∧ d = x i * y i) ∧
    (∃ u, v.div cfg w = .ok u ∧ ∀ (i : Fin M) d, u[i].val = some d ↔ y i ≠ 0 ∧ InRange B ((x i).tdiv (y i)) ∧ d = (x i).tdiv (y i)) ∧
    (∃ u, v.negate = .ok u ∧ ∀ (i : Fin M) d, u[i].val = some d ↔ InRange B (-x i) ∧ d = -x i) := by
  refine ⟨⟨_, Vec.add_eq .., fun i d => ?_⟩, ⟨_, Vec.sub_eq .., fun i d => ?_⟩, ⟨_, Vec.mul_eq .., fun i d => ?_⟩, ⟨_, Vec.div_eq .., fun i d => ?_⟩,
    ⟨_, Vec.negate_eq .., fun i d => ?_⟩⟩
  all_goals
    have hx := hv i
    have hy := hw i
    simp only [Fin.getElem_fin] at hx hy
    simp only [Fin.getElem_fin, Vector.getElem_ofFn, val_add, val_sub, val_mul, val_div, val_neg, hx, hy, Option.some.injEq]
    simp

/-- C99. Negation overflows on the least value only, and division on the least value divided by `-1` and on zero divisors only. -/
theorem C99_extremes (hB : 0 < B) (x y : Int) (hx : InRange B x) (hy : InRange B y) :
    (InRange B (-x) ↔ x ≠ -B) ∧ (y ≠ 0 → (InRange B (x.tdiv y) ↔ ¬ (x = -B ∧ y = -1))) := by
  unfold InRange at *
  refine ⟨by omega, fun h0 => ?_⟩
  by_cases h1 : y = -1
  · subst h1
    have : x.tdiv (-1) = -x := by simp
    rw [this]
    omega
  by_cases h2 : y = 1
  · subst h2
    simp
    omega
  · have h3 : (x.tdiv y).natAbs ≤ x.natAbs / 2 := by
      rw [Int.natAbs_tdiv]
      exact Nat.div_le_div_left (by omega) (by omega)
    omega

/-- C99. `cross` of vectors with components bounded by `p` and `q`, `2 p q < B`. -/
theorem C99_cross (v w : Vec 3 (Signed B)) (x y : Fin 3 → Int) (hv : Spec.IsVec v x) (hw : Spec.IsVec w y) (p q : Int) (hp : ∀ i, |x i| ≤ p)
    (hq : ∀ i, |y i| ≤ q) (h : 2 * (p * q) < B) :
    Spec.IsVec (v.cross w) ![x 1 * y 2 - x 2 * y 1, x 2 * y 0 - x 0 * y 2, x 0 * y 1 - x 1 * y 0] := by
  have hpq : 0 ≤ p * q := mul_nonneg ((abs_nonneg _).trans (hp 0)) ((abs_nonneg _).trans (hq 0))
  have X (i : Fin 3) : Near v[i] (x i) p := ⟨hv i, hp i⟩
  have Y (i : Fin 3) : Near w[i] (y i) q := ⟨hw i, hq i⟩
  have T (i j : Fin 3) := (X i).mul (Y j) (by omega)
  have R (i j k l : Fin 3) := ((T i j).sub (T k l) (by omega)).1
  intro i
  fin_cases i
  · exact R 1 2 2 1
  · exact R 2 0 0 2
  · exact R 0 1 1 0

/-- C99. `det()` of an integer matrix with entries bounded by `p`: exact if `n! p^n < B`. -/
theorem C99_det (cfg : Cfg) {n : Nat} (hn : 1 ≤ n) (hn' : n ≤ 4) (m : Mat n n (Signed B)) (A : Matrix (Fin n) (Fin n) Int) (hm : Spec.IsMat m A) (p : Int)
    (hp1 : 1 ≤ p) (hp : ∀ i j, |A i j| ≤ p) (h : n.factorial * p ^ n < B) : ∃ s, m.det cfg = .ok s ∧ s.val = some A.det := by
  have E (i j : Fin n) : Near (m.get i j) (A i j) p := ⟨hm i j, hp i j⟩
  have p2 : p ≤ p * p := by nlinarith
  have p3 : p * p ≤ p * p * p := by nlinarith
  have p4 : p * p * p ≤ p * p * p * p := by nlinarith [mul_nonneg (show 0 ≤ p by omega) (show 0 ≤ p by omega)]
  match n, hn, hn' with
  | 1, _, _ =>
    refine ⟨m.get 0 0, ?_, ?_⟩
    · rw [det, det1, rawGet_lt m (by omega)]; rfl
    · rw [Matrix.det_unique]; exact hm 0 0
  | 2, _, _ =>
    refine ⟨m.get 0 0 * m.get 1 1 - m.get 0 1 * m.get 1 0, by simp [det, det2], ?_⟩
    have h' : 2 * (p * p) < B := by simpa [Nat.factorial, sq] using h
    have T (i j k l : Fin 2) := (E i j).mul (E k l) (by omega)
    rw [Matrix.det_fin_two]
    exact ((T 0 0 1 1).sub (T 0 1 1 0) (by omega)).1
  | 3, _, _ =>
    have h' : 6 * (p * p * p) < B := by
      have e : p ^ 3 = p * p * p := by ring
      rw [e] at h
      simpa [Nat.factorial] using h
    have e3 : p * (p * p + p * p) = 2 * (p * p * p) := by ring
    refine ⟨m.get 0 0 * (m.get 1 1 * m.get 2 2 - m.get 1 2 * m.get 2 1) + m.get 0 1 * (m.get 1 2 * m.get 2 0 - m.get 1 0 * m.get 2 2)
      + m.get 0 2 * (m.get 1 0 * m.get 2 1 - m.get 1 1 * m.get 2 0), ?_, ?_⟩
    · simp only [det, det3, atGet_lt cfg m (show 0 < 3 by omega), atGet_lt cfg m (show 1 < 3 by omega),
        atGet_lt cfg m (show 2 < 3 by omega), show 0 < 3 from by omega, show 1 < 3 from by omega,
        show 2 < 3 from by omega, bind_ok, pure_ok]
      rfl
    have S (i j k l : Fin 3) := (E i j).mul (E k l) (by omega)
    have T (a b c d e f g h i j : Fin 3) := (E a b).mul ((S c d e f).sub (S g h i j) (by omega)) (by omega)
    have := (((T 0 0 1 1 2 2 1 2 2 1).add (T 0 1 1 2 2 0 1 0 2 2) (by omega)).add (T 0 2 1 0 2 1 1 1 2 0) (by omega)).1
    rw [this, Matrix.det_fin_three]
    congr 1
    ring
  | 4, _, _ =>
    have h' : 24 * (p * p * p * p) < B := by
      have e : p ^ 4 = p * p * p * p := by ring
      rw [e] at h
      simpa [Nat.factorial] using h
    have h0 : 0 < 4 := by omega
    have h1 : 1 < 4 := by omega
    have h2 : 2 < 4 := by omega
    have h3 : 3 < 4 := by omega
    refine ⟨_, by simp only [det, det4, atGet_lt cfg m, h0, h1, h2, h3, bind_ok, pure_ok]; rfl, ?_⟩
    have T (a b c d e f g h : Fin 4) := (((E a b).mul (E c d) (by omega)).mul (E e f) (by omega)).mul (E g h) (by omega)
    have := ((((((((((((((((((((((((T 0 3 1 2 2 1 3 0).sub (T 0 2 1 3 2 1 3 0) (by omega)).sub (T 0 3 1 1 2 2 3 0) (by omega)).add (T 0 1 1 3
      2 2 3 0) (by omega)).add (T 0 2 1 1 2 3 3 0) (by omega)).sub (T 0 1 1 2 2 3 3 0) (by omega)).sub (T 0 3 1 2 2 0 3 1) (by omega)).add (T 0 2 1 3 2 0 3 1)
      (by omega)).add (T 0 3 1 0 2 2 3 1) (by omega)).sub (T 0 0 1 3 2 2 3 1) (by omega)).sub (T 0 2 1 0 2 3 3 1) (by omega)).add (T 0 0 1 2 2 3 3 1)
      (by omega)).add (T 0 3 1 1 2 0 3 2) (by omega)).sub (T 0 1 1 3 2 0 3 2) (by omega)).sub (T 0 3 1 0 2 1 3 2) (by omega)).add (T 0 0 1 3 2 1 3 2)
      (by omega)).add (T 0 1 1 0 2 3 3 2) (by omega)).sub (T 0 0 1 1 2 3 3 2) (by omega)).sub (T 0 2 1 1 2 0 3 3) (by omega)).add (T 0 1 1 2 2 0 3 3)
      (by omega)).add (T 0 2 1 0 2 1 3 3) (by omega)).sub (T 0 0 1 2 2 1 3 3) (by omega)).sub (T 0 1 1 0 2 2 3 3) (by omega)).add (T 0 0 1 1
      2 2 3 3) (by omega)).1
    refine this.trans ?_
    rw [det_fin_four]
    congr 1
    ring

/-! ### Unsigned types: arithmetic modulo `2^w` -/

/-- The value of an unsigned integer. -/
def Spec.nat {w : Nat} (x : BitVec w) : Int := x.toNat

private theorem cast_nat {w : Nat} (x : BitVec w) : ((Spec.nat x : Int) : BitVec w) = x := by
  simp [Spec.nat]

private theorem nat_cast {w : Nat} (z : Int) : Spec.nat ((z : Int) : BitVec w) = z % 2 ^ w := by
  have h : ((z : Int) : BitVec w) = BitVec.ofInt w z := rfl
  unfold Spec.nat
  rw [h, BitVec.toNat_ofInt, Int.toNat_of_nonneg (Int.emod_nonneg _ (by positivity))]
  simp

/-- C99. Unsigned element types of `w` bits: `dot`, the matrix product, matrix times vector, the determinant and the element-wise operations give the exact
integer result modulo `2^w`, whatever overflows on the way; in particular the exact result whenever that is representable. -/
theorem C99_unsigned (cfg : Cfg) {w : Nat} :
    (∀ (u v : Vec M (BitVec w)), ∃ s, u.dot cfg v = .ok s ∧ Spec.nat s = (∑ i : Fin M, Spec.nat u[i] * Spec.nat v[i]) % 2 ^ w) ∧
    (∀ (u v : Vec M (BitVec w)), ∃ s, u.add cfg v = .ok s ∧ ∀ i : Fin M, Spec.nat s[i] = (Spec.nat u[i] + Spec.nat v[i]) % 2 ^ w) ∧
    (∀ (u v : Vec M (BitVec w)), ∃ s, u.sub cfg v = .ok s ∧ ∀ i : Fin M, Spec.nat s[i] = (Spec.nat u[i] - Spec.nat v[i]) % 2 ^ w) ∧
    (∀ (u v : Vec M (BitVec w)), ∃ s, u.mul cfg v = .ok s ∧ ∀ i : Fin M, Spec.nat s[i] = (Spec.nat u[i] * Spec.nat v[i]) % 2 ^ w) ∧
    (∀ (a : Mat M N (BitVec w)) (b : Mat N P (BitVec w)), ∃ m, a.mul cfg b = .ok m ∧
      ∀ r c, Spec.nat (m.get r c) = (∑ p, Spec.nat (a.get r p) * Spec.nat (b.get p c)) % 2 ^ w) ∧
    (∀ (a : Mat M N (BitVec w)) (v : Vec N (BitVec w)), ∃ s, a.mulVec cfg v = .ok s ∧
      ∀ r : Fin M, Spec.nat s[r] = (∑ p, Spec.nat (a.get r p) * Spec.nat v[p]) % 2 ^ w) := by
  have red (z : Int) (x : BitVec w) (h : x = ((z : Int) : BitVec w)) : Spec.nat x = z % 2 ^ w := by rw [h, nat_cast]
  refine ⟨?_, ?_, ?_, ?_, ?_, ?_⟩
  · intro u v
    refine ⟨_, Vec.dot_eq .., red _ _ ?_⟩
    push_cast
    simp only [cast_nat]
  · intro u v
    refine ⟨_, Vec.add_eq .., fun i => red _ _ ?_⟩
    push_cast
    simp [cast_nat]
  · intro u v
    refine ⟨_, Vec.sub_eq .., fun i => red _ _ ?_⟩
    push_cast
    simp [cast_nat]
  · intro u v
    refine ⟨_, Vec.mul_eq .., fun i => red _ _ ?_⟩
    push_cast
    simp [cast_nat]
  · intro a b
    refine ⟨_, Mat.mul_eq .., fun r c => red _ _ ?_⟩
    push_cast
    simp only [cast_nat]
    rw [Mat.get_ofFn]
  · intro a v
    refine ⟨_, Mat.mulVec_eq .., fun r => red _ _ ?_⟩
    push_cast
    simp [cast_nat]

/-- C99. The determinant of an unsigned matrix is the determinant of the integers modulo `2^w`. -/
theorem C99_unsigned_det (cfg : Cfg) {w n : Nat} (hn : 1 ≤ n) (hn' : n ≤ 4) (m : Mat n n (BitVec w)) :
    ∃ s, m.det cfg = .ok s ∧ Spec.nat s = (Matrix.of fun i j => Spec.nat (m.get i j)).det % 2 ^ w := by
  have hd : m.det cfg = .ok m.toMat.det := by
    match n, hn, hn' with
    | 1, _, _ => exact det1_eq m
    | 2, _, _ => exact det2_eq cfg m
    | 3, _, _ => exact det3_eq cfg m
    | 4, _, _ => exact det4_eq cfg m
  refine ⟨_, hd, ?_⟩
  rw [← nat_cast]
  congr 1
  have := (Int.castRingHom (BitVec w)).map_det (Matrix.of fun i j => Spec.nat (m.get i j))
  simp only [eq_intCast] at this
  rw [this]
  congr 1
  ext i j
  simp [cast_nat]

/-- Non-vacuity and sharpness, 8-bit signed: a dot product that is exact, and one whose value 0 is representable although a partial sum is not. -/
example : Vec.dot (Cfg.mk true true true) (#v[⟨some 10⟩, ⟨some (-3)⟩] : Vec 2 (Signed 128)) #v[⟨some 12⟩, ⟨some 5⟩] = .ok ⟨some 105⟩ := by decide
example : Vec.dot (Cfg.mk true true true) (#v[⟨some 10⟩, ⟨some 10⟩, ⟨some (-10)⟩, ⟨some (-10)⟩] : Vec 4 (Signed 128))
    #v[⟨some 10⟩, ⟨some 10⟩, ⟨some 10⟩, ⟨some 10⟩] = .ok ⟨none⟩ := by decide
example : Spec.NoOverflow 128 ![10 * 12, -3 * 5] := by unfold Spec.NoOverflow InRange Spec.partialSum; decide

end Vmml
