import Verif.Model.LowpassFilter
import Mathlib.Analysis.Convex.Combination
import Mathlib.Data.Real.Basic
import Mathlib.Algebra.Module.BigOperators
import Mathlib.Tactic.Module
import Mathlib.Algebra.BigOperators.Intervals
import Mathlib.Tactic.Linarith
import Mathlib.Tactic.Positivity
import Mathlib.Tactic.FieldSimp

/-!
# C75, C76: the low-pass filter

Samples are elements of a real vector space `V` (scalars: `V = ℝ`; the code also instantiates it with vectors).
-/

namespace Vmml
open Lowpass
variable {V : Type}

/-- The calls that change the filter. -/
inductive Spec.FilterOp (V : Type) (W : Type := ℝ)
  | add (x : V)
  | factor (f : W)

/-- Execution of a history; the results of the `add` calls are dropped. -/
def Spec.runFilter {W : Type} [One W] [Sub W] [Mul W] [Blend W V] (M : Nat) : List (Spec.FilterOp V W) → Lowpass W V → Res (Lowpass W V)
  | [], l => pure l
  | .add x :: rest, l => do Spec.runFilter M rest (← l.add M x).1
  | .factor f :: rest, l => Spec.runFilter M rest (l.setSmoothFactor f)

/-- The samples added by a history, newest first. -/
def Spec.samples {W : Type} : List (Spec.FilterOp V W) → List V
  | [] => []
  | .add x :: rest => Spec.samples rest ++ [x]
  | .factor _ :: rest => Spec.samples rest

theorem trim_eq (M : Nat) (l : List V) : trim M l = l.take M := by
  induction h : l.length generalizing l with
  | zero =>
    unfold trim
    rw [dif_neg (by omega)]
    simp [List.length_eq_zero_iff.1 h]
  | succ n ih =>
    unfold trim
    split_ifs with hM
    · rw [ih l.dropLast (by simp [h]), List.dropLast_eq_take, List.take_take]
      congr 1; omega
    · rw [List.take_of_length_le (by omega)]

variable [AddCommGroup V] [Module ℝ V]

/-- The filtered value of a window (newest first) with factor `f`: sample `j` has the weight `f^j ∏_{j < i} ( 1 - f^i )`: every sample is mixed in with
weight `f^age`, the mixture so far keeping the rest. -/
noncomputable def Spec.weight (f : ℝ) (n j : Nat) : ℝ := f ^ j * ∏ i ∈ Finset.Ico (j + 1) n, (1 - f ^ i)

noncomputable def Spec.filtered (f : ℝ) (w : List V) : V := ∑ j : Fin w.length, Spec.weight f w.length j • w[j]

theorem weight_succ (f : ℝ) (n j : Nat) (hj : j < n) : Spec.weight f (n + 1) j = (1 - f ^ n) * Spec.weight f n j := by
  unfold Spec.weight
  rw [Finset.prod_Ico_succ_top (by omega)]
  ring

theorem weight_self (f : ℝ) (n : Nat) : Spec.weight f (n + 1) n = f ^ n := by simp [Spec.weight]

theorem filtered_append (f : ℝ) (w : List V) (x : V) : Spec.filtered f (w ++ [x]) = (1 - f ^ w.length) • Spec.filtered f w + f ^ w.length • x := by
  have h : (w ++ [x]).length = w.length + 1 := by simp
  unfold Spec.filtered
  rw [← Equiv.sum_comp (finCongr h.symm), Fin.sum_univ_castSucc]
  simp only [finCongr_apply, Fin.val_cast, Fin.val_castSucc, Fin.val_last, Fin.getElem_fin, List.getElem_append_right (le_refl _)]
  simp only [h, weight_self, Nat.sub_self, List.getElem_cons_zero, Finset.smul_sum, smul_smul]
  congr 1
  apply Finset.sum_congr rfl
  intro j _
  rw [weight_succ f _ _ j.2, List.getElem_append_left j.2]

theorem filtered_pair (f : ℝ) (a b : V) : Spec.filtered f [a, b] = (1 - f) • a + f • b := by
  have h1 : Spec.filtered f [a] = a := by simp [Spec.filtered, Spec.weight]
  simpa [h1] using filtered_append f [a] b

theorem blend_eq (f : ℝ) (rest : List V) (w : List V) (hw : w ≠ []) :
    blend f rest (Spec.filtered f w) (f ^ w.length) = Spec.filtered f (w ++ rest) := by
  induction rest generalizing w with
  | nil => simp [blend]
  | cons x rest ih =>
    rw [blend, Blend.lin_eq, ← filtered_append, ← pow_succ]
    have := ih (w ++ [x]) (by simp)
    simpa using this

/-- C75. One call of `add`, in any state of a filter with `M ≥ 1`: the window becomes the last `M` samples, the new value is their weighted mean as described at
`Spec.weight`; it is returned and also what `get()` returns afterwards. -/
theorem C75_add (M : Nat) (hM : 1 ≤ M) (l : Lowpass ℝ V) (x : V) :
    ∃ l', l.add M x = .ok (l', Spec.filtered l.factor ((x :: l.data).take M)) ∧
      l'.get = .ok (Spec.filtered l.factor ((x :: l.data).take M)) ∧ l'.data = (x :: l.data).take M ∧ l'.factor = l.factor := by
  obtain ⟨k, rfl⟩ : ∃ k, M = k + 1 := ⟨M - 1, by omega⟩
  have hb := blend_eq l.factor (l.data.take k) [x] (by simp)
  have h1 : Spec.filtered l.factor [x] = x := by simp [Spec.filtered, Spec.weight]
  rw [h1] at hb
  simp only [List.length_singleton, pow_one, List.singleton_append] at hb
  refine ⟨⟨x :: l.data.take k, l.factor, some (Spec.filtered l.factor (x :: l.data.take k))⟩, ?_, ?_, ?_, rfl⟩
  · simp only [add, trim_eq, List.take_succ_cons, hb]; rfl
  · simp [Lowpass.get]
  · simp

/-- C75. The window depends on the last `M` samples only; the weights are the same for every history, add up to 1, and are nonnegative for factors in
`[0, 1]`. -/
theorem C75_weights (f : ℝ) (n : Nat) (hn : 1 ≤ n) :
    ∑ j : Fin n, Spec.weight f n j = 1 ∧ (0 ≤ f → f ≤ 1 → ∀ j, 0 ≤ Spec.weight f n j) := by
  constructor
  · obtain ⟨k, rfl⟩ : ∃ k, n = k + 1 := ⟨n - 1, by omega⟩
    clear hn
    induction k with
    | zero => simp [Spec.weight]
    | succ k ih =>
      rw [Fin.sum_univ_castSucc, Fin.val_last, weight_self]
      have : ∑ j : Fin (k + 1), Spec.weight f (k + 1 + 1) (Fin.castSucc j) = (1 - f ^ (k + 1)) * ∑ j : Fin (k + 1), Spec.weight f (k + 1) j := by
        rw [Finset.mul_sum]
        exact Finset.sum_congr rfl fun j _ => weight_succ f (k + 1) j j.2
      rw [this, ih]; ring
  · intro h0 h1 j
    apply mul_nonneg (pow_nonneg h0 j)
    apply Finset.prod_nonneg
    intro i _
    have := pow_le_one₀ h0 h1 (n := i)
    linarith

/-- C75. Histories: after any sequence of `add` and `set_smooth_factor` calls on a new filter the data are the last `M` samples, newest first. -/
theorem C75_history (M : Nat) (hM : 1 ≤ M) (F : ℝ) (h : List (Spec.FilterOp V)) :
    ∃ l, Spec.runFilter M h (Lowpass.ctor F) = .ok l ∧ l.data = (Spec.samples h).take M := by
  have key : ∀ (h : List (Spec.FilterOp V)) (l : Lowpass ℝ V) (s : List V), l.data = s.take M →
      ∃ l', Spec.runFilter M h l = .ok l' ∧ l'.data = (Spec.samples h ++ s).take M := by
    intro h
    induction h with
    | nil => intro l s hs; exact ⟨l, rfl, by simpa [Spec.samples] using hs⟩
    | cons op h ih =>
      intro l s hs
      cases op with
      | add x =>
        obtain ⟨l', h1, -, h2, -⟩ := C75_add M hM l x
        obtain ⟨l'', h3, h4⟩ := ih l' (x :: s) (by
          rw [h2, hs]
          obtain ⟨k, rfl⟩ : ∃ k, M = k + 1 := ⟨M - 1, by omega⟩
          simp only [List.take_succ_cons, List.take_take]
          congr 2; omega)
        refine ⟨l'', ?_, ?_⟩
        · simp only [Spec.runFilter, h1, bind_ok, h3]
        · rw [h4]; simp [Spec.samples]
      | factor f =>
        obtain ⟨l', h3, h4⟩ := ih (l.setSmoothFactor f) s hs
        exact ⟨l', h3, by simpa [Spec.samples] using h4⟩
  simpa using key h (Lowpass.ctor F) [] (by simp [Lowpass.ctor])

/-- C75. Consequence: two histories whose last `M` samples agree, followed by setting the same factor and adding the same sample, give the same
value. -/
theorem C75_forgets (M : Nat) (hM : 1 ≤ M) (F G f : ℝ) (h h' : List (Spec.FilterOp V)) (x : V)
    (heq : (Spec.samples h).take (M - 1) = (Spec.samples h').take (M - 1)) :
    ∃ l l' v, Spec.runFilter M (h ++ [.factor f, .add x]) (Lowpass.ctor F) = .ok l ∧ Spec.runFilter M (h' ++ [.factor f, .add x]) (Lowpass.ctor G) = .ok l' ∧
      l.get = .ok v ∧ l'.get = .ok v ∧ v = Spec.filtered f (x :: (Spec.samples h).take (M - 1)) := by
  have happ : ∀ (h : List (Spec.FilterOp V)) (g : List (Spec.FilterOp V)) (l : Lowpass ℝ V),
      Spec.runFilter M (h ++ g) l = Spec.runFilter M h l >>= Spec.runFilter M g := by
    intro h g
    induction h with
    | nil => intro l; rfl
    | cons op h ih =>
      intro l
      cases op with
      | add y =>
        simp only [List.cons_append, Spec.runFilter]
        cases l.add M y with
        | error e => rfl
        | ok p => simp [ih]
      | factor g' => simp only [List.cons_append, Spec.runFilter, ih]
  have key : ∀ (F : ℝ) (h : List (Spec.FilterOp V)), ∃ l, Spec.runFilter M (h ++ [.factor f, .add x]) (Lowpass.ctor F) = .ok l ∧
      l.get = .ok (Spec.filtered f (x :: (Spec.samples h).take (M - 1))) := by
    intro F h
    obtain ⟨l, h1, h2⟩ := C75_history M hM F h
    obtain ⟨l', h3, h4, -⟩ := C75_add M hM (l.setSmoothFactor f) x
    refine ⟨l', ?_, ?_⟩
    · rw [happ, h1, bind_ok]
      simp only [Spec.runFilter, h3, bind_ok]; rfl
    · rw [h4]
      obtain ⟨k, rfl⟩ : ∃ k, M = k + 1 := ⟨M - 1, by omega⟩
      simp only [setSmoothFactor, h2, List.take_succ_cons, List.take_take, Nat.add_sub_cancel]
      congr 4; omega
  obtain ⟨l, h1, h2⟩ := key F h
  obtain ⟨l', h3, h4⟩ := key G h'
  rw [← heq] at h4
  exact ⟨l, l', _, h1, h3, h2, h4, rfl⟩

/-- C75. The value is undefined before the first `add`, and for `M = 0` `add` dereferences the end of an empty deque. -/
theorem C75_undefined (F : ℝ) (l : Lowpass ℝ V) (x : V) : (Lowpass.ctor F : Lowpass ℝ V).get = .error .ub ∧ l.add 0 x = .error .ub := by
  constructor
  · rfl
  · simp [add, trim_eq]

/-- C75. Three samples in a window of two, factor 1/2: the first one is forgotten. -/
example : ∃ l, Spec.runFilter 2 [.add 7, .add 4, .factor (1 / 2), .add (2 : ℝ)] (Lowpass.ctor (0 : ℝ)) = .ok l ∧ l.get = .ok 3 := by
  obtain ⟨l, l', v, h1, -, h2, -, h3⟩ := C75_forgets (V := ℝ) 2 (by norm_num) 0 0 (1 / 2) [.add 7, .add 4] [.add 7, .add 4] 2 rfl
  refine ⟨l, h1, ?_⟩
  rw [h2, h3]
  congr 1
  simp only [Spec.samples, List.nil_append, List.singleton_append, List.take_succ_cons, List.take_zero, filtered_pair]
  norm_num

/-- C76. For factors in `[0, 1]` the value returned by `add` lies in every convex set that contains the samples of the window. -/
theorem C76_convex (M : Nat) (hM : 1 ≤ M) (l : Lowpass ℝ V) (h0 : 0 ≤ l.factor) (h1 : l.factor ≤ 1) (x : V) (S : Set V) (hS : Convex ℝ S)
    (hin : ∀ y ∈ (x :: l.data).take M, y ∈ S) : ∃ l' v, l.add M x = .ok (l', v) ∧ v ∈ S := by
  obtain ⟨l', h, -⟩ := C75_add M hM l x
  refine ⟨l', _, h, ?_⟩
  unfold Spec.filtered
  have hne : 1 ≤ ((x :: l.data).take M).length := by
    obtain ⟨k, rfl⟩ : ∃ k, M = k + 1 := ⟨M - 1, by omega⟩
    simp
  obtain ⟨w1, w2⟩ := C75_weights l.factor _ hne
  apply hS.sum_mem
  · intro j _; exact w2 h0 h1 j
  · exact w1
  · intro j _; exact hin _ (List.getElem_mem _)

/-- C76. Scalars: for every history and a factor in `[0, 1]` at the time of the last `add`, the value lies between any bounds of the window, in
particular between the least and the greatest sample of the window. -/
theorem C76_bounds (M : Nat) (hM : 1 ≤ M) (F f : ℝ) (h0 : 0 ≤ f) (h1 : f ≤ 1) (h : List (Spec.FilterOp ℝ)) (x lo hi : ℝ)
    (hb : ∀ y ∈ x :: (Spec.samples h).take (M - 1), lo ≤ y ∧ y ≤ hi) :
    ∃ l v, Spec.runFilter M (h ++ [.factor f, .add x]) (Lowpass.ctor F) = .ok l ∧ l.get = .ok v ∧ lo ≤ v ∧ v ≤ hi := by
  obtain ⟨l, -, v, h2, -, h3, -, h4⟩ := C75_forgets M hM F F f h h x rfl
  refine ⟨l, v, h2, h3, ?_⟩
  have hmem : v ∈ Set.Icc lo hi := by
    rw [h4]
    unfold Spec.filtered
    obtain ⟨w1, w2⟩ := C75_weights f (x :: (Spec.samples h).take (M - 1)).length (by simp)
    apply (convex_Icc lo hi).sum_mem
    · intro j _; exact w2 h0 h1 j
    · exact w1
    · intro j _; exact hb _ (List.getElem_mem _)
  exact hmem

/-- C76. If all samples of the window are equal, the value is that sample, for every factor. -/
theorem C76_constant (M : Nat) (hM : 1 ≤ M) (l : Lowpass ℝ V) (x : V) (hc : ∀ y ∈ l.data.take (M - 1), y = x) :
    ∃ l', l.add M x = .ok (l', x) := by
  obtain ⟨l', h, -⟩ := C75_add M hM l x
  refine ⟨l', ?_⟩
  rw [h]
  obtain ⟨k, rfl⟩ : ∃ k, M = k + 1 := ⟨M - 1, by omega⟩
  have e : Spec.filtered l.factor ((x :: l.data).take (k + 1)) = x := by
    obtain ⟨w1, -⟩ := C75_weights l.factor ((x :: l.data).take (k + 1)).length (by simp)
    have : ∀ j : Fin ((x :: l.data).take (k + 1)).length, ((x :: l.data).take (k + 1))[j] = x := by
      intro j
      have hm : ((x :: l.data).take (k + 1))[j] ∈ (x :: l.data).take (k + 1) := List.getElem_mem _
      generalize ((x :: l.data).take (k + 1))[j] = y at hm
      simp only [List.take_succ_cons, List.mem_cons] at hm
      rcases hm with rfl | hm
      · rfl
      · exact hc y hm
    unfold Spec.filtered
    rw [Finset.sum_congr rfl fun j _ => by rw [this j], ← Finset.sum_smul, w1, one_smul]
  rw [e]

/-- C76. The bound on the factor matters: with factor 2 the value of the samples 0, 1 is 2. -/
example : ∃ l v, Spec.runFilter 2 [.add 1, .factor 2, .add (0 : ℝ)] (Lowpass.ctor (0 : ℝ)) = .ok l ∧ l.get = .ok v ∧ v = 2 := by
  obtain ⟨l, l', v, h1, -, h2, -, h3⟩ := C75_forgets (V := ℝ) 2 (by norm_num) 0 0 2 [.add 1] [.add 1] 0 rfl
  refine ⟨l, v, h1, h2, ?_⟩
  rw [h3]
  simp only [Spec.samples, List.nil_append, List.take_succ_cons, List.take_zero, filtered_pair]
  norm_num

end Vmml
