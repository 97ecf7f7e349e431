import Verif.Model.View
import Verif.Proofs.VectorReal

/-!
# C102: sub-vector views and overlapping operands
-/

namespace Vmml
open Vec
variable {M N : Nat} {α : Type}

/-- The cells of the window `o .. o + N` replaced by the components of `w`. -/
def Spec.splice (v : Vec M α) (o : Nat) (w : Vec N α) : Vec M α :=
  Vector.ofFn fun k : Fin M => if h : o ≤ k.1 ∧ k.1 < o + N then w[k.1 - o]'(by omega) else v[k]

/-- The components `o .. o + N` of a vector. -/
def Spec.window (v : Vec M α) (o : Nat) (h : o + N ≤ M) : Vec N α := Vector.ofFn fun i : Fin N => v[o + i.1]

theorem subView_ok (cfg : Cfg) {o : Nat} (h : o + N ≤ M) : subView cfg M N o = .ok o := by
  have : o ≤ M - N := by omega
  simp [subView, cassert, this]

theorem viewGet_ok (cfg : Cfg) (v : Vec M α) {o i : Nat} (h : o + N ≤ M) (hi : i < N) : v.viewGet cfg N o i = .ok v[o + i] := by
  have : ¬ N ≤ i := by omega
  simp [viewGet, this, rawGet_lt v (show o + i < M by omega)]

theorem viewSet_ok (cfg : Cfg) (v : Vec M α) {o i : Nat} (x : α) (h : o + N ≤ M) (hi : i < N) : v.viewSet cfg N o i x = .ok (v.set (o + i) x) := by
  have : ¬ N ≤ i := by omega
  simp [viewSet, this, rawSet_lt v x (show o + i < M by omega)]

/-- A loop over the window at `a` that writes cell `a + i` from the old value of that cell and of cell `b + i`. -/
theorem window_loop (f : α → α → α) {a b : Nat} (ha : a + N ≤ M) (hb : b + N ≤ M) (v : Vec M α) {body : Nat → Vec M α → Res (Vec M α)}
    (h : ∀ i (hi : i < N) (s : Vec M α), body i s = .ok (s.set (a + i) (f s[a + i] s[b + i]))) :
    ∃ r, loop N body v = .ok r ∧ (∀ k (hk : k < M), ¬ (a ≤ k ∧ k < a + N) → r[k] = v[k]) ∧
      ∀ i (hi : i < N), r[a + i] = f v[a + i] (if a ≤ b + i ∧ b < a then r[b + i] else v[b + i]) := by
  obtain ⟨r, h1, h2, h3⟩ := loop_ok (n := N) (body := body) (s := v)
    (fun n s => n ≤ N ∧ (∀ k (hk : k < M), ¬ (a ≤ k ∧ k < a + n) → s[k] = v[k]) ∧
      ∀ i (hi : i < N), i < n → s[a + i] = f v[a + i] (if a ≤ b + i ∧ b < a then s[b + i] else v[b + i]))
    ⟨Nat.zero_le _, fun _ _ _ => rfl, fun i _ hi => absurd hi (Nat.not_lt_zero i)⟩ (by
      rintro n hn s ⟨-, hf, hw⟩
      refine ⟨_, h n hn s, hn, fun k hk hk' => ?_, fun i hi hin => ?_⟩
      · rw [Vector.getElem_set_ne _ _ (by omega)]
        exact hf k hk (by omega)
      · rcases Nat.lt_succ_iff_lt_or_eq.1 hin with h' | rfl
        · rw [Vector.getElem_set_ne _ _ (by omega), hw i hi h']
          congr 1
          split_ifs with hc
          · rw [Vector.getElem_set_ne _ _ (by omega)]
          · rfl
        · rw [Vector.getElem_set_self, hf (a + i) (by omega) (by omega)]
          congr 1
          split_ifs with hc
          · rw [Vector.getElem_set_ne _ _ (by omega)]
          · exact hf (b + i) (by omega) (by omega))
  exact ⟨r, h1, h3.1, fun i hi => h3.2 i hi hi⟩

/-- The same with an operand that is not overwritten before it is read. -/
theorem window_loop_splice (f : α → α → α) {a b : Nat} (ha : a + N ≤ M) (hb : b + N ≤ M) (hab : a ≤ b ∨ b + N ≤ a) (v : Vec M α)
    {body : Nat → Vec M α → Res (Vec M α)} (h : ∀ i (hi : i < N) (s : Vec M α), body i s = .ok (s.set (a + i) (f s[a + i] s[b + i]))) :
    loop N body v = .ok (Spec.splice v a (Vector.ofFn fun i : Fin N => f (Spec.window v a ha)[i] (Spec.window v b hb)[i])) := by
  obtain ⟨r, h1, h2, h3⟩ := window_loop f ha hb v h
  rw [h1]
  congr 1
  ext k hk
  simp only [Spec.splice, Vector.getElem_ofFn]
  split_ifs with hc
  · obtain ⟨i, rfl⟩ : ∃ i, k = a + i := ⟨k - a, by omega⟩
    rw [h3 i (by omega), if_neg (by omega)]
    simp [Spec.window]
  · exact h2 k hk hc

/-- C102. `v.get_sub_vector< N >( o1 ) op= v.get_sub_vector< N >( o2 )` for an operand that does not start before the target, or does not overlap it: the
components of the target view become `op` of the previous components, nothing else changes. -/
theorem C102_op_assign (op : α → α → α) (cfg : Cfg) (v : Vec M α) {o1 o2 : Nat} (h1 : o1 + N ≤ M) (h2 : o2 + N ≤ M) (h : o1 ≤ o2 ∨ o2 + N ≤ o1) :
    v.viewOpAssign op cfg N o1 o2 =
      .ok (Spec.splice v o1 (Vector.ofFn fun i : Fin N => op (Spec.window v o1 h1)[i] (Spec.window v o2 h2)[i])) := by
  unfold viewOpAssign
  rw [subView_ok cfg h1, bind_ok, subView_ok cfg h2, bind_ok]
  exact window_loop_splice op h1 h2 h v fun i hi s => by
    rw [viewGet_ok cfg s h1 hi, bind_ok, viewGet_ok cfg s h2 hi, bind_ok, viewSet_ok cfg s _ h1 hi]

/-- C102. In general (also for an operand that starts before the target and overlaps it): components of the operand that are also components of the target
before the current one are read after they have been replaced. -/
theorem C102_op_assign_overlap (op : α → α → α) (cfg : Cfg) (v : Vec M α) {o1 o2 : Nat} (h1 : o1 + N ≤ M) (h2 : o2 + N ≤ M) :
    ∃ r, v.viewOpAssign op cfg N o1 o2 = .ok r ∧ (∀ k (hk : k < M), ¬ (o1 ≤ k ∧ k < o1 + N) → r[k] = v[k]) ∧
      ∀ i (hi : i < N), r[o1 + i] = op v[o1 + i] (if o1 ≤ o2 + i ∧ o2 < o1 then r[o2 + i] else v[o2 + i]) := by
  unfold viewOpAssign
  rw [subView_ok cfg h1, bind_ok, subView_ok cfg h2, bind_ok]
  exact window_loop op h1 h2 v fun i hi s => by
    rw [viewGet_ok cfg s h1 hi, bind_ok, viewGet_ok cfg s h2 hi, bind_ok, viewSet_ok cfg s _ h1 hi]

/-- C102. Scalar operators on a view. -/
theorem C102_op_assign_scalar (op : α → α → α) (cfg : Cfg) (v : Vec M α) {o : Nat} (h : o + N ≤ M) (x : α) :
    v.viewOpAssignS op cfg N o x = .ok (Spec.splice v o (Vector.ofFn fun i : Fin N => op (Spec.window v o h)[i] x)) := by
  unfold viewOpAssignS
  rw [subView_ok cfg h, bind_ok]
  exact window_loop_splice (fun y _ => op y x) h h (Or.inl le_rfl) v fun i hi s => by
    rw [viewGet_ok cfg s h hi, bind_ok, viewSet_ok cfg s _ h hi]

/-- C102. Assignment between views of one vector: for identical or disjoint views the components are copied; views that partially overlap are undefined
behaviour. -/
theorem C102_assign (cfg : Cfg) (v : Vec M α) {o1 o2 : Nat} (h1 : o1 + N ≤ M) (h2 : o2 + N ≤ M) :
    v.viewAssign cfg N o1 o2 = if o1 ≠ o2 ∧ o1 < o2 + N ∧ o2 < o1 + N then .error .ub else .ok (Spec.splice v o1 (Spec.window v o2 h2)) := by
  unfold viewAssign
  rw [subView_ok cfg h1, bind_ok, subView_ok cfg h2, bind_ok]
  by_cases he : o1 = o2
  · subst he
    rw [if_pos rfl, if_neg (by simp), pure_ok]
    congr 1
    ext k hk
    simp only [Spec.splice, Spec.window, Vector.getElem_ofFn]
    split_ifs with hc
    · congr 1; omega
    · rfl
  · rw [if_neg he]
    by_cases ho : o1 < o2 + N ∧ o2 < o1 + N
    · rw [if_pos ho, if_pos ⟨he, ho⟩]; rfl
    · rw [if_neg ho, if_neg (fun h => ho h.2)]
      rw [window_loop_splice (fun _ y => y) h1 h2 (by omega) v fun i hi s => by
        rw [rawGet_lt s (show o2 + i < M by omega), bind_ok, rawSet_lt s _ (show o1 + i < M by omega)]]
      congr 2
      ext i hi
      simp

/-- C102. The from-homogeneous assignment between views of one vector, `v.get_sub_vector< N >( o1 ) = v.get_sub_vector< N + 1 >( o2 )`: if the source does
not start before the target the components of the target become those of the source, divided by its last component. With `o1 = o2` this is the
division of a homogeneous vector by its `w` in place. -/
theorem C102_from_homogeneous [DivisionRing α] (cfg : Cfg) (v : Vec M α) {o1 o2 : Nat} (h1 : o1 + N ≤ M) (h2 : o2 + (N + 1) ≤ M)
    (h : o1 ≤ o2 ∨ o2 + N ≤ o1) :
    v.viewFromHom cfg N o1 o2 = .ok (Spec.splice v o1 (Vector.ofFn fun i : Fin N => v[o2 + i.1] / v[o2 + N])) := by
  unfold viewFromHom
  rw [subView_ok cfg h1, bind_ok, subView_ok cfg h2, bind_ok, viewGet_ok cfg v h2 (Nat.lt_succ_self N), bind_ok]
  simp only
  rw [window_loop_splice (fun _ y => y * (1 / v[o2 + N])) h1 (show o2 + N ≤ M by omega) h v fun i hi s => by
    rw [viewGet_ok cfg s h2 (by omega), bind_ok, rawSet_lt s _ (show o1 + i < M by omega)]]
  congr 2
  ext i hi
  simp [Spec.window, div_eq_mul_inv]

/-- C102. The to-homogeneous assignment between views of one vector is undefined if the target starts within the source (in particular for the same
offset), otherwise it copies the components and appends 1. -/
theorem C102_to_homogeneous [One α] (cfg : Cfg) (v : Vec M α) {o1 o2 : Nat} (h1 : o1 + (N + 1) ≤ M) (h2 : o2 + N ≤ M) :
    v.viewToHom cfg N o1 o2 = if o2 ≤ o1 ∧ o1 < o2 + N then .error .ub
      else .ok ((Spec.splice v o1 (Spec.window v o2 h2)).set (o1 + N) 1) := by
  unfold viewToHom
  rw [subView_ok cfg h1, bind_ok, subView_ok cfg h2, bind_ok]
  split_ifs with hc
  · rfl
  · simp only
    rw [window_loop_splice (fun _ y => y) (show o1 + N ≤ M by omega) h2 (by omega) v fun i hi s => by
      rw [rawGet_lt s (show o2 + i < M by omega), bind_ok, rawSet_lt s _ (show o1 + i < M by omega)]]
    rw [bind_ok, viewSet_ok cfg _ _ h1 (Nat.lt_succ_self N)]
    congr 3
    ext i hi
    simp

/-- C102. `normalize()` on a view scales the view to unit length, returns its former length and leaves the other components; a zero view is left unchanged. -/
theorem C102_normalize (cfg : Cfg) (v : Vec M ℝ) {o : Nat} (h : o + N ≤ M) :
    let len := Real.sqrt (∑ i : Fin N, v[o + i.1] * v[o + i.1]);
    v.viewNormalize cfg N o = .ok (Spec.splice v o (Vector.ofFn fun i : Fin N => v[o + i.1] / len), len) := by
  intro len
  unfold viewNormalize
  rw [subView_ok cfg h, bind_ok]
  rw [loop_sum (n := N) (fun i => v[o + i.1] * v[o + i.1]) (fun i hi s => by
    simp [rawGet_lt v (show o + i < M by omega)])]
  rw [bind_ok]
  simp only [zero_add, sqrt_real]
  rw [show Real.sqrt (∑ i : Fin N, v[o + i.1] * v[o + i.1]) = len from rfl]
  by_cases hl : len = 0
  · rw [hl]
    simp only [beq_self_eq_true, if_true, pure_ok]
    congr 2
    ext k hk
    simp only [Spec.splice, Vector.getElem_ofFn, div_zero]
    split_ifs with hc
    · have h0 : ∑ i : Fin N, v[o + i.1] * v[o + i.1] = 0 :=
        le_antisymm (Real.sqrt_eq_zero'.1 hl) (Finset.sum_nonneg fun i _ => mul_self_nonneg _)
      have := (Finset.sum_eq_zero_iff_of_nonneg (fun (i : Fin N) _ => mul_self_nonneg v[o + i.1])).1 h0 ⟨k - o, by omega⟩ (Finset.mem_univ _)
      have := mul_self_eq_zero.1 this
      simp only [show o + (k - o) = k from by omega] at this
      exact this
    · rfl
  · rw [if_neg (by simpa using hl)]
    rw [window_loop_splice (fun y _ => y * (1 / len)) h h (Or.inl le_rfl) v fun i hi s => by
      rw [viewGet_ok cfg s h hi, bind_ok, viewSet_ok cfg s _ h hi]]
    rw [bind_ok, pure_ok]
    congr 3
    ext i hi
    simp [Spec.window, div_eq_mul_inv]

/-- C102. With an operand that starts before the target and overlaps it, `+=` does not add the previous components. -/
theorem C102_overlap_differs :
    viewOpAssign (· + ·) ⟨true, true, false⟩ (#v[1, 1, 1] : Vec 3 Int) 2 1 0 = .ok #v[1, 2, 3] ∧
      Spec.splice (#v[1, 1, 1] : Vec 3 Int) 1 (#v[1 + 1, 1 + 1] : Vec 2 Int) = #v[1, 2, 2] := by
  constructor <;> rfl

/-- Non-vacuity: a projected point is divided by its `w` in place. -/
example : viewFromHom ⟨true, true, false⟩ (#v[2, 4, 6, 2] : Vec 4 ℝ) 3 0 0 = .ok #v[1, 2, 3, 2] := by
  rw [C102_from_homogeneous _ _ (by omega) (by omega) (by omega)]
  congr 1
  ext k hk
  have : k = 0 ∨ k = 1 ∨ k = 2 ∨ k = 3 := by omega
  rcases this with rfl | rfl | rfl | rfl <;> simp [Spec.splice] <;> norm_num

end Vmml
