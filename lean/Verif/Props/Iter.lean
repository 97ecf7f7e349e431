import Verif.Model.MatrixAlias
import Verif.Model.Iter
import Verif.Props.VectorOrder
import Verif.Props.MatrixAccess
import Verif.Props.Aabb

/-!
# C98: iterators, raw pointers, sizes, default tolerances, corner references
-/

namespace Vmml
variable {M N : Nat} {α : Type}

/-- Reading from `first` to `last`: exactly the elements in between, in order. -/
theorem walk_eq {n : Nat} (a : Vec n α) (first last : Nat) (h : first ≤ last) (hn : last ≤ n) :
    walk a first last = .ok ((a.toList.take last).drop first) := by
  induction hk : last - first generalizing first with
  | zero =>
    have : first = last := by omega
    subst this
    rw [walk, if_pos rfl]
    simp
  | succ k ih =>
    have h1 : first ≠ last := by omega
    have h2 : first < n := by omega
    rw [walk, if_neg h1, dif_pos h2, ih (first + 1) (by omega) (by omega)]
    simp only [bind_ok, pure_ok]
    congr 1
    have hl : first < (a.toList.take last).length := by simp; omega
    rw [List.drop_eq_getElem_cons hl]
    simp

theorem walkSet_eq {n : Nat} (f : α → α) (a : Vec n α) (first : Nat) (h : first ≤ n) :
    walkSet f a first n = .ok (Vector.ofFn fun i : Fin n => if first ≤ i.1 then f a[i] else a[i]) := by
  induction hk : n - first generalizing first a with
  | zero =>
    have : first = n := by omega
    subst this
    rw [walkSet, if_pos rfl]
    simp only [pure_ok]
    congr 1
    ext i hi
    simp [show ¬ first ≤ i by omega]
  | succ k ih =>
    have h1 : first ≠ n := by omega
    have h2 : first < n := by omega
    rw [walkSet, if_neg h1, dif_pos h2, ih _ (first + 1) (by omega) (by omega)]
    congr 1
    ext i hi
    simp only [Vector.getElem_ofFn, Fin.getElem_fin, Vector.getElem_set]
    by_cases h3 : first = i
    · subst h3; simp
    · by_cases h4 : first ≤ i
      · simp [h3, h4, show first + 1 ≤ i by omega]
      · simp [h3, h4, show ¬ first + 1 ≤ i by omega]

/-- The elements between `begin()` and `end()` of a vector are its `size()` elements in the order of the index. -/
theorem C98_vector_iterate (v : Vec M α) :
    walk v v.begin' v.end' = .ok v.toList ∧ v.end' - v.begin' = v.size ∧ v.toList.length = v.size
      ∧ ∀ i (h : i < M), v.toList[i]? = some v[i] := by
  refine ⟨?_, rfl, by simp [Vec.size], ?_⟩
  · rw [Vec.begin', Vec.end', walk_eq v 0 M (Nat.zero_le _) le_rfl]
    simp
  · intro i h
    simp [h]

/-- Writing through the iterators of a vector changes every element once. -/
theorem C98_vector_write (f : α → α) (v : Vec M α) : walkSet f v v.begin' v.end' = .ok (v.map f) := by
  rw [Vec.begin', Vec.end', walkSet_eq f v 0 (Nat.zero_le _)]
  congr 1
  ext i hi
  simp

/-- A sub-range: the elements from index `a` to below index `b`; past `end()` is undefined. -/
theorem C98_vector_range (v : Vec M α) (a b : Nat) :
    (a ≤ b → b ≤ M → walk v (v.begin' + a) (v.begin' + b) = .ok ((v.toList.take b).drop a))
      ∧ (a ≤ M → M < b → walk v (v.begin' + a) (v.begin' + b) = .error .ub) := by
  refine ⟨fun h hb => ?_, fun h hb => ?_⟩
  · simpa [Vec.begin'] using walk_eq v a b h hb
  · simp only [Vec.begin', Nat.zero_add]
    induction hk : M - a generalizing a with
    | zero =>
      rw [walk, if_neg (by omega), dif_neg (by omega)]
      rfl
    | succ k ih =>
      rw [walk, if_neg (by omega), dif_pos (by omega), ih (a + 1) (by omega) (by omega)]
      rfl

/-- The pointer view of a vector is the vector: `p[ i ]` is `v.at( i )`, for reading and writing; outside it is undefined in every configuration. -/
theorem C98_vector_pointer (cfg : Cfg) (v : Vec M α) (i : Nat) (x : α) :
    (i < M → v.ptrGet i = v.atGet cfg i ∧ v.ptrSet i x = v.atSet cfg i x)
      ∧ (M ≤ i → v.ptrGet i = .error .ub ∧ v.ptrSet i x = .error .ub) := by
  refine ⟨fun h => ⟨?_, ?_⟩, fun h => ⟨?_, ?_⟩⟩
  · rw [Vec.atGet_lt cfg v h, Vec.ptrGet, Vec.rawGet_lt v h]
  · rw [Vec.atSet_lt cfg v x h, Vec.ptrSet, Vec.rawSet_lt v x h]
  · exact Vec.rawGet_ge v h
  · exact Vec.rawSet_ge v x h

/-- Construction from a pointer copies the first `M` elements behind it, whatever the object held, and needs all of them. -/
theorem C98_vector_from_pointer (this : Vec M α) (mem : List α) :
    (M ≤ mem.length → ∃ v, this.ofPtr mem = .ok v ∧ v.toList = mem.take M)
      ∧ (mem.length < M → this.ofPtr mem = .error .ub) := by
  constructor
  · intro h
    refine ⟨Vector.ofFn fun i : Fin M => mem[i.1]'(by omega), ?_, ?_⟩
    · unfold Vec.ofPtr
      refine loop_set (fun i : Fin M => mem[i.1]'(by omega)) ?_
      intro i hi v _
      rw [List.getElem?_eq_getElem (by omega)]
      exact Vec.rawSet_lt v _ hi
    · apply List.ext_getElem
      · simp [h]
      · intro i h1 h2
        simp
  · intro h
    unfold Vec.ofPtr
    have key : ∀ n, n ≤ M → mem.length < n → loop n (fun i (v : Vec M α) => match mem[i]? with
        | some x => v.rawSet i x
        | none => throw .ub) this = .error .ub := by
      intro n hn hlt
      induction n with
      | zero => omega
      | succ n ih =>
        rw [loop_succ]
        by_cases h' : mem.length < n
        · rw [ih (by omega) h']; rfl
        · have hl : mem.length = n := by omega
          obtain ⟨v, hv, -⟩ := loop_ok (n := n) (body := fun i (v : Vec M α) => match mem[i]? with
            | some x => v.rawSet i x
            | none => throw .ub) (s := this) (fun _ _ => True) trivial (by
              intro i hi v _
              rw [List.getElem?_eq_getElem (by omega)]
              exact ⟨_, Vec.rawSet_lt v _ (by omega), trivial⟩)
          rw [hv, bind_ok, List.getElem?_eq_none (by omega)]
          rfl
    exact key M le_rfl h

/-- The elements between `begin()` and `end()` of a matrix, in order: column by column, each column from the first row to the last. Every cell is
seen exactly once, the cell `( r, c )` as number `c * M + r` of the `size()` elements. -/
theorem C98_matrix_iterate (cfg : Cfg) (m : Mat M N α) :
    ∃ l, walk m.array m.begin' m.end' = .ok l ∧ l.length = m.size ∧ m.end' - m.begin' = m.size
      ∧ m.size = m.getNumberOfRows * m.getNumberOfColumns
      ∧ (∀ r c, r < M → c < N → ∃ x, m.atGet cfg r c = .ok x ∧ l[c * M + r]? = some x)
      ∧ (∀ k, k < m.size → k % M < M ∧ k / M < N ∧ ∃ x, m.atGet cfg (k % M) (k / M) = .ok x ∧ l[k]? = some x) := by
  have h1 : ∀ r c, r < M → c < N → ∃ x, m.atGet cfg r c = .ok x ∧ m.array.toList[c * M + r]? = some x := by
    intro r c hr hc
    refine ⟨_, Mat.atGet_lt cfg m hr hc, ?_⟩
    have := Mat.idx_lt hr hc
    simp [this, Mat.get]
  refine ⟨m.array.toList, ?_, by simp [Mat.size], rfl, rfl, h1, ?_⟩
  · rw [Mat.begin', Mat.end', Mat.size, walk_eq m.array 0 (M * N) (Nat.zero_le _) le_rfl]
    simp
  · intro k hk
    have hk' : k < M * N := hk
    have hM : 0 < M := Nat.pos_of_ne_zero (by rintro rfl; simp at hk')
    have a1 : k % M < M := Nat.mod_lt _ hM
    have a2 : k / M < N := Nat.div_lt_of_lt_mul hk'
    refine ⟨a1, a2, ?_⟩
    have := h1 _ _ a1 a2
    rwa [Nat.div_add_mod'] at this

/-- The pointer view of a matrix: `p[ c * M + r ]` is `m.at( r, c )`. -/
theorem C98_matrix_pointer (cfg : Cfg) (m : Mat M N α) {r c : Nat} (hr : r < M) (hc : c < N) : m.ptrGet (c * M + r) = m.atGet cfg r c := by
  rw [Mat.atGet_lt cfg m hr hc, Mat.ptrGet, Mat.rawGet_lt m (Mat.idx_lt hr hc)]
  rfl

/-- Writing through the iterators of a matrix changes every cell once. -/
theorem C98_matrix_write (cfg : Cfg) (f : α → α) (m : Mat M N α) : ∃ a, walkSet f m.array m.begin' m.end' = .ok a
    ∧ ∀ r c, r < M → c < N → (⟨a⟩ : Mat M N α).atGet cfg r c = f <$> m.atGet cfg r c := by
  refine ⟨_, walkSet_eq f m.array 0 (Nat.zero_le _), ?_⟩
  intro r c hr hc
  rw [Mat.atGet_lt cfg _ hr hc, Mat.atGet_lt cfg _ hr hc]
  simp [Mat.get]

/-- With a positive default tolerance (the floating-point types) `a.equals( a )` holds, for vectors and matrices. -/
theorem C98_default_tolerance (cfg : Cfg) (eps : ℝ) (h : 0 < eps) (v : Vec M ℝ) (m : Mat M N ℝ) :
    v.equalsDefault eps cfg v = .ok true ∧ m.equals cfg m eps = .ok true := by
  constructor
  · obtain ⟨b, hb, hb'⟩ := equals_eq cfg v v eps
    rw [Vec.equalsDefault, hb, hb'.2 (by intro i hi; simpa using h)]
  · obtain ⟨b, hb, hb'⟩ := C48_equals cfg m m eps
    rw [hb, hb'.2 (by intro i j; simpa using h)]

/-- With the default tolerance of the integer types, which is zero, no two vectors or matrices are `equals`, not even one with itself. -/
theorem C98_default_tolerance_violated (cfg : Cfg) (hM : 0 < M) (hN : 0 < N) (v w : Vec M ℝ) (a b : Mat M N ℝ) :
    v.equalsDefault 0 cfg w = .ok false ∧ a.equals cfg b 0 = .ok false := by
  constructor
  · obtain ⟨b, hb, hb'⟩ := equals_eq cfg v w 0
    rw [Vec.equalsDefault, hb]
    congr 1
    rw [Bool.eq_false_iff]
    intro hb2
    exact absurd (hb'.1 hb2 0 hM) (not_lt.2 (abs_nonneg _))
  · obtain ⟨x, hb, hb'⟩ := C48_equals cfg a b 0
    rw [hb]
    congr 1
    rw [Bool.eq_false_iff]
    intro hb2
    exact absurd (hb'.1 hb2 ⟨0, hM⟩ ⟨0, hN⟩) (not_lt.2 (abs_nonneg _))

/-- Writing through the reference returned by `getMin()` (`getMax()`) is `setMin` (`setMax`): that corner is replaced, the other one is kept. -/
theorem C98_box_corners (b : Box α) (v : Vec 3 α) :
    b.setMin v = .ok (b.refMin v) ∧ b.setMax v = .ok (b.refMax v) ∧
    (b.refMin v).getMin = v ∧ (b.refMin v).getMax = b.getMax ∧ (b.refMax v).getMax = v ∧ (b.refMax v).getMin = b.getMin := by
  refine ⟨?_, ?_, rfl, rfl, rfl, rfl⟩
  · rw [Box.setMin, assign_eq3]; rfl
  · rw [Box.setMax, assign_eq3]; rfl

/-- Quaternion assignment between different objects copies the four elements and touches nothing else. -/
theorem C98_quaternion_assign (h : Nat → Quat α) {a b : Nat} (hab : a ≠ b) :
    ∃ h', Quat.assignH h a b = .ok h' ∧ h' a = h b ∧ ∀ x, x ≠ a → h' x = h x := by
  refine ⟨_, by rw [Quat.assignH, if_neg hab]; rfl, by simp, ?_⟩
  intro x hx
  simp [hx]

/-- `q = q` is a `memcpy` between overlapping objects, which the C standard leaves undefined. -/
theorem C98_quaternion_self_assign_violated (h : Nat → Quat α) (a : Nat) : Quat.assignH h a a = .error .ub := by
  simp [Quat.assignH]

/-- Frustum assignment between different objects copies the six values and touches nothing else. -/
theorem C98_frustum_assign (h : Nat → Frustum α) {a b : Nat} (hab : a ≠ b) :
    ∃ h', Frustum.assignH h a b = .ok h' ∧ h' a = h b ∧ ∀ x, x ≠ a → h' x = h x := by
  refine ⟨_, by rw [Frustum.assignH, if_neg hab]; rfl, by simp, ?_⟩
  intro x hx
  simp [hx]

/-- `f = f` on a frustum is a `memcpy` between overlapping objects. -/
theorem C98_frustum_self_assign_violated (h : Nat → Frustum α) (a : Nat) : Frustum.assignH h a a = .error .ub := by
  simp [Frustum.assignH]

/-- Matrix assignment between different objects. -/
theorem C98_matrix_assign (h : Heap (Mat M N α)) {a b : Nat} (hab : a ≠ b) :
    ∃ h', Mat.assignH h a b = .ok h' ∧ h' a = h b ∧ ∀ x, x ≠ a → h' x = h x := by
  refine ⟨Function.update h a (h b), ?_, by simp, fun x hx => by simp [hx]⟩
  simp [Mat.assignH, hab, Mat.assign_eq]

/-- `m = m` on a matrix is a `memcpy` between overlapping objects. -/
theorem C98_matrix_self_assign_violated (h : Heap (Mat M N α)) (hM : 0 < M) (hN : 0 < N) (a : Nat) : Mat.assignH h a a = .error .ub := by
  simp [Mat.assignH, hM, hN]

/-- Non-vacuity: a 2x2 matrix read through its iterators, and a short buffer. -/
example : walk (⟨#v[1, 2, 3, 4]⟩ : Mat 2 2 Int).array 0 4 = .ok [1, 2, 3, 4] := by
  simpa [Mat.begin', Mat.end', Mat.size] using walk_eq (⟨#v[1, 2, 3, 4]⟩ : Mat 2 2 Int).array 0 4 (by omega) (by omega)
example : Vec.ofPtr (#v[0, 0] : Vec 2 Int) [7, 8, 9] = .ok #v[7, 8] := by decide
example : Vec.ofPtr (#v[0, 0] : Vec 2 Int) [7] = .error .ub := by decide

end Vmml
