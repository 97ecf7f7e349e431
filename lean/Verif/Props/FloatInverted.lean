import Verif.Props.FloatOrder
import Verif.Props.MatrixSignal
import Verif.Props.FloatQuantize

/-!
# C160: comparing rows and columns up to their sign, with a tolerance, in IEEE arithmetic

`matrix_equals_allow_inverted_rows( a, b, tolerance )` and `matrix_equals_allow_inverted_columns( a, b, tolerance )`, which compare the results of decompositions whose columns are
determined up to the sign.
-/

namespace Vmml
open Format Mat
variable {F : Format} {M N : Nat}

/-! ## Specification -/

/-- The test of one element: the rounded difference of two finite numbers is below the tolerance, or both are the same infinity, or (the flaw) one of them is NaN. -/
def Spec.Passes (t : ℝ) (a b : Fp F) : Prop := Spec.Near t a b ∨ (∃ s, a = .inf s ∧ b = .inf s) ∨ a = .nan ∨ b = .nan

/-- `x` with the sign changed if `s`. -/
def Spec.signed (s : Bool) (x : Fp F) : Fp F := if s then -x else x

/-! ## Proofs -/

private theorem neg_neg' (x : Fp F) : - -x = x := by
  cases x with
  | nan => rfl
  | inf s => show Fp.inf (!!s) = _; rw [Bool.not_not]
  | fin s m h => show Fp.fin (!!s) m h = _; simp only [Bool.not_not]

/-- **C160** `matrix_equals_allow_inverted_rows( a, b, tolerance )`, for all matrices, infinities and NaN included, and every finite tolerance: every row of `a` passes the test against the row
of `b`, or every element of it against the negated one. -/
theorem C160_rows (cfg : Cfg) (a b : Mat M N (Fp F)) (tol : Fp F) (ht : tol.Finite) :
    ∃ x, a.equalsInvertedRowsTol cfg b tol = .ok x ∧
      (x = true ↔ ∀ r, ∃ s, ∀ c, Spec.Passes tol.val (a.get r c) (Spec.signed s (b.get r c))) := by
  obtain ⟨r, h1, h2⟩ := inverted_loop (n := M) (P := fun r => ∀ c, Spec.Passes tol.val (a.get r c) (b.get r c))
    (Q := fun r => ∀ c, Spec.Passes tol.val (a.get r c) (-b.get r c)) (body := fun i => do
      let x ← a.getRowV cfg i
      let y ← b.getRowV cfg i
      pure (← x.equals cfg y tol, ← x.equals cfg (← y.negate) tol)) (by
    intro i hi
    simp only [getRowV, getRow_eq cfg a ⟨i, hi⟩, getRow_eq cfg b ⟨i, hi⟩, bind_ok, Vec.negate_eq]
    obtain ⟨x, hx, hx'⟩ := C123_vector_equals cfg (Vector.ofFn fun c => a.get ⟨i, hi⟩ c) (Vector.ofFn fun c => b.get ⟨i, hi⟩ c) tol ht
    obtain ⟨y, hy, hy'⟩ := C123_vector_equals cfg (Vector.ofFn fun c => a.get ⟨i, hi⟩ c)
      (Vector.ofFn fun c : Fin N => -(Vector.ofFn fun c => b.get ⟨i, hi⟩ c)[c]) tol ht
    simp only [hx, hy, bind_ok, pure_ok]
    refine ⟨x, y, rfl, hx'.trans ?_, hy'.trans ?_⟩
    · simp only [Vector.getElem_ofFn]
      exact ⟨fun h c => h c.1 c.2, fun h i hi => h ⟨i, hi⟩⟩
    · simp only [Vector.getElem_ofFn, Fin.getElem_fin]
      exact ⟨fun h c => h c.1 c.2, fun h i hi => h ⟨i, hi⟩⟩)
  refine ⟨r, ?_, h2.trans (forall_congr' fun r => ?_)⟩
  · rw [← h1]
    apply loop_congr
    intro i hi s
    simp [getRowV, getRow_eq cfg a ⟨i, hi⟩, getRow_eq cfg b ⟨i, hi⟩, Vec.negate_eq]
  · exact ⟨fun h => h.elim (fun h => ⟨false, h⟩) fun h => ⟨true, h⟩, fun ⟨s, h⟩ => by cases s; exacts [.inl h, .inr h]⟩

/-- **C160** The same for the columns. -/
theorem C160_columns (cfg : Cfg) (a b : Mat M N (Fp F)) (tol : Fp F) (ht : tol.Finite) :
    ∃ x, a.equalsInvertedColumnsTol cfg b tol = .ok x ∧
      (x = true ↔ ∀ c, ∃ s, ∀ r, Spec.Passes tol.val (a.get r c) (Spec.signed s (b.get r c))) := by
  obtain ⟨r, h1, h2⟩ := inverted_loop (n := N) (P := fun c => ∀ r, Spec.Passes tol.val (a.get r c) (b.get r c))
    (Q := fun c => ∀ r, Spec.Passes tol.val (a.get r c) (-b.get r c)) (body := fun i => do
      let x ← a.getColumnV cfg i
      let y ← b.getColumnV cfg i
      pure (← x.equals cfg y tol, ← x.equals cfg (← y.negate) tol)) (by
    intro i hi
    simp only [getColumnV, getColumn_eq cfg a ⟨i, hi⟩, getColumn_eq cfg b ⟨i, hi⟩, bind_ok, Vec.negate_eq]
    obtain ⟨x, hx, hx'⟩ := C123_vector_equals cfg (Vector.ofFn fun r => a.get r ⟨i, hi⟩) (Vector.ofFn fun r => b.get r ⟨i, hi⟩) tol ht
    obtain ⟨y, hy, hy'⟩ := C123_vector_equals cfg (Vector.ofFn fun r => a.get r ⟨i, hi⟩)
      (Vector.ofFn fun c : Fin M => -(Vector.ofFn fun r => b.get r ⟨i, hi⟩)[c]) tol ht
    simp only [hx, hy, bind_ok, pure_ok]
    refine ⟨x, y, rfl, hx'.trans ?_, hy'.trans ?_⟩
    · simp only [Vector.getElem_ofFn]
      exact ⟨fun h c => h c.1 c.2, fun h i hi => h ⟨i, hi⟩⟩
    · simp only [Vector.getElem_ofFn, Fin.getElem_fin]
      exact ⟨fun h c => h c.1 c.2, fun h i hi => h ⟨i, hi⟩⟩)
  refine ⟨r, ?_, h2.trans (forall_congr' fun r => ?_)⟩
  · rw [← h1]
    apply loop_congr
    intro i hi s
    simp [getColumnV, getColumn_eq cfg a ⟨i, hi⟩, getColumn_eq cfg b ⟨i, hi⟩, Vec.negate_eq]
  · exact ⟨fun h => h.elim (fun h => ⟨false, h⟩) fun h => ⟨true, h⟩, fun ⟨s, h⟩ => by cases s; exacts [.inl h, .inr h]⟩

private theorem passes_self {t : ℝ} (ht : 0 < t) (x : Fp F) : Spec.Passes t x x := by
  cases x with
  | nan => exact .inr (.inr (.inl rfl))
  | inf s => exact .inr (.inl ⟨s, rfl, rfl⟩)
  | fin s m h => exact .inl ⟨trivial, trivial, by rw [sub_self, abs_zero, rnd_zero]; exact ht⟩

private theorem finite_signed {s : Bool} {x : Fp F} : (Spec.signed s x).Finite ↔ x.Finite := by
  cases s with
  | false => exact Iff.rfl
  | true => cases x <;> exact Iff.rfl

private theorem val_signed {s : Bool} (x : Fp F) : (Spec.signed s x).val = if s then -x.val else x.val := by
  cases s with
  | false => rfl
  | true => exact Fp.val_neg x

private theorem signed_signed (s : Bool) (x : Fp F) : Spec.signed s (Spec.signed s x) = x := by
  cases s with
  | false => rfl
  | true => exact neg_neg' x

/-- **C160** The purpose of the functors survives rounding: a matrix of which any set of rows (columns) had their signs changed is accepted, for every positive tolerance. -/
theorem C160_accepts_inverted (cfg : Cfg) (a : Mat M N (Fp F)) (tol : Fp F) (ht : tol.Finite) (hpos : 0 < tol.val) (p : Fin M → Bool) (q : Fin N → Bool) :
    a.equalsInvertedRowsTol cfg (Mat.ofFn fun r c => Spec.signed (p r) (a.get r c)) tol = .ok true ∧
    a.equalsInvertedColumnsTol cfg (Mat.ofFn fun r c => Spec.signed (q c) (a.get r c)) tol = .ok true := by
  obtain ⟨x, h1, h2⟩ := C160_rows cfg a (Mat.ofFn fun r c => Spec.signed (p r) (a.get r c)) tol ht
  obtain ⟨y, h3, h4⟩ := C160_columns cfg a (Mat.ofFn fun r c => Spec.signed (q c) (a.get r c)) tol ht
  rw [h1, h3]
  constructor
  · congr 1
    refine h2.2 fun r => ⟨p r, fun c => ?_⟩
    rw [Mat.get_ofFn, signed_signed]
    exact passes_self hpos _
  · congr 1
    refine h4.2 fun c => ⟨q c, fun r => ?_⟩
    rw [Mat.get_ofFn, signed_signed]
    exact passes_self hpos _

/-- **C160** For finite matrices: an accepted pair is, row by row and up to one sign for each row, closer than the tolerance, without any slack for rounding; and a pair that is closer by the
relative margin `u` is accepted. The same for the columns. -/
theorem C160_margin (cfg : Cfg) (a b : Mat M N (Fp F)) (tol : Fp F) (ht : tol.Finite) (ha : ∀ r c, (a.get r c).Finite) (hb : ∀ r c, (b.get r c).Finite) :
    (a.equalsInvertedRowsTol cfg b tol = .ok true → ∀ r, ∃ σ : ℝ, (σ = 1 ∨ σ = -1) ∧ ∀ c, |(a.get r c).val - σ * (b.get r c).val| < tol.val) ∧
    ((∀ r, ∃ σ : ℝ, (σ = 1 ∨ σ = -1) ∧ ∀ c, (1 + F.u) * |(a.get r c).val - σ * (b.get r c).val| < tol.val) → a.equalsInvertedRowsTol cfg b tol = .ok true) ∧
    (a.equalsInvertedColumnsTol cfg b tol = .ok true → ∀ c, ∃ σ : ℝ, (σ = 1 ∨ σ = -1) ∧ ∀ r, |(a.get r c).val - σ * (b.get r c).val| < tol.val) ∧
    ((∀ c, ∃ σ : ℝ, (σ = 1 ∨ σ = -1) ∧ ∀ r, (1 + F.u) * |(a.get r c).val - σ * (b.get r c).val| < tol.val) → a.equalsInvertedColumnsTol cfg b tol = .ok true) := by
  have up : ∀ r c s, Spec.Passes tol.val (a.get r c) (Spec.signed s (b.get r c)) → |(a.get r c).val - (if s then -1 else 1) * (b.get r c).val| < tol.val := by
    intro r c s h
    have h' : Spec.Near tol.val (a.get r c) (Spec.signed s (b.get r c)) := by
      rcases h with h | ⟨t, h, -⟩ | h | h
      · exact h
      · have := ha r c; rw [h] at this; exact this.elim
      · have := ha r c; rw [h] at this; exact this.elim
      · have := finite_signed (s := s).2 (hb r c); rw [h] at this; exact this.elim
    have := (C123_tolerance _ _ tol ht).1 h'
    rw [val_signed] at this
    cases s <;> simpa using this
  have down : ∀ r c (s : Bool), (1 + F.u) * |(a.get r c).val - (if s then -1 else 1) * (b.get r c).val| < tol.val → Spec.Passes tol.val (a.get r c) (Spec.signed s (b.get r c)) := by
    intro r c s h
    refine .inl ((C123_tolerance _ _ tol ht).2 (ha r c) (finite_signed.2 (hb r c)) ?_)
    rw [val_signed]
    cases s <;> simpa using h
  have sg : ∀ s : Bool, ((if s then -1 else 1 : ℝ) = 1 ∨ (if s then -1 else 1 : ℝ) = -1) := by intro s; cases s <;> simp
  have pick : ∀ σ : ℝ, σ = 1 ∨ σ = -1 → ∃ s : Bool, σ = if s then -1 else 1 := by
    rintro σ (rfl | rfl)
    · exact ⟨false, by simp⟩
    · exact ⟨true, by simp⟩
  obtain ⟨x, h1, h2⟩ := C160_rows cfg a b tol ht
  obtain ⟨y, h3, h4⟩ := C160_columns cfg a b tol ht
  rw [h1, h3]
  refine ⟨fun e r => ?_, fun h => ?_, fun e c => ?_, fun h => ?_⟩
  · injection e with e
    obtain ⟨s, hs⟩ := h2.1 e r
    exact ⟨_, sg s, fun c => up r c s (hs c)⟩
  · congr 1
    refine h2.2 fun r => ?_
    obtain ⟨σ, hσ, h⟩ := h r
    obtain ⟨s, rfl⟩ := pick σ hσ
    exact ⟨s, fun c => down r c s (h c)⟩
  · injection e with e
    obtain ⟨s, hs⟩ := h4.1 e c
    exact ⟨_, sg s, fun r => up r c s (hs r)⟩
  · congr 1
    refine h4.2 fun c => ?_
    obtain ⟨σ, hσ, h⟩ := h c
    obtain ⟨s, rfl⟩ := pick σ hσ
    exact ⟨s, fun r => down r c s (h r)⟩

/-- **C160** The flaw: a matrix of NaN is accepted as equal to every matrix, with every finite tolerance. -/
theorem C160_nan (cfg : Cfg) (a b : Mat M N (Fp F)) (tol : Fp F) (ht : tol.Finite) (ha : ∀ r c, a.get r c = .nan) :
    a.equalsInvertedRowsTol cfg b tol = .ok true ∧ a.equalsInvertedColumnsTol cfg b tol = .ok true := by
  obtain ⟨x, h1, h2⟩ := C160_rows cfg a b tol ht
  obtain ⟨y, h3, h4⟩ := C160_columns cfg a b tol ht
  rw [h1, h3]
  constructor
  · congr 1
    exact h2.2 fun r => ⟨false, fun c => .inr (.inr (.inl (ha r c)))⟩
  · congr 1
    exact h4.2 fun c => ⟨false, fun r => .inr (.inr (.inl (ha r c)))⟩

/-- The hypotheses are met by the columns `(1, 2)` and `(3, 4)` of which the second is negated, with the tolerance `1`. -/
example : ∃ (a b : Mat 2 2 (Fp single)) (tol : Fp single), tol.Finite ∧ tol.val = 1 ∧ (∀ r c, (a.get r c).Finite ∧ (b.get r c).Finite) ∧
    (a.get 0 0).val = 1 ∧ (a.get 1 0).val = 2 ∧ (a.get 0 1).val = 3 ∧ (a.get 1 1).val = 4 ∧
    (b.get 0 0).val = 1 ∧ (b.get 1 0).val = 2 ∧ (b.get 0 1).val = -3 ∧ (b.get 1 1).val = -4 ∧
    ∀ cfg, a.equalsInvertedColumnsTol cfg b tol = .ok true ∧ a.equalsInvertedRowsTol cfg b tol = .ok false := by
  have mk : ∀ k : Int, |k| ≤ 4 → ∃ x : Fp single, x.Finite ∧ x.val = k := by
    intro k hk
    obtain ⟨h1, h2⟩ := Quant.ofReal_int (F := single) (by decide) (k := k) (hk.trans (by decide))
    exact ⟨_, h1, h2⟩
  obtain ⟨x1, f1, v1⟩ := mk 1 (by decide)
  obtain ⟨x2, f2, v2⟩ := mk 2 (by decide)
  obtain ⟨x3, f3, v3⟩ := mk 3 (by decide)
  obtain ⟨x4, f4, v4⟩ := mk 4 (by decide)
  obtain ⟨y3, g3, w3⟩ := mk (-3) (by decide)
  obtain ⟨y4, g4, w4⟩ := mk (-4) (by decide)
  push_cast at v1 v2 v3 v4 w3 w4
  have hu : single.u ≤ 1 := u_le_one
  have hu0 := single.u_pos
  have ha : ∀ r c, ((Mat.ofFn fun r c => ![![x1, x3], ![x2, x4]] r c : Mat 2 2 (Fp single)).get r c).Finite := by
    intro r c; rw [Mat.get_ofFn]; fin_cases r <;> fin_cases c <;> assumption
  have hb : ∀ r c, ((Mat.ofFn fun r c => ![![x1, y3], ![x2, y4]] r c : Mat 2 2 (Fp single)).get r c).Finite := by
    intro r c; rw [Mat.get_ofFn]; fin_cases r <;> fin_cases c <;> assumption
  refine ⟨Mat.ofFn fun r c => ![![x1, x3], ![x2, x4]] r c, Mat.ofFn fun r c => ![![x1, y3], ![x2, y4]] r c, x1, f1, v1, fun r c => ⟨ha r c, hb r c⟩, ?_⟩
  simp only [Mat.get_ofFn]
  refine ⟨v1, v2, v3, v4, v1, v2, w3, w4, fun cfg => ?_⟩
  obtain ⟨m1, -, -, m4⟩ := C160_margin cfg (Mat.ofFn fun r c => ![![x1, x3], ![x2, x4]] r c) (Mat.ofFn fun r c => ![![x1, y3], ![x2, y4]] r c) x1 f1 ha hb
  refine ⟨m4 fun c => ⟨![1, -1] c, by fin_cases c <;> simp, fun r => ?_⟩, ?_⟩
  · simp only [Mat.get_ofFn]
    fin_cases r <;> fin_cases c <;> simp [v1, v2, v3, v4, w3, w4]
  · obtain ⟨x, h1, -⟩ := C160_rows cfg (Mat.ofFn fun r c => ![![x1, x3], ![x2, x4]] r c : Mat 2 2 (Fp single)) (Mat.ofFn fun r c => ![![x1, y3], ![x2, y4]] r c) x1 f1
    rw [h1]
    cases x with
    | false => rfl
    | true =>
      obtain ⟨σ, hσ, h⟩ := m1 h1 0
      have h0 := h 0
      have h1 := h 1
      simp only [Mat.get_ofFn] at h0 h1
      simp [v1, v3, w3] at h0 h1
      rcases hσ with rfl | rfl
      · norm_num at h1
      · norm_num at h0
end Vmml
