import Verif.Proofs.VectorLemmas
import Verif.Model.Alias
import Verif.Model.Ieee
import Mathlib.Order.Lattice
import Mathlib.Tactic.Linarith

/-!
# C08 – C10, C12, C13: comparison, equality, extrema, clamp
-/

namespace Vmml
open Vec
variable {M N : Nat} {α : Type}

/-! ## C08 -/

/-- Specification: `v` precedes `w` lexicographically. -/
def Spec.LexLt [LT α] (v w : Vec M α) : Prop :=
  ∃ i, ∃ h : i < M, v[i] < w[i] ∧ ∀ j (hj : j < i), v[j]'(by omega) = w[j]'(by omega)

/-- C08. `operator<` never faults and decides the lexicographic order. -/
theorem C08_lt_is_lexicographic [LinearOrder α] (cfg : Cfg) (v w : Vec M α) :
    ∃ b, v.lt cfg w = .ok b ∧ (b = true ↔ Spec.LexLt v w) := by
  let f : Nat → Option Bool := fun i => if h : i < M then
    (if v[i] < w[i] then some true else if w[i] < v[i] then some false else none) else none
  have hl : v.lt cfg w = .ok ((firstSome f M).getD false) := by
    unfold Vec.lt
    rw [loopRet_eq f (by
      intro i hi
      simp only [atGet_lt cfg _ hi, bind_ok, f, hi, dite_true, pure_ok]
      split_ifs <;> rfl)]
    rfl
  refine ⟨_, hl, ?_⟩
  have hnone : ∀ j (hj : j < M), f j = none → v[j] = w[j] := by
    intro j hj h
    simp only [f, hj, dite_true] at h
    split_ifs at h with h1 h2
    exact le_antisymm (not_lt.1 h2) (not_lt.1 h1)
  constructor
  · intro h
    have hs : firstSome f M = some true := by
      cases hf : firstSome f M with
      | none => simp [hf] at h
      | some b => simp [hf] at h; rw [h]
    obtain ⟨i, hi, h1, h2⟩ := (firstSome_eq_some f M true).1 hs
    refine ⟨i, hi, ?_, fun j hj => hnone j (by omega) (h2 j hj)⟩
    simp only [f, hi, dite_true] at h1
    split_ifs at h1 with h3
    · exact h3
    · simp at h1
  · rintro ⟨i, hi, h1, h2⟩
    have : firstSome f M = some true := (firstSome_eq_some f M true).2
      ⟨i, hi, by simp [f, hi, h1], fun j hj => by simp [f, show j < M by omega, h2 j hj]⟩
    simp [this]

/-- C08. The relation is a strict total order: irreflexive, transitive, trichotomous. -/
theorem C08_strict_total_order [LinearOrder α] (cfg : Cfg) (u v w : Vec M α) :
    v.lt cfg v = .ok false ∧
    (u.lt cfg v = .ok true → v.lt cfg w = .ok true → u.lt cfg w = .ok true) ∧
    (v.lt cfg w = .ok true ∨ v = w ∨ w.lt cfg v = .ok true) ∧
    ¬ (v.lt cfg w = .ok true ∧ w.lt cfg v = .ok true) := by
  have iffTrue : ∀ a b : Vec M α, a.lt cfg b = .ok true ↔ Spec.LexLt a b := by
    intro a b
    obtain ⟨x, h1, h2⟩ := C08_lt_is_lexicographic cfg a b
    rw [h1, ← h2]
    constructor
    · intro h; injection h
    · intro h; rw [h]
  have trans : ∀ a b c : Vec M α, Spec.LexLt a b → Spec.LexLt b c → Spec.LexLt a c := by
    rintro a b c ⟨i, hi, h1, h2⟩ ⟨k, hk, h3, h4⟩
    rcases lt_trichotomy i k with h | h | h
    · exact ⟨i, hi, by rw [← h4 i h]; exact h1, fun j hj => (h2 j hj).trans (h4 j (by omega))⟩
    · subst h; exact ⟨i, hi, h1.trans h3, fun j hj => (h2 j hj).trans (h4 j hj)⟩
    · exact ⟨k, hk, by rw [h2 k h]; exact h3, fun j hj => (h2 j (by omega)).trans (h4 j hj)⟩
  have irrefl : ∀ a : Vec M α, ¬ Spec.LexLt a a := by
    rintro a ⟨i, hi, h1, -⟩; exact lt_irrefl _ h1
  refine ⟨?_, ?_, ?_, ?_⟩
  · obtain ⟨b, h1, h2⟩ := C08_lt_is_lexicographic cfg v v
    cases b
    · exact h1
    · exact absurd (h2.1 rfl) (irrefl v)
  · simp only [iffTrue]; exact trans u v w
  · simp only [iffTrue]
    by_cases h : v = w
    · exact Or.inr (Or.inl h)
    · have : ∃ i, ∃ hi : i < M, v[i] ≠ w[i] := by
        by_contra hc
        push Not at hc
        exact h (Vector.ext hc)
      classical
      have hmin := Nat.find_spec this
      obtain ⟨hi, hne⟩ := hmin
      have hbefore : ∀ j (hj : j < Nat.find this), v[j]'(by omega) = w[j]'(by omega) := by
        intro j hj
        have := Nat.find_min this hj
        push Not at this
        exact this (by omega)
      rcases lt_or_gt_of_ne hne with h1 | h1
      · exact Or.inl ⟨_, hi, h1, hbefore⟩
      · exact Or.inr (Or.inr ⟨_, hi, h1, fun j hj => (hbefore j hj).symm⟩)
  · simp only [iffTrue]
    rintro ⟨h1, h2⟩
    exact irrefl v (trans v w v h1 h2)

example : Vec.lt ⟨true, true, false⟩ (#v[1, 2, 3] : Vec 3 ℤ) #v[1, 3, 0] = .ok true := by decide

/-! ## C09 -/

theorem flatMap_inj {β : Type} {f : α → List β} {k : Nat} (hk : ∀ a, (f a).length = k)
    (hinj : Function.Injective f) :
    ∀ l l' : List α, l.length = l'.length → l.flatMap f = l'.flatMap f → l = l' := by
  intro l
  induction l with
  | nil => intro l' h _; cases l' <;> simp_all
  | cons a l ih =>
    intro l' h1 h2
    cases l' with
    | nil => simp at h1
    | cons b l' =>
      simp only [List.flatMap_cons] at h2
      obtain ⟨h3, h4⟩ := List.append_inj h2 (by rw [hk, hk])
      rw [hinj h3, ih l' (by simpa using h1) h4]

/-- C09 (for types with one representation per value). `operator==` holds exactly for equal vectors, `!=` is its
negation. Missing for `float`/`double`: value equality, see the violations below. -/
theorem C09_memcmp_partial [Bytes α] (k : Nat) (hk : ∀ a : α, (Bytes.bytes a).length = k)
    (hinj : Function.Injective (Bytes.bytes : α → List UInt8)) (v w : Vec M α) :
    (v.eqMem w = true ↔ ∀ i (h : i < M), v[i] = w[i]) ∧ v.neMem w = !(v.eqMem w) := by
  refine ⟨?_, rfl⟩
  simp only [eqMem, beq_iff_eq]
  constructor
  · intro h
    have := flatMap_inj hk hinj v.toList w.toList (by simp) h
    intro i hi
    have e : v = w := by
      apply Vector.toList_inj.1 this
    rw [e]
  · intro h
    rw [Vector.ext h]

/-- C09. Consequently it is an equivalence relation on such vectors. -/
theorem C09_equivalence [Bytes α] (u v w : Vec M α) :
    v.eqMem v = true ∧ (v.eqMem w = true → w.eqMem v = true) ∧
    (u.eqMem v = true → v.eqMem w = true → u.eqMem w = true) := by
  simp only [eqMem, beq_iff_eq]
  exact ⟨trivial, Eq.symm, Eq.trans⟩

instance : Bytes F32 := ⟨F32.toBytes⟩

theorem F32.toBytes_inj : Function.Injective F32.toBytes := by
  intro a b h
  simp only [F32.toBytes, List.cons.injEq, and_true] at h
  obtain ⟨h0, h1, h2, h3⟩ := h
  have e0 := UInt8.ofBitVec.inj h0
  have e1 := UInt8.ofBitVec.inj h1
  have e2 := UInt8.ofBitVec.inj h2
  have e3 := UInt8.ofBitVec.inj h3
  cases a with | mk a => cases b with | mk b =>
  congr 1
  apply BitVec.eq_of_getLsbD_eq
  intro i hi
  have g : ∀ (s : Nat), a.extractLsb' s 8 = b.extractLsb' s 8 → ∀ j, j < 8 →
      a.getLsbD (s + j) = b.getLsbD (s + j) := by
    intro s h j hj
    have := congrArg (fun x => x.getLsbD j) h
    simpa [BitVec.getLsbD_extractLsb', hj] using this
  by_cases c0 : i < 8
  · simpa using g 0 e0 i c0
  · by_cases c1 : i < 16
    · have := g 8 e1 (i - 8) (by omega); rwa [show 8 + (i - 8) = i by omega] at this
    · by_cases c2 : i < 24
      · have := g 16 e2 (i - 16) (by omega); rwa [show 16 + (i - 16) = i by omega] at this
      · have := g 24 e3 (i - 24) (by omega); rwa [show 24 + (i - 24) = i by omega] at this

/-- C09 is violated for `float`: `Vector( 0.0f ) == Vector( -0.0f )` is false although the components compare equal. -/
theorem C09_signed_zero_violated :
    (F32.posZero == F32.negZero) = true ∧
    Vec.eqMem (#v[F32.posZero] : Vec 1 F32) #v[F32.negZero] = false := by decide

/-- C09 is violated for `float`: a vector holding NaN compares equal to itself although the components do not. -/
theorem C09_nan_violated :
    (F32.qnan == F32.qnan) = false ∧
    Vec.eqMem (#v[F32.qnan] : Vec 1 F32) #v[F32.qnan] = true := by decide

theorem F32.eq_of_beq {a b : F32} (hz : a.mag ≠ 0) (h : (a == b) = true) : a = b := by
  have h' : (!a.isNaN && !b.isNaN && a.key == b.key) = true := h
  simp only [Bool.and_eq_true, Bool.not_eq_true', beq_iff_eq] at h'
  obtain ⟨-, hk⟩ := h'
  have hs : a.sign = b.sign := by
    simp only [F32.key] at hk
    cases ha : a.sign <;> cases hb : b.sign <;> simp only [ha, hb, if_true, if_false, Bool.false_eq_true] at hk <;>
      first | rfl | (exfalso; omega)
  have hm : a.mag = b.mag := by
    simp only [F32.key, hs] at hk
    split_ifs at hk <;> omega
  cases a with | mk a => cases b with | mk b =>
  congr 1
  simp only [F32.mag, F32.sign] at hm hs
  apply BitVec.eq_of_toNat_eq
  have ha := a.isLt
  have hb := b.isLt
  simp only [BitVec.msb_eq_decide, Nat.add_one_sub_one, decide_eq_decide] at hs
  omega

/-- C09 for `float`, without zeros and NaNs: `==` is componentwise IEEE equality. Missing: zeros and
NaNs, where it is false (`C09_signed_zero_violated`, `C09_nan_violated`). -/
theorem C09_float_partial (v w : Vec M F32) (hz : ∀ i (h : i < M), v[i].mag ≠ 0)
    (hn : ∀ i (h : i < M), v[i].isNaN = false) :
    v.eqMem w = true ↔ ∀ i (h : i < M), (v[i] == w[i]) = true := by
  rw [(C09_memcmp_partial 4 (fun a => rfl) F32.toBytes_inj v w).1]
  constructor
  · intro h i hi
    rw [← h i hi]
    show (!v[i].isNaN && !v[i].isNaN && v[i].key == v[i].key) = true
    simp [hn i hi]
  · intro h i hi
    exact F32.eq_of_beq (hz i hi) (h i hi)

example : ∀ i (h : i < 1), (#v[(⟨0x3f800000#32⟩ : F32)] : Vec 1 F32)[i].mag ≠ 0 := by decide

/-! ## C10 -/

theorem equals_eq (cfg : Cfg) (v w : Vec M ℝ) (tol : ℝ) :
    ∃ b, v.equals cfg w tol = .ok b ∧ (b = true ↔ ∀ i (h : i < M), |v[i] - w[i]| < tol) := by
  classical
  let f : Nat → Option Bool := fun i => if h : i < M then
    (if tol ≤ |v[i] - w[i]| then some false else none) else none
  have hl : v.equals cfg w tol = .ok ((firstSome f M).getD true) := by
    unfold Vec.equals
    rw [loopRet_eq f (by
      intro i hi
      simp only [atGet_lt cfg _ hi, bind_ok, f, hi, dite_true, pure_ok, fabs_real]
      split_ifs <;> rfl)]
    rfl
  refine ⟨_, hl, ?_⟩
  constructor
  · intro h i hi
    by_contra hc
    have hn : firstSome f M ≠ none := by
      intro hn
      have := (firstSome_eq_none f M).1 hn i hi
      simp [f, hi, not_lt.1 hc] at this
    obtain ⟨b, hb⟩ := Option.ne_none_iff_exists'.1 hn
    obtain ⟨k, hk, h1, -⟩ := (firstSome_eq_some f M b).1 hb
    simp only [f, hk, dite_true] at h1
    split_ifs at h1
    · simp only [Option.some.injEq] at h1
      subst h1
      simp [hb] at h
  · intro h
    have : firstSome f M = none := (firstSome_eq_none f M).2 fun i hi => by
      simp [f, hi, h i hi]
    simp [this]

/-- C10. `equals( other, tol )` holds exactly if every componentwise difference is below `tol`. -/
theorem C10_equals_iff (cfg : Cfg) (v w : Vec M ℝ) (tol : ℝ) :
    ∃ b, v.equals cfg w tol = .ok b ∧ (b = true ↔ ∀ i (h : i < M), |v[i] - w[i]| < tol) :=
  equals_eq cfg v w tol

/-- C10. Reflexive for positive tolerance, symmetric, and tolerances add up under transitivity. -/
theorem C10_equals_laws (cfg : Cfg) (u v w : Vec M ℝ) (s t : ℝ) :
    (0 < t → v.equals cfg v t = .ok true) ∧
    (v.equals cfg w t = w.equals cfg v t) ∧
    (u.equals cfg v s = .ok true → v.equals cfg w t = .ok true → u.equals cfg w (s + t) = .ok true) := by
  have key : ∀ (a b : Vec M ℝ) (t : ℝ), a.equals cfg b t = .ok true ↔ ∀ i (h : i < M), |a[i] - b[i]| < t := by
    intro a b t
    obtain ⟨x, h1, h2⟩ := equals_eq cfg a b t
    rw [h1, ← h2]
    exact ⟨fun h => by injection h, fun h => by rw [h]⟩
  refine ⟨?_, ?_, ?_⟩
  · intro ht; rw [key]; intro i hi; simpa using ht
  · obtain ⟨x, h1, h2⟩ := equals_eq cfg v w t
    obtain ⟨y, h3, h4⟩ := equals_eq cfg w v t
    rw [h1, h3]
    have : (x = true) ↔ (y = true) := by
      rw [h2, h4]
      constructor <;> intro h i hi <;> rw [abs_sub_comm] <;> exact h i hi
    cases x <;> cases y <;> simp_all
  · rw [key, key, key]
    intro h1 h2 i hi
    have := abs_sub_le u[i] v[i] w[i]
    linarith [h1 i hi, h2 i hi]

/-! ## C12 -/

theorem minElement_spec {β : Type} [LinearOrder β] (f : α → β) (comp : α → α → Bool)
    (hc : ∀ a b, comp a b = true ↔ f a < f b) (hM : 0 < M) (v : Vec M α) :
    ∃ k, v.minElement comp = .ok k ∧ ∃ hk : k < M,
      (∀ j (hj : j < M), f v[k] ≤ f v[j]) ∧ ∀ j (hj : j < k), f v[k] < f (v[j]'(by omega)) := by
  obtain ⟨k, h1, hk, h2, h3⟩ := loop_ok (n := M - 1) (s := 0)
    (body := fun i best => do
      if comp (← v.rawGet (i + 1)) (← v.rawGet best) then pure (i + 1) else pure best)
    (fun n k => ∃ hk : k < M, (∀ j (hj : j < M), j ≤ n → f v[k] ≤ f v[j]) ∧ k ≤ n ∧
      ∀ j (hj : j < k), f v[k] < f (v[j]'(by omega)))
    ⟨hM, by intro j hj h0; obtain rfl : j = 0 := by omega
            exact le_rfl, le_rfl, by intro j hj; omega⟩
    (by
      rintro n hn k ⟨hk, h1, h2, h3⟩
      have hn1 : n + 1 < M := by omega
      simp only [rawGet_lt v hn1, rawGet_lt v hk, bind_ok]
      by_cases hcmp : comp v[n + 1] v[k] = true
      · refine ⟨n + 1, by simp [hcmp], hn1, ?_, le_rfl, ?_⟩
        · intro j hj hjn
          rcases Nat.lt_or_ge j (n + 1) with h | h
          · exact ((hc _ _).1 hcmp).le.trans (h1 j hj (by omega))
          · obtain rfl : j = n + 1 := by omega
            exact le_rfl
        · intro j hj
          exact ((hc _ _).1 hcmp).trans_le (h1 j (by omega) (by omega))
      · refine ⟨k, by simp [hcmp], hk, ?_, by omega, h3⟩
        intro j hj hjn
        rcases Nat.lt_or_ge j (n + 1) with h | h
        · exact h1 j hj (by omega)
        · obtain rfl : j = n + 1 := by omega
          exact not_lt.1 (fun hh => hcmp ((hc _ _).2 hh)))
  exact ⟨k, h1, hk, fun j hj => h2 j hj (by omega), h3.2⟩

theorem maxElement_eq_minElement (comp : α → α → Bool) (v : Vec M α) :
    v.maxElement comp = v.minElement (fun a b => comp b a) := by
  unfold maxElement minElement
  apply loop_congr
  intro i _ best
  unfold rawGet
  split_ifs <;> rfl

theorem maxElement_spec {β : Type} [LinearOrder β] (f : α → β) (comp : α → α → Bool)
    (hc : ∀ a b, comp a b = true ↔ f a < f b) (hM : 0 < M) (v : Vec M α) :
    ∃ k, v.maxElement comp = .ok k ∧ ∃ hk : k < M,
      (∀ j (hj : j < M), f v[j] ≤ f v[k]) ∧ ∀ j (hj : j < k), f (v[j]'(by omega)) < f v[k] := by
  have h := minElement_spec (β := βᵒᵈ) (fun a => OrderDual.toDual (f a)) (fun a b => comp b a)
    (by intro a b; rw [hc]; exact Iff.rfl) hM v
  obtain ⟨k, h1, hk, h2, h3⟩ := h
  exact ⟨k, (maxElement_eq_minElement comp v).trans h1, hk, fun j hj => h2 j hj, fun j hj => h3 j hj⟩

/-- C12 (minimum and maximum). For every non-empty vector over a linear order: `find_min_index` is the first
index of the least component, `find_max_index` the first index of the greatest, and `find_min`/`find_max` return those components. -/
theorem C12_min_max [LinearOrder α] (hM : 0 < M) (v : Vec M α) :
    (∃ k, ∃ hk : k < M, v.findMinIndex = .ok k ∧ v.findMin = .ok v[k] ∧
      (∀ j (hj : j < M), v[k] ≤ v[j]) ∧ ∀ j (hj : j < k), v[k] < v[j]'(by omega)) ∧
    (∃ k, ∃ hk : k < M, v.findMaxIndex = .ok k ∧ v.findMax = .ok v[k] ∧
      (∀ j (hj : j < M), v[j] ≤ v[k]) ∧ ∀ j (hj : j < k), v[j]'(by omega) < v[k]) := by
  obtain ⟨k, h1, hk, h2, h3⟩ := minElement_spec (fun a : α => a) (fun a b => decide (a < b)) (by simp) hM v
  obtain ⟨l, g1, hl, g2, g3⟩ := maxElement_spec (fun a : α => a) (fun a b => decide (a < b)) (by simp) hM v
  refine ⟨⟨k, hk, h1, ?_, h2, h3⟩, ⟨l, hl, g1, ?_, g2, g3⟩⟩
  · simp [findMin, findMinIndex, h1, hk]
  · simp [findMax, findMaxIndex, g1, hl]

/-- C12 (absolute minimum). -/
theorem C12_abs_min (hM : 0 < M) (v : Vec M ℝ) :
    ∃ k, ∃ hk : k < M, v.findAbsMinIndex = .ok k ∧
      (∀ j (hj : j < M), |v[k]| ≤ |v[j]|) ∧ ∀ j (hj : j < k), |v[k]| < |v[j]'(by omega)| := by
  obtain ⟨k, h1, hk, h2, h3⟩ := minElement_spec (fun a : ℝ => |a|) absLess (by simp [absLess]) hM v
  exact ⟨k, hk, h1, h2, h3⟩

/-- C12 is violated for the absolute maximum: for *every* vector `find_abs_max_index` returns the same index
as `find_abs_min_index` (it passes `abs_greater` to `max_element`, which then finds the least absolute value). -/
theorem C12_abs_max_is_abs_min_violated (v : Vec M ℝ) : v.findAbsMaxIndex = v.findAbsMinIndex := by
  unfold findAbsMaxIndex findAbsMinIndex
  rw [maxElement_eq_minElement]; rfl

/-- C12, what remains of the absolute-maximum claim. Missing: the claim fails unless all components have the same absolute value; in
that case the returned index is 0. -/
theorem C12_abs_max_partial (hM : 0 < M) (v : Vec M ℝ) (c : ℝ) (h : ∀ i (hi : i < M), |v[i]| = c) :
    ∃ k, ∃ hk : k < M, v.findAbsMaxIndex = .ok k ∧ ∀ j (hj : j < M), |v[j]| ≤ |v[k]| := by
  rw [C12_abs_max_is_abs_min_violated]
  obtain ⟨k, hk, h1, -, -⟩ := C12_abs_min hM v
  exact ⟨k, hk, h1, fun j hj => by rw [h j hj, h k hk]⟩

/-- A concrete witness: for `(1, -5)` the index 0 is returned. -/
theorem C12_abs_max_witness_violated :
    ∃ v : Vec 2 ℝ, v.findAbsMaxIndex = .ok 0 ∧ |v[0]| < |v[1]| := by
  refine ⟨#v[1, -5], ?_, ?_⟩
  · rw [C12_abs_max_is_abs_min_violated]
    obtain ⟨k, hk, h1, h2, h3⟩ := C12_abs_min (M := 2) (by omega) (#v[1, -5] : Vec 2 ℝ)
    match k, hk with
    | 0, _ => exact h1
    | 1, _ => have := h3 0 (by omega); norm_num at this
  · norm_num

/-! ## C13 -/

theorem clamp_eq [LinearOrder α] (v : Vec M α) (lo hi : α) :
    v.clamp lo hi = .ok (Vector.ofFn fun i => min (max v[i] lo) hi) := by
  unfold Vec.clamp
  apply loop_set
  intro i hi' u hu
  have e : u[i] = v[i] := hu i hi' le_rfl
  simp only [rawGet_lt _ hi', bind_ok, e]
  by_cases h1 : v[i] < lo
  · simp only [h1, if_true, rawSet_lt _ _ hi', bind_ok, Vector.getElem_set_self]
    by_cases h2 : hi < lo
    · simp [h2, max_eq_right h1.le, min_eq_right h2.le]
    · simp [h2, max_eq_right h1.le, min_eq_left (not_lt.1 h2)]
  · simp only [h1, if_false, pure_ok, bind_ok, e]
    by_cases h2 : hi < v[i]
    · simp [h2, hi', max_eq_left (not_lt.1 h1), min_eq_right h2.le]
    · simp only [h2, if_false, Fin.getElem_fin, max_eq_left (not_lt.1 h1), min_eq_left (not_lt.1 h2)]
      congr 1
      simp only [← e]
      simp

/-- C13. For `lo ≤ hi` every component ends in `[lo, hi]`, components already there are unchanged, those
below become `lo`, those above `hi`; clamping again changes nothing, and clamping is monotone. -/
theorem C13_clamp [LinearOrder α] (v w : Vec M α) (lo hi : α) (h : lo ≤ hi) :
    ∃ r s, v.clamp lo hi = .ok r ∧ w.clamp lo hi = .ok s ∧
      (∀ i (hi' : i < M), lo ≤ r[i] ∧ r[i] ≤ hi ∧ (lo ≤ v[i] → v[i] ≤ hi → r[i] = v[i]) ∧
        (v[i] < lo → r[i] = lo) ∧ (hi < v[i] → r[i] = hi)) ∧
      r.clamp lo hi = .ok r ∧
      ((∀ i (hi' : i < M), v[i] ≤ w[i]) → ∀ i (hi' : i < M), r[i] ≤ s[i]) := by
  refine ⟨_, _, clamp_eq v lo hi, clamp_eq w lo hi, ?_, ?_, ?_⟩
  · intro i hi'
    simp only [Vector.getElem_ofFn, Fin.getElem_fin]
    refine ⟨le_min (le_max_right _ _) h, min_le_right _ _, ?_, ?_, ?_⟩
    · intro h1 h2; rw [max_eq_left h1, min_eq_left h2]
    · intro h1; rw [max_eq_right h1.le, min_eq_left h]
    · intro h1; rw [max_eq_left (h.trans h1.le), min_eq_right h1.le]
  · rw [clamp_eq]
    congr 1; ext i hi'
    simp only [Vector.getElem_ofFn, Fin.getElem_fin]
    rw [max_eq_left (le_min (le_max_right _ _) h), min_eq_left (min_le_right _ _)]
  · intro hvw i hi'
    simp only [Vector.getElem_ofFn, Fin.getElem_fin]
    exact min_le_min_right _ (max_le_max_right _ (hvw i hi'))

/-- C13. The bounds are taken by reference and may refer to components of the vector being clamped
(`v.clamp( v( a ), v( b ) )`); if the referred values satisfy `lo ≤ hi` the result is the same as with copies. -/
theorem C13_clamp_alias [LinearOrder α] (v : Vec M α) (lo hi : SRef α) (a b : α)
    (ha : lo.read v = .ok a) (hb : hi.read v = .ok b) (hab : a ≤ b) :
    v.clampRef lo hi = v.clamp a b := by
  rw [clamp_eq]
  -- a reference keeps its value throughout the loop
  have keep : ∀ (r : SRef α) (x : α), r.read v = .ok x → a ≤ x → x ≤ b → ∀ (u : Vec M α) (n : Nat),
      (∀ j (hj : j < M), u[j] = if j < n then min (max v[j] a) b else v[j]) → r.read u = .ok x := by
    intro r x hx h1 h2 u n hu
    cases r with
    | ext y => exact hx
    | cell k =>
      by_cases hk : k < M
      · simp only [SRef.read, rawGet_lt _ hk] at hx ⊢
        have hx' : v[k] = x := by injection hx
        rw [hu k hk, hx', max_eq_left h1, min_eq_left h2]
        simp
      · simp [SRef.read, rawGet_ge v (not_lt.1 hk)] at hx
  obtain ⟨r, h1, h2⟩ := loop_ok (n := M) (s := v)
    (body := fun i v => do
      let v ← if (← v.rawGet i) < (← lo.read v) then v.rawSet i (← lo.read v) else pure v
      if (← hi.read v) < (← v.rawGet i) then v.rawSet i (← hi.read v) else pure v)
    (fun n u => ∀ j (hj : j < M), u[j] = if j < n then min (max v[j] a) b else v[j]) (by simp) (by
      intro n hn u hu
      have el : lo.read u = .ok a := keep lo a ha le_rfl hab u n hu
      have eh : hi.read u = .ok b := keep hi b hb hab le_rfl u n hu
      have en : u[n] = v[n] := by rw [hu n hn]; simp
      simp only [rawGet_lt _ hn, bind_ok, el, en]
      by_cases c1 : v[n] < a
      · simp only [c1, if_true, rawSet_lt _ _ hn, bind_ok]
        have hu' : ∀ j (hj : j < M), (u.set n a)[j] = if j < n + 1 then min (max v[j] a) b else v[j] := by
          intro j hj
          rw [Vector.getElem_set]
          by_cases hj' : n = j
          · subst hj'; simp [max_eq_right c1.le, min_eq_left hab]
          · rw [if_neg hj', hu j hj]
            by_cases h3 : j < n
            · simp [h3, show j < n + 1 by omega]
            · simp [h3, show ¬ j < n + 1 by omega]
        have eh' : hi.read (u.set n a) = .ok b := keep hi b hb hab le_rfl _ (n + 1) hu'
        simp only [eh', bind_ok, Vector.getElem_set_self, not_lt.2 hab, if_false, pure_ok]
        exact ⟨_, rfl, hu'⟩
      · simp only [c1, if_false, pure_ok, bind_ok, eh, en]
        by_cases c2 : b < v[n]
        · simp only [c2, if_true, rawSet_lt _ _ hn]
          refine ⟨_, rfl, ?_⟩
          intro j hj
          rw [Vector.getElem_set]
          by_cases hj' : n = j
          · subst hj'; simp [max_eq_left (not_lt.1 c1), min_eq_right c2.le]
          · rw [if_neg hj', hu j hj]
            by_cases h3 : j < n
            · simp [h3, show j < n + 1 by omega]
            · simp [h3, show ¬ j < n + 1 by omega]
        · simp only [c2, if_false]
          refine ⟨_, rfl, ?_⟩
          intro j hj
          rw [hu j hj]
          by_cases hj' : n = j
          · subst hj'; simp [max_eq_left (not_lt.1 c1), min_eq_left (not_lt.1 c2)]
          · by_cases h3 : j < n
            · simp [h3, show j < n + 1 by omega]
            · simp [h3, show ¬ j < n + 1 by omega])
  unfold Vec.clampRef
  rw [h1]
  congr 1; ext j hj
  rw [h2 j hj]; simp [hj]

example : Vec.clampRef (#v[3, -1, 7, 5] : Vec 4 ℤ) (.cell 0) (.cell 3) = .ok #v[3, 3, 5, 5] := by decide

end Vmml
