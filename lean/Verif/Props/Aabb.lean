import Verif.Model.Aabb
import Verif.Proofs.VectorLemmas
import Verif.Props.VectorOrder
import Mathlib.Order.Bounds.Basic
import Mathlib.Algebra.Order.Field.Basic
import Mathlib.Tactic.FieldSimp
import Mathlib.Tactic.Positivity
import Mathlib.Tactic.Linarith

/-!
# C69 – C73: axis-aligned bounding boxes
-/

set_option linter.unusedSimpArgs false

namespace Vmml
open Box
variable {α : Type}

/-- A point of the closed box. -/
def Spec.Within [LE α] (b : Box α) (p : Vec 3 α) : Prop := ∀ i (hi : i < 3), b.min[i] ≤ p[i] ∧ p[i] ≤ b.max[i]

theorem forall_lt_three {P : ∀ i, i < 3 → Prop} : (∀ i (hi : i < 3), P i hi) ↔ P 0 (by omega) ∧ P 1 (by omega) ∧ P 2 (by omega) := by
  constructor
  · intro h; exact ⟨h 0 _, h 1 _, h 2 _⟩
  · rintro ⟨h0, h1, h2⟩ i hi
    match i, hi with
    | 0, _ => exact h0
    | 1, _ => exact h1
    | 2, _ => exact h2

theorem Box.ext' {a b : Box α} (h1 : ∀ i (hi : i < 3), a.min[i] = b.min[i]) (h2 : ∀ i (hi : i < 3), a.max[i] = b.max[i]) : a = b := by
  obtain ⟨a1, a2⟩ := a
  obtain ⟨b1, b2⟩ := b
  congr
  · exact Vector.ext h1
  · exact Vector.ext h2

/-! ## C70 -/

/-- C70. `isIn( p )` holds exactly if `min ≤ p ≤ max` in every coordinate. -/
theorem C70_isIn [LinearOrder α] (b : Box α) (p : Vec 3 α) : b.isIn p = true ↔ Spec.Within b p := by
  unfold isIn Spec.Within
  rw [forall_lt_three]
  split_ifs with h
  · simp only [Bool.false_eq_true, false_iff, gt_iff_lt] at *
    rintro ⟨⟨a1, a2⟩, ⟨b1, b2⟩, ⟨c1, c2⟩⟩
    rcases h with h | h | h | h | h | h
    · exact absurd h (not_lt.2 a2)
    · exact absurd h (not_lt.2 b2)
    · exact absurd h (not_lt.2 c2)
    · exact absurd h (not_lt.2 a1)
    · exact absurd h (not_lt.2 b1)
    · exact absurd h (not_lt.2 c1)
  · simp only [gt_iff_lt, not_or, not_lt, true_iff] at *
    obtain ⟨h1, h2, h3, h4, h5, h6⟩ := h
    exact ⟨⟨h4, h1⟩, ⟨h5, h2⟩, ⟨h6, h3⟩⟩

/-- C70. `isIn2d( p )` holds exactly if `min ≤ p ≤ max` in the first two coordinates: `z` is ignored. -/
theorem C70_isIn2d [LinearOrder α] (b : Box α) (p : Vec 3 α) :
    b.isIn2d p = true ↔ ∀ i (hi : i < 2), b.min[i] ≤ p[i] ∧ p[i] ≤ b.max[i] := by
  have e : (∀ i (hi : i < 2), b.min[i] ≤ p[i] ∧ p[i] ≤ b.max[i]) ↔ (b.min[0] ≤ p[0] ∧ p[0] ≤ b.max[0]) ∧ (b.min[1] ≤ p[1] ∧ p[1] ≤ b.max[1]) := by
    constructor
    · intro h; exact ⟨h 0 (by omega), h 1 (by omega)⟩
    · rintro ⟨h0, h1⟩ i hi
      match i, hi with
      | 0, _ => exact h0
      | 1, _ => exact h1
  rw [e]
  unfold isIn2d
  split_ifs with h
  · simp only [Bool.false_eq_true, false_iff, gt_iff_lt] at *
    rintro ⟨⟨a1, a2⟩, ⟨b1, b2⟩⟩
    rcases h with h | h | h | h
    · exact absurd h (not_lt.2 a2)
    · exact absurd h (not_lt.2 b2)
    · exact absurd h (not_lt.2 a1)
    · exact absurd h (not_lt.2 b1)
  · simp only [gt_iff_lt, not_or, not_lt, true_iff] at *
    obtain ⟨h1, h2, h3, h4⟩ := h
    exact ⟨⟨h3, h1⟩, ⟨h4, h2⟩⟩

theorem lowerTo_get [LinearOrder α] (v : Vec 3 α) (i : Fin 3) (c : α) (j : Nat) (hj : j < 3) :
    (lowerTo v i c)[j] = if i.1 = j then min v[j] c else v[j] := by
  unfold lowerTo
  by_cases h2 : i.1 = j
  · subst h2
    rw [if_pos rfl]
    split_ifs with h1
    · rw [Vector.getElem_set_self]; exact (min_eq_right h1.le).symm
    · exact (min_eq_left (not_lt.1 h1)).symm
  · rw [if_neg h2]
    split_ifs with h1
    · rw [Vector.getElem_set_ne]; exact h2
    · rfl

theorem raiseTo_get [LinearOrder α] (v : Vec 3 α) (i : Fin 3) (c : α) (j : Nat) (hj : j < 3) :
    (raiseTo v i c)[j] = if i.1 = j then max v[j] c else v[j] := by
  unfold raiseTo
  by_cases h2 : i.1 = j
  · subst h2
    rw [if_pos rfl]
    split_ifs with h1
    · rw [Vector.getElem_set_self]; exact (max_eq_right (le_of_lt h1)).symm
    · exact (max_eq_left (not_lt.1 h1)).symm
  · rw [if_neg h2]
    split_ifs with h1
    · rw [Vector.getElem_set_ne]; exact h2
    · rfl

theorem mergeBox_get [LinearOrder α] (b a : Box α) (i : Nat) (hi : i < 3) :
    (b.mergeBox a).min[i] = min b.min[i] a.min[i] ∧ (b.mergeBox a).max[i] = max b.max[i] a.max[i] := by
  simp only [mergeBox, lowerTo_get, raiseTo_get]
  match i, hi with
  | 0, _ => simp
  | 1, _ => simp
  | 2, _ => simp

theorem mergePoint_get [LinearOrder α] (b : Box α) (p : Vec 3 α) (i : Nat) (hi : i < 3) :
    (b.mergePoint p).min[i] = min b.min[i] p[i] ∧ (b.mergePoint p).max[i] = max b.max[i] p[i] := by
  simp only [mergePoint, lowerTo_get, raiseTo_get]
  match i, hi with
  | 0, _ => simp
  | 1, _ => simp
  | 2, _ => simp

/-- C70. Merging a point into any box makes the point a member and evicts no member; nor does merging a box, whose members become members. -/
theorem C70_merge [LinearOrder α] (b a : Box α) (p q : Vec 3 α) :
    (b.mergePoint p).isIn p = true ∧ (b.isIn q = true → (b.mergePoint p).isIn q = true) ∧
    (b.isIn q = true → (b.mergeBox a).isIn q = true) ∧ (a.isIn q = true → (b.mergeBox a).isIn q = true) := by
  simp only [C70_isIn]
  refine ⟨fun i hi => ?_, fun h i hi => ?_, fun h i hi => ?_, fun h i hi => ?_⟩
  · rw [(mergePoint_get b p i hi).1, (mergePoint_get b p i hi).2]
    exact ⟨min_le_right _ _, le_max_right _ _⟩
  · rw [(mergePoint_get b p i hi).1, (mergePoint_get b p i hi).2]
    exact ⟨(min_le_left _ _).trans (h i hi).1, (h i hi).2.trans (le_max_left _ _)⟩
  · rw [(mergeBox_get b a i hi).1, (mergeBox_get b a i hi).2]
    exact ⟨(min_le_left _ _).trans (h i hi).1, (h i hi).2.trans (le_max_left _ _)⟩
  · rw [(mergeBox_get b a i hi).1, (mergeBox_get b a i hi).2]
    exact ⟨(min_le_right _ _).trans (h i hi).1, (h i hi).2.trans (le_max_right _ _)⟩

/-- C70. Instances: a corner is inside, a point beyond it is not, whatever its `z` for `isIn2d`. -/
example : let b : Box Int := ⟨#v[0, -1, 2], #v[3, 4, 5]⟩
    b.isIn #v[3, -1, 5] = true ∧ b.isIn #v[3, -1, 6] = false ∧ b.isIn2d #v[3, -1, 6] = true ∧ b.isIn2d #v[4, -1, 3] = false := by decide

/-! ## C69 -/

/-- The two kinds of merge. -/
inductive Spec.Merge (α : Type)
  | point (p : Vec 3 α)
  | box (b : Box α)

/-- Lower and upper corner of the merged thing. -/
def Spec.Merge.lower : Spec.Merge α → Vec 3 α
  | .point p => p
  | .box b => b.min
def Spec.Merge.upper : Spec.Merge α → Vec 3 α
  | .point p => p
  | .box b => b.max

/-- The call. -/
def Spec.Merge.apply [LT α] [DecidableLT α] (b : Box α) : Spec.Merge α → Box α
  | .point p => b.mergePoint p
  | .box a => b.mergeBox a

theorem apply_get [LinearOrder α] (b : Box α) (m : Spec.Merge α) (i : Nat) (hi : i < 3) :
    (m.apply b).min[i] = min b.min[i] m.lower[i] ∧ (m.apply b).max[i] = max b.max[i] m.upper[i] := by
  cases m with
  | point p => exact mergePoint_get b p i hi
  | box a => exact mergeBox_get b a i hi

theorem foldl_get [LinearOrder α] (h : List (Spec.Merge α)) (b : Box α) (i : Nat) (hi : i < 3) :
    (∀ x, x ≤ (h.foldl Spec.Merge.apply b).min[i] ↔ x ≤ b.min[i] ∧ ∀ m ∈ h, x ≤ m.lower[i]) ∧
    (∀ x, (h.foldl Spec.Merge.apply b).max[i] ≤ x ↔ b.max[i] ≤ x ∧ ∀ m ∈ h, m.upper[i] ≤ x) := by
  induction h generalizing b with
  | nil => simp
  | cons m h ih =>
    obtain ⟨h1, h2⟩ := ih (m.apply b)
    obtain ⟨e1, e2⟩ := apply_get b m i hi
    constructor
    · intro x
      rw [List.foldl_cons, h1, e1, le_min_iff]
      simp [and_assoc]
    · intro x
      rw [List.foldl_cons, h2, e2, max_le_iff]
      simp [and_assoc]

/-- C69. The default constructor and `setEmpty()` (on whatever box) give the same starting point: both lower coordinates the greatest value, both upper
coordinates the least one. -/
theorem C69_empty [Zero α] [Neg α] (cfg : Cfg) (hi lo : α) (b : Box α) :
    Box.ctor hi lo = .ok ⟨Vector.replicate 3 hi, Vector.replicate 3 lo⟩ ∧ b.setEmpty cfg hi = Box.ctor hi (-hi) := by
  simp [Box.ctor, Box.setEmpty, Vec.fill_eq, Vec.assignFiller_eq]

/-- C69. After any nonempty history of merges into an empty box (all coordinates between the limits `lo` and `hi` of the element type), every lower
coordinate is the least of the merged lower coordinates and every upper one the greatest of the merged upper ones. -/
theorem C69_history [LinearOrder α] [Zero α] (hi lo : α) (h : List (Spec.Merge α)) (hne : h ≠ [])
    (hb : ∀ m ∈ h, ∀ i (hi' : i < 3), m.lower[i] ≤ hi ∧ lo ≤ m.upper[i]) :
    ∃ e, Box.ctor hi lo = .ok e ∧ ∀ i (hi' : i < 3),
      IsLeast {x | ∃ m ∈ h, x = m.lower[i]} (h.foldl Spec.Merge.apply e).min[i] ∧
      IsGreatest {x | ∃ m ∈ h, x = m.upper[i]} (h.foldl Spec.Merge.apply e).max[i] := by
  refine ⟨⟨Vector.replicate 3 hi, Vector.replicate 3 lo⟩, by simp [Box.ctor, Vec.fill_eq], fun i hi' => ?_⟩
  obtain ⟨h1, h2⟩ := foldl_get h ⟨Vector.replicate 3 hi, Vector.replicate 3 lo⟩ i hi'
  simp only [Vector.getElem_replicate] at h1 h2
  generalize (h.foldl Spec.Merge.apply _).min[i] = mn at *
  generalize (h.foldl Spec.Merge.apply _).max[i] = mx at *
  obtain ⟨m0, hm0⟩ := List.exists_mem_of_ne_nil h hne
  constructor
  · constructor
    · by_contra hcon
      -- some element attains the minimum of the finite set
      have hmin : ∃ m ∈ h, ∀ m' ∈ h, m.lower[i] ≤ m'.lower[i] := by
        clear hb h1 h2 hcon hm0
        induction h with
        | nil => exact absurd rfl hne
        | cons a l ih =>
          by_cases hl : l = []
          · subst hl; exact ⟨a, by simp, by simp⟩
          · obtain ⟨p, hp, hq⟩ := ih hl
            rcases le_total a.lower[i] p.lower[i] with h' | h'
            · exact ⟨a, by simp, by simpa using fun q hq' => h'.trans (hq q hq')⟩
            · exact ⟨p, by simp [hp], by simpa using ⟨h', hq⟩⟩
      obtain ⟨m, hm, hle⟩ := hmin
      have a1 := (h1 m.lower[i]).2 ⟨(hb m hm i hi').1, hle⟩
      have a2 := ((h1 mn).1 le_rfl).2 m hm
      exact hcon ⟨m, hm, le_antisymm a2 a1⟩
    · rintro x ⟨m, hm, rfl⟩
      exact ((h1 mn).1 le_rfl).2 m hm
  · constructor
    · by_contra hcon
      have hmax : ∃ m ∈ h, ∀ m' ∈ h, m'.upper[i] ≤ m.upper[i] := by
        clear hb h1 h2 hcon hm0
        induction h with
        | nil => exact absurd rfl hne
        | cons a l ih =>
          by_cases hl : l = []
          · subst hl; exact ⟨a, by simp, by simp⟩
          · obtain ⟨p, hp, hq⟩ := ih hl
            rcases le_total p.upper[i] a.upper[i] with h' | h'
            · exact ⟨a, by simp, by simpa using fun q hq' => (hq q hq').trans h'⟩
            · exact ⟨p, by simp [hp], by simpa using ⟨h', hq⟩⟩
      obtain ⟨m, hm, hle⟩ := hmax
      have a1 := (h2 m.upper[i]).2 ⟨(hb m hm i hi').2, hle⟩
      have a2 := ((h2 mx).1 le_rfl).2 m hm
      exact hcon ⟨m, hm, le_antisymm a1 a2⟩
    · rintro x ⟨m, hm, rfl⟩
      exact ((h2 mx).1 le_rfl).2 m hm

/-- C69. Smallest enclosing box: the result contains every merged point and every member of every merged box, and every box that contains all merged
points and (the corners of) all merged boxes contains the result. -/
theorem C69_smallest [LinearOrder α] [Zero α] (hi lo : α) (h : List (Spec.Merge α)) (hne : h ≠ [])
    (hb : ∀ m ∈ h, ∀ i (hi' : i < 3), m.lower[i] ≤ hi ∧ lo ≤ m.upper[i]) :
    ∃ e, Box.ctor hi lo = .ok e ∧
      (∀ p, .point p ∈ h → (h.foldl Spec.Merge.apply e).isIn p = true) ∧
      (∀ b p, .box b ∈ h → b.isIn p = true → (h.foldl Spec.Merge.apply e).isIn p = true) ∧
      ∀ c : Box α, (∀ m ∈ h, c.isIn m.lower = true ∧ c.isIn m.upper = true) →
        ∀ p, (h.foldl Spec.Merge.apply e).isIn p = true → c.isIn p = true := by
  obtain ⟨e, he, hx⟩ := C69_history hi lo h hne hb
  refine ⟨e, he, ?_, ?_, ?_⟩
  · intro p hp
    rw [C70_isIn]
    intro i hi'
    exact ⟨(hx i hi').1.2 ⟨_, hp, rfl⟩, (hx i hi').2.2 ⟨_, hp, rfl⟩⟩
  · intro b p hm hp
    rw [C70_isIn] at hp ⊢
    intro i hi'
    exact ⟨((hx i hi').1.2 ⟨_, hm, rfl⟩).trans (hp i hi').1, (hp i hi').2.trans ((hx i hi').2.2 ⟨_, hm, rfl⟩)⟩
  · intro c hc p hp
    rw [C70_isIn] at hp ⊢
    intro i hi'
    obtain ⟨m, hm, e1⟩ := (hx i hi').1.1
    obtain ⟨m', hm', e2⟩ := (hx i hi').2.1
    have c1 := (hc m hm).1
    have c2 := (hc m' hm').2
    rw [C70_isIn] at c1 c2
    have a1 := (hp i hi').1
    have a2 := (hp i hi').2
    rw [e1] at a1
    rw [e2] at a2
    exact ⟨(c1 i hi').1.trans a1, a2.trans (c2 i hi').2⟩

/-- C69. Order and repetition do not matter: from any starting box, two histories merging the same things give the same box. -/
theorem C69_order [LinearOrder α] (b : Box α) (h h' : List (Spec.Merge α)) (hs : ∀ m, m ∈ h ↔ m ∈ h') :
    h.foldl Spec.Merge.apply b = h'.foldl Spec.Merge.apply b := by
  apply Box.ext'
  · intro i hi
    have a := (foldl_get h b i hi).1
    have c := (foldl_get h' b i hi).1
    apply le_antisymm
    · rw [c]; simp only [← hs]; rw [← a]
    · rw [a]; simp only [hs]; rw [← c]
  · intro i hi
    have a := (foldl_get h b i hi).2
    have c := (foldl_get h' b i hi).2
    apply le_antisymm
    · rw [a]; simp only [hs]; rw [← c]
    · rw [c]; simp only [← hs]; rw [← a]

/-- C69. Merging the empty box, or the box itself, changes nothing. -/
theorem C69_neutral [LinearOrder α] (hi lo : α) (b : Box α) (hb : ∀ i (hi' : i < 3), b.min[i] ≤ hi ∧ lo ≤ b.max[i]) :
    b.mergeBox ⟨Vector.replicate 3 hi, Vector.replicate 3 lo⟩ = b ∧ b.mergeBox b = b := by
  constructor
  · apply Box.ext'
    · intro i hi'; rw [(mergeBox_get _ _ i hi').1]; simpa using (hb i hi').1
    · intro i hi'; rw [(mergeBox_get _ _ i hi').2]; simpa using (hb i hi').2
  · apply Box.ext'
    · intro i hi'; rw [(mergeBox_get _ _ i hi').1]; simp
    · intro i hi'; rw [(mergeBox_get _ _ i hi').2]; simp

/-- C69. A history of two points and a box of `int`s. -/
example : let h : List (Spec.Merge Int) := [.point #v[1, 5, 2], .box ⟨#v[0, 0, 0], #v[2, 2, 7]⟩, .point #v[3, -4, 1]]
    h.foldl Spec.Merge.apply ⟨Vector.replicate 3 2147483647, Vector.replicate 3 (-2147483648)⟩ = ⟨#v[0, -4, 0], #v[3, 5, 7]⟩ ∧
      ∀ m ∈ h, ∀ i (hi' : i < 3), m.lower[i] ≤ (2147483647 : Int) ∧ (-2147483648 : Int) ≤ m.upper[i] := by
  constructor
  · decide
  · intro m hm
    simp only [List.mem_cons, List.not_mem_nil, or_false] at hm
    rcases hm with rfl | rfl | rfl <;> (rw [forall_lt_three]; simp [Spec.Merge.lower, Spec.Merge.upper])

/-- C69, violated for integer element types with `setEmpty()`: it stores `-max` as upper corner, which for `int` is not the least
value. Merging the point `( INT_MIN, INT_MIN, INT_MIN )` gives a box with upper corner `INT_MIN + 1`. -/
theorem C69_setEmpty_int_violated (cfg : Cfg) (b : Box Int) :
    ∃ e, b.setEmpty cfg 2147483647 = .ok e ∧ (e.mergePoint (Vector.replicate 3 (-2147483648))).max ≠ Vector.replicate 3 (-2147483648) := by
  refine ⟨⟨Vector.replicate 3 2147483647, Vector.replicate 3 (-2147483647)⟩, by simp [Box.setEmpty, Vec.assignFiller_eq], by decide⟩

/-- C69, violated for unsigned element types with `setEmpty()`: `-max` is 1. -/
theorem C69_setEmpty_unsigned_violated (cfg : Cfg) (b : Box (BitVec 32)) :
    ∃ e, b.setEmpty cfg (BitVec.allOnes 32) = .ok e ∧ (e.mergePoint (Vector.replicate 3 0#32)).max = Vector.replicate 3 1#32 := by
  refine ⟨⟨Vector.replicate 3 (BitVec.allOnes 32), Vector.replicate 3 1#32⟩, ?_, by decide⟩
  have : -(BitVec.allOnes 32) = 1#32 := by decide
  simp only [Box.setEmpty, Vec.assignFiller_eq, bind_ok, pure_ok, this]

/-! ## C71 -/

/-- C71. What `isEmpty()` computes. It is exact only where the upper `x` and `z` bounds agree, and "empty" then means that some side has no positive length.
Missing: see the violations. -/
theorem C71_isEmpty_partial [LinearOrder α] (b : Box α) :
    (b.isEmpty = true ↔ b.max[0] ≤ b.min[0] ∨ b.max[1] ≤ b.min[1] ∨ b.max[0] ≤ b.min[2]) ∧
    (b.max[2] = b.max[0] → (b.isEmpty = false ↔ ∀ i (hi : i < 3), b.min[i] < b.max[i])) ∧
    (b.max[2] ≤ b.max[0] → (∀ i (hi : i < 3), b.min[i] < b.max[i]) → b.isEmpty = false) := by
  have h : b.isEmpty = true ↔ b.max[0] ≤ b.min[0] ∨ b.max[1] ≤ b.min[1] ∨ b.max[0] ≤ b.min[2] := by
    simp [isEmpty, or_assoc]
  refine ⟨h, fun e => ?_, fun e hlt => ?_⟩
  · rw [← Bool.not_eq_true, h, forall_lt_three, e]
    push Not
    rfl
  · rw [← Bool.not_eq_true, h]
    rw [forall_lt_three] at hlt
    push Not
    exact ⟨hlt.1, hlt.2.1, hlt.2.2.trans_le e⟩

/-- C71. A default-constructed box and a box after `setEmpty()` are empty and contain no point, if the limits of the element type differ. -/
theorem C71_default [LinearOrder α] [Zero α] [Neg α] (cfg : Cfg) (hi lo : α) (hlt : lo < hi) (b : Box α) :
    (∃ e, Box.ctor hi lo = .ok e ∧ e.isEmpty = true ∧ ∀ p, e.isIn p = false) ∧
    (-hi < hi → ∃ e, b.setEmpty cfg hi = .ok e ∧ e.isEmpty = true ∧ ∀ p, e.isIn p = false) := by
  have key : ∀ lo : α, lo < hi → (⟨Vector.replicate 3 hi, Vector.replicate 3 lo⟩ : Box α).isEmpty = true ∧
      ∀ p, (⟨Vector.replicate 3 hi, Vector.replicate 3 lo⟩ : Box α).isIn p = false := by
    intro lo hlt
    constructor
    · rw [(C71_isEmpty_partial _).1]; simp [hlt.le]
    · intro p
      rw [← Bool.not_eq_true, C70_isIn]
      intro h
      have := h 0 (by omega)
      simp at this
      exact absurd hlt (not_lt.2 (this.1.trans this.2))
  refine ⟨⟨_, (C69_empty cfg hi lo b).1, key lo hlt⟩, fun h => ⟨_, ?_, key (-hi) h⟩⟩
  rw [(C69_empty cfg hi lo b).2, (C69_empty cfg hi (-hi) b).1]

/-- C71, violated: after merging a single point into an empty box the box contains that point and still calls itself empty. -/
theorem C71_point_violated [LinearOrder α] (hi lo : α) (p : Vec 3 α) (hp : ∀ i (hi' : i < 3), lo ≤ p[i] ∧ p[i] ≤ hi) :
    ((⟨Vector.replicate 3 hi, Vector.replicate 3 lo⟩ : Box α).mergePoint p).isIn p = true ∧
    ((⟨Vector.replicate 3 hi, Vector.replicate 3 lo⟩ : Box α).mergePoint p).isEmpty = true := by
  refine ⟨(C70_merge _ ⟨p, p⟩ p p).1, ?_⟩
  rw [(C71_isEmpty_partial _).1, (mergePoint_get _ p 0 _).1, (mergePoint_get _ p 0 _).2]
  left
  have := hp 0 (by omega)
  simp [this.1, this.2]

/-- C71, violated: a box of positive extent in all directions reported empty, and a box without any point reported non-empty, because the lower `z` is
compared with the upper `x`. -/
theorem C71_isEmpty_violated :
    (let b : Box Int := ⟨#v[0, 0, 5], #v[1, 1, 6]⟩;
      (∀ i (hi : i < 3), b.min[i] < b.max[i]) ∧ b.isEmpty = true) ∧
    (let b : Box Int := ⟨#v[0, 0, 2], #v[3, 1, 1]⟩;
      (∀ p, b.isIn p = false) ∧ b.isEmpty = false) := by
  refine ⟨⟨by rw [forall_lt_three]; decide, by decide⟩, ⟨fun p => ?_, by decide⟩⟩
  rw [← Bool.not_eq_true, C70_isIn]
  intro h
  have := h 2 (by omega)
  simp at this
  omega

/-! ## C72 -/

theorem addAssign_eq' [Add α] (cfg : Cfg) (b : Box α) (v : α) : b.addAssign cfg v = .ok ⟨Vector.ofFn fun i => b.min[i] + v, Vector.ofFn fun i => b.max[i] + v⟩ := by
  simp [addAssign, Vec.addAssignS_eq]

/-- C72. The scalar operators act on every coordinate of both corners, the compound forms alike. -/
theorem C72_componentwise [Add α] [Sub α] [Mul α] [Div α] (cfg : Cfg) (b : Box α) (v : α) :
    b.add cfg v = .ok ⟨Vector.ofFn fun i => b.min[i] + v, Vector.ofFn fun i => b.max[i] + v⟩ ∧
    b.sub cfg v = .ok ⟨Vector.ofFn fun i => b.min[i] - v, Vector.ofFn fun i => b.max[i] - v⟩ ∧
    b.mul cfg v = .ok ⟨Vector.ofFn fun i => b.min[i] * v, Vector.ofFn fun i => b.max[i] * v⟩ ∧
    b.div cfg v = .ok ⟨Vector.ofFn fun i => b.min[i] / v, Vector.ofFn fun i => b.max[i] / v⟩ ∧
    b.addAssign cfg v = b.add cfg v ∧ b.subAssign cfg v = b.sub cfg v ∧ b.mulAssign cfg v = b.mul cfg v ∧ b.divAssign cfg v = b.div cfg v := by
  simp [Box.add, Box.sub, Box.mul, Box.div, Box.addAssign, Box.subAssign, Box.mulAssign, Box.divAssign, Vec.addAssignS_eq, Vec.subAssignS_eq,
    Vec.mulAssignS_eq, Vec.divAssignS_eq]

/-- C72. Translation is invertible and carries membership along. -/
theorem C72_translation [AddCommGroup α] [LinearOrder α] [IsOrderedAddMonoid α] (cfg : Cfg) (b : Box α) (v : α) :
    ∃ b', b.add cfg v = .ok b' ∧ b'.sub cfg v = .ok b ∧ (∃ b'', b.sub cfg v = .ok b'' ∧ b''.add cfg v = .ok b) ∧
      ∀ p : Vec 3 α, ∃ p', p.addS cfg v = .ok p' ∧ b'.isIn p' = b.isIn p := by
  refine ⟨⟨Vector.ofFn fun i => b.min[i] + v, Vector.ofFn fun i => b.max[i] + v⟩, ?_, ?_, ⟨⟨Vector.ofFn fun i => b.min[i] - v, Vector.ofFn fun i => b.max[i] - v⟩, ?_, ?_⟩, ?_⟩
  · simp [Box.add, Box.addAssign, Vec.addAssignS_eq]
  · simp [Box.sub, Box.subAssign, Vec.subAssignS_eq]
  · simp [Box.sub, Box.subAssign, Vec.subAssignS_eq]
  · simp [Box.add, Box.addAssign, Vec.addAssignS_eq]
  · intro p
    refine ⟨_, Vec.addS_eq .., ?_⟩
    rw [Bool.eq_iff_iff, C70_isIn, C70_isIn]
    simp [Spec.Within]

/-- C72. Scaling by a positive number carries membership along and is undone by division. -/
theorem C72_scaling [Field α] [LinearOrder α] [IsStrictOrderedRing α] (cfg : Cfg) (b : Box α) (v : α) (hv : 0 < v) :
    ∃ b', b.mul cfg v = .ok b' ∧ b'.div cfg v = .ok b ∧ ∀ p : Vec 3 α, ∃ p', p.mulS cfg v = .ok p' ∧ b'.isIn p' = b.isIn p := by
  have hne := hv.ne'
  refine ⟨⟨Vector.ofFn fun i => b.min[i] * v, Vector.ofFn fun i => b.max[i] * v⟩, ?_, ?_, ?_⟩
  · simp [Box.mul, Box.mulAssign, Vec.mulAssignS_eq]
  · simp [Box.div, Box.divAssign, Vec.divAssignS_eq]
    apply Box.ext' <;> intro i hi <;> simp [hne]
  · intro p
    refine ⟨_, Vec.mulS_eq .., ?_⟩
    rw [Bool.eq_iff_iff, C70_isIn, C70_isIn]
    simp [Spec.Within, mul_le_mul_iff_left₀ hv]

/-- C72. `==` holds exactly for boxes with equal corners and `!=` is its negation, for element types with one representation per value (for others it compares
representations, see C09). -/
theorem C72_equality [Vec.Bytes α] (k : Nat) (hk : ∀ a : α, (Vec.Bytes.bytes a).length = k)
    (hinj : Function.Injective (Vec.Bytes.bytes : α → List UInt8)) (a b : Box α) : (a.eq b = true ↔ a = b) ∧ a.ne b = !(a.eq b) := by
  constructor
  · simp only [Box.eq, Bool.and_eq_true, (C09_memcmp_partial k hk hinj _ _).1]
    constructor
    · rintro ⟨h1, h2⟩; exact Box.ext' h1 h2
    · rintro rfl; exact ⟨fun _ _ => rfl, fun _ _ => rfl⟩
  · simp [Box.ne, Box.eq, Vec.neMem, Bool.not_and]

/-- C72. Instance. -/
example (cfg : Cfg) : Box.add cfg (⟨#v[0, -1, 2], #v[3, 4, 5]⟩ : Box Int) 7 = .ok ⟨#v[7, 6, 9], #v[10, 11, 12]⟩ := by
  rw [(C72_componentwise cfg (⟨#v[0, -1, 2], #v[3, 4, 5]⟩ : Box Int) 7).1]; decide

/-! ## C73 -/

theorem assign_eq3 (d v : Vec 3 α) : d.assign v = .ok v := by
  rw [Vec.assign, Vec.memcpy_eq _ _ _ le_rfl le_rfl]
  congr 1
  ext i hi
  simp [hi]

/-- C73. `set( cx, cy, cz, size )` and the constructor give the cube with centre `c` and half extent `size`, whatever the box held before. -/
theorem C73_cube [Zero α] [Add α] [Sub α] (cfg : Cfg) (b : Box α) (cx cy cz size : α) :
    b.setCube cfg cx cy cz size = .ok ⟨#v[cx - size, cy - size, cz - size], #v[cx + size, cy + size, cz + size]⟩ ∧
    Box.ctorCube cfg cx cy cz size = b.setCube cfg cx cy cz size := by
  have e1 : (Vector.ofFn fun i : Fin 3 => (#v[cx, cy, cz] : Vec 3 α)[i] - size) = #v[cx - size, cy - size, cz - size] := by
    apply vec3_ext <;> simp
  have e2 : (Vector.ofFn fun i : Fin 3 => (#v[cx, cy, cz] : Vec 3 α)[i] + size) = #v[cx + size, cy + size, cz + size] := by
    apply vec3_ext <;> simp
  simp only [Box.setCube, Box.ctorCube, set3_eq, assign_eq3, bind_ok, Vec.subS_eq, Vec.addS_eq, Vec.subAssignS_eq, Vec.addAssignS_eq, pure_ok, e1, e2,
    and_self]

/-- C73. Centre and extents of a cube set that way are what was set (in a field; `half` is 1/2), and membership is distance at most `size` from the centre in
every coordinate. -/
theorem C73_recover [Field α] [LinearOrder α] [IsStrictOrderedRing α] (cfg : Cfg) (b : Box α) (cx cy cz size : α) :
    ∃ b', b.setCube cfg cx cy cz size = .ok b' ∧ b'.getCenter cfg (1 / 2) = .ok #v[cx, cy, cz] ∧
      b'.getDimension cfg = .ok #v[2 * size, 2 * size, 2 * size] ∧
      ∀ p : Vec 3 α, b'.isIn p = true ↔ |p[0] - cx| ≤ size ∧ |p[1] - cy| ≤ size ∧ |p[2] - cz| ≤ size := by
  refine ⟨_, (C73_cube cfg b cx cy cz size).1, ?_, ?_, ?_⟩
  · simp only [Box.getCenter, Vec.sub_eq, Vec.mulS_eq, Vec.add_eq, bind_ok]
    congr 1
    apply vec3_ext <;> simp <;> ring
  · simp only [Box.getDimension, Vec.sub_eq]
    congr 1
    apply vec3_ext <;> simp <;> ring
  · intro p
    rw [C70_isIn, Spec.Within, forall_lt_three]
    simp only [abs_le]
    simp
    constructor
    · rintro ⟨⟨_, _⟩, ⟨_, _⟩, _, _⟩; refine ⟨⟨?_, ?_⟩, ⟨?_, ?_⟩, ?_, ?_⟩ <;> linarith
    · rintro ⟨⟨_, _⟩, ⟨_, _⟩, _, _⟩; refine ⟨⟨?_, ?_⟩, ⟨?_, ?_⟩, ?_, ?_⟩ <;> linarith

/-- C73. For every box, centre ± half the dimension are the corners; the two-vector constructor and `set` store the corners given, `setMin` and `setMax`
change one corner only. -/
theorem C73_center_dimension [Field α] [CharZero α] (cfg : Cfg) (b : Box α) (p q : Vec 3 α) :
    (∃ c d, b.getCenter cfg (1 / 2) = .ok c ∧ b.getDimension cfg = .ok d ∧
      ∀ i (hi : i < 3), b.min[i] = c[i] - d[i] / 2 ∧ b.max[i] = c[i] + d[i] / 2) ∧
    Box.ctor2 p q = ⟨p, q⟩ ∧ b.set p q = .ok ⟨p, q⟩ ∧ b.setMin p = .ok ⟨p, b.max⟩ ∧ b.setMax q = .ok ⟨b.min, q⟩ := by
  refine ⟨⟨_, _, by simp only [Box.getCenter, Vec.sub_eq, Vec.mulS_eq, Vec.add_eq, bind_ok]; rfl, Vec.sub_eq .., ?_⟩, rfl, ?_, ?_, ?_⟩
  · intro i hi
    simp only [Vector.getElem_ofFn, Fin.getElem_fin]
    constructor <;> ring
  · simp only [Box.set, assign_eq3, bind_ok, pure_ok]
  · simp only [Box.setMin, assign_eq3, bind_ok, pure_ok]
  · simp only [Box.setMax, assign_eq3, bind_ok, pure_ok]

/-- C73. `makeUnitBox()` is `[0, 1]³`. -/
theorem C73_unit [Zero α] [One α] : (Box.makeUnitBox : Res (Box α)) = .ok ⟨#v[0, 0, 0], #v[1, 1, 1]⟩ := by
  simp only [Box.makeUnitBox, Vec.fill_eq, bind_ok, pure_ok]
  rfl

/-- C73, violated for integer element types: `0.5f` becomes 0, the centre of `[0, 10]³` is reported as its lower corner. -/
theorem C73_int_center_violated (cfg : Cfg) : Box.getCenter cfg 0 (⟨#v[0, 0, 0], #v[10, 10, 10]⟩ : Box Int) = .ok #v[0, 0, 0] := by
  simp only [Box.getCenter, Vec.sub_eq, Vec.mulS_eq, Vec.add_eq, bind_ok]; decide

/-- C73. Instance. -/
example (cfg : Cfg) (b : Box Int) : b.setCube cfg 1 2 3 10 = .ok ⟨#v[-9, -8, -7], #v[11, 12, 13]⟩ := by
  rw [(C73_cube cfg b 1 2 3 10).1]; decide

end Vmml
