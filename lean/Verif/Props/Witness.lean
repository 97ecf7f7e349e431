import Verif.Props.Aabb
import Verif.Props.BoxAlias
import Verif.Props.Constants
import Verif.Props.Diagnostics
import Verif.Props.Failure
import Verif.Props.FrustumCullerBox
import Verif.Props.Intersection
import Verif.Props.InverseAlias
import Verif.Props.Iter
import Verif.Props.LowpassFilter
import Verif.Props.MatrixAccess
import Verif.Props.MatrixAlgebra
import Verif.Props.PositiveDefinite
import Verif.Props.MatrixTransform
import Verif.Props.MatrixStats
import Verif.Props.MatrixQuantize
import Verif.Props.MatrixSignal
import Verif.Props.VectorAccess
import Verif.Props.VectorArith
import Verif.Props.VectorGeom
import Verif.Props.VectorOrder

/-!
# Concrete cases for theorems whose own file has none next to them

Each line applies a theorem to a concrete, non-trivial case and discharges its hypotheses: they can be met.
-/

namespace Vmml

/-- A checked build that throws. -/
private abbrev wc : Cfg := ⟨true, true, false⟩
/-- An unchecked release build. -/
private abbrev wu : Cfg := ⟨false, false, true⟩

/-! ## Boxes -/
private def wh : List (Spec.Merge Int) := [.point #v[1, 5, 2], .box ⟨#v[0, 0, 0], #v[2, 2, 7]⟩, .point #v[3, -4, 1]]
private theorem wh_bounds : ∀ m ∈ wh, ∀ i (hi' : i < 3), m.lower[i] ≤ (2147483647 : Int) ∧ (-2147483648 : Int) ≤ m.upper[i] := by
  intro m hm i hi'
  simp only [wh, List.mem_cons, List.not_mem_nil, or_false] at hm
  rcases hm with rfl | rfl | rfl <;> (have : i = 0 ∨ i = 1 ∨ i = 2 := by omega) <;> rcases this with rfl | rfl | rfl <;>
    simp [Spec.Merge.lower, Spec.Merge.upper]
example := C69_history 2147483647 (-2147483648) wh (by simp [wh]) wh_bounds
example := C69_smallest 2147483647 (-2147483648) wh (by simp [wh]) wh_bounds
example (b : Box Int) := C69_order b wh wh.reverse (by simp)
example (b : Box Int) := C71_default wc 2147483647 (-2147483648) (by decide) b
example := C71_point_violated (2147483647 : Int) (-2147483648) #v[1, 2, 3]
  (by intro i hi'; have : i = 0 ∨ i = 1 ∨ i = 2 := by omega
      rcases this with rfl | rfl | rfl <;> simp)
example := C72_scaling wc (⟨#v[0, -1, 2], #v[3, 4, 5]⟩ : Box ℚ) (3 / 2) (by norm_num)
example := C105_merge_self (fun x : Int => lt_irrefl x) ⟨#v[5, 0, 0], #v[1, 1, 1]⟩
example := C105_set_partial (⟨#v[5, 0, 0], #v[1, 1, 1]⟩ : Box Int) .ownMax (.ext #v[7, 8, 9]) (Or.inl (by simp))

/-! ## Constants, texts, failures -/
example (f : Frustum ℝ) := C106_perspective_top f 180 (4 / 3) 1 100 (by norm_num) le_rfl
example := C106_rounded (binRounding 23) (by norm_num)
example := C94_what wc rfl "index".toList ⟨"vector.hpp".toList, 676⟩ [] (by decide) (by decide)
example := C94_what_nul "a".toList "b".toList ⟨"vector.hpp".toList, 676⟩ (by decide) (by decide)
example := C95_agree wc (⟨#v[1, 2, 3, 4]⟩ : Mat 2 2 Int) 0 1 1 9 #v[5, 6] #v[7, 8] (⟨#v[5]⟩ : Mat 1 1 Int) [1, 2, 3, 4] (2 ^ 64) 1 1 (by norm_num)
  (by norm_num)
example := C95_set_sub_matrix_effect wc rfl rfl (2 ^ 64) (⟨#v[5, 6, 7, 8]⟩ : Mat 2 2 Int) 1 0 (by omega) (by omega) (by omega) (by norm_num) (by norm_num)
  (by norm_num) (by norm_num) (⟨#v[1, 2, 3, 4]⟩ : Mat 2 2 Int)

/-! ## Frusta and culling -/
private theorem wgood : Spec.Good ⟨#v[-1, 1, -1, 1, 1, 2]⟩ := by
  constructor <;> norm_num [Frustum.left, Frustum.right, Frustum.bottom, Frustum.top, Frustum.nearPlane, Frustum.farPlane]
example (m : Mat 4 4 ℝ) := C60_inside wc ⟨#v[-1, 1, -1, 1, 1, 2]⟩ wgood m
example := C62_adjust_near ⟨#v[-1, 1, -1, 1, 1, 2]⟩ 3 wgood.n0 (by norm_num)
example (f : Frustum ℝ) := C63_set_perspective_partial f 90 (4 / 3) 1 100 (by norm_num) (by norm_num) (by norm_num) (by norm_num)
example (f g : Frustum Int) (s : Frustum Nat) :=
  C85_set (fun x : Nat => (x : Int)) f g s (le_refl 6) #v[1, 2, 3, 4, 5, 6] (-1) 1 (-1) 1 1 2
example (m : Mat 4 4 ℝ) := C65_frustum wc ⟨#v[-1, 1, -1, 1, 1, 2]⟩ wgood m
/-- An orthographic projection: every clip plane has a normal. -/
private theorem wnondeg : Spec.NonDegenerate (Mat.ofFn fun r c => if r = c then (2 : ℝ) else 0 : Mat 4 4 ℝ).toMat := by
  intro i hi s hs
  refine ⟨i, hi, ?_⟩
  rcases hs with rfl | rfl <;> simp [hi, Ne.symm hi]
example := C65_planes wc _ wnondeg
example := C65_clip wc _ wnondeg
example := C66_sound (⟨#v[1, 0, 0, 1], #v[-1, 0, 0, 1], #v[0, 1, 0, 1], #v[0, -1, 0, 1], #v[0, 0, -1, 1], #v[0, 0, 1 / 2, 1]⟩)
  (by intro p hp; simp only [Spec.planes, List.mem_cons, List.not_mem_nil, or_false] at hp
      rcases hp with rfl | rfl | rfl | rfl | rfl | rfl
      · show (1 : ℝ) ^ 2 + 0 ^ 2 + 0 ^ 2 ≤ 1; norm_num
      · show (-1 : ℝ) ^ 2 + 0 ^ 2 + 0 ^ 2 ≤ 1; norm_num
      · show (0 : ℝ) ^ 2 + 1 ^ 2 + 0 ^ 2 ≤ 1; norm_num
      · show (0 : ℝ) ^ 2 + (-1) ^ 2 + 0 ^ 2 ≤ 1; norm_num
      · show (0 : ℝ) ^ 2 + 0 ^ 2 + (-1) ^ 2 ≤ 1; norm_num
      · show (0 : ℝ) ^ 2 + 0 ^ 2 + (1 / 2) ^ 2 ≤ 1; norm_num) #v[0, 0, 0, 1 / 2]

/-! ## Inverses, determinants, definiteness -/
private noncomputable def wm : Mat 2 2 ℝ := Mat.ofFn fun r c => if r = c then (2 : ℝ) else if r < c then 1 else 0
private theorem wm_det : wm.toMat.det = 4 := by simp [Matrix.det_fin_two, wm]; norm_num
example (i : Mat 2 2 ℝ) := C30_inverse wc (by norm_num) (by norm_num) wm i (1 / 1000) (by norm_num) (by rw [wm_det]; norm_num)
example (i : Mat 2 2 ℝ) := C30_boundary wc (by norm_num) (by norm_num) wm i (by rw [wm_det]; norm_num)
example (i j : Mat 2 2 ℝ) := C30_involutive wc (by norm_num) (by norm_num) wm i j (1 / 1000) (by norm_num) (by rw [wm_det]; norm_num)
  (by rw [wm_det]; norm_num)
example (i : Mat 2 2 ℝ) := C30_inverse2_partial wc wm i (1 / 1000) (by norm_num)
example (i : Mat 2 2 ℝ) := C30_inverse2_singular_violated wc (Mat.ofFn fun _ _ => 1) i (by simp [Matrix.det_fin_two])
example := C86_inverse2_self_violated wc wm (1 / 1000) (by norm_num)
example := C86_inverse3_self_violated wc 2 3 4 (1 / 1000) (by norm_num) (by norm_num) (by norm_num)
example (m : Mat 4 4 Int) := C29_det wc (by norm_num) (by norm_num) m
example (m c : Mat 4 4 Int) := C31_cofactors (K := 3) (by norm_num) (by norm_num) wc m c
example (m : Mat 6 6 Int) (n : Mat 5 5 Int) := C31_minor wc m n 2 3 (by norm_num)
example (m : Mat 4 4 Int) (n : Mat 3 3 Int) := C31_minor_value (by norm_num) (by norm_num) wc m n 2 3
example (m : Mat 3 3 ℝ) := C50_positive_definite_partial wc (by norm_num) (by norm_num) m 0
private theorem wpos : IsPosDef (Mat.ofFn fun r c => if r = c then (2 : ℝ) else 1 : Mat 2 2 ℝ).toMat := by
  constructor
  · intro i j; simp [eq_comm]
  · intro x hx
    have h : x 0 ≠ 0 ∨ x 1 ≠ 0 := by
      by_contra hc
      push Not at hc
      exact hx (by ext i; fin_cases i <;> simp [hc.1, hc.2])
    simp [Fin.sum_univ_two]
    rcases h with h | h
    · have := pow_pos (abs_pos.2 h) 2; rw [sq_abs] at this
      nlinarith [sq_nonneg (x 0 + x 1), sq_nonneg (x 1)]
    · have := pow_pos (abs_pos.2 h) 2; rw [sq_abs] at this
      nlinarith [sq_nonneg (x 0 + x 1), sq_nonneg (x 0)]
example := C50_complete wc (by norm_num) (by norm_num) _ (-1) (by norm_num) wpos
example : IsPosDef (Mat.ofFn fun r c => if r = c then (2 : ℝ) else 1 : Mat 2 2 ℝ).toMat := by
  refine C50_sound wc (by norm_num) (by norm_num) _ (1 / 2) (by norm_num) wpos.1 ?_
  obtain ⟨b, hb, h⟩ := C50_positive_definite_partial wc (n := 2) (by norm_num) (by norm_num) (Mat.ofFn fun r c => if r = c then (2 : ℝ) else 1) (1 / 2)
  rw [hb, h.2]
  intro k hk hk1
  obtain rfl | rfl : k = 1 ∨ k = 2 := by omega
  · rw [leading1]; norm_num
  · rw [leading2]; norm_num

/-! ## Iterators, filters -/
example (v : Vec 3 ℝ) (m : Mat 3 2 ℝ) := C98_default_tolerance wc (1 / 1000) (by norm_num) v m
example (v w : Vec 3 ℝ) (a b : Mat 3 2 ℝ) := C98_default_tolerance_violated wc (by norm_num) (by norm_num) v w a b
example (h : Nat → Quat Int) := C98_quaternion_assign h (a := 0) (b := 1) (by decide)
example (h : Nat → Frustum Int) := C98_frustum_assign h (a := 0) (b := 1) (by decide)
example (h : Heap (Mat 2 3 Int)) := C98_matrix_assign h (a := 0) (b := 1) (by decide)
example (m : Mat 2 3 Int) := C98_matrix_pointer wc m (r := 1) (c := 2) (by norm_num) (by norm_num)
example (l : Lowpass ℝ ℝ) := C75_add 4 (by norm_num) l (7 : ℝ)
example := C75_history (V := ℝ) 2 (by norm_num) (1 / 2) [.add 1, .add 2, .factor (1 / 3), .add 3]
example := C75_weights (1 / 2) 4 (by norm_num)
example := C76_bounds 2 (by norm_num) (1 / 2) (1 / 3) (by norm_num) (by norm_num) [.add 1, .add 2] 3 1 3
  (by intro y hy; simp [Spec.samples] at hy; rcases hy with rfl | rfl <;> norm_num)
example := C76_convex 2 (by norm_num) (⟨[1, 2], 1 / 2, some 1⟩ : Lowpass ℝ ℝ) (by norm_num) (by norm_num) 3 (Set.Icc 1 3) (convex_Icc _ _)
  (by intro y hy; simp at hy; rcases hy with rfl | rfl <;> norm_num)

/-! ## Matrices -/
example (m : Mat 2 3 Int) := C20_bracket_row_M_violated wu m 1 (by norm_num)
example (m : Mat 2 3 Int) := C20_bracket_throws_partial wc rfl rfl m 3 0 9 (by norm_num)
example (m : Mat 2 3 Int) := C20_brackets_agree wc m 1 2 9 (by norm_num) (by norm_num)
example (m : Mat 2 3 Int) := C20_checked_throws wc rfl rfl m 2 0 9 (by norm_num)
example (m : Mat 2 3 Int) := C20_read_after_write wc m 1 2 0 1 9 (by norm_num) (by norm_num) (by norm_num) (by norm_num)
example (m : Mat 2 3 Int) := C20_unchecked_row_wraps wu rfl m 1 1
example (m : Mat 2 3 Int) := C22_col_major (fun x : Nat => (x : Int)) m [1, 2, 3, 4, 5, 6, 7] (by norm_num)
example (m : Mat 2 3 Int) := C22_col_major_short_ub (fun x : Nat => (x : Int)) m [1, 2, 3, 4, 5] (by norm_num)
example (m : Mat 2 3 Int) := C22_row_major_round_trip wc m [1, 2, 3, 4, 5, 6] rfl
example (m : Mat 3 4 Int) (s r : Mat 2 2 Int) := C24_blocks wc m s r 1 2 (by norm_num) (by norm_num)
example (h : Heap (Mat 2 2 Int)) := C26_mul_assign_partial wc h 0 1 2 (by decide) (by decide) (by decide)
example (m : Mat 2 3 Int) := C32_tensor_nonsquare_violated wc m #v[1, 2] #v[3, 4, 5] (by norm_num) (by norm_num) (by norm_num)
example (m : Mat 2 3 ℝ) (q : Mat 2 3 Int) := C42_codes_in_range ⟨-128, 127, true⟩ (by norm_num) m q 0 1
private noncomputable def wq : Mat 2 2 ℝ := Mat.ofFn fun r c => if r = c then (2 : ℝ) else 1
example (d : Mat 2 2 ℝ) (q : Mat 2 2 Int) := C42_quantize_unsigned_partial ⟨0, 255, false⟩ rfl rfl (by norm_num) wq d q 1000
  (by intro r c; simp only [wq, Mat.toMat_apply, Mat.get_ofFn]; split_ifs <;> norm_num) ⟨0, 1, 0, 0, by simp [wq]⟩
example (d : Mat 2 2 ℝ) (q : Mat 2 2 Int) := C42_round_trip_unsigned_partial ⟨0, 255, false⟩ rfl rfl (by norm_num) wq d q 0 2 (by norm_num)
  (by intro r c; simp only [wq, Mat.toMat_apply, Mat.get_ofFn]; split_ifs <;> norm_num)
example (d : Mat 2 2 ℝ) (q : Mat 2 2 Int) := C42_signed_symmetric_partial 127 (by norm_num) wq d q 2 (by norm_num)
  (by intro r c; simp only [wq, Mat.toMat_apply, Mat.get_ofFn]; split_ifs <;> norm_num)
example (m : Mat 5 5 Int) (k : Mat 3 3 Int) := C43_convolve_partial (by norm_num) wc m k
example (m : Mat 5 4 Int) (k : Mat 3 3 Int) := C43_nonsquare_violated wc rfl rfl m k (by norm_num) (by norm_num) (by norm_num)
example (m : Mat 2 3 ℝ) := C84_matrix_set_random wc (fun k => k % 7) 32767 (by norm_num) m (by intro k; have := Nat.mod_lt k (show 7 > 0 by norm_num); omega)
example := C40_get_max_partial (Mat.ofFn fun r c => if r = c then (2 : Int) else -1 : Mat 2 2 Int) ⟨0, 0, by simp⟩
example := C40_get_max_violated (Mat.ofFn fun _ _ => -1 : Mat 2 2 Int) (by intro r c; simp)
example := C40_get_min 2147483647 (Mat.ofFn fun r c => if r = c then (2 : Int) else -1 : Mat 2 2 Int) (by norm_num) (by norm_num)
  (by intro r c; simp only [Mat.toMat_apply, Mat.get_ofFn]; split_ifs <;> norm_num)
private theorem wunit : Spec.IsUnit3 fun i => (#v[3 / 5, 0, 4 / 5] : Vec 3 ℝ)[i] := by
  show (3 / 5 : ℝ) ^ 2 + 0 ^ 2 + (4 / 5) ^ 2 = 1; norm_num
example (m : Mat 4 4 ℝ) := C36_additive m 1 2 _ wunit
example (m : Mat 4 4 ℝ) := C36_rotation m 1 _ wunit
private noncomputable def wone : Mat 4 4 ℝ := Mat.ofFn fun r c => if r = c then 1 else 0
private theorem wone_eq : wone.toMat = 1 := by ext r c; simp [wone, Matrix.one_apply]
private theorem wrigid : Spec.Rigid wone.toMat := by
  have h := rotAxis_rigid (fun i => (#v[3 / 5, 0, 4 / 5] : Vec 3 ℝ)[i]) wunit 0
  have e := (C36_additive wone 0 0 _ wunit).2
  rw [wone_eq, ← e]
  exact (C36_rotation wone 0 _ wunit).1
example := C37_pre_rotate_violated wone wone_eq
example (m : Mat 4 4 Int) (t : Vec 3 Int) := C38_get_translation m t (by norm_num)
example (p q : Vec 3 ℝ) := C39_distance wc wone wrigid p q
private theorem wvalid : ∀ op ∈ [TOp.rotX 1, .axis 2 #v[3 / 5, 0, 4 / 5], .translate #v[1, 2, 3], .preZ 5], op.Valid := by
  intro op hop
  simp only [List.mem_cons, List.not_mem_nil, or_false] at hop
  rcases hop with rfl | rfl | rfl | rfl
  exacts [trivial, wunit, trivial, trivial]
example := C39_history_rigid wone wrigid _ wvalid
example (p q : Vec 3 ℝ) := C39_history_distance wc wone wrigid _ wvalid p q

/-! ## Vectors -/
example (v : Vec 3 Int) := C01_checked_aborts ⟨true, false, false⟩ rfl rfl rfl v 3 9 le_rfl
example (v : Vec 3 Int) := C01_checked_throws wc rfl rfl v 3 9 le_rfl
example (v : Vec 3 Int) := C01_unchecked_ub wu (Or.inl rfl) v 3 9 le_rfl
example := C02_history_refines_store wc (#v[1, 2, 3] : Vec 3 Int) [(0, 7), (2, 8), (0, 9)] (by decide) (fun j => if j = 0 then 1 else if j = 1 then 2 else 3)
  (by intro j h; obtain rfl | rfl | rfl : j = 0 ∨ j = 1 ∨ j = 2 := by omega
      all_goals rfl)
example (v : Vec 3 Int) := C02_last_write_determines wc v [(0, 7), (2, 8), (0, 9)] [(0, 9), (2, 8)] (by decide) (by decide)
  (by intro j h; obtain rfl | rfl | rfl : j = 0 ∨ j = 1 ∨ j = 2 := by omega
      all_goals decide)
example (v : Vec 4 Int) (d : Vec 3 Int) := C14_getSub_out_of_range wc v d 2 (by norm_num) (by norm_num) (by norm_num)
example (v : Vec 4 Int) := C14_subSet (N := 3) wc v 1 2 9 (by norm_num) (by norm_num)
example (h : Heap (Vec 3 Int)) := C06_cross_alias_this_left h 0 1 (by decide)
example (h : Heap (Vec 3 Int)) := C06_cross_noalias_partial h 0 1 1 (by decide) (by decide)
example := C07_normalize_zero wc (#v[0, 0, 0] : Vec 3 ℝ) (by
  intro i hi
  obtain rfl | rfl | rfl : i = 0 ∨ i = 1 ∨ i = 2 := by omega
  all_goals rfl)
private theorem wne : (#v[1, 2, 3] : Vec 3 ℝ) ≠ #v[0, 0, 0] := by
  intro h; have := congrArg (fun v : Vec 3 ℝ => v[0]) h; norm_num at this
example (v : Vec 3 ℝ) := C15_isometry wc v _ 1 wne
example (v : Vec 3 ℝ) := C15_rodrigues wc v _ 1 wne
example (x : Vec 3 ℝ) := C16_project_onto_plane wc (#v[3 / 5, 0, 4 / 5, 7] : Vec 4 ℝ) x (by show (3 / 5 : ℝ) ^ 2 + 0 ^ 2 + (4 / 5) ^ 2 = 1; norm_num)
example := C16_project_onto_sphere wc (#v[0, 0, 0, 5] : Vec 4 ℝ) #v[1, 2, 3] (by norm_num) wne
example (v r : Vec 3 ℝ) := C18_scale_to_partial wc 255 2 (by norm_num) v r
example := C19_sqrt_elementwise (#v[1, 4] : Vec 2 ℝ) (by intro i hi; obtain rfl | rfl : i = 0 ∨ i = 1 := by omega
                                                         all_goals norm_num)
example (v : Vec 3 ℝ) := C84_set_random wc (fun k => k % 7) 32767 (by norm_num) v (by intro k; have := Nat.mod_lt k (show 7 > 0 by norm_num); omega)
example (v : Vec 3 ℝ) := C12_abs_min (by norm_num) v
example := C12_abs_max_partial (by norm_num) (#v[2, -2] : Vec 2 ℝ) 2 (by intro i hi; obtain rfl | rfl : i = 0 ∨ i = 1 := by omega
                                                                         all_goals norm_num)
example (v : Vec 3 Int) := C12_min_max (by norm_num) v
example (v w : Vec 3 Int) := C13_clamp v w (-1) 5 (by norm_num)

end Vmml
