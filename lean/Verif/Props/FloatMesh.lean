import Verif.Props.FloatWorld
import Verif.Props.FloatBox
import Mathlib.Analysis.Convex.Hull

/-!
# C158: culling the bounding box of a mesh

`AABB::setEmpty`, any history of `merge` calls with the vertices of a mesh and with the boxes of its parts, and `frustum_culler::test_aabb` with the corners of the box: what the verdict
says about every point of every triangle of the mesh, every step in IEEE arithmetic.
-/

namespace Vmml
open Format Culler
variable {F D : Format}

/-! ## Specification -/

/-- The convex hull of the merged vertices and boxes: it contains all triangles and edges between the vertices and all points of the parts. -/
def Spec.hull (h : List (Spec.Merge (Fp F))) : Set (Fin 3 → ℝ) := convexHull ℝ {q | ∃ m ∈ h, ∀ i : Fin 3, m.lower[i].val ≤ q i ∧ q i ≤ m.upper[i].val}

/-- The extent of a box along axis `i`, as `test_aabb` takes it. -/
def Spec.extent (b : Box (Fp F)) (i : Fin 3) : Vec 2 (Fp F) := #v[b.min[i], b.max[i]]

/-! ## Proofs -/

private theorem hull_in_box (h : List (Spec.Merge (Fp F))) (b : Box (Fp F)) (hb : ∀ m ∈ h, ∀ i : Fin 3, b.min[i].val ≤ m.lower[i].val ∧ m.upper[i].val ≤ b.max[i].val) (q : Fin 3 → ℝ)
    (hq : q ∈ Spec.hull h) : ∀ i : Fin 3, b.min[i].val ≤ q i ∧ q i ≤ b.max[i].val := by
  have hsub : Spec.hull h ⊆ Set.Icc (fun i : Fin 3 => b.min[i].val) (fun i : Fin 3 => b.max[i].val) := by
    apply convexHull_min _ (convex_Icc _ _)
    rintro q ⟨m, hm, e⟩
    constructor <;> intro i
    · exact (hb m hm i).1.trans (e i).1
    · exact (e i).2.trans (hb m hm i).2
  have := hsub hq
  exact fun i => ⟨this.1 i, this.2 i⟩

theorem Box.merge_comp (b c : Box (Fp F)) (i : Fin 3) : (b.mergeBox c).min[i] = (if c.min[i] < b.min[i] then c.min[i] else b.min[i]) ∧
    (b.mergeBox c).max[i] = if c.max[i] > b.max[i] then c.max[i] else b.max[i] := by
  have lo : ∀ (v : Vec 3 (Fp F)) (k j : Fin 3) (c : Fp F), (Box.lowerTo v k c)[j] = if k = j then (if c < v[j] then c else v[j]) else v[j] := by
    intro v k j c
    unfold Box.lowerTo
    by_cases h : k = j
    · subst h; rw [if_pos rfl]; split_ifs <;> simp
    · have : (k : Nat) ≠ j := fun e => h (Fin.ext e)
      rw [if_neg h]; split_ifs <;> simp [this]
  have hi : ∀ (v : Vec 3 (Fp F)) (k j : Fin 3) (c : Fp F), (Box.raiseTo v k c)[j] = if k = j then (if c > v[j] then c else v[j]) else v[j] := by
    intro v k j c
    unfold Box.raiseTo
    by_cases h : k = j
    · subst h; rw [if_pos rfl]; split_ifs <;> simp
    · have : (k : Nat) ≠ j := fun e => h (Fin.ext e)
      rw [if_neg h]; split_ifs <;> simp [this]
  unfold Box.mergeBox
  constructor
  · match i with
    | 0 => simp [lo]
    | 1 => simp [lo]
    | 2 => simp [lo]
  · match i with
    | 0 => simp [hi]
    | 1 => simp [hi]
    | 2 => simp [hi]

theorem Box.merge_any (b : Box (Fp F)) (m : Spec.Merge (Fp F)) : m.apply b = b.mergeBox ⟨m.lower, m.upper⟩ := by cases m <;> rfl

private theorem history (i : Fin 3) {L : ℝ} (h : List (Spec.Merge (Fp F))) (hfin : ∀ m ∈ h, m.lower[i].Finite ∧ m.upper[i].Finite ∧ |m.lower[i].val| ≤ L ∧ |m.upper[i].val| ≤ L)
    (b : Box (Fp F)) (hb : b.min[i].Finite ∧ b.max[i].Finite) (hb2 : h = [] ∨ ((∀ m ∈ h, m.lower[i].val ≤ b.min[i].val ∧ b.max[i].val ≤ m.upper[i].val)) ∨ |b.min[i].val| ≤ L ∧ |b.max[i].val| ≤ L) :
    let B := h.foldl Spec.Merge.apply b
    B.min[i].Finite ∧ B.max[i].Finite ∧ B.min[i].val ≤ b.min[i].val ∧ b.max[i].val ≤ B.max[i].val ∧
      (∀ m ∈ h, B.min[i].val ≤ m.lower[i].val ∧ m.upper[i].val ≤ B.max[i].val) ∧ (h ≠ [] ∨ (|b.min[i].val| ≤ L ∧ |b.max[i].val| ≤ L) → |B.min[i].val| ≤ L ∧ |B.max[i].val| ≤ L) := by
  induction h generalizing b with
  | nil => exact ⟨hb.1, hb.2, le_rfl, le_rfl, by simp, fun h => h.resolve_left (by simp)⟩
  | cons m h ih =>
    obtain ⟨e1, e2⟩ := Box.merge_comp b ⟨m.lower, m.upper⟩ i
    rw [← Box.merge_any] at e1 e2
    obtain ⟨f1, f2, l1, l2⟩ := hfin m (by simp)
    have step : (m.apply b).min[i].Finite ∧ (m.apply b).max[i].Finite ∧ (m.apply b).min[i].val = min b.min[i].val m.lower[i].val ∧ (m.apply b).max[i].val = max b.max[i].val m.upper[i].val := by
      rw [e1, e2]
      have c1 : m.lower[i] < b.min[i] ↔ _ := Fp.lt_val f1 hb.1
      have c2 : m.upper[i] > b.max[i] ↔ _ := Fp.lt_val hb.2 f2
      simp only [c1, c2]
      refine ⟨?_, ?_, ?_, ?_⟩ <;> split_ifs with c
      · exact f1
      · exact hb.1
      · exact f2
      · exact hb.2
      · exact (min_eq_right c.le).symm
      · exact (min_eq_left (not_lt.1 c)).symm
      · exact (max_eq_right c.le).symm
      · exact (max_eq_left (not_lt.1 c)).symm
    obtain ⟨s1, s2, s3, s4⟩ := step
    have bnd : |(m.apply b).min[i].val| ≤ L ∧ |(m.apply b).max[i].val| ≤ L := by
      rw [s3, s4]
      rcases hb2 with hb2 | hb2 | hb2
      · exact absurd hb2 (by simp)
      · obtain ⟨g1, g2⟩ := hb2 m (by simp)
        rw [min_eq_right g1, max_eq_right g2]
        exact ⟨l1, l2⟩
      · constructor
        · rcases min_choice b.min[i].val m.lower[i].val with e | e <;> rw [e]
          · exact hb2.1
          · exact l1
        · rcases max_choice b.max[i].val m.upper[i].val with e | e <;> rw [e]
          · exact hb2.2
          · exact l2
    obtain ⟨r1, r2, r3, r4, r5, r6⟩ := ih (fun m' hm' => hfin m' (by simp [hm'])) (m.apply b) ⟨s1, s2⟩ (Or.inr (Or.inr bnd))
    rw [s3] at r3
    rw [s4] at r4
    refine ⟨r1, r2, r3.trans (min_le_left _ _), (le_max_left _ _).trans r4, ?_, fun _ => r6 (Or.inr bnd)⟩
    intro m' hm'
    rcases List.mem_cons.1 hm' with rfl | hm'
    · exact ⟨r3.trans (min_le_right _ _), (le_max_right _ _).trans r4⟩
    · exact r5 m' hm'

private theorem reach_mono (V : Mat 4 4 (Fp F)) (k : Fin 4) {X Y Z X' Y' Z' : ℝ} (hX : X ≤ X') (hY : Y ≤ Y') (hZ : Z ≤ Z') : Spec.reach V k X Y Z ≤ Spec.reach V k X' Y' Z' := by
  unfold Spec.reach Spec.coord
  have t : ∀ {w a b : ℝ}, a ≤ b → |w| * a ≤ |w| * b := fun h => mul_le_mul_of_nonneg_left h (abs_nonneg _)
  have a := t (w := (V.get k 0).val) hX
  have b := t (w := (V.get k 1).val) hY
  have c := t (w := (V.get k 2).val) hZ
  linarith

private theorem margin_mono {κ S aspect n fa X Y Z X' Y' Z' : ℝ} (hκ : 0 ≤ κ) (hS : 0 ≤ S) (ha : 0 ≤ aspect) (hn : 0 < n) (hf : 0 ≤ fa) (hX : X ≤ X') (hY : Y ≤ Y') (hZ : Z ≤ Z') (i : Fin 4) :
    Spec.worldMargin F κ S aspect n fa X Y Z i ≤ Spec.worldMargin F κ S aspect n fa X' Y' Z' i := by
  have hu := F.u_pos
  have hZn : Z / n ≤ Z' / n := div_le_div_of_nonneg_right hZ hn.le
  unfold Spec.worldMargin
  match i with
  | 0 => show 40 * F.u * (X + aspect * S * Z + 1 / 2 ^ 30) + κ * (aspect * S) * Z ≤ 40 * F.u * (X' + aspect * S * Z' + 1 / 2 ^ 30) + κ * (aspect * S) * Z'; gcongr
  | 1 => show 40 * F.u * (Y + S * Z + 1 / 2 ^ 30) + κ * S * Z ≤ 40 * F.u * (Y' + S * Z' + 1 / 2 ^ 30) + κ * S * Z'; gcongr
  | 2 => show 40 * F.u * (Z + n) ≤ 40 * F.u * (Z' + n); gcongr
  | 3 => show 40 * F.u * fa * (Z / n + 1) ≤ 40 * F.u * fa * (Z' / n + 1); gcongr

private theorem deep_mono {S aspect n fa : ℝ} {e e' : Fin 4 → ℝ} (h : ∀ i, e i ≤ e' i) {x y z : ℝ} (hd : Spec.DeepInView S aspect n fa e' x y z) : Spec.DeepInView S aspect n fa e x y z := by
  obtain ⟨a, b, c, d⟩ := hd
  have h0 := h 0
  have h1 := h 1
  have h2 := h 2
  have h3 := h 3
  exact ⟨by linarith, by linarith, by linarith, by linarith⟩

private theorem nearly_mono {S aspect n fa : ℝ} {e e' : Fin 4 → ℝ} (h : ∀ i, e i ≤ e' i) {x y z : ℝ} (hd : Spec.NearlyInView S aspect n fa e x y z) : Spec.NearlyInView S aspect n fa e' x y z := by
  obtain ⟨a, b, c, d⟩ := hd
  have h0 := h 0
  have h1 := h 1
  have h2 := h 2
  have h3 := h 3
  exact ⟨by linarith, by linarith, by linarith, by linarith⟩

/-- **C158** The bounding box of a mesh, from the vertices and parts and the arguments of `set_perspective` to the verdict. The box is emptied and every vertex and the box of every part is
merged in any order; the chain never fails. If the camera sees any point of the convex hull of all of them (any point of any triangle) in the described pyramid by more than the margins, the
box is not culled, and if the box is reported fully visible, then the camera sees all of these points in the described pyramid up to the margins. -/
theorem C158_mesh (hF : Spec.Roomy F) (h120 : 120 ≤ F.emax) (hQ : Spec.Quotients F D) (hp : F.p ≤ D.p) (he : F.emax ≤ D.emax) (h62 : D.p ≤ 62) {tan : Fp D → Fp D} {τ : ℝ} (hτ0 : 0 ≤ τ)
    (hτ : τ ≤ 1 / 1024) (htan : Spec.TanLib tan τ) (cfg : Cfg) (f : Frustum (Fp F)) (m0 V : Mat 4 4 (Fp F)) (fov aspect n fa : Fp F) (h : Spec.Everyday fov aspect n fa) (hV : Spec.Placement V)
    (half : Fp F) (hh : half.Finite) (hv : half.val = 1 / 2) (b : Box (Fp F)) (maxT : Fp F) (hm : maxT.Finite) (hmv : maxT.val = F.maxFinite)
    (ms : List (Spec.Merge (Fp F))) (hne : ms ≠ []) {L : ℝ} (hL : L ≤ 2 ^ 34) (hms : ∀ m ∈ ms, ∀ i : Fin 3, m.lower[i].Finite ∧ m.upper[i].Finite ∧ |m.lower[i].val| ≤ L ∧ |m.upper[i].val| ≤ L) :
    let S := Spec.slope fov.val n.val
    let R := fun k => Spec.reach V k (2 * L) (2 * L) (2 * L)
    let e := Spec.worldMargin F (Spec.slopeErr F D τ fov.val) S aspect.val n.val fa.val (R 0) (R 1) (R 2)
    ∃ b0 P M k v, b.setEmpty cfg maxT = .ok b0 ∧ (f.setPerspectiveMixed D tan fov aspect n fa).computeMatrixMixed D cfg m0 = .ok P ∧ P.mul cfg V = .ok M ∧ setupMatrixMixed D cfg M = .ok k ∧
      (let B := ms.foldl Spec.Merge.apply b0; testAabb cfg half k (Spec.extent B 0) (Spec.extent B 1) (Spec.extent B 2) = .ok v) ∧
      ∀ q ∈ Spec.hull ms,
        (Spec.DeepInView S aspect.val n.val fa.val e (Spec.seen V 0 (q 0) (q 1) (q 2)) (Spec.seen V 1 (q 0) (q 1) (q 2)) (Spec.seen V 2 (q 0) (q 1) (q 2)) → v ≠ .none) ∧
        (v = .full → Spec.NearlyInView S aspect.val n.val fa.val e (Spec.seen V 0 (q 0) (q 1) (q 2)) (Spec.seen V 1 (q 0) (q 1) (q 2)) (Spec.seen V 2 (q 0) (q 1) (q 2))) := by
  intro S R e
  obtain ⟨b0, hb0, bmin, bmax⟩ : ∃ b0, b.setEmpty cfg maxT = .ok b0 ∧ (∀ i : Fin 3, b0.min[i] = maxT) ∧ ∀ i : Fin 3, b0.max[i] = -maxT :=
    ⟨⟨Vector.replicate 3 maxT, Vector.replicate 3 (-maxT)⟩, by simp [Box.setEmpty, Vec.assignFiller_eq], fun i => by simp, fun i => by simp⟩
  have facts := fun i : Fin 3 => history i ms (fun m hm => hms m hm i) b0 ⟨by rw [bmin]; exact hm, by rw [bmax]; exact Fp.finite_neg hm⟩ (Or.inr (Or.inl fun m _ => by
    rw [bmin, bmax, Fp.val_neg, hmv]
    exact ⟨(abs_le.1 (Fp.abs_val_le _)).2, (abs_le.1 (Fp.abs_val_le _)).1⟩))
  obtain ⟨B, hB⟩ : ∃ B, B = ms.foldl Spec.Merge.apply b0 := ⟨_, rfl⟩
  simp only [← hB] at facts
  have fin : ∀ i : Fin 3, Spec.VFinite (Spec.extent B i) := by
    intro i j
    match j with
    | 0 => exact (facts i).1
    | 1 => exact (facts i).2.1
  have spn : ∀ i : Fin 3, Spec.span (Spec.extent B i) ≤ 2 * L := by
    intro i
    show |B.min[i].val| + |B.max[i].val| ≤ 2 * L
    have := (facts i).2.2.2.2.2 (Or.inl hne)
    linarith [this.1, this.2]
  have lim : 2 * L ≤ 2 ^ 35 := by norm_num at hL ⊢; linarith
  obtain ⟨P, M, k, v, hP, hM, hk, hr, hvv⟩ := C157_box hF h120 hQ hp he h62 hτ0 hτ htan cfg f m0 V fov aspect n fa h hV half hh hv (Spec.extent B 0) (Spec.extent B 1) (Spec.extent B 2)
    (fin 0) (fin 1) (fin 2) ((spn 0).trans lim) ((spn 1).trans lim) ((spn 2).trans lim)
  refine ⟨b0, P, M, k, v, hb0, hP, hM, hk, by rw [← hB]; exact hr, fun q hq => ?_⟩
  have hin := hull_in_box ms B (fun m hm i => (facts i).2.2.2.2.1 m hm) q hq
  have hin' : Spec.FBoxHas (Spec.extent B 0) (Spec.extent B 1) (Spec.extent B 2) (q 0) (q 1) (q 2) :=
    ⟨Set.mem_uIcc_of_le (hin 0).1 (hin 0).2, Set.mem_uIcc_of_le (hin 1).1 (hin 1).2, Set.mem_uIcc_of_le (hin 2).1 (hin 2).2⟩
  obtain ⟨-, -, k0, -, hS0, -, -⟩ := view_setup hF hp he h62 hτ0 hτ htan f fov aspect n fa h
  have hmono : ∀ i, Spec.worldMargin F (Spec.slopeErr F D τ fov.val) S aspect.val n.val fa.val (Spec.reach V 0 (Spec.span (Spec.extent B 0)) (Spec.span (Spec.extent B 1)) (Spec.span (Spec.extent B 2)))
      (Spec.reach V 1 (Spec.span (Spec.extent B 0)) (Spec.span (Spec.extent B 1)) (Spec.span (Spec.extent B 2)))
      (Spec.reach V 2 (Spec.span (Spec.extent B 0)) (Spec.span (Spec.extent B 1)) (Spec.span (Spec.extent B 2))) i ≤ e i :=
    fun i => margin_mono k0 hS0.le (by linarith [h.ratio.1]) (by linarith [h.near.1]) (by linarith [h.near.1, h.far.1]) (reach_mono V 0 (spn 0) (spn 1) (spn 2))
      (reach_mono V 1 (spn 0) (spn 1) (spn 2)) (reach_mono V 2 (spn 0) (spn 1) (spn 2)) i
  obtain ⟨d1, d2⟩ := hvv _ _ _ hin'
  exact ⟨fun hd => d1 (deep_mono hmono hd), fun hfull => nearly_mono hmono (d2 hfull)⟩

/-- A mesh with the vertices `(9, 2, -2)` and `(11, 2, 0)` and a part with the box from `(9, 1, -1)` to `(10, 2, -1)`, seen by the camera of `quarter_turn` with 90 degrees, aspect ratio 2, near
plane at 1/2 and far plane at 100: the midpoint `(10, 2, -1)` of the two vertices is seen at `(0, 3, -15)`, deep in view. -/
example : ∃ (V : Mat 4 4 (Fp single)) (fov aspect n fa : Fp single) (ms : List (Spec.Merge (Fp single))), Spec.Placement V ∧ Spec.Everyday fov aspect n fa ∧ ms.length = 3 ∧
    (∀ m ∈ ms, ∀ i : Fin 3, m.lower[i].Finite ∧ m.upper[i].Finite ∧ |m.lower[i].val| ≤ 11 ∧ |m.upper[i].val| ≤ 11) ∧ ![10, 2, -1] ∈ Spec.hull ms ∧
    Spec.DeepInView (Spec.slope fov.val n.val) aspect.val n.val fa.val
      (Spec.worldMargin single (Spec.slopeErr single double double.u fov.val) (Spec.slope fov.val n.val) aspect.val n.val fa.val (Spec.reach V 0 22 22 22) (Spec.reach V 1 22 22 22)
        (Spec.reach V 2 22 22 22)) (Spec.seen V 0 10 2 (-1)) (Spec.seen V 1 10 2 (-1)) (Spec.seen V 2 10 2 (-1)) := by
  have num : ∀ k : Int, |k| ≤ 2 ^ 24 → ∃ a : Fp single, a.Finite ∧ a.val = k := fun k hk => ⟨_, Quant.ofReal_int (F := single) (by norm_num) (k := k) hk⟩
  obtain ⟨a0, f0, v0⟩ := num 0 (by norm_num)
  obtain ⟨a1, f1, v1⟩ := num 1 (by norm_num)
  obtain ⟨a2, f2, v2⟩ := num 2 (by norm_num)
  obtain ⟨b1, g1, w1⟩ := num (-1) (by norm_num)
  obtain ⟨b2, g2, w2⟩ := num (-2) (by norm_num)
  obtain ⟨a9, f9, v9⟩ := num 9 (by norm_num)
  obtain ⟨a10, f10, v10⟩ := num 10 (by norm_num)
  obtain ⟨a11, f11, v11⟩ := num 11 (by norm_num)
  obtain ⟨a90, f90, v90⟩ := num 90 (by norm_num)
  obtain ⟨a100, f100, v100⟩ := num 100 (by norm_num)
  push_cast at v0 v1 v2 w1 w2 v9 v10 v11 v90 v100
  obtain ⟨hh, fh, vh⟩ : ∃ a : Fp single, a.Finite ∧ a.val = 1 / 2 := by
    have hrep := rep_half (F := single) (by norm_num)
    obtain ⟨p, q⟩ := Fp.ofReal_fin (F := single) (by norm_num) (x := 1 / 2) (by
      rw [abs_of_pos (by norm_num)]
      exact le_trans (by norm_num) (one_le_max (F := single) (by norm_num)))
    exact ⟨_, p, by rw [q]; exact hrep.rnd_eq⟩
  have hev : Spec.Everyday a90 a2 hh a100 := ⟨⟨f90, f2, fh, f100⟩, by rw [v90]; norm_num, by rw [v2]; norm_num, by rw [vh]; norm_num, by rw [v100, vh]; norm_num⟩
  obtain ⟨V, hpl, hVv⟩ := quarter_turn
  have s0 : Spec.seen V 0 10 2 (-1) = 0 := by unfold Spec.seen Spec.coord; simp [hVv]
  have s1 : Spec.seen V 1 10 2 (-1) = 3 := by unfold Spec.seen Spec.coord; simp [hVv]; norm_num
  have s2 : Spec.seen V 2 10 2 (-1) = -15 := by unfold Spec.seen Spec.coord; simp [hVv]; norm_num
  have r0 : Spec.reach V 0 22 22 22 = 23 := by unfold Spec.reach Spec.coord; simp [hVv]; norm_num
  have r1 : Spec.reach V 1 22 22 22 = 23 := by unfold Spec.reach Spec.coord; simp [hVv]; norm_num
  have r2 : Spec.reach V 2 22 22 22 = 27 := by unfold Spec.reach Spec.coord; simp [hVv]; norm_num
  refine ⟨V, a90, a2, hh, a100, [.point #v[a9, a2, b2], .point #v[a11, a2, a0], .box ⟨#v[a9, a1, b1], #v[a10, a2, b1]⟩], hpl, hev, rfl, ?_, ?_, ?_⟩
  · intro m hm i
    simp only [List.mem_cons, List.not_mem_nil, or_false] at hm
    rcases hm with rfl | rfl | rfl <;> fin_cases i <;> simp [Spec.Merge.lower, Spec.Merge.upper, *] <;> norm_num
  · unfold Spec.hull
    have m1 : ![9, 2, -2] ∈ {q : Fin 3 → ℝ | ∃ m ∈ ([.point #v[a9, a2, b2], .point #v[a11, a2, a0], .box ⟨#v[a9, a1, b1], #v[a10, a2, b1]⟩] : List (Spec.Merge (Fp single))),
        ∀ i : Fin 3, m.lower[i].val ≤ q i ∧ q i ≤ m.upper[i].val} := by
      refine ⟨.point #v[a9, a2, b2], by simp, fun i => ?_⟩
      fin_cases i <;> simp [Spec.Merge.lower, Spec.Merge.upper, *]
    have m2 : ![11, 2, 0] ∈ {q : Fin 3 → ℝ | ∃ m ∈ ([.point #v[a9, a2, b2], .point #v[a11, a2, a0], .box ⟨#v[a9, a1, b1], #v[a10, a2, b1]⟩] : List (Spec.Merge (Fp single))),
        ∀ i : Fin 3, m.lower[i].val ≤ q i ∧ q i ≤ m.upper[i].val} := by
      refine ⟨.point #v[a11, a2, a0], by simp, fun i => ?_⟩
      fin_cases i <;> simp [Spec.Merge.lower, Spec.Merge.upper, *]
    have := (convex_convexHull ℝ _) (subset_convexHull ℝ _ m1) (subset_convexHull ℝ _ m2) (by norm_num : (0 : ℝ) ≤ 1 / 2) (by norm_num : (0 : ℝ) ≤ 1 / 2) (by norm_num)
    convert this using 1
    funext i
    fin_cases i <;> simp <;> norm_num
  · have hT : Spec.slope a90.val hh.val = 1 := by
      unfold Spec.slope
      rw [vh, show (2 : ℝ) * (1 / 2) = 1 by norm_num, div_one, v90, ← Real.tan_pi_div_four]; congr 1; unfold Spec.halfAngle; ring
    have hκ := C155_slope (F := single) (D := double) (by norm_num) (τ := double.u) a90 a2 hh a100 hev
    have hu : single.u ≤ 1 / 10000000 := by unfold u; norm_num
    have hu2 : double.u ≤ 1 / 10000000 := by unfold u; norm_num
    have hu0 := single.u_pos
    rw [hT, v2, v100, vh, s0, s1, s2, r0, r1, r2]
    generalize Spec.slopeErr single double double.u a90.val = κ at *
    unfold Spec.DeepInView Spec.worldMargin
    simp only [Matrix.cons_val_zero, Matrix.cons_val_one, Matrix.cons_val]
    norm_num
    refine ⟨?_, ?_, ?_, ?_⟩ <;> linarith
end Vmml
