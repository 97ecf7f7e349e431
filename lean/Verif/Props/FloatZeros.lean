import Verif.Props.FloatMesh
import Verif.Props.FloatCullLaws
import Verif.Props.FloatSetup

/-!
# C161: the sign of a zero does not affect culling, nor does the order in which a mesh is merged

IEEE arithmetic has two zeros. Here the whole way from the matrices to the verdict is shown not to tell them apart, exactly and for all numbers, infinities and NaN included. The bounding box of a mesh then
gives the same verdict whatever the order of its points.
-/

namespace Vmml
open Format Culler
variable {F : Format} {M N P : Nat}

/-! ## Specification -/

/-- Component by component the same, where the zeros count as the same. -/
def Spec.VAlike (v w : Vec M (Fp F)) : Prop := ∀ i : Fin M, Spec.Alike v[i] w[i]
/-- Cell by cell. -/
def Spec.MAlike (a b : Mat M N (Fp F)) : Prop := ∀ r c, Spec.Alike (a.get r c) (b.get r c)
/-- Plane by plane. -/
def Spec.CAlike (k l : Culler (Fp F)) : Prop := Spec.VAlike k.left l.left ∧ Spec.VAlike k.right l.right ∧ Spec.VAlike k.bottom l.bottom ∧ Spec.VAlike k.top l.top ∧ Spec.VAlike k.near l.near ∧ Spec.VAlike k.far l.far

/-! ## Proofs -/

private theorem alike_iter {f g : ℕ → Fp F → Fp F} (h : ∀ i a b, Spec.Alike a b → Spec.Alike (f i a) (g i b)) (n : ℕ) (s : Fp F) : Spec.Alike (iter f n s) (iter g n s) := by
  induction n with
  | zero => exact Spec.Alike.refl s
  | succ n ih => exact h n _ _ ih

/-- **C161** Products of matrices, and of a matrix and a vector: operands that differ in the signs of zeros give results that differ at most in the signs of zeros. -/
theorem C161_product (cfg : Cfg) (a a' : Mat M N (Fp F)) (b b' : Mat N P (Fp F)) (v v' : Vec N (Fp F)) (ha : Spec.MAlike a a') (hb : Spec.MAlike b b') (hv : Spec.VAlike v v') :
    (∃ m m', a.mul cfg b = .ok m ∧ a'.mul cfg b' = .ok m' ∧ Spec.MAlike m m') ∧ (∃ w w', a.mulVec cfg v = .ok w ∧ a'.mulVec cfg v' = .ok w' ∧ Spec.VAlike w w') := by
  constructor
  · have e : ∀ (a : Mat M N (Fp F)) (b : Mat N P (Fp F)), a.mul cfg b = .ok (Mat.ofFn fun r c => iter (fun i s => s + (if h : i < N then a.get r ⟨i, h⟩ * b.get ⟨i, h⟩ c else 0)) N 0) := by
      intro a b
      rw [Mat.mul, Mat.ctor_eq, bind_ok, Mat.multiply_iter]
    refine ⟨_, _, e a b, e a' b', ?_⟩
    intro r c
    rw [Mat.get_ofFn, Mat.get_ofFn]
    refine alike_iter (fun i x y h => h.add ?_) _ _
    split_ifs with hi
    · exact (ha r ⟨i, hi⟩).mul (hb ⟨i, hi⟩ c)
    · exact Spec.Alike.refl _
  · refine ⟨_, _, Mat.mulVec_iter cfg a v, Mat.mulVec_iter cfg a' v', ?_⟩
    intro r
    simp only [Fin.getElem_fin, Vector.getElem_ofFn]
    refine alike_iter (fun i x y h => h.add ?_) _ _
    split_ifs with hi
    · exact (ha _ ⟨i, hi⟩).mul (hv ⟨i, hi⟩)
    · exact Spec.Alike.refl _

private theorem square {a b : Fp F} (h : Spec.Alike a b) : a * a = b * b := by
  rcases h.cases with rfl | ⟨s, t, rfl, rfl⟩
  · rfl
  · show Fp.round (s ^^ s) (0 * 0) = Fp.round (t ^^ t) (0 * 0)
    rw [Bool.xor_self, Bool.xor_self]

private theorem normalized (cfg : Cfg) {p q : Vec 4 (Fp F)} (h : Spec.VAlike p q) {p' q' : Vec 4 (Fp F)} (hp : normalizePlane cfg p = .ok p') (hq : normalizePlane cfg q = .ok q') :
    Spec.VAlike p' q' := by
  obtain ⟨L, l1, l2⟩ := normalizePlane_gen cfg p
  obtain ⟨K, k1, k2⟩ := normalizePlane_gen cfg q
  rw [l2] at hp
  rw [k2] at hq
  injection hp with hp
  injection hq with hq
  have e : L = K := by
    have a1 : Vec.length (#v[p[0], p[1], p[2]] : Vec 3 (Fp F)) = .ok (CMath.sqrt ((0 : Fp F) + p[0] * p[0] + p[1] * p[1] + p[2] * p[2])) := by
      simp [Vec.length, Vec.squaredLength, loop_succ]
    have a2 : Vec.length (#v[q[0], q[1], q[2]] : Vec 3 (Fp F)) = .ok (CMath.sqrt ((0 : Fp F) + q[0] * q[0] + q[1] * q[1] + q[2] * q[2])) := by
      simp [Vec.length, Vec.squaredLength, loop_succ]
    rw [l1] at a1
    rw [k1] at a2
    injection a1 with a1
    injection a2 with a2
    have s0 : p[0] * p[0] = q[0] * q[0] := square (h 0)
    have s1 : p[1] * p[1] = q[1] * q[1] := square (h 1)
    have s2 : p[2] * p[2] = q[2] * q[2] := square (h 2)
    rw [a1, a2, s0, s1, s2]
  rw [← hp, ← hq, e]
  intro i
  simp only [Fin.getElem_fin, Vector.getElem_ofFn]
  exact (h i).mul (Spec.Alike.refl _)

/-- **C161** Setting up the culler: matrices that differ in the signs of zeros give planes that differ at most in the signs of zeros. -/
theorem C161_setup (cfg : Cfg) (m m' : Mat 4 4 (Fp F)) (h : Spec.MAlike m m') : ∃ k k', setupMatrix cfg m = .ok k ∧ setupMatrix cfg m' = .ok k' ∧ Spec.CAlike k k' := by
  obtain ⟨k, e, a1, a2, a3, a4, a5, a6⟩ := setupMatrix_gen cfg m
  obtain ⟨k', e', b1, b2, b3, b4, b5, b6⟩ := setupMatrix_gen cfg m'
  have hs : ∀ i, Spec.VAlike (rowSum m i) (rowSum m' i) := by
    intro i j
    simp only [rowSum, Fin.getElem_fin, Vector.getElem_ofFn]
    exact (h 3 j).add (h i j)
  have hd : ∀ i, Spec.VAlike (rowDiff m i) (rowDiff m' i) := by
    intro i j
    simp only [rowDiff, Fin.getElem_fin, Vector.getElem_ofFn]
    exact (h 3 j).sub (h i j)
  exact ⟨k, k', e, e', normalized cfg (hs 0) a1 b1, normalized cfg (hd 0) a2 b2, normalized cfg (hs 1) a3 b3, normalized cfg (hd 1) a4 b4, normalized cfg (hs 2) a5 b5, normalized cfg (hd 2) a6 b6⟩

private theorem pairs {k l : Culler (Fp F)} (h : Spec.CAlike k l) {Q Q' : Vec 4 (Fp F) → Prop} (hQ : ∀ p q, Spec.VAlike p q → (Q p ↔ Q' q)) :
    ((∃ p ∈ Spec.six k, Q p) ↔ ∃ p ∈ Spec.six l, Q' p) ∧ ((∀ p ∈ Spec.six k, Q p) ↔ ∀ p ∈ Spec.six l, Q' p) := by
  obtain ⟨h1, h2, h3, h4, h5, h6⟩ := h
  have q1 := hQ _ _ h1
  have q2 := hQ _ _ h2
  have q3 := hQ _ _ h3
  have q4 := hQ _ _ h4
  have q5 := hQ _ _ h5
  have q6 := hQ _ _ h6
  simp only [Spec.six, List.mem_cons, List.not_mem_nil, or_false, exists_eq_or_imp, forall_eq_or_imp, exists_eq_left, forall_eq, q1, q2, q3, q4, q5, q6, and_self]

/-- **C161** The verdicts on spheres and boxes do not depend on the signs of zeros, in the planes or in the tested object. -/
theorem C161_verdict (cfg : Cfg) (k k' : Culler (Fp F)) (hk : Spec.CAlike k k') (s s' : Vec 4 (Fp F)) (hs : Spec.VAlike s s') (half : Fp F) (x y z x' y' z' : Vec 2 (Fp F))
    (hx : Spec.VAlike x x') (hy : Spec.VAlike y y') (hz : Spec.VAlike z z') :
    testSphere k s = testSphere k' s' ∧ testAabb cfg half k x y z = testAabb cfg half k' x' y' z' := by
  constructor
  · obtain ⟨a1, a2⟩ := sphere_verdict k s
    obtain ⟨c1, c2⟩ := sphere_verdict k' s'
    have hd : ∀ p q : Vec 4 (Fp F), Spec.VAlike p q → Spec.Alike (p[0] * s[0] + p[1] * s[1] + p[2] * s[2] + p[3]) (q[0] * s'[0] + q[1] * s'[1] + q[2] * s'[2] + q[3]) := fun p q h =>
      ((((h 0).mul (hs 0)).add ((h 1).mul (hs 1))).add ((h 2).mul (hs 2))).add (h 3)
    apply vis_ext
    · rw [a1, c1]
      exact (pairs hk fun p q h => (hd p q h).le (hs 3).neg).1
    · rw [a2, c2]
      exact (pairs hk fun p q h => and_congr (not_congr ((hd p q h).le (hs 3).neg)) (not_congr ((hd p q h).lt (hs 3)))).2
  · obtain ⟨r, hr, a1, a2⟩ := box_verdict cfg half k x y z
    obtain ⟨r', hr', c1, c2⟩ := box_verdict cfg half k' x' y' z'
    rw [hr, hr']
    have H := Spec.Alike.refl half
    have hd : ∀ p q : Vec 4 (Fp F), Spec.VAlike p q → Spec.Alike
        ((0 : Fp F) + p[0] * ((x[0] + x[1]) * half) + p[1] * ((y[0] + y[1]) * half) + p[2] * ((z[0] + z[1]) * half) + p[3] * (1 : Fp F))
        ((0 : Fp F) + q[0] * ((x'[0] + x'[1]) * half) + q[1] * ((y'[0] + y'[1]) * half) + q[2] * ((z'[0] + z'[1]) * half) + q[3] * (1 : Fp F)) := fun p q h =>
      (((((Spec.Alike.refl _).add ((h 0).mul (((hx 0).add (hx 1)).mul H))).add ((h 1).mul (((hy 0).add (hy 1)).mul H))).add ((h 2).mul (((hz 0).add (hz 1)).mul H))).add ((h 3).mul (Spec.Alike.refl _)))
    have hn : ∀ p q : Vec 4 (Fp F), Spec.VAlike p q → Spec.Alike
        (CMath.fabs (x[1] - x[0]) * half * CMath.fabs p[0] + CMath.fabs (y[1] - y[0]) * half * CMath.fabs p[1] + CMath.fabs (z[1] - z[0]) * half * CMath.fabs p[2])
        (CMath.fabs (x'[1] - x'[0]) * half * CMath.fabs q[0] + CMath.fabs (y'[1] - y'[0]) * half * CMath.fabs q[1] + CMath.fabs (z'[1] - z'[0]) * half * CMath.fabs q[2]) := fun p q h =>
      (((((hx 1).sub (hx 0)).fabs.mul H).mul (h 0).fabs).add ((((hy 1).sub (hy 0)).fabs.mul H).mul (h 1).fabs)).add ((((hz 1).sub (hz 0)).fabs.mul H).mul (h 2).fabs)
    have k1 := fun p q h => (Spec.Alike.refl (0 : Fp F)).le ((hd p q h).sub (hn p q h))
    have k2 := fun p q h => (Spec.Alike.refl (0 : Fp F)).lt ((hd p q h).add (hn p q h))
    congr 1
    apply vis_ext
    · rw [a1, c1]
      exact (pairs hk fun p q h => and_congr (not_congr (k1 p q h)) (not_congr (k2 p q h))).1
    · rw [a2, c2]
      exact (pairs hk k1).2

/-- **C161** From the matrices to the verdict: projection and model-view matrices, spheres and boxes that differ in the signs of zeros get the same verdict. -/
theorem C161_culling (cfg : Cfg) (p p' v v' : Mat 4 4 (Fp F)) (hp : Spec.MAlike p p') (hv : Spec.MAlike v v') (s s' : Vec 4 (Fp F)) (hs : Spec.VAlike s s') (half : Fp F)
    (x y z x' y' z' : Vec 2 (Fp F)) (hx : Spec.VAlike x x') (hy : Spec.VAlike y y') (hz : Spec.VAlike z z') :
    ∃ m m' k k', p.mul cfg v = .ok m ∧ p'.mul cfg v' = .ok m' ∧ setupMatrix cfg m = .ok k ∧ setupMatrix cfg m' = .ok k' ∧
      testSphere k s = testSphere k' s' ∧ testAabb cfg half k x y z = testAabb cfg half k' x' y' z' := by
  obtain ⟨⟨m, m', h1, h2, h⟩, -⟩ := C161_product cfg p p' v v' s s' hp hv hs
  obtain ⟨k, k', h3, h4, h'⟩ := C161_setup cfg m m' h
  exact ⟨m, m', k, k', h1, h2, h3, h4, C161_verdict cfg k k' h' s s' hs half x y z x' y' z' hx hy hz⟩

/-! ### The order of merges -/

private noncomputable def down (v c : Fp F) : Fp F := if c < v then c else v
private noncomputable def up (v c : Fp F) : Fp F := if c > v then c else v

private theorem lt_ereal {a b : Fp F} (ha : a ≠ .nan) (hb : b ≠ .nan) : a < b ↔ Spec.ereal a < Spec.ereal b := Fp.lt_iff ha hb

private theorem down_cases (v c : Fp F) : (v = .nan ∧ down v c = .nan) ∨ (c = .nan ∧ down v c = v) ∨ (v ≠ .nan ∧ c ≠ .nan ∧ down v c ≠ .nan ∧ Spec.ereal (down v c) = min (Spec.ereal v) (Spec.ereal c)) := by
  unfold down
  by_cases hv : v = .nan
  · left; subst hv; exact ⟨rfl, if_neg (Fp.not_lt_nan_right _)⟩
  by_cases hc : c = .nan
  · right; left; subst hc; exact ⟨rfl, if_neg (Fp.not_lt_nan_left _)⟩
  right; right
  refine ⟨hv, hc, ?_⟩
  split_ifs with h
  · exact ⟨hc, (min_eq_right ((lt_ereal hc hv).1 h).le).symm⟩
  · exact ⟨hv, (min_eq_left (not_lt.1 fun k => h ((lt_ereal hc hv).2 k))).symm⟩

private theorem up_cases (v c : Fp F) : (v = .nan ∧ up v c = .nan) ∨ (c = .nan ∧ up v c = v) ∨ (v ≠ .nan ∧ c ≠ .nan ∧ up v c ≠ .nan ∧ Spec.ereal (up v c) = max (Spec.ereal v) (Spec.ereal c)) := by
  unfold up
  by_cases hv : v = .nan
  · left; subst hv; exact ⟨rfl, if_neg (Fp.not_lt_nan_left _)⟩
  by_cases hc : c = .nan
  · right; left; subst hc; exact ⟨rfl, if_neg (Fp.not_lt_nan_right _)⟩
  right; right
  refine ⟨hv, hc, ?_⟩
  split_ifs with h
  · exact ⟨hc, (max_eq_right ((lt_ereal hv hc).1 h).le).symm⟩
  · exact ⟨hv, (max_eq_left (not_lt.1 fun k => h ((lt_ereal hv hc).2 k))).symm⟩

private theorem alike_iff {a b : Fp F} : Spec.Alike a b ↔ (a = .nan ∧ b = .nan) ∨ (a ≠ .nan ∧ b ≠ .nan ∧ Spec.ereal a = Spec.ereal b) := Iff.rfl

/-- Folding a step that is a commutative operation on the extended line. -/
private theorem fold_perm {f : Fp F → Fp F → Fp F} {o : EReal → EReal → EReal} (hcomm : ∀ a b c, o (o a b) c = o (o a c) b)
    (hf : ∀ v c, (v = .nan ∧ f v c = .nan) ∨ (c = .nan ∧ f v c = v) ∨ (v ≠ .nan ∧ c ≠ .nan ∧ f v c ≠ .nan ∧ Spec.ereal (f v c) = o (Spec.ereal v) (Spec.ereal c)))
    {l l' : List (Fp F)} (h : l.Perm l') {a b : Fp F} (hab : Spec.Alike a b) : Spec.Alike (l.foldl f a) (l'.foldl f b) := by
  have nanl : ∀ c, f .nan c = .nan := by
    intro c
    rcases hf .nan c with h | h | h
    · exact h.2
    · exact h.2
    · exact absurd rfl h.1
  have nanr : ∀ v, f v .nan = v := by
    intro v
    rcases hf v .nan with h | h | h
    · rw [h.1]; exact nanl _
    · exact h.2
    · exact absurd rfl h.2.1
  have num : ∀ v c, v ≠ .nan → c ≠ .nan → f v c ≠ .nan ∧ Spec.ereal (f v c) = o (Spec.ereal v) (Spec.ereal c) := by
    intro v c hv hc
    rcases hf v c with h | h | h
    · exact absurd h.1 hv
    · exact absurd h.1 hc
    · exact h.2.2
  have step : ∀ a b c, Spec.Alike a b → Spec.Alike (f a c) (f b c) := by
    intro a b c hab
    by_cases hc : c = .nan
    · rw [hc, nanr, nanr]; exact hab
    rcases hab with ⟨rfl, rfl⟩ | ⟨h1, h2, h3⟩
    · exact Spec.Alike.refl _
    · obtain ⟨p1, p2⟩ := num a c h1 hc
      obtain ⟨q1, q2⟩ := num b c h2 hc
      exact .inr ⟨p1, q1, by rw [p2, q2, h3]⟩
  have swap : ∀ v c d, Spec.Alike (f (f v c) d) (f (f v d) c) := by
    intro v c d
    by_cases hv : v = .nan
    · simp only [hv, nanl]; exact Spec.Alike.refl _
    by_cases hc : c = .nan
    · rw [hc, nanr, nanr]; exact Spec.Alike.refl _
    by_cases hd : d = .nan
    · rw [hd, nanr, nanr]; exact Spec.Alike.refl _
    obtain ⟨p1, p2⟩ := num v c hv hc
    obtain ⟨q1, q2⟩ := num v d hv hd
    obtain ⟨r1, r2⟩ := num (f v c) d p1 hd
    obtain ⟨s1, s2⟩ := num (f v d) c q1 hc
    exact .inr ⟨r1, s1, by rw [r2, s2, p2, q2, hcomm]⟩
  have run : ∀ (l : List (Fp F)) a b, Spec.Alike a b → Spec.Alike (l.foldl f a) (l.foldl f b) := by
    intro l
    induction l with
    | nil => exact fun a b h => h
    | cons c l ih => exact fun a b h => ih _ _ (step a b c h)
  induction h generalizing a b with
  | nil => exact hab
  | cons c _ ih => exact ih (step a b c hab)
  | swap c d l => exact run l _ _ ((step _ _ _ (step a b d hab)).trans (swap b d c))
  | trans _ _ ih1 ih2 => exact (ih1 hab).trans (ih2 (Spec.Alike.refl b))

private theorem fold_comp (i : Fin 3) (ms : List (Spec.Merge (Fp F))) (b : Box (Fp F)) :
    (ms.foldl Spec.Merge.apply b).min[i] = (ms.map fun m => m.lower[i]).foldl down b.min[i] ∧ (ms.foldl Spec.Merge.apply b).max[i] = (ms.map fun m => m.upper[i]).foldl up b.max[i] := by
  induction ms generalizing b with
  | nil => exact ⟨rfl, rfl⟩
  | cons m ms ih =>
    obtain ⟨e1, e2⟩ := Box.merge_comp b ⟨m.lower, m.upper⟩ i
    rw [← Box.merge_any] at e1 e2
    obtain ⟨h1, h2⟩ := ih (m.apply b)
    simp only [List.foldl_cons, List.map_cons]
    rw [h1, h2, e1, e2]
    exact ⟨rfl, rfl⟩

/-- **C161** The order of merges, for all boxes and points, NaN and infinities included: two orders of the same merges give boxes that differ at most in the signs of zeros. -/
theorem C161_merge_order (b : Box (Fp F)) (ms ms' : List (Spec.Merge (Fp F))) (h : ms.Perm ms') :
    Spec.VAlike (ms.foldl Spec.Merge.apply b).min (ms'.foldl Spec.Merge.apply b).min ∧ Spec.VAlike (ms.foldl Spec.Merge.apply b).max (ms'.foldl Spec.Merge.apply b).max := by
  constructor
  · intro i
    rw [(fold_comp i ms b).1, (fold_comp i ms' b).1]
    exact fold_perm (o := min) (fun a b c => min_right_comm a b c) down_cases (h.map _) (Spec.Alike.refl _)
  · intro i
    rw [(fold_comp i ms b).2, (fold_comp i ms' b).2]
    exact fold_perm (o := max) (fun a b c => max_right_comm a b c) up_cases (h.map _) (Spec.Alike.refl _)

/-- **C161** Hence the verdict on the bounding box of a mesh does not depend on the order in which its points and boxes were merged. -/
theorem C161_mesh_order (cfg : Cfg) (half : Fp F) (k : Culler (Fp F)) (b : Box (Fp F)) (ms ms' : List (Spec.Merge (Fp F))) (h : ms.Perm ms') :
    let B := ms.foldl Spec.Merge.apply b
    let B' := ms'.foldl Spec.Merge.apply b
    testAabb cfg half k (Spec.extent B 0) (Spec.extent B 1) (Spec.extent B 2) = testAabb cfg half k (Spec.extent B' 0) (Spec.extent B' 1) (Spec.extent B' 2) := by
  intro B B'
  obtain ⟨h1, h2⟩ := C161_merge_order b ms ms' h
  have he : ∀ i, Spec.VAlike (Spec.extent B i) (Spec.extent B' i) := by
    intro i j
    match j with
    | 0 => exact h1 i
    | 1 => exact h2 i
  have hk : Spec.CAlike k k := ⟨fun _ => .refl _, fun _ => .refl _, fun _ => .refl _, fun _ => .refl _, fun _ => .refl _, fun _ => .refl _⟩
  exact (C161_verdict cfg k k hk #v[0, 0, 0, 0] #v[0, 0, 0, 0] (fun _ => .refl _) half _ _ _ _ _ _ (he 0) (he 1) (he 2)).2

/-- **C161** The limit: `reciprocal()` does tell the zeros apart, the results are the two infinities. -/
theorem C161_reciprocal (h0 : 0 < F.emax) : Spec.VAlike (#v[0] : Vec 1 (Fp F)) #v[-0] ∧ ∃ v w : Vec 1 (Fp F), Vec.reciprocal (#v[0] : Vec 1 (Fp F)) = .ok v ∧ Vec.reciprocal (#v[-0] : Vec 1 (Fp F)) = .ok w ∧
    v[0] = .inf false ∧ w[0] = .inf true := by
  have hone : ∃ h, (1 : Fp F) = .fin false 1 h := by
    have h1 : F.rnd 1 = 1 := by simpa using (rep_pow (F := F) (e := 0) (by unfold emin; omega)).rnd_eq
    have hle : F.rnd 1 ≤ F.maxFinite := by rw [h1]; exact one_le_max h0
    have e : (1 : Fp F) = .fin false (F.rnd 1) (mag_rnd zero_le_one hle) := Fp.round_eq (s := false) zero_le_one hle
    exact ⟨h1 ▸ mag_rnd zero_le_one hle, by rw [e]; simp only [h1]⟩
  obtain ⟨h1, e1⟩ := hone
  have d : ∀ s, (1 : Fp F) / (.fin s 0 mag_zero) = .inf s := by
    intro s
    rw [e1]
    show (if (0 : ℝ) = 0 then (if (1 : ℝ) = 0 then Fp.nan else .inf (false ^^ s)) else _) = _
    simp
  refine ⟨fun i => ?_, #v[.inf false], #v[.inf true], ?_, ?_, rfl, rfl⟩
  · match i with
    | 0 => exact Spec.Alike.zeros false true
  · have : (1 : Fp F) / 0 = .inf false := d false
    simp [Vec.reciprocal, loop_succ, this]
  · have : (1 : Fp F) / -0 = .inf true := d true
    simp [Vec.reciprocal, loop_succ, this]

/-- Two orders of three merges, of which two are points with a zero of either sign, and another list is not an order of them. -/
example : ([Spec.Merge.point (#v[0, 0, 0] : Vec 3 (Fp single)), .point #v[-0, 0, 1], .box ⟨#v[0, 0, 0], #v[1, 1, 1]⟩] : List (Spec.Merge (Fp single))).Perm
    [.box ⟨#v[0, 0, 0], #v[1, 1, 1]⟩, .point #v[-0, 0, 1], .point #v[0, 0, 0]] :=
  (List.reverse_perm _).symm

/-- Matrices that differ in the sign of a zero. -/
example : Spec.MAlike (Mat.ofFn fun r c : Fin 4 => if r = c then (1 : Fp single) else 0) (Mat.ofFn fun r c : Fin 4 => if r = c then (1 : Fp single) else -0) := by
  intro r c
  rw [Mat.get_ofFn, Mat.get_ofFn]
  split_ifs
  · exact Spec.Alike.refl _
  · exact Spec.Alike.zeros false true
end Vmml
