import Verif.Props.FloatOrder
import Verif.Props.FloatMixed
import Verif.Props.FloatLaws
import Verif.Props.MatrixAccess
import Verif.Props.VectorGeom
import Verif.Props.Frustum
import Verif.Props.MatrixStats

/-!
# C133: copies between `float` and `double`
-/

namespace Vmml
open Format
variable {F D : Format} {M N : Nat}

/-- A finite number is copied to a wider format without change. -/
theorem Fp.convert_wide (hp : F.p ≤ D.p) (he : F.emax ≤ D.emax) {s : Bool} {m : ℝ} (hm : F.Mag m) : ∃ hm' : D.Mag m, Fp.convert D (.fin s m hm : Fp F) = .fin s m hm' := by
  have h : D.Mag m := ⟨hm.1, rep_widen hp he hm.2.1, hm.2.2.trans (max_widen hp he)⟩
  refine ⟨h, ?_⟩
  show Fp.round s m = _
  rw [Fp.round_eq hm.1 (by rw [h.2.1.rnd_eq]; exact h.2.2)]
  simp only [h.2.1.rnd_eq]

theorem Fp.convert_mag {s : Bool} {m : ℝ} (hm : D.Mag m) (hf : F.Mag m) : Fp.convert F (.fin s m hm : Fp D) = .fin s m hf := by
  show Fp.round s m = _
  rw [Fp.round_eq hm.1 (by rw [hf.2.1.rnd_eq]; exact hf.2.2)]
  simp only [hf.2.1.rnd_eq]

/-- There and back. -/
theorem Fp.convert_back (hp : F.p ≤ D.p) (he : F.emax ≤ D.emax) (a : Fp F) : Fp.convert F (Fp.convert D a) = a := by
  cases a with
  | nan => rfl
  | inf s => rfl
  | fin s m hm =>
    obtain ⟨h, e⟩ := Fp.convert_wide (s := s) hp he hm
    rw [e, Fp.convert_mag h hm]


private theorem wide_ereal (hp : F.p ≤ D.p) (he : F.emax ≤ D.emax) (a : Fp F) : (Fp.convert D a = .nan ↔ a = .nan) ∧ Spec.ereal (Fp.convert D a) = Spec.ereal a := by
  cases a with
  | nan => exact ⟨⟨fun _ => rfl, fun _ => rfl⟩, rfl⟩
  | inf s => exact ⟨⟨fun h => (by cases h), fun h => (by cases h)⟩, rfl⟩
  | fin s m hm =>
    obtain ⟨h, e⟩ := Fp.convert_wide (s := s) hp he hm
    rw [e]
    exact ⟨⟨fun h => (by cases h), fun h => (by cases h)⟩, rfl⟩

private theorem wide_lt (hp : F.p ≤ D.p) (he : F.emax ≤ D.emax) (a b : Fp F) : Fp.convert D a < Fp.convert D b ↔ a < b := by
  have h1 := wide_ereal hp he a
  have h2 := wide_ereal hp he b
  rw [Fp.lt_below, Fp.lt_below]
  unfold Spec.Below
  rw [Ne, Ne, h1.1, h2.1, h1.2, h2.2]

private theorem wide_beq (hp : F.p ≤ D.p) (he : F.emax ≤ D.emax) (a b : Fp F) : (Fp.convert D a == Fp.convert D b) = (a == b) := by
  have h1 := wide_ereal hp he a
  have h2 := wide_ereal hp he b
  rw [Bool.eq_iff_iff, Fp.beq_same, Fp.beq_same]
  unfold Spec.Same
  rw [Ne, Ne, h1.1, h2.1, h1.2, h2.2]

/-! ## Specification -/

/-- `b` has the same class and the same value as `a`: NaN, the same infinity, or the same number with the same sign (of zero too). -/
def Spec.Unchanged (a : Fp F) (b : Fp D) : Prop :=
  (a = .nan ∧ b = .nan) ∨ (∃ s, a = .inf s ∧ b = .inf s) ∨ (∃ s m, ∃ h : F.Mag m, ∃ h' : D.Mag m, a = .fin s m h ∧ b = .fin s m h')

/-- `b` is the best rendering of `a` in the other format: NaN and infinities are kept; a number that is at most the largest finite one becomes a number at least as close as any
other of that format, with relative error at most `u` (absolute error `η` near zero) and the sign kept; a larger one may also become the infinity of its sign. -/
def Spec.Nearest (a : Fp F) (b : Fp D) : Prop :=
  (a = .nan ∧ b = .nan) ∨ (∃ s, a = .inf s ∧ b = .inf s) ∨
  (a.Finite ∧ ∃ s, (0 < a.val → s = false) ∧ (a.val < 0 → s = true) ∧
    ((D.maxFinite < |a.val| ∧ b = .inf s) ∨
     (∃ m, ∃ h : D.Mag m, b = .fin s m h ∧ (∀ c : Fp D, c.Finite → |b.val - a.val| ≤ |c.val - a.val|) ∧ |b.val - a.val| ≤ D.u * |a.val| + D.eta)))

private theorem wide_unchanged (hp : F.p ≤ D.p) (he : F.emax ≤ D.emax) (a : Fp F) : Spec.Unchanged a (Fp.convert D a) := by
  cases a with
  | nan => exact .inl ⟨rfl, rfl⟩
  | inf s => exact .inr (.inl ⟨s, rfl, rfl⟩)
  | fin s m hm =>
    obtain ⟨h, e⟩ := Fp.convert_wide (s := s) hp he hm
    exact .inr (.inr ⟨s, m, hm, h, rfl, e⟩)

private theorem narrow_nearest (h0 : 0 < F.emax) (a : Fp D) : Spec.Nearest a (Fp.convert F a) := by
  cases a with
  | nan => exact .inl ⟨rfl, rfl⟩
  | inf s => exact .inr (.inl ⟨s, rfl, rfl⟩)
  | fin s m hm =>
    have hv : (Fp.fin s m hm : Fp D).val = if s then -m else m := by cases s <;> rfl
    have ha : |(Fp.fin s m hm : Fp D).val| = m := by rw [hv]; cases s <;> simp [abs_of_nonneg hm.1]
    refine .inr (.inr ⟨trivial, s, ?_, ?_, ?_⟩)
    · rw [hv]; cases s
      · intro _; rfl
      · intro h; simp only [if_true] at h; linarith [hm.1]
    · rw [hv]; cases s
      · intro h; simp only [Bool.false_eq_true, if_false] at h; linarith [hm.1]
      · intro _; rfl
    · rw [ha]
      show _ ∨ ∃ m', ∃ h, Fp.round s m = _ ∧ (∀ c : Fp F, c.Finite → |(Fp.round s m : Fp F).val - _| ≤ _) ∧ |(Fp.round s m : Fp F).val - _| ≤ _
      by_cases h : F.rnd m ≤ F.maxFinite
      · right
        rw [Fp.round_eq hm.1 h]
        have hd : ∀ c : ℝ, |(if s then -c else c) - (Fp.fin s m hm : Fp D).val| = |c - m| := by
          intro c; rw [hv]; cases s
          · simp
          · simp only [if_true]; rw [← abs_neg]; congr 1; ring
        have hv' : ∀ hk : F.Mag (F.rnd m), (Fp.fin s (F.rnd m) hk : Fp F).val = if s then -F.rnd m else F.rnd m := by intro hk; cases s <;> rfl
        refine ⟨_, _, rfl, ?_, ?_⟩
        · intro c hc
          rw [hv', hd]
          have := rnd_best m (if s then -c.val else c.val) (by
            cases s
            · exact Fp.rep_val hc
            · simpa [Fp.val_neg] using Fp.rep_val (Fp.finite_neg hc))
          refine this.trans (le_of_eq ?_)
          rw [hv]; cases s
          · simp
          · simp only [if_true]; rw [← abs_neg]; congr 1; ring
        · rw [hv', hd]
          have := rnd_err_add (F := F) m
          rwa [abs_of_nonneg hm.1] at this
      · left
        refine ⟨?_, Fp.round_inf (not_le.1 h)⟩
        by_contra hc
        exact h (rnd_le (rep_max h0) hm.1 (not_lt.1 hc))

/-! ## Copies into the wider format -/

/-- **C133** Copying a vector, a matrix (`cast_from`, and the assignment between matrices) or a frustum of `float` into one of `double` changes nothing: every component keeps its value, its sign,
and whether it is infinite or NaN. -/
theorem C133_widen (cfg : Cfg) (hp : F.p ≤ D.p) (he : F.emax ≤ D.emax) (dv : Vec M (Fp D)) (v : Vec M (Fp F)) (dm : Mat M N (Fp D)) (m : Mat M N (Fp F)) (df : Frustum (Fp D)) (f : Frustum (Fp F)) :
    (∃ r, dv.assignCast (Fp.convert D) v = .ok r ∧ ∀ i (h : i < M), Spec.Unchanged v[i] r[i]) ∧
    (∃ r, dm.castFrom (Fp.convert D) m = .ok r ∧ ∀ i j, Spec.Unchanged (m.get i j) (r.get i j)) ∧
    (∃ r, dm.assignFrom cfg (Fp.convert D) m = .ok r ∧ ∀ i j, Spec.Unchanged (m.get i j) (r.get i j)) ∧
    (∃ r, df.assignCast (Fp.convert D) f = .ok r ∧ Spec.Unchanged f.left r.left ∧ Spec.Unchanged f.right r.right ∧ Spec.Unchanged f.bottom r.bottom ∧
      Spec.Unchanged f.top r.top ∧ Spec.Unchanged f.nearPlane r.nearPlane ∧ Spec.Unchanged f.farPlane r.farPlane) := by
  have w := wide_unchanged hp he
  refine ⟨?_, ?_, ?_, ?_⟩
  · obtain ⟨r, h1, h2⟩ := C84_cast (Fp.convert D) dv v
    exact ⟨r, h1, fun i h => by rw [h2 i h]; exact w _⟩
  · refine ⟨_, Mat.castFrom_eq _ _ _, fun i j => ?_⟩
    rw [Mat.get_ofFn]; exact w _
  · obtain ⟨r, h1, h2⟩ := C23_resize cfg (Fp.convert D) dm m
    refine ⟨r, h1, fun i j => ?_⟩
    have : r.get i j = Fp.convert D (m.get i j) := by
      have := h2 i j
      rw [dif_pos ⟨i.2, j.2⟩] at this
      exact this
    rw [this]; exact w _
  · obtain ⟨-, -, h, -⟩ := C85_set (Fp.convert D) df df f (k := 6) le_rfl f.array df.left df.left df.left df.left df.left df.left
    refine ⟨_, h, ?_⟩
    obtain ⟨⟨e1, e2, e3, e4, e5, e6⟩, -⟩ := C85_set (Fp.convert D) df df f (k := 6) le_rfl f.array (Fp.convert D f.left) (Fp.convert D f.right) (Fp.convert D f.bottom) (Fp.convert D f.top) (Fp.convert D f.nearPlane) (Fp.convert D f.farPlane)
    rw [e1, e2, e3, e4, e5, e6]
    exact ⟨w _, w _, w _, w _, w _, w _⟩

/-- **C133** There and back: copying a `float` vector, matrix or frustum into `double` objects and the result back into `float` objects gives exactly the object one started from. -/
theorem C133_round_trip (cfg : Cfg) (hp : F.p ≤ D.p) (he : F.emax ≤ D.emax) (dv : Vec M (Fp D)) (v v' : Vec M (Fp F)) (dm : Mat M N (Fp D)) (m m' : Mat M N (Fp F)) (df : Frustum (Fp D)) (f f' : Frustum (Fp F)) :
    (do let w ← dv.assignCast (Fp.convert D) v; v'.assignCast (Fp.convert F) w) = .ok v ∧
    (do let w ← dm.castFrom (Fp.convert D) m; m'.castFrom (Fp.convert F) w) = .ok m ∧
    (do let w ← dm.assignFrom cfg (Fp.convert D) m; m'.assignFrom cfg (Fp.convert F) w) = .ok m ∧
    (do let w ← df.assignCast (Fp.convert D) f; f'.assignCast (Fp.convert F) w) = .ok f := by
  have b := Fp.convert_back (F := F) hp he
  refine ⟨?_, ?_, ?_, ?_⟩
  · obtain ⟨r, h1, h2⟩ := C84_cast (Fp.convert D) dv v
    obtain ⟨q, h3, h4⟩ := C84_cast (Fp.convert F) v' r
    rw [h1, Vmml.bind_ok, h3]
    congr 1
    ext i hi : 1
    rw [h4 i hi, h2 i hi, b]
  · rw [Mat.castFrom_eq, Vmml.bind_ok, Mat.castFrom_eq]
    congr 1
    refine Mat.ext fun i j => ?_
    rw [Mat.get_ofFn, Mat.get_ofFn, b]
  · obtain ⟨r, h1, h2⟩ := C23_resize cfg (Fp.convert D) dm m
    obtain ⟨q, h3, h4⟩ := C23_resize cfg (Fp.convert F) m' r
    rw [h1, Vmml.bind_ok, h3]
    congr 1
    refine Mat.ext fun i j => ?_
    have e1 := h2 i j
    have e2 := h4 i j
    rw [dif_pos ⟨i.2, j.2⟩] at e1 e2
    show q.toMat i j = m.toMat i j
    rw [e2]
    show Fp.convert F (r.toMat i j) = _
    rw [e1]
    exact b _
  · obtain ⟨-, -, h, -⟩ := C85_set (Fp.convert D) df df f (k := 6) le_rfl f.array df.left df.left df.left df.left df.left df.left
    rw [h, Vmml.bind_ok]
    obtain ⟨⟨e1, e2, e3, e4, e5, e6⟩, -⟩ := C85_set (Fp.convert D) df df f (k := 6) le_rfl f.array (Fp.convert D f.left) (Fp.convert D f.right) (Fp.convert D f.bottom) (Fp.convert D f.top) (Fp.convert D f.nearPlane) (Fp.convert D f.farPlane)
    obtain ⟨-, -, h', -⟩ := C85_set (Fp.convert F) f' f' (df.set (Fp.convert D f.left) (Fp.convert D f.right) (Fp.convert D f.bottom) (Fp.convert D f.top) (Fp.convert D f.nearPlane) (Fp.convert D f.farPlane)) (k := 6) le_rfl df.array f'.left f'.left f'.left f'.left f'.left f'.left
    rw [h', e1, e2, e3, e4, e5, e6]
    simp only [b]
    congr 1
    obtain ⟨⟨e1, e2, e3, e4, e5, e6⟩, -⟩ := C85_set (id : Fp F → Fp F) f' f' f (k := 6) le_rfl f.array f.left f.right f.bottom f.top f.nearPlane f.farPlane
    exact Frustum.ext' e1 e2 e3 e4 e5 e6

private theorem min_wide (comp : Fp F → Fp F → Bool) (comp' : Fp D → Fp D → Bool) (h : ∀ a b, comp' (Fp.convert D a) (Fp.convert D b) = comp a b) (v : Vec M (Fp F)) (w : Vec M (Fp D))
    (hw : ∀ i (hi : i < M), w[i] = Fp.convert D v[i]) : w.minElement comp' = v.minElement comp := by
  unfold Vec.minElement
  apply loop_congr
  intro i _ best
  by_cases h1 : i + 1 < M
  · rw [Vec.rawGet_lt w h1, Vec.rawGet_lt v h1]
    by_cases h2 : best < M
    · rw [Vec.rawGet_lt w h2, Vec.rawGet_lt v h2, hw _ h1, hw _ h2]
      simp only [Vmml.bind_ok, h]
    · simp [Vec.rawGet, h2]
  · simp [Vec.rawGet, h1]

private theorem cast_array (m : Mat M N (Fp F)) (m' : Mat M N (Fp D)) (h : ∀ r c, m'.get r c = Fp.convert D (m.get r c)) (i : Nat) (hi : i < M * N) : m'.array[i] = Fp.convert D m.array[i] := by
  obtain ⟨⟨r, c⟩, hrc⟩ := cellEquiv.surjective (⟨i, hi⟩ : Fin (M * N))
  have e1 := Mat.array_cell m' r c
  have e2 := Mat.array_cell m r c
  simp only [hrc] at e1 e2
  calc m'.array[i] = m'.get r c := e1
    _ = Fp.convert D (m.get r c) := h r c
    _ = _ := by rw [← e2]; rfl

/-- **C133** Copying into the wider format keeps every comparison: `operator<` of two vectors, the position of the smallest and of the largest component, and `operator==` and `operator!=` of two
matrices give the same answer for the copies as for the originals (NaN, infinities and signed zeros included). -/
theorem C133_widen_compare (cfg : Cfg) (hp : F.p ≤ D.p) (he : F.emax ≤ D.emax) (da db : Vec M (Fp D)) (a b : Vec M (Fp F)) (dm dn : Mat M N (Fp D)) (m n : Mat M N (Fp F)) :
    ∃ a' b' m' n', da.assignCast (Fp.convert D) a = .ok a' ∧ db.assignCast (Fp.convert D) b = .ok b' ∧ dm.castFrom (Fp.convert D) m = .ok m' ∧ dn.castFrom (Fp.convert D) n = .ok n' ∧
      a'.lt cfg b' = a.lt cfg b ∧ a'.findMinIndex = a.findMinIndex ∧ a'.findMaxIndex = a.findMaxIndex ∧ m'.eqOp n' = m.eqOp n ∧ m'.neOp n' = m.neOp n := by
  obtain ⟨a', h1, h2⟩ := C84_cast (Fp.convert D) da a
  obtain ⟨b', h3, h4⟩ := C84_cast (Fp.convert D) db b
  have heq : ∀ m' n' : Mat M N (Fp D), dm.castFrom (Fp.convert D) m = .ok m' → dn.castFrom (Fp.convert D) n = .ok n' → m'.eqOp n' = m.eqOp n := by
    intro m' n' e1 e2
    have g1 := cast_array m m' (fun r c => by rw [Mat.castFrom_eq] at e1; obtain rfl := Except.ok.inj e1; rw [Mat.get_ofFn])
    have g2 := cast_array n n' (fun r c => by rw [Mat.castFrom_eq] at e2; obtain rfl := Except.ok.inj e2; rw [Mat.get_ofFn])
    unfold Mat.eqOp
    apply loop_congr
    intro i hi ok
    have hi : i < M * N := by omega
    rw [Mat.rawGet_lt m' hi, Mat.rawGet_lt n' hi, Mat.rawGet_lt m hi, Mat.rawGet_lt n hi, g1 i hi, g2 i hi]
    simp only [Vmml.bind_ok, wide_beq hp he]
  refine ⟨a', b', _, _, h1, h3, Mat.castFrom_eq _ _ _, Mat.castFrom_eq _ _ _, ?_, ?_, ?_, heq _ _ (Mat.castFrom_eq _ _ _) (Mat.castFrom_eq _ _ _), ?_⟩
  · unfold Vec.lt
    have : (loopRet M fun i => do
        if (← a'.atGet cfg i) < (← b'.atGet cfg i) then pure (some true)
        else if (← b'.atGet cfg i) < (← a'.atGet cfg i) then pure (some false)
        else pure none) = loopRet M (fun i => do
        if (← a.atGet cfg i) < (← b.atGet cfg i) then pure (some true)
        else if (← b.atGet cfg i) < (← a.atGet cfg i) then pure (some false)
        else pure none) := by
      have e : ∀ i, i < M → (do
        if (← a.atGet cfg i) < (← b.atGet cfg i) then pure (some true)
        else if (← b.atGet cfg i) < (← a.atGet cfg i) then pure (some false)
        else pure none : Res (Option Bool)) = .ok (if h : i < M then (if a[i] < b[i] then some true else if b[i] < a[i] then some false else none) else none) := by
        intro i hi
        simp only [Vec.atGet_lt cfg _ hi, Vmml.bind_ok, hi, dite_true, pure_ok]
        split_ifs <;> rfl
      rw [loopRet_eq _ e, loopRet_eq _ (fun i hi => ?_)]
      simp only [Vec.atGet_lt cfg _ hi, Vmml.bind_ok, hi, dite_true, pure_ok, h2 i hi, h4 i hi, wide_lt hp he]
      split_ifs <;> rfl
    rw [this]
  · exact min_wide _ _ (fun x y => by simp only [wide_lt hp he]) a a' h2
  · unfold Vec.findMaxIndex
    rw [maxElement_eq_minElement, maxElement_eq_minElement]
    exact min_wide _ _ (fun x y => by simp only [wide_lt hp he]) a a' h2
  · unfold Mat.neOp
    rw [heq _ _ (Mat.castFrom_eq _ _ _) (Mat.castFrom_eq _ _ _)]

/-! ## Copies into the narrower format -/

/-- **C133** Copying into the narrower format gives, component by component, the best rendering of the source in that format. -/
theorem C133_narrow (cfg : Cfg) (h0 : 0 < F.emax) (dv : Vec M (Fp F)) (v : Vec M (Fp D)) (dm : Mat M N (Fp F)) (m : Mat M N (Fp D)) (df : Frustum (Fp F)) (f : Frustum (Fp D)) :
    (∃ r, dv.assignCast (Fp.convert F) v = .ok r ∧ ∀ i (h : i < M), Spec.Nearest v[i] r[i]) ∧
    (∃ r, dm.castFrom (Fp.convert F) m = .ok r ∧ ∀ i j, Spec.Nearest (m.get i j) (r.get i j)) ∧
    (∃ r, dm.assignFrom cfg (Fp.convert F) m = .ok r ∧ ∀ i j, Spec.Nearest (m.get i j) (r.get i j)) ∧
    (∃ r, df.assignCast (Fp.convert F) f = .ok r ∧ Spec.Nearest f.left r.left ∧ Spec.Nearest f.right r.right ∧ Spec.Nearest f.bottom r.bottom ∧
      Spec.Nearest f.top r.top ∧ Spec.Nearest f.nearPlane r.nearPlane ∧ Spec.Nearest f.farPlane r.farPlane) := by
  have w := narrow_nearest (D := D) h0
  refine ⟨?_, ?_, ?_, ?_⟩
  · obtain ⟨r, h1, h2⟩ := C84_cast (Fp.convert F) dv v
    exact ⟨r, h1, fun i h => by rw [h2 i h]; exact w _⟩
  · refine ⟨_, Mat.castFrom_eq _ _ _, fun i j => ?_⟩
    rw [Mat.get_ofFn]; exact w _
  · obtain ⟨r, h1, h2⟩ := C23_resize cfg (Fp.convert F) dm m
    refine ⟨r, h1, fun i j => ?_⟩
    have : r.get i j = Fp.convert F (m.get i j) := by
      have := h2 i j
      rw [dif_pos ⟨i.2, j.2⟩] at this
      exact this
    rw [this]; exact w _
  · obtain ⟨-, -, h, -⟩ := C85_set (Fp.convert F) df df f (k := 6) le_rfl f.array df.left df.left df.left df.left df.left df.left
    refine ⟨_, h, ?_⟩
    obtain ⟨⟨e1, e2, e3, e4, e5, e6⟩, -⟩ := C85_set (Fp.convert F) df df f (k := 6) le_rfl f.array (Fp.convert F f.left) (Fp.convert F f.right) (Fp.convert F f.bottom) (Fp.convert F f.top) (Fp.convert F f.nearPlane) (Fp.convert F f.farPlane)
    rw [e1, e2, e3, e4, e5, e6]
    exact ⟨w _, w _, w _, w _, w _, w _⟩

private theorem round_ereal {s : Bool} {x : ℝ} (h : 0 ≤ x) : Spec.ereal (Fp.round s x : Fp F) = if s then -Spec.fpUp F x else Spec.fpUp F x := by
  cases s
  · simpa using Fp.ereal_round h
  · unfold Spec.fpUp
    by_cases h1 : F.rnd x ≤ F.maxFinite
    · rw [Fp.round_eq h h1, if_pos h1]
      show ((-F.rnd x : ℝ) : EReal) = -((F.rnd x : ℝ) : EReal)
      exact EReal.coe_neg _
    · rw [Fp.round_inf (not_le.1 h1), if_neg h1]; rfl

private theorem narrow_mono (a b : Fp D) (h : a < b) : ¬ Fp.convert F b < Fp.convert F a := by
  rw [Fp.lt_below] at h ⊢
  obtain ⟨ha, hb, hab⟩ := h
  rintro ⟨-, -, hc⟩
  refine absurd hc (not_lt.2 ?_)
  cases a with
  | nan => exact absurd rfl ha
  | inf s => cases s with
    | true => exact bot_le
    | false => exact absurd hab not_top_lt
  | fin s m hm => cases b with
    | nan => exact absurd rfl hb
    | inf t => cases t with
      | true => exact absurd hab not_lt_bot
      | false => exact le_top
    | fin t k hk =>
      show Spec.ereal (Fp.round s m : Fp F) ≤ Spec.ereal (Fp.round t k : Fp F)
      rw [round_ereal hm.1, round_ereal hk.1]
      have hv : (Fp.fin s m hm : Fp D).val < (Fp.fin t k hk : Fp D).val := (Fp.lt_val (a := (Fp.fin s m hm : Fp D)) (b := (Fp.fin t k hk : Fp D)) trivial trivial).1 ((Fp.lt_iff ha hb).2 hab)
      have n1 := fpUp_nonneg (F := F) hm.1
      have n2 := fpUp_nonneg (F := F) hk.1
      cases s <;> cases t
      · exact fpUp_mono (show m ≤ k from le_of_lt hv)
      · have : m < -k := hv
        linarith [hm.1, hk.1]
      · simp only [if_true, Bool.false_eq_true, if_false]
        exact (by simpa using EReal.neg_le_neg_iff.2 n1 : -Spec.fpUp F m ≤ 0).trans n2
      · have : -m < -k := hv
        simp only [if_true]
        exact EReal.neg_le_neg_iff.2 (fpUp_mono (by linarith))

/-- **C133** Copying into the narrower format does not reverse the order of two components: of two components of one vector, or of two vectors, the smaller one does not become the larger one. -/
theorem C133_narrow_order (da db : Vec M (Fp F)) (a b : Vec M (Fp D)) :
    ∃ a' b', da.assignCast (Fp.convert F) a = .ok a' ∧ db.assignCast (Fp.convert F) b = .ok b' ∧
      ∀ i (hi : i < M) j (hj : j < M), a[i] < b[j] → ¬ b'[j] < a'[i] := by
  obtain ⟨a', h1, h2⟩ := C84_cast (Fp.convert F) da a
  obtain ⟨b', h3, h4⟩ := C84_cast (Fp.convert F) db b
  refine ⟨a', b', h1, h3, fun i hi j hj h => ?_⟩
  rw [h2 i hi, h4 j hj]
  exact narrow_mono _ _ h

/-- **C133** The lexicographic order of whole vectors is not kept: whenever the wider format has a positive number `x` below half the smallest positive number of the narrower one, there are vectors `b < a`
whose copies satisfy `a < b`. -/
theorem C133_narrow_lex (cfg : Cfg) (h0 : 0 < F.emax) (h1 : 0 < D.emax) (da db : Vec 2 (Fp F)) {x : ℝ} (hx : D.Mag x) (hpos : 0 < x) (hsmall : x < F.eta) :
    ∃ a b : Vec 2 (Fp D), ∃ a' b', da.assignCast (Fp.convert F) a = .ok a' ∧ db.assignCast (Fp.convert F) b = .ok b' ∧
      b.lt cfg a = .ok true ∧ a.lt cfg b = .ok false ∧ a'.lt cfg b' = .ok true ∧ b'.lt cfg a' = .ok false := by
  have r1 : ∀ G : Format, 0 < G.emax → G.Mag 1 := fun G h => ⟨by norm_num, by simpa using rep_pow (F := G) (e := 0) (by unfold Format.emin; omega), one_le_max h⟩
  let a : Vec 2 (Fp D) := #v[.fin false x hx, .fin false 0 mag_zero]
  let b : Vec 2 (Fp D) := #v[.fin false 0 mag_zero, .fin false 1 (r1 D h1)]
  obtain ⟨a', e1, e2⟩ := C84_cast (Fp.convert F) da a
  obtain ⟨b', e3, e4⟩ := C84_cast (Fp.convert F) db b
  have hz : Fp.convert F (.fin false x hx : Fp D) = .fin false 0 mag_zero := by
    show Fp.round false x = _
    rw [Fp.round_eq hpos.le (by rw [rnd_tiny hpos.le hsmall]; exact maxFinite_pos.le)]
    simp only [rnd_tiny hpos.le hsmall]
  have a0 : a'[0] = .fin false 0 mag_zero := (e2 0 (by norm_num)).trans hz
  have a1 : a'[1] = .fin false 0 mag_zero := (e2 1 (by norm_num)).trans (Fp.convert_mag mag_zero mag_zero)
  have b0 : b'[0] = .fin false 0 mag_zero := (e4 0 (by norm_num)).trans (Fp.convert_mag mag_zero mag_zero)
  have b1 : b'[1] = .fin false 1 (r1 F h0) := (e4 1 (by norm_num)).trans (Fp.convert_mag (r1 D h1) (r1 F h0))
  have lt : ∀ (G : Format) (x y : ℝ) (hx : G.Mag x) (hy : G.Mag y), (.fin false x hx : Fp G) < .fin false y hy ↔ x < y :=
    fun G x y hx hy => Fp.lt_val (a := (Fp.fin false x hx : Fp G)) (b := (Fp.fin false y hy : Fp G)) trivial trivial
  refine ⟨a, b, a', b', e1, e3, ?_, ?_, ?_, ?_⟩ <;>
    unfold Vec.lt loopRet <;>
    simp only [loop_succ, loop_zero, Vec.atGet_lt cfg _ (show 0 < 2 by norm_num), Vec.atGet_lt cfg _ (show 1 < 2 by norm_num), a0, a1, b0, b1, a, b] <;>
    simp [lt, hpos, not_lt.2 hpos.le]
  rw [if_neg (by norm_num)]
  rfl

/-- The hypotheses of the other theorems, for `float` and `double`. -/
example : Format.single.p ≤ Format.double.p ∧ Format.single.emax ≤ Format.double.emax ∧ 0 < Format.single.emax := by decide

/-- A case: the smallest positive `double` against `float`. -/
example (cfg : Cfg) (da db : Vec 2 (Fp Format.single)) : ∃ a b : Vec 2 (Fp Format.double), ∃ a' b', da.assignCast (Fp.convert Format.single) a = .ok a' ∧ db.assignCast (Fp.convert Format.single) b = .ok b' ∧
    b.lt cfg a = .ok true ∧ a.lt cfg b = .ok false ∧ a'.lt cfg b' = .ok true ∧ b'.lt cfg a' = .ok false := by
  have hr : Format.double.Rep ((2 : ℝ) ^ (-1074 : Int)) := rep_pow (by unfold Format.emin Format.double; norm_num)
  refine C133_narrow_lex cfg (by decide) (by decide) da db (x := (2 : ℝ) ^ (-1074 : Int)) ⟨by positivity, hr, ?_⟩ (by positivity) ?_
  · exact (zpow_le_one_of_nonpos₀ (by norm_num) (by norm_num)).trans (one_le_max (by decide))
  · have e : Format.single.emin - (Format.single.p : Int) = -149 := by decide
    unfold Format.eta
    rw [e, show (1 / 2 : ℝ) = (2 : ℝ) ^ (-1 : Int) by norm_num, ← zpow_add₀ (by norm_num : (2 : ℝ) ≠ 0)]
    exact zpow_lt_zpow_right₀ (by norm_num) (by norm_num)

end Vmml
