import Verif.Props.FloatHom
import Verif.Props.FloatLaws
import Verif.Props.FloatAxis
import Verif.Props.Util

/-!
# C146: translation and scaling matrices in IEEE arithmetic
-/

namespace Vmml
open Format Mat Util
variable {F : Format} {α : Type}

/-! ## Exact steps -/

/-- A finite number with the value `x`. -/
private def Is (a : Fp F) (x : ℝ) : Prop := a.Finite ∧ a.val = x

private theorem Is.zero : Is (0 : Fp F) 0 := ⟨Fp.finite_zero, Fp.val_zero⟩
private theorem Is.one (h0 : 0 < F.emax) : Is (1 : Fp F) 1 := Fp.one_fin h0
private theorem Is.of {a : Fp F} (h : a.Finite) : Is a a.val := ⟨h, rfl⟩
private theorem Is.rep {a : Fp F} {x : ℝ} (h : Is a x) : F.Rep x := h.2 ▸ Fp.rep_val h.1
private theorem Is.le {a : Fp F} {x : ℝ} (h : Is a x) : |x| ≤ F.maxFinite := h.2 ▸ Fp.abs_val_le a
private theorem Is.add (h0 : 0 < F.emax) {a b : Fp F} {x y : ℝ} (ha : Is a x) (hb : Is b y) (h : |x + y| ≤ F.maxFinite) : Is (a + b) (F.rnd (x + y)) := by
  have := Fp.add_fin h0 ha.1 hb.1 (by rw [ha.2, hb.2]; exact h)
  rwa [ha.2, hb.2] at this
private theorem Is.add0 (h0 : 0 < F.emax) {a b : Fp F} {x : ℝ} (ha : Is a x) (hb : Is b 0) : Is (a + b) x := by
  have := Is.add h0 ha hb (by rw [add_zero]; exact ha.le)
  rwa [add_zero, ha.rep.rnd_eq] at this
private theorem Is.zadd (h0 : 0 < F.emax) {a b : Fp F} {x : ℝ} (ha : Is a 0) (hb : Is b x) : Is (a + b) x := by
  rw [Fp.add_comm']; exact hb.add0 h0 ha
private theorem Is.mul (h0 : 0 < F.emax) {a b : Fp F} {x y : ℝ} (ha : Is a x) (hb : Is b y) (h : |x * y| ≤ F.maxFinite) : Is (a * b) (F.rnd (x * y)) := by
  have := Fp.mul_fin h0 ha.1 hb.1 (by rw [ha.2, hb.2]; exact h)
  rwa [ha.2, hb.2] at this
private theorem Is.mul0 (h0 : 0 < F.emax) {a b : Fp F} {x : ℝ} (ha : Is a x) (hb : Is b 0) : Is (a * b) 0 := by
  have := Is.mul h0 ha hb (by rw [mul_zero, abs_zero]; exact maxFinite_pos.le)
  rwa [mul_zero, rnd_zero] at this
private theorem Is.mul1 (h0 : 0 < F.emax) {a b : Fp F} {x : ℝ} (ha : Is a x) (hb : Is b 1) : Is (a * b) x := by
  have := Is.mul h0 ha hb (by rw [mul_one]; exact ha.le)
  rwa [mul_one, ha.rep.rnd_eq] at this
private theorem Is.div1 (h0 : 0 < F.emax) {a b : Fp F} {x : ℝ} (ha : Is a x) (hb : Is b 1) : Is (a / b) x := by
  have := Fp.div_fin h0 ha.1 hb.1 (by rw [hb.2]; exact one_ne_zero) (by rw [ha.2, hb.2, div_one]; exact ha.le)
  rwa [ha.2, hb.2, div_one, ha.rep.rnd_eq] at this

/-! ## The matrices -/

private theorem translation_eq [Zero α] [One α] (cfg : Cfg) (t : Vec 3 α) :
    createTranslation cfg t = .ok ((ofFn fun r c => if r = c then 1 else 0 : Mat 4 4 α).setTranslation t) := by
  simp only [createTranslation, ctor_eq, bind_ok, identity_eq, pure_ok]

private theorem scaling_eq [Zero α] [One α] [Mul α] (cfg : Cfg) (s : Vec 3 α) :
    createScaling cfg s = .ok ((ofFn fun r c => if r = c then 1 else 0 : Mat 4 4 α).scale s) := by
  simp only [createScaling, ctor_eq, bind_ok, identity_eq, pure_ok]

private theorem hom3 [Zero α] [Add α] [Mul α] [Div α] (cfg : Cfg) (a : Mat 4 4 α) (v : Vec 3 α) :
    a.mulVecHom cfg v = .ok (Vector.ofFn fun i : Fin 3 => ((0 : α) + v[0] * a.get i.castSucc 0 + v[1] * a.get i.castSucc 1 + v[2] * a.get i.castSucc 2 + a.get i.castSucc 3) /
      ((0 : α) + v[0] * a.get 3 0 + v[1] * a.get 3 1 + v[2] * a.get 3 2 + a.get 3 3)) := by
  refine Mat.hom_spec cfg a v (fun r => (0 : α) + v[0] * a.get r 0 + v[1] * a.get r 1 + v[2] * a.get r 2) fun r => ?_
  have hr := r.2
  rw [loop_succ, loop_succ, loop_succ, loop_zero]
  simp only [Vec.atGet_lt cfg v (by decide : 0 < 3), Vec.atGet_lt cfg v (by decide : 1 < 3), Vec.atGet_lt cfg v (by decide : 2 < 3), Mat.atGet_lt cfg a hr (by decide : 0 < 4),
    Mat.atGet_lt cfg a hr (by decide : 1 < 4), Mat.atGet_lt cfg a hr (by decide : 2 < 4), Vmml.bind_ok, pure_ok]
  rfl

/-- The matrix has the entries of the identity except for the last column of the first three rows, which has the values `t`. -/
def Spec.IsTranslation (m : Mat 4 4 (Fp F)) (t : Fin 3 → ℝ) : Prop :=
  ∀ r c : Fin 4, (m.get r c).Finite ∧ (m.get r c).val = if h : c = 3 ∧ r.1 < 3 then t ⟨r.1, h.2⟩ else if r = c then 1 else 0

/-- The matrix is diagonal with the values `s` and 1. -/
def Spec.IsScaling (m : Mat 4 4 (Fp F)) (s : Fin 3 → ℝ) : Prop :=
  ∀ r c : Fin 4, (m.get r c).Finite ∧ (m.get r c).val = if r = c then (if h : r.1 < 3 then s ⟨r.1, h⟩ else 1) else 0

private theorem translation_is (h0 : 0 < F.emax) (t : Vec 3 (Fp F)) (ht : ∀ i : Fin 3, t[i].Finite) :
    Spec.IsTranslation ((ofFn fun r c => if r = c then 1 else 0 : Mat 4 4 (Fp F)).setTranslation t) fun i => t[i].val := by
  intro r c
  rw [setTranslation_get]
  split_ifs with h h'
  · exact ⟨ht ⟨r.1, h.2⟩, rfl⟩
  · rw [get_ofFn, if_pos h']; exact Is.one h0
  · rw [get_ofFn, if_neg h']; exact Is.zero

private theorem scale_entry [Mul α] (m : Mat 4 4 α) (s : Vec 3 α) (r c : Fin 4) : (m.scale s).get r c = if h : c.1 < 3 then m.get r c * s[c.1] else m.get r c := by
  fin_cases r <;> fin_cases c <;> simp [Mat.get, Mat.scale, Vector.getElem_set]

private theorem scaling_is (h0 : 0 < F.emax) (s : Vec 3 (Fp F)) (hs : ∀ i : Fin 3, s[i].Finite) :
    Spec.IsScaling ((ofFn fun r c => if r = c then 1 else 0 : Mat 4 4 (Fp F)).scale s) fun i => s[i].val := by
  intro r c
  rw [scale_entry, get_ofFn]
  by_cases hrc : r = c
  · rw [if_pos hrc, if_pos hrc]
    subst hrc
    split_ifs with h
    · rw [Fp.mul_comm']
      exact (Is.of (hs ⟨r.1, h⟩)).mul1 h0 (Is.one h0)
    · exact Is.one h0
  · rw [if_neg hrc, if_neg hrc]
    split_ifs with h
    · rw [Fp.mul_comm']
      exact (Is.of (hs ⟨c.1, h⟩)).mul0 h0 Is.zero
    · exact Is.zero

private theorem tr_zero {m : Mat 4 4 (Fp F)} {t : Fin 3 → ℝ} (hm : Spec.IsTranslation m t) (r c : Fin 4) (hc : c ≠ 3) (h : r ≠ c) : Is (m.get r c) 0 := by
  have := hm r c
  rwa [dif_neg (by tauto), if_neg h] at this
private theorem tr_one {m : Mat 4 4 (Fp F)} {t : Fin 3 → ℝ} (hm : Spec.IsTranslation m t) (r : Fin 4) : Is (m.get r r) 1 := by
  have := hm r r
  rwa [dif_neg (by rintro ⟨rfl, h⟩; exact absurd h (by decide)), if_pos rfl] at this
private theorem tr_last {m : Mat 4 4 (Fp F)} {t : Fin 3 → ℝ} (hm : Spec.IsTranslation m t) (r : Fin 3) : Is (m.get r.castSucc 3) (t r) := by
  have := hm r.castSucc 3
  rwa [dif_pos ⟨rfl, r.2⟩] at this
private theorem sc_zero {m : Mat 4 4 (Fp F)} {t : Fin 3 → ℝ} (hm : Spec.IsScaling m t) (r c : Fin 4) (h : r ≠ c) : Is (m.get r c) 0 := by
  have := hm r c
  rwa [if_neg h] at this
private theorem sc_one {m : Mat 4 4 (Fp F)} {t : Fin 3 → ℝ} (hm : Spec.IsScaling m t) : Is (m.get 3 3) 1 := by
  have := hm 3 3
  rwa [if_pos rfl, dif_neg (by decide)] at this
private theorem sc_diag {m : Mat 4 4 (Fp F)} {t : Fin 3 → ℝ} (hm : Spec.IsScaling m t) (r : Fin 3) : Is (m.get r.castSucc r.castSucc) (t r) := by
  have := hm r.castSucc r.castSucc
  rw [if_pos rfl, dif_pos (show r.castSucc.1 < 3 from r.2)] at this
  exact this

/-- **C146** Moving a point with a matrix that is a translation, such as `create_translation` makes, is the component-wise sum, rounded once: the zeros, the ones and the homogeneous division add no error. -/
theorem C146_translate_point (h0 : 0 < F.emax) (cfg : Cfg) (m : Mat 4 4 (Fp F)) {t : Fin 3 → ℝ} (hm : Spec.IsTranslation m t) (p : Vec 3 (Fp F)) (hp : ∀ i : Fin 3, p[i].Finite)
    (hroom : ∀ i : Fin 3, |p[i].val + t i| ≤ F.maxFinite) :
    ∃ q, m.mulVecHom cfg p = .ok q ∧ ∀ i : Fin 3, q[i].Finite ∧ q[i].val = F.rnd (p[i].val + t i) := by
  refine ⟨_, hom3 cfg m p, ?_⟩
  have p0 : Is p[0] p[0].val := Is.of (hp 0)
  have p1 : Is p[1] p[1].val := Is.of (hp 1)
  have p2 : Is p[2] p[2].val := Is.of (hp 2)
  have z0 : Is ((0 : Fp F) + p[0] * m.get 3 0 + p[1] * m.get 3 1 + p[2] * m.get 3 2 + m.get 3 3) 1 :=
    Is.zadd h0 (Is.add0 h0 (Is.add0 h0 (Is.add0 h0 Is.zero (p0.mul0 h0 (tr_zero hm 3 0 (by decide) (by decide)))) (p1.mul0 h0 (tr_zero hm 3 1 (by decide) (by decide)))) (p2.mul0 h0 (tr_zero hm 3 2 (by decide) (by decide)))) (tr_one hm 3)
  have key : ∀ i : Fin 3, Is (((0 : Fp F) + p[0] * m.get i.castSucc 0 + p[1] * m.get i.castSucc 1 + p[2] * m.get i.castSucc 2 + m.get i.castSucc 3) /
      ((0 : Fp F) + p[0] * m.get 3 0 + p[1] * m.get 3 1 + p[2] * m.get 3 2 + m.get 3 3)) (F.rnd (p[i].val + t i)) := by
    intro i
    refine Is.div1 h0 ?_ z0
    fin_cases i
    · exact Is.add h0 (Is.add0 h0 (Is.add0 h0 (Is.zadd h0 Is.zero (p0.mul1 h0 (tr_one hm 0))) (p1.mul0 h0 (tr_zero hm 0 1 (by decide) (by decide)))) (p2.mul0 h0 (tr_zero hm 0 2 (by decide) (by decide)))) (tr_last hm 0) (hroom 0)
    · exact Is.add h0 (Is.add0 h0 (Is.zadd h0 (Is.zadd h0 Is.zero (p0.mul0 h0 (tr_zero hm 1 0 (by decide) (by decide)))) (p1.mul1 h0 (tr_one hm 1))) (p2.mul0 h0 (tr_zero hm 1 2 (by decide) (by decide)))) (tr_last hm 1) (hroom 1)
    · exact Is.add h0 (Is.zadd h0 (Is.zadd h0 (Is.zadd h0 Is.zero (p0.mul0 h0 (tr_zero hm 2 0 (by decide) (by decide)))) (p1.mul0 h0 (tr_zero hm 2 1 (by decide) (by decide)))) (p2.mul1 h0 (tr_one hm 2))) (tr_last hm 2) (hroom 2)
  intro i
  have := key i
  simp only [Fin.getElem_fin, Vector.getElem_ofFn] at this ⊢
  exact this

/-- **C146** Scaling a point with a diagonal matrix, such as `create_scaling` makes, is the component-wise product, rounded once. -/
theorem C146_scale_point (h0 : 0 < F.emax) (cfg : Cfg) (m : Mat 4 4 (Fp F)) {s : Fin 3 → ℝ} (hm : Spec.IsScaling m s) (p : Vec 3 (Fp F)) (hp : ∀ i : Fin 3, p[i].Finite)
    (hroom : ∀ i : Fin 3, |p[i].val * s i| ≤ F.maxFinite) :
    ∃ q, m.mulVecHom cfg p = .ok q ∧ ∀ i : Fin 3, q[i].Finite ∧ q[i].val = F.rnd (p[i].val * s i) := by
  refine ⟨_, hom3 cfg m p, ?_⟩
  have p0 : Is p[0] p[0].val := Is.of (hp 0)
  have p1 : Is p[1] p[1].val := Is.of (hp 1)
  have p2 : Is p[2] p[2].val := Is.of (hp 2)
  have z0 : Is ((0 : Fp F) + p[0] * m.get 3 0 + p[1] * m.get 3 1 + p[2] * m.get 3 2 + m.get 3 3) 1 :=
    Is.zadd h0 (Is.add0 h0 (Is.add0 h0 (Is.add0 h0 Is.zero (p0.mul0 h0 (sc_zero hm 3 0 (by decide)))) (p1.mul0 h0 (sc_zero hm 3 1 (by decide)))) (p2.mul0 h0 (sc_zero hm 3 2 (by decide)))) (sc_one hm)
  have key : ∀ i : Fin 3, Is (((0 : Fp F) + p[0] * m.get i.castSucc 0 + p[1] * m.get i.castSucc 1 + p[2] * m.get i.castSucc 2 + m.get i.castSucc 3) /
      ((0 : Fp F) + p[0] * m.get 3 0 + p[1] * m.get 3 1 + p[2] * m.get 3 2 + m.get 3 3)) (F.rnd (p[i].val * s i)) := by
    intro i
    refine Is.div1 h0 ?_ z0
    fin_cases i
    · exact Is.add0 h0 (Is.add0 h0 (Is.add0 h0 (Is.zadd h0 Is.zero (p0.mul h0 (sc_diag hm 0) (hroom 0))) (p1.mul0 h0 (sc_zero hm 0 1 (by decide)))) (p2.mul0 h0 (sc_zero hm 0 2 (by decide)))) (sc_zero hm 0 3 (by decide))
    · exact Is.add0 h0 (Is.add0 h0 (Is.zadd h0 (Is.zadd h0 Is.zero (p0.mul0 h0 (sc_zero hm 1 0 (by decide)))) (p1.mul h0 (sc_diag hm 1) (hroom 1))) (p2.mul0 h0 (sc_zero hm 1 2 (by decide)))) (sc_zero hm 1 3 (by decide))
    · exact Is.add0 h0 (Is.zadd h0 (Is.zadd h0 (Is.zadd h0 Is.zero (p0.mul0 h0 (sc_zero hm 2 0 (by decide)))) (p1.mul0 h0 (sc_zero hm 2 1 (by decide)))) (p2.mul h0 (sc_diag hm 2) (hroom 2))) (sc_zero hm 2 3 (by decide))
  intro i
  have := key i
  simp only [Fin.getElem_fin, Vector.getElem_ofFn] at this ⊢
  exact this

/-- **C146** `create_translation( t )` and both `create_scaling`s make exactly the matrices they should, for every finite argument. -/
theorem C146_create (h0 : 0 < F.emax) (cfg : Cfg) (t : Vec 3 (Fp F)) (ht : ∀ i : Fin 3, t[i].Finite) (k : Fp F) (hk : k.Finite) :
    (∃ m, createTranslation cfg t = .ok m ∧ Spec.IsTranslation m fun i => t[i].val) ∧ (∃ m, createScaling cfg t = .ok m ∧ Spec.IsScaling m fun i => t[i].val) ∧
      ∃ m, createScalingS cfg k = .ok m ∧ Spec.IsScaling m fun _ => k.val := by
  refine ⟨⟨_, translation_eq cfg t, translation_is h0 t ht⟩, ⟨_, scaling_eq cfg t, scaling_is h0 t ht⟩, ?_⟩
  refine ⟨_, by unfold createScalingS; rw [Vec.fill_eq, bind_ok, scaling_eq], ?_⟩
  have := scaling_is h0 (Vector.replicate 3 k) (fun i => by simpa using hk)
  simpa using this

/-- **C146** `create_rotation` is `rotate` (C142) on any matrix. -/
theorem C146_create_rotation [CMath (Fp F)] (cfg : Cfg) (m : Mat 4 4 (Fp F)) (θ : Fp F) (n : Vec 3 (Fp F)) : createRotation cfg θ n = .ok (m.rotate θ n) := by
  simp only [createRotation, ctor_eq, bind_ok, identity_eq, pure_ok]
  rw [C142_overwrites]

private theorem mul4 [Zero α] [Add α] [Mul α] (cfg : Cfg) (a b : Mat 4 4 α) :
    a.mulAssign cfg b = .ok (ofFn fun r c => 0 + a.get r 0 * b.get 0 c + a.get r 1 * b.get 1 c + a.get r 2 * b.get 2 c + a.get r 3 * b.get 3 c) := by
  rw [mulAssign, Mat.multiply_iter]
  rfl

private theorem apply_eq [Zero α] [One α] [Add α] [Mul α] (cfg : Cfg) (m : Mat 4 4 α) (t : Vec 3 α) :
    applyTranslation cfg m t[0] t[1] t[2] = m.mulAssign cfg ((ofFn fun r c => if r = c then 1 else 0 : Mat 4 4 α).setTranslation t) := by
  have ht : #v[t[0], t[1], t[2]] = t := vec3_ext rfl rfl rfl
  simp only [applyTranslation, set3_eq, bind_ok, ht, translation_eq]

/-- **C146** `apply_translation` to a matrix of finite numbers leaves the first three columns exactly as they were, whatever the translation, and the last column of a row becomes the computed
`m_r0 t_0 + m_r1 t_1 + m_r2 t_2 + m_r3`, accurate as a sum of four products (C108), if that leaves room below the largest number. -/
theorem C146_apply_translation (h0 : 0 < F.emax) (hu : 4 * F.u < 1) (cfg : Cfg) (m : Mat 4 4 (Fp F)) (hm : ∀ r c, (m.get r c).Finite) (t : Vec 3 (Fp F)) (ht : ∀ i : Fin 3, t[i].Finite) :
    ∃ m', applyTranslation cfg m t[0] t[1] t[2] = .ok m' ∧
      (∀ r c : Fin 4, c ≠ 3 → (m'.get r c).Finite ∧ (m'.get r c).val = (m.get r c).val) ∧
      ∀ r : Fin 4, |(m.get r 0).val * t[0].val| + |(m.get r 1).val * t[1].val| + |(m.get r 2).val * t[2].val| + |(m.get r 3).val| + 4 * F.eta ≤ (1 - 4 * F.u) * F.maxFinite →
        (m'.get r 3).Finite ∧ |(m'.get r 3).val - ((m.get r 0).val * t[0].val + (m.get r 1).val * t[1].val + (m.get r 2).val * t[2].val + (m.get r 3).val)| ≤
          Spec.accErr F 4 (|(m.get r 0).val * t[0].val| + |(m.get r 1).val * t[1].val| + |(m.get r 2).val * t[2].val| + |(m.get r 3).val|) := by
  have hT := translation_is h0 t ht
  obtain ⟨T, hTe⟩ : ∃ T, T = (ofFn fun r c => if r = c then 1 else 0 : Mat 4 4 (Fp F)).setTranslation t := ⟨_, rfl⟩
  rw [apply_eq, ← hTe]
  rw [← hTe] at hT
  refine ⟨_, mul4 cfg m T, fun r c hc => ?_, fun r hr => ?_⟩
  · rw [get_ofFn]
    have a0 := Is.of (hm r 0)
    have a1 := Is.of (hm r 1)
    have a2 := Is.of (hm r 2)
    have a3 := Is.of (hm r 3)
    have z : ∀ i j : Fin 4, j ≠ 3 → i ≠ j → Is (T.get i j) 0 := tr_zero hT
    have o : ∀ j : Fin 4, j ≠ 3 → Is (T.get j j) 1 := fun j _ => tr_one hT j
    fin_cases c
    · exact Is.add0 h0 (Is.add0 h0 (Is.add0 h0 (Is.zadd h0 Is.zero (a0.mul1 h0 (o 0 hc))) (a1.mul0 h0 (z 1 0 hc (by decide)))) (a2.mul0 h0 (z 2 0 hc (by decide)))) (a3.mul0 h0 (z 3 0 hc (by decide)))
    · exact Is.add0 h0 (Is.add0 h0 (Is.zadd h0 (Is.zadd h0 Is.zero (a0.mul0 h0 (z 0 1 hc (by decide)))) (a1.mul1 h0 (o 1 hc))) (a2.mul0 h0 (z 2 1 hc (by decide)))) (a3.mul0 h0 (z 3 1 hc (by decide)))
    · exact Is.add0 h0 (Is.zadd h0 (Is.zadd h0 (Is.zadd h0 Is.zero (a0.mul0 h0 (z 0 2 hc (by decide)))) (a1.mul0 h0 (z 1 2 hc (by decide)))) (a2.mul1 h0 (o 2 hc))) (a3.mul0 h0 (z 3 2 hc (by decide)))
    · exact absurd rfl hc
  · obtain ⟨m', e, h⟩ := C108_matrix_product h0 cfg m T (by exact_mod_cast hu)
    have e' : m' = ofFn fun r c => 0 + m.get r 0 * T.get 0 c + m.get r 1 * T.get 1 c + m.get r 2 * T.get 2 c + m.get r 3 * T.get 3 c := by
      rw [Mat.mul, ctor_eq, bind_ok, Mat.multiply_iter] at e
      exact (Except.ok.inj e).symm
    rw [← e']
    obtain ⟨h1, h2⟩ := h r 3
    have v0 : (T.get 0 3).val = t[0].val := (tr_last hT 0).2
    have v1 : (T.get 1 3).val = t[1].val := (tr_last hT 1).2
    have v2 : (T.get 2 3).val = t[2].val := (tr_last hT 2).2
    have v3 : (T.get 3 3).val = 1 := (tr_one hT 3).2
    rw [Fin.sum_univ_four, v0, v1, v2, v3, mul_one] at h2
    have f := h2 (fun p => ⟨hm r p, (hT p 3).1⟩) (by exact_mod_cast hr)
    have g := (h1 f).2
    rw [Fin.sum_univ_four, Fin.sum_univ_four, v0, v1, v2, v3, mul_one] at g
    exact ⟨f, g⟩

/-- **C146** Applying one translation after another to the identity adds the vectors, each component rounded once. -/
theorem C146_translations_add (h0 : 0 < F.emax) (cfg : Cfg) (m : Mat 4 4 (Fp F)) {a : Fin 3 → ℝ} (hm : Spec.IsTranslation m a) (t : Vec 3 (Fp F)) (ht : ∀ i : Fin 3, t[i].Finite)
    (hroom : ∀ i : Fin 3, |t[i].val + a i| ≤ F.maxFinite) :
    ∃ m', applyTranslation cfg m t[0] t[1] t[2] = .ok m' ∧ Spec.IsTranslation m' fun i => F.rnd (t[i].val + a i) := by
  have hT := translation_is h0 t ht
  obtain ⟨T, hTe⟩ : ∃ T, T = (ofFn fun r c => if r = c then 1 else 0 : Mat 4 4 (Fp F)).setTranslation t := ⟨_, rfl⟩
  rw [apply_eq, ← hTe]
  rw [← hTe] at hT
  refine ⟨_, mul4 cfg m T, fun r c => ?_⟩
  rw [get_ofFn]
  have one : ∀ (x y : Fp F) (v : ℝ), Is x 1 → Is y v → Is (x * y) v := fun x y v hx hy => by rw [Fp.mul_comm']; exact hy.mul1 h0 hx
  have zer : ∀ (x y : Fp F) (v : ℝ), Is x 0 → Is y v → Is (x * y) 0 := fun x y v hx hy => by rw [Fp.mul_comm']; exact hy.mul0 h0 hx
  have z : ∀ (x y : Fp F), Is x 0 → Is y 0 → Is (x + y) 0 := fun x y hx hy => hx.add0 h0 hy
  fin_cases r <;> fin_cases c
  · exact Is.add0 h0 (Is.add0 h0 (Is.add0 h0 (Is.zadd h0 Is.zero (one _ _ _ (tr_one hm 0) (tr_one hT 0))) (zer _ _ _ (tr_zero hm 0 1 (by decide) (by decide)) (tr_zero hT 1 0 (by decide) (by decide)))) (zer _ _ _ (tr_zero hm 0 2 (by decide) (by decide)) (tr_zero hT 2 0 (by decide) (by decide)))) ((tr_last hm 0).mul0 h0 (tr_zero hT 3 0 (by decide) (by decide)))
  · exact Is.add0 h0 (Is.add0 h0 (Is.add0 h0 (Is.zadd h0 Is.zero ((tr_one hm 0).mul0 h0 (tr_zero hT 0 1 (by decide) (by decide)))) (zer _ _ _ (tr_zero hm 0 1 (by decide) (by decide)) (tr_one hT 1))) (zer _ _ _ (tr_zero hm 0 2 (by decide) (by decide)) (tr_zero hT 2 1 (by decide) (by decide)))) ((tr_last hm 0).mul0 h0 (tr_zero hT 3 1 (by decide) (by decide)))
  · exact Is.add0 h0 (Is.add0 h0 (Is.add0 h0 (Is.zadd h0 Is.zero ((tr_one hm 0).mul0 h0 (tr_zero hT 0 2 (by decide) (by decide)))) (zer _ _ _ (tr_zero hm 0 1 (by decide) (by decide)) (tr_zero hT 1 2 (by decide) (by decide)))) (zer _ _ _ (tr_zero hm 0 2 (by decide) (by decide)) (tr_one hT 2))) ((tr_last hm 0).mul0 h0 (tr_zero hT 3 2 (by decide) (by decide)))
  · exact Is.add h0 (Is.add0 h0 (Is.add0 h0 (Is.zadd h0 Is.zero (one _ _ _ (tr_one hm 0) (tr_last hT 0))) (zer _ _ _ (tr_zero hm 0 1 (by decide) (by decide)) (tr_last hT 1))) (zer _ _ _ (tr_zero hm 0 2 (by decide) (by decide)) (tr_last hT 2))) ((tr_last hm 0).mul1 h0 (tr_one hT 3)) (hroom 0)
  · exact Is.add0 h0 (Is.add0 h0 (Is.add0 h0 (Is.zadd h0 Is.zero (zer _ _ _ (tr_zero hm 1 0 (by decide) (by decide)) (tr_one hT 0))) ((tr_one hm 1).mul0 h0 (tr_zero hT 1 0 (by decide) (by decide)))) (zer _ _ _ (tr_zero hm 1 2 (by decide) (by decide)) (tr_zero hT 2 0 (by decide) (by decide)))) ((tr_last hm 1).mul0 h0 (tr_zero hT 3 0 (by decide) (by decide)))
  · exact Is.add0 h0 (Is.add0 h0 (Is.zadd h0 (Is.zadd h0 Is.zero (zer _ _ _ (tr_zero hm 1 0 (by decide) (by decide)) (tr_zero hT 0 1 (by decide) (by decide)))) (one _ _ _ (tr_one hm 1) (tr_one hT 1))) (zer _ _ _ (tr_zero hm 1 2 (by decide) (by decide)) (tr_zero hT 2 1 (by decide) (by decide)))) ((tr_last hm 1).mul0 h0 (tr_zero hT 3 1 (by decide) (by decide)))
  · exact Is.add0 h0 (Is.add0 h0 (Is.add0 h0 (Is.zadd h0 Is.zero (zer _ _ _ (tr_zero hm 1 0 (by decide) (by decide)) (tr_zero hT 0 2 (by decide) (by decide)))) ((tr_one hm 1).mul0 h0 (tr_zero hT 1 2 (by decide) (by decide)))) (zer _ _ _ (tr_zero hm 1 2 (by decide) (by decide)) (tr_one hT 2))) ((tr_last hm 1).mul0 h0 (tr_zero hT 3 2 (by decide) (by decide)))
  · exact Is.add h0 (Is.add0 h0 (Is.zadd h0 (Is.zadd h0 Is.zero (zer _ _ _ (tr_zero hm 1 0 (by decide) (by decide)) (tr_last hT 0))) (one _ _ _ (tr_one hm 1) (tr_last hT 1))) (zer _ _ _ (tr_zero hm 1 2 (by decide) (by decide)) (tr_last hT 2))) ((tr_last hm 1).mul1 h0 (tr_one hT 3)) (hroom 1)
  · exact Is.add0 h0 (Is.add0 h0 (Is.add0 h0 (Is.zadd h0 Is.zero (zer _ _ _ (tr_zero hm 2 0 (by decide) (by decide)) (tr_one hT 0))) (zer _ _ _ (tr_zero hm 2 1 (by decide) (by decide)) (tr_zero hT 1 0 (by decide) (by decide)))) ((tr_one hm 2).mul0 h0 (tr_zero hT 2 0 (by decide) (by decide)))) ((tr_last hm 2).mul0 h0 (tr_zero hT 3 0 (by decide) (by decide)))
  · exact Is.add0 h0 (Is.add0 h0 (Is.add0 h0 (Is.zadd h0 Is.zero (zer _ _ _ (tr_zero hm 2 0 (by decide) (by decide)) (tr_zero hT 0 1 (by decide) (by decide)))) (zer _ _ _ (tr_zero hm 2 1 (by decide) (by decide)) (tr_one hT 1))) ((tr_one hm 2).mul0 h0 (tr_zero hT 2 1 (by decide) (by decide)))) ((tr_last hm 2).mul0 h0 (tr_zero hT 3 1 (by decide) (by decide)))
  · exact Is.add0 h0 (Is.zadd h0 (Is.zadd h0 (Is.zadd h0 Is.zero (zer _ _ _ (tr_zero hm 2 0 (by decide) (by decide)) (tr_zero hT 0 2 (by decide) (by decide)))) (zer _ _ _ (tr_zero hm 2 1 (by decide) (by decide)) (tr_zero hT 1 2 (by decide) (by decide)))) (one _ _ _ (tr_one hm 2) (tr_one hT 2))) ((tr_last hm 2).mul0 h0 (tr_zero hT 3 2 (by decide) (by decide)))
  · exact Is.add h0 (Is.zadd h0 (Is.zadd h0 (Is.zadd h0 Is.zero (zer _ _ _ (tr_zero hm 2 0 (by decide) (by decide)) (tr_last hT 0))) (zer _ _ _ (tr_zero hm 2 1 (by decide) (by decide)) (tr_last hT 1))) (one _ _ _ (tr_one hm 2) (tr_last hT 2))) ((tr_last hm 2).mul1 h0 (tr_one hT 3)) (hroom 2)
  · exact Is.add0 h0 (Is.add0 h0 (Is.add0 h0 (Is.zadd h0 Is.zero (zer _ _ _ (tr_zero hm 3 0 (by decide) (by decide)) (tr_one hT 0))) (zer _ _ _ (tr_zero hm 3 1 (by decide) (by decide)) (tr_zero hT 1 0 (by decide) (by decide)))) (zer _ _ _ (tr_zero hm 3 2 (by decide) (by decide)) (tr_zero hT 2 0 (by decide) (by decide)))) ((tr_one hm 3).mul0 h0 (tr_zero hT 3 0 (by decide) (by decide)))
  · exact Is.add0 h0 (Is.add0 h0 (Is.add0 h0 (Is.zadd h0 Is.zero (zer _ _ _ (tr_zero hm 3 0 (by decide) (by decide)) (tr_zero hT 0 1 (by decide) (by decide)))) (zer _ _ _ (tr_zero hm 3 1 (by decide) (by decide)) (tr_one hT 1))) (zer _ _ _ (tr_zero hm 3 2 (by decide) (by decide)) (tr_zero hT 2 1 (by decide) (by decide)))) ((tr_one hm 3).mul0 h0 (tr_zero hT 3 1 (by decide) (by decide)))
  · exact Is.add0 h0 (Is.add0 h0 (Is.add0 h0 (Is.zadd h0 Is.zero (zer _ _ _ (tr_zero hm 3 0 (by decide) (by decide)) (tr_zero hT 0 2 (by decide) (by decide)))) (zer _ _ _ (tr_zero hm 3 1 (by decide) (by decide)) (tr_zero hT 1 2 (by decide) (by decide)))) (zer _ _ _ (tr_zero hm 3 2 (by decide) (by decide)) (tr_one hT 2))) ((tr_one hm 3).mul0 h0 (tr_zero hT 3 2 (by decide) (by decide)))
  · exact Is.zadd h0 (Is.add0 h0 (Is.add0 h0 (Is.add0 h0 Is.zero (zer _ _ _ (tr_zero hm 3 0 (by decide) (by decide)) (tr_last hT 0))) (zer _ _ _ (tr_zero hm 3 1 (by decide) (by decide)) (tr_last hT 1))) (zer _ _ _ (tr_zero hm 3 2 (by decide) (by decide)) (tr_last hT 2))) (one _ _ _ (tr_one hm 3) (tr_one hT 3))

/-- The hypotheses can be met: two `float` translations by 1 along the diagonal, and a point. -/
example (cfg : Cfg) : ∃ m m' q, createTranslation cfg (#v[1, 1, 1] : Vec 3 (Fp Format.single)) = .ok m ∧ applyTranslation cfg m 1 1 1 = .ok m' ∧
    m'.mulVecHom cfg (#v[1, 0, 0] : Vec 3 (Fp Format.single)) = .ok q ∧ q[0].val = 3 := by
  have h1 := Fp.one_fin (F := Format.single) (by decide)
  have hmax : (2 : ℝ) ^ ((Format.single.emax : Int)) ≤ Format.single.maxFinite := pow_emax_le
  have big : (8 : ℝ) ≤ Format.single.maxFinite := by
    refine le_trans ?_ hmax
    show _ ≤ (2 : ℝ) ^ (127 : Int)
    norm_num
  have hf : ∀ i : Fin 3, ((#v[1, 1, 1] : Vec 3 (Fp Format.single))[i]).Finite ∧ ((#v[1, 1, 1] : Vec 3 (Fp Format.single))[i]).val = 1 := fun i => by
    fin_cases i <;> exact h1
  have r2 : Format.single.rnd 2 = 2 := Rep.rnd_eq ⟨2, 0, by decide, by norm_num [Format.single], by norm_num⟩
  have r3 : Format.single.rnd 3 = 3 := Rep.rnd_eq ⟨3, 0, by decide, by norm_num [Format.single], by norm_num⟩
  obtain ⟨⟨m, a1, a2⟩, -, -⟩ := C146_create (F := Format.single) (by decide) cfg #v[1, 1, 1] (fun i => (hf i).1) 1 h1.1
  obtain ⟨m', b1, b2⟩ := C146_translations_add (F := Format.single) (by decide) cfg m a2 #v[1, 1, 1] (fun i => (hf i).1) (fun i => by rw [(hf i).2]; norm_num; linarith)
  obtain ⟨q, c1, c2⟩ := C146_translate_point (F := Format.single) (by decide) cfg m' b2 (#v[1, 0, 0]) (fun i => by fin_cases i <;> first | exact h1.1 | exact Fp.finite_zero) (fun i => by
    rw [(hf i).2, show (1 : ℝ) + 1 = 2 by norm_num, r2]
    fin_cases i
    · show |(1 : Fp Format.single).val + 2| ≤ _
      rw [h1.2]; norm_num; linarith
    · show |(0 : Fp Format.single).val + 2| ≤ _
      rw [Fp.val_zero]; norm_num; linarith
    · show |(0 : Fp Format.single).val + 2| ≤ _
      rw [Fp.val_zero]; norm_num; linarith)
  refine ⟨m, m', q, a1, b1, c1, ?_⟩
  have := (c2 0).2
  rw [(hf 0).2, show (1 : ℝ) + 1 = 2 by norm_num, r2] at this
  have e : ((#v[1, 0, 0] : Vec 3 (Fp Format.single))[(0 : Fin 3)]).val = 1 := h1.2
  rw [e, show (1 : ℝ) + 2 = 3 by norm_num, r3] at this
  exact this

end Vmml
