import Verif.Props.FloatPythag
import Verif.Props.FloatSetup

/-!
# C125: which algebraic laws hold exactly in IEEE 754 arithmetic
-/

namespace Vmml
open Format
variable {F : Format} {M N P : Nat}

/-! ## The scalar operations -/

theorem Fp.add_comm' (a b : Fp F) : a + b = b + a := by
  cases a with
  | nan => cases b <;> rfl
  | inf s => cases b with
    | nan => rfl
    | inf t =>
      show (if s = t then (.inf s : Fp F) else .nan) = if t = s then .inf t else .nan
      by_cases h : s = t
      · subst h; rfl
      · rw [if_neg h, if_neg (Ne.symm h)]
    | fin t n hn => rfl
  | fin s m hm => cases b with
    | nan => rfl
    | inf t => rfl
    | fin t n hn =>
      show (if (Fp.fin s m hm).val + (Fp.fin t n hn).val = 0 then _ else _) = (if (Fp.fin t n hn).val + (Fp.fin s m hm).val = 0 then _ else _)
      simp only [add_comm (Fp.fin t n hn).val, Bool.and_comm t s]

theorem Fp.mul_comm' (a b : Fp F) : a * b = b * a := by
  cases a with
  | nan => cases b <;> rfl
  | inf s => cases b with
    | nan => rfl
    | inf t => show (.inf _ : Fp F) = .inf _; rw [Bool.xor_comm]
    | fin t n hn => show (if n = 0 then (.nan : Fp F) else .inf _) = if n = 0 then .nan else .inf _; rw [Bool.xor_comm]
  | fin s m hm => cases b with
    | nan => rfl
    | inf t => show (if m = 0 then (.nan : Fp F) else .inf _) = if m = 0 then .nan else .inf _; rw [Bool.xor_comm]
    | fin t n hn => show Fp.round _ _ = Fp.round _ _; rw [Bool.xor_comm, mul_comm]

theorem Fp.neg_mul_neg' (a b : Fp F) : -a * -b = a * b := by
  have e : ∀ s t : Bool, ((!s) ^^ (!t)) = (s ^^ t) := by decide
  cases a with
  | nan => cases b <;> rfl
  | inf s => cases b with
    | nan => rfl
    | inf t => show (.inf _ : Fp F) = .inf _; rw [e]
    | fin t n hn => show (if n = 0 then (.nan : Fp F) else .inf _) = if n = 0 then .nan else .inf _; rw [e]
  | fin s m hm => cases b with
    | nan => rfl
    | inf t => show (if m = 0 then (.nan : Fp F) else .inf _) = if m = 0 then .nan else .inf _; rw [e]
    | fin t n hn => show Fp.round _ _ = Fp.round _ _; rw [e]

theorem Fp.neg_round (s : Bool) (x : ℝ) : -(Fp.round s x : Fp F) = Fp.round (!s) x := by
  unfold Fp.round
  split_ifs <;> rfl

theorem Fp.neg_mul' (a b : Fp F) : -a * b = -(a * b) := by
  have e : ∀ s t : Bool, ((!s) ^^ t) = !(s ^^ t) := by decide
  cases a with
  | nan => cases b <;> rfl
  | inf s => cases b with
    | nan => rfl
    | inf t => show (.inf _ : Fp F) = .inf _; rw [e]
    | fin t n hn =>
      show (if n = 0 then (.nan : Fp F) else .inf _) = -(if n = 0 then .nan else .inf _)
      split_ifs
      · rfl
      · show (.inf _ : Fp F) = .inf _; rw [e]
  | fin s m hm => cases b with
    | nan => rfl
    | inf t =>
      show (if m = 0 then (.nan : Fp F) else .inf _) = -(if m = 0 then .nan else .inf _)
      split_ifs
      · rfl
      · show (.inf _ : Fp F) = .inf _; rw [e]
    | fin t n hn => show Fp.round _ _ = -Fp.round _ _; rw [e, Fp.neg_round]

/-- The reversed difference is the negated one, except that a zero difference is `+0` both ways. -/
theorem Fp.sub_swap (a b : Fp F) : b - a = -(a - b) ∨ (∃ s t, a - b = .fin s 0 mag_zero ∧ b - a = .fin t 0 mag_zero) := by
  cases a with
  | nan => left; cases b <;> rfl
  | inf s => cases b with
    | nan => left; rfl
    | inf t =>
      left
      show (if t = !s then (.inf t : Fp F) else .nan) = -(if s = !t then .inf s else .nan)
      cases s <;> cases t <;> rfl
    | fin t n hn => left; rfl
  | fin s m hm => cases b with
    | nan => left; rfl
    | inf t =>
      left
      show (.inf t : Fp F) = .inf _
      rw [Bool.not_not]
    | fin t n hn =>
      have e : ∀ (s : Bool) m hm, (Fp.fin (!s) m hm : Fp F).val = -(Fp.fin s m hm : Fp F).val := by intro s m hm; cases s <;> simp
      obtain ⟨x, hx⟩ : ∃ x, x = (Fp.fin s m hm).val + (Fp.fin (!t) n hn).val := ⟨_, rfl⟩
      have hy : (Fp.fin t n hn).val + (Fp.fin (!s) m hm).val = -x := by rw [hx, e, e]; ring
      have e1 : (Fp.fin s m hm - Fp.fin t n hn : Fp F) = if x = 0 then .fin (s && !t) 0 mag_zero else .round (@decide (x < 0) (Classical.propDecidable _)) |x| := by rw [hx]; rfl
      have e2 : (Fp.fin t n hn - Fp.fin s m hm : Fp F) = if -x = 0 then .fin (t && !s) 0 mag_zero else .round (@decide (-x < 0) (Classical.propDecidable _)) |-x| := by rw [← hy]; rfl
      by_cases h0 : x = 0
      · right
        rw [if_pos h0] at e1
        rw [if_pos (by rw [h0, neg_zero])] at e2
        exact ⟨_, _, e1, e2⟩
      · left
        rw [if_neg h0] at e1
        rw [if_neg (by simpa using h0)] at e2
        rw [e1, e2, Fp.neg_round, abs_neg]
        congr 1
        rcases lt_or_gt_of_ne h0 with h | h
        · rw [@decide_eq_true _ (Classical.propDecidable _) h, @decide_eq_false _ (Classical.propDecidable _) (by linarith)]; rfl
        · rw [@decide_eq_true _ (Classical.propDecidable _) (show -x < 0 by linarith), @decide_eq_false _ (Classical.propDecidable _) (by linarith)]; rfl

theorem Fp.sub_sq (a b : Fp F) : (a - b) * (a - b) = (b - a) * (b - a) := by
  rcases Fp.sub_swap a b with h | ⟨s, t, h1, h2⟩
  · rw [h, Fp.neg_mul_neg']
  · rw [h1, h2]
    show Fp.round (s ^^ s) (0 * 0) = Fp.round (t ^^ t) (0 * 0)
    rw [Bool.xor_self, Bool.xor_self]

theorem rnd_mono {x y : ℝ} (h : x ≤ y) : F.rnd x ≤ F.rnd y := by
  by_contra hc
  rw [not_le] at hc
  rcases le_or_gt x (F.rnd y) with h1 | h1
  · exact absurd (rnd_le_rep (rnd_rep y) h1) (not_le.2 hc)
  rcases le_or_gt (F.rnd x) y with h2 | h2
  · exact absurd (rep_le_rnd (rnd_rep x) h2) (not_le.2 hc)
  have b1 := rnd_best y _ (rnd_rep (F := F) x)
  have b2 := rnd_best x _ (rnd_rep (F := F) y)
  rw [abs_of_neg (by linarith), abs_of_pos (by linarith)] at b1
  rw [abs_of_pos (by linarith), abs_of_neg (by linarith)] at b2
  have : x = y := by linarith
  subst this
  linarith

/-! ## Loops -/

theorem Vec.dot_iter [Zero α] [Add α] [Mul α] (cfg : Cfg) (v w : Vec M α) :
    v.dot cfg w = .ok (iter (fun i s => s + (if h : i < M then v[i] * w[i] else 0)) M 0) := by
  unfold Vec.dot
  apply loop_iter
  intro i hi s
  simp [hi]

theorem Vec.squaredLength_iter [Zero α] [Add α] [Mul α] (v : Vec M α) :
    v.squaredLength = .ok (iter (fun i s => s + (if h : i < M then v[i] * v[i] else 0)) M 0) := by
  unfold Vec.squaredLength
  apply loop_iter
  intro i hi s
  simp [hi]

theorem Mat.mulVec_iter [Zero α] [Add α] [Mul α] (cfg : Cfg) (a : Mat M N α) (v : Vec N α) :
    a.mulVec cfg v = .ok (Vector.ofFn fun r : Fin M => iter (fun i s => s + (if h : i < N then a.get r ⟨i, h⟩ * v[i] else 0)) N 0) := by
  unfold Mat.mulVec
  apply loop_set
  intro i hi w _
  rw [loop_iter (fun j s => s + (if h : j < N then a.get ⟨i, hi⟩ ⟨j, h⟩ * v[j] else 0)) (by intro j hj s; simp [hi, hj])]
  simp [hi]

/-- **C125** Commutativity, bit for bit and for all values, infinities and NaN included: `v + w`, `v * w` and `dot`. -/
theorem C125_commute (cfg : Cfg) (v w : Vec M (Fp F)) : v.add cfg w = w.add cfg v ∧ v.mul cfg w = w.mul cfg v ∧ v.dot cfg w = w.dot cfg v := by
  refine ⟨?_, ?_, ?_⟩
  · rw [Vec.add_eq, Vec.add_eq]; simp only [Fp.add_comm']
  · rw [Vec.mul_eq, Vec.mul_eq]
    congr 1; ext i hi; simp [Fp.mul_comm']
  · rw [Vec.dot_iter, Vec.dot_iter]
    congr 2
    funext i s
    split_ifs with h
    · rw [Fp.mul_comm']
    · rfl

/-- **C125** The transposed product is the product of the transposed matrices in the other order, bit for bit and for all values. -/
theorem C125_product_transpose (cfg : Cfg) (a : Mat M N (Fp F)) (b : Mat N P (Fp F)) :
    (do (← a.mul cfg b).transpose cfg) = (do (← b.transpose cfg).mul cfg (← a.transpose cfg)) := by
  rw [Mat.transpose_eq, Mat.transpose_eq]
  unfold Mat.mul
  simp only [Mat.ctor_eq, Vmml.bind_ok, Mat.multiply_iter, Mat.transpose_eq]
  congr 1
  ext r c
  simp only [Mat.get_ofFn]
  congr 1
  funext i s
  split_ifs with h
  · rw [Fp.mul_comm']
  · rfl

/-- **C125** Lengths do not see the sign of a vector, distances not the order of the points, bit for bit and for all values; and `normalize` of the opposite vector gives the opposite
components. -/
theorem C125_even (cfg : Cfg) (v w n : Vec M (Fp F)) (hn : v.negate = .ok n) :
    n.length = v.length ∧ v.distance cfg w = w.distance cfg v ∧ v.squaredDistance cfg w = w.squaredDistance cfg v ∧
      ∀ v' l, v.normalize cfg = .ok (v', l) → ∃ n', n.normalize cfg = .ok (n', l) ∧ ∀ i : Fin M, n'[i] = -v'[i] := by
  have e : n = Vector.ofFn fun i => -v[i] := by rw [Vec.negate_eq] at hn; exact (Except.ok.inj hn).symm
  have hl : n.length = v.length := by
    unfold Vec.length
    rw [Vec.squaredLength_iter, Vec.squaredLength_iter]
    simp only [Vmml.bind_ok]
    congr 3
    funext i s
    split_ifs with h
    · rw [e]; simp [Fp.neg_mul_neg']
    · rfl
  have hsq : v.squaredDistance cfg w = w.squaredDistance cfg v := by
    unfold Vec.squaredDistance
    rw [Vec.subAssign_eq, Vec.subAssign_eq, Vmml.bind_ok, Vmml.bind_ok, Vec.squaredLength_iter, Vec.squaredLength_iter]
    congr 2
    funext i s
    split_ifs with h
    · simp [Fp.sub_sq v[i]]
    · rfl
  refine ⟨hl, ?_, hsq, ?_⟩
  · unfold Vec.distance; rw [hsq]
  · intro v' l h
    unfold Vec.normalize at h ⊢
    rw [hl]
    have t := Vec.total_length v
    cases hlen : v.length with
    | error x => rw [hlen] at h; cases h
    | ok len =>
      rw [hlen, Vmml.bind_ok] at h
      rw [Vmml.bind_ok]
      by_cases hz : (len == 0) = true
      · rw [if_pos hz] at h ⊢
        have := Except.ok.inj h
        injection this with h1 h2
        subst h1 h2
        exact ⟨n, rfl, fun i => by rw [e]; simp⟩
      · rw [if_neg hz] at h ⊢
        simp only [Vec.mulAssignS_eq, Vmml.bind_ok] at h ⊢
        have := Except.ok.inj h
        injection this with h1 h2
        subst h1 h2
        exact ⟨_, rfl, fun i => by rw [e]; simp [Fp.neg_mul']⟩

/-! ## Neutral elements -/

theorem Fp.same_of_val {a b : Fp F} (ha : a.Finite) (hb : b.Finite) (h : a.val = b.val) : Spec.Same a b :=
  ⟨ha.ne_nan, hb.ne_nan, by rw [Fp.ereal_val ha, Fp.ereal_val hb, h]⟩

theorem Fp.add_zero_val (h0 : 0 < F.emax) {a z : Fp F} (ha : a.Finite) (hz : z.Finite) (h : z.val = 0) : (a + z).Finite ∧ (a + z).val = a.val := by
  have := Fp.add_fin h0 ha hz (by rw [h, add_zero]; exact Fp.abs_val_le a)
  rw [h, add_zero, (Fp.rep_val ha).rnd_eq] at this
  exact this

theorem Fp.zero_add_val (h0 : 0 < F.emax) {a z : Fp F} (ha : a.Finite) (hz : z.Finite) (h : z.val = 0) : (z + a).Finite ∧ (z + a).val = a.val := by
  rw [Fp.add_comm']; exact Fp.add_zero_val h0 ha hz h

theorem Fp.one_mul_val (h0 : 0 < F.emax) {a : Fp F} (ha : a.Finite) : (1 * a).Finite ∧ (1 * a).val = a.val := by
  have o := Fp.one_fin (F := F) h0
  have := Fp.mul_fin h0 o.1 ha (by rw [o.2, one_mul]; exact Fp.abs_val_le a)
  rw [o.2, one_mul, (Fp.rep_val ha).rnd_eq] at this
  exact this

theorem Fp.zero_mul_val (h0 : 0 < F.emax) {a : Fp F} (ha : a.Finite) : (0 * a).Finite ∧ (0 * a).val = 0 := by
  have := Fp.mul_fin h0 Fp.finite_zero ha (by rw [Fp.val_zero, zero_mul, abs_zero]; exact maxFinite_pos.le)
  rw [Fp.val_zero, zero_mul, rnd_zero] at this
  exact this

/-- A sum with at most one non-zero term is exact. -/
theorem iter_single (h0 : 0 < F.emax) (t : Nat → Fp F) (k : Nat) (hf : ∀ i, (t i).Finite) (hz : ∀ i, i ≠ k → (t i).val = 0) (n : Nat) :
    (iter (fun i s => s + t i) n (0 : Fp F)).Finite ∧ (iter (fun i s => s + t i) n (0 : Fp F)).val = if k < n then (t k).val else 0 := by
  induction n with
  | zero => exact ⟨Fp.finite_zero, by simp [iter]⟩
  | succ n ih =>
    simp only [iter]
    by_cases hk : n = k
    · subst hk
      rw [if_neg (lt_irrefl _)] at ih
      rw [if_pos (Nat.lt_succ_self _)]
      exact Fp.zero_add_val h0 (hf _) ih.1 ih.2
    · have := Fp.add_zero_val h0 ih.1 (hf n) (hz n hk)
      rw [ih.2] at this
      refine ⟨this.1, this.2.trans ?_⟩
      by_cases hlt : k < n
      · rw [if_pos hlt, if_pos (by omega)]
      · rw [if_neg hlt, if_neg (by omega)]

theorem iter_congr {σ : Type} {f g : Nat → σ → σ} {n : Nat} (s : σ) (h : ∀ i, i < n → ∀ s, f i s = g i s) : iter f n s = iter g n s := by
  induction n with
  | zero => rfl
  | succ n ih => simp only [iter]; rw [ih fun i hi => h i (by omega), h n (by omega)]

/-- **C125** Multiplication by the identity, from either side, returns every finite matrix and vector unchanged (as numbers: `-0` may become `+0`). -/
theorem C125_identity (h0 : 0 < F.emax) (cfg : Cfg) (a : Mat M N (Fp F)) (v : Vec N (Fp F)) (ha : ∀ r c, (a.get r c).Finite) (hv : ∀ i : Fin N, v[i].Finite) :
    (∃ m, (do (← Mat.IDENTITY cfg).mul cfg a) = .ok m ∧ ∀ r c, Spec.Same (m.get r c) (a.get r c)) ∧
      (∃ m, (do a.mul cfg (← Mat.IDENTITY cfg)) = .ok m ∧ ∀ r c, Spec.Same (m.get r c) (a.get r c)) ∧
      ∃ w, (do (← Mat.IDENTITY cfg).mulVec cfg v) = .ok w ∧ ∀ i : Fin N, Spec.Same w[i] v[i] := by
  have h1 : ∀ {x : Fp F}, x.Finite → (x * 1).Finite ∧ (x * 1).val = x.val := fun hx => by rw [Fp.mul_comm']; exact Fp.one_mul_val h0 hx
  have hz : ∀ {x : Fp F}, x.Finite → (x * 0).Finite ∧ (x * 0).val = 0 := fun hx => by rw [Fp.mul_comm']; exact Fp.zero_mul_val h0 hx
  refine ⟨?_, ?_, ?_⟩
  · refine ⟨_, by rw [Mat.IDENTITY_eq, Vmml.bind_ok, Mat.mul, Mat.ctor_eq, Vmml.bind_ok, Mat.multiply_iter], ?_⟩
    intro r c
    rw [Mat.get_ofFn]
    have := iter_single h0 (fun i => if h : i < M then (Mat.ofFn fun r c : Fin M => if r = c then (1 : Fp F) else 0).get r ⟨i, h⟩ * a.get ⟨i, h⟩ c else 0) r.1
      (by
        intro i
        split_ifs with h
        · rw [Mat.get_ofFn]
          split_ifs
          · exact (Fp.one_mul_val h0 (ha _ _)).1
          · exact (Fp.zero_mul_val h0 (ha _ _)).1
        · exact Fp.finite_zero)
      (by
        intro i hi
        split_ifs with h
        · rw [Mat.get_ofFn, if_neg (by intro hx; exact hi (by rw [hx]))]
          exact (Fp.zero_mul_val h0 (ha _ _)).2
        · exact Fp.val_zero) M
    refine Fp.same_of_val this.1 (ha r c) (this.2.trans ?_)
    rw [if_pos r.2, dif_pos r.2, Mat.get_ofFn, if_pos rfl]
    exact (Fp.one_mul_val h0 (ha _ _)).2
  · refine ⟨_, by rw [Mat.IDENTITY_eq, Vmml.bind_ok, Mat.mul, Mat.ctor_eq, Vmml.bind_ok, Mat.multiply_iter], ?_⟩
    intro r c
    rw [Mat.get_ofFn]
    have := iter_single h0 (fun i => if h : i < N then a.get r ⟨i, h⟩ * (Mat.ofFn fun r c : Fin N => if r = c then (1 : Fp F) else 0).get ⟨i, h⟩ c else 0) c.1
      (by
        intro i
        split_ifs with h
        · rw [Mat.get_ofFn]
          split_ifs
          · exact (h1 (ha _ _)).1
          · exact (hz (ha _ _)).1
        · exact Fp.finite_zero)
      (by
        intro i hi
        split_ifs with h
        · rw [Mat.get_ofFn, if_neg (by intro hx; exact hi (by rw [← hx]))]
          exact (hz (ha _ _)).2
        · exact Fp.val_zero) N
    refine Fp.same_of_val this.1 (ha r c) (this.2.trans ?_)
    rw [if_pos c.2, dif_pos c.2, Mat.get_ofFn, if_pos rfl]
    exact (h1 (ha _ _)).2
  · refine ⟨_, by rw [Mat.IDENTITY_eq, Vmml.bind_ok, Mat.mulVec_iter], ?_⟩
    intro r
    have := iter_single h0 (fun i => if h : i < N then (Mat.ofFn fun r c : Fin N => if r = c then (1 : Fp F) else 0).get r ⟨i, h⟩ * v[i] else 0) r.1
      (by
        intro i
        split_ifs with h
        · rw [Mat.get_ofFn]
          split_ifs
          · exact (Fp.one_mul_val h0 (hv ⟨i, h⟩)).1
          · exact (Fp.zero_mul_val h0 (hv ⟨i, h⟩)).1
        · exact Fp.finite_zero)
      (by
        intro i hi
        split_ifs with h
        · rw [Mat.get_ofFn, if_neg (by intro hx; exact hi (by rw [hx]))]
          exact (Fp.zero_mul_val h0 (hv ⟨i, h⟩)).2
        · exact Fp.val_zero) N
    simp only [Fin.getElem_fin, Vector.getElem_ofFn]
    refine Fp.same_of_val this.1 (hv r) (this.2.trans ?_)
    rw [if_pos r.2, dif_pos r.2, Mat.get_ofFn, if_pos rfl]
    exact (Fp.one_mul_val h0 (hv r)).2
/-- **C125** An infinite entry is not preserved: each entry of `IDENTITY * a` in a column with an infinite entry elsewhere is NaN (zero times infinity). -/
theorem C125_identity_infinite (cfg : Cfg) (a : Mat M N (Fp F)) (k r : Fin M) (c : Fin N) (s : Bool) (hk : a.get k c = .inf s) (hr : r ≠ k) :
    ∃ m, (do (← Mat.IDENTITY cfg).mul cfg a) = .ok m ∧ m.get r c = .nan := by
  refine ⟨_, by rw [Mat.IDENTITY_eq, Vmml.bind_ok, Mat.mul, Mat.ctor_eq, Vmml.bind_ok, Mat.multiply_iter], ?_⟩
  rw [Mat.get_ofFn]
  have hnan : ∀ n, k.1 < n → iter (fun i s => s + (if h : i < M then (Mat.ofFn fun r c : Fin M => if r = c then (1 : Fp F) else 0).get r ⟨i, h⟩ * a.get ⟨i, h⟩ c else 0)) n (0 : Fp F) = .nan := by
    intro n
    induction n with
    | zero => intro h; omega
    | succ n ih =>
      intro h
      simp only [iter]
      by_cases hn : k.1 = n
      · subst hn
        rw [dif_pos k.2, Mat.get_ofFn, if_neg hr, hk]
        have : (0 : Fp F) * .inf s = .nan := if_pos rfl
        rw [this, Fp.add_comm']
        rfl
      · rw [ih (by omega)]; rfl
  exact hnan M k.2

/-- **C125** For finite vectors: `v - v` is `+0` in every component; `v / v` is 1 in every non-zero component; adding or subtracting zero and multiplying or dividing by 1 change no number. -/
theorem C125_neutral (h0 : 0 < F.emax) (cfg : Cfg) (v : Vec M (Fp F)) (hv : ∀ i : Fin M, v[i].Finite) :
    v.sub cfg v = .ok (Vector.replicate M 0) ∧
      (∃ q, v.div cfg v = .ok q ∧ ∀ i : Fin M, v[i].val ≠ 0 → q[i].Finite ∧ q[i].val = 1) ∧
      (∃ a, v.addS cfg 0 = .ok a ∧ ∀ i : Fin M, Spec.Same a[i] v[i]) ∧ (∃ a, v.subS cfg 0 = .ok a ∧ ∀ i : Fin M, Spec.Same a[i] v[i]) ∧
      (∃ a, v.mulS cfg 1 = .ok a ∧ ∀ i : Fin M, Spec.Same a[i] v[i]) ∧ ∃ a, v.divS cfg 1 = .ok a ∧ ∀ i : Fin M, Spec.Same a[i] v[i] := by
  have o := Fp.one_fin (F := F) h0
  refine ⟨?_, ⟨_, Vec.div_eq cfg v v, ?_⟩, ⟨_, Vec.addS_eq cfg v 0, ?_⟩, ⟨_, Vec.subS_eq cfg v 0, ?_⟩, ⟨_, Vec.mulS_eq cfg v 1, ?_⟩, ⟨_, Vec.divS_eq cfg v 1, ?_⟩⟩
  · rw [Vec.sub_eq]
    congr 1
    ext i hi
    simp only [Fin.getElem_fin, Vector.getElem_ofFn, Vector.getElem_replicate]
    obtain ⟨s, m, hm, he⟩ := Fp.finite_cases (hv ⟨i, hi⟩)
    have he' : v[i] = .fin s m hm := he
    rw [he']
    have hx : (Fp.fin s m hm : Fp F).val + (Fp.fin (!s) m hm : Fp F).val = 0 := by cases s <;> simp
    show (if (Fp.fin s m hm : Fp F).val + (Fp.fin (!s) m hm : Fp F).val = 0 then Fp.fin (s && !s) 0 mag_zero else _) = _
    rw [if_pos hx]
    cases s <;> rfl
  · intro i hz
    simp only [Fin.getElem_fin, Vector.getElem_ofFn]
    have := Fp.div_fin h0 (hv i) (hv i) hz (by rw [div_self hz, abs_one]; exact one_le_max h0)
    rw [div_self hz, ← o.2, (Fp.rep_val o.1).rnd_eq, o.2] at this
    exact this
  · intro i
    simp only [Fin.getElem_fin, Vector.getElem_ofFn]
    have := Fp.add_zero_val h0 (hv i) Fp.finite_zero Fp.val_zero
    exact Fp.same_of_val this.1 (hv i) this.2
  · intro i
    simp only [Fin.getElem_fin, Vector.getElem_ofFn]
    have := Fp.add_zero_val h0 (hv i) (Fp.finite_neg Fp.finite_zero) (by rw [Fp.val_neg, Fp.val_zero, neg_zero])
    exact Fp.same_of_val this.1 (hv i) this.2
  · intro i
    simp only [Fin.getElem_fin, Vector.getElem_ofFn]
    have := Fp.one_mul_val h0 (hv i)
    rw [Fp.mul_comm'] at this
    exact Fp.same_of_val this.1 (hv i) this.2
  · intro i
    simp only [Fin.getElem_fin, Vector.getElem_ofFn]
    have := Fp.div_fin h0 (hv i) o.1 (by rw [o.2]; exact one_ne_zero) (by rw [o.2, div_one]; exact Fp.abs_val_le _)
    rw [o.2, div_one, (Fp.rep_val (hv i)).rnd_eq] at this
    exact Fp.same_of_val this.1 (hv i) this.2

/-! ## Order -/

/-- The rounded value on the extended line. -/
noncomputable def Spec.fpUp (F : Format) (x : ℝ) : EReal := if F.rnd x ≤ F.maxFinite then (F.rnd x : EReal) else ⊤

theorem fpUp_mono {x y : ℝ} (h : x ≤ y) : Spec.fpUp F x ≤ Spec.fpUp F y := by
  unfold Spec.fpUp
  have := rnd_mono (F := F) h
  by_cases h1 : F.rnd y ≤ F.maxFinite
  · rw [if_pos h1, if_pos (this.trans h1)]; exact_mod_cast this
  · rw [if_neg h1]; exact le_top

theorem fpUp_nonneg {x : ℝ} (h : 0 ≤ x) : 0 ≤ Spec.fpUp F x := by
  unfold Spec.fpUp
  split_ifs
  · exact_mod_cast rnd_nonneg h
  · exact le_top

theorem Fp.ereal_round {x : ℝ} (h : 0 ≤ x) : Spec.ereal (Fp.round false x : Fp F) = Spec.fpUp F x := by
  unfold Spec.fpUp
  split_ifs with h1
  · rw [Fp.round_eq h h1]; rfl
  · rw [Fp.round_inf (not_le.1 h1)]; rfl

/-- A number that is not NaN and not below zero, with its value. -/
def Fp.Non (a : Fp F) : Prop := a ≠ .nan ∧ 0 ≤ Spec.ereal a

theorem Fp.non_cases {a : Fp F} (h : Fp.Non a) : a = .inf false ∨ (a.Finite ∧ 0 ≤ a.val ∧ Spec.ereal a = (a.val : EReal)) := by
  obtain ⟨h1, h2⟩ := h
  cases a with
  | nan => exact absurd rfl h1
  | inf s => cases s with
    | false => left; rfl
    | true => exact absurd h2 (by show ¬ (0 : EReal) ≤ ⊥; simp)
  | fin s m hm =>
    right
    refine ⟨trivial, ?_, rfl⟩
    have : (0 : EReal) ≤ ((Fp.fin s m hm).val : EReal) := h2
    exact_mod_cast this

theorem Fp.add_up {a b : Fp F} (ha : a.Finite) (hb : b.Finite) (h : 0 ≤ a.val + b.val) : a + b ≠ .nan ∧ Spec.ereal (a + b) = Spec.fpUp F (a.val + b.val) := by
  obtain ⟨s, m, hm, rfl⟩ := Fp.finite_cases ha
  obtain ⟨t, n, hn, rfl⟩ := Fp.finite_cases hb
  obtain ⟨x, hx⟩ : ∃ x, x = (Fp.fin s m hm).val + (Fp.fin t n hn).val := ⟨_, rfl⟩
  have e : (Fp.fin s m hm + Fp.fin t n hn : Fp F) = if x = 0 then .fin (s && t) 0 mag_zero else .round (@decide (x < 0) (Classical.propDecidable _)) |x| := by rw [hx]; rfl
  rw [← hx] at h ⊢
  rw [e]
  by_cases h0 : x = 0
  · rw [if_pos h0, h0]
    refine ⟨by simp, ?_⟩
    unfold Spec.fpUp
    rw [rnd_zero, if_pos maxFinite_pos.le]
    rw [Fp.ereal_val (a := (.fin (s && t) 0 mag_zero : Fp F)) trivial]
    cases s <;> cases t <;> simp
  · rw [if_neg h0, @decide_eq_false _ (Classical.propDecidable _) (not_lt.2 h), abs_of_nonneg h]
    exact ⟨Fp.round_nan_free _ _, Fp.ereal_round h⟩

theorem Fp.inf_add_non {b : Fp F} (h : Fp.Non b) : (.inf false : Fp F) + b = .inf false ∧ b + (.inf false : Fp F) = .inf false := by
  have : (.inf false : Fp F) + b = .inf false := by
    rcases Fp.non_cases h with rfl | ⟨hf, -⟩
    · rfl
    · obtain ⟨s, m, hm, rfl⟩ := Fp.finite_cases hf
      rfl
  exact ⟨this, by rw [Fp.add_comm']; exact this⟩

theorem Fp.non_inf : Fp.Non (.inf false : Fp F) := ⟨by simp, by show (0 : EReal) ≤ ⊤; exact le_top⟩

theorem Fp.non_add {a b : Fp F} (ha : Fp.Non a) (hb : Fp.Non b) : Fp.Non (a + b) := by
  rcases Fp.non_cases ha with rfl | ⟨fa, va, -⟩
  · rw [(Fp.inf_add_non hb).1]; exact Fp.non_inf
  rcases Fp.non_cases hb with rfl | ⟨fb, vb, -⟩
  · rw [(Fp.inf_add_non ha).2]; exact Fp.non_inf
  obtain ⟨h1, h2⟩ := Fp.add_up fa fb (by linarith)
  exact ⟨h1, by rw [h2]; exact fpUp_nonneg (by linarith)⟩

theorem Fp.finite_of_le {a b : Fp F} (ha : Fp.Non a) (hb : b.Finite) (h : Spec.ereal a ≤ Spec.ereal b) : a.Finite ∧ 0 ≤ a.val ∧ a.val ≤ b.val := by
  rcases Fp.non_cases ha with rfl | ⟨fa, va, ea⟩
  · rw [Fp.ereal_val hb] at h
    exact absurd h (by show ¬ (⊤ : EReal) ≤ _; simp)
  · rw [ea, Fp.ereal_val hb] at h
    exact ⟨fa, va, by exact_mod_cast h⟩

theorem Fp.add_mono_non {a b a' b' : Fp F} (ha : Fp.Non a) (hb : Fp.Non b) (ha' : Fp.Non a') (hb' : Fp.Non b') (h1 : Spec.ereal a ≤ Spec.ereal a') (h2 : Spec.ereal b ≤ Spec.ereal b') :
    Spec.ereal (a + b) ≤ Spec.ereal (a' + b') := by
  rcases Fp.non_cases ha' with rfl | ⟨fa', va', -⟩
  · rw [(Fp.inf_add_non hb').1]; exact le_top
  rcases Fp.non_cases hb' with rfl | ⟨fb', vb', -⟩
  · rw [(Fp.inf_add_non ha').2]; exact le_top
  obtain ⟨fa, va, la⟩ := Fp.finite_of_le ha fa' h1
  obtain ⟨fb, vb, lb⟩ := Fp.finite_of_le hb fb' h2
  rw [(Fp.add_up fa fb (by linarith)).2, (Fp.add_up fa' fb' (by linarith)).2]
  exact fpUp_mono (by linarith)

private theorem sq_val {a : Fp F} (ha : a.Finite) : a * a ≠ .nan ∧ Spec.ereal (a * a) = Spec.fpUp F (a.val ^ 2) := by
  obtain ⟨s, m, hm, rfl⟩ := Fp.finite_cases ha
  have e : (Fp.fin s m hm * Fp.fin s m hm : Fp F) = .round false (m * m) := by
    show Fp.round (s ^^ s) (m * m) = _
    rw [Bool.xor_self]
  have e2 : (Fp.fin s m hm : Fp F).val ^ 2 = m * m := by cases s <;> simp [sq]
  rw [e, e2]
  exact ⟨Fp.round_nan_free _ _, Fp.ereal_round (mul_self_nonneg m)⟩

private theorem non_sq {a : Fp F} (ha : a ≠ .nan) : Fp.Non (a * a) := by
  cases a with
  | nan => exact absurd rfl ha
  | inf s =>
    have : (Fp.inf s * Fp.inf s : Fp F) = .inf false := by show (.inf (s ^^ s) : Fp F) = _; rw [Bool.xor_self]
    rw [this]; exact Fp.non_inf
  | fin s m hm =>
    obtain ⟨h1, h2⟩ := sq_val (a := (Fp.fin s m hm : Fp F)) trivial
    exact ⟨h1, by rw [h2]; exact fpUp_nonneg (sq_nonneg _)⟩

theorem Fp.sq_mono {a b : Fp F} (ha : a ≠ .nan) (hb : b ≠ .nan) (h : Spec.ereal (CMath.fabs a : Fp F) ≤ Spec.ereal (CMath.fabs b : Fp F)) :
    Spec.ereal (a * a) ≤ Spec.ereal (b * b) := by
  cases b with
  | nan => exact absurd rfl hb
  | inf s =>
    have : (Fp.inf s * Fp.inf s : Fp F) = .inf false := by show (.inf (s ^^ s) : Fp F) = _; rw [Bool.xor_self]
    rw [this]; exact le_top
  | fin t n hn =>
    have hna : Fp.Non (CMath.fabs a : Fp F) := by
      cases a with
      | nan => exact absurd rfl ha
      | inf s => exact Fp.non_inf
      | fin s m hm =>
        refine ⟨fun h => (by cases h), ?_⟩
        show (0 : EReal) ≤ ((Fp.fin false m hm).val : EReal)
        have : (0 : ℝ) ≤ (Fp.fin false m hm).val := by simpa using hm.1
        exact_mod_cast this
    obtain ⟨f1, v1, l1⟩ := Fp.finite_of_le hna (b := (CMath.fabs (Fp.fin t n hn) : Fp F)) trivial h
    have fa : a.Finite := by
      cases a with
      | nan => exact absurd rfl ha
      | inf s => exact absurd f1 id
      | fin s m hm => trivial
    rw [(sq_val fa).2, (sq_val (a := (Fp.fin t n hn : Fp F)) trivial).2]
    apply fpUp_mono
    rw [(Fp.fabs_fin fa).2, (Fp.fabs_fin (a := (Fp.fin t n hn : Fp F)) trivial).2] at l1
    exact sq_le_sq.2 l1

theorem Fp.sqrt_non {a : Fp F} (h0 : 0 < F.emax) (ha : Fp.Non a) : Fp.Non (CMath.sqrt a : Fp F) := by
  rcases Fp.non_cases ha with rfl | ⟨fa, va, -⟩
  · exact Fp.non_inf
  · obtain ⟨f, v⟩ := Fp.sqrt_fin h0 fa va
    refine ⟨f.ne_nan, ?_⟩
    rw [Fp.ereal_val f, v]
    exact_mod_cast rnd_nonneg (Real.sqrt_nonneg _)

theorem Fp.sqrt_mono_non {a b : Fp F} (h0 : 0 < F.emax) (ha : Fp.Non a) (hb : Fp.Non b) (h : Spec.ereal a ≤ Spec.ereal b) :
    Spec.ereal (CMath.sqrt a : Fp F) ≤ Spec.ereal (CMath.sqrt b : Fp F) := by
  rcases Fp.non_cases hb with rfl | ⟨fb, vb, -⟩
  · exact le_top
  · obtain ⟨fa, va, la⟩ := Fp.finite_of_le ha fb h
    obtain ⟨f, v⟩ := Fp.sqrt_fin h0 fa va
    obtain ⟨f', v'⟩ := Fp.sqrt_fin h0 fb vb
    rw [Fp.ereal_val f, Fp.ereal_val f', v, v']
    exact_mod_cast rnd_mono (F := F) (Real.sqrt_le_sqrt la)

theorem Fp.non_zero : Fp.Non (0 : Fp F) := ⟨fun h => (by cases h), by rw [Fp.ereal_val Fp.finite_zero, Fp.val_zero]; rfl⟩

theorem Fp.iter_mono_non (t t' : Nat → Fp F) (h1 : ∀ i, Fp.Non (t i)) (h2 : ∀ i, Fp.Non (t' i)) (h : ∀ i, Spec.ereal (t i) ≤ Spec.ereal (t' i)) (n : Nat) :
    Fp.Non (iter (fun i s => s + t i) n (0 : Fp F)) ∧ Fp.Non (iter (fun i s => s + t' i) n (0 : Fp F)) ∧
      Spec.ereal (iter (fun i s => s + t i) n (0 : Fp F)) ≤ Spec.ereal (iter (fun i s => s + t' i) n (0 : Fp F)) := by
  induction n with
  | zero => exact ⟨Fp.non_zero, Fp.non_zero, le_rfl⟩
  | succ n ih =>
    obtain ⟨i1, i2, i3⟩ := ih
    exact ⟨Fp.non_add i1 (h1 n), Fp.non_add i2 (h2 n), Fp.add_mono_non i1 (h1 n) i2 (h2 n) i3 (h n)⟩

/-- **C125** `length` is monotone: with components no larger in magnitude (none NaN; infinities allowed) the computed length is no larger. -/
theorem C125_length_monotone (h0 : 0 < F.emax) (v w : Vec M (Fp F)) (h : ∀ i : Fin M, (CMath.fabs v[i] : Fp F) ≤ CMath.fabs w[i]) :
    ∃ l l', v.length = .ok l ∧ w.length = .ok l' ∧ l ≤ l' := by
  have hnn : ∀ {a : Fp F}, (CMath.fabs a : Fp F) ≠ .nan → a ≠ .nan := by rintro a ha rfl; exact ha rfl
  have hv : ∀ i : Fin M, v[i] ≠ .nan := fun i => hnn fun hx => absurd (h i) (by rw [hx]; exact Fp.not_le_nan_left _)
  have hw : ∀ i : Fin M, w[i] ≠ .nan := fun i => hnn fun hx => absurd (h i) (by rw [hx]; exact Fp.not_le_nan_right _)
  have hfn : ∀ {a : Fp F}, a ≠ .nan → (CMath.fabs a : Fp F) ≠ .nan := by
    intro a ha; cases a with
    | nan => exact absurd rfl ha
    | inf s => intro h; cases h
    | fin s m hm => intro h; cases h
  obtain ⟨i1, i2, i3⟩ := Fp.iter_mono_non (fun i => if h : i < M then v[i] * v[i] else 0) (fun i => if h : i < M then w[i] * w[i] else 0)
    (by intro i; split_ifs with hi; exact non_sq (hv ⟨i, hi⟩); exact Fp.non_zero)
    (by intro i; split_ifs with hi; exact non_sq (hw ⟨i, hi⟩); exact Fp.non_zero)
    (by
      intro i
      split_ifs with hi
      · exact Fp.sq_mono (hv ⟨i, hi⟩) (hw ⟨i, hi⟩) ((Fp.le_iff (hfn (hv ⟨i, hi⟩)) (hfn (hw ⟨i, hi⟩))).1 (h ⟨i, hi⟩))
      · exact le_rfl) M
  refine ⟨_, _, by unfold Vec.length; rw [Vec.squaredLength_iter]; rfl, by unfold Vec.length; rw [Vec.squaredLength_iter]; rfl, ?_⟩
  rw [Fp.le_iff (Fp.sqrt_non h0 i1).1 (Fp.sqrt_non h0 i2).1]
  exact Fp.sqrt_mono_non h0 i1 i2 i3

/-! ## The root of a square -/

private theorem rnd_near {x y : ℝ} (hx : F.Rep x) (h0 : 0 < x) (hn : (2 : ℝ) ^ F.emin ≤ x) (hne : (2 : ℝ) ^ Int.log 2 x ≠ x)
    (hy : |y - x| < 1 / 2 * (2 : ℝ) ^ (Int.log 2 x - F.p)) : F.rnd y = x := by
  have hlog : (2 : ℝ) ^ Int.log 2 x ≤ x := by exact_mod_cast Int.zpow_log_le_self (b := 2) (by norm_num) h0
  have hl : F.emin ≤ Int.log 2 x := by rw [← Int.zpow_le_iff_le_log (by norm_num) h0]; exact_mod_cast hn
  have hL : F.lastExp x = Int.log 2 x - F.p := by unfold lastExp; rw [abs_of_pos h0, max_eq_left hl]
  obtain ⟨n, hxn⟩ := hx.multiple (x := x) (by rw [abs_of_pos h0]; exact hlog) h0.ne'
  rw [hL] at hxn
  obtain ⟨g, hg⟩ : ∃ g, g = (2 : ℝ) ^ (Int.log 2 x - F.p) := ⟨_, rfl⟩
  have g0 : 0 < g := by rw [hg]; positivity
  have hpow : (2 : ℝ) ^ Int.log 2 x = ((2 ^ F.p : Int) : ℝ) * g := by
    rw [hg]; push_cast; rw [← zpow_natCast, ← zpow_add₀ (by norm_num)]; congr 1; ring
  rw [← hg] at hxn hy
  have hlt : (2 : ℝ) ^ Int.log 2 x < x := lt_of_le_of_ne hlog hne
  have hn1 : (2 ^ F.p : Int) + 1 ≤ n := by
    rw [hpow, hxn] at hlt
    have := lt_of_mul_lt_mul_right hlt g0.le
    have : (2 ^ F.p : Int) < n := by exact_mod_cast this
    omega
  have hn2 : ((2 ^ F.p : Int) : ℝ) + 1 ≤ n := by exact_mod_cast hn1
  have hb := rnd_best y x hx
  rw [abs_sub_comm x y] at hb
  have hc : |F.rnd y - x| < g := by
    calc |F.rnd y - x| = |(F.rnd y - y) + (y - x)| := by congr 1; ring
      _ ≤ _ := abs_add_le _ _
      _ < _ := by linarith
  have hge : (2 : ℝ) ^ Int.log 2 x ≤ F.rnd y := by
    have := (abs_lt.1 hc).1
    have h3 := mul_le_mul_of_nonneg_right hn2 g0.le
    rw [hpow]
    linarith
  obtain ⟨m, hm⟩ := (rnd_rep (F := F) y).multiple (x := x) (by rw [abs_of_pos h0, abs_of_nonneg (le_trans (by positivity) hge)]; exact hge) h0.ne'
  rw [hL, ← hg] at hm
  rw [hm, hxn, ← sub_mul, abs_mul, abs_of_pos g0] at hc
  have h1 : |(m : ℝ) - n| < 1 := by
    by_contra hcon
    push Not at hcon
    have := mul_le_mul_of_nonneg_right hcon g0.le
    linarith
  have h2 : |m - n| < 1 := by exact_mod_cast h1
  have : m = n := by rw [abs_lt] at h2; omega
  rw [hm, hxn, this]

/-- The rounded root of the rounded square is the magnitude of the number, if the square does not underflow. -/
theorem rnd_sqrt_sq (h0 : 0 < F.emax) {x : ℝ} (hx : F.Rep x) (hpos : 0 < x) (hn : (2 : ℝ) ^ F.emin ≤ x ^ 2) : F.rnd (Real.sqrt (F.rnd (x ^ 2))) = x := by
  have hn1 : (2 : ℝ) ^ F.emin ≤ x := by
    by_contra hc
    push Not at hc
    have : (2 : ℝ) ^ F.emin ≤ 1 := zpow_le_one_of_nonpos₀ (by norm_num) (by unfold emin; omega)
    nlinarith
  have hlog : (2 : ℝ) ^ Int.log 2 x ≤ x := by exact_mod_cast Int.zpow_log_le_self (b := 2) (by norm_num) hpos
  have hup : x < (2 : ℝ) ^ (Int.log 2 x + 1) := by exact_mod_cast Int.lt_zpow_succ_log_self (b := 2) (by norm_num) x
  by_cases hne : (2 : ℝ) ^ Int.log 2 x = x
  · have hsq : x ^ 2 = (2 : ℝ) ^ (2 * Int.log 2 x) := by
      rw [mul_comm, zpow_mul, hne]; norm_cast
    have hr : F.Rep (x ^ 2) := by
      rw [hsq]
      apply rep_pow
      rw [hsq] at hn
      have := (zpow_le_zpow_iff_right₀ (by norm_num : (1 : ℝ) < 2)).1 hn
      omega
    rw [hr.rnd_eq, Real.sqrt_sq hpos.le, hx.rnd_eq]
  · apply rnd_near hx hpos hn1 hne
    have hu := F.u_pos
    have hu1 : F.u ≤ 1 := u_le_one
    have he := rnd_err_normal (F := F) (x := x ^ 2) (by rw [abs_of_nonneg (sq_nonneg x)]; exact hn)
    rw [abs_of_nonneg (sq_nonneg x)] at he
    obtain ⟨q, hq⟩ : ∃ q, q = F.rnd (x ^ 2) := ⟨_, rfl⟩
    rw [← hq] at he ⊢
    have q0 : 0 ≤ q := by rw [hq]; exact rnd_nonneg (sq_nonneg x)
    have ys := Real.mul_self_sqrt q0
    have y0 := Real.sqrt_nonneg q
    obtain ⟨y, hy⟩ : ∃ y, y = Real.sqrt q := ⟨_, rfl⟩
    rw [← hy] at ys y0 ⊢
    obtain ⟨g, hg⟩ : ∃ g, g = (2 : ℝ) ^ (Int.log 2 x - F.p) := ⟨_, rfl⟩
    have g0 : 0 < g := by rw [hg]; positivity
    rw [← hg]
    -- u x ≤ (1 - u) g
    have hl : F.emin ≤ Int.log 2 x := by rw [← Int.zpow_le_iff_le_log (by norm_num) hpos]; exact_mod_cast hn1
    have hL : F.lastExp x = Int.log 2 x - F.p := by unfold lastExp; rw [abs_of_pos hpos, max_eq_left hl]
    obtain ⟨n, hxn⟩ := hx.multiple (x := x) (by rw [abs_of_pos hpos]; exact hlog) hpos.ne'
    rw [hL, ← hg] at hxn
    have hpow : (2 : ℝ) ^ (Int.log 2 x + 1) = ((2 ^ (F.p + 1) : Int) : ℝ) * g := by
      rw [hg]; push_cast; rw [← zpow_natCast, ← zpow_add₀ (by norm_num)]; congr 1; push_cast; ring
    have hnlt : (n : ℝ) + 1 ≤ ((2 ^ (F.p + 1) : Int) : ℝ) := by
      rw [hpow] at hup
      rw [hxn] at hup
      have := lt_of_mul_lt_mul_right hup g0.le
      have : n < (2 ^ (F.p + 1) : Int) := by exact_mod_cast this
      exact_mod_cast (by omega : n + 1 ≤ (2 ^ (F.p + 1) : Int))
    have huv : F.u * ((2 ^ (F.p + 1) : Int) : ℝ) = 1 := by
      unfold u
      push_cast
      rw [← mul_pow]; norm_num
    have hux : F.u * x ≤ (1 - F.u) * g := by
      have h1 := mul_le_mul_of_nonneg_left hnlt hu.le
      rw [huv] at h1
      have h2 := mul_le_mul_of_nonneg_right h1 g0.le
      calc F.u * x = F.u * n * g := by rw [hxn]; ring
        _ ≤ _ := by linarith
    obtain ⟨e1, e2⟩ := abs_le.1 he
    rw [abs_lt]
    constructor
    · -- y is not far below x
      by_contra hc
      push Not at hc
      have hyl : (1 - F.u) * x ≤ y := by
        apply le_of_sq_le_sq _ y0
        nlinarith
      nlinarith
    · by_contra hc
      push Not at hc
      have a := mul_self_le_mul_self (show 0 ≤ x + 1 / 2 * g by linarith) (show x + 1 / 2 * g ≤ y by linarith)
      have b := mul_le_mul_of_nonneg_left hux hpos.le
      nlinarith [mul_pos g0 g0, mul_nonneg (mul_nonneg hu.le hpos.le) g0.le]

private theorem rep_abs {x : ℝ} (h : F.Rep x) : F.Rep |x| := by
  obtain ⟨k, e, he, hk, rfl⟩ := h
  exact ⟨|k|, e, he, by rwa [abs_abs], by rw [abs_mul, abs_of_pos (show (0 : ℝ) < (2 : ℝ) ^ e by positivity)]; push_cast; rfl⟩

private theorem rnd_sqrt_abs (h0 : 0 < F.emax) {a : Fp F} (ha : a.Finite) (hn : a.val = 0 ∨ (2 : ℝ) ^ F.emin ≤ a.val ^ 2) : F.rnd (Real.sqrt (F.rnd (a.val ^ 2))) = |a.val| := by
  by_cases hz : a.val = 0
  · rw [hz]; norm_num [rnd_zero]
  · have := rnd_sqrt_sq h0 (rep_abs (Fp.rep_val ha)) (abs_pos.2 hz) (by rw [sq_abs]; exact hn.resolve_left hz)
    rwa [sq_abs] at this

/-- **C125** The length of a vector with a single non-zero component is exactly the magnitude of this component, if its square neither overflows nor underflows. -/
theorem C125_axis_length (h0 : 0 < F.emax) (v : Vec M (Fp F)) (k : Fin M) (hk : v[k].Finite) (h1 : (2 : ℝ) ^ F.emin ≤ v[k].val ^ 2) (h2 : v[k].val ^ 2 ≤ F.maxFinite)
    (hz : ∀ i : Fin M, i ≠ k → Spec.IsZero v[i]) : ∃ l, v.length = .ok l ∧ l.Finite ∧ l.val = |v[k].val| := by
  have hsq := Fp.mul_fin h0 hk hk (by rw [← sq, abs_of_nonneg (sq_nonneg _)]; exact h2)
  have hzz : ∀ i : Fin M, i ≠ k → (v[i] * v[i]).Finite ∧ (v[i] * v[i]).val = 0 := fun i hi => by
    obtain ⟨f, z⟩ := hz i hi
    have := Fp.mul_fin h0 f f (by rw [z, zero_mul, abs_zero]; exact maxFinite_pos.le)
    rwa [z, zero_mul, rnd_zero] at this
  have := iter_single h0 (fun i => if h : i < M then v[i] * v[i] else 0) k.1
    (by
      intro i
      split_ifs with h
      · by_cases hi : (⟨i, h⟩ : Fin M) = k
        · rw [← hi] at hsq; exact hsq.1
        · exact (hzz ⟨i, h⟩ hi).1
      · exact Fp.finite_zero)
    (by
      intro i hi
      split_ifs with h
      · exact (hzz ⟨i, h⟩ fun hx => hi (by rw [← hx])).2
      · exact Fp.val_zero) M
  rw [if_pos k.2, dif_pos k.2] at this
  have hval := this.2.trans hsq.2
  obtain ⟨s1, s2⟩ := Fp.sqrt_fin h0 this.1 (by rw [hval, ← sq]; exact rnd_nonneg (sq_nonneg _))
  refine ⟨_, by unfold Vec.length; rw [Vec.squaredLength_iter]; rfl, s1, ?_⟩
  rw [s2, hval, ← sq]
  exact rnd_sqrt_abs h0 hk (.inr h1)

private theorem iter_ge (h0 : 0 < F.emax) (t : Nat → Fp F) (h1 : ∀ i, Fp.Non (t i)) (k : Nat) (n : Nat) (hk : k < n) :
    Spec.ereal (t k) ≤ Spec.ereal (iter (fun i s => s + t i) n (0 : Fp F)) := by
  have hz : ∀ {a : Fp F}, Fp.Non a → Spec.ereal (a + 0) = Spec.ereal a := by
    intro a ha
    rcases Fp.non_cases ha with rfl | ⟨fa, -, ea⟩
    · rfl
    · obtain ⟨f, v⟩ := Fp.add_zero_val h0 fa Fp.finite_zero Fp.val_zero
      rw [Fp.ereal_val f, v, ea]
  have h0e : Spec.ereal (0 : Fp F) = 0 := by rw [Fp.ereal_val Fp.finite_zero, Fp.val_zero]; rfl
  induction n with
  | zero => omega
  | succ n ih =>
    have hn := (Fp.iter_mono_non t t h1 h1 (fun _ => le_rfl) n).1
    show Spec.ereal (t k) ≤ Spec.ereal (_ + t n)
    by_cases hkn : k = n
    · subst hkn
      rw [← hz (h1 k), Fp.add_comm' _ (t k)]
      exact Fp.add_mono_non (h1 k) Fp.non_zero (h1 k) hn le_rfl (by rw [h0e]; exact hn.2)
    · refine (ih (by omega)).trans ?_
      rw [← hz hn]
      exact Fp.add_mono_non hn Fp.non_zero hn (h1 n) le_rfl (by rw [h0e]; exact (h1 n).2)

/-- **C125** The computed length is never below the magnitude of a component, as long as the square of the component does not underflow (no component being NaN; infinities allowed). -/
theorem C125_component_le_length (h0 : 0 < F.emax) (v : Vec M (Fp F)) (hv : ∀ i : Fin M, v[i] ≠ .nan) (k : Fin M)
    (hk : v[k].Finite → v[k].val = 0 ∨ (2 : ℝ) ^ F.emin ≤ v[k].val ^ 2) : ∃ l, v.length = .ok l ∧ (CMath.fabs v[k] : Fp F) ≤ l := by
  have hnon : ∀ i, Fp.Non (if h : i < M then v[i] * v[i] else (0 : Fp F)) := by
    intro i; split_ifs with hi
    · exact non_sq (hv ⟨i, hi⟩)
    · exact Fp.non_zero
  have hge := iter_ge h0 (fun i => if h : i < M then v[i] * v[i] else 0) hnon k.1 M k.2
  have hn := (Fp.iter_mono_non (fun i => if h : i < M then v[i] * v[i] else 0) _ hnon hnon (fun _ => le_rfl) M).1
  refine ⟨_, by unfold Vec.length; rw [Vec.squaredLength_iter]; rfl, ?_⟩
  have hs := Fp.sqrt_mono_non h0 (hnon k.1) hn hge
  rw [dif_pos k.2] at hs
  have hfn : (CMath.fabs v[k] : Fp F) ≠ .nan := by
    have := hv k
    revert this
    generalize v[k] = a
    intro ha
    cases a with
    | nan => exact absurd rfl ha
    | inf s => exact fun h => (by cases h)
    | fin s m hm => exact fun h => (by cases h)
  rw [Fp.le_iff hfn (Fp.sqrt_non h0 hn).1]
  refine le_trans ?_ hs
  show Spec.ereal (CMath.fabs v[k] : Fp F) ≤ Spec.ereal (CMath.sqrt (v[k] * v[k]))
  have hvk := hv k
  revert hk hvk
  generalize v[k] = a
  intro hk ha
  by_cases hf : a.Finite
  · rcases Fp.non_cases (non_sq ha) with h | ⟨fs, vs, -⟩
    · rw [h]; exact le_top
    · obtain ⟨f1, e1⟩ := Fp.sqrt_fin h0 fs vs
      rw [Fp.ereal_val f1, e1, (Fp.mul_finite fs).2.2, ← sq, rnd_sqrt_abs h0 hf (hk hf), Fp.ereal_val (Fp.fabs_fin hf).1, (Fp.fabs_fin hf).2]
  · cases a with
    | nan => exact absurd rfl ha
    | inf s =>
      have : (Fp.inf s * Fp.inf s : Fp F) = .inf false := by show (.inf (s ^^ s) : Fp F) = _; rw [Bool.xor_self]
      rw [this]; exact le_rfl
    | fin s m hm => exact absurd trivial hf

/-! ## Laws that fail -/

private theorem rnd_one_add (h0 : 0 < F.emax) {d : ℝ} (hd : 0 ≤ d) (h : d < F.u) : F.rnd (1 + d) = 1 := by
  have r1 : F.Rep 1 := by have o := Fp.one_fin (F := F) h0; rw [← o.2]; exact Fp.rep_val o.1
  have hlog : Int.log 2 (1 : ℝ) = 0 := Int.log_one_right 2
  have hle : F.lastExp 1 = -F.p := by unfold lastExp; rw [abs_one, hlog, max_eq_left (by unfold emin; omega)]; ring
  have h1 : 1 ≤ F.rnd (1 + d) := rep_le_rnd r1 (by linarith)
  obtain ⟨m, hm⟩ := (rnd_rep (F := F) (1 + d)).multiple (x := 1) (by rw [abs_one, hlog, abs_of_nonneg (by linarith)]; simpa using h1) one_ne_zero
  have hb := rnd_best (1 + d) 1 r1
  rw [show (1 : ℝ) - (1 + d) = -d by ring, abs_neg, abs_of_nonneg hd] at hb
  have h2 := (abs_le.1 hb).2
  rw [hle] at hm
  have hp : (2 : ℝ) ^ (-F.p : Int) * 2 ^ F.p = 1 := by rw [zpow_neg, zpow_natCast]; exact inv_mul_cancel₀ (by positivity)
  have hu2 : 2 * F.u = (2 : ℝ) ^ (-F.p : Int) := by
    unfold u
    rw [zpow_neg, zpow_natCast, pow_succ, ← inv_pow]; ring
  have g0 : (0 : ℝ) < (2 : ℝ) ^ (-F.p : Int) := by positivity
  obtain ⟨g, hg⟩ : ∃ g, g = (2 : ℝ) ^ (-F.p : Int) := ⟨_, rfl⟩
  rw [← hg] at hm hp hu2 g0
  have c1 : ((2 ^ F.p : Int) : ℝ) ≤ m := by
    rw [hm] at h1
    have := mul_le_mul_of_nonneg_right h1 (show (0 : ℝ) ≤ 2 ^ F.p by positivity)
    rw [mul_assoc, hp] at this
    push_cast; linarith
  have c2 : (m : ℝ) < ((2 ^ F.p : Int) : ℝ) + 1 := by
    rw [hm] at h2
    have h3 : (m : ℝ) * g < 1 + g := by linarith
    have := mul_lt_mul_of_pos_right h3 (show (0 : ℝ) < 2 ^ F.p by positivity)
    rw [mul_assoc, add_mul, hp] at this
    push_cast; linarith
  have c3 : (2 ^ F.p : Int) ≤ m := by exact_mod_cast c1
  have c4 : m < (2 ^ F.p : Int) + 1 := by exact_mod_cast c2
  have : m = 2 ^ F.p := by omega
  rw [hm, this]
  push_cast
  linarith

/-- **C125** Addition is not associative, in any format with at least a few exponents and in every dimension: there are vectors with `( v + w ) + x` zero and `v + ( w + x )` the non-zero
`v`. -/
theorem C125_not_associative (h0 : 0 < F.emax) (ht : F.tiny < F.u) (cfg : Cfg) : ∃ v w x : Vec M (Fp F), (∀ i : Fin M, v[i].Finite ∧ w[i].Finite ∧ x[i].Finite) ∧
    ∃ l r, (do (← v.add cfg w).add cfg x) = .ok l ∧ (do v.add cfg (← w.add cfg x)) = .ok r ∧ ∀ i : Fin M, l[i].val = 0 ∧ r[i].val = v[i].val ∧ 0 < v[i].val := by
  have hr : F.Rep F.tiny := rep_pow (by omega)
  have tp := F.tiny_pos
  have hu1 : F.u ≤ 1 := u_le_one
  have hmx := one_le_max (F := F) h0
  obtain ⟨a, ha⟩ : ∃ a : Fp F, a = .fin false F.tiny ⟨tp.le, hr, by linarith⟩ := ⟨_, rfl⟩
  have fa : a.Finite := by rw [ha]; trivial
  have va : a.val = F.tiny := by rw [ha]; rfl
  have o := Fp.one_fin (F := F) h0
  have fn := Fp.finite_neg o.1
  have vn := Fp.val_neg (1 : Fp F)
  rw [o.2] at vn
  have hround : F.rnd (F.tiny + 1) = 1 := by rw [add_comm]; exact rnd_one_add h0 tp.le ht
  have h2max : 2 ≤ F.maxFinite := by
    have : (2 : ℝ) ^ (1 : ℕ) ≤ F.maxFinite := by
      refine le_trans ?_ pow_emax_le
      rw [← zpow_natCast]
      exact zpow_le_zpow_right₀ (by norm_num) (by push_cast; omega)
    norm_num at this
    exact this
  have s1 := Fp.add_fin h0 fa o.1 (by rw [va, o.2, abs_of_pos (by linarith)]; linarith)
  rw [va, o.2, hround] at s1
  have s2 := Fp.add_fin h0 s1.1 fn (by rw [s1.2, vn]; norm_num; exact maxFinite_pos.le)
  rw [s1.2, vn, add_neg_cancel, rnd_zero] at s2
  have s3 := Fp.add_fin h0 o.1 fn (by rw [o.2, vn]; norm_num; exact maxFinite_pos.le)
  rw [o.2, vn, add_neg_cancel, rnd_zero] at s3
  have s4 := Fp.add_zero_val h0 fa s3.1 s3.2
  refine ⟨Vector.replicate M a, Vector.replicate M 1, Vector.replicate M (-1), fun i => ?_, _, _, by rw [Vec.add_eq, Vmml.bind_ok, Vec.add_eq], by rw [Vec.add_eq, Vmml.bind_ok, Vec.add_eq], fun i => ?_⟩
  · simp only [Fin.getElem_fin, Vector.getElem_replicate]
    exact ⟨fa, o.1, fn⟩
  · simp only [Fin.getElem_fin, Vector.getElem_ofFn, Vector.getElem_replicate]
    exact ⟨s2.2, s4.2, by rw [va]; exact tp⟩

/-! ## The hypotheses are met -/

/-- `float` and `double` meet the hypotheses on the format. -/
example : 0 < single.emax ∧ single.tiny < single.u ∧ 0 < double.emax ∧ double.tiny < double.u := by
  have key : ∀ F : Format, (F.p : Int) + 1 < -F.emin → F.tiny < F.u := by
    intro F h
    have : F.u = (2 : ℝ) ^ (-((F.p : Int) + 1)) := by unfold u; rw [zpow_neg, inv_pow]; norm_cast
    rw [this]
    exact zpow_lt_zpow_right₀ (by norm_num) (by omega)
  exact ⟨by norm_num, key _ (by norm_num [emin]), by norm_num, key _ (by norm_num [emin])⟩

/-- The vector `( 0, 1, 0 )` in `float`: its length is 1 by `C125_axis_length`. -/
example (l : Fp single) (h : Vec.length (#v[0, 1, 0] : Vec 3 (Fp single)) = .ok l) : l.val = 1 := by
  have h0 : 0 < single.emax := by norm_num
  have o := Fp.one_fin (F := single) h0
  have e : (#v[0, 1, 0] : Vec 3 (Fp single))[(1 : Fin 3)] = 1 := rfl
  have ht : (2 : ℝ) ^ single.emin ≤ 1 := zpow_le_one_of_nonpos₀ (by norm_num) (by norm_num [emin])
  obtain ⟨l', h1, -, h2⟩ := C125_axis_length h0 (#v[0, 1, 0] : Vec 3 (Fp single)) 1 (by rw [e]; exact o.1) (by rw [e, o.2]; simpa using ht)
    (by rw [e, o.2]; simpa using one_le_max h0) (by
      intro i hi
      match i with
      | 0 => exact ⟨Fp.finite_zero, Fp.val_zero⟩
      | 1 => exact absurd rfl hi
      | 2 => exact ⟨Fp.finite_zero, Fp.val_zero⟩)
  rw [h1] at h
  rw [← Except.ok.inj h, h2, e, o.2, abs_one]


end Vmml
