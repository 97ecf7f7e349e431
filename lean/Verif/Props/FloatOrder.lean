import Verif.Props.FloatCull
import Verif.Props.VectorOrder
import Verif.Props.MatrixAccess
import Verif.Props.FloatQR

/-!
# C123: comparisons, extrema and clamping in IEEE 754 arithmetic (infinities, signed zeros and NaN included)
-/

namespace Vmml
open Format Vec
variable {F : Format} {M N : ℕ}

/-- Two values that are the same point of the extended real line (`+0` and `-0` are). -/
def Spec.Same (a b : Fp F) : Prop := a ≠ .nan ∧ b ≠ .nan ∧ Spec.ereal a = Spec.ereal b
/-- `a` is below `b` on the extended real line, neither being NaN. -/
def Spec.Below (a b : Fp F) : Prop := a ≠ .nan ∧ b ≠ .nan ∧ Spec.ereal a < Spec.ereal b

theorem Fp.lt_below {a b : Fp F} : a < b ↔ Spec.Below a b := by
  by_cases ha : a = .nan
  · subst ha; exact ⟨fun h => absurd h (Fp.not_lt_nan_left _), fun h => absurd rfl h.1⟩
  by_cases hb : b = .nan
  · subst hb; exact ⟨fun h => absurd h (Fp.not_lt_nan_right _), fun h => absurd rfl h.2.1⟩
  exact ⟨fun h => ⟨ha, hb, (Fp.lt_iff ha hb).1 h⟩, fun h => (Fp.lt_iff ha hb).2 h.2.2⟩

theorem Fp.beq_same {a b : Fp F} : (a == b) = true ↔ Spec.Same a b := by
  have key : ∀ c : Fp F, c ≠ .nan → c.ext = some (Spec.ereal c) := by
    intro c hc
    cases c with
    | nan => exact absurd rfl hc
    | inf s => rfl
    | fin s m h => rfl
  have hb : (a == b) = true ↔ Fp.eqP a b := by
    show @decide (Fp.eqP a b) (Classical.propDecidable _) = true ↔ _
    exact @decide_eq_true_iff _ (Classical.propDecidable _)
  rw [hb]
  constructor
  · rintro ⟨x, hx, y, hy, rfl⟩
    have ha : a ≠ .nan := by rintro rfl; cases hx
    have hb : b ≠ .nan := by rintro rfl; cases hy
    rw [key a ha] at hx
    rw [key b hb] at hy
    exact ⟨ha, hb, (Option.some.inj hx).trans (Option.some.inj hy).symm⟩
  · rintro ⟨ha, hb, h⟩
    exact ⟨_, key a ha, _, key b hb, h⟩

/-! ## `operator<` -/

/-- **C123** `operator<` for every pair of vectors, NaN included: components of which one is NaN or which are equal are skipped, and the first other one decides. -/
theorem C123_less (cfg : Cfg) (v w : Vec M (Fp F)) :
    ∃ b, v.lt cfg w = .ok b ∧ (b = true ↔ ∃ i, ∃ h : i < M, Spec.Below v[i] w[i] ∧
      ∀ j (hj : j < i), (v[j]'(by omega)) = .nan ∨ (w[j]'(by omega)) = .nan ∨ Spec.Same (v[j]'(by omega)) (w[j]'(by omega))) := by
  let f : Nat → Option Bool := fun i => if h : i < M then
    (if v[i] < w[i] then some true else if w[i] < v[i] then some false else none) else none
  have hl : v.lt cfg w = .ok ((firstSome f M).getD false) := by
    unfold Vec.lt
    rw [loopRet_eq f (by
      intro i hi
      simp only [atGet_lt cfg _ hi, bind_ok, f, hi, dite_true, pure_ok]
      split_ifs <;> rfl)]
    rfl
  refine ⟨_, hl, ?_⟩
  have hnone : ∀ j (hj : j < M), f j = none ↔ (v[j] = .nan ∨ w[j] = .nan ∨ Spec.Same v[j] w[j]) := by
    intro j hj
    simp only [f, hj, dite_true]
    by_cases ha : v[j] = .nan
    · simp only [ha, true_or, iff_true]
      rw [if_neg (Fp.not_lt_nan_left _), if_neg (Fp.not_lt_nan_right _)]
    by_cases hb : w[j] = .nan
    · simp only [hb, true_or, or_true, iff_true]
      rw [if_neg (Fp.not_lt_nan_right _), if_neg (Fp.not_lt_nan_left _)]
    simp only [ha, hb, false_or, Fp.lt_iff ha hb, Fp.lt_iff hb ha]
    constructor
    · intro h
      split_ifs at h with h1 h2
      exact ⟨ha, hb, le_antisymm (not_lt.1 h2) (not_lt.1 h1)⟩
    · rintro ⟨-, -, h⟩
      rw [if_neg h.not_lt, if_neg h.symm.not_lt]
  constructor
  · intro h
    obtain ⟨b, hb⟩ : ∃ b, firstSome f M = some b := by
      cases hf : firstSome f M with
      | none => rw [hf] at h; exact absurd h (by simp)
      | some b => exact ⟨b, rfl⟩
    rw [hb] at h
    have : b = true := h
    subst this
    obtain ⟨k, hk, h1, h2⟩ := (firstSome_eq_some f M true).1 hb
    refine ⟨k, hk, ?_, fun j hj => (hnone j (by omega)).1 (h2 j hj)⟩
    simp only [f, hk, dite_true] at h1
    split_ifs at h1 with h3 h4
    · exact Fp.lt_below.1 h3
    · simp at h1
  · rintro ⟨i, hi, h1, h2⟩
    have : firstSome f M = some true := by
      refine (firstSome_eq_some f M true).2 ⟨i, hi, ?_, fun j hj => (hnone j (by omega)).2 (h2 j hj)⟩
      simp only [f, hi, dite_true]
      rw [if_pos (Fp.lt_below.2 h1)]
    rw [this]; rfl

private noncomputable def toE (v : Vec M (Fp F)) : Vec M EReal := Vector.ofFn fun i => Spec.ereal v[i]

private theorem lt_toE (cfg : Cfg) (v w : Vec M (Fp F)) (hv : ∀ i (h : i < M), v[i] ≠ .nan) (hw : ∀ i (h : i < M), w[i] ≠ .nan) :
    v.lt cfg w = .ok true ↔ Spec.LexLt (toE v) (toE w) := by
  obtain ⟨b, h1, h2⟩ := C123_less cfg v w
  rw [h1]
  have e : (Except.ok b : Res Bool) = .ok true ↔ b = true := ⟨fun h => Except.ok.inj h, fun h => by rw [h]⟩
  rw [e, h2]
  unfold Spec.LexLt toE
  simp only [Vector.getElem_ofFn, Fin.getElem_fin]
  constructor
  · rintro ⟨i, hi, g1, g2⟩
    refine ⟨i, hi, g1.2.2, fun j hj => ?_⟩
    rcases g2 j hj with h | h | h
    · exact absurd h (hv j (by omega))
    · exact absurd h (hw j (by omega))
    · exact h.2.2
  · rintro ⟨i, hi, g1, g2⟩
    exact ⟨i, hi, ⟨hv i hi, hw i hi, g1⟩, fun j hj => Or.inr (Or.inr ⟨hv j (by omega), hw j (by omega), g2 j hj⟩)⟩

/-- **C123** On vectors without NaN `operator<` is a strict weak order, as ordered containers require: irreflexive (even with NaN), asymmetric, transitive, and two vectors
neither of which is below the other hold the same numbers. They need not be equal for `operator==`, which tells `+0` from `-0` (C09). -/
theorem C123_weak_order (cfg : Cfg) (u v w : Vec M (Fp F)) :
    v.lt cfg v = .ok false ∧
    ((∀ i (h : i < M), u[i] ≠ .nan) → (∀ i (h : i < M), v[i] ≠ .nan) → (∀ i (h : i < M), w[i] ≠ .nan) →
      (u.lt cfg v = .ok true → v.lt cfg w = .ok true → u.lt cfg w = .ok true) ∧
      ¬ (v.lt cfg w = .ok true ∧ w.lt cfg v = .ok true) ∧
      ((v.lt cfg w = .ok false ∧ w.lt cfg v = .ok false) ↔ ∀ i (h : i < M), Spec.Same v[i] w[i])) := by
  constructor
  · obtain ⟨b, h1, h2⟩ := C123_less cfg v v
    rw [h1]
    cases b with
    | false => rfl
    | true =>
      obtain ⟨i, hi, g, -⟩ := h2.1 rfl
      exact absurd g.2.2 (lt_irrefl _)
  · intro hu hv hw
    have hf : ∀ a b : Vec M (Fp F), a.lt cfg b = .ok false ↔ ¬ a.lt cfg b = .ok true := by
      intro a b
      obtain ⟨x, h1, -⟩ := C123_less cfg a b
      rw [h1]
      cases x <;> simp
    have key : ∀ a b : Vec M EReal, a.lt cfg b = .ok true ↔ Spec.LexLt a b := by
      intro a b
      obtain ⟨x, h1, h2⟩ := C08_lt_is_lexicographic cfg a b
      rw [h1, ← h2]
      exact ⟨fun h => Except.ok.inj h, fun h => by rw [h]⟩
    obtain ⟨-, k1, k2, k3⟩ := C08_strict_total_order cfg (toE u) (toE v) (toE w)
    simp only [key] at k1 k2 k3
    rw [hf, hf, lt_toE cfg u v hu hv, lt_toE cfg v w hv hw, lt_toE cfg u w hu hw, lt_toE cfg w v hw hv]
    refine ⟨k1, k3, ?_, ?_⟩
    · rintro ⟨n1, n2⟩ i hi
      have e : toE v = toE w := by tauto
      refine ⟨hv i hi, hw i hi, ?_⟩
      have := congrArg (fun z : Vec M EReal => z[i]) e
      simpa [toE] using this
    · intro h
      have e : toE v = toE w := by
        ext i hi
        simpa [toE] using (h i hi).2.2
      rw [e]
      have irr : ¬ Spec.LexLt (toE w) (toE w) := by rintro ⟨i, hi, g, -⟩; exact lt_irrefl _ g
      exact ⟨irr, irr⟩

/-! ## Extrema -/

private theorem min_nan (lt : Fp F → Fp F → Prop) [∀ a b, Decidable (lt a b)] (f : Fp F → EReal) (hc : ∀ a b, lt a b ↔ a ≠ .nan ∧ b ≠ .nan ∧ f a < f b) (hM : 0 < M) (v : Vec M (Fp F)) :
    ∃ k, v.minElement (fun a b => decide (lt a b)) = .ok k ∧ ∃ hk : k < M,
      (v[0] = .nan → k = 0) ∧ (v[0] ≠ .nan → v[k] ≠ .nan ∧ (∀ j (hj : j < M), v[j] ≠ .nan → f v[k] ≤ f v[j]) ∧
        ∀ j (hj : j < k), (v[j]'(by omega)) ≠ .nan → f v[k] < f (v[j]'(by omega))) := by
  obtain ⟨k, h1, hk, h2, h3, h4⟩ := loop_ok (n := M - 1) (s := 0)
    (body := fun i best => do
      if decide (lt (← v.rawGet (i + 1)) (← v.rawGet best)) then pure (i + 1) else pure best)
    (fun n k => ∃ hk : k < M, k ≤ n ∧ (v[0] = .nan → k = 0) ∧ (v[0] ≠ .nan → v[k] ≠ .nan ∧ (∀ j (hj : j < M), j ≤ n → v[j] ≠ .nan → f v[k] ≤ f v[j]) ∧
      ∀ j (hj : j < k), (v[j]'(by omega)) ≠ .nan → f v[k] < f (v[j]'(by omega))))
    ⟨hM, le_rfl, fun _ => rfl, fun h => ⟨h, by
      intro j hj h0 _
      obtain rfl : j = 0 := by omega
      exact le_rfl, by intro j hj; omega⟩⟩
    (by
      rintro n hn k ⟨hk, h1, h2, h3⟩
      have hn1 : n + 1 < M := by omega
      simp only [rawGet_lt v hn1, rawGet_lt v hk, bind_ok]
      by_cases hcmp : lt v[n + 1] v[k]
      · obtain ⟨c1, c2, c3⟩ := (hc _ _).1 hcmp
        refine ⟨n + 1, by simp [hcmp], hn1, le_rfl, ?_, ?_⟩
        · intro h0
          obtain rfl := h2 h0
          exact absurd h0 c2
        · intro h0
          obtain ⟨-, g2, g3⟩ := h3 h0
          refine ⟨c1, ?_, ?_⟩
          · intro j hj hjn hn'
            rcases Nat.lt_or_ge j (n + 1) with h | h
            · exact c3.le.trans (g2 j hj (by omega) hn')
            · obtain rfl : j = n + 1 := by omega
              exact le_rfl
          · intro j hj hn'
            exact c3.trans_le (g2 j (by omega) (by omega) hn')
      · refine ⟨k, by simp [hcmp], hk, by omega, h2, ?_⟩
        intro h0
        obtain ⟨g1, g2, g3⟩ := h3 h0
        refine ⟨g1, ?_, g3⟩
        intro j hj hjn hn'
        rcases Nat.lt_or_ge j (n + 1) with h | h
        · exact g2 j hj (by omega) hn'
        · obtain rfl : j = n + 1 := by omega
          exact not_lt.1 (fun hh => hcmp ((hc _ _).2 ⟨hn', g1, hh⟩)))
  exact ⟨k, h1, hk, h3, fun h0 => ⟨(h4 h0).1, fun j hj => (h4 h0).2.1 j hj (by omega), (h4 h0).2.2⟩⟩

/-- **C123** `find_min_index` and `find_min` of a non-empty vector: unless the first component is NaN, the first of the least components that are not NaN; if it is NaN, that
one, whatever the others are. -/
theorem C123_min (hM : 0 < M) (v : Vec M (Fp F)) :
    ∃ k, ∃ hk : k < M, v.findMinIndex = .ok k ∧ v.findMin = .ok v[k] ∧ (v[0] = .nan → k = 0) ∧
      (v[0] ≠ .nan → v[k] ≠ .nan ∧ (∀ j (hj : j < M), v[j] ≠ .nan → Spec.ereal v[k] ≤ Spec.ereal v[j]) ∧
        ∀ j (hj : j < k), (v[j]'(by omega)) ≠ .nan → Spec.ereal v[k] < Spec.ereal (v[j]'(by omega))) := by
  obtain ⟨k, h1, hk, h2, h3⟩ := min_nan (fun a b : Fp F => a < b) Spec.ereal (fun a b => Fp.lt_below) hM v
  exact ⟨k, hk, h1, by unfold findMin findMinIndex; rw [h1, bind_ok, rawGet_lt v hk], h2, h3⟩

/-- **C123** `find_max_index` and `find_max`, likewise. -/
theorem C123_max (hM : 0 < M) (v : Vec M (Fp F)) :
    ∃ k, ∃ hk : k < M, v.findMaxIndex = .ok k ∧ v.findMax = .ok v[k] ∧ (v[0] = .nan → k = 0) ∧
      (v[0] ≠ .nan → v[k] ≠ .nan ∧ (∀ j (hj : j < M), v[j] ≠ .nan → Spec.ereal v[j] ≤ Spec.ereal v[k]) ∧
        ∀ j (hj : j < k), (v[j]'(by omega)) ≠ .nan → Spec.ereal (v[j]'(by omega)) < Spec.ereal v[k]) := by
  obtain ⟨k, h1, hk, h2, h3⟩ := min_nan (fun a b : Fp F => b < a) (fun a => -Spec.ereal a) (fun a b => by
    rw [Fp.lt_below]
    unfold Spec.Below
    rw [EReal.neg_lt_neg_iff]
    tauto) hM v
  have h1' : v.findMaxIndex = .ok k := (maxElement_eq_minElement _ v).trans h1
  refine ⟨k, hk, h1', by unfold findMax; rw [h1', bind_ok, rawGet_lt v hk], h2, fun h0 => ?_⟩
  obtain ⟨g1, g2, g3⟩ := h3 h0
  exact ⟨g1, fun j hj hn => EReal.neg_le_neg_iff.1 (g2 j hj hn), fun j hj hn => EReal.neg_lt_neg_iff.1 (g3 j hj hn)⟩

/-! ## `clamp` -/

/-- **C123** `clamp( lo, hi )` with `lo` not above `hi`: every component that is not NaN ends between the bounds; one that is inside is unchanged to the bit, one below becomes `lo`,
one above `hi`; a NaN stays. -/
theorem C123_clamp (v : Vec M (Fp F)) (lo hi : Fp F) (hl : lo ≠ .nan) (hh : hi ≠ .nan) (hlh : Spec.ereal lo ≤ Spec.ereal hi) :
    ∃ r, v.clamp lo hi = .ok r ∧ ∀ i (h : i < M),
      (v[i] = .nan → r[i] = .nan) ∧
      (v[i] ≠ .nan → r[i] ≠ .nan ∧ Spec.ereal lo ≤ Spec.ereal r[i] ∧ Spec.ereal r[i] ≤ Spec.ereal hi) ∧
      (Spec.Below v[i] lo → r[i] = lo) ∧ (Spec.Below hi v[i] → r[i] = hi) ∧
      (v[i] ≠ .nan → Spec.ereal lo ≤ Spec.ereal v[i] → Spec.ereal v[i] ≤ Spec.ereal hi → r[i] = v[i]) := by
  have hnot : ¬ hi < lo := fun h => absurd ((Fp.lt_iff hh hl).1 h) (not_lt.2 hlh)
  have hc : v.clamp lo hi = .ok (Vector.ofFn fun i : Fin M => if v[i] < lo then lo else if hi < v[i] then hi else v[i]) := by
    unfold Vec.clamp
    apply loop_set
    intro i hi' u hu
    have e : u[i] = v[i] := hu i hi' le_rfl
    simp only [rawGet_lt _ hi', bind_ok, e, Fin.getElem_fin]
    by_cases h1 : v[i] < lo
    · simp only [h1, if_true, rawSet_lt _ _ hi', bind_ok, Vector.getElem_set_self]
      simp [hnot]
    · simp only [h1, if_false, pure_ok, bind_ok, e]
      by_cases h2 : hi < v[i]
      · simp [h2, hi']
      · simp only [h2, if_false]
        congr 1
        rw [← e]
        simp
  refine ⟨_, hc, fun i h => ?_⟩
  simp only [Vector.getElem_ofFn, Fin.getElem_fin]
  refine ⟨?_, ?_, ?_, ?_, ?_⟩
  · intro hn
    rw [hn, if_neg (Fp.not_lt_nan_left _), if_neg (Fp.not_lt_nan_right _)]
  · intro hn
    split_ifs with h1 h2
    · exact ⟨hl, le_rfl, hlh⟩
    · exact ⟨hh, hlh, le_rfl⟩
    · exact ⟨hn, not_lt.1 fun hx => h1 ((Fp.lt_iff hn hl).2 hx), not_lt.1 fun hx => h2 ((Fp.lt_iff hh hn).2 hx)⟩
  · intro hb
    rw [if_pos (Fp.lt_below.2 hb)]
  · intro hb
    have : ¬ v[i] < lo := fun hx => absurd ((Fp.lt_iff hb.2.1 hl).1 hx) (not_lt.2 (hlh.trans hb.2.2.le))
    rw [if_neg this, if_pos (Fp.lt_below.2 hb)]
  · intro hn h1 h2
    rw [if_neg (fun hx => absurd ((Fp.lt_iff hn hl).1 hx) (not_lt.2 h1)), if_neg (fun hx => absurd ((Fp.lt_iff hh hn).1 hx) (not_lt.2 h2))]

/-! ## Equality up to a tolerance -/

private theorem round_cases (y : ℝ) (hy : 0 ≤ y) :
    (F.rnd y ≤ F.maxFinite ∧ (Fp.round false y : Fp F).Finite ∧ (Fp.round false y : Fp F).val = F.rnd y) ∨ (F.maxFinite < F.rnd y ∧ (Fp.round false y : Fp F) = .inf false) := by
  rcases le_or_gt (F.rnd y) F.maxFinite with h | h
  · left
    rw [Fp.round_eq hy h]
    exact ⟨h, trivial, by simp⟩
  · exact Or.inr ⟨h, Fp.round_inf h⟩

private theorem fabs_sub {a b : Fp F} (ha : a.Finite) (hb : b.Finite) :
    (F.rnd |a.val - b.val| ≤ F.maxFinite ∧ (CMath.fabs (a - b)).Finite ∧ (CMath.fabs (a - b)).val = F.rnd |a.val - b.val|) ∨
    (F.maxFinite < F.rnd |a.val - b.val| ∧ CMath.fabs (a - b) = .inf false) := by
  obtain ⟨s, m, hm, rfl⟩ := Fp.finite_cases ha
  obtain ⟨t, n, hn, rfl⟩ := Fp.finite_cases hb
  obtain ⟨x, hx⟩ : ∃ x, x = (Fp.fin s m hm).val + (Fp.fin (!t) n hn).val := ⟨_, rfl⟩
  have hx' : x = (Fp.fin s m hm).val - (Fp.fin t n hn).val := by
    rw [hx]
    have : (Fp.fin (!t) n hn).val = -(Fp.fin t n hn).val := by cases t <;> simp
    rw [this, sub_eq_add_neg]
  have hsub : (Fp.fin s m hm - Fp.fin t n hn : Fp F) =
      @ite _ (x = 0) (Classical.propDecidable _) (Fp.fin (s && !t) 0 mag_zero) (Fp.round (@decide (x < 0) (Classical.propDecidable _)) |x|) := by rw [hx]; rfl
  rw [← hx', hsub]
  by_cases h0 : x = 0
  · left
    rw [if_pos h0, h0, abs_zero, rnd_zero]
    refine ⟨F.maxFinite_pos.le, trivial, ?_⟩
    show (Fp.fin false 0 mag_zero : Fp F).val = 0
    simp
  · rw [if_neg h0]
    rcases le_or_gt (F.rnd |x|) F.maxFinite with h | h
    · left
      rw [Fp.round_eq (abs_nonneg x) h]
      refine ⟨h, trivial, ?_⟩
      show (Fp.fin false (F.rnd |x|) _ : Fp F).val = _
      simp
    · right
      rw [Fp.round_inf h]
      exact ⟨h, rfl⟩

/-- Not even the first comparison is affected by the order of the operands. -/
private theorem fabs_sub_comm (a b : Fp F) : Spec.ereal (CMath.fabs (a - b)) = Spec.ereal (CMath.fabs (b - a)) ∧ (CMath.fabs (a - b) = .nan ↔ CMath.fabs (b - a) = .nan) := by
  cases a with
  | nan => cases b <;> exact ⟨rfl, Iff.rfl⟩
  | inf s => cases b with
    | nan => exact ⟨rfl, Iff.rfl⟩
    | inf t => cases s <;> cases t <;> exact ⟨rfl, Iff.rfl⟩
    | fin t n hn => exact ⟨rfl, Iff.rfl⟩
  | fin s m hm => cases b with
    | nan => exact ⟨rfl, Iff.rfl⟩
    | inf t => exact ⟨rfl, Iff.rfl⟩
    | fin t n hn =>
      have h1 := fabs_sub (a := Fp.fin s m hm) (b := Fp.fin t n hn) trivial trivial
      have h2 := fabs_sub (a := Fp.fin t n hn) (b := Fp.fin s m hm) trivial trivial
      rw [abs_sub_comm (Fp.fin t n hn).val] at h2
      rcases h1 with ⟨p1, p2, p3⟩ | ⟨p1, p2⟩ <;> rcases h2 with ⟨q1, q2, q3⟩ | ⟨q1, q2⟩
      · rw [Fp.ereal_val p2, Fp.ereal_val q2, p3, q3]
        exact ⟨rfl, iff_of_false p2.ne_nan q2.ne_nan⟩
      · linarith
      · linarith
      · rw [p2, q2]
        exact ⟨rfl, Iff.rfl⟩

private theorem sub_lt {a b t : Fp F} (ha : a.Finite) (hb : b.Finite) (ht : t.Finite) : CMath.fabs (a - b) < t ↔ F.rnd |a.val - b.val| < t.val := by
  rcases fabs_sub ha hb with ⟨h1, h2, h3⟩ | ⟨h1, h2⟩
  · rw [Fp.lt_val h2 ht, h3]
  · rw [h2, Fp.lt_iff (by simp) ht.ne_nan, Fp.ereal_val ht]
    have := (abs_le.1 (Fp.abs_val_le t)).2
    refine iff_of_false ?_ (by linarith)
    show ¬ (⊤ : EReal) < _
    exact not_top_lt

private theorem le_sub {a b t : Fp F} (ha : a.Finite) (hb : b.Finite) (ht : t.Finite) : t ≤ CMath.fabs (a - b) ↔ t.val ≤ F.rnd |a.val - b.val| := by
  rcases fabs_sub ha hb with ⟨h1, h2, h3⟩ | ⟨h1, h2⟩
  · rw [Fp.le_val ht h2, h3]
  · rw [h2, Fp.le_iff ht.ne_nan (by simp), Fp.ereal_val ht]
    have := (abs_le.1 (Fp.abs_val_le t)).2
    refine iff_of_true ?_ (by linarith)
    show _ ≤ (⊤ : EReal)
    exact le_top

/-- The rounded difference of two finite numbers is below the tolerance. -/
def Spec.Near (t : ℝ) (a b : Fp F) : Prop := a.Finite ∧ b.Finite ∧ F.rnd |a.val - b.val| < t

/-- **C123** What a rounded difference below the tolerance says about the exact one: it is below the tolerance too; and conversely a difference below the tolerance by a relative margin of
`u` is accepted. So `equals` errs only for differences within one rounding below the tolerance. -/
theorem C123_tolerance (a b t : Fp F) (ht : t.Finite) :
    (Spec.Near t.val a b → |a.val - b.val| < t.val) ∧ (a.Finite → b.Finite → (1 + F.u) * |a.val - b.val| < t.val → Spec.Near t.val a b) := by
  constructor
  · rintro ⟨-, -, h⟩
    by_contra hc
    exact absurd (rep_le_rnd (Fp.rep_val ht) (not_lt.1 hc)) (not_le.2 h)
  · intro ha hb h
    refine ⟨ha, hb, ?_⟩
    have hg : F.Grid (a.val - b.val) := by rw [sub_eq_add_neg]; exact (Fp.rep_val ha).grid.add (Fp.rep_val hb).grid.neg
    have he := hg.rnd_err
    rw [rnd_abs]
    have := abs_sub_abs_le_abs_sub (F.rnd (a.val - b.val)) (a.val - b.val)
    linarith

private theorem near_inf {s t : Bool} {tol : Fp F} (ht : tol.Finite) : ¬ tol ≤ CMath.fabs (.inf s - .inf t) ↔ s = t := by
  by_cases h : s = t
  · subst h
    have : (CMath.fabs (.inf s - .inf s) : Fp F) = .nan := by cases s <;> rfl
    rw [this]
    exact iff_of_true (Fp.not_le_nan_right _) rfl
  · have : (CMath.fabs (.inf s - .inf t) : Fp F) = .inf false := by cases s <;> cases t <;> first | rfl | exact absurd rfl h
    rw [this, Fp.le_iff ht.ne_nan (by simp)]
    refine iff_of_false (not_not.2 ?_) h
    show _ ≤ (⊤ : EReal)
    exact le_top

private theorem inf_le {tol : Fp F} (ht : tol.Finite) : tol ≤ .inf false := by
  rw [Fp.le_iff ht.ne_nan (by simp)]
  show _ ≤ (⊤ : EReal)
  exact le_top

/-- **C123** `Vector::equals( other, tolerance )` for every pair of vectors and a finite tolerance: true exactly if in every component the rounded difference is below the tolerance, or both
are the same infinity, or (the flaw) one of them is NaN. -/
theorem C123_vector_equals (cfg : Cfg) (v w : Vec M (Fp F)) (tol : Fp F) (ht : tol.Finite) :
    ∃ b, v.equals cfg w tol = .ok b ∧ (b = true ↔ ∀ i (h : i < M), Spec.Near tol.val v[i] w[i] ∨ (∃ s, v[i] = .inf s ∧ w[i] = .inf s) ∨ v[i] = .nan ∨ w[i] = .nan) := by
  classical
  have key : ∀ a b : Fp F, ¬ tol ≤ CMath.fabs (a - b) ↔ (Spec.Near tol.val a b ∨ (∃ s, a = .inf s ∧ b = .inf s) ∨ a = .nan ∨ b = .nan) := by
    intro a b
    cases a with
    | nan =>
      have : (CMath.fabs (.nan - b) : Fp F) = .nan := by cases b <;> rfl
      rw [this]
      exact iff_of_true (Fp.not_le_nan_right _) (Or.inr (Or.inr (Or.inl rfl)))
    | inf s => cases b with
      | nan => exact iff_of_true (Fp.not_le_nan_right _) (Or.inr (Or.inr (Or.inr rfl)))
      | inf t =>
        rw [near_inf ht]
        constructor
        · rintro rfl; exact Or.inr (Or.inl ⟨s, rfl, rfl⟩)
        · rintro (h | ⟨r, h1, h2⟩ | h | h)
          · exact absurd h.1 id
          · cases h1; cases h2; rfl
          · cases h
          · cases h
      | fin t n hn =>
        refine iff_of_false (not_not.2 (inf_le ht)) ?_
        rintro (h | ⟨r, h1, h2⟩ | h | h)
        · exact absurd h.1 id
        · cases h2
        · cases h
        · cases h
    | fin s m hm => cases b with
      | nan => exact iff_of_true (Fp.not_le_nan_right _) (Or.inr (Or.inr (Or.inr rfl)))
      | inf t =>
        refine iff_of_false (not_not.2 (inf_le ht)) ?_
        rintro (h | ⟨r, h1, h2⟩ | h | h)
        · exact absurd h.2.1 id
        · cases h1
        · cases h
        · cases h
      | fin t n hn =>
        rw [le_sub (a := .fin s m hm) (b := .fin t n hn) trivial trivial ht, not_le]
        constructor
        · intro h; exact Or.inl ⟨trivial, trivial, h⟩
        · rintro (h | ⟨r, h1, h2⟩ | h | h)
          · exact h.2.2
          · cases h1
          · cases h
          · cases h
  let f : Nat → Option Bool := fun i => if h : i < M then
    (if tol ≤ CMath.fabs (v[i] - w[i]) then some false else none) else none
  have hl : v.equals cfg w tol = .ok ((firstSome f M).getD true) := by
    unfold Vec.equals
    rw [loopRet_eq f (by
      intro i hi
      simp only [atGet_lt cfg _ hi, bind_ok, f, hi, dite_true, pure_ok]
      split_ifs <;> rfl)]
    rfl
  refine ⟨_, hl, ?_⟩
  simp only [← key]
  constructor
  · intro h i hi hc
    have hn : firstSome f M ≠ none := by
      intro hn
      have := (firstSome_eq_none f M).1 hn i hi
      simp [f, hi, hc] at this
    obtain ⟨b, hb⟩ := Option.ne_none_iff_exists'.1 hn
    obtain ⟨k, hk, h1, -⟩ := (firstSome_eq_some f M b).1 hb
    simp only [f, hk, dite_true] at h1
    split_ifs at h1
    · simp only [Option.some.injEq] at h1
      subst h1
      simp [hb] at h
  · intro h
    have : firstSome f M = none := (firstSome_eq_none f M).2 fun i hi => by
      simp [f, hi, h i hi]
    simp [this]

/-- **C123** `Vector::equals` is symmetric for all vectors and tolerances, NaN included, and holds between a vector and itself for every positive finite tolerance. -/
theorem C123_equals_laws (cfg : Cfg) (v w : Vec M (Fp F)) (tol : Fp F) :
    v.equals cfg w tol = w.equals cfg v tol ∧ (tol.Finite → 0 < tol.val → v.equals cfg v tol = .ok true) := by
  constructor
  · unfold Vec.equals
    have e : ∀ i, i < M → (do if tol ≤ CMath.fabs ((← v.atGet cfg i) - (← w.atGet cfg i)) then pure (some false) else pure none : Res (Option Bool)) =
        .ok (if h : i < M then (if tol ≤ CMath.fabs (w[i] - v[i]) then some false else none) else none) := by
      intro i hi
      simp only [atGet_lt cfg _ hi, bind_ok, hi, dite_true, pure_ok]
      have : tol ≤ CMath.fabs (v[i] - w[i]) ↔ tol ≤ CMath.fabs (w[i] - v[i]) := by
        obtain ⟨h1, h2⟩ := fabs_sub_comm v[i] w[i]
        by_cases ht : tol = .nan
        · subst ht; exact iff_of_false (Fp.not_le_nan_left _) (Fp.not_le_nan_left _)
        by_cases hn : CMath.fabs (v[i] - w[i]) = .nan
        · rw [hn, h2.1 hn]
        · rw [Fp.le_iff ht hn, Fp.le_iff ht (fun h => hn (h2.2 h)), h1]
      simp only [this]
      split_ifs <;> rfl
    have e' : ∀ i, i < M → (do if tol ≤ CMath.fabs ((← w.atGet cfg i) - (← v.atGet cfg i)) then pure (some false) else pure none : Res (Option Bool)) =
        .ok (if h : i < M then (if tol ≤ CMath.fabs (w[i] - v[i]) then some false else none) else none) := by
      intro i hi
      simp only [atGet_lt cfg _ hi, bind_ok, hi, dite_true, pure_ok]
      split_ifs <;> rfl
    rw [loopRet_eq _ e, loopRet_eq _ e']
  · intro ht hpos
    obtain ⟨b, h1, h2⟩ := C123_vector_equals cfg v v tol ht
    rw [h1]
    congr 1
    refine h2.2 fun i hi => ?_
    cases hv : v[i] with
    | nan => exact Or.inr (Or.inr (Or.inl rfl))
    | inf s => exact Or.inr (Or.inl ⟨s, rfl, rfl⟩)
    | fin s m hm =>
      refine Or.inl ⟨trivial, trivial, ?_⟩
      rw [sub_self, abs_zero, rnd_zero]; exact hpos

/-- **C123** `Matrix::equals( other, tolerance )` for every pair of matrices and a finite tolerance: true exactly if every two entries are finite and their rounded difference is below the
tolerance. (A matrix with an infinite entry is not equal to itself, unlike a vector.) -/
theorem C123_matrix_equals (cfg : Cfg) (a b : Mat M N (Fp F)) (tol : Fp F) (ht : tol.Finite) :
    ∃ r, a.equals cfg b tol = .ok r ∧ (r = true ↔ ∀ i j, Spec.Near tol.val (a.get i j) (b.get i j)) := by
  have key : ∀ a b : Fp F, CMath.fabs (a - b) < tol ↔ Spec.Near tol.val a b := by
    intro a b
    have hinf : ¬ (.inf false : Fp F) < tol := by
      rw [Fp.lt_iff (by simp) ht.ne_nan]
      show ¬ (⊤ : EReal) < _
      exact not_top_lt
    cases a with
    | nan =>
      have : (CMath.fabs (.nan - b) : Fp F) = .nan := by cases b <;> rfl
      rw [this]
      exact iff_of_false (Fp.not_lt_nan_left _) (fun h => h.1)
    | inf s => cases b with
      | nan => exact iff_of_false (Fp.not_lt_nan_left _) (fun h => h.1)
      | inf t =>
        refine iff_of_false ?_ (fun h => h.1)
        cases s <;> cases t <;> first | exact Fp.not_lt_nan_left _ | exact hinf
      | fin t n hn => exact iff_of_false hinf (fun h => h.1)
    | fin s m hm => cases b with
      | nan => exact iff_of_false (Fp.not_lt_nan_left _) (fun h => h.2.1)
      | inf t => exact iff_of_false hinf (fun h => h.2.1)
      | fin t n hn =>
        rw [sub_lt (a := .fin s m hm) (b := .fin t n hn) trivial trivial ht]
        exact ⟨fun h => ⟨trivial, trivial, h⟩, fun h => h.2.2⟩
  obtain ⟨r, h1, h2⟩ := loop_all2 (M := M) (N := N)
    (body := fun r c ok => if ok then do
      pure (decide (CMath.fabs ((← a.atGet cfg r c) - (← b.atGet cfg r c)) < tol)) else pure ok)
    (fun r c => decide (CMath.fabs (a.get r c - b.get r c) < tol)) (by
      intro r hr c hc ok
      cases ok <;> simp [hr, hc])
  refine ⟨r, h1, h2.trans ?_⟩
  simp only [decide_eq_true_iff, key]

/-- **C123** `operator==` of matrices and of quaternions in IEEE arithmetic: true exactly if all elements are the same numbers; `+0` and `-0` are, NaN is not even equal to itself. -/
theorem C123_equal (a b : Mat M N (Fp F)) (q r : Quat (Fp F)) :
    (∃ x, a.eqOp b = .ok x ∧ a.neOp b = .ok (!x) ∧ (x = true ↔ ∀ i j, Spec.Same (a.get i j) (b.get i j))) ∧
    (q.eq r = true ↔ Spec.Same q.w r.w ∧ Spec.Same q.x r.x ∧ Spec.Same q.y r.y ∧ Spec.Same q.z r.z) ∧ q.ne r = !q.eq r := by
  refine ⟨?_, ?_, rfl⟩
  · obtain ⟨x, h1, h2, h3⟩ := C48_eq a b
    exact ⟨x, h1, h2, h3.trans (forall_congr' fun i => forall_congr' fun j => Fp.beq_same)⟩
  · unfold Quat.eq
    simp only [Bool.and_eq_true, Fp.beq_same, and_assoc]

/-! ## Extrema of matrices -/

private theorem fold_min (n : ℕ) (g : ℕ → Fp F) (s0 : Fp F) (h0 : s0 ≠ .nan) {body : ℕ → Fp F → Res (Fp F)}
    (hb : ∀ i s, i < n → body i s = .ok (if g i < s then g i else s)) :
    ∃ x, loop n body s0 = .ok x ∧ x ≠ .nan ∧ IsLeast (insert (Spec.ereal s0) {e | ∃ i, i < n ∧ g i ≠ .nan ∧ Spec.ereal (g i) = e}) (Spec.ereal x) := by
  refine loop_ok (fun k x => x ≠ .nan ∧ IsLeast (insert (Spec.ereal s0) {e | ∃ i, i < k ∧ g i ≠ .nan ∧ Spec.ereal (g i) = e}) (Spec.ereal x))
    ⟨h0, by simp [IsLeast, lowerBounds]⟩ ?_
  rintro k hk x ⟨hx, hm, hl⟩
  refine ⟨_, hb k x hk, ?_⟩
  have hle : ∀ y, (∀ e ∈ insert (Spec.ereal s0) {e | ∃ i, i < k ∧ g i ≠ .nan ∧ Spec.ereal (g i) = e}, y ≤ e) → (g k ≠ .nan → y ≤ Spec.ereal (g k)) →
      y ∈ lowerBounds (insert (Spec.ereal s0) {e | ∃ i, i < k + 1 ∧ g i ≠ .nan ∧ Spec.ereal (g i) = e}) := by
    intro y h1 h2 e he
    rcases he with rfl | ⟨i, hi, hn, rfl⟩
    · exact h1 _ (Or.inl rfl)
    · rcases Nat.lt_or_ge i k with h | h
      · exact h1 _ (Or.inr ⟨i, h, hn, rfl⟩)
      · obtain rfl : i = k := by omega
        exact h2 hn
  by_cases hlt : g k < x
  · obtain ⟨n1, -, n3⟩ := Fp.lt_below.1 hlt
    rw [if_pos hlt]
    exact ⟨n1, Or.inr ⟨k, by omega, n1, rfl⟩, hle _ (fun e he => n3.le.trans (hl he)) fun _ => le_rfl⟩
  · rw [if_neg hlt]
    refine ⟨hx, ?_, hle _ (fun e he => hl he) fun hn => not_lt.1 fun h => hlt ((Fp.lt_iff hn hx).2 h)⟩
    rcases hm with h | ⟨i, hi, hn, he⟩
    · exact Or.inl h
    · exact Or.inr ⟨i, by omega, hn, he⟩

private theorem fold_max (n : ℕ) (g : ℕ → Fp F) (s0 : Fp F) (h0 : s0 ≠ .nan) {body : ℕ → Fp F → Res (Fp F)}
    (hb : ∀ i s, i < n → body i s = .ok (if s < g i then g i else s)) :
    ∃ x, loop n body s0 = .ok x ∧ x ≠ .nan ∧ IsGreatest (insert (Spec.ereal s0) {e | ∃ i, i < n ∧ g i ≠ .nan ∧ Spec.ereal (g i) = e}) (Spec.ereal x) := by
  refine loop_ok (fun k x => x ≠ .nan ∧ IsGreatest (insert (Spec.ereal s0) {e | ∃ i, i < k ∧ g i ≠ .nan ∧ Spec.ereal (g i) = e}) (Spec.ereal x))
    ⟨h0, by simp [IsGreatest, upperBounds]⟩ ?_
  rintro k hk x ⟨hx, hm, hl⟩
  refine ⟨_, hb k x hk, ?_⟩
  have hle : ∀ y, (∀ e ∈ insert (Spec.ereal s0) {e | ∃ i, i < k ∧ g i ≠ .nan ∧ Spec.ereal (g i) = e}, e ≤ y) → (g k ≠ .nan → Spec.ereal (g k) ≤ y) →
      y ∈ upperBounds (insert (Spec.ereal s0) {e | ∃ i, i < k + 1 ∧ g i ≠ .nan ∧ Spec.ereal (g i) = e}) := by
    intro y h1 h2 e he
    rcases he with rfl | ⟨i, hi, hn, rfl⟩
    · exact h1 _ (Or.inl rfl)
    · rcases Nat.lt_or_ge i k with h | h
      · exact h1 _ (Or.inr ⟨i, h, hn, rfl⟩)
      · obtain rfl : i = k := by omega
        exact h2 hn
  by_cases hlt : x < g k
  · obtain ⟨-, n1, n3⟩ := Fp.lt_below.1 hlt
    rw [if_pos hlt]
    exact ⟨n1, Or.inr ⟨k, by omega, n1, rfl⟩, hle _ (fun e he => (hl he).trans n3.le) fun _ => le_rfl⟩
  · rw [if_neg hlt]
    refine ⟨hx, ?_, hle _ (fun e he => hl he) fun hn => not_lt.1 fun h => hlt ((Fp.lt_iff hx hn).2 h)⟩
    rcases hm with h | ⟨i, hi, hn, he⟩
    · exact Or.inl h
    · exact Or.inr ⟨i, by omega, hn, he⟩

/-- The numbers among the elements of a matrix. -/
def Spec.numbers (m : Mat M N (Fp F)) : Set EReal := {e | ∃ i j, m.get i j ≠ .nan ∧ Spec.ereal (m.get i j) = e}

private theorem numbers_array (m : Mat M N (Fp F)) (g : ℕ → Fp F) (hg : ∀ i (h : i < M * N), g i = m.array[i]) :
    {e | ∃ i, i < M * N ∧ g i ≠ .nan ∧ Spec.ereal (g i) = e} = Spec.numbers m := by
  ext e
  constructor
  · rintro ⟨i, hi, hn, rfl⟩
    rw [hg i hi] at hn ⊢
    obtain ⟨r, c, hrc⟩ : ∃ (r : Fin M) (c : Fin N), m.get r c = m.array[i] := by
      have hM : 0 < M := Nat.pos_of_ne_zero fun h => by subst h; simp at hi
      refine ⟨⟨i % M, Nat.mod_lt _ hM⟩, ⟨i / M, Nat.div_lt_of_lt_mul hi⟩, ?_⟩
      unfold Mat.get
      congr 1
      show i / M * M + i % M = i
      exact Nat.div_add_mod' i M
    rw [← hrc] at hn ⊢
    exact ⟨r, c, hn, rfl⟩
  · rintro ⟨r, c, hn, rfl⟩
    have hlt : c.1 * M + r.1 < M * N := by
      have h1 := r.2
      have h2 : c.1 + 1 ≤ N := c.2
      nlinarith [Nat.mul_le_mul_left M h2]
    refine ⟨c.1 * M + r.1, hlt, ?_⟩
    rw [hg _ hlt]
    exact ⟨hn, rfl⟩

/-- **C123** `get_min()` of a matrix of IEEE numbers is the least of `numeric_limits< T >::max()` and the elements that are not NaN, never NaN itself; `get_max()` is the greatest of 0 (the flaw
of C40) and those elements. -/
theorem C123_matrix_min_max (m : Mat M N (Fp F)) (maxT : Fp F) (hm : maxT ≠ .nan) :
    (∃ x, m.getMin maxT = .ok x ∧ x ≠ .nan ∧ IsLeast (insert (Spec.ereal maxT) (Spec.numbers m)) (Spec.ereal x)) ∧
    (∃ x, m.getMax = .ok x ∧ x ≠ .nan ∧ IsGreatest (insert 0 (Spec.numbers m)) (Spec.ereal x)) := by
  have hg : ∀ i (h : i < M * N), (fun i => if h : i < M * N then m.array[i] else maxT) i = m.array[i] := fun i h => dif_pos h
  constructor
  · rw [← numbers_array m _ hg]
    refine fold_min _ _ maxT hm ?_
    intro i s hi
    have hr : m.rawGet i = .ok m.array[i] := by unfold Mat.rawGet; exact Vec.rawGet_lt _ hi
    simp only [hr, Vmml.bind_ok, hi, dite_true]
    split_ifs <;> rfl
  · rw [← numbers_array m _ hg]
    have z : Spec.ereal (0 : Fp F) = 0 := by rw [Fp.ereal_val Fp.finite_zero, Fp.val_zero]; rfl
    rw [← z]
    refine fold_max _ _ 0 (by intro h; cases h) ?_
    intro i s hi
    have hr : m.rawGet i = .ok m.array[i] := by unfold Mat.rawGet; exact Vec.rawGet_lt _ hi
    simp only [hr, Vmml.bind_ok, hi, dite_true]
    split_ifs <;> rfl

/-! ## Concrete cases -/

/-- `+0` and `-0` are the same number, so neither `( +0 ) < ( -0 )` nor the converse, though they are different values. -/
example (cfg : Cfg) : (#v[(0 : Fp single)] : Vec 1 (Fp single)) ≠ #v[-0] ∧
    Vec.lt cfg (#v[(0 : Fp single)] : Vec 1 (Fp single)) #v[-0] = .ok false ∧ Vec.lt cfg (#v[-0] : Vec 1 (Fp single)) #v[0] = .ok false := by
  have hz : (0 : Fp single) ≠ .nan := fun h => by cases h
  have hz' : (-0 : Fp single) ≠ .nan := fun h => by cases h
  constructor
  · intro h
    have h' : (0 : Fp single) = -0 := by simpa using h
    have h2 : (Fp.fin false 0 mag_zero : Fp single) = .fin true 0 mag_zero := h'
    cases h2
  · have := (C123_weak_order cfg (#v[(0 : Fp single)] : Vec 1 (Fp single)) #v[(0 : Fp single)] #v[-0]).2
      (by intro i h; obtain rfl : i = 0 := by omega
          exact hz)
      (by intro i h; obtain rfl : i = 0 := by omega
          exact hz)
      (by intro i h; obtain rfl : i = 0 := by omega
          exact hz')
    refine this.2.2.2 ?_
    intro i h
    obtain rfl : i = 0 := by omega
    refine ⟨hz, hz', ?_⟩
    show Spec.ereal (0 : Fp single) = Spec.ereal (-0 : Fp single)
    rw [Fp.ereal_val Fp.finite_zero, Fp.ereal_val (Fp.finite_neg Fp.finite_zero), Fp.val_neg, Fp.val_zero, neg_zero]

/-- A NaN in front hides the least component: `find_min_index` of `( NaN, 1 )` is 0, that of `( 1, NaN, -1 )` is 2. -/
example : (∃ v : Vec 2 (Fp single), v[0] = .nan ∧ v[1] = 1 ∧ v.findMinIndex = .ok 0) ∧
    (∃ v : Vec 3 (Fp single), v[0] = 1 ∧ v[1] = .nan ∧ v[2] = -1 ∧ v.findMinIndex = .ok 2) := by
  have h0 : 0 < single.emax := by norm_num
  have o := Fp.one_fin (F := single) h0
  have fo : Spec.ereal (1 : Fp single) = ((1 : ℝ) : EReal) := by rw [Fp.ereal_val o.1, o.2]
  have fm : Spec.ereal (-1 : Fp single) = ((-1 : ℝ) : EReal) := by rw [Fp.ereal_val (Fp.finite_neg o.1), Fp.val_neg, o.2]
  constructor
  · refine ⟨#v[.nan, 1], rfl, rfl, ?_⟩
    obtain ⟨k, hk, h1, -, h2, -⟩ := C123_min (by norm_num) (#v[.nan, 1] : Vec 2 (Fp single))
    rw [h1, h2 rfl]
  · refine ⟨#v[1, .nan, -1], rfl, rfl, rfl, ?_⟩
    obtain ⟨k, hk, h1, -, -, h2⟩ := C123_min (by norm_num) (#v[1, .nan, -1] : Vec 3 (Fp single))
    obtain ⟨g1, g2, -⟩ := h2 o.1.ne_nan
    have g := g2 2 (by norm_num) (Fp.finite_neg o.1).ne_nan
    rw [h1]
    congr 1
    match k, hk, g1, g with
    | 0, _, _, g =>
      have g' : Spec.ereal (1 : Fp single) ≤ Spec.ereal (-1 : Fp single) := g
      rw [fo, fm, EReal.coe_le_coe_iff] at g'
      norm_num at g'
    | 1, _, g1, _ => exact absurd rfl g1
    | 2, _, _, _ => rfl

end Vmml
