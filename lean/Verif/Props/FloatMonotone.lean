import Verif.Props.FloatLaws
import Verif.Props.FloatFilter
import Verif.Props.LowpassFilter
import Verif.Model.MatrixStats

/-!
# C153: order survives rounding

Where the exact operation is monotone in an operand, so is the computed one: not up to an error, but exactly, for every format, for infinities as well as for
finite numbers, whatever overflows or underflows on the way. The proofs run the same program on two ordered inputs side by side.
-/

namespace Vmml
open Format
variable {F D : Format} {M N P U V : Nat}

/-! ## Specification -/

/-- If both are numbers (not NaN), the first is at most the second. -/
def Spec.Ord (a b : Fp F) : Prop := a ≠ .nan → b ≠ .nan → a ≤ b
/-- Component by component. -/
def Spec.VOrd (v w : Vec M (Fp F)) : Prop := ∀ i : Fin M, Spec.Ord v[i] w[i]
/-- Cell by cell. -/
def Spec.MOrd (a b : Mat M N (Fp F)) : Prop := ∀ r c, Spec.Ord (a.get r c) (b.get r c)
/-- Two calls that end alike: both return, and then with related results, or both fail in the same way. -/
def Spec.EndAlike {α β : Type} (R : α → β → Prop) (x : Res α) (y : Res β) : Prop := (∃ a b, x = .ok a ∧ y = .ok b ∧ R a b) ∨ ∃ e, x = .error e ∧ y = .error e

/-! ## The arithmetic -/

/-- The rounded value on the extended line. -/
private noncomputable def any (F : Format) (x : ℝ) : EReal := if x < 0 then -Spec.fpUp F (-x) else Spec.fpUp F x

private theorem any_mono {x y : ℝ} (h : x ≤ y) : any F x ≤ any F y := by
  unfold any
  by_cases hy : y < 0
  · rw [if_pos hy, if_pos (lt_of_le_of_lt h hy)]
    exact EReal.neg_le_neg_iff.2 (fpUp_mono (by linarith))
  · rw [if_neg hy]
    by_cases hx : x < 0
    · rw [if_pos hx]
      have h1 : -Spec.fpUp F (-x) ≤ 0 := by
        rw [← neg_zero (G := EReal)]
        exact EReal.neg_le_neg_iff.2 (fpUp_nonneg (by linarith))
      exact h1.trans (fpUp_nonneg (by linarith))
    · rw [if_neg hx]; exact fpUp_mono h

private theorem ereal_neg (a : Fp F) : Spec.ereal (-a) = -Spec.ereal a := by
  cases a with
  | nan => exact (neg_zero (G := EReal)).symm
  | inf s => cases s
             · exact (EReal.neg_top).symm
             · exact (EReal.neg_bot).symm
  | fin s m hm =>
    rw [Fp.ereal_val (a := (.fin s m hm : Fp F)) trivial, Fp.ereal_val (a := -(.fin s m hm : Fp F)) trivial, Fp.val_neg]
    exact EReal.coe_neg _

private theorem fpUp_zero : Spec.fpUp F 0 = 0 := by
  unfold Spec.fpUp; rw [rnd_zero, if_pos maxFinite_pos.le]; rfl

private theorem ereal_round_any {s : Bool} {m : ℝ} (hm : 0 ≤ m) : Spec.ereal (Fp.round s m : Fp F) = any F (if s then -m else m) := by
  cases s with
  | false =>
    rw [Fp.ereal_round hm]
    simp only [any, Bool.false_eq_true, if_false]
    rw [if_neg (not_lt.2 hm)]
  | true =>
    have : (Fp.round true m : Fp F) = -Fp.round false m := by rw [Fp.neg_round]; rfl
    rw [this, ereal_neg, Fp.ereal_round hm]
    simp only [any, if_true, neg_neg]
    by_cases h : -m < 0
    · rw [if_pos h]
    · have : m = 0 := by linarith
      subst this
      rw [if_neg h, neg_zero, fpUp_zero, neg_zero]

private theorem add_any {a b : Fp F} (ha : a.Finite) (hb : b.Finite) : a + b ≠ .nan ∧ Spec.ereal (a + b) = any F (a.val + b.val) := by
  obtain ⟨s, m, hm, rfl⟩ := Fp.finite_cases ha
  obtain ⟨t, n, hn, rfl⟩ := Fp.finite_cases hb
  obtain ⟨x, hx⟩ : ∃ x, x = (Fp.fin s m hm).val + (Fp.fin t n hn).val := ⟨_, rfl⟩
  have e : (Fp.fin s m hm + Fp.fin t n hn : Fp F) = if x = 0 then .fin (s && t) 0 mag_zero else .round (@decide (x < 0) (Classical.propDecidable _)) |x| := by rw [hx]; rfl
  rw [← hx, e]
  by_cases h0 : x = 0
  · rw [if_pos h0, h0]
    refine ⟨by simp, ?_⟩
    rw [any, if_neg (lt_irrefl _), fpUp_zero, Fp.ereal_val (a := (.fin (s && t) 0 mag_zero : Fp F)) trivial]
    cases s <;> cases t <;> simp
  · rw [if_neg h0]
    refine ⟨Fp.round_nan_free _ _, ?_⟩
    rw [ereal_round_any (abs_nonneg _)]
    congr 1
    by_cases hx : x < 0
    · rw [@decide_eq_true _ (Classical.propDecidable _) hx, abs_of_neg hx]; simp
    · rw [@decide_eq_false _ (Classical.propDecidable _) hx, abs_of_nonneg (not_lt.1 hx)]; simp

private theorem mul_any {a b : Fp F} (ha : a.Finite) (hb : b.Finite) : a * b ≠ .nan ∧ Spec.ereal (a * b) = any F (a.val * b.val) := by
  obtain ⟨s, m, hm, rfl⟩ := Fp.finite_cases ha
  obtain ⟨t, n, hn, rfl⟩ := Fp.finite_cases hb
  have e : (Fp.fin s m hm * Fp.fin t n hn : Fp F) = .round (s ^^ t) (m * n) := rfl
  rw [e]
  refine ⟨Fp.round_nan_free _ _, ?_⟩
  rw [ereal_round_any (mul_nonneg hm.1 hn.1)]
  congr 1
  cases s <;> cases t <;> simp

private theorem ord_iff {a b : Fp F} : Spec.Ord a b ↔ (a ≠ .nan → b ≠ .nan → Spec.ereal a ≤ Spec.ereal b) :=
  ⟨fun h ha hb => (Fp.le_iff ha hb).1 (h ha hb), fun h ha hb => (Fp.le_iff ha hb).2 (h ha hb)⟩

theorem Spec.Ord.rfl {a : Fp F} : Spec.Ord a a := ord_iff.2 fun _ _ => le_rfl

private theorem nan_add' (b : Fp F) : (.nan : Fp F) + b = .nan := rfl
private theorem add_nan' (b : Fp F) : b + (.nan : Fp F) = .nan := by cases b <;> rfl
private theorem nan_mul' (b : Fp F) : (.nan : Fp F) * b = .nan := rfl
private theorem mul_nan' (b : Fp F) : b * (.nan : Fp F) = .nan := by cases b <;> rfl

private theorem add_parts {a b : Fp F} (h : a + b ≠ .nan) : a ≠ .nan ∧ b ≠ .nan :=
  ⟨fun e => h (by rw [e, nan_add']), fun e => h (by rw [e, add_nan'])⟩

/-- On numbers, the sum on the extended line when it is defined. -/
private theorem add_inf {a : Fp F} {s : Bool} (h : (.inf s : Fp F) + a ≠ .nan) : (.inf s : Fp F) + a = .inf s := by
  cases a with
  | nan => exact absurd (add_nan' _) h
  | inf t =>
    have e : (.inf s : Fp F) + .inf t = if s = t then .inf s else .nan := rfl
    rw [e] at h ⊢
    split_ifs with hst
    · rfl
    · rw [if_neg hst] at h; exact absurd rfl h
  | fin t m hm => rfl

private theorem ereal_inf (s : Bool) : Spec.ereal (.inf s : Fp F) = if s then ⊥ else ⊤ := rfl

private theorem cases_fin {a : Fp F} (h : a ≠ .nan) : a.Finite ∨ a = .inf false ∨ a = .inf true := by
  cases a with
  | nan => exact absurd rfl h
  | inf s => cases s <;> simp
  | fin s m hm => exact .inl trivial

private theorem le_bot_cases {a : Fp F} (h : a ≠ .nan) (hb : Spec.ereal a ≤ ⊥) : a = .inf true := by
  rcases cases_fin h with f | rfl | rfl
  · rw [Fp.ereal_val f] at hb; exact absurd (le_bot_iff.1 hb) (EReal.coe_ne_bot _)
  · exact absurd (le_bot_iff.1 hb) (by rw [ereal_inf]; exact top_ne_bot)
  · rfl

private theorem top_le_cases {a : Fp F} (h : a ≠ .nan) (hb : ⊤ ≤ Spec.ereal a) : a = .inf false := by
  rcases cases_fin h with f | rfl | rfl
  · rw [Fp.ereal_val f] at hb; exact absurd (top_le_iff.1 hb) (EReal.coe_ne_top _)
  · rfl
  · exact absurd (top_le_iff.1 hb) (by rw [ereal_inf]; exact bot_ne_top)

theorem Spec.Ord.add {a b a' b' : Fp F} (h1 : Spec.Ord a a') (h2 : Spec.Ord b b') : Spec.Ord (a + b) (a' + b') := by
  rw [ord_iff] at *
  intro n1 n2
  obtain ⟨na, nb⟩ := add_parts n1
  obtain ⟨na', nb'⟩ := add_parts n2
  replace h1 := h1 na na'
  replace h2 := h2 nb nb'
  have left : ∀ {x y : Fp F}, x = .inf true → x + y ≠ .nan → Spec.ereal (x + y) ≤ Spec.ereal (a' + b') := by
    rintro x y rfl h; rw [add_inf h]; exact bot_le
  have right : ∀ {x y : Fp F}, x = .inf false → x + y ≠ .nan → Spec.ereal (a + b) ≤ Spec.ereal (x + y) := by
    rintro x y rfl h; rw [add_inf h]; exact le_top
  rcases cases_fin na with fa | ea | ea
  · rcases cases_fin na' with fa' | ea' | ea'
    · rcases cases_fin nb with fb | eb | eb
      · rcases cases_fin nb' with fb' | eb' | eb'
        · rw [(add_any fa fb).2, (add_any fa' fb').2]
          rw [Fp.ereal_val fa, Fp.ereal_val fa', EReal.coe_le_coe_iff] at h1
          rw [Fp.ereal_val fb, Fp.ereal_val fb', EReal.coe_le_coe_iff] at h2
          exact any_mono (by linarith)
        · rw [Fp.add_comm' a' b'] at n2 ⊢; exact right eb' n2
        · rw [eb', ereal_inf, if_pos _root_.rfl] at h2
          have := le_bot_cases nb h2
          rw [this] at fb; exact absurd fb id
      · rw [eb, ereal_inf, if_neg (by simp)] at h2
        have := top_le_cases nb' h2
        rw [Fp.add_comm' a' b'] at n2 ⊢; exact right this n2
      · rw [Fp.add_comm' a b] at n1 ⊢; exact left eb n1
    · exact right ea' n2
    · rw [ea', ereal_inf, if_pos _root_.rfl] at h1
      have := le_bot_cases na h1
      rw [this] at fa; exact absurd fa id
  · rw [ea, ereal_inf, if_neg (by simp)] at h1
    exact right (top_le_cases na' h1) n2
  · exact left ea n1

theorem Spec.Ord.neg {a b : Fp F} (h : Spec.Ord a b) : Spec.Ord (-b) (-a) := by
  rw [ord_iff] at *
  have hn : ∀ {x : Fp F}, -x ≠ .nan → x ≠ .nan := by rintro x hx rfl; exact hx _root_.rfl
  intro n1 n2
  rw [ereal_neg, ereal_neg]
  exact EReal.neg_le_neg_iff.2 (h (hn n2) (hn n1))

theorem Spec.Ord.sub {a b a' b' : Fp F} (h1 : Spec.Ord a a') (h2 : Spec.Ord b' b) : Spec.Ord (a - b) (a' - b') := h1.add h2.neg

private theorem mul_inf {w : Fp F} (h0 : 0 ≤ Spec.ereal w) (s : Bool) (h : w * .inf s ≠ .nan) : w * .inf s = .inf s ∧ (∀ a : Fp F, a.Finite → w.Finite ∨ a.val = 0 ∨ (w = .inf false)) := by
  cases w with
  | nan => exact absurd _root_.rfl h
  | inf t =>
    cases t with
    | true => rw [ereal_inf, if_pos _root_.rfl] at h0; exact absurd (le_bot_iff.1 h0) EReal.zero_ne_bot
    | false =>
      refine ⟨?_, fun a _ => .inr (.inr _root_.rfl)⟩
      show (Fp.inf (false ^^ s) : Fp F) = _
      simp
  | fin t m hm =>
    refine ⟨?_, fun a _ => .inl trivial⟩
    have e : (Fp.fin t m hm : Fp F) * .inf s = if m = 0 then .nan else .inf (t ^^ s) := by rfl
    rw [e] at h ⊢
    split_ifs at h ⊢ with hm0
    · exact absurd _root_.rfl h
    · rw [Fp.ereal_val (a := (.fin t m hm : Fp F)) trivial] at h0
      have h0' : (0 : ℝ) ≤ (Fp.fin t m hm : Fp F).val := by exact_mod_cast h0
      cases t with
      | false => simp
      | true =>
        have : (Fp.fin true m hm : Fp F).val = -m := by simp
        rw [this] at h0'
        exact absurd (le_antisymm (by linarith) hm.1) hm0

/-- Infinity times a finite non-zero number. -/
private theorem inf_mul_fin {a : Fp F} (ha : a.Finite) (h : (.inf false : Fp F) * a ≠ .nan) :
    (0 < a.val ∧ (.inf false : Fp F) * a = .inf false) ∨ (a.val < 0 ∧ (.inf false : Fp F) * a = .inf true) := by
  obtain ⟨s, m, hm, rfl⟩ := Fp.finite_cases ha
  have e : (.inf false : Fp F) * Fp.fin s m hm = if m = 0 then .nan else .inf (false ^^ s) := by rfl
  rw [e] at h ⊢
  split_ifs at h ⊢ with hm0
  · exact absurd _root_.rfl h
  · have : 0 < m := lt_of_le_of_ne hm.1 (Ne.symm hm0)
    cases s with
    | false => left; simpa using this
    | true => right; simpa using this

/-- Multiplying by a weight that is not negative. -/
theorem Spec.Ord.mul {a a' w : Fp F} (hw : (0 : Fp F) ≤ w) (h : Spec.Ord a a') : Spec.Ord (w * a) (w * a') := by
  have nw : w ≠ .nan := by rintro rfl; exact Fp.not_le_nan_right _ hw
  have w0 : 0 ≤ Spec.ereal w := by
    have := (Fp.le_iff (Fp.finite_zero (F := F)).ne_nan nw).1 hw
    rwa [Fp.ereal_val Fp.finite_zero, Fp.val_zero] at this
  rw [ord_iff] at *
  intro n1 n2
  have na : a ≠ .nan := fun e => n1 (by rw [e, mul_nan'])
  have na' : a' ≠ .nan := fun e => n2 (by rw [e, mul_nan'])
  replace h := h na na'
  rcases cases_fin na with fa | rfl | rfl
  · rcases cases_fin na' with fa' | rfl | rfl
    · rcases cases_fin nw with fw | rfl | rfl
      · rw [(mul_any fw fa).2, (mul_any fw fa').2]
        rw [Fp.ereal_val fa, Fp.ereal_val fa', EReal.coe_le_coe_iff] at h
        rw [Fp.ereal_val fw] at w0
        have w0' : (0 : ℝ) ≤ w.val := by exact_mod_cast w0
        exact any_mono (mul_le_mul_of_nonneg_left h w0')
      · rw [Fp.ereal_val fa, Fp.ereal_val fa', EReal.coe_le_coe_iff] at h
        rcases inf_mul_fin fa n1 with ⟨q, e⟩ | ⟨q, e⟩
        · rcases inf_mul_fin fa' n2 with ⟨q', e'⟩ | ⟨q', e'⟩
          · rw [e, e']
          · linarith
        · rw [e]; exact bot_le
      · rw [ereal_inf, if_pos _root_.rfl] at w0; exact absurd (le_bot_iff.1 w0) EReal.zero_ne_bot
    · rw [(mul_inf w0 false n2).1]; exact le_top
    · rw [ereal_inf, if_pos _root_.rfl] at h
      rw [le_bot_cases na h] at fa; exact absurd fa id
  · rw [ereal_inf, if_neg (by simp)] at h
    rw [top_le_cases na' h, (mul_inf w0 false n1).1]
  · rw [(mul_inf w0 true n1).1]; exact bot_le

theorem Spec.Ord.mul' {a a' w : Fp F} (hw : (0 : Fp F) ≤ w) (h : Spec.Ord a a') : Spec.Ord (a * w) (a' * w) := by
  rw [Fp.mul_comm' a, Fp.mul_comm' a']; exact Spec.Ord.mul hw h

/-- Conversion to another format. -/
theorem Spec.Ord.convert {a a' : Fp F} (h : Spec.Ord a a') : Spec.Ord (Fp.convert D a) (Fp.convert D a') := by
  rw [ord_iff] at *
  intro n1 n2
  have hn : ∀ {x : Fp F}, Fp.convert D x ≠ .nan → x ≠ .nan := by rintro x hx rfl; exact hx _root_.rfl
  have na := hn n1
  have na' := hn n2
  replace h := h na na'
  have key : ∀ {x : Fp F}, x.Finite → Spec.ereal (Fp.convert D x) = any D x.val := by
    intro x hx
    obtain ⟨s, m, hm, rfl⟩ := Fp.finite_cases hx
    show Spec.ereal (Fp.round s m : Fp D) = _
    rw [ereal_round_any hm.1]
    congr 1
  rcases cases_fin na with fa | rfl | rfl
  · rcases cases_fin na' with fa' | rfl | rfl
    · rw [key fa, key fa']
      rw [Fp.ereal_val fa, Fp.ereal_val fa', EReal.coe_le_coe_iff] at h
      exact any_mono h
    · exact le_top
    · rw [ereal_inf, if_pos _root_.rfl] at h
      rw [le_bot_cases na h] at fa; exact absurd fa id
  · rw [ereal_inf, if_neg (by simp)] at h
    rw [top_le_cases na' h]
  · exact bot_le

theorem Spec.Ord.sqrt (h0 : 0 < F.emax) {a b : Fp F} (h : Spec.Ord a b) : Spec.Ord (CMath.sqrt a : Fp F) (CMath.sqrt b) := by
  have key : ∀ {x : Fp F}, (CMath.sqrt x : Fp F) ≠ .nan → Fp.Non x := by
    intro x hx
    cases x with
    | nan => exact absurd _root_.rfl hx
    | inf s =>
      cases s with
      | false => exact Fp.non_inf
      | true => exact absurd _root_.rfl hx
    | fin s m hm =>
      have e : (CMath.sqrt (Fp.fin s m hm) : Fp F) = if m = 0 then .fin s m hm else if s then .nan else .round false (Real.sqrt m) := by rfl
      refine ⟨by simp, ?_⟩
      rw [Fp.ereal_val (a := (.fin s m hm : Fp F)) trivial]
      have : (0 : ℝ) ≤ (Fp.fin s m hm : Fp F).val := by
        cases s with
        | false => simpa using hm.1
        | true =>
          rw [e] at hx
          split_ifs at hx with hm0
          · simp [hm0]
          · exact absurd _root_.rfl hx
          · simp at *
      exact_mod_cast this
  rw [ord_iff] at *
  intro n1 n2
  exact Fp.sqrt_mono_non h0 (key n1) (key n2) (h (key n1).1 (key n2).1)

/-- Dividing by a positive number. -/
theorem Spec.Ord.div {a a' w : Fp F} (hw : (0 : Fp F) < w) (h : Spec.Ord a a') : Spec.Ord (a / w) (a' / w) := by
  have nw : w ≠ .nan := by rintro rfl; obtain ⟨x, -, y, hy, -⟩ := hw; cases hy
  have w0 : 0 < Spec.ereal w := by
    have := (Fp.lt_iff (Fp.finite_zero (F := F)).ne_nan nw).1 hw
    rwa [Fp.ereal_val Fp.finite_zero, Fp.val_zero] at this
  rw [ord_iff] at *
  intro n1 n2
  have hn : ∀ {x : Fp F}, x / w ≠ .nan → x ≠ .nan := by rintro x hx rfl; exact hx _root_.rfl
  have na := hn n1
  have na' := hn n2
  replace h := h na na'
  cases w with
  | nan => exact absurd _root_.rfl nw
  | inf t =>
    have z : ∀ {x : Fp F}, x / .inf t ≠ .nan → Spec.ereal (x / .inf t) = 0 := by
      intro x hx
      cases x with
      | nan => exact absurd _root_.rfl hx
      | inf s => exact absurd _root_.rfl hx
      | fin s m hm =>
        show Spec.ereal (.fin (s ^^ t) 0 mag_zero : Fp F) = 0
        rw [Fp.ereal_val (a := (.fin (s ^^ t) 0 mag_zero : Fp F)) trivial]
        cases s <;> cases t <;> simp
    rw [z n1, z n2]
  | fin t n hn' =>
    rw [Fp.ereal_val (a := (.fin t n hn' : Fp F)) trivial] at w0
    have w1 : (0 : ℝ) < (Fp.fin t n hn' : Fp F).val := by exact_mod_cast w0
    obtain ⟨rfl, hn0⟩ : t = false ∧ 0 < n := by
      cases t with
      | false => exact ⟨_root_.rfl, by simpa using w1⟩
      | true =>
        have e : (Fp.fin true n hn' : Fp F).val = -n := by simp
        rw [e] at w1
        have := hn'.1
        exact absurd w1 (by linarith)
    have key : ∀ {x : Fp F}, x.Finite → Spec.ereal (x / .fin false n hn') = any F (x.val / n) := by
      intro x hx
      obtain ⟨s, m, hm, rfl⟩ := Fp.finite_cases hx
      have e : (Fp.fin s m hm / Fp.fin false n hn' : Fp F) = if n = 0 then (if m = 0 then .nan else .inf (s ^^ false)) else .round (s ^^ false) (m / n) := by rfl
      rw [e, if_neg hn0.ne', ereal_round_any (div_nonneg hm.1 hn0.le)]
      congr 1
      cases s <;> simp [neg_div]
    have kinf : ∀ s : Bool, (.inf s : Fp F) / .fin false n hn' = .inf s := by
      intro s
      show (Fp.inf (s ^^ false) : Fp F) = _
      simp
    rcases cases_fin na with fa | rfl | rfl
    · rcases cases_fin na' with fa' | rfl | rfl
      · rw [key fa, key fa']
        rw [Fp.ereal_val fa, Fp.ereal_val fa', EReal.coe_le_coe_iff] at h
        exact any_mono (div_le_div_of_nonneg_right h hn0.le)
      · rw [kinf]; exact le_top
      · rw [ereal_inf, if_pos _root_.rfl] at h
        rw [le_bot_cases na h] at fa; exact absurd fa id
    · rw [ereal_inf, if_neg (by simp)] at h
      rw [top_le_cases na' h]
    · rw [kinf]; exact bot_le

/-! ## Two runs side by side -/

section run
variable {α β γ δ : Type} {R : α → β → Prop} {S : γ → δ → Prop}

private theorem alike_ok {a : α} {b : β} (h : R a b) : Spec.EndAlike R (.ok a) (.ok b) := .inl ⟨a, b, rfl, rfl, h⟩
private theorem alike_same (x : Res α) : Spec.EndAlike Eq x x := by
  cases x with
  | error e => exact .inr ⟨e, rfl, rfl⟩
  | ok a => exact alike_ok rfl
private theorem alike_bind {x : Res α} {y : Res β} {f : α → Res γ} {g : β → Res δ} (h : Spec.EndAlike R x y) (hf : ∀ a b, R a b → Spec.EndAlike S (f a) (g b)) :
    Spec.EndAlike S (x >>= f) (y >>= g) := by
  rcases h with ⟨a, b, rfl, rfl, h⟩ | ⟨e, rfl, rfl⟩
  · exact hf a b h
  · exact .inr ⟨e, rfl, rfl⟩
private theorem alike_loop {n : Nat} {f : Nat → α → Res α} {g : Nat → β → Res β} {s : α} {t : β} (h : R s t) (hf : ∀ i, i < n → ∀ a b, R a b → Spec.EndAlike R (f i a) (g i b)) :
    Spec.EndAlike R (loop n f s) (loop n g t) := by
  induction n with
  | zero => exact alike_ok h
  | succ n ih =>
    rw [loop_succ, loop_succ]
    exact alike_bind (ih fun i hi => hf i (by omega)) (hf n (by omega))
private theorem alike_mono {S : α → β → Prop} {x : Res α} {y : Res β} (h : Spec.EndAlike R x y) (hS : ∀ a b, R a b → S a b) : Spec.EndAlike S x y := by
  rcases h with ⟨a, b, e1, e2, h⟩ | h
  · exact .inl ⟨a, b, e1, e2, hS a b h⟩
  · exact .inr h
private theorem alike_fst {x : Res α} {y : Res β} (h : Spec.EndAlike R x y) {a : α} (hx : x = .ok a) : ∃ a b, x = .ok a ∧ y = .ok b ∧ R a b := by
  rcases h with h | ⟨e, e1, -⟩
  · exact h
  · rw [hx] at e1; cases e1
end run

section cells
variable {α β : Type} {R : α → β → Prop}
/-- Vectors related component by component, here for any relation. -/
private def VRel (R : α → β → Prop) (v : Vec M α) (w : Vec M β) : Prop := ∀ i : Fin M, R v[i] w[i]
private def MRel (R : α → β → Prop) (a : Mat M N α) (b : Mat M N β) : Prop := VRel R a.array b.array

private theorem vraw (v : Vec M α) (w : Vec M β) (h : VRel R v w) (i : Nat) : Spec.EndAlike R (v.rawGet i) (w.rawGet i) := by
  unfold Vec.rawGet
  split_ifs with hi
  · exact alike_ok (h ⟨i, hi⟩)
  · exact .inr ⟨_, rfl, rfl⟩
private theorem vget (cfg : Cfg) (v : Vec M α) (w : Vec M β) (h : VRel R v w) (i : Nat) : Spec.EndAlike R (v.atGet cfg i) (w.atGet cfg i) := by
  unfold Vec.atGet
  split_ifs
  · exact alike_bind (alike_same _) fun _ _ _ => vraw v w h i
  · exact vraw v w h i
private theorem vrawSet (v : Vec M α) (w : Vec M β) (h : VRel R v w) (i : Nat) {x : α} {y : β} (hx : R x y) : Spec.EndAlike (VRel R) (v.rawSet i x) (w.rawSet i y) := by
  unfold Vec.rawSet
  split_ifs with hi
  · refine alike_ok fun j => ?_
    simp only [Fin.getElem_fin, Vector.getElem_set]
    split_ifs
    · exact hx
    · exact h j
  · exact .inr ⟨_, rfl, rfl⟩
private theorem vset (cfg : Cfg) (v : Vec M α) (w : Vec M β) (h : VRel R v w) (i : Nat) {x : α} {y : β} (hx : R x y) : Spec.EndAlike (VRel R) (v.atSet cfg i x) (w.atSet cfg i y) := by
  unfold Vec.atSet
  split_ifs
  · exact alike_bind (alike_same _) fun _ _ _ => vrawSet v w h i hx
  · exact vrawSet v w h i hx
private theorem mget (cfg : Cfg) (a : Mat M N α) (b : Mat M N β) (h : MRel R a b) (r c : Nat) : Spec.EndAlike R (a.atGet cfg r c) (b.atGet cfg r c) := by
  unfold Mat.atGet Mat.rawGet
  split_ifs
  · exact alike_bind (alike_same _) fun _ _ _ => vraw _ _ h _
  · exact vraw _ _ h _
private theorem mrawSet (a : Mat M N α) (b : Mat M N β) (h : MRel R a b) (i : Nat) {x : α} {y : β} (hx : R x y) : Spec.EndAlike (MRel R) (a.rawSet i x) (b.rawSet i y) := by
  unfold Mat.rawSet
  exact alike_bind (vrawSet _ _ h i hx) fun _ _ h => alike_ok h
private theorem mset (cfg : Cfg) (a : Mat M N α) (b : Mat M N β) (h : MRel R a b) (r c : Nat) {x : α} {y : β} (hx : R x y) : Spec.EndAlike (MRel R) (a.atSet cfg r c x) (b.atSet cfg r c y) := by
  unfold Mat.atSet
  split_ifs
  · exact alike_bind (alike_same _) fun _ _ _ => mrawSet _ _ h _ hx
  · exact mrawSet _ _ h _ hx

private theorem mrel_iff (a : Mat M N α) (b : Mat M N β) : MRel R a b ↔ ∀ r c, R (a.get r c) (b.get r c) := by
  constructor
  · intro h r c
    exact h ⟨c.1 * M + r.1, Mat.idx_lt r.2 c.2⟩
  · intro h i
    have hM : 0 < M := Nat.pos_of_ne_zero fun e => by have := i.2; simp [e] at this
    have hq : i.1 / M < N := (Nat.div_lt_iff_lt_mul hM).2 (lt_of_lt_of_eq i.2 (Nat.mul_comm M N))
    have := h ⟨i.1 % M, Nat.mod_lt _ hM⟩ ⟨i.1 / M, hq⟩
    have e : i.1 / M * M + i.1 % M = i.1 := Nat.div_add_mod' i.1 M
    simp only [Mat.get, e] at this
    exact this
private theorem vrel_eq (v : Vec M α) {Q : α → Prop} (h : ∀ i : Fin M, Q v[i]) : VRel (fun a b => a = b ∧ Q a) v v := fun i => ⟨rfl, h i⟩
end cells

/-! ## The operations -/

/-- **C153** Vector operators: `v + w` is monotone in both operands, `v - w` in the first and antitone in the second, `v * s` is monotone for `s ≥ 0` and `v / s` for `s > 0`. -/
theorem C153_vector_operators (cfg : Cfg) (v v' w w' : Vec M (Fp F)) (hv : Spec.VOrd v v') (hw : Spec.VOrd w w') (s : Fp F) :
    (∃ a b, v.add cfg w = .ok a ∧ v'.add cfg w' = .ok b ∧ Spec.VOrd a b) ∧ (∃ a b, v.sub cfg w' = .ok a ∧ v'.sub cfg w = .ok b ∧ Spec.VOrd a b) ∧
    (0 ≤ s → ∃ a b, v.mulS cfg s = .ok a ∧ v'.mulS cfg s = .ok b ∧ Spec.VOrd a b) ∧ (0 < s → ∃ a b, v.divS cfg s = .ok a ∧ v'.divS cfg s = .ok b ∧ Spec.VOrd a b) := by
  have hz : VRel Spec.Ord (Vec.zeroCtor : Vec M (Fp F)) Vec.zeroCtor := fun i => Spec.Ord.rfl
  refine ⟨?_, ?_, fun hs => ?_, fun hs => ?_⟩
  · exact alike_fst (alike_loop hz fun i _ a b h => alike_bind (vget cfg _ _ hv i) fun x x' hx => alike_bind (vget cfg _ _ hw i) fun y y' hy => vset cfg _ _ h i (hx.add hy)) (Vec.add_eq cfg v w)
  · exact alike_fst (alike_loop hz fun i _ a b h => alike_bind (vget cfg _ _ hv i) fun x x' hx =>
      alike_bind (R := fun x y => Spec.Ord y x) (vget cfg w' w (fun i => hw i) i) fun y y' hy => vset cfg _ _ h i (hx.sub hy)) (Vec.sub_eq cfg v w')
  · exact alike_fst (alike_loop hz fun i _ a b h => alike_bind (vget cfg _ _ hv i) fun x x' hx => vset cfg _ _ h i (Spec.Ord.mul' hs hx)) (Vec.mulS_eq cfg v s)
  · exact alike_fst (alike_loop hz fun i _ a b h => alike_bind (vget cfg _ _ hv i) fun x x' hx => vset cfg _ _ h i (Spec.Ord.div hs hx)) (Vec.divS_eq cfg v s)

/-- **C153** `dot` with weights that are not negative: components that are no smaller give a result that is no smaller, unless one of the two results is NaN. -/
theorem C153_dot (cfg : Cfg) (w v v' : Vec M (Fp F)) (hw : ∀ i : Fin M, 0 ≤ w[i]) (h : Spec.VOrd v v') :
    ∃ d d', w.dot cfg v = .ok d ∧ w.dot cfg v' = .ok d' ∧ Spec.Ord d d' := by
  refine alike_fst (alike_loop Spec.Ord.rfl fun i _ a b hab => ?_) (Vec.dot_iter cfg w v)
  exact alike_bind (vget cfg _ _ (vrel_eq w hw) i) fun x x' hx => alike_bind (vget cfg _ _ h i) fun y y' hy => alike_ok (by
    obtain ⟨rfl, hx⟩ := hx
    exact hab.add (Spec.Ord.mul hx hy))

/-- **C153** Matrix times vector, with a matrix without negative entries. -/
theorem C153_matrix_vector (cfg : Cfg) (a : Mat M N (Fp F)) (v v' : Vec N (Fp F)) (ha : ∀ r c, 0 ≤ a.get r c) (h : Spec.VOrd v v') :
    ∃ r r', a.mulVec cfg v = .ok r ∧ a.mulVec cfg v' = .ok r' ∧ Spec.VOrd r r' := by
  have ha' : MRel (fun x y => x = y ∧ 0 ≤ x) a a := (mrel_iff _ _).2 fun r c => ⟨rfl, ha r c⟩
  refine alike_fst (alike_loop (R := VRel Spec.Ord) (fun i => Spec.Ord.rfl) fun i _ s t hst => ?_) (Mat.mulVec_iter cfg a v)
  refine alike_bind (alike_loop (R := Spec.Ord) Spec.Ord.rfl fun j _ x y hxy => ?_) fun x y hxy => vset cfg _ _ hst i hxy
  exact alike_bind (mget cfg _ _ ha' i j) fun p q hp => alike_bind (vget cfg _ _ h j) fun y y' hy => alike_ok (by
    obtain ⟨rfl, hp⟩ := hp
    exact hxy.add (Spec.Ord.mul hp hy))

/-- **C153** Matrix product, in either operand when the other has no negative entry. -/
theorem C153_matrix_product (cfg : Cfg) (a a' : Mat M N (Fp F)) (b b' : Mat N P (Fp F)) :
    ((∀ r c, 0 ≤ a.get r c) → Spec.MOrd b b' → ∃ m m', a.mul cfg b = .ok m ∧ a.mul cfg b' = .ok m' ∧ Spec.MOrd m m') ∧
    ((∀ r c, 0 ≤ b.get r c) → Spec.MOrd a a' → ∃ m m', a.mul cfg b = .ok m ∧ a'.mul cfg b = .ok m' ∧ Spec.MOrd m m') := by
  constructor
  · intro h0 h
    have h0' : MRel (fun x y => x = y ∧ 0 ≤ x) a a := (mrel_iff _ _).2 fun r c => ⟨rfl, h0 r c⟩
    have key : ∀ m0 : Mat M P (Fp F), Spec.EndAlike (MRel Spec.Ord) (m0.multiply cfg a b) (m0.multiply cfg a b') := by
      intro m0
      refine alike_loop (fun i => Spec.Ord.rfl) fun r _ s t hst => alike_loop hst fun c _ s t hst => ?_
      refine alike_bind (mset cfg _ _ hst r c (x := 0) (y := 0) Spec.Ord.rfl) fun s t hst => alike_loop hst fun p _ s t hst => ?_
      exact alike_bind (mget cfg _ _ hst r c) fun x x' hx => alike_bind (mget cfg _ _ h0' r p) fun y y' hy => alike_bind (mget cfg _ _ ((mrel_iff _ _).2 h) p c) fun z z' hz => by
        obtain ⟨rfl, hy⟩ := hy
        exact mset cfg _ _ hst r c (hx.add (Spec.Ord.mul hy hz))
    rw [Mat.mul, Mat.mul, Mat.ctor_eq, bind_ok, bind_ok]
    obtain ⟨m, m', e1, e2, h⟩ := alike_fst (key _) (Mat.multiply_iter cfg _ a b)
    exact ⟨m, m', e1, e2, (mrel_iff _ _).1 h⟩
  · intro h0 h
    have h0' : MRel (fun x y => x = y ∧ 0 ≤ x) b b := (mrel_iff _ _).2 fun r c => ⟨rfl, h0 r c⟩
    have key : ∀ m0 : Mat M P (Fp F), Spec.EndAlike (MRel Spec.Ord) (m0.multiply cfg a b) (m0.multiply cfg a' b) := by
      intro m0
      refine alike_loop (fun i => Spec.Ord.rfl) fun r _ s t hst => alike_loop hst fun c _ s t hst => ?_
      refine alike_bind (mset cfg _ _ hst r c (x := 0) (y := 0) Spec.Ord.rfl) fun s t hst => alike_loop hst fun p _ s t hst => ?_
      exact alike_bind (mget cfg _ _ hst r c) fun x x' hx => alike_bind (mget cfg _ _ ((mrel_iff _ _).2 h) r p) fun y y' hy => alike_bind (mget cfg _ _ h0' p c) fun z z' hz => by
        obtain ⟨rfl, hz⟩ := hz
        exact mset cfg _ _ hst r c (hx.add (Spec.Ord.mul' hz hy))
    rw [Mat.mul, Mat.mul, Mat.ctor_eq, bind_ok, bind_ok]
    obtain ⟨m, m', e1, e2, h⟩ := alike_fst (key _) (Mat.multiply_iter cfg _ a b)
    exact ⟨m, m', e1, e2, (mrel_iff _ _).1 h⟩

private theorem pure_loop {σ : Type} {n : Nat} {body : Nat → σ → Res σ} {s : σ} (h : ∀ i, i < n → ∀ s, ∃ s', body i s = .ok s') : ∃ s', loop n body s = .ok s' := by
  obtain ⟨s', e, -⟩ := loop_ok (n := n) (body := body) (s := s) (fun _ _ => True) trivial fun i hi s _ => by
    obtain ⟨s', e⟩ := h i hi s
    exact ⟨s', e, trivial⟩
  exact ⟨s', e⟩
private theorem raw_ok {α : Type} (a : Mat M N α) {i : Nat} (hi : i < M * N) : a.rawGet i = .ok (a.array[i]) := by
  unfold Mat.rawGet Vec.rawGet; rw [dif_pos hi]; rfl

/-- **C153** `sum_elements()` (accumulated in a format `D`) and `columnwise_sum( )` are monotone in the cells. -/
theorem C153_sums (cfg : Cfg) (a a' : Mat M N (Fp F)) (h : Spec.MOrd a a') (s s' : Vec N (Fp F)) :
    (∃ d d', a.sumElements (Fp.convert D) = .ok d ∧ a'.sumElements (Fp.convert D) = .ok d' ∧ Spec.Ord d d') ∧
    (∃ r r', a.columnwiseSum cfg s = .ok r ∧ a'.columnwiseSum cfg s' = .ok r' ∧ Spec.VOrd r r') := by
  have hm : MRel Spec.Ord a a' := (mrel_iff _ _).2 h
  constructor
  · obtain ⟨d, e⟩ : ∃ d, a.sumElements (Fp.convert D) = .ok d := pure_loop fun i hi x => ⟨_, by rw [raw_ok a hi]; rfl⟩
    exact alike_fst (alike_loop Spec.Ord.rfl fun i _ x y hxy => alike_bind (vraw _ _ hm i) fun p q hp => alike_ok (hxy.add hp.convert)) e
  · have val : ∀ n, n < N → Spec.EndAlike Spec.Ord (loop M (fun r value => do pure (value + (← a.atGet cfg r n))) (0 : Fp F)) (loop M (fun r value => do pure (value + (← a'.atGet cfg r n))) (0 : Fp F)) := fun n _ =>
      alike_loop (R := Spec.Ord) Spec.Ord.rfl fun r _ x y hxy => alike_bind (mget cfg _ _ hm r n) fun p q hp => alike_ok (hxy.add hp)
    have key : ∀ b : Mat M N (Fp F), ∀ s, b.columnwiseSum cfg s = .ok (Vector.ofFn fun c : Fin N => iter (fun r s => s + (if h : r < M then b.get ⟨r, h⟩ c else 0)) M 0) := by
      intro b s
      apply loop_set
      intro i hi w _
      rw [loop_iter (fun j s => s + (if h : j < M then b.get ⟨j, h⟩ ⟨i, hi⟩ else 0)) (by intro j hj s; simp [hi, hj])]
      simp [hi]
    refine ⟨_, _, key a s, key a' s', fun i => ?_⟩
    obtain ⟨x, y, e1, e2, h⟩ := alike_fst (val i.1 i.2) (loop_iter (fun j s => s + (if h : j < M then a.get ⟨j, h⟩ i else 0)) (by intro j hj s; simp [hj]))
    rw [loop_iter (fun j s => s + (if h : j < M then a.get ⟨j, h⟩ i else 0)) (by intro j hj s; simp [hj])] at e1
    rw [loop_iter (fun j s => s + (if h : j < M then a'.get ⟨j, h⟩ i else 0)) (by intro j hj s; simp [hj])] at e2
    cases e1; cases e2
    simp only [Fin.getElem_fin, Vector.getElem_ofFn]
    exact h

/-- **C153** `frobenius_norm()` is monotone in the magnitudes of the cells. -/
theorem C153_frobenius (h0 : 0 < D.emax) (a a' : Mat M N (Fp F)) (h : ∀ r c, Spec.Ord (CMath.fabs (a.get r c) : Fp F) (CMath.fabs (a'.get r c))) :
    ∃ d d', a.frobeniusNorm (Fp.convert D) = .ok d ∧ a'.frobeniusNorm (Fp.convert D) = .ok d' ∧ Spec.Ord d d' := by
  obtain ⟨d, e⟩ : ∃ d, a.frobeniusNorm (Fp.convert D) = .ok d := by
    obtain ⟨d, e⟩ : ∃ d, loop (M * N) (fun i norm => do let x ← a.rawGet i; pure (norm + Fp.convert D (x * x))) (0 : Fp D) = .ok d := pure_loop fun i hi x => ⟨_, by rw [raw_ok a hi]; rfl⟩
    exact ⟨_, by unfold Mat.frobeniusNorm; rw [e]; rfl⟩
  refine alike_fst ?_ e
  have hm : MRel (fun x y => Spec.Ord (CMath.fabs x : Fp F) (CMath.fabs y)) a a' := (mrel_iff _ _).2 h
  refine alike_bind (alike_loop (R := Spec.Ord) Spec.Ord.rfl fun i _ x y hxy => ?_) fun x y hxy => alike_ok (Spec.Ord.sqrt h0 hxy)
  refine alike_bind (vraw _ _ hm i) fun p q hp => alike_ok (hxy.add (Spec.Ord.convert ?_))
  have hfn : ∀ {x : Fp F}, x ≠ .nan → (CMath.fabs x : Fp F) ≠ .nan := by
    intro x hx; cases x with
    | nan => exact absurd rfl hx
    | inf s => intro h; cases h
    | fin s m hm => intro h; cases h
  rw [ord_iff]
  intro n1 n2
  have np : p ≠ .nan := fun e => n1 (by rw [e]; rfl)
  have nq : q ≠ .nan := fun e => n2 (by rw [e]; rfl)
  exact Fp.sq_mono np nq ((Fp.le_iff (hfn np) (hfn nq)).1 (hp (hfn np) (hfn nq)))

/-- **C153** `convolve` with a kernel without negative entries, of any sizes: the two calls end alike, and where they return, brighter images give brighter images. -/
theorem C153_convolve (cfg : Cfg) (a a' : Mat M N (Fp F)) (k : Mat U V (Fp F)) (hk : ∀ r c, 0 ≤ k.get r c) (h : Spec.MOrd a a') :
    Spec.EndAlike Spec.MOrd (a.convolve cfg (Fp.convert D) (Fp.convert F) k) (a'.convolve cfg (Fp.convert D) (Fp.convert F) k) := by
  have hm : MRel Spec.Ord a a' := (mrel_iff _ _).2 h
  have hk' : MRel (fun x y => x = y ∧ 0 ≤ x) k k := (mrel_iff _ _).2 fun r c => ⟨rfl, hk r c⟩
  unfold Mat.convolve
  rw [Mat.ctor_eq, bind_ok, bind_ok]
  refine alike_mono (R := MRel Spec.Ord) ?_ fun x y h => (mrel_iff _ _).1 h
  refine alike_bind (R := MRel Spec.Ord) (alike_loop (fun i => Spec.Ord.rfl) fun y _ s t hst => alike_loop hst fun x _ s t hst => ?_) fun s t hst => ?_
  · refine alike_bind (R := Spec.Ord) (alike_loop Spec.Ord.rfl fun j _ p q hpq => alike_loop hpq fun i _ p q hpq => ?_) fun p q hpq => mset cfg _ _ hst y x hpq.convert
    exact alike_bind (mget cfg _ _ hk' j i) fun c d hc => alike_bind (mget cfg _ _ hm _ _) fun e f he => alike_ok (by
      obtain ⟨rfl, hc⟩ := hc
      exact hpq.add (Spec.Ord.mul hc he).convert)
  · refine alike_bind (R := VRel Spec.Ord) (alike_loop hm fun i _ s' t' h' => ?_) fun x y h => alike_ok h
    exact alike_bind (vraw _ _ hst i) fun x y hx => vrawSet _ _ h' i hx

/-! ## The filter -/

/-- Two histories of the same calls, with the same factors, each in `[0, 1]`, and ordered samples. -/
inductive Spec.OpOrd : Spec.FilterOp (Fp F) (Fp D) → Spec.FilterOp (Fp F) (Fp D) → Prop
  | add {x y : Fp F} (h : Spec.Ord x y) : Spec.OpOrd (.add x) (.add y)
  | factor {f : Fp D} (h0 : 0 ≤ f) (h1 : f ≤ 1) : Spec.OpOrd (.factor f) (.factor f)

private theorem unit_iff (h0 : 0 < D.emax) {f : Fp D} : (0 ≤ f ∧ f ≤ 1) ↔ f.Finite ∧ 0 ≤ f.val ∧ f.val ≤ 1 := by
  have o := Fp.one_fin (F := D) h0
  constructor
  · rintro ⟨h1, h2⟩
    have nf : f ≠ .nan := by rintro rfl; exact Fp.not_le_nan_left _ h2
    have e1 := (Fp.le_iff (Fp.finite_zero (F := D)).ne_nan nf).1 h1
    have e2 := (Fp.le_iff nf o.1.ne_nan).1 h2
    rw [Fp.ereal_val Fp.finite_zero, Fp.val_zero] at e1
    obtain ⟨a, b, c⟩ := Fp.finite_of_le ⟨nf, e1⟩ o.1 e2
    exact ⟨a, b, by rw [o.2] at c; exact c⟩
  · rintro ⟨h1, h2, h3⟩
    rw [Fp.le_iff (Fp.finite_zero (F := D)).ne_nan h1.ne_nan, Fp.le_iff h1.ne_nan o.1.ne_nan, Fp.ereal_val Fp.finite_zero, Fp.ereal_val h1, Fp.ereal_val o.1, Fp.val_zero, o.2]
    exact ⟨by exact_mod_cast h2, by exact_mod_cast h3⟩

private theorem unit_mul (h0 : 0 < D.emax) {f w : Fp D} (hf : 0 ≤ f ∧ f ≤ 1) (hw : 0 ≤ w ∧ w ≤ 1) : 0 ≤ w * f ∧ w * f ≤ 1 := by
  rw [unit_iff h0] at *
  obtain ⟨f1, f2, f3⟩ := hf
  obtain ⟨w1, w2, w3⟩ := hw
  have hle : w.val * f.val ≤ 1 := mul_le_one₀ w3 f2 f3
  have hnn : 0 ≤ w.val * f.val := mul_nonneg w2 f2
  obtain ⟨q1, q2⟩ := Fp.mul_fin h0 w1 f1 (by rw [abs_of_nonneg hnn]; exact hle.trans (one_le_max h0))
  refine ⟨q1, by rw [q2]; exact rnd_nonneg hnn, ?_⟩
  have o := Fp.one_fin (F := D) h0
  have := rnd_mono (F := D) hle
  rw [q2]
  rwa [← o.2, (Fp.rep_val o.1).rnd_eq, o.2] at this

private theorem unit_sub (h0 : 0 < D.emax) {w : Fp D} (hw : 0 ≤ w ∧ w ≤ 1) : 0 ≤ (1 : Fp D) - w := by
  rw [unit_iff h0] at hw
  obtain ⟨w1, w2, w3⟩ := hw
  have o := Fp.one_fin (F := D) h0
  have hnn : 0 ≤ (1 : Fp D).val - w.val := by rw [o.2]; linarith
  obtain ⟨q1, q2⟩ := Fp.sub_fin h0 o.1 w1 (by rw [abs_of_nonneg hnn, o.2]; linarith [one_le_max (F := D) h0])
  rw [Fp.le_iff (Fp.finite_zero (F := D)).ne_nan q1.ne_nan, Fp.ereal_val Fp.finite_zero, Fp.ereal_val q1, Fp.val_zero, q2]
  exact_mod_cast rnd_nonneg hnn

private theorem blend_ord (h0 : 0 < D.emax) {f : Fp D} (hf : 0 ≤ f ∧ f ≤ 1) {xs ys : List (Fp F)} (h : List.Forall₂ Spec.Ord xs ys) :
    ∀ {v v' : Fp F} {w : Fp D}, Spec.Ord v v' → 0 ≤ w ∧ w ≤ 1 → Spec.Ord (Lowpass.blend f xs v w) (Lowpass.blend f ys v' w) := by
  induction h with
  | nil => intro v v' w hv _; exact hv
  | cons hx _ ih =>
    intro v v' w hv hw
    simp only [Lowpass.blend]
    exact ih (((Spec.Ord.mul' (unit_sub h0 hw) hv.convert).add (Spec.Ord.mul' hw.1 hx.convert)).convert) (unit_mul h0 hf hw)

/-- The two filters have the same factor, in `[0, 1]`, and ordered samples and values. -/
private def LRel (l l' : Lowpass (Fp D) (Fp F)) : Prop :=
  l.factor = l'.factor ∧ (0 ≤ l.factor ∧ l.factor ≤ 1) ∧ List.Forall₂ Spec.Ord l.data l'.data ∧ ((l.value = none ∧ l'.value = none) ∨ ∃ v v', l.value = some v ∧ l'.value = some v' ∧ Spec.Ord v v')

private theorem add_rel (h0 : 0 < D.emax) {l l' : Lowpass (Fp D) (Fp F)} (h : LRel l l') {x y : Fp F} (hxy : Spec.Ord x y) :
    Spec.EndAlike (fun p q => LRel p.1 q.1 ∧ Spec.Ord p.2 q.2) (l.add M x) (l'.add M y) := by
  obtain ⟨h1, h2, h3, h4⟩ := h
  unfold Lowpass.add
  simp only [trim_eq]
  cases M with
  | zero => exact .inr ⟨.ub, rfl, rfl⟩
  | succ k =>
    have hd : List.Forall₂ Spec.Ord (l.data.take k) (l'.data.take k) := List.forall₂_take k h3
    simp only [List.take_succ_cons]
    have hb := blend_ord h0 h2 hd hxy h2
    rw [← h1]
    exact alike_ok ⟨⟨rfl, h2, .cons hxy hd, .inr ⟨_, _, rfl, rfl, hb⟩⟩, hb⟩

/-- **C153** The low-pass filter is monotone in its samples: two histories of the same `add` and `set_smooth_factor` calls, the factors in `[0, 1]`, end alike, and if no sample of the first exceeds the corresponding
sample of the second, the filtered value of the first does not exceed that of the second. -/
theorem C153_filter (h0 : 0 < D.emax) (M : Nat) (g : Fp D) (g0 : 0 ≤ g) (g1 : g ≤ 1) (h h' : List (Spec.FilterOp (Fp F) (Fp D))) (hh : List.Forall₂ Spec.OpOrd h h') :
    Spec.EndAlike (fun l l' => Spec.EndAlike Spec.Ord l.get l'.get) (Spec.runFilter M h (Lowpass.ctor g)) (Spec.runFilter M h' (Lowpass.ctor g)) := by
  have key : ∀ {l l' : Lowpass (Fp D) (Fp F)}, LRel l l' → Spec.EndAlike LRel (Spec.runFilter M h l) (Spec.runFilter M h' l') := by
    induction hh with
    | nil => intro l l' hl; exact alike_ok hl
    | cons hop _ ih =>
      intro l l' hl
      cases hop with
      | add hxy =>
        simp only [Spec.runFilter]
        exact alike_bind (add_rel h0 hl hxy) fun p q hp => ih hp.1
      | factor f0 f1 =>
        simp only [Spec.runFilter]
        exact ih ⟨rfl, ⟨f0, f1⟩, hl.2.2⟩
  refine alike_mono (key ⟨rfl, ⟨g0, g1⟩, .nil, .inl ⟨rfl, rfl⟩⟩) fun l l' hl => ?_
  rcases hl.2.2.2 with ⟨e1, e2⟩ | ⟨v, v', e1, e2, hv⟩
  · unfold Lowpass.get; rw [e1, e2]; exact .inr ⟨.ub, rfl, rfl⟩
  · unfold Lowpass.get; rw [e1, e2]; exact alike_ok hv

/-! ## Non-vacuity -/

/-- The hypotheses of `C153_dot` are met by the weights `(1, 0, 1)` and the ordered vectors `(0, 1, 0)` and `(1, 1, ∞)`. -/
example : (∀ i : Fin 3, (0 : Fp Format.single) ≤ (#v[1, 0, 1] : Vec 3 (Fp Format.single))[i]) ∧
    Spec.VOrd (#v[0, 1, 0] : Vec 3 (Fp Format.single)) #v[1, 1, .inf false] := by
  have h0 : 0 < Format.single.emax := by norm_num [Format.single]
  have o := Fp.one_fin (F := Format.single) h0
  have z := Fp.finite_zero (F := Format.single)
  have z1 : (0 : Fp Format.single) ≤ 1 := by
    rw [Fp.le_iff z.ne_nan o.1.ne_nan, Fp.ereal_val z, Fp.ereal_val o.1, Fp.val_zero, o.2]; exact_mod_cast zero_le_one
  have zz : (0 : Fp Format.single) ≤ 0 := by rw [Fp.le_iff z.ne_nan z.ne_nan]
  constructor
  · intro i; fin_cases i
    · exact z1
    · exact zz
    · exact z1
  · intro i; fin_cases i
    · exact fun _ _ => z1
    · exact Spec.Ord.rfl
    · exact ord_iff.2 fun _ _ => le_top

/-- Two histories as in `C153_filter`. -/
example : List.Forall₂ Spec.OpOrd [.add 0, .factor 1, .add (.inf true)] ([.add 1, .factor 1, .add 0] : List (Spec.FilterOp (Fp Format.single) (Fp Format.double))) := by
  have h0 : 0 < Format.single.emax := by norm_num [Format.single]
  have o := Fp.one_fin (F := Format.single) h0
  have z := Fp.finite_zero (F := Format.single)
  have hd : 0 < Format.double.emax := by norm_num [Format.double]
  have o' := Fp.one_fin (F := Format.double) hd
  have u := (unit_iff hd (f := 1)).2 ⟨o'.1, by rw [o'.2]; exact zero_le_one, by rw [o'.2]⟩
  refine .cons (.add (ord_iff.2 fun _ _ => ?_)) (.cons (.factor u.1 u.2) (.cons (.add (ord_iff.2 fun _ _ => bot_le)) .nil))
  rw [Fp.ereal_val z, Fp.ereal_val o.1, Fp.val_zero, o.2]; exact_mod_cast zero_le_one

end Vmml
