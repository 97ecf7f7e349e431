import Verif.Model.Encoding
import Verif.Props.FloatOrder
import Verif.Props.VectorOrder
import Verif.Props.FloatCull
import Verif.Props.MatrixStats

/-!
# C135: what the byte-wise comparison of `float` and `double` vectors means
-/

namespace Vmml
open Format
variable {F : Format} {M N : Nat}

/-! ## Patterns and values -/

theorem Format.bitsVal_surj (h0 : 0 < F.emax) {x : ℝ} (h : F.Mag x) : ∃ n, n < F.infBits ∧ F.bitsVal n = x := by
  have hfin : ∀ n, F.bitsVal n = x → n < F.infBits := by
    intro n hn
    have h1 := h.2.2
    rw [← bitsVal_max h0, ← hn, bitsVal_strict.le_iff_le] at h1
    have : 0 < F.infBits := by unfold infBits; positivity
    omega
  suffices ∃ n, F.bitsVal n = x by
    obtain ⟨n, hn⟩ := this
    exact ⟨n, hfin n hn, hn⟩
  rcases h.1.lt_or_eq with hx | hx
  swap
  · exact ⟨0, by rw [bitsVal_zero, ← hx]⟩
  have hl : (2 : ℝ) ^ Int.log 2 x ≤ x := by exact_mod_cast Int.zpow_log_le_self (b := 2) (by norm_num) hx
  have hu : x < (2 : ℝ) ^ (Int.log 2 x + 1) := by exact_mod_cast Int.lt_zpow_succ_log_self (b := 2) (by norm_num) x
  obtain ⟨n, hn⟩ := h.2.1.multiple (x := x) (by rw [abs_of_pos hx]; exact hl) hx.ne'
  have hlast : F.lastExp x = max (Int.log 2 x) F.emin - F.p := by unfold lastExp; rw [abs_of_pos hx]
  obtain ⟨l, hle⟩ : ∃ l, l = Int.log 2 x := ⟨_, rfl⟩
  rw [← hle] at hl hu hlast
  have hn0 : 0 < n := by
    have : (0 : ℝ) < n * (2 : ℝ) ^ F.lastExp x := by rw [← hn]; exact hx
    have := pos_of_mul_pos_left this (by positivity)
    exact_mod_cast this
  by_cases hc : l < F.emin
  · rw [max_eq_right hc.le] at hlast
    have hlt : n < 2 ^ F.p := by
      have : (n : ℝ) * (2 : ℝ) ^ (F.emin - F.p) < (2 : ℝ) ^ (F.p : Int) * (2 : ℝ) ^ (F.emin - F.p) := by
        rw [← hlast, ← hn, hlast, ← zpow_add₀ (by norm_num)]
        exact lt_of_lt_of_le hu (zpow_le_zpow_right₀ (by norm_num) (by omega))
      have := lt_of_mul_lt_mul_right this (by positivity)
      exact_mod_cast this
    obtain ⟨k, rfl⟩ := Int.eq_ofNat_of_zero_le hn0.le
    refine ⟨0 * 2 ^ F.p + k, ?_⟩
    rw [bitsVal_mk _ _ (by exact_mod_cast hlt), if_pos rfl, hn, hlast]
    push_cast; rfl
  · push Not at hc
    rw [max_eq_left hc] at hlast
    have hp : (0 : ℝ) < (2 : ℝ) ^ (l - F.p) := by positivity
    have h1 : (2 : Int) ^ F.p ≤ n := by
      have : (2 : ℝ) ^ (F.p : Int) * (2 : ℝ) ^ (l - F.p) ≤ n * (2 : ℝ) ^ (l - F.p) := by
        rw [← hlast, ← hn, hlast, ← zpow_add₀ (by norm_num), show (F.p : Int) + (l - F.p) = l by ring]
        exact hl
      have := le_of_mul_le_mul_right this hp
      exact_mod_cast this
    have h2 : n < (2 : Int) ^ (F.p + 1) := by
      have : (n : ℝ) * (2 : ℝ) ^ (l - F.p) < (2 : ℝ) ^ ((F.p : Int) + 1) * (2 : ℝ) ^ (l - F.p) := by
        rw [← hlast, ← hn, hlast, ← zpow_add₀ (by norm_num), show (F.p : Int) + 1 + (l - F.p) = l + 1 by ring]
        exact hu
      have := lt_of_mul_lt_mul_right this hp.le
      exact_mod_cast this
    obtain ⟨k, hk⟩ := Int.eq_ofNat_of_zero_le (show 0 ≤ n - 2 ^ F.p by omega)
    obtain ⟨E, hE⟩ := Int.eq_ofNat_of_zero_le (show 0 ≤ l - F.emin by omega)
    have hk' : k < 2 ^ F.p := by
      have : (k : Int) < 2 ^ F.p := by rw [← hk]; rw [pow_succ] at h2; omega
      exact_mod_cast this
    refine ⟨(E + 1) * 2 ^ F.p + k, ?_⟩
    rw [bitsVal_mk _ _ hk', if_neg (Nat.succ_ne_zero _), hn, hlast]
    have e1 : (2 ^ F.p + k : ℝ) = n := by
      have : n = 2 ^ F.p + (k : Int) := by omega
      rw [this]; push_cast; rfl
    rw [e1]
    congr 2
    push_cast
    omega

/-- The order of the patterns of one sign, infinity included. -/
private noncomputable def magE (F : Format) (n : Nat) : EReal := if n < F.infBits then (F.bitsVal n : EReal) else ⊤

private theorem magE_lt {m n : Nat} (hn : n ≤ F.infBits) : m < n ↔ magE F m < magE F n := by
  unfold magE
  by_cases h1 : m < F.infBits <;> by_cases h2 : n < F.infBits
  · rw [if_pos h1, if_pos h2, EReal.coe_lt_coe_iff, bitsVal_strict.lt_iff_lt]
  · rw [if_pos h1, if_neg h2]
    exact ⟨fun _ => EReal.coe_lt_top _, fun _ => by omega⟩
  · rw [if_neg h1, if_pos h2]
    exact ⟨fun h => by omega, fun h => absurd h (not_lt.2 le_top)⟩
  · rw [if_neg h1, if_neg h2]
    exact ⟨fun h => by omega, fun h => absurd h (lt_irrefl _)⟩

private theorem magE_zero : magE F 0 = 0 := by
  unfold magE
  have : 0 < F.infBits := by unfold infBits; positivity
  rw [if_pos this, bitsVal_zero]; rfl

private theorem magE_le {m n : Nat} (hm : m ≤ F.infBits) : m ≤ n ↔ magE F m ≤ magE F n := by
  rw [← not_lt, ← not_lt, magE_lt hm]

private theorem magE_inj {m n : Nat} (hm : m ≤ F.infBits) (hn : n ≤ F.infBits) : m = n ↔ magE F m = magE F n := by
  rw [le_antisymm_iff, le_antisymm_iff, magE_le hm, magE_le hn]

/-- Signed magnitude. -/
private def sm (s : Bool) (n : Nat) : Int := if s then -(n : Int) else n
private noncomputable def smE (F : Format) (s : Bool) (n : Nat) : EReal := if s then -magE F n else magE F n

private theorem sm_lt {s t : Bool} {m n : Nat} (hm : m ≤ F.infBits) (hn : n ≤ F.infBits) : sm s m < sm t n ↔ smE F s m < smE F t n := by
  have z : ∀ k, (0 : EReal) ≤ magE F k := fun k => by
    rw [← magE_zero (F := F), ← magE_le (Nat.zero_le _)]; exact Nat.zero_le _
  have pz : ∀ k, k ≤ F.infBits → (0 < k ↔ 0 < magE F k) := fun k hk => by rw [← magE_zero (F := F), ← magE_lt hk]
  cases s <;> cases t <;> simp only [sm, smE, if_true, if_false, Bool.false_eq_true]
  · rw [← magE_lt hn]; omega
  · constructor
    · intro h; omega
    · intro h
      have h1 : -magE F n ≤ 0 := by simpa using z n
      exact absurd (lt_of_lt_of_le h h1) (not_lt.2 (z m))
  · have e : -(m : Int) < n ↔ 0 < m ∨ 0 < n := by omega
    rw [e, pz m hm, pz n hn]
    constructor
    · rintro (h | h)
      · exact lt_of_lt_of_le (by rw [EReal.neg_lt_comm, neg_zero]; exact h) (z n)
      · exact lt_of_le_of_lt (by simpa using z m) h
    · intro h
      by_contra hc
      push Not at hc
      rw [le_antisymm hc.1 (z m), le_antisymm hc.2 (z n), neg_zero] at h
      exact lt_irrefl _ h
  · rw [EReal.neg_lt_neg_iff, ← magE_lt hm]; omega

private theorem ofBits_ne_nan (h0 : 0 < F.emax) (s : Bool) (n : Nat) : Fp.ofBits h0 s n ≠ .nan ↔ n ≤ F.infBits := by
  unfold Fp.ofBits
  split_ifs with h1 h2
  · exact ⟨fun _ => h1.le, fun _ h => nomatch h⟩
  · exact ⟨fun _ => h2.le, fun _ h => nomatch h⟩
  · exact ⟨fun h => absurd rfl h, fun h => by omega⟩

private theorem ofBits_ereal (h0 : 0 < F.emax) (s : Bool) (n : Nat) (hn : n ≤ F.infBits) : Spec.ereal (Fp.ofBits h0 s n) = smE F s n := by
  unfold Fp.ofBits smE magE
  by_cases h1 : n < F.infBits
  · rw [dif_pos h1, if_pos h1]
    cases s <;> rfl
  · rw [dif_neg h1, if_pos (by omega), if_neg h1]
    cases s <;> rfl

/-- The IEEE comparisons of two patterns are the comparisons of signed magnitudes. -/
private theorem cmp (h0 : 0 < F.emax) (s t : Bool) (m n : Nat) :
    ((Fp.ofBits (F := F) h0 s m < Fp.ofBits h0 t n) ↔ m ≤ F.infBits ∧ n ≤ F.infBits ∧ sm s m < sm t n) ∧
    ((Fp.ofBits (F := F) h0 s m ≤ Fp.ofBits h0 t n) ↔ m ≤ F.infBits ∧ n ≤ F.infBits ∧ sm s m ≤ sm t n) ∧
    ((Fp.ofBits (F := F) h0 s m == Fp.ofBits h0 t n) = true ↔ m ≤ F.infBits ∧ n ≤ F.infBits ∧ sm s m = sm t n) := by
  have hlt : ∀ s t m n, m ≤ F.infBits → n ≤ F.infBits → (sm s m < sm t n ↔ Spec.ereal (Fp.ofBits (F := F) h0 s m) < Spec.ereal (Fp.ofBits (F := F) h0 t n)) := by
    intro s t m n hm hn
    rw [ofBits_ereal h0 s m hm, ofBits_ereal h0 t n hn, sm_lt hm hn]
  have hle : ∀ s t m n, m ≤ F.infBits → n ≤ F.infBits → (sm s m ≤ sm t n ↔ Spec.ereal (Fp.ofBits (F := F) h0 s m) ≤ Spec.ereal (Fp.ofBits (F := F) h0 t n)) := by
    intro s t m n hm hn
    rw [← not_lt, ← not_lt, hlt t s n m hn hm]
  refine ⟨?_, ?_, ?_⟩
  · rw [Fp.lt_below]
    unfold Spec.Below
    rw [ofBits_ne_nan, ofBits_ne_nan]
    exact and_congr_right fun hm => and_congr_right fun hn => (hlt s t m n hm hn).symm
  · constructor
    · intro h
      have h1 : Fp.ofBits (F := F) h0 s m ≠ .nan := fun e => Fp.not_le_nan_left _ (by rw [e] at h; exact h)
      have h2 : Fp.ofBits (F := F) h0 t n ≠ .nan := fun e => Fp.not_le_nan_right _ (by rw [e] at h; exact h)
      have h3 := (Fp.le_iff h1 h2).1 h
      rw [ofBits_ne_nan] at h1 h2
      exact ⟨h1, h2, (hle s t m n h1 h2).2 h3⟩
    · rintro ⟨h1, h2, h3⟩
      exact (Fp.le_iff ((ofBits_ne_nan _ _ _).2 h1) ((ofBits_ne_nan _ _ _).2 h2)).2 ((hle s t m n h1 h2).1 h3)
  · rw [Fp.beq_same]
    unfold Spec.Same
    rw [ofBits_ne_nan, ofBits_ne_nan]
    refine and_congr_right fun hm => and_congr_right fun hn => ?_
    rw [le_antisymm_iff, le_antisymm_iff, hle s t m n hm hn, hle t s n m hn hm]

private theorem ofBits_inj (h0 : 0 < F.emax) {s t : Bool} {m n : Nat} (hm : m ≤ F.infBits) (h : Fp.ofBits (F := F) h0 s m = Fp.ofBits h0 t n) : s = t ∧ m = n := by
  have hn : n ≤ F.infBits := (ofBits_ne_nan h0 t n).1 (by rw [← h]; exact (ofBits_ne_nan h0 s m).2 hm)
  unfold Fp.ofBits at h
  by_cases h1 : m < F.infBits <;> by_cases h2 : n < F.infBits
  · rw [dif_pos h1, dif_pos h2] at h
    have := Fp.fin.inj h
    exact ⟨this.1, bitsVal_strict.injective this.2⟩
  · rw [dif_pos h1, dif_neg h2, if_pos (by omega)] at h
    cases h
  · rw [dif_neg h1, if_pos (by omega), dif_pos h2] at h
    cases h
  · rw [dif_neg h1, if_pos (by omega), dif_neg h2, if_pos (by omega)] at h
    exact ⟨Fp.inf.inj h, by omega⟩

private theorem ofBits_surj (h0 : 0 < F.emax) (x : Fp F) (hx : x ≠ .nan) : ∃ s n, n ≤ F.infBits ∧ Fp.ofBits h0 s n = x := by
  cases x with
  | nan => exact absurd rfl hx
  | inf s => exact ⟨s, F.infBits, le_rfl, by unfold Fp.ofBits; rw [dif_neg (lt_irrefl _), if_pos rfl]⟩
  | fin s m h =>
    obtain ⟨n, hn, e⟩ := bitsVal_surj h0 h
    refine ⟨s, n, hn.le, ?_⟩
    unfold Fp.ofBits
    rw [dif_pos hn]
    congr 1

/-! ## `float` -/

private theorem F32.build (s : Bool) (n : Nat) (hn : n < 2 ^ 31) : ∃ a : F32, a.sign = s ∧ a.mag = n := by
  refine ⟨⟨BitVec.ofNat 32 ((if s then 2 ^ 31 else 0) + n)⟩, ?_, ?_⟩
  · cases s <;> simp [F32.sign, BitVec.msb_eq_decide] <;> omega
  · cases s <;> simp [F32.mag] <;> omega

private theorem F32.ext' {a b : F32} (hs : a.sign = b.sign) (hm : a.mag = b.mag) : a = b := by
  cases a with | mk a => cases b with | mk b =>
  congr 1
  simp only [F32.mag, F32.sign] at hm hs
  apply BitVec.eq_of_toNat_eq
  have ha := a.isLt
  have hb := b.isLt
  simp only [BitVec.msb_eq_decide, Nat.add_one_sub_one, decide_eq_decide] at hs
  omega

private theorem inf32 : Format.infBits .single = 0x7f800000 := by decide

/-- **C135** Every number of the format `float`, the infinities and both zeros included, is the value of exactly one bit pattern; the patterns of value NaN are those with an exponent field of ones and a fraction that is not zero. -/
theorem C135_float_patterns : (∀ x : Fp .single, x ≠ .nan → ∃! a : F32, a.value = x) ∧
    ∀ a : F32, a.value = .nan ↔ a.bits.toNat / 2 ^ 23 % 2 ^ 8 = 255 ∧ a.bits.toNat % 2 ^ 23 ≠ 0 := by
  constructor
  · intro x hx
    obtain ⟨s, n, hn, e⟩ := ofBits_surj (F := .single) (by decide) x hx
    rw [inf32] at hn
    obtain ⟨a, ha, hm⟩ := F32.build s n (by omega)
    refine ⟨a, by show Fp.ofBits (F := .single) (by decide) a.sign a.mag = x; rw [ha, hm]; exact e, ?_⟩
    intro b hb
    have hb : Fp.ofBits (F := .single) (by decide) b.sign b.mag = x := hb
    rw [← e] at hb
    obtain ⟨h1, h2⟩ := ofBits_inj _ (F := .single) (by rw [inf32]; exact hn) hb.symm
    exact F32.ext' (by rw [ha, h1]) (by rw [hm, h2])
  · intro a
    have := ofBits_ne_nan (F := .single) (by decide) a.sign a.mag
    rw [inf32] at this
    unfold F32.value
    rw [← not_iff_not, ← ne_eq, this]
    unfold F32.mag
    omega

/-- **C135** The comparisons of bit patterns used for `float` are those of the values. -/
theorem C135_float_compare (a b : F32) : (a < b ↔ a.value < b.value) ∧ (a ≤ b ↔ a.value ≤ b.value) ∧ (a == b) = (a.value == b.value) := by
  have n : ∀ c : F32, c.isNaN = false ↔ c.mag ≤ Format.infBits .single := by
    intro c
    rw [inf32, F32.isNaN, decide_eq_false_iff_not]
    omega
  obtain ⟨h1, h2, h3⟩ := cmp (F := .single) (by decide) a.sign b.sign a.mag b.mag
  refine ⟨?_, ?_, ?_⟩
  · unfold F32.value
    rw [h1, ← n, ← n]; rfl
  · unfold F32.value
    rw [h2, ← n, ← n]; rfl
  · unfold F32.value
    rw [Bool.eq_iff_iff, h3, ← n, ← n]
    show (!a.isNaN && !b.isNaN && a.key == b.key) = true ↔ _
    simp only [Bool.and_eq_true, Bool.not_eq_true', beq_iff_eq, and_assoc]
    rfl

/-- **C135** `operator==` (and `!=`) of `float` vectors, in terms of the values: it holds exactly if all components are the same number with the same sign of zero, where a NaN only equals a NaN of the same bits. -/
theorem C135_float_equal (v w : Vec M F32) :
    (v.eqMem w = true ↔ ∀ i (h : i < M), v[i].value = w[i].value ∧ (v[i].value = .nan → v[i] = w[i])) ∧ v.neMem w = !(v.eqMem w) := by
  obtain ⟨h1, h2⟩ := C09_memcmp_partial 4 (fun _ => rfl) F32.toBytes_inj v w
  refine ⟨h1.trans ⟨fun h i hi => by rw [h i hi]; exact ⟨rfl, fun _ => rfl⟩, fun h i hi => ?_⟩, h2⟩
  obtain ⟨g1, g2⟩ := h i hi
  by_cases hn : v[i].value = .nan
  · exact g2 hn
  · exact (C135_float_patterns.1 _ hn).unique rfl g1.symm

/-- Specification: both are zeros, of different signs. -/
def Spec.OppositeZeros (a b : Fp F) : Prop := ∃ s, a = .fin s 0 mag_zero ∧ b = .fin (!s) 0 mag_zero

private theorem same_or_zeros {a b : Fp F} : (a == b) = true ↔ (a ≠ .nan ∧ a = b) ∨ Spec.OppositeZeros a b := by
  rw [Fp.beq_same]
  constructor
  · rintro ⟨ha, hb, h⟩
    cases a with
    | nan => exact absurd rfl ha
    | inf s => cases b with
      | nan => exact absurd rfl hb
      | inf t =>
        left; refine ⟨ha, ?_⟩
        cases s <;> cases t <;> first | rfl | (exfalso; simp [Spec.ereal, Fp.ext] at h)
      | fin t n k =>
        exfalso
        have h' : (if s then ⊥ else ⊤ : EReal) = ((if t then -n else n : ℝ) : EReal) := h
        cases s
        · exact EReal.coe_ne_top _ h'.symm
        · exact EReal.coe_ne_bot _ h'.symm
    | fin s m j => cases b with
      | nan => exact absurd rfl hb
      | inf t =>
        exfalso
        have h' : ((if s then -m else m : ℝ) : EReal) = (if t then ⊥ else ⊤ : EReal) := h
        cases t
        · exact EReal.coe_ne_top _ h'
        · exact EReal.coe_ne_bot _ h'
      | fin t n k =>
        have h' : (if s then -m else m : ℝ) = (if t then -n else n : ℝ) := by
          have : (((if s then -m else m : ℝ)) : EReal) = ((if t then -n else n : ℝ) : EReal) := h
          exact_mod_cast this
        have hm := j.1
        have hn := k.1
        by_cases hst : s = t
        · subst hst
          left; refine ⟨ha, ?_⟩
          have : m = n := by cases s <;> simp at h' <;> exact h'
          subst this; rfl
        · right
          have h0 : m = 0 ∧ n = 0 := by
            cases s <;> cases t <;> simp at h' hst <;> constructor <;> linarith
          obtain ⟨rfl, rfl⟩ := h0
          refine ⟨s, rfl, ?_⟩
          have : t = !s := by cases s <;> cases t <;> simp at hst <;> rfl
          subst this; rfl
  · rintro (⟨ha, rfl⟩ | ⟨s, rfl, rfl⟩)
    · exact ⟨ha, ha, rfl⟩
    · refine ⟨(by intro h; cases h), (by intro h; cases h), ?_⟩
      cases s <;> simp [Spec.ereal, Fp.ext]

/-- **C135** Where it differs from comparing the components with `==`: for vectors of which one has no NaN, `operator==` holds exactly if all components compare equal and none are zeros of different signs. Hence it never
holds when the components differ, and when it wrongly fails there is a pair of opposite zeros. -/
theorem C135_float_versus_components (v w : Vec M F32) (hv : ∀ i (h : i < M), v[i].value ≠ .nan) :
    (v.eqMem w = true ↔ ∀ i (h : i < M), (v[i] == w[i]) = true ∧ ¬ Spec.OppositeZeros v[i].value w[i].value) := by
  rw [(C135_float_equal v w).1]
  apply forall_congr'
  intro i
  apply forall_congr'
  intro hi
  rw [(C135_float_compare _ _).2.2, same_or_zeros]
  have hn := hv i hi
  constructor
  · rintro ⟨h, -⟩
    refine ⟨.inl ⟨hn, h⟩, ?_⟩
    rintro ⟨s, h1, h2⟩
    rw [h1, h2] at h
    have := (Fp.fin.inj h).1
    cases s <;> cases this
  · rintro ⟨⟨-, h⟩ | h, h'⟩
    · exact ⟨h, fun e => absurd e hn⟩
    · exact absurd h h'

private theorem min_map (v : Vec M F32) (p : Vec M (Fp .single)) (hp : ∀ i (h : i < M), p[i] = v[i].value) (f : F32 → F32 → Bool) (g : Fp .single → Fp .single → Bool)
    (h : ∀ a b, g a.value b.value = f a b) : v.minElement f = p.minElement g := by
  unfold Vec.minElement
  apply loop_congr
  intro i _ best
  by_cases h1 : i + 1 < M
  · rw [Vec.rawGet_lt p h1, Vec.rawGet_lt v h1]
    by_cases h2 : best < M
    · rw [Vec.rawGet_lt p h2, Vec.rawGet_lt v h2, hp _ h1, hp _ h2]
      simp only [Vmml.bind_ok, h]
    · simp [Vec.rawGet, h2]
  · simp [Vec.rawGet, h1]

private theorem value_array (m : Mat M N F32) (x : Mat M N (Fp .single)) (h : ∀ r c, x.get r c = (m.get r c).value) (i : Nat) (hi : i < M * N) : x.array[i] = m.array[i].value := by
  obtain ⟨⟨r, c⟩, hrc⟩ := cellEquiv.surjective (⟨i, hi⟩ : Fin (M * N))
  have e1 := Mat.array_cell x r c
  have e2 := Mat.array_cell m r c
  simp only [hrc] at e1 e2
  calc x.array[i] = x.get r c := e1
    _ = (m.get r c).value := h r c
    _ = _ := by rw [← e2]; rfl

/-- **C135** `operator<`, the positions of the smallest and largest component, and the element-wise `operator==` and `operator!=` of matrices decide on the bit patterns what they decide on the values: what C123
proves about values holds of the patterns in memory. -/
theorem C135_float_order (cfg : Cfg) (v w : Vec M F32) (p q : Vec M (Fp .single)) (hp : ∀ i (h : i < M), p[i] = v[i].value) (hq : ∀ i (h : i < M), q[i] = w[i].value)
    (a b : Mat M N F32) (x y : Mat M N (Fp .single)) (hx : ∀ i j, x.get i j = (a.get i j).value) (hy : ∀ i j, y.get i j = (b.get i j).value) :
    v.lt cfg w = p.lt cfg q ∧ v.findMinIndex = p.findMinIndex ∧ v.findMaxIndex = p.findMaxIndex ∧ a.eqOp b = x.eqOp y ∧ a.neOp b = x.neOp y := by
  have hlt : ∀ a b : F32, decide (a.value < b.value) = decide (a < b) := fun a b => by rw [decide_eq_decide]; exact (C135_float_compare a b).1.symm
  have heq : a.eqOp b = x.eqOp y := by
    unfold Mat.eqOp
    apply loop_congr
    intro i hi ok
    have hi : i < M * N := by omega
    rw [Mat.rawGet_lt x hi, Mat.rawGet_lt y hi, Mat.rawGet_lt a hi, Mat.rawGet_lt b hi, value_array a x hx i hi, value_array b y hy i hi]
    simp only [Vmml.bind_ok, (C135_float_compare _ _).2.2]
  refine ⟨?_, min_map v p hp _ _ hlt, ?_, heq, ?_⟩
  · unfold Vec.lt
    congr 1
    rw [loopRet_eq (fun i => if h : i < M then (if v[i] < w[i] then some true else if w[i] < v[i] then some false else none) else none) (by
        intro i hi
        simp only [Vec.atGet_lt cfg _ hi, Vmml.bind_ok, hi, dite_true, pure_ok]
        split_ifs <;> rfl),
      loopRet_eq (fun i => if h : i < M then (if v[i] < w[i] then some true else if w[i] < v[i] then some false else none) else none) (by
        intro i hi
        simp only [Vec.atGet_lt cfg _ hi, Vmml.bind_ok, hi, dite_true, pure_ok, hp i hi, hq i hi, ← (C135_float_compare _ _).1]
        split_ifs <;> rfl)]
  · unfold Vec.findMaxIndex
    rw [maxElement_eq_minElement, maxElement_eq_minElement]
    exact min_map v p hp _ _ fun a b => hlt b a
  · unfold Mat.neOp
    rw [heq]

/-! ## `double` -/

private theorem F64.build (s : Bool) (n : Nat) (hn : n < 2 ^ 63) : ∃ a : F64, a.sign = s ∧ a.mag = n := by
  refine ⟨⟨BitVec.ofNat 64 ((if s then 2 ^ 63 else 0) + n)⟩, ?_, ?_⟩
  · cases s <;> simp [F64.sign, BitVec.msb_eq_decide] <;> omega
  · cases s <;> simp [F64.mag] <;> omega

private theorem F64.ext' {a b : F64} (hs : a.sign = b.sign) (hm : a.mag = b.mag) : a = b := by
  cases a with | mk a => cases b with | mk b =>
  congr 1
  simp only [F64.mag, F64.sign] at hm hs
  apply BitVec.eq_of_toNat_eq
  have ha := a.isLt
  have hb := b.isLt
  simp only [BitVec.msb_eq_decide, Nat.add_one_sub_one, decide_eq_decide] at hs
  omega

theorem F64.toBytes_inj : Function.Injective F64.toBytes := by
  intro a b h
  simp only [F64.toBytes, List.cons.injEq, and_true] at h
  obtain ⟨h0, h1, h2, h3, h4, h5, h6, h7⟩ := h
  cases a with | mk a => cases b with | mk b =>
  congr 1
  apply BitVec.eq_of_getLsbD_eq
  intro i hi
  have g : ∀ (s : Nat), a.extractLsb' s 8 = b.extractLsb' s 8 → s ≤ i → i < s + 8 → a.getLsbD i = b.getLsbD i := by
    intro s h h1 h2
    have := congrArg (fun x => x.getLsbD (i - s)) h
    simpa [BitVec.getLsbD_extractLsb', show i - s < 8 by omega, show s + (i - s) = i by omega] using this
  have g0 := g 0 (UInt8.ofBitVec.inj h0)
  have g1 := g 8 (UInt8.ofBitVec.inj h1)
  have g2 := g 16 (UInt8.ofBitVec.inj h2)
  have g3 := g 24 (UInt8.ofBitVec.inj h3)
  have g4 := g 32 (UInt8.ofBitVec.inj h4)
  have g5 := g 40 (UInt8.ofBitVec.inj h5)
  have g6 := g 48 (UInt8.ofBitVec.inj h6)
  have g7 := g 56 (UInt8.ofBitVec.inj h7)
  by_cases c0 : i < 8
  · exact g0 (by omega) (by omega)
  by_cases c1 : i < 16
  · exact g1 (by omega) (by omega)
  by_cases c2 : i < 24
  · exact g2 (by omega) (by omega)
  by_cases c3 : i < 32
  · exact g3 (by omega) (by omega)
  by_cases c4 : i < 40
  · exact g4 (by omega) (by omega)
  by_cases c5 : i < 48
  · exact g5 (by omega) (by omega)
  by_cases c6 : i < 56
  · exact g6 (by omega) (by omega)
  · exact g7 (by omega) (by omega)

private theorem inf64 : Format.infBits .double = 0x7ff0000000000000 := by decide

/-- **C135** The same for `double`: every number is the value of exactly one pattern, and which patterns are NaN. -/
theorem C135_double_patterns : (∀ x : Fp .double, x ≠ .nan → ∃! a : F64, a.value = x) ∧
    ∀ a : F64, a.value = .nan ↔ a.bits.toNat / 2 ^ 52 % 2 ^ 11 = 2047 ∧ a.bits.toNat % 2 ^ 52 ≠ 0 := by
  constructor
  · intro x hx
    obtain ⟨s, n, hn, e⟩ := ofBits_surj (F := .double) (by decide) x hx
    rw [inf64] at hn
    obtain ⟨a, ha, hm⟩ := F64.build s n (by omega)
    refine ⟨a, by show Fp.ofBits (F := .double) (by decide) a.sign a.mag = x; rw [ha, hm]; exact e, ?_⟩
    intro b hb
    have hb : Fp.ofBits (F := .double) (by decide) b.sign b.mag = x := hb
    rw [← e] at hb
    obtain ⟨h1, h2⟩ := ofBits_inj _ (F := .double) (by rw [inf64]; exact hn) hb.symm
    exact F64.ext' (by rw [ha, h1]) (by rw [hm, h2])
  · intro a
    have := ofBits_ne_nan (F := .double) (by decide) a.sign a.mag
    rw [inf64] at this
    unfold F64.value
    rw [← not_iff_not, ← ne_eq, this]
    unfold F64.mag
    omega

/-- **C135** `operator==` and `!=` of `double` vectors in terms of the values. -/
theorem C135_double_equal (v w : Vec M F64) :
    (v.eqMem w = true ↔ ∀ i (h : i < M), v[i].value = w[i].value ∧ (v[i].value = .nan → v[i] = w[i])) ∧ v.neMem w = !(v.eqMem w) := by
  obtain ⟨h1, h2⟩ := C09_memcmp_partial 8 (fun _ => rfl) F64.toBytes_inj v w
  refine ⟨h1.trans ⟨fun h i hi => by rw [h i hi]; exact ⟨rfl, fun _ => rfl⟩, fun h i hi => ?_⟩, h2⟩
  obtain ⟨g1, g2⟩ := h i hi
  by_cases hn : v[i].value = .nan
  · exact g2 hn
  · exact (C135_double_patterns.1 _ hn).unique rfl g1.symm

/-- **C135** Where it differs from comparing the components of `double` vectors with `==`. -/
theorem C135_double_versus_components (v w : Vec M F64) (hv : ∀ i (h : i < M), v[i].value ≠ .nan) :
    (v.eqMem w = true ↔ ∀ i (h : i < M), (v[i].value == w[i].value) = true ∧ ¬ Spec.OppositeZeros v[i].value w[i].value) := by
  rw [(C135_double_equal v w).1]
  apply forall_congr'
  intro i
  apply forall_congr'
  intro hi
  rw [same_or_zeros]
  have hn := hv i hi
  constructor
  · rintro ⟨h, -⟩
    refine ⟨.inl ⟨hn, h⟩, ?_⟩
    rintro ⟨s, h1, h2⟩
    rw [h1, h2] at h
    have := (Fp.fin.inj h).1
    cases s <;> cases this
  · rintro ⟨⟨-, h⟩ | h, h'⟩
    · exact ⟨h, fun e => absurd e hn⟩
    · exact absurd h h'

/-- A case: the pattern `0x3f800000` is the number one, and a vector of it has no NaN. -/
example : (⟨0x3f800000#32⟩ : F32).value.val = 1 ∧ (⟨0x3f800000#32⟩ : F32).value ≠ .nan := by
  have hs : (⟨0x3f800000#32⟩ : F32).sign = false := by decide
  have hm : (⟨0x3f800000#32⟩ : F32).mag = 0x3f800000 := by decide
  have hn : (0x3f800000 : ℕ) < Format.infBits .single := by decide
  unfold F32.value
  rw [hs, hm]
  unfold Fp.ofBits
  rw [dif_pos hn]
  refine ⟨?_, by intro h; cases h⟩
  show Format.bitsVal .single 0x3f800000 = 1
  unfold Format.bitsVal
  rw [if_neg (by decide), show Format.single.emin = -126 by decide, show Format.single.p = 23 by decide]
  norm_num

/-- A case of the exception: vectors of opposite zeros compare different although their components compare equal. -/
example : Vec.eqMem (#v[F64.posZero] : Vec 1 F64) #v[F64.negZero] = false ∧ Spec.OppositeZeros F64.posZero.value F64.negZero.value := by
  refine ⟨by decide, false, ?_, ?_⟩ <;> unfold F64.value Fp.ofBits
  · rw [dif_pos (by decide)]
    congr 1
    rw [show F64.posZero.mag = 0 by decide, bitsVal_zero]
  · rw [dif_pos (by decide)]
    congr 1
    rw [show F64.negZero.mag = 0 by decide, bitsVal_zero]

end Vmml
