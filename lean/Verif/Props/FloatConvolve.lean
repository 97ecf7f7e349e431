import Verif.Props.FloatSums
import Verif.Props.FloatCast
import Verif.Props.MatrixSignal

/-!
# C136: convolution in IEEE 754 arithmetic

`convolve` multiplies in the element type, adds in `double` and rounds the sum back to the element type.
-/

namespace Vmml
open Format
variable {F D : Format} {n u : Nat}

/-! ## Specification -/

/-- The product at position `(j, i)` of the kernel when it is laid over the cell `(y, x)`, with the border extended. -/
noncomputable def Spec.tap (hn : 0 < n) (m : Mat n n (Fp F)) (k : Mat u u (Fp F)) (y x : Fin n) (j i : Fin u) : ℝ :=
  (k.get j i).val * (m.get (Spec.edge hn (y - (u / 2 : Nat) + j)) (Spec.edge hn (x - (u / 2 : Nat) + i))).val
/-- The sum of the products. -/
noncomputable def Spec.convSum (hn : 0 < n) (m : Mat n n (Fp F)) (k : Mat u u (Fp F)) (y x : Fin n) : ℝ := ∑ j, ∑ i, Spec.tap hn m k y x j i
/-- The sum of the magnitudes of the products. -/
noncomputable def Spec.convMag (hn : 0 < n) (m : Mat n n (Fp F)) (k : Mat u u (Fp F)) (y x : Fin n) : ℝ := ∑ j, ∑ i, |Spec.tap hn m k y x j i|
/-- The error of a sum of `c` products of magnitudes adding up to `S`: two roundings in the element type, `c - 1` in `double`, and the underflow of the products and the result. -/
noncomputable def Spec.convErr (F D : Format) (c : Nat) (S : ℝ) : ℝ := ((1 + F.u) ^ 2 * (1 + D.u) ^ (c - 1) - 1) * S + ((1 + F.u) * (1 + D.u) ^ (c - 1) * c + 1) * F.eta

/-! ## Loops -/

private theorem loop_plus {σ : Type} {a b : Nat} {body : Nat → σ → Res σ} {s : σ} :
    loop (a + b) body s = (loop a body s >>= fun s => loop b (fun i => body (a + i)) s) := by
  induction b with
  | zero =>
    simp only [Nat.add_zero, loop_zero]
    cases loop a body s <;> rfl
  | succ b ih =>
    rw [← Nat.add_assoc, loop_succ, ih]
    cases loop a body s with
    | error e => rfl
    | ok t => simp only [Vmml.bind_ok, loop_succ]

private theorem loop_nest {σ : Type} {V U : Nat} {b : Nat → Nat → σ → Res σ} {s : σ} :
    loop V (fun j s => loop U (b j) s) s = loop (V * U) (fun k s => b (k / U) (k % U) s) s := by
  induction V with
  | zero => simp only [Nat.zero_mul, loop_zero]
  | succ V ih =>
    rw [loop_succ, ih, Nat.succ_mul, loop_plus]
    congr 1
    funext s
    apply loop_congr
    intro i hi s
    rw [Nat.mul_comm V U, Nat.mul_add_div (by omega), Nat.div_eq_of_lt hi, Nat.add_zero, Nat.mul_add_mod, Nat.mod_eq_of_lt hi]

private theorem wide (hD : Spec.Wider F D) : F.p ≤ D.p ∧ F.emax ≤ D.emax := by
  rcases hD with rfl | ⟨h1, h2⟩
  · exact ⟨le_rfl, le_rfl⟩
  · exact ⟨h1, h2.le⟩

private theorem narrow_val {a : Fp D} (h : (Fp.convert F a).Finite) : a.Finite ∧ (Fp.convert F a).val = F.rnd a.val := by
  have hf := Fp.convert_finite h
  refine ⟨hf, ?_⟩
  obtain ⟨s, m, hm, rfl⟩ := Fp.finite_cases hf
  have e : |(Fp.fin s m hm).val| = m := by cases s <;> simp [abs_of_nonneg hm.1]
  have h' : (Fp.round s |(Fp.fin s m hm).val| : Fp F).Finite := by rw [e]; exact h
  have := Fp.round_finite h' (by
    intro hne
    have hm0 := hm.1
    have hne' : m ≠ 0 := by rintro rfl; cases s <;> simp at hne
    have : 0 < m := lt_of_le_of_ne hm0 (Ne.symm hne')
    cases s <;> simp <;> linarith)
  rw [e] at this
  exact this

/-- The sum of all taps, as the code adds them. -/
private theorem taps (hD : Spec.Wider F D) (h0 : 0 < F.emax) (x : Nat → Nat → Fp F) {b : Nat → Nat → Fp D → Res (Fp D)}
    (hb : ∀ j i s, j < u → i < u → b j i s = .ok (s + Fp.convert D (x j i))) :
    ∃ d, loop u (fun j s => loop u (b j) s) 0 = .ok d ∧
      (d.Finite → (∀ j i : Fin u, (x j i).Finite) ∧ |d.val - ∑ j : Fin u, ∑ i : Fin u, (x j i).val| ≤ ((1 + D.u) ^ (u * u - 1) - 1) * ∑ j : Fin u, ∑ i : Fin u, |(x j i).val|) ∧
      ((∀ j i : Fin u, (x j i).Finite) → (1 + D.u) ^ (u * u - 1) * ∑ j : Fin u, ∑ i : Fin u, |(x j i).val| ≤ D.maxFinite → d.Finite) := by
  obtain ⟨hp, he⟩ := wide hD
  have hv : ∀ a : Fp F, (Fp.convert D a).val = a.val := by
    intro a
    cases a with
    | nan => rfl
    | inf s => rfl
    | fin s m hm => exact (Fp.widen_fin hp he h0 (a := .fin s m hm) trivial).2
  rw [loop_nest]
  obtain ⟨d, h1, h2, h3⟩ := fp_sum (F := D) (by omega) (N := u * u) (body := fun k s => b (k / u) (k % u) s) (fun k => Fp.convert D (x (k.1 / u) (k.1 % u))) (by
    intro k hk s
    have hu : 0 < u := Nat.pos_of_ne_zero (by rintro rfl; simp at hk)
    exact hb _ _ _ (Nat.div_lt_of_lt_mul hk) (Nat.mod_lt _ hu))
  have s1 : ∀ f : Fp F → ℝ, ∑ k : Fin (u * u), f (x (k.1 / u) (k.1 % u)) = ∑ j : Fin u, ∑ i : Fin u, f (x j i) := by
    intro f
    rw [← finProdFinEquiv.sum_comp, Fintype.sum_prod_type]
    refine Finset.sum_congr rfl fun j _ => Finset.sum_congr rfl fun i _ => ?_
    have e1 : (finProdFinEquiv (j, i)).1 = i.1 + u * j.1 := rfl
    have hu : 0 < u := Nat.lt_of_le_of_lt (Nat.zero_le _) i.2
    rw [e1, Nat.add_mul_div_left _ _ hu, Nat.div_eq_of_lt i.2, Nat.zero_add, Nat.add_mul_mod_self_left, Nat.mod_eq_of_lt i.2]
  have hall : (∀ k : Fin (u * u), (Fp.convert D (x (k.1 / u) (k.1 % u))).Finite) ↔ ∀ j i : Fin u, (x j i).Finite := by
    constructor
    · intro h j i
      have := h (finProdFinEquiv (j, i))
      have e1 : (finProdFinEquiv (j, i)).1 = i.1 + u * j.1 := rfl
      have hu : 0 < u := Nat.lt_of_le_of_lt (Nat.zero_le _) i.2
      rw [e1, Nat.add_mul_div_left _ _ hu, Nat.div_eq_of_lt i.2, Nat.zero_add, Nat.add_mul_mod_self_left, Nat.mod_eq_of_lt i.2] at this
      exact Fp.convert_finite this
    · intro h k
      have hu : 0 < u := Nat.pos_of_ne_zero (by rintro rfl; exact absurd k.2 (by simp))
      exact (Fp.widen_fin hp he h0 (h ⟨_, Nat.div_lt_of_lt_mul k.2⟩ ⟨_, Nat.mod_lt _ hu⟩)).1
  simp only [hv] at h2 h3
  rw [s1 (fun a => a.val), s1 (fun a => |a.val|)] at h2
  rw [s1 (fun a => |a.val|)] at h3
  exact ⟨d, h1, fun hf => ⟨hall.1 (h2 hf).1, (h2 hf).2⟩, fun hf hm => h3 (hall.2 hf) hm⟩

/-- The value the code computes for a cell. -/
private theorem conv_cell (hD : Spec.Wider F D) (h0 : 0 < F.emax) (hn : 0 < n) (cfg : Cfg) (m : Mat n n (Fp F)) (k : Mat u u (Fp F)) :
    ∃ r : Mat n n (Fp F), m.convolve cfg (Fp.convert D) (Fp.convert F) k = .ok r ∧ ∀ y x : Fin n, ∃ d : Fp D, r.get y x = Fp.convert F d ∧
      let P := fun j i : Fin u => k.get j i * m.get (Spec.edge hn (y - (u / 2 : Nat) + j)) (Spec.edge hn (x - (u / 2 : Nat) + i))
      (d.Finite → (∀ j i, (P j i).Finite) ∧ |d.val - ∑ j, ∑ i, (P j i).val| ≤ ((1 + D.u) ^ (u * u - 1) - 1) * ∑ j, ∑ i, |(P j i).val|) ∧
      ((∀ j i, (P j i).Finite) → (1 + D.u) ^ (u * u - 1) * ∑ j, ∑ i, |(P j i).val| ≤ D.maxFinite → d.Finite) := by
  have key : ∀ y x : Fin n, ∃ d : Fp D, loop u (fun j sum =>
        let srcy := Mat.borderIdx n ((y : Int) - (u / 2 : Nat) + j)
        loop u (fun i sum => do
          let srcx := Mat.borderIdx n ((x : Int) - (u / 2 : Nat) + i)
          pure (sum + Fp.convert D ((← k.atGet cfg j i) * (← m.atGet cfg srcy srcx)))) sum) (0 : Fp D) = .ok d ∧
      let P := fun j i : Fin u => k.get j i * m.get (Spec.edge hn (y - (u / 2 : Nat) + j)) (Spec.edge hn (x - (u / 2 : Nat) + i))
      (d.Finite → (∀ j i, (P j i).Finite) ∧ |d.val - ∑ j, ∑ i, (P j i).val| ≤ ((1 + D.u) ^ (u * u - 1) - 1) * ∑ j, ∑ i, |(P j i).val|) ∧
      ((∀ j i, (P j i).Finite) → (1 + D.u) ^ (u * u - 1) * ∑ j, ∑ i, |(P j i).val| ≤ D.maxFinite → d.Finite) := by
    intro y x
    obtain ⟨d, h1, h2⟩ := taps hD h0 (fun j i => if h : j < u ∧ i < u then k.get ⟨j, h.1⟩ ⟨i, h.2⟩ * m.get (Spec.edge hn (y - (u / 2 : Nat) + j)) (Spec.edge hn (x - (u / 2 : Nat) + i)) else 0)
      (b := fun j i sum => do
        pure (sum + Fp.convert D ((← k.atGet cfg j i) * (← m.atGet cfg (Mat.borderIdx n ((y : Int) - (u / 2 : Nat) + j)) (Mat.borderIdx n ((x : Int) - (u / 2 : Nat) + i)))))) (by
        intro j i s hj hi
        rw [Mat.atGet_lt cfg k hj hi, Vmml.bind_ok, borderIdx_eq hn, borderIdx_eq hn, Mat.atGet_lt cfg m (Fin.is_lt _) (Fin.is_lt _), Vmml.bind_ok, dif_pos ⟨hj, hi⟩]
        rfl)
    refine ⟨d, h1, ?_⟩
    have e : ∀ j i : Fin u, (j.1 < u ∧ i.1 < u) ↔ True := fun j i => ⟨fun _ => trivial, fun _ => ⟨j.2, i.2⟩⟩
    simp only [Fin.is_lt, and_self, dite_true, Fin.eta] at h2
    exact h2
  choose d hd1 hd2 using key
  refine ⟨Mat.ofFn fun y x => Fp.convert F (d y x), ?_, fun y x => ⟨d y x, by rw [Mat.get_ofFn], hd2 y x⟩⟩
  unfold Mat.convolve
  rw [Mat.ctor_eq, Vmml.bind_ok]
  have hl : ∀ t : Mat n n (Fp F), loop n (fun y temp => loop n (fun x temp => do
      let sum ← loop u (fun j sum =>
        let srcy := Mat.borderIdx n ((y : Int) - (u / 2 : Nat) + j)
        loop u (fun i sum => do
          let srcx := Mat.borderIdx n ((x : Int) - (u / 2 : Nat) + i)
          pure (sum + Fp.convert D ((← k.atGet cfg j i) * (← m.atGet cfg srcy srcx)))) sum) (0 : Fp D)
      temp.atSet cfg y x (Fp.convert F sum)) temp) t = .ok (Mat.ofFn fun y x => Fp.convert F (d y x)) := by
    intro t
    apply Mat.loop2_full
    intro y hy x hx temp _
    rw [hd1 ⟨y, hy⟩ ⟨x, hx⟩, Vmml.bind_ok, Mat.atSet_lt cfg temp _ hy hx]
  rw [hl, Vmml.bind_ok, Mat.assign_eq]

/-! ## The theorem -/

private theorem sum2_le {f g : Fin u → Fin u → ℝ} (h : ∀ j i, f j i ≤ g j i) : ∑ j, ∑ i, f j i ≤ ∑ j, ∑ i, g j i :=
  Finset.sum_le_sum fun j _ => Finset.sum_le_sum fun i _ => h j i

private theorem sum2_affine (f : Fin u → Fin u → ℝ) (a c : ℝ) : ∑ j, ∑ i, (a * f j i + c) = a * ∑ j, ∑ i, f j i + (u * u : ℕ) * c := by
  simp only [Finset.sum_add_distrib, ← Finset.mul_sum, Finset.sum_const, Finset.card_univ, Fintype.card_fin, nsmul_eq_mul]
  push_cast; ring

private theorem prod_sums {P T : Fin u → Fin u → ℝ} (h : ∀ j i, |P j i - T j i| ≤ F.u * |T j i| + F.eta) :
    ∑ j, ∑ i, |P j i| ≤ (1 + F.u) * ∑ j, ∑ i, |T j i| + (u * u : ℕ) * F.eta ∧ |∑ j, ∑ i, P j i - ∑ j, ∑ i, T j i| ≤ F.u * ∑ j, ∑ i, |T j i| + (u * u : ℕ) * F.eta := by
  constructor
  · rw [← sum2_affine]
    refine sum2_le fun j i => ?_
    have := abs_sub_abs_le_abs_sub (P j i) (T j i)
    have := h j i
    linarith
  · rw [← sum2_affine, ← Finset.sum_sub_distrib]
    refine (Finset.abs_sum_le_sum_abs _ _).trans (Finset.sum_le_sum fun j _ => ?_)
    rw [← Finset.sum_sub_distrib]
    exact (Finset.abs_sum_le_sum_abs _ _).trans (Finset.sum_le_sum fun i _ => h j i)

private theorem combine {S T A B d g : ℝ} {c : ℕ} (hg : 1 ≤ g) (hT : |T| ≤ S) (hA : |A| ≤ B) (hB : B ≤ (1 + F.u) * S + c * F.eta) (hAT : |A - T| ≤ F.u * S + c * F.eta) (hd : |d - A| ≤ (g - 1) * B) :
    |F.rnd d - T| ≤ ((1 + F.u) ^ 2 * g - 1) * S + ((1 + F.u) * g * c + 1) * F.eta ∧ |d| ≤ (1 + F.u) * g * S + g * c * F.eta := by
  have hu := u_pos (F := F)
  have hη := eta_pos (F := F)
  have hr := rnd_err_add (F := F) d
  have h1 : |d - T| ≤ (g - 1) * B + (F.u * S + c * F.eta) := by
    calc |d - T| = |(d - A) + (A - T)| := by congr 1; ring
      _ ≤ _ := abs_add_le _ _
      _ ≤ _ := by linarith
  have h2 : (g - 1) * B ≤ (g - 1) * ((1 + F.u) * S + c * F.eta) := mul_le_mul_of_nonneg_left hB (by linarith)
  have h3 : |d| ≤ (1 + F.u) * g * S + g * c * F.eta := by
    calc |d| = |(d - T) + T| := by congr 1; ring
      _ ≤ _ := abs_add_le _ _
      _ ≤ (g - 1) * ((1 + F.u) * S + c * F.eta) + (F.u * S + c * F.eta) + S := by linarith
      _ = _ := by ring
  refine ⟨?_, h3⟩
  have h4 : F.u * |d| ≤ F.u * ((1 + F.u) * g * S + g * c * F.eta) := mul_le_mul_of_nonneg_left h3 hu.le
  calc |F.rnd d - T| = |(F.rnd d - d) + (d - T)| := by congr 1; ring
    _ ≤ _ := abs_add_le _ _
    _ ≤ F.u * ((1 + F.u) * g * S + g * c * F.eta) + F.eta + ((g - 1) * ((1 + F.u) * S + c * F.eta) + (F.u * S + c * F.eta)) := by linarith
    _ = _ := by ring

private theorem convSum_le (hn : 0 < n) (m : Mat n n (Fp F)) (k : Mat u u (Fp F)) (y x : Fin n) : |Spec.convSum hn m k y x| ≤ Spec.convMag hn m k y x :=
  (Finset.abs_sum_le_sum_abs _ _).trans (Finset.sum_le_sum fun _ _ => Finset.abs_sum_le_sum_abs _ _)

/-- **C136** `convolve` with a square kernel on a square matrix (elsewhere it is broken, C43): it returns, and every cell of the result that is finite has only finite numbers under the kernel and is within `convErr`
of the exact sum; and if the numbers under the kernel are finite and leave room for the result, the cell is finite. -/
theorem C136_convolve (hD : Spec.Wider F D) (h0 : 0 < F.emax) (hn : 0 < n) (cfg : Cfg) (m : Mat n n (Fp F)) (k : Mat u u (Fp F)) :
    ∃ r : Mat n n (Fp F), m.convolve cfg (Fp.convert D) (Fp.convert F) k = .ok r ∧ ∀ y x : Fin n,
      ((r.get y x).Finite → (∀ j i : Fin u, (k.get j i).Finite ∧ (m.get (Spec.edge hn (y - (u / 2 : Nat) + j)) (Spec.edge hn (x - (u / 2 : Nat) + i))).Finite) ∧
        |(r.get y x).val - Spec.convSum hn m k y x| ≤ Spec.convErr F D (u * u) (Spec.convMag hn m k y x)) ∧
      ((∀ j i : Fin u, (k.get j i).Finite ∧ (m.get (Spec.edge hn (y - (u / 2 : Nat) + j)) (Spec.edge hn (x - (u / 2 : Nat) + i))).Finite) →
        (1 + F.u) * (1 + D.u) ^ (u * u - 1) * Spec.convMag hn m k y x + (1 + D.u) ^ (u * u - 1) * (u * u : ℕ) * F.eta ≤ F.maxFinite → (r.get y x).Finite) := by
  obtain ⟨hp, he⟩ := wide hD
  obtain ⟨r, h1, h2⟩ := conv_cell hD h0 hn cfg m k
  refine ⟨r, h1, fun y x => ?_⟩
  obtain ⟨d, e, g1, g2⟩ := h2 y x
  have hg : 1 ≤ (1 + D.u) ^ (u * u - 1) := one_le_pow₀ (by linarith [u_pos (F := D)])
  have hsum := convSum_le hn m k y x
  obtain ⟨P, hP⟩ : ∃ P : Fin u → Fin u → Fp F, P = fun j i : Fin u => k.get j i * m.get (Spec.edge hn (y - (u / 2 : Nat) + j)) (Spec.edge hn (x - (u / 2 : Nat) + i)) := ⟨_, rfl⟩
  rw [← hP] at g1 g2
  have hA : |∑ j, ∑ i, (P j i).val| ≤ ∑ j, ∑ i, |(P j i).val| :=
    (Finset.abs_sum_le_sum_abs _ _).trans (Finset.sum_le_sum fun _ _ => Finset.abs_sum_le_sum_abs _ _)
  constructor
  · intro hf
    rw [e] at hf ⊢
    obtain ⟨f1, f2⟩ := narrow_val hf
    obtain ⟨f3, f4⟩ := g1 f1
    have hmul : ∀ j i, (k.get j i).Finite ∧ (m.get (Spec.edge hn (y - (u / 2 : Nat) + j)) (Spec.edge hn (x - (u / 2 : Nat) + i))).Finite ∧
        (P j i).val = F.rnd (Spec.tap hn m k y x j i) := by
      intro j i
      have := f3 j i
      rw [hP] at this ⊢
      obtain ⟨q1, q2, q3⟩ := Fp.mul_finite this
      exact ⟨q1, q2, q3⟩
    refine ⟨fun j i => ⟨(hmul j i).1, (hmul j i).2.1⟩, ?_⟩
    obtain ⟨b1, b2⟩ := prod_sums (F := F) (P := fun j i => (P j i).val) (T := Spec.tap hn m k y x) (fun j i => by rw [(hmul j i).2.2]; exact rnd_err_add _)
    rw [f2]
    exact (combine hg hsum hA b1 b2 f4).1
  · intro hf hroom
    have hu := u_pos (F := F)
    have hη := eta_pos (F := F)
    have hS0 : 0 ≤ Spec.convMag hn m k y x := Finset.sum_nonneg fun _ _ => Finset.sum_nonneg fun _ _ => abs_nonneg _
    have htap : ∀ j i, |Spec.tap hn m k y x j i| ≤ Spec.convMag hn m k y x := by
      intro j i
      refine (Finset.single_le_sum (f := fun i => |Spec.tap hn m k y x j i|) (fun _ _ => abs_nonneg _) (Finset.mem_univ i)).trans ?_
      exact Finset.single_le_sum (f := fun j => ∑ i, |Spec.tap hn m k y x j i|) (fun _ _ => Finset.sum_nonneg fun _ _ => abs_nonneg _) (Finset.mem_univ j)
    have hmag : Spec.convMag hn m k y x ≤ F.maxFinite := by
      refine le_trans ?_ hroom
      have q1 : 0 ≤ (1 + D.u) ^ (u * u - 1) * (u * u : ℕ) * F.eta := by positivity
      have q2 : (1 : ℝ) ≤ (1 + F.u) * (1 + D.u) ^ (u * u - 1) := one_le_mul_of_one_le_of_one_le (by linarith) hg
      have q3 := mul_le_mul_of_nonneg_right q2 hS0
      linarith
    have hmul : ∀ j i, (P j i).Finite ∧ (P j i).val = F.rnd (Spec.tap hn m k y x j i) := by
      intro j i
      rw [hP]
      exact Fp.mul_fin h0 (hf j i).1 (hf j i).2 ((htap j i).trans hmag)
    obtain ⟨b1, b2⟩ := prod_sums (F := F) (P := fun j i => (P j i).val) (T := Spec.tap hn m k y x) (fun j i => by rw [(hmul j i).2]; exact rnd_err_add _)
    have hd : d.Finite := by
      refine g2 (fun j i => (hmul j i).1) (le_trans ?_ (hroom.trans (max_widen hp he)))
      calc _ ≤ (1 + D.u) ^ (u * u - 1) * ((1 + F.u) * Spec.convMag hn m k y x + (u * u : ℕ) * F.eta) := mul_le_mul_of_nonneg_left b1 (zero_le_one.trans hg)
        _ = _ := by ring
    rw [e]
    refine (Fp.convert_fin h0 hd ?_).1
    exact ((combine hg hsum hA b1 b2 (g1 hd).2).2).trans (by linarith)

/-- **C136** An averaging kernel (no negative entry, the exact sum of the entries at most one) never blows an image up: a cell whose numbers under the kernel are at most `β` in magnitude is at most `β + convErr`. -/
theorem C136_average (hD : Spec.Wider F D) (h0 : 0 < F.emax) (hn : 0 < n) (cfg : Cfg) (m : Mat n n (Fp F)) (k : Mat u u (Fp F)) (hk : ∀ j i, 0 ≤ (k.get j i).val) (hs : ∑ j, ∑ i, (k.get j i).val ≤ 1)
    {β : ℝ} (hβ : 0 ≤ β) (hm : ∀ y x, |(m.get y x).val| ≤ β) :
    ∃ r : Mat n n (Fp F), m.convolve cfg (Fp.convert D) (Fp.convert F) k = .ok r ∧ ∀ y x : Fin n, (r.get y x).Finite → |(r.get y x).val| ≤ β + Spec.convErr F D (u * u) β := by
  obtain ⟨r, h1, h2⟩ := C136_convolve hD h0 hn cfg m k
  refine ⟨r, h1, fun y x hf => ?_⟩
  have hS : Spec.convMag hn m k y x ≤ β := by
    calc Spec.convMag hn m k y x ≤ ∑ j, ∑ i, (k.get j i).val * β := by
          refine sum2_le fun j i => ?_
          rw [Spec.tap, abs_mul, abs_of_nonneg (hk j i)]
          exact mul_le_mul_of_nonneg_left (hm _ _) (hk j i)
      _ = (∑ j, ∑ i, (k.get j i).val) * β := by simp only [Finset.sum_mul]
      _ ≤ 1 * β := mul_le_mul_of_nonneg_right hs hβ
      _ = β := one_mul _
  have b := ((h2 y x).1 hf).2
  have hsum := (convSum_le hn m k y x).trans hS
  have hE : Spec.convErr F D (u * u) (Spec.convMag hn m k y x) ≤ Spec.convErr F D (u * u) β := by
    unfold Spec.convErr
    have hu := u_pos (F := F)
    have hg : 1 ≤ (1 + D.u) ^ (u * u - 1) := one_le_pow₀ (by linarith [u_pos (F := D)])
    have : 0 ≤ (1 + F.u) ^ 2 * (1 + D.u) ^ (u * u - 1) - 1 := by
      have q : (1 : ℝ) ≤ (1 + F.u) ^ 2 := one_le_pow₀ (by linarith)
      have := one_le_mul_of_one_le_of_one_le q hg
      linarith
    have := mul_le_mul_of_nonneg_left hS this
    linarith
  calc |(r.get y x).val| = |((r.get y x).val - Spec.convSum hn m k y x) + Spec.convSum hn m k y x| := by congr 1; ring
    _ ≤ _ := abs_add_le _ _
    _ ≤ _ := by linarith

/-- **C136** The identity kernel gives back every finite number exactly. -/
theorem C136_identity (hD : Spec.Wider F D) (h0 : 0 < F.emax) (hn : 0 < n) (cfg : Cfg) (m : Mat n n (Fp F)) (k : Mat 1 1 (Fp F)) (hk : k.get 0 0 = 1) :
    ∃ r : Mat n n (Fp F), m.convolve cfg (Fp.convert D) (Fp.convert F) k = .ok r ∧ ∀ y x : Fin n, (m.get y x).Finite → (r.get y x).Finite ∧ (r.get y x).val = (m.get y x).val := by
  obtain ⟨hp, he⟩ := wide hD
  obtain ⟨r, h1, h2⟩ := conv_cell hD h0 hn cfg m k
  refine ⟨r, h1, fun y x hf => ?_⟩
  obtain ⟨d, e, g1, g2⟩ := h2 y x
  have hedge : ∀ z : Fin n, Spec.edge hn ((z : Int) - ((1 / 2 : ℕ) : Int) + ((0 : Fin 1) : ℕ)) = z := by
    intro z
    apply Fin.ext
    show (max 0 (min ((z : Int) - ((1 / 2 : ℕ) : Int) + ((0 : ℕ) : Int)) (n - 1))).toNat = z.1
    have := z.2
    omega
  simp only [Fin.forall_fin_one, Finset.univ_unique, Fin.default_eq_zero, Finset.sum_singleton, hedge, hk] at g1 g2
  obtain ⟨q1, q2⟩ := Fp.one_mul_val h0 hf
  rw [q2] at g1 g2
  have hd : d.Finite := g2 q1 (by simp only [Nat.mul_one, Nat.sub_self, pow_zero, one_mul]; exact (Fp.abs_val_le _).trans (max_widen hp he))
  have hv : d.val = (m.get y x).val := by
    have := (g1 hd).2
    simp only [Nat.mul_one, Nat.sub_self, pow_zero, sub_self, zero_mul] at this
    exact sub_eq_zero.1 (abs_nonpos_iff.1 this)
  rw [e]
  obtain ⟨c1, c2⟩ := Fp.convert_fin h0 hd (by rw [hv]; exact Fp.abs_val_le _)
  exact ⟨c1, by rw [c2, hv, (Fp.rep_val hf).rnd_eq]⟩

/-- A case: a `float` image and the kernel of one entry. -/
example (cfg : Cfg) (m : Mat 8 8 (Fp .single)) := C136_identity (F := .single) (D := .double) wider_single (by decide) (by decide) cfg m (⟨#v[1]⟩ : Mat 1 1 (Fp .single)) rfl

end Vmml
