import Verif.Props.MatrixStats
import Verif.Props.MatrixAccess
import Verif.Props.VectorOrder
import Mathlib.Analysis.SpecialFunctions.Trigonometric.Basic
import Mathlib.Tactic.LinearCombination

/-!
# C43, C44, C45, C49, C84 (matrices): convolution, pair sums, DCT, functors, random
-/

set_option linter.unusedSimpArgs false

namespace Vmml
open Mat
variable {M N U V : Nat} {α β δ : Type}

/-! ## C43 -/

/-- Edge extension: the index `z` moved into `0 .. n-1`. -/
def Spec.edge {n : Nat} (hn : 0 < n) (z : Int) : Fin n := ⟨(max 0 (min z (n - 1))).toNat, by omega⟩

theorem borderIdx_eq {n : Nat} (hn : 0 < n) (z : Int) : borderIdx n z = (Spec.edge hn z).1 := by
  unfold borderIdx Spec.edge
  simp only
  split_ifs <;> omega

/-- C43, proved part: for square matrices and square kernels `convolve` computes, without any out-of-range access, the sum over the
kernel of `kernel( j, i ) * A( y + j - U/2, x + i - U/2 )` with edge-extended indices (the correlation form of the discrete
convolution: the kernel is not flipped). Missing: non-square matrices and kernels (`C43_nonsquare_violated`,
`C43_nonsquare_kernel_violated`). -/
theorem C43_convolve_partial [CommRing α] {n u : Nat} (hn : 0 < n) (cfg : Cfg) (m : Mat n n α) (k : Mat u u α) :
    ∃ r, m.convolve cfg id id k = .ok r ∧ ∀ y x : Fin n, r.toMat y x =
      ∑ j : Fin u, ∑ i : Fin u, k.toMat j i *
        m.toMat (Spec.edge hn (y - (u / 2 : Nat) + j)) (Spec.edge hn (x - (u / 2 : Nat) + i)) := by
  set G : Fin n → Fin n → α := fun y x => ∑ j : Fin u, ∑ i : Fin u, k.get j i *
        m.get (Spec.edge hn (y - (u / 2 : Nat) + j)) (Spec.edge hn (x - (u / 2 : Nat) + i)) with hG
  refine ⟨ofFn G, ?_, by simp [hG]⟩
  unfold convolve
  rw [ctor_eq, bind_ok]
  have hl : ∀ t : Mat n n α, loop n (fun y temp => loop n (fun x temp => do
      let sum ← loop u (fun j sum =>
        let srcy := borderIdx n ((y : Int) - (u / 2 : Nat) + j)
        loop u (fun i sum => do
          let srcx := borderIdx n ((x : Int) - (u / 2 : Nat) + i)
          pure (sum + id ((← k.atGet cfg j i) * (← m.atGet cfg srcy srcx)))) sum) (0 : α)
      temp.atSet cfg y x (id sum)) temp) t = .ok (ofFn G) := by
    intro t
    apply loop2_full
    intro y hy x hx temp _
    have hs : loop u (fun j sum =>
        let srcy := borderIdx n ((y : Int) - (u / 2 : Nat) + j)
        loop u (fun i sum => do
          let srcx := borderIdx n ((x : Int) - (u / 2 : Nat) + i)
          pure (sum + id ((← k.atGet cfg j i) * (← m.atGet cfg srcy srcx)))) sum) (0 : α) = .ok (G ⟨y, hy⟩ ⟨x, hx⟩) := by
      rw [loop_sum (fun j : Fin u => ∑ i : Fin u, k.get j i *
        m.get (Spec.edge hn (y - (u / 2 : Nat) + j)) (Spec.edge hn (x - (u / 2 : Nat) + i))) (by
        intro j hj s
        simp only
        rw [loop_sum (fun i : Fin u => k.get ⟨j, hj⟩ i *
          m.get (Spec.edge hn (y - (u / 2 : Nat) + j)) (Spec.edge hn (x - (u / 2 : Nat) + i))) (by
          intro i hi s
          rw [atGet_lt cfg k hj hi, bind_ok, borderIdx_eq hn, borderIdx_eq hn,
            atGet_lt cfg m (Fin.is_lt _) (Fin.is_lt _), bind_ok]
          rfl)]), zero_add]
    rw [hs, bind_ok, atSet_lt cfg temp _ hy hx]
    rfl
  rw [hl, bind_ok, assign_eq]

/-- A call that returns or throws (no undefined behaviour, no abort). -/
def OkOrThrown {σ : Type} (r : Res σ) : Prop := (∃ s, r = .ok s) ∨ r = .error .thrown

theorem OkOrThrown.bind {σ τ : Type} {r : Res σ} {f : σ → Res τ} (h : OkOrThrown r) (hf : ∀ s, OkOrThrown (f s)) :
    OkOrThrown (r >>= f) := by
  rcases h with ⟨s, rfl⟩ | rfl
  · exact hf s
  · exact Or.inr rfl

theorem OkOrThrown.bind_thrown {σ τ : Type} {r : Res σ} {f : σ → Res τ} (h : OkOrThrown r)
    (hf : ∀ s, f s = .error .thrown) : (r >>= f) = .error .thrown := by
  rcases h with ⟨s, rfl⟩ | rfl
  · exact hf s
  · rfl

theorem OkOrThrown.pure {σ : Type} (s : σ) : OkOrThrown (pure s : Res σ) := Or.inl ⟨s, rfl⟩

theorem OkOrThrown.loop {σ : Type} {n : Nat} {body : Nat → σ → Res σ} {s : σ} (h : ∀ i s, OkOrThrown (body i s)) :
    OkOrThrown (loop n body s) := by
  induction n with
  | zero => exact Or.inl ⟨s, rfl⟩
  | succ n ih => exact ih.bind (h n)

theorem atGet_okOrThrown (cfg : Cfg) (hs : cfg.safe = true) (ht : cfg.throws = true) (m : Mat M N α) (r c : Nat) :
    OkOrThrown (m.atGet cfg r c) := by
  by_cases h : r < M ∧ c < N
  · exact Or.inl ⟨_, atGet_lt cfg m h.1 h.2⟩
  · right
    have : (decide (M ≤ r) || decide (N ≤ c)) = true := by simp; omega
    simp [Mat.atGet, hs, this, vmmlibError, ht]

theorem atSet_okOrThrown (cfg : Cfg) (hs : cfg.safe = true) (ht : cfg.throws = true) (m : Mat M N α) (r c : Nat) (x : α) :
    OkOrThrown (m.atSet cfg r c x) := by
  by_cases h : r < M ∧ c < N
  · exact Or.inl ⟨_, atSet_lt cfg m x h.1 h.2⟩
  · right
    have : (decide (M ≤ r) || decide (N ≤ c)) = true := by simp; omega
    simp [Mat.atSet, hs, this, vmmlibError, ht]

theorem atGet_thrown (cfg : Cfg) (hs : cfg.safe = true) (ht : cfg.throws = true) (m : Mat M N α) {r c : Nat}
    (h : M ≤ r ∨ N ≤ c) : m.atGet cfg r c = .error .thrown := by
  have : (decide (M ≤ r) || decide (N ≤ c)) = true := by simpa using h
  simp [Mat.atGet, hs, this, vmmlibError, ht]

theorem atSet_thrown (cfg : Cfg) (hs : cfg.safe = true) (ht : cfg.throws = true) (m : Mat M N α) {r c : Nat} (x : α)
    (h : M ≤ r ∨ N ≤ c) : m.atSet cfg r c x = .error .thrown := by
  have : (decide (M ≤ r) || decide (N ≤ c)) = true := by simpa using h
  simp [Mat.atSet, hs, this, vmmlibError, ht]

theorem convolve_sum_okOrThrown [CommRing α] (cfg : Cfg) (hs : cfg.safe = true) (ht : cfg.throws = true) (m : Mat M N α)
    (k : Mat U V α) (y x : Nat) (s : α) : OkOrThrown (loop V (fun j sum =>
        let srcy := borderIdx N ((y : Int) - (V / 2 : Nat) + j)
        loop U (fun i sum => do
          let srcx := borderIdx M ((x : Int) - (U / 2 : Nat) + i)
          pure (sum + id ((← k.atGet cfg j i) * (← m.atGet cfg srcy srcx)))) sum) s) :=
  OkOrThrown.loop fun _ _ => OkOrThrown.loop fun _ _ => (atGet_okOrThrown cfg hs ht k _ _).bind fun _ =>
    (atGet_okOrThrown cfg hs ht m _ _).bind fun _ => .pure _

theorem assign_convolve_thrown {r : Res (Mat M N α)} {f : Mat M N α → Res (Mat M N α)} (h : r = .error .thrown) :
    (r >>= f) = .error .thrown := by rw [h]; rfl

/-- C43 fails for every non-square matrix: with checked accessors and exceptions `convolve` throws (rows and columns are
swapped in its loops), for every kernel; without checks it reads and writes outside the matrix. -/
theorem C43_nonsquare_violated [CommRing α] (cfg : Cfg) (hs : cfg.safe = true) (ht : cfg.throws = true) (m : Mat M N α)
    (k : Mat U V α) (hM : 0 < M) (hN : 0 < N) (hne : M ≠ N) : m.convolve cfg id id k = .error .thrown := by
  unfold convolve
  rw [ctor_eq, bind_ok]
  apply assign_convolve_thrown
  have hcell : ∀ (y x : Nat) (temp : Mat M N α), OkOrThrown (do
      let sum ← loop V (fun j sum =>
        let srcy := borderIdx N ((y : Int) - (V / 2 : Nat) + j)
        loop U (fun i sum => do
          let srcx := borderIdx M ((x : Int) - (U / 2 : Nat) + i)
          pure (sum + id ((← k.atGet cfg j i) * (← m.atGet cfg srcy srcx)))) sum) (0 : α)
      temp.atSet cfg y x (id sum)) := fun y x temp =>
    (convolve_sum_okOrThrown cfg hs ht m k y x 0).bind fun _ => atSet_okOrThrown cfg hs ht temp _ _ _
  rcases Nat.lt_or_gt_of_ne hne with h | h
  · exact loop_throws (k := M) h (fun i _ s => OkOrThrown.loop fun x t => hcell i x t) fun s =>
      loop_throws (k := 0) hM (fun i _ s => hcell M i s) fun s =>
        (convolve_sum_okOrThrown cfg hs ht m k M 0 0).bind_thrown fun _ => atSet_thrown cfg hs ht s _ (Or.inl le_rfl)
  · exact loop_throws (k := 0) hN (fun i _ s => OkOrThrown.loop fun x t => hcell i x t) fun s =>
      loop_throws (k := N) h (fun i _ s => hcell 0 i s) fun s =>
        (convolve_sum_okOrThrown cfg hs ht m k 0 N 0).bind_thrown fun _ => atSet_thrown cfg hs ht s _ (Or.inr le_rfl)

/-- C43 fails for every non-square kernel (its indices are swapped too). -/
theorem C43_nonsquare_kernel_violated [CommRing α] (cfg : Cfg) (hs : cfg.safe = true) (ht : cfg.throws = true)
    (m : Mat M N α) (k : Mat U V α) (hM : 0 < M) (hN : 0 < N) (hU : 0 < U) (hV : 0 < V) (hne : U ≠ V) :
    m.convolve cfg id id k = .error .thrown := by
  unfold convolve
  rw [ctor_eq, bind_ok]
  apply assign_convolve_thrown
  have hin : ∀ (y x j i : Nat) (s : α), OkOrThrown (do
          let srcx := borderIdx M ((x : Int) - (U / 2 : Nat) + i)
          let srcy := borderIdx N ((y : Int) - (V / 2 : Nat) + j)
          pure (s + id ((← k.atGet cfg j i) * (← m.atGet cfg srcy srcx)))) := fun y x j i s =>
    (atGet_okOrThrown cfg hs ht k _ _).bind fun _ => (atGet_okOrThrown cfg hs ht m _ _).bind fun _ => .pure _
  have hsum : ∀ (y x : Nat), loop V (fun j sum =>
        let srcy := borderIdx N ((y : Int) - (V / 2 : Nat) + j)
        loop U (fun i sum => do
          let srcx := borderIdx M ((x : Int) - (U / 2 : Nat) + i)
          pure (sum + id ((← k.atGet cfg j i) * (← m.atGet cfg srcy srcx)))) sum) (0 : α) = .error .thrown := by
    intro y x
    rcases Nat.lt_or_gt_of_ne hne with h | h
    · exact loop_throws (k := U) h (fun j _ s => OkOrThrown.loop fun i s => hin y x j i s) fun s =>
        loop_throws (k := 0) hU (fun i _ s => hin y x U i s) fun s => by
          rw [atGet_thrown cfg hs ht k (Or.inl le_rfl)]; rfl
    · exact loop_throws (k := 0) hV (fun j _ s => OkOrThrown.loop fun i s => hin y x j i s) fun s =>
        loop_throws (k := V) h (fun i _ s => hin y x 0 i s) fun s => by
          rw [atGet_thrown cfg hs ht k (Or.inr le_rfl)]; rfl
  have hcell : ∀ (y x : Nat) (temp : Mat M N α), (do
      let sum ← loop V (fun j sum =>
        let srcy := borderIdx N ((y : Int) - (V / 2 : Nat) + j)
        loop U (fun i sum => do
          let srcx := borderIdx M ((x : Int) - (U / 2 : Nat) + i)
          pure (sum + id ((← k.atGet cfg j i) * (← m.atGet cfg srcy srcx)))) sum) (0 : α)
      temp.atSet cfg y x (id sum)) = .error .thrown := by
    intro y x temp; rw [hsum]; rfl
  exact loop_throws (k := 0) hN (fun i _ s => OkOrThrown.loop fun x t => Or.inr (hcell i x t)) fun s =>
    loop_throws (k := 0) hM (fun i _ s => Or.inr (hcell 0 i s)) fun s => hcell 0 0 s

example : (⟨#v[1, 2, 3, 4]⟩ : Mat 2 2 Int).convolve ⟨true, true, false⟩ id id (⟨#v[1]⟩ : Mat 1 1 Int) = .ok ⟨#v[1, 2, 3, 4]⟩ ∧
    (⟨#v[1, 2, 3, 4]⟩ : Mat 2 2 Int).convolve ⟨true, true, false⟩ id id (⟨#v[0, 0, 0, 0, 0, 0, 0, 0, 1]⟩ : Mat 3 3 Int) =
      .ok ⟨#v[4, 4, 4, 4]⟩ := by decide

/-! ## C44 -/

/-- C44. `sum_rows` adds adjacent pairs of rows (a last unpaired row is dropped). -/
theorem C44_sum_rows [Zero α] [Add α] (cfg : Cfg) (m : Mat M N α) (other : Mat (M / 2) N α) :
    ∃ r, m.sumRows cfg other = .ok r ∧ ∀ (k : Fin (M / 2)) (c : Fin N),
      r.toMat k c = m.toMat ⟨2 * k.1, by omega⟩ c + m.toMat ⟨2 * k.1 + 1, by omega⟩ c := by
  set G : Fin (M / 2) → Fin N → α := fun k c => m.get ⟨2 * k.1, by omega⟩ c + m.get ⟨2 * k.1 + 1, by omega⟩ c with hG
  unfold sumRows
  rw [zero_eq, bind_ok]
  obtain ⟨s, h1, -, h2⟩ := loop_paint (M := M / 2) (N := N) (α := α)
    (fun s : Mat (M / 2) N α × Vec N α × Vec N α => s.1) (fun _ _ => True) (n := (M + 1) / 2)
    (s := (ofFn fun _ _ => 0, Vec.zeroCtor, Vec.zeroCtor)) (fun k r _ => r.1 = k) G
    (body := fun k s => do
      let row := 2 * k
      let row0 ← m.getRow cfg row s.2.1
      let row := row + 1
      if row < M then do
        let row1 ← m.getRow cfg row s.2.2
        let row0 ← row0.addAssign cfg row1
        let other ← s.1.setRow cfg (row / 2) row0
        pure (other, row0, row1)
      else pure (s.1, row0, s.2.2)) trivial (by
    rintro k hk ⟨o, r0, r1⟩ -
    simp only
    rw [getRow_eq cfg m ⟨2 * k, by omega⟩, bind_ok]
    by_cases h : 2 * k + 1 < M
    · have hk2 : (2 * k + 1) / 2 < M / 2 := by omega
      rw [if_pos h, getRow_eq cfg m ⟨2 * k + 1, h⟩, bind_ok, Vec.addAssign_eq, bind_ok,
        setRow_eq cfg o ⟨(2 * k + 1) / 2, hk2⟩, bind_ok]
      refine ⟨_, rfl, trivial, ?_⟩
      have e : (2 * k + 1) / 2 = k := by omega
      intro r c
      simp only [get_ofFn]
      constructor
      · rintro rfl
        rw [if_pos (Fin.ext e.symm)]
        simp [hG]
      · intro hne
        rw [if_neg]
        intro h; exact hne (by rw [h]; exact e)
    · rw [if_neg h]
      refine ⟨_, rfl, trivial, (Paint.refl o G).congr ?_⟩
      intro r c
      simp only [iff_false]
      have := r.2
      omega)
  refine ⟨ofFn G, ?_, by simp [hG]⟩
  refine (congrArg (· >>= fun s => pure s.1) h1).trans ?_
  simp only [bind_ok, pure_ok]
  rw [h2.all fun r c => ⟨r.1, by omega, rfl⟩]

/-- C44. `sum_columns` adds adjacent pairs of columns. -/
theorem C44_sum_columns [Zero α] [Add α] (cfg : Cfg) (m : Mat M N α) (other : Mat M (N / 2) α) :
    ∃ r, m.sumColumns cfg other = .ok r ∧ ∀ (i : Fin M) (k : Fin (N / 2)),
      r.toMat i k = m.toMat i ⟨2 * k.1, by omega⟩ + m.toMat i ⟨2 * k.1 + 1, by omega⟩ := by
  set G : Fin M → Fin (N / 2) → α := fun i k => m.get i ⟨2 * k.1, by omega⟩ + m.get i ⟨2 * k.1 + 1, by omega⟩ with hG
  unfold sumColumns
  rw [zero_eq, bind_ok]
  obtain ⟨s, h1, -, h2⟩ := loop_paint (M := M) (N := N / 2) (α := α)
    (fun s : Mat M (N / 2) α × Vec M α × Vec M α => s.1) (fun _ _ => True) (n := (N + 1) / 2)
    (s := (ofFn fun _ _ => 0, Vec.zeroCtor, Vec.zeroCtor)) (fun k _ c => c.1 = k) G
    (body := fun k s => do
      let col := 2 * k
      let col0 ← m.getColumn cfg col s.2.1
      let col := col + 1
      if col < N then do
        let col1 ← m.getColumn cfg col s.2.2
        let col0 ← col0.addAssign cfg col1
        let other ← s.1.setColumn cfg (col / 2) col0
        pure (other, col0, col1)
      else pure (s.1, col0, s.2.2)) trivial (by
    rintro k hk ⟨o, r0, r1⟩ -
    simp only
    rw [getColumn_eq cfg m ⟨2 * k, by omega⟩, bind_ok]
    by_cases h : 2 * k + 1 < N
    · have hk2 : (2 * k + 1) / 2 < N / 2 := by omega
      rw [if_pos h, getColumn_eq cfg m ⟨2 * k + 1, h⟩, bind_ok, Vec.addAssign_eq, bind_ok,
        setColumn_eq cfg o ⟨(2 * k + 1) / 2, hk2⟩, bind_ok]
      refine ⟨_, rfl, trivial, ?_⟩
      have e : (2 * k + 1) / 2 = k := by omega
      intro r c
      simp only [get_ofFn]
      constructor
      · rintro rfl
        rw [if_pos (Fin.ext e.symm)]
        simp [hG]
      · intro hne
        rw [if_neg]
        intro h; exact hne (by rw [h]; exact e)
    · rw [if_neg h]
      refine ⟨_, rfl, trivial, (Paint.refl o G).congr ?_⟩
      intro r c
      simp only [iff_false]
      have := c.2
      omega)
  refine ⟨ofFn G, ?_, by simp [hG]⟩
  refine (congrArg (· >>= fun s => pure s.1) h1).trans ?_
  simp only [bind_ok, pure_ok]
  rw [h2.all fun r c => ⟨c.1, by omega, rfl⟩]

theorem sum_pairs [AddCommMonoid β] (f : Nat → β) (K : Nat) :
    ∑ k ∈ Finset.range K, (f (2 * k) + f (2 * k + 1)) = ∑ i ∈ Finset.range (2 * K), f i := by
  induction K with
  | zero => simp
  | succ K ih =>
    rw [Finset.sum_range_succ, ih, Nat.mul_succ, Finset.sum_range_succ, Finset.sum_range_succ, add_assoc]

theorem sum_pairs_fin [AddCommMonoid β] (hM : M % 2 = 0) (f : Fin M → β) :
    ∑ k : Fin (M / 2), (f ⟨2 * k.1, by omega⟩ + f ⟨2 * k.1 + 1, by omega⟩) = ∑ i, f i := by
  have h := sum_pairs (fun i => if h : i < M then f ⟨i, h⟩ else 0) (M / 2)
  rw [show 2 * (M / 2) = M by omega, ← Fin.sum_univ_eq_sum_range, ← Fin.sum_univ_eq_sum_range] at h
  have e1 : ∀ i : Fin M, (if h : i.1 < M then f ⟨i.1, h⟩ else 0) = f i := fun i => dif_pos i.2
  simp only [e1] at h
  rw [← h]
  apply Finset.sum_congr rfl
  intro k _
  have h1 : 2 * k.1 < M := by omega
  have h2 : 2 * k.1 + 1 < M := by omega
  rw [dif_pos h1, dif_pos h2]

/-- C44. For an even number of rows (columns) the total of all elements is preserved. -/
theorem C44_total [AddCommMonoid α] (cfg : Cfg) (m : Mat M N α) (o₁ : Mat (M / 2) N α) (o₂ : Mat M (N / 2) α) :
    (M % 2 = 0 → ∃ r, m.sumRows cfg o₁ = .ok r ∧ r.sumElements id = m.sumElements id) ∧
    (N % 2 = 0 → ∃ r, m.sumColumns cfg o₂ = .ok r ∧ r.sumElements id = m.sumElements id) := by
  constructor
  · intro hM
    obtain ⟨r, h1, h2⟩ := C44_sum_rows cfg m o₁
    refine ⟨r, h1, ?_⟩
    rw [C41_sum_elements, C41_sum_elements]
    simp only [id, h2, Finset.sum_add_distrib]
    rw [← Finset.sum_add_distrib]
    exact congrArg _ (sum_pairs_fin hM (fun i => ∑ c, m.toMat i c))
  · intro hN
    obtain ⟨r, h1, h2⟩ := C44_sum_columns cfg m o₂
    refine ⟨r, h1, ?_⟩
    rw [C41_sum_elements, C41_sum_elements]
    simp only [id, h2]
    exact congrArg _ (Finset.sum_congr rfl fun i _ => sum_pairs_fin hN (fun c => m.toMat i c))

example : (⟨#v[1, 2, 3, 4, 5, 6]⟩ : Mat 3 2 Int).sumRows ⟨true, true, false⟩ ⟨#v[0, 0]⟩ = .ok ⟨#v[3, 9]⟩ := by decide

/-! ## C45 -/

/-- `set_dct` with exact arithmetic. -/
noncomputable abbrev Mat.setDctR (cfg : Cfg) (m : Mat M N ℝ) : Res (Mat M N ℝ) :=
  m.setDct cfg (fun n => (n : ℝ)) Real.pi id

/-- Entries of the DCT-II basis. -/
noncomputable def Spec.dct (M : Nat) (r c : Nat) : ℝ :=
  Real.cos ((2 * c + 1) * r * Real.pi / (2 * M)) * (if r = 0 then Real.sqrt (1 / M) else Real.sqrt (2 / M))

theorem setDctR_eq (cfg : Cfg) (m : Mat M N ℝ) : m.setDctR cfg = .ok (ofFn fun r c => Spec.dct M r.1 c.1) := by
  unfold setDctR setDct
  simp only
  apply loop2_full
  intro r hr c hc m _
  rw [atSet_lt cfg m _ hr hc]
  congr 2
  simp only [Spec.dct, id, cos_real, sqrt_real]
  push_cast
  rfl

/-- The telescoping sum behind the orthogonality. -/
theorem sum_cos_odd (M : Nat) (x : ℝ) :
    2 * Real.sin x * ∑ c ∈ Finset.range M, Real.cos ((2 * c + 1) * x) = Real.sin (2 * M * x) := by
  induction M with
  | zero => simp
  | succ M ih =>
    rw [Finset.sum_range_succ, mul_add, ih]
    have h1 : Real.sin (2 * ((M + 1 : ℕ) : ℝ) * x) = Real.sin ((2 * M + 1) * x + x) := by push_cast; ring_nf
    have h2 : Real.sin (2 * (M : ℝ) * x) = Real.sin ((2 * M + 1) * x - x) := by ring_nf
    rw [h1, h2, Real.sin_add, Real.sin_sub]
    ring

theorem sum_cos_zero {M : Nat} (hM : 0 < M) (k : Nat) (hk : 0 < k) (hk' : k < 2 * M) :
    ∑ c : Fin M, Real.cos ((2 * c.1 + 1) * (k * Real.pi / (2 * M))) = 0 := by
  rw [Fin.sum_univ_eq_sum_range (fun c => Real.cos ((2 * c + 1) * (k * Real.pi / (2 * M))))]
  have hMr : (0 : ℝ) < M := by exact_mod_cast hM
  have h := sum_cos_odd M (k * Real.pi / (2 * M))
  have e : 2 * (M : ℝ) * (k * Real.pi / (2 * M)) = k * Real.pi := by field_simp
  rw [e, Real.sin_nat_mul_pi] at h
  have hs : 0 < Real.sin (k * Real.pi / (2 * M)) := by
    apply Real.sin_pos_of_pos_of_lt_pi
    · have : (0 : ℝ) < k := by exact_mod_cast hk
      have := Real.pi_pos
      positivity
    · rw [div_lt_iff₀ (by linarith), mul_comm]
      apply mul_lt_mul_of_pos_left _ Real.pi_pos
      exact_mod_cast hk'
  rcases mul_eq_zero.1 h with h | h
  · linarith [mul_eq_zero.1 h |>.resolve_left (by norm_num)]
  · exact h

theorem dct_orthonormal {M : Nat} (r s : Fin M) :
    ∑ c : Fin M, Spec.dct M r.1 c.1 * Spec.dct M s.1 c.1 = if r = s then 1 else 0 := by
  have hM : 0 < M := Fin.pos r
  have hMr : (0 : ℝ) < M := by exact_mod_cast hM
  set w : Nat → ℝ := fun r => if r = 0 then Real.sqrt (1 / M) else Real.sqrt (2 / M) with hw
  have hprod : ∀ c : Fin M, Spec.dct M r.1 c.1 * Spec.dct M s.1 c.1 = w r.1 * w s.1 / 2 *
      (Real.cos ((2 * c.1 + 1) * (((r.1 : ℝ) - s.1) * Real.pi / (2 * M))) +
        Real.cos ((2 * c.1 + 1) * (((r.1 + s.1 : ℕ) : ℝ) * Real.pi / (2 * M)))) := by
    intro c
    have e1 : (2 * (c.1 : ℝ) + 1) * (((r.1 : ℝ) - s.1) * Real.pi / (2 * M)) =
      (2 * c.1 + 1) * r.1 * Real.pi / (2 * M) - (2 * c.1 + 1) * s.1 * Real.pi / (2 * M) := by ring
    have e2 : (2 * (c.1 : ℝ) + 1) * (((r.1 + s.1 : ℕ) : ℝ) * Real.pi / (2 * M)) =
      (2 * c.1 + 1) * r.1 * Real.pi / (2 * M) + (2 * c.1 + 1) * s.1 * Real.pi / (2 * M) := by push_cast; ring
    rw [e1, e2, Real.cos_add, Real.cos_sub]
    simp only [Spec.dct, hw]
    ring
  rw [Finset.sum_congr rfl fun c _ => hprod c, ← Finset.mul_sum, Finset.sum_add_distrib]
  split_ifs with h
  · subst h
    have e1 : ∑ c : Fin M, Real.cos ((2 * c.1 + 1) * (((r.1 : ℝ) - r.1) * Real.pi / (2 * M))) = M := by simp
    rw [e1]
    by_cases h0 : r.1 = 0
    · have e2 : ∑ c : Fin M, Real.cos ((2 * c.1 + 1) * (((r.1 + r.1 : ℕ) : ℝ) * Real.pi / (2 * M))) = M := by simp [h0]
      rw [e2]
      simp only [hw, h0, if_true]
      rw [Real.mul_self_sqrt (by positivity)]
      field_simp; ring
    · rw [sum_cos_zero hM (r.1 + r.1) (by omega) (by omega)]
      simp only [hw, h0, if_false]
      rw [Real.mul_self_sqrt (by positivity)]
      field_simp; ring
  · have hne : r.1 ≠ s.1 := fun h' => h (Fin.ext h')
    have hr := r.2
    have hs := s.2
    rw [sum_cos_zero hM (r.1 + s.1) (by omega) (by omega)]
    have : ∑ c : Fin M, Real.cos ((2 * c.1 + 1) * (((r.1 : ℝ) - s.1) * Real.pi / (2 * M))) = 0 := by
      rcases Nat.lt_or_gt_of_ne hne with h' | h'
      · rw [← sum_cos_zero hM (s.1 - r.1) (by omega) (by omega)]
        apply Finset.sum_congr rfl
        intro c _
        rw [← Real.cos_neg, Nat.cast_sub h'.le]
        congr 1; ring
      · rw [← sum_cos_zero hM (r.1 - s.1) (by omega) (by omega), Nat.cast_sub h'.le]
    rw [this]; simp

/-- C45. `set_dct` fills a square matrix of any size with the orthonormal DCT-II basis: cell `(r, c)` is
`w_r cos( (2c+1) r π / 2M )`, and the product with the transpose is the identity, on both sides. -/
theorem C45_dct (cfg : Cfg) (m : Mat M M ℝ) :
    ∃ d, m.setDctR cfg = .ok d ∧ (∀ r c, d.toMat r c = Spec.dct M r.1 c.1) ∧
      d.toMat * d.toMat.transpose = 1 ∧ d.toMat.transpose * d.toMat = 1 := by
  refine ⟨_, setDctR_eq cfg m, by simp, ?_⟩
  have h : (ofFn fun r c => Spec.dct M r.1 c.1 : Mat M M ℝ).toMat *
      (ofFn fun r c => Spec.dct M r.1 c.1 : Mat M M ℝ).toMat.transpose = 1 := by
    ext r s
    rw [Matrix.mul_apply, Matrix.one_apply, ← dct_orthonormal]
    exact Finset.sum_congr rfl fun c _ => by simp
  exact ⟨h, mul_eq_one_comm.1 h⟩

/-! ## C49 -/

/-- The common loop of the four comparison functors: line `i` of the matrices is compared with `p i` and, if that fails,
with `q i`. -/
theorem inverted_loop {n : Nat} {P Q : Fin n → Prop} {body : Nat → Res (Bool × Bool)}
    (h : ∀ i (hi : i < n), ∃ x y, body i = .ok (x, y) ∧ (x = true ↔ P ⟨i, hi⟩) ∧ (y = true ↔ Q ⟨i, hi⟩)) :
    ∃ r, loop n (fun i ok => if ok then do
        let s ← body i
        if !s.1 && !s.2 then pure false else pure ok
      else pure ok) true = .ok r ∧ (r = true ↔ ∀ i, P i ∨ Q i) := by
  classical
  obtain ⟨x, h1, h2⟩ := loop_all (n := n) (body := fun i ok => if ok then do
        let s ← body i
        if !s.1 && !s.2 then pure false else pure ok
      else pure ok) (fun i => if h : i < n then decide (P ⟨i, h⟩ ∨ Q ⟨i, h⟩) else true) true (by
    intro i hi ok
    cases ok with
    | false => simp
    | true =>
      obtain ⟨x, y, h1, h2, h3⟩ := h i hi
      simp only [if_true, h1, bind_ok, hi, dif_pos, Bool.true_and, ← h2, ← h3]
      cases x <;> cases y <;> simp)
  refine ⟨x, h1, h2.trans ?_⟩
  simp only [true_and]
  constructor
  · intro h r; simpa using h r.1 r.2
  · intro h i hi; simpa [hi] using h ⟨i, hi⟩

theorem neMem_ofFn [Vec.Bytes α] (w : Nat) (hw : ∀ x : α, (Vec.Bytes.bytes x).length = w)
    (hinj : Function.Injective (Vec.Bytes.bytes : α → List UInt8)) (f g : Fin N → α) :
    (!Vec.neMem (Vector.ofFn f) (Vector.ofFn g)) = true ↔ ∀ c, f c = g c := by
  have := (C09_memcmp_partial w hw hinj (Vector.ofFn f) (Vector.ofFn g)).1
  rw [Vec.neMem, Bool.not_not, this]
  simp only [Vector.getElem_ofFn]
  exact ⟨fun h c => h c.1 c.2, fun h i hi => h ⟨i, hi⟩⟩

/-- C49. `matrix_equals_allow_inverted_rows( a, b )` (exact form): true exactly if every row of `a` is the row of `b` or its
negation, for element types whose values are equal exactly if their bytes are (`hinj`; not `float`, see
`C49_signed_zero_violated`). -/
theorem C49_rows_partial [Zero α] [Neg α] [Vec.Bytes α] (cfg : Cfg) (w : Nat) (hw : ∀ x : α, (Vec.Bytes.bytes x).length = w)
    (hinj : Function.Injective (Vec.Bytes.bytes : α → List UInt8)) (a b : Mat M N α) :
    ∃ x, a.equalsInvertedRows cfg b = .ok x ∧
      (x = true ↔ ∀ r, (∀ c, a.toMat r c = b.toMat r c) ∨ (∀ c, a.toMat r c = -b.toMat r c)) := by
  obtain ⟨r, h1, h2⟩ := inverted_loop (n := M) (P := fun r => ∀ c, a.toMat r c = b.toMat r c)
    (Q := fun r => ∀ c, a.toMat r c = -b.toMat r c) (body := fun i => do
      let x ← a.getRowV cfg i
      let y ← b.getRowV cfg i
      pure (!x.neMem y, !x.neMem (← y.negate))) (by
    intro i hi
    simp only [getRowV, getRow_eq cfg a ⟨i, hi⟩, getRow_eq cfg b ⟨i, hi⟩, bind_ok, Vec.negate_eq, pure_ok]
    refine ⟨_, _, rfl, ?_, ?_⟩
    · exact neMem_ofFn w hw hinj _ _
    · rw [neMem_ofFn w hw hinj]; simp)
  refine ⟨r, ?_, h2⟩
  rw [← h1]
  apply loop_congr
  intro i hi s
  simp [getRowV, getRow_eq cfg a ⟨i, hi⟩, getRow_eq cfg b ⟨i, hi⟩, Vec.negate_eq]

/-- C49. The same for `matrix_equals_allow_inverted_columns( a, b )`. -/
theorem C49_columns_partial [Zero α] [Neg α] [Vec.Bytes α] (cfg : Cfg) (w : Nat)
    (hw : ∀ x : α, (Vec.Bytes.bytes x).length = w)
    (hinj : Function.Injective (Vec.Bytes.bytes : α → List UInt8)) (a b : Mat M N α) :
    ∃ x, a.equalsInvertedColumns cfg b = .ok x ∧
      (x = true ↔ ∀ c, (∀ r, a.toMat r c = b.toMat r c) ∨ (∀ r, a.toMat r c = -b.toMat r c)) := by
  obtain ⟨r, h1, h2⟩ := inverted_loop (n := N) (P := fun c => ∀ r, a.toMat r c = b.toMat r c)
    (Q := fun c => ∀ r, a.toMat r c = -b.toMat r c) (body := fun i => do
      let x ← a.getColumnV cfg i
      let y ← b.getColumnV cfg i
      pure (!x.neMem y, !x.neMem (← y.negate))) (by
    intro i hi
    simp only [getColumnV, getColumn_eq cfg a ⟨i, hi⟩, getColumn_eq cfg b ⟨i, hi⟩, bind_ok, Vec.negate_eq, pure_ok]
    refine ⟨_, _, rfl, ?_, ?_⟩
    · exact neMem_ofFn w hw hinj _ _
    · rw [neMem_ofFn w hw hinj]; simp)
  refine ⟨r, ?_, h2⟩
  rw [← h1]
  apply loop_congr
  intro i hi s
  simp [getColumnV, getColumn_eq cfg a ⟨i, hi⟩, getColumn_eq cfg b ⟨i, hi⟩, Vec.negate_eq]

/-- C49. The form with a tolerance: every row of `a` is, in every element, closer than `tol` to the row of `b` or to its
negation. -/
theorem C49_rows_tol (cfg : Cfg) (a b : Mat M N ℝ) (tol : ℝ) :
    ∃ x, a.equalsInvertedRowsTol cfg b tol = .ok x ∧
      (x = true ↔ ∀ r, (∀ c, |a.toMat r c - b.toMat r c| < tol) ∨ (∀ c, |a.toMat r c + b.toMat r c| < tol)) := by
  obtain ⟨r, h1, h2⟩ := inverted_loop (n := M) (P := fun r => ∀ c, |a.toMat r c - b.toMat r c| < tol)
    (Q := fun r => ∀ c, |a.toMat r c + b.toMat r c| < tol) (body := fun i => do
      let x ← a.getRowV cfg i
      let y ← b.getRowV cfg i
      pure (← x.equals cfg y tol, ← x.equals cfg (← y.negate) tol)) (by
    intro i hi
    simp only [getRowV, getRow_eq cfg a ⟨i, hi⟩, getRow_eq cfg b ⟨i, hi⟩, bind_ok, Vec.negate_eq]
    obtain ⟨x, hx, hx'⟩ := C10_equals_iff cfg (Vector.ofFn fun c => a.get ⟨i, hi⟩ c) (Vector.ofFn fun c => b.get ⟨i, hi⟩ c) tol
    obtain ⟨y, hy, hy'⟩ := C10_equals_iff cfg (Vector.ofFn fun c => a.get ⟨i, hi⟩ c)
      (Vector.ofFn fun c : Fin N => -(Vector.ofFn fun c => b.get ⟨i, hi⟩ c)[c]) tol
    simp only [hx, hy, bind_ok, pure_ok]
    refine ⟨x, y, rfl, hx'.trans ?_, hy'.trans ?_⟩
    · simp only [Vector.getElem_ofFn]
      exact ⟨fun h c => h c.1 c.2, fun h i hi => h ⟨i, hi⟩⟩
    · simp only [Vector.getElem_ofFn, Fin.getElem_fin, sub_neg_eq_add]
      exact ⟨fun h c => h c.1 c.2, fun h i hi => h ⟨i, hi⟩⟩)
  refine ⟨r, ?_, h2⟩
  rw [← h1]
  apply loop_congr
  intro i hi s
  simp [getRowV, getRow_eq cfg a ⟨i, hi⟩, getRow_eq cfg b ⟨i, hi⟩, Vec.negate_eq]

/-- C49. The column form with a tolerance. -/
theorem C49_columns_tol (cfg : Cfg) (a b : Mat M N ℝ) (tol : ℝ) :
    ∃ x, a.equalsInvertedColumnsTol cfg b tol = .ok x ∧
      (x = true ↔ ∀ c, (∀ r, |a.toMat r c - b.toMat r c| < tol) ∨ (∀ r, |a.toMat r c + b.toMat r c| < tol)) := by
  obtain ⟨r, h1, h2⟩ := inverted_loop (n := N) (P := fun c => ∀ r, |a.toMat r c - b.toMat r c| < tol)
    (Q := fun c => ∀ r, |a.toMat r c + b.toMat r c| < tol) (body := fun i => do
      let x ← a.getColumnV cfg i
      let y ← b.getColumnV cfg i
      pure (← x.equals cfg y tol, ← x.equals cfg (← y.negate) tol)) (by
    intro i hi
    simp only [getColumnV, getColumn_eq cfg a ⟨i, hi⟩, getColumn_eq cfg b ⟨i, hi⟩, bind_ok, Vec.negate_eq]
    obtain ⟨x, hx, hx'⟩ := C10_equals_iff cfg (Vector.ofFn fun r => a.get r ⟨i, hi⟩) (Vector.ofFn fun r => b.get r ⟨i, hi⟩) tol
    obtain ⟨y, hy, hy'⟩ := C10_equals_iff cfg (Vector.ofFn fun r => a.get r ⟨i, hi⟩)
      (Vector.ofFn fun c : Fin M => -(Vector.ofFn fun r => b.get r ⟨i, hi⟩)[c]) tol
    simp only [hx, hy, bind_ok, pure_ok]
    refine ⟨x, y, rfl, hx'.trans ?_, hy'.trans ?_⟩
    · simp only [Vector.getElem_ofFn]
      exact ⟨fun h c => h c.1 c.2, fun h i hi => h ⟨i, hi⟩⟩
    · simp only [Vector.getElem_ofFn, Fin.getElem_fin, sub_neg_eq_add]
      exact ⟨fun h c => h c.1 c.2, fun h i hi => h ⟨i, hi⟩⟩)
  refine ⟨r, ?_, h2⟩
  rw [← h1]
  apply loop_congr
  intro i hi s
  simp [getColumnV, getColumn_eq cfg a ⟨i, hi⟩, getColumn_eq cfg b ⟨i, hi⟩, Vec.negate_eq]

/-- IEEE negation flips the sign bit. -/
instance : Neg F32 := ⟨fun a => ⟨a.bits ^^^ 0x80000000#32⟩⟩
instance : Zero F32 := ⟨F32.posZero⟩

/-- C49 fails for `float`: the row `(1, 0)` is the negation of `(-1, 0)` as IEEE values, but the functor compares the
bytes of `-0.0` and `0.0` and rejects it. -/
theorem C49_signed_zero_violated :
    let a : Mat 1 2 F32 := ⟨#v[⟨0x3f800000#32⟩, F32.posZero]⟩
    let b : Mat 1 2 F32 := ⟨#v[⟨0xbf800000#32⟩, F32.posZero]⟩
    (∀ r c, (a.toMat r c == -b.toMat r c) = true) ∧ ∀ cfg, a.equalsInvertedRows cfg b = .ok false := by
  refine ⟨by decide, ?_⟩
  rintro ⟨_ | _, _ | _, _ | _⟩ <;> decide

/-- C49. The initialising functors write the zero matrix and the identity, whatever the matrix held. -/
theorem C49_initialisers [Zero α] [One α] (cfg : Cfg) (m : Mat M N α) (s : Mat M M α) :
    (∃ r, m.setToZeroFunctor = .ok r ∧ r.toMat = 0) ∧ (∃ r, s.setToIdentityFunctor cfg = .ok r ∧ r.toMat = 1) := by
  obtain ⟨-, -, -, -, h, -, -⟩ := C21_construction (M := M) (N := N) (α := α) cfg
  obtain ⟨-, -, -, -, h', -, -⟩ := C21_construction (M := M) (N := M) (α := α) cfg
  obtain ⟨r, -, h1, h2⟩ := h m 0
  obtain ⟨r', -, h1', h2'⟩ := h' s 0
  refine ⟨⟨r, h1, by ext i j; rw [h2]; rfl⟩, ?_⟩
  unfold setToIdentityFunctor setToZeroFunctor
  rw [h1', bind_ok]
  obtain ⟨t, h3, h4⟩ := loop_ok (n := M) (s := r') (body := fun index m => m.atSet cfg index index 1)
    (fun k t => ∀ r c : Fin M, t.toMat r c = if r = c ∧ r.1 < k then 1 else 0) (by intro r c; rw [h2']; simp) (by
    intro i hi t ht
    rw [atSet_lt cfg t 1 hi hi]
    refine ⟨_, rfl, ?_⟩
    intro r c
    have := ht r c
    simp only [toMat_apply] at this ⊢
    rw [get_put]
    simp only [Fin.ext_iff] at this ⊢
    split_ifs at this ⊢ <;> first | rfl | omega | exact this)
  refine ⟨t, h3, ?_⟩
  ext r c
  rw [h4]
  simp [Matrix.one_apply, Fin.is_lt]

example : (⟨#v[1, -2, 3, 4]⟩ : Mat 2 2 Int).setToIdentityFunctor ⟨true, true, false⟩ = .ok ⟨#v[1, 0, 0, 1]⟩ := by decide

/-! ## C84 -/

/-- C84. For every sequence of `rand()` results in `[0, RAND_MAX]`, the matrix `set_random` overwrites every cell with a value
in `[-1, 1]`. -/
theorem C84_matrix_set_random (cfg : Cfg) (rnd : Nat → Nat) (randMax : Nat) (hpos : 0 < randMax) (m : Mat M N ℝ)
    (hr : ∀ k, rnd k ≤ randMax) :
    ∃ r, m.setRandom cfg (fun n => (n : ℝ)) id randMax rnd = .ok r ∧ ∀ i j, -1 ≤ r.toMat i j ∧ r.toMat i j ≤ 1 := by
  refine ⟨ofFn fun i j => -1 + (1 + 1) * ((rnd (i.1 * N + j.1) : ℝ) / (randMax : ℝ)), ?_, ?_⟩
  · unfold setRandom
    apply loop2_full
    intro r hr c hc m _
    rw [atSet_lt cfg m _ hr hc]
    rfl
  · intro i j
    have h1 : (0 : ℝ) < randMax := by exact_mod_cast hpos
    have h2 : (rnd (i.1 * N + j.1) : ℝ) ≤ randMax := by exact_mod_cast hr _
    have h3 : (0 : ℝ) ≤ (rnd (i.1 * N + j.1) : ℝ) / randMax := by positivity
    have h4 : (rnd (i.1 * N + j.1) : ℝ) / randMax ≤ 1 := (div_le_one h1).2 h2
    simp only [toMat_apply, get_ofFn]
    constructor <;> linarith

end Vmml
