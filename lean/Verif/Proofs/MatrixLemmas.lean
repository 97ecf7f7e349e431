import Verif.Model.Matrix
import Verif.Proofs.VectorLemmas
import Mathlib.Data.Matrix.Mul

/-!
Helper lemmas for matrices. `Mat.toMat` is the specification view: the `M × N` table of cells, as a
Mathlib matrix. (`C20_layout` in `Props/MatrixAccess` ties it to `at( row, col )`.)
-/

namespace Vmml
namespace Mat
variable {M N P Q O : Nat} {α β : Type}

theorem idx_lt {r c : Nat} (hr : r < M) (hc : c < N) : c * M + r < M * N := by
  calc c * M + r < c * M + M := by omega
    _ = (c + 1) * M := by ring
    _ ≤ N * M := Nat.mul_le_mul_right _ hc
    _ = M * N := Nat.mul_comm _ _

theorem idx_inj {r c r' c' : Nat} (hr : r < M) (hr' : r' < M) :
    c * M + r = c' * M + r' ↔ r = r' ∧ c = c' := by
  constructor
  · intro h
    have h1 : (c * M + r) % M = r := by
      rw [Nat.add_comm, Nat.add_mul_mod_self_right, Nat.mod_eq_of_lt hr]
    have h2 : (c' * M + r') % M = r' := by
      rw [Nat.add_comm, Nat.add_mul_mod_self_right, Nat.mod_eq_of_lt hr']
    have hrr : r = r' := by rw [← h1, ← h2, h]
    subst hrr
    refine ⟨rfl, ?_⟩
    have : c * M = c' * M := by omega
    exact Nat.eq_of_mul_eq_mul_right (by omega) this
  · rintro ⟨rfl, rfl⟩; rfl

/-- Cell `(r, c)`. -/
def get (m : Mat M N α) (r : Fin M) (c : Fin N) : α := m.array[c.1 * M + r.1]'(idx_lt r.2 c.2)
/-- The matrix with cell `(r, c)` replaced. -/
def put (m : Mat M N α) (r : Fin M) (c : Fin N) (x : α) : Mat M N α :=
  ⟨m.array.set (c.1 * M + r.1) x (idx_lt r.2 c.2)⟩
/-- The mathematical matrix of the cells. -/
def toMat (m : Mat M N α) : Matrix (Fin M) (Fin N) α := Matrix.of fun r c => m.get r c

@[simp] theorem toMat_apply (m : Mat M N α) (r : Fin M) (c : Fin N) : m.toMat r c = m.get r c := rfl

/-- The matrix with given cells. -/
def ofFn (g : Fin M → Fin N → α) : Mat M N α :=
  ⟨Vector.ofFn fun i : Fin (M * N) =>
    g ⟨i.1 % M, Nat.mod_lt _ (by
        rcases Nat.eq_zero_or_pos M with h | h
        · have := i.2; simp [h] at this
        · exact h)⟩
      ⟨i.1 / M, (Nat.div_lt_iff_lt_mul (by
        rcases Nat.eq_zero_or_pos M with h | h
        · have := i.2; simp [h] at this
        · exact h)).2 (by have := i.2; simp only [Nat.mul_comm M N] at this ⊢; omega)⟩⟩

@[simp] theorem get_ofFn (g : Fin M → Fin N → α) (r : Fin M) (c : Fin N) : (ofFn g).get r c = g r c := by
  have hM : 0 < M := r.pos
  simp only [get, ofFn, Vector.getElem_ofFn]
  congr 1
  · apply Fin.ext
    simp [Nat.add_comm (c.1 * M), Nat.mod_eq_of_lt r.2]
  · apply Fin.ext
    simp only
    rw [Nat.add_comm, Nat.add_mul_div_right _ _ hM, Nat.div_eq_of_lt r.2, Nat.zero_add]

@[ext] theorem ext {a b : Mat M N α} (h : ∀ r c, a.get r c = b.get r c) : a = b := by
  cases a with | mk a => cases b with | mk b =>
  congr 1
  apply Vector.ext
  intro i hi
  have hM : 0 < M := by
    rcases Nat.eq_zero_or_pos M with h | h
    · simp [h] at hi
    · exact h
  have := h ⟨i % M, Nat.mod_lt _ hM⟩
    ⟨i / M, (Nat.div_lt_iff_lt_mul hM).2 (by rwa [Nat.mul_comm] at hi)⟩
  simp only [get] at this
  have e : i / M * M + i % M = i := Nat.div_add_mod' i M
  simpa only [e] using this

theorem toMat_inj {a b : Mat M N α} : a.toMat = b.toMat ↔ a = b := by
  constructor
  · intro h; ext r c; exact congrFun (congrFun h r) c
  · rintro rfl; rfl

@[simp] theorem toMat_ofFn (g : Fin M → Fin N → α) : (ofFn g).toMat = Matrix.of g := by
  ext r c; simp

theorem eq_ofFn (m : Mat M N α) : m = ofFn m.get := by ext; simp

theorem get_put (m : Mat M N α) (r r' : Fin M) (c c' : Fin N) (x : α) :
    (m.put r c x).get r' c' = if r = r' ∧ c = c' then x else m.get r' c' := by
  simp only [get, put, Vector.getElem_set]
  simp only [idx_inj r.2 r'.2, Fin.val_inj]

@[simp] theorem get_put_same (m : Mat M N α) (r : Fin M) (c : Fin N) (x : α) :
    (m.put r c x).get r c = x := by simp [get_put]

@[simp] theorem put_put_same (m : Mat M N α) (r : Fin M) (c : Fin N) (x y : α) :
    (m.put r c x).put r c y = m.put r c y := by
  ext r' c'; simp only [get_put]; split_ifs <;> rfl

@[simp] theorem put_get_same (m : Mat M N α) (r : Fin M) (c : Fin N) : m.put r c (m.get r c) = m := by
  ext r' c'; simp only [get_put]; split_ifs with h
  · rw [h.1, h.2]
  · rfl

theorem rawGet_lt (m : Mat M N α) {i} (h : i < M * N) : rawGet m i = .ok m.array[i] := by
  simp [rawGet, h]

theorem rawGet_ge (m : Mat M N α) {i} (h : M * N ≤ i) : rawGet m i = .error .ub := by
  simp [rawGet, Vec.rawGet_ge _ h]

theorem rawSet_lt (m : Mat M N α) {i} (x : α) (h : i < M * N) :
    rawSet m i x = .ok ⟨m.array.set i x⟩ := by
  simp [rawSet, h]

theorem rawSet_ge (m : Mat M N α) {i} (x : α) (h : M * N ≤ i) : rawSet m i x = .error .ub := by
  simp [rawSet, Vec.rawSet_ge _ x h]

@[simp] theorem atGet_lt (cfg : Cfg) (m : Mat M N α) {r c} (hr : r < M) (hc : c < N) :
    atGet cfg m r c = .ok (m.get ⟨r, hr⟩ ⟨c, hc⟩) := by
  simp [atGet, Nat.not_le.2 hr, Nat.not_le.2 hc, rawGet_lt, idx_lt hr hc, get]

@[simp] theorem atSet_lt (cfg : Cfg) (m : Mat M N α) {r c} (x : α) (hr : r < M) (hc : c < N) :
    atSet cfg m r c x = .ok (m.put ⟨r, hr⟩ ⟨c, hc⟩ x) := by
  simp [atSet, Nat.not_le.2 hr, Nat.not_le.2 hc, rawSet_lt, idx_lt hr hc, put]

/-- Flat rule: a loop over the whole storage writing cell `i` in iteration `i`. -/
theorem loop_flat {body : Nat → Mat M N α → Res (Mat M N α)} {m0 : Mat M N α} (g : Fin (M * N) → α)
    (h : ∀ i (hi : i < M * N) (m : Mat M N α), m.array[i] = m0.array[i] →
      body i m = .ok ⟨m.array.set i (g ⟨i, hi⟩)⟩) :
    loop (M * N) body m0 = .ok ⟨Vector.ofFn g⟩ := by
  obtain ⟨s', h1, h2⟩ := loop_ok (n := M * N) (body := body) (s := m0)
    (fun i m => (∀ j (hj : j < M * N), m.array[j] = if j < i then g ⟨j, hj⟩ else m0.array[j])) (by simp) (by
      intro i hi v hv
      refine ⟨_, h i hi v ?_, ?_⟩
      · rw [hv i hi, if_neg (by omega)]
      · intro j hj
        simp only
        rw [Vector.getElem_set]
        split_ifs <;> first
          | omega
          | (subst_vars; rfl)
          | (rw [hv j hj]; split_ifs <;> first | omega | rfl))
  rw [h1]; congr 1
  cases s' with | mk s' => congr 1; ext j hj; simpa [hj] using h2 j hj

/-- Cells of a flat matrix expression. -/
theorem get_mk_ofFn (g : Fin (M * N) → α) (r : Fin M) (c : Fin N) :
    (⟨Vector.ofFn g⟩ : Mat M N α).get r c = g ⟨c.1 * M + r.1, idx_lt r.2 c.2⟩ := by
  simp [get]

/-- Rectangular rule, rows outside: iterations over `r < P`, `c < Q` write cell `(r, c)`. -/
theorem loop2 {P Q : Nat} (hP : P ≤ M) (hQ : Q ≤ N) {body : Nat → Nat → Mat M N α → Res (Mat M N α)}
    {m0 : Mat M N α} (g : Fin M → Fin N → α)
    (h : ∀ r (hr : r < M) c (hc : c < N) (m : Mat M N α), r < P → c < Q →
      (∀ r' c', m.get r' c' =
        if (r'.1 < r ∧ c'.1 < Q) ∨ (r'.1 = r ∧ c'.1 < c) then g r' c' else m0.get r' c') →
      body r c m = .ok (m.put ⟨r, hr⟩ ⟨c, hc⟩ (g ⟨r, hr⟩ ⟨c, hc⟩))) :
    loop P (fun r m => loop Q (fun c m => body r c m) m) m0 =
      .ok (ofFn fun r c => if r.1 < P ∧ c.1 < Q then g r c else m0.get r c) := by
  obtain ⟨s', h1, h2⟩ := loop_ok (n := P) (body := fun r m => loop Q (fun c m => body r c m) m) (s := m0)
    (fun r m => ∀ r' c', m.get r' c' = if r'.1 < r ∧ c'.1 < Q then g r' c' else m0.get r' c')
    (by simp) (by
      intro r hr m hm
      have hrM : r < M := by omega
      obtain ⟨m', h3, h4⟩ := loop_ok (n := Q) (body := fun c m => body r c m) (s := m)
        (fun c m => ∀ r' c', m.get r' c' =
          if (r'.1 < r ∧ c'.1 < Q) ∨ (r'.1 = r ∧ c'.1 < c) then g r' c' else m0.get r' c')
        (by intro r' c'; rw [hm]; simp) (by
          intro c hc m hm
          refine ⟨_, h r hrM c (by omega) m hr hc hm, ?_⟩
          intro r' c'
          rw [get_put]
          split_ifs with e1 e2 e3
          · rw [← e1.1, ← e1.2]
          · exfalso; apply e2; right; rw [← e1.1, ← e1.2]; exact ⟨rfl, by simp⟩
          · rw [hm, if_pos]
            rcases e3 with e3 | e3
            · exact Or.inl e3
            · right; refine ⟨e3.1, ?_⟩
              rcases Nat.lt_succ_iff_lt_or_eq.1 e3.2 with h | h
              · exact h
              · exfalso; apply e1; exact ⟨Fin.ext e3.1.symm, Fin.ext h.symm⟩
          · rw [hm, if_neg]
            intro h; apply e3
            rcases h with h | h
            · exact Or.inl h
            · exact Or.inr ⟨h.1, by omega⟩)
      refine ⟨m', h3, ?_⟩
      intro r' c'
      rw [h4]
      congr 1
      apply propext
      constructor
      · rintro (h | h) <;> exact ⟨by omega, h.2⟩
      · rintro ⟨h, h'⟩
        rcases Nat.lt_succ_iff_lt_or_eq.1 h with h'' | h''
        · exact Or.inl ⟨h'', h'⟩
        · exact Or.inr ⟨h'', h'⟩)
  rw [h1]; congr 1; ext r c; rw [h2]; simp

/-- Full rule, rows outside. -/
theorem loop2_full {body : Nat → Nat → Mat M N α → Res (Mat M N α)}
    {m0 : Mat M N α} (g : Fin M → Fin N → α)
    (h : ∀ r (hr : r < M) c (hc : c < N) (m : Mat M N α),
      (∀ r' c', m.get r' c' =
        if r'.1 < r ∨ (r'.1 = r ∧ c'.1 < c) then g r' c' else m0.get r' c') →
      body r c m = .ok (m.put ⟨r, hr⟩ ⟨c, hc⟩ (g ⟨r, hr⟩ ⟨c, hc⟩))) :
    loop M (fun r m => loop N (fun c m => body r c m) m) m0 = .ok (ofFn g) := by
  rw [loop2 le_rfl le_rfl g]
  · simp
  · intro r hr c hc m _ _ hm
    apply h r hr c hc m
    intro r' c'; rw [hm]; simp

/-- Full rule when the written value does not depend on the current content. -/
theorem loop2_const {body : Nat → Nat → Mat M N α → Res (Mat M N α)}
    {m0 : Mat M N α} (g : Fin M → Fin N → α)
    (h : ∀ r (hr : r < M) c (hc : c < N) (m : Mat M N α),
      body r c m = .ok (m.put ⟨r, hr⟩ ⟨c, hc⟩ (g ⟨r, hr⟩ ⟨c, hc⟩))) :
    loop M (fun r m => loop N (fun c m => body r c m) m) m0 = .ok (ofFn g) :=
  loop2_full g fun r hr c hc m _ => h r hr c hc m

/-- Full rule when the written value depends on the old content of the written cell only. -/
theorem loop2_cell {body : Nat → Nat → Mat M N α → Res (Mat M N α)}
    {m0 : Mat M N α} (g : Fin M → Fin N → α → α)
    (h : ∀ r (hr : r < M) c (hc : c < N) (m : Mat M N α),
      body r c m = .ok (m.put ⟨r, hr⟩ ⟨c, hc⟩ (g ⟨r, hr⟩ ⟨c, hc⟩ (m.get ⟨r, hr⟩ ⟨c, hc⟩)))) :
    loop M (fun r m => loop N (fun c m => body r c m) m) m0 = .ok (ofFn fun r c => g r c (m0.get r c)) := by
  apply loop2_full
  intro r hr c hc m hm
  rw [h r hr c hc m, hm]
  simp

/-- Accumulation into one cell. -/
theorem loop_acc [AddCommMonoid α] {n : Nat} {body : Nat → Mat M N α → Res (Mat M N α)} {m : Mat M N α}
    {r : Fin M} {c : Fin N} (g : Fin n → α)
    (h : ∀ i (hi : i < n) (m : Mat M N α), body i m = .ok (m.put r c (m.get r c + g ⟨i, hi⟩))) :
    loop n body m = .ok (m.put r c (m.get r c + ∑ i, g i)) := by
  induction n with
  | zero => simp
  | succ n ih =>
    rw [loop_succ, ih (fun i => g i.castSucc) (fun i hi m => h i (by omega) m)]
    simp [h n (by omega), Fin.sum_univ_castSucc, add_assoc]
    rfl

/-! ### Closed forms -/

theorem fill_eq (cfg : Cfg) (m : Mat M N α) (x : α) : m.fill cfg x = .ok (ofFn fun _ _ => x) :=
  loop2_const (fun _ _ => x) (by intro r hr c hc m; simp [hr, hc])

theorem zero_eq [Zero α] (cfg : Cfg) (m : Mat M N α) : m.zero cfg = .ok (ofFn fun _ _ => 0) :=
  fill_eq cfg m 0

theorem assignFill_eq (m : Mat M N α) (x : α) : m.assignFill x = .ok (ofFn fun _ _ => x) := by
  unfold assignFill
  rw [loop_flat (fun _ => x) (by intro i hi m _; simp [rawSet_lt, hi])]
  congr 1

theorem get_replicate (x : α) (r : Fin M) (c : Fin N) : (⟨Vector.replicate _ x⟩ : Mat M N α).get r c = x := by
  simp [get]

theorem loop_diag {body : Nat → Mat M M α → Res (Mat M M α)} {m0 : Mat M M α} (g : Fin M → α)
    (h : ∀ i (hi : i < M) (m : Mat M M α), body i m = .ok (m.put ⟨i, hi⟩ ⟨i, hi⟩ (g ⟨i, hi⟩))) :
    loop M body m0 = .ok (ofFn fun r c => if r = c then g r else m0.get r c) := by
  obtain ⟨s', h1, h2⟩ := loop_ok (n := M) (body := body) (s := m0)
    (fun i m => ∀ r c, m.get r c = if r = c ∧ r.1 < i then g r else m0.get r c) (by simp) (by
      intro i hi m hm
      refine ⟨_, h i hi m, ?_⟩
      intro r c
      rw [get_put]
      split_ifs with e1 e2 e3
      · rw [← e1.1]
      · exfalso; apply e2; refine ⟨by rw [← e1.1, ← e1.2], by rw [← e1.1]; simp⟩
      · rw [hm, if_pos]; refine ⟨e3.1, ?_⟩
        rcases Nat.lt_succ_iff_lt_or_eq.1 e3.2 with h | h
        · exact h
        · exfalso; apply e1; exact ⟨Fin.ext h.symm, by rw [← e3.1]; exact Fin.ext h.symm⟩
      · rw [hm, if_neg]; rintro ⟨h1, h2⟩; exact e3 ⟨h1, by omega⟩)
  rw [h1]; congr 1; ext r c; rw [h2]; simp

theorem ctor_eq [Zero α] [One α] (cfg : Cfg) :
    (ctor cfg : Res (Mat M N α)) = .ok (ofFn fun r c => if M = N ∧ r.1 = c.1 then 1 else 0) := by
  unfold ctor
  split_ifs with h
  · subst h
    rw [loop_diag (fun _ => 1) (by intro i hi m; simp [hi])]
    congr 1; ext r c; simp [get_replicate, Fin.ext_iff]
  · simp only [pure_ok]; congr 1; ext r c; simp [get_replicate, h]

theorem identity_eq [Zero α] [One α] (cfg : Cfg) (m : Mat M M α) :
    m.identity cfg = .ok (ofFn fun r c => if r = c then 1 else 0) := by
  unfold identity
  rw [assignFill_eq, bind_ok, loop_diag (fun _ => 1) (by intro i hi m; simp [hi])]
  congr 1; ext r c; simp

theorem IDENTITY_eq [Zero α] [One α] (cfg : Cfg) :
    (IDENTITY cfg : Res (Mat M M α)) = .ok (ofFn fun r c => if r = c then 1 else 0) := by
  rw [IDENTITY, ctor_eq, bind_ok, identity_eq]

theorem ZERO_eq [Zero α] [One α] (cfg : Cfg) : (ZERO cfg : Res (Mat M N α)) = .ok (ofFn fun _ _ => 0) := by
  rw [ZERO, ctor_eq, bind_ok, assignFill_eq]

theorem assign_eq (dst src : Mat M N α) : dst.assign src = .ok src := by
  unfold assign
  rw [Vec.memcpy_eq _ _ _ le_rfl le_rfl]
  simp

theorem multiply_eq [NonUnitalNonAssocSemiring α] (cfg : Cfg) (m : Mat M N α) (a : Mat M P α) (b : Mat P N α) :
    m.multiply cfg a b = .ok (ofFn fun r c => ∑ p, a.get r p * b.get p c) := by
  unfold multiply
  apply loop2_const
  intro r hr c hc m
  rw [atSet_lt cfg m 0 hr hc, bind_ok]
  rw [loop_acc (r := ⟨r, hr⟩) (c := ⟨c, hc⟩) (fun p => a.get ⟨r, hr⟩ p * b.get p ⟨c, hc⟩)
    (by intro i hi m; simp [hr, hc, hi])]
  simp

theorem mul_eq [NonAssocSemiring α] (cfg : Cfg) (a : Mat M N α) (b : Mat N P α) :
    a.mul cfg b = .ok (ofFn fun r c => ∑ p, a.get r p * b.get p c) := by
  rw [mul, ctor_eq, bind_ok, multiply_eq]

theorem mulAssign_eq [NonUnitalNonAssocSemiring α] (cfg : Cfg) (a b : Mat M M α) :
    a.mulAssign cfg b = .ok (ofFn fun r c => ∑ p, a.get r p * b.get p c) := by
  rw [mulAssign, multiply_eq]

theorem mulAssignS_eq [Mul α] (cfg : Cfg) (a : Mat M N α) (s : α) :
    a.mulAssignS cfg s = .ok (ofFn fun r c => a.get r c * s) :=
  loop2_cell (fun _ _ x => x * s) (by intro r hr c hc m; simp [hr, hc])

theorem divAssignS_eq [Div α] (cfg : Cfg) (a : Mat M N α) (s : α) :
    a.divAssignS cfg s = .ok (ofFn fun r c => a.get r c / s) :=
  loop2_cell (fun _ _ x => x / s) (by intro r hr c hc m; simp [hr, hc])

theorem mulS_eq [Zero α] [One α] [Mul α] (cfg : Cfg) (a : Mat M N α) (s : α) :
    a.mulS cfg s = .ok (ofFn fun r c => a.get r c * s) := by
  rw [mulS, ctor_eq, bind_ok]
  exact loop2_const (fun r c => a.get r c * s) (by intro r hr c hc m; simp [hr, hc])

theorem divS_eq [Zero α] [One α] [Div α] (cfg : Cfg) (a : Mat M N α) (s : α) :
    a.divS cfg s = .ok (ofFn fun r c => a.get r c / s) := by
  rw [divS, ctor_eq, bind_ok]
  exact loop2_const (fun r c => a.get r c / s) (by intro r hr c hc m; simp [hr, hc])

theorem multiplyPiecewise_eq [Mul α] (cfg : Cfg) (a b : Mat M N α) :
    a.multiplyPiecewise cfg b = .ok (ofFn fun r c => a.get r c * b.get r c) :=
  loop2_cell (fun r c x => x * b.get r c) (by intro r hr c hc m; simp [hr, hc])

theorem flat_cell {body : Nat → Mat M N α → Res (Mat M N α)} {m0 : Mat M N α}
    (g : Fin (M * N) → α → α)
    (h : ∀ i (hi : i < M * N) (m : Mat M N α), body i m = .ok ⟨m.array.set i (g ⟨i, hi⟩ m.array[i])⟩) :
    loop (M * N) body m0 =
      .ok (ofFn fun r c => g ⟨c.1 * M + r.1, idx_lt r.2 c.2⟩ (m0.get r c)) := by
  rw [loop_flat (fun i => g i m0.array[i]) (by intro i hi m hm; rw [h i hi m, hm]; rfl)]
  congr 1; ext r c; rw [get_mk_ofFn, get_ofFn]; rfl

theorem addAssign_eq [Add α] (a b : Mat M N α) : a.addAssign b = .ok (ofFn fun r c => a.get r c + b.get r c) := by
  unfold addAssign
  rw [flat_cell (fun i x => x + b.array[i]) (by intro i hi m; simp [rawGet_lt, rawSet_lt, hi])]; rfl

theorem subAssign_eq [Sub α] (a b : Mat M N α) : a.subAssign b = .ok (ofFn fun r c => a.get r c - b.get r c) := by
  unfold subAssign
  rw [flat_cell (fun i x => x - b.array[i]) (by intro i hi m; simp [rawGet_lt, rawSet_lt, hi])]; rfl

theorem add_eq [Add α] (a b : Mat M N α) : a.add b = .ok (ofFn fun r c => a.get r c + b.get r c) :=
  addAssign_eq a b

theorem sub_eq [Sub α] (a b : Mat M N α) : a.sub b = .ok (ofFn fun r c => a.get r c - b.get r c) :=
  subAssign_eq a b

theorem addAssignS_eq [Add α] (a : Mat M N α) (s : α) : a.addAssignS s = .ok (ofFn fun r c => a.get r c + s) := by
  unfold addAssignS
  rw [flat_cell (fun _ x => x + s) (by intro i hi m; simp [rawGet_lt, rawSet_lt, hi])]

theorem subAssignS_eq [Sub α] (a : Mat M N α) (s : α) : a.subAssignS s = .ok (ofFn fun r c => a.get r c - s) := by
  unfold subAssignS
  rw [flat_cell (fun _ x => x - s) (by intro i hi m; simp [rawGet_lt, rawSet_lt, hi])]

theorem castFrom_eq (cast : β → α) (m : Mat M N α) (src : Mat M N β) :
    m.castFrom cast src = .ok (ofFn fun r c => cast (src.get r c)) := by
  unfold castFrom
  rw [flat_cell (fun i _ => cast src.array[i]) (by intro i hi m; simp [rawGet_lt, rawSet_lt, hi])]; rfl

theorem mulVec_eq [NonUnitalNonAssocSemiring α] (cfg : Cfg) (a : Mat M N α) (v : Vec N α) :
    a.mulVec cfg v = .ok (Vector.ofFn fun i : Fin M => ∑ j : Fin N, a.get i j * v[j]) := by
  unfold mulVec
  apply loop_set
  intro i hi w _
  rw [loop_sum (fun j : Fin N => a.get ⟨i, hi⟩ j * v[j]) (by intro j hj s; simp [hi, hj])]
  simp [hi]

theorem transposeTo_eq (cfg : Cfg) (a : Mat M N α) (t : Mat N M α) :
    a.transposeTo cfg t = .ok (ofFn fun r c => a.get c r) := by
  unfold transposeTo
  obtain ⟨s', h1, h2⟩ := loop_ok (n := M)
    (body := fun r t => loop N (fun c t => do t.atSet cfg c r (← a.atGet cfg r c)) t) (s := t)
    (fun r m => ∀ r' c', m.get r' c' = if c'.1 < r then a.get c' r' else t.get r' c')
    (by simp) (by
      intro r hr m hm
      obtain ⟨m', h3, h4⟩ := loop_ok (n := N)
        (body := fun c t => do Mat.atSet cfg t c r (← a.atGet cfg r c)) (s := m)
        (fun c m => ∀ r' c', m.get r' c' =
          if c'.1 < r ∨ (c'.1 = r ∧ r'.1 < c) then a.get c' r' else t.get r' c')
        (by intro r' c'; rw [hm]; simp) (by
          intro c hc m hm
          refine ⟨m.put ⟨c, hc⟩ ⟨r, hr⟩ (a.get ⟨r, hr⟩ ⟨c, hc⟩), by simp [hr, hc], ?_⟩
          intro r' c'
          rw [get_put]
          split_ifs with e1 e2 e3
          · rw [← e1.1, ← e1.2]
          · exfalso; apply e2; right; rw [← e1.1, ← e1.2]; exact ⟨rfl, by simp⟩
          · rw [hm, if_pos]
            rcases e3 with e3 | e3
            · exact Or.inl e3
            · right; refine ⟨e3.1, ?_⟩
              rcases Nat.lt_succ_iff_lt_or_eq.1 e3.2 with h | h
              · exact h
              · exfalso; apply e1; exact ⟨Fin.ext h.symm, Fin.ext e3.1.symm⟩
          · rw [hm, if_neg]
            intro h; apply e3
            rcases h with h | h
            · exact Or.inl h
            · exact Or.inr ⟨h.1, by omega⟩)
      refine ⟨m', h3, ?_⟩
      intro r' c'
      rw [h4]
      congr 1
      apply propext
      have := r'.2
      omega)
  rw [h1]; congr 1; ext r c; rw [h2]; simp

theorem transpose_eq [Zero α] [One α] (cfg : Cfg) (a : Mat M N α) :
    a.transpose cfg = .ok (ofFn fun r c => a.get c r) := by
  rw [transpose, ctor_eq, bind_ok, transposeTo_eq]

theorem negate_eq [MulZeroOneClass α] [Neg α] (cfg : Cfg) (a : Mat M N α) :
    a.negate cfg = .ok (ofFn fun r c => (if M = N ∧ r.1 = c.1 then 1 else 0) * -1) := by
  rw [negate, ctor_eq, bind_ok, mulAssignS_eq]
  simp

end Mat
end Vmml
