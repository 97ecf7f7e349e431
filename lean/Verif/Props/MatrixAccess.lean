import Verif.Proofs.MatrixLemmas

/-!
# C20-C24, C48: matrix cells, construction, assignment, blocks, comparison

`m.toMat r c` is the cell in row `r` and column `c` (`C20_layout`).
-/
set_option linter.unusedSimpArgs false

namespace Vmml
open Mat
variable {M N P Q O : Nat} {α β : Type}

/-! ## C20 -/

/-- C20. `at( r, c )` reads the cell of the table `toMat`, stored at position `c * M + r` (column-major). -/
theorem C20_layout (cfg : Cfg) (m : Mat M N α) (r : Fin M) (c : Fin N) :
    m.atGet cfg r c = .ok (m.toMat r c) ∧ m.rawGet (c * M + r) = .ok (m.toMat r c) := by
  refine ⟨by simp, ?_⟩
  rw [rawGet_lt m (idx_lt r.2 c.2)]; rfl

/-- C20. Distinct index pairs name distinct cells, and every storage position is a cell. -/
theorem C20_cells_bijective (r r' : Fin M) (c c' : Fin N) :
    (c.1 * M + r.1 < M * N) ∧ (c.1 * M + r.1 = c'.1 * M + r'.1 → r = r' ∧ c = c') :=
  ⟨idx_lt r.2 c.2, fun h => by
    have := (idx_inj r.2 r'.2).1 h
    exact ⟨Fin.ext this.1, Fin.ext this.2⟩⟩

/-- C20. Writing a cell and reading any cell. -/
theorem C20_read_after_write (cfg : Cfg) (m : Mat M N α) (r c r' c' : Nat) (x : α) (hr : r < M) (hc : c < N)
    (hr' : r' < M) (hc' : c' < N) :
    ∃ m', m.atSet cfg r c x = .ok m' ∧
      m'.atGet cfg r' c' = (if r' = r ∧ c' = c then .ok x else m.atGet cfg r' c') := by
  refine ⟨_, atSet_lt cfg m x hr hc, ?_⟩
  simp only [hr', hc', atGet_lt, get_put, Fin.mk.injEq]
  by_cases h : r' = r ∧ c' = c
  · simp [h.1, h.2]
  · rw [if_neg (fun h' => h ⟨h'.1.symm, h'.2.symm⟩), if_neg h]

/-- C20. Checked accessors with exceptions: any out-of-range index raises an exception. -/
theorem C20_checked_throws (cfg : Cfg) (hs : cfg.safe = true) (ht : cfg.throws = true) (m : Mat M N α)
    (r c : Nat) (x : α) (h : M ≤ r ∨ N ≤ c) :
    m.atGet cfg r c = .error .thrown ∧ m.atSet cfg r c x = .error .thrown := by
  simp [atGet, atSet, vmmlibError, hs, ht, h]

/-- C20. Without checks, an out-of-range row silently names another cell: `at( M + r, c )` is `at( r, c + 1 )`. -/
theorem C20_unchecked_row_wraps (cfg : Cfg) (hs : cfg.safe = false) (m : Mat M N α) (r c : Nat) :
    m.atGet cfg (M + r) c = m.atGet cfg r (c + 1) := by
  have e : c * M + (M + r) = (c + 1) * M + r := by ring
  simp only [atGet, hs, Bool.false_and, e]

/-- C20. In range `m[ r ][ c ]` is `at( r, c )`, reading and writing, in every configuration. -/
theorem C20_brackets_agree (cfg : Cfg) (m : Mat M N α) (r c : Nat) (x : α) (hr : r < M) (hc : c < N) :
    m.bracketGet cfg r c = m.atGet cfg r c ∧ m.bracketSet cfg r c x = m.atSet cfg r c x := by
  simp [bracketGet, bracketSet, atGet, atSet, Nat.not_lt.2 hr.le, Nat.not_le.2 hr, Nat.not_le.2 hc,
    Nat.add_comm r]

/-- C20, what holds for `operator[][]` with checked accessors and exceptions: a column out of range, or a row
*beyond* `M`, raises an exception. Missing: the row index `M` itself (see `C20_bracket_row_M_violated`). -/
theorem C20_bracket_throws_partial (cfg : Cfg) (hs : cfg.safe = true) (ht : cfg.throws = true) (m : Mat M N α)
    (r c : Nat) (x : α) (h : M < r ∨ N ≤ c) :
    m.bracketGet cfg r c = .error .thrown ∧ m.bracketSet cfg r c x = .error .thrown := by
  by_cases h1 : M < r
  · simp [bracketGet, bracketSet, vmmlibError, hs, ht, h1]
  · have h2 : N ≤ c := by omega
    simp [bracketGet, bracketSet, vmmlibError, hs, ht, h1, h2]

/-- C20 fails for `operator[][]`: for every size, with all checks enabled, `m[ M ][ c ]` does not raise an error;
it reads cell `(0, c + 1)`, and for the last column it reads outside the array. -/
theorem C20_bracket_row_M_violated (cfg : Cfg) (m : Mat M N α) (c : Nat) (hc : c < N) :
    m.bracketGet cfg M c = (if c + 1 < N ∧ 0 < M then m.atGet cfg 0 (c + 1) else .error .ub) := by
  have e : M + c * M = (c + 1) * M := by ring
  simp only [bracketGet, Nat.lt_irrefl, decide_false, Bool.and_false, Nat.not_le.2 hc, Bool.false_eq_true,
    if_false, pure_ok, bind_ok, e]
  split_ifs with h
  · rw [atGet_lt cfg m h.2 h.1]
    rw [rawGet_lt m (by have := idx_lt (M := M) h.2 h.1; simpa using this)]
    simp [Mat.get]
  · rw [rawGet_ge]
    by_cases h0 : M = 0
    · simp [h0]
    · have : N ≤ c + 1 := by
        by_contra h'; exact h ⟨by omega, by omega⟩
      calc M * N = N * M := Nat.mul_comm _ _
        _ ≤ (c + 1) * M := Nat.mul_le_mul_right _ this

/-- C20. An `int` row index: a nonnegative one means the same as a `size_t`; a negative one (for matrices of fewer than 2^63 rows) raises the exception with
checks and exceptions enabled, also in combination with a write. -/
theorem C20_int_index (cfg : Cfg) (m : Mat M N α) (r : Int) (c : Nat) (x : α) (hr : -2 ^ 31 ≤ r) (hr' : r < 2 ^ 31) (hM : M < 2 ^ 63) :
    (0 ≤ r → m.bracketGetInt cfg r c = m.bracketGet cfg r.toNat c ∧ m.bracketSetInt cfg r c x = m.bracketSet cfg r.toNat c x) ∧
    (r < 0 → cfg.safe = true → cfg.throws = true → m.bracketGetInt cfg r c = .error .thrown ∧ m.bracketSetInt cfg r c x = .error .thrown) := by
  constructor
  · intro h
    have : r % 2 ^ 64 = r := Int.emod_eq_of_lt h (by omega)
    unfold bracketGetInt bracketSetInt
    rw [this]
    exact ⟨rfl, rfl⟩
  · intro h hs ht
    have : r % 2 ^ 64 = r + 2 ^ 64 := by omega
    have hb : M < (r % 2 ^ 64).toNat := by omega
    exact C20_bracket_throws_partial cfg hs ht m _ c x (Or.inl hb)

/-- Witness: 2x2, all checks on, `m[ 2 ][ 0 ]` returns `m( 0, 1 )` instead of raising an error. -/
example : (⟨#v[1, 2, 3, 4]⟩ : Mat 2 2 Int).bracketGet ⟨true, true, false⟩ 2 0 = .ok 3 := by decide

/-- A write history: each entry is `at( r, c ) = x`. -/
def Mat.runWrites (cfg : Cfg) (m : Mat M N α) : List (Nat × Nat × α) → Res (Mat M N α)
  | [] => pure m
  | (r, c, x) :: ws => do Mat.runWrites cfg (← m.atSet cfg r c x) ws

/-- Specification: the value last written to `(r, c)`, or the initial one. -/
def lastWrite (m : Nat → Nat → α) (r c : Nat) : List (Nat × Nat × α) → α
  | [] => m r c
  | (r', c', x) :: ws => lastWrite (fun a b => if a = r' ∧ b = c' then x else m a b) r c ws

/-- C20. After any in-range write history every cell holds the value last written to it, or its initial value. -/
theorem C20_history (cfg : Cfg) (ws : List (Nat × Nat × α)) (hw : ∀ w ∈ ws, w.1 < M ∧ w.2.1 < N)
    (m : Mat M N α) (f : Nat → Nat → α) (hf : ∀ (r : Fin M) (c : Fin N), f r c = m.toMat r c) :
    ∃ m', m.runWrites cfg ws = .ok m' ∧
      ∀ (r : Fin M) (c : Fin N), m'.atGet cfg r c = .ok (lastWrite f r c ws) := by
  induction ws generalizing m f with
  | nil => exact ⟨m, rfl, fun r c => by simp [lastWrite, hf]⟩
  | cons w ws ih =>
    obtain ⟨r', c', x⟩ := w
    have h := hw _ List.mem_cons_self
    simp only at h
    obtain ⟨m', h1, h2⟩ := ih (fun w hw' => hw w (List.mem_cons_of_mem _ hw'))
      (m.put ⟨r', h.1⟩ ⟨c', h.2⟩ x) (fun a b => if a = r' ∧ b = c' then x else f a b) (by
        intro r c
        rw [toMat_apply, get_put, ← toMat_apply, ← hf r c]
        simp only [Fin.ext_iff]
        by_cases e : r.1 = r' ∧ c.1 = c'
        · simp [e.1, e.2]
        · rw [if_neg e, if_neg (fun h => e ⟨h.1.symm, h.2.symm⟩)])
    exact ⟨m', by simp [runWrites, h.1, h.2, h1], h2⟩

example : (⟨#v[1, 2, 3, 4]⟩ : Mat 2 2 Int).runWrites ⟨true, true, false⟩ [(0, 1, 9), (1, 0, 8), (0, 1, 7)] =
    .ok ⟨#v[1, 8, 7, 4]⟩ := by decide

/-! ## C21 -/

/-- C21. The default constructor gives the identity for square matrices and zero otherwise; `identity`, `zero`,
`= value`, `fill` and the static members `IDENTITY`, `ZERO` hold the documented values, whatever the previous content. -/
theorem C21_construction [Zero α] [One α] (cfg : Cfg) :
    (∃ m : Mat M M α, ctor cfg = .ok m ∧ m.toMat = 1) ∧
    (M ≠ N → ∃ m : Mat M N α, ctor cfg = .ok m ∧ m.toMat = 0) ∧
    (∀ m : Mat M M α, ∃ m', m.identity cfg = .ok m' ∧ m'.toMat = 1) ∧
    (∀ m : Mat M N α, ∃ m', m.zero cfg = .ok m' ∧ m'.toMat = 0) ∧
    (∀ (m : Mat M N α) x, ∃ m', m.fill cfg x = .ok m' ∧ m.assignFill x = .ok m' ∧ ∀ r c, m'.toMat r c = x) ∧
    (∃ m : Mat M M α, IDENTITY cfg = .ok m ∧ m.toMat = 1) ∧
    (∃ m : Mat M N α, ZERO cfg = .ok m ∧ m.toMat = 0) := by
  refine ⟨⟨_, ctor_eq cfg, ?_⟩, fun h => ⟨_, ctor_eq cfg, ?_⟩, fun m => ⟨_, identity_eq cfg m, ?_⟩,
    fun m => ⟨_, zero_eq cfg m, ?_⟩, fun m x => ⟨_, fill_eq cfg m x, assignFill_eq m x, by simp⟩,
    ⟨_, IDENTITY_eq cfg, ?_⟩, ⟨_, ZERO_eq cfg, ?_⟩⟩ <;> ext r c <;>
    simp [Matrix.one_apply, Fin.ext_iff, *]

/-- C21. The static identity is neutral for multiplication on both sides, for every size. -/
theorem C21_identity_neutral [NonAssocSemiring α] (cfg : Cfg) (a : Mat M N α) :
    (∃ i, IDENTITY cfg = .ok i ∧ a.mul cfg i = .ok a) ∧ (∃ i, IDENTITY cfg = .ok i ∧ i.mul cfg a = .ok a) := by
  refine ⟨⟨_, IDENTITY_eq cfg, ?_⟩, ⟨_, IDENTITY_eq cfg, ?_⟩⟩ <;> rw [mul_eq] <;> congr 1 <;> ext r c <;> simp

example : (ctor ⟨true, true, false⟩ : Res (Mat 2 2 Int)) = .ok ⟨#v[1, 0, 0, 1]⟩ := by decide
example : (ctor ⟨true, true, false⟩ : Res (Mat 2 3 Int)) = .ok ⟨#v[0, 0, 0, 0, 0, 0]⟩ := by decide

/-! ## C22 -/

/-- C22. `set( begin, end, true )` fills row by row from a sequence of any length and leaves the cells after
its end unchanged. -/
theorem C22_row_major (cfg : Cfg) (cast : β → α) (m : Mat M N α) (src : List β) :
    ∃ m', m.setRowMajor cfg cast src = .ok m' ∧ ∀ (r : Fin M) (c : Fin N),
      m'.toMat r c = ((src[r.1 * N + c.1]?).map cast).getD (m.toMat r c) := by
  unfold setRowMajor
  obtain ⟨s', h1, h2, h3⟩ := loop_ok (n := M) (body := fun r s => loop N (fun c s => match s with
      | (m, []) => pure (m, [])
      | (m, x :: it) => do pure (← m.atSet cfg r c (cast x), it)) s) (s := (m, src))
    (fun r s => s.2 = src.drop (r * N) ∧ ∀ r' c', s.1.get r' c' =
      if r'.1 < r then ((src[r'.1 * N + c'.1]?).map cast).getD (m.get r' c') else m.get r' c')
    (by simp) (by
      intro r hr s hs
      obtain ⟨s', h3, h4, h5⟩ := loop_ok (n := N) (body := fun c (s : Mat M N α × List β) => match s with
          | (m, []) => (pure (m, []) : Res _)
          | (m, x :: it) => do pure (← m.atSet cfg r c (cast x), it)) (s := s)
        (fun c s => s.2 = src.drop (r * N + c) ∧ ∀ r' c', s.1.get r' c' =
          if r'.1 < r ∨ (r'.1 = r ∧ c'.1 < c) then ((src[r'.1 * N + c'.1]?).map cast).getD (m.get r' c')
          else m.get r' c')
        (by simpa using hs) (by
          rintro c hc ⟨m1, it⟩ ⟨hit, hm⟩
          simp only at hit hm
          cases it with
          | nil =>
            refine ⟨_, rfl, ?_, ?_⟩
            · have hl : src.length ≤ r * N + c := by
                by_contra h
                have : (src.drop (r * N + c)).length = 0 := by rw [← hit]; rfl
                rw [List.length_drop] at this; omega
              simp only
              rw [List.drop_eq_nil_of_le (by omega)]
            · have hl : src.length ≤ r * N + c := by
                by_contra h
                have : (src.drop (r * N + c)).length = 0 := by rw [← hit]; rfl
                rw [List.length_drop] at this; omega
              intro r' c'
              rw [hm]
              by_cases e : r'.1 = r ∧ c'.1 = c
              · rw [if_neg (by omega), if_pos (by omega), e.1, e.2, List.getElem?_eq_none hl]; rfl
              · congr 1; apply propext; omega
          | cons x it =>
            have hx : src[r * N + c]? = some x := by
              have := congrArg (·[0]?) hit
              simpa [List.getElem?_drop] using this.symm
            refine ⟨(m1.put ⟨r, hr⟩ ⟨c, hc⟩ (cast x), it), by simp [hr, hc], ?_, ?_⟩
            · have := congrArg List.tail hit
              simpa [List.tail_drop, Nat.add_assoc] using this
            · intro r' c'
              simp only [get_put]
              by_cases e : r'.1 = r ∧ c'.1 = c
              · rw [if_pos ⟨Fin.ext e.1.symm, Fin.ext e.2.symm⟩, if_pos (by omega), e.1, e.2, hx]; rfl
              · rw [if_neg (by rintro ⟨rfl, rfl⟩; exact e ⟨rfl, rfl⟩), hm]
                congr 1; apply propext; omega)
      refine ⟨s', h3, ?_, ?_⟩
      · rw [h4, Nat.succ_mul]
      · intro r' c'; rw [h5]; congr 1; apply propext
        have := c'.2; omega)
  refine ⟨s'.1, congrArg (· >>= fun s => pure s.1) h1, ?_⟩
  intro r c
  simp only [toMat_apply]
  rw [h3, if_pos r.2]

/-- C22. A sequence of exactly `M * N` elements is recovered by reading the cells row by row. -/
theorem C22_row_major_round_trip (cfg : Cfg) (m : Mat M N α) (src : List α) (hl : src.length = M * N) :
    ∃ m', m.setRowMajor cfg id src = .ok m' ∧ ∀ (r : Fin M) (c : Fin N), src[r.1 * N + c.1]? = some (m'.toMat r c) := by
  obtain ⟨m', h1, h2⟩ := C22_row_major cfg id m src
  refine ⟨m', h1, fun r c => ?_⟩
  have hi : r.1 * N + c.1 < src.length := by
    rw [hl]
    have := idx_lt (M := N) (N := M) c.2 r.2
    rw [Nat.mul_comm M N]; exact this
  rw [h2, List.getElem?_eq_getElem hi]; simp

/-- C22. `set( begin, end, false )` with at least `M * N` elements fills column by column. -/
theorem C22_col_major (cast : β → α) (m : Mat M N α) (src : List β) (hl : M * N ≤ src.length) :
    ∃ m', m.setColMajor cast src = .ok m' ∧ ∀ (r : Fin M) (c : Fin N),
      (src[c.1 * M + r.1]?).map cast = some (m'.toMat r c) := by
  refine ⟨_, flat_cell (fun i _ => cast (src[i.1]'(by omega))) ?_, ?_⟩
  · intro i hi m
    simp [List.getElem?_eq_getElem (show i < src.length by omega), rawSet_lt, hi]
  · intro r c
    have := idx_lt r.2 c.2
    simp [List.getElem?_eq_getElem (show c.1 * M + r.1 < src.length by omega)]

/-- C22. In column-major mode the end iterator is ignored: a shorter input is read past its end. -/
theorem C22_col_major_short_ub (cast : β → α) (m : Mat M N α) (src : List β) (hl : src.length < M * N) :
    m.setColMajor cast src = .error .ub := by
  unfold setColMajor
  have key : ∀ n, n ≤ src.length → ∃ m', loop n (fun i m => match src[i]? with
    | some x => m.rawSet i (cast x)
    | none => throw Fault.ub) m = .ok m' := by
    intro n hn
    obtain ⟨s', h, -⟩ := loop_ok (n := n) (body := fun i (m : Mat M N α) => match src[i]? with
      | some x => m.rawSet i (cast x)
      | none => throw .ub) (s := m) (fun _ _ => True) trivial (by
        intro i hi m _
        rw [List.getElem?_eq_getElem (show i < src.length by omega)]
        exact ⟨_, rawSet_lt m _ (by omega), trivial⟩)
    exact ⟨s', h⟩
  have : ∀ k, loop (src.length + 1 + k) (fun i m => match src[i]? with
    | some x => m.rawSet i (cast x)
    | none => throw Fault.ub) m = .error .ub := by
    intro k
    induction k with
    | zero =>
      rw [Nat.add_zero, loop_succ]
      obtain ⟨m', h⟩ := key _ le_rfl
      rw [h, bind_ok, List.getElem?_eq_none le_rfl]; rfl
    | succ k ih => rw [← Nat.add_assoc, loop_succ, ih]; rfl
  have h := this (M * N - src.length - 1)
  rwa [show src.length + 1 + (M * N - src.length - 1) = M * N by omega] at h

/-- C22. Assignment from `std::vector`: too short is an error (an exception with `VMMLIB_THROW_EXCEPTIONS`, raised
before any cell is written); otherwise the first `M * N` elements are taken row by row. -/
theorem C22_std_vector (cfg : Cfg) (m : Mat M N α) (data : List α) :
    (data.length < M * N → cfg.throws = true → m.assignStdVector cfg data = .error .thrown) ∧
    (M * N ≤ data.length → ∃ m', m.assignStdVector cfg data = .ok m' ∧
      ∀ (r : Fin M) (c : Fin N), data[r.1 * N + c.1]? = some (m'.toMat r c)) := by
  constructor
  · intro h ht; simp [assignStdVector, h, vmmlibError, ht]
  · intro h
    obtain ⟨m', h1, h2⟩ := C22_row_major cfg id m data
    refine ⟨m', by simp [assignStdVector, Nat.not_lt.2 h, h1], fun r c => ?_⟩
    have hi : r.1 * N + c.1 < data.length := by
      have := idx_lt (M := N) (N := M) c.2 r.2
      rw [Nat.mul_comm M N] at h; omega
    rw [h2, List.getElem?_eq_getElem hi]; simp

/-- C22. Assignment from `const T*` reads exactly the first `M * N` elements row by row, from `T[M][N]` cell by cell. -/
theorem C22_pointer (cfg : Cfg) (m : Mat M N α) (mem : List α) (hl : M * N ≤ mem.length)
    (arr : Fin M → Fin N → α) :
    (∃ m', m.assignPtr cfg mem = .ok m' ∧
      ∀ (r : Fin M) (c : Fin N), mem[r.1 * N + c.1]? = some (m'.toMat r c)) ∧
    (∃ m', m.assignArray2 cfg arr = .ok m' ∧ ∀ r c, m'.toMat r c = arr r c) := by
  constructor
  · obtain ⟨m', h1, h2⟩ := C22_row_major_round_trip cfg m (mem.take (M * N)) (by simp [hl])
    refine ⟨m', by simp [assignPtr, hl, h1], fun r c => ?_⟩
    rw [← h2 r c, List.getElem?_take, if_pos]
    have := idx_lt (M := N) (N := M) c.2 r.2
    rw [Nat.mul_comm M N]; exact this
  · refine ⟨_, loop2_const arr (by intro r hr c hc m; simp [hr, hc]), by simp⟩

example : (⟨#v[0, 0, 0, 0, 0, 0]⟩ : Mat 2 3 Int).setRowMajor ⟨true, true, false⟩ id [1, 2, 3, 4] =
    .ok ⟨#v[1, 4, 2, 0, 3, 0]⟩ := by decide

/-! ## C23 -/

/-- C23. Assignment between sizes copies the common top-left block, converting each element, and zero-fills the rest. -/
theorem C23_resize [Zero α] (cfg : Cfg) (cast : β → α) (dst : Mat M N α) (src : Mat P Q β) :
    ∃ m', dst.assignFrom cfg cast src = .ok m' ∧ ∀ (r : Fin M) (c : Fin N),
      m'.toMat r c = if h : r.1 < P ∧ c.1 < Q then cast (src.toMat ⟨r, h.1⟩ ⟨c, h.2⟩) else 0 := by
  have hL : (if P < M then P else M) ≤ M := by split_ifs <;> omega
  have hC : (if Q < N then Q else N) ≤ N := by split_ifs <;> omega
  have main : ∀ d : Mat M N α, loop (if P < M then P else M) (fun i d => loop (if Q < N then Q else N) (fun j d => do
      d.atSet cfg i j (cast (← src.atGet cfg i j))) d) d = .ok (ofFn fun r c =>
        if r.1 < (if P < M then P else M) ∧ c.1 < (if Q < N then Q else N) then
          (if h : r.1 < P ∧ c.1 < Q then cast (src.toMat ⟨r, h.1⟩ ⟨c, h.2⟩) else 0)
        else d.get r c) := by
    intro d
    apply loop2 hL hC
    intro r hr c hc m h1 h2 _
    have h3 : r < P := by split_ifs at h1 <;> omega
    have h4 : c < Q := by split_ifs at h2 <;> omega
    simp [h3, h4, hr, hc]
  by_cases hz : (if P < M then P else M) < M ∨ (if Q < N then Q else N) < N
  · have e : dst.assignFrom cfg cast src = loop (if P < M then P else M) (fun i d =>
        loop (if Q < N then Q else N) (fun j d => do
          d.atSet cfg i j (cast (← src.atGet cfg i j))) d) (ofFn fun _ _ => 0) := by
      unfold assignFrom
      simp only [if_pos hz, zero_eq, bind_ok]
    refine ⟨_, e.trans (main _), ?_⟩
    · intro r c
      simp only [toMat_apply, get_ofFn]
      split_ifs <;> first | rfl | omega
  · have e : dst.assignFrom cfg cast src = loop (if P < M then P else M) (fun i d =>
        loop (if Q < N then Q else N) (fun j d => do
          d.atSet cfg i j (cast (← src.atGet cfg i j))) d) dst := by
      unfold assignFrom
      simp only [if_neg hz, pure_ok, bind_ok]
    refine ⟨_, e.trans (main _), ?_⟩
    · intro r c
      simp only [toMat_apply, get_ofFn]
      have := r.2; have := c.2
      split_ifs at hz ⊢ <;> first | rfl | omega

/-- C23. Same-size assignment and `cast_from` copy every cell. -/
theorem C23_same_size (cast : β → α) (dst src : Mat M N α) (src' : Mat M N β) :
    dst.assign src = .ok src ∧ ∃ m', dst.castFrom cast src' = .ok m' ∧ ∀ r c, m'.toMat r c = cast (src'.toMat r c) :=
  ⟨assign_eq dst src, _, castFrom_eq cast dst src', by simp⟩

example : (⟨#v[9, 9, 9, 9, 9, 9]⟩ : Mat 3 2 Int).assignFrom ⟨true, true, false⟩ id (⟨#v[1, 2, 3, 4, 5, 6]⟩ : Mat 2 3 Int) =
    .ok ⟨#v[1, 2, 0, 3, 4, 0]⟩ := by decide

/-! ## C24 -/

theorem Mat.getColumn_eq (cfg : Cfg) (m : Mat M N α) (c : Fin N) (v : Vec M α) :
    m.getColumn cfg c v = .ok (Vector.ofFn fun r => m.get r c) := by
  unfold getColumn
  simp only [Nat.not_le.2 c.2, decide_false, Bool.and_false, Bool.false_eq_true, if_false, pure_ok, bind_ok]
  apply loop_set
  intro i hi w _
  have := idx_lt (N := N) hi c.2
  have e : M * c.1 + i = c.1 * M + i := by rw [Nat.mul_comm]
  rw [e, rawGet_lt m this, bind_ok, Vec.rawSet_lt w _ hi]; rfl

theorem Mat.setColumn_eq (cfg : Cfg) (m : Mat M N α) (k : Fin N) (v : Vec M α) :
    m.setColumn cfg k v = .ok (ofFn fun r c => if c = k then v[r] else m.get r c) := by
  unfold setColumn
  simp only [Nat.not_le.2 k.2, decide_false, Bool.and_false, Bool.false_eq_true, if_false, pure_ok, bind_ok]
  obtain ⟨s', h1, h2⟩ := loop_ok (n := M) (body := fun i (m : Mat M N α) => do m.rawSet (M * k.1 + i) (← v.rawGet i))
    (s := m) (fun i s => ∀ r c, s.get r c = if c = k ∧ r.1 < i then v[r] else m.get r c) (by simp) (by
      intro i hi s hs
      have hlt := idx_lt (N := N) hi k.2
      have e : M * k.1 + i = k.1 * M + i := by rw [Nat.mul_comm]
      refine ⟨s.put ⟨i, hi⟩ k v[i], by rw [Vec.rawGet_lt v hi, bind_ok, e, rawSet_lt s _ hlt]; rfl, ?_⟩
      intro r c
      rw [get_put]
      split_ifs with e1 e2 e3
      · obtain ⟨rfl, rfl⟩ := e1; rfl
      · obtain ⟨rfl, rfl⟩ := e1; exact absurd ⟨rfl, Nat.lt_succ_self _⟩ e2
      · rw [hs, if_pos]; refine ⟨e3.1, ?_⟩
        rcases Nat.lt_succ_iff_lt_or_eq.1 e3.2 with h | h
        · exact h
        · exact absurd ⟨Fin.ext h.symm, e3.1.symm⟩ e1
      · rw [hs, if_neg]; rintro ⟨h1, h2⟩; exact e3 ⟨h1, by omega⟩)
  rw [h1]; congr 1; ext r c; rw [h2]; simp

theorem Mat.getRow_eq (cfg : Cfg) (m : Mat M N α) (r : Fin M) (v : Vec N α) :
    m.getRow cfg r v = .ok (Vector.ofFn fun c => m.get r c) := by
  unfold getRow
  simp only [Nat.not_le.2 r.2, decide_false, Bool.and_false, Bool.false_eq_true, if_false, pure_ok, bind_ok]
  apply loop_set
  intro i hi w _
  simp [hi]

theorem Mat.setRow_eq (cfg : Cfg) (m : Mat M N α) (k : Fin M) (v : Vec N α) :
    m.setRow cfg k v = .ok (ofFn fun r c => if r = k then v[c] else m.get r c) := by
  unfold setRow
  simp only [Nat.not_le.2 k.2, decide_false, Bool.and_false, Bool.false_eq_true, if_false, pure_ok, bind_ok]
  obtain ⟨s', h1, h2⟩ := loop_ok (n := N) (body := fun i (m : Mat M N α) => do m.atSet cfg k.1 i (← v.atGet cfg i))
    (s := m) (fun i s => ∀ r c, s.get r c = if r = k ∧ c.1 < i then v[c] else m.get r c) (by simp) (by
      intro i hi s hs
      refine ⟨s.put k ⟨i, hi⟩ v[i], by simp [hi], ?_⟩
      intro r c
      rw [get_put]
      split_ifs with e1 e2 e3
      · obtain ⟨rfl, rfl⟩ := e1; rfl
      · obtain ⟨rfl, rfl⟩ := e1; exact absurd ⟨rfl, Nat.lt_succ_self _⟩ e2
      · rw [hs, if_pos]; refine ⟨e3.1, ?_⟩
        rcases Nat.lt_succ_iff_lt_or_eq.1 e3.2 with h | h
        · exact h
        · exact absurd ⟨e3.1.symm, Fin.ext h.symm⟩ e1
      · rw [hs, if_neg]; rintro ⟨h1, h2⟩; exact e3 ⟨h1, by omega⟩)
  rw [h1]; congr 1; ext r c; rw [h2]; simp

/-- C24 (columns). `get_column` returns column `k`; `set_column` stores it, and changes no other column. -/
theorem C24_columns (cfg : Cfg) (m : Mat M N α) (k : Fin N) (v w : Vec M α) :
    (∃ x, m.getColumn cfg k v = .ok x ∧ ∀ r : Fin M, x[r] = m.toMat r k) ∧
    (∃ m', m.setColumn cfg k v = .ok m' ∧ m'.getColumn cfg k w = .ok v ∧
      (∀ r, m'.toMat r k = v[r]) ∧ ∀ r c, c ≠ k → m'.toMat r c = m.toMat r c) := by
  refine ⟨⟨_, getColumn_eq cfg m k v, by simp⟩, _, setColumn_eq cfg m k v, ?_, by simp, by intro r c h; simp [h]⟩
  rw [getColumn_eq]; congr 1; ext i hi; simp

/-- C24 (rows). `get_row` returns row `k`; `set_row` stores it, and changes no other row. -/
theorem C24_rows (cfg : Cfg) (m : Mat M N α) (k : Fin M) (v w : Vec N α) :
    (∃ x, m.getRow cfg k v = .ok x ∧ ∀ c : Fin N, x[c] = m.toMat k c) ∧
    (∃ m', m.setRow cfg k v = .ok m' ∧ m'.getRow cfg k w = .ok v ∧
      (∀ c, m'.toMat k c = v[c]) ∧ ∀ r c, r ≠ k → m'.toMat r c = m.toMat r c) := by
  refine ⟨⟨_, getRow_eq cfg m k v, by simp⟩, _, setRow_eq cfg m k v, ?_, by simp, by intro r c h; simp [h]⟩
  rw [getRow_eq]; congr 1; ext i hi; simp

theorem Mat.getSubMatrix_eq (cfg : Cfg) (m : Mat M N α) (res : Mat O P α) (ro co : Nat) (hr : O + ro ≤ M)
    (hc : P + co ≤ N) : m.getSubMatrix cfg res ro co =
      .ok (ofFn fun r c => m.get ⟨ro + r, by omega⟩ ⟨co + c, by omega⟩) := by
  unfold getSubMatrix
  simp only [Nat.not_lt.2 hr, Nat.not_lt.2 hc, decide_false, Bool.or_false, Bool.and_false, Bool.false_eq_true,
    if_false, pure_ok, bind_ok]
  apply loop2_const
  intro r hr' c hc' m'
  simp [show ro + r < M by omega, show co + c < N by omega, hr', hc']

/-- Block rule: writing cell `(ro + r, co + c)` for `r < O`, `c < P`. -/
theorem Mat.loop_block {O P ro co : Nat} (hr : O + ro ≤ M) (hc : P + co ≤ N)
    {body : Nat → Nat → Mat M N α → Res (Mat M N α)} {m0 : Mat M N α} (g : Fin O → Fin P → α)
    (h : ∀ r (h1 : r < O) c (h2 : c < P) (m : Mat M N α),
      body r c m = .ok (m.put ⟨ro + r, by omega⟩ ⟨co + c, by omega⟩ (g ⟨r, h1⟩ ⟨c, h2⟩))) :
    loop O (fun r m => loop P (fun c m => body r c m) m) m0 = .ok (ofFn fun r c =>
      if h : (ro ≤ r.1 ∧ r.1 - ro < O) ∧ (co ≤ c.1 ∧ c.1 - co < P) then g ⟨r.1 - ro, h.1.2⟩ ⟨c.1 - co, h.2.2⟩
      else m0.get r c) := by
  obtain ⟨s', h1, h2⟩ := loop_ok (n := O) (body := fun r m => loop P (fun c m => body r c m) m) (s := m0)
    (fun k m => ∀ r c, m.get r c =
      if h : (ro ≤ r.1 ∧ r.1 - ro < O ∧ r.1 - ro < k) ∧ (co ≤ c.1 ∧ c.1 - co < P) then
        g ⟨r.1 - ro, h.1.2.1⟩ ⟨c.1 - co, h.2.2⟩ else m0.get r c)
    (by simp) (by
      intro k hk m hm
      obtain ⟨m', h3, h4⟩ := loop_ok (n := P) (body := fun c m => body k c m) (s := m)
        (fun l m => ∀ r c, m.get r c =
          if h : (ro ≤ r.1 ∧ r.1 - ro < O) ∧ (co ≤ c.1 ∧ c.1 - co < P) ∧
            (r.1 - ro < k ∨ (r.1 - ro = k ∧ c.1 - co < l)) then
          g ⟨r.1 - ro, h.1.2⟩ ⟨c.1 - co, h.2.1.2⟩ else m0.get r c)
        (by
          intro r c
          rw [hm]
          split_ifs with a1 a2 a2 <;> first | rfl | omega) (by
          intro l hl m hm
          refine ⟨_, h k hk l hl m, ?_⟩
          intro r c
          rw [get_put]
          by_cases e : ro + k = r.1 ∧ co + l = c.1
          · rw [if_pos ⟨Fin.ext e.1, Fin.ext e.2⟩, dif_pos (by omega)]
            congr 1 <;> apply Fin.ext <;> simp only <;> omega
          · rw [if_neg (by simpa [Fin.ext_iff] using e), hm]
            split_ifs with a1 a2 a2 <;> first | rfl | omega)
      refine ⟨m', h3, ?_⟩
      intro r c
      rw [h4]
      split_ifs with a1 a2 a2 <;> first | rfl | omega)
  rw [h1]; congr 1; ext r c; rw [h2]
  simp only [get_ofFn]
  split_ifs with a1 a2 a2 <;> first | rfl | omega

theorem Mat.setSubMatrix_eq (cfg : Cfg) (m : Mat M N α) (sub : Mat O P α) (ro co : Nat) (hr : O + ro ≤ M)
    (hc : P + co ≤ N) : m.setSubMatrix cfg sub ro co = .ok (ofFn fun r c =>
      if h : (ro ≤ r.1 ∧ r.1 - ro < O) ∧ (co ≤ c.1 ∧ c.1 - co < P) then sub.get ⟨r.1 - ro, h.1.2⟩ ⟨c.1 - co, h.2.2⟩
      else m.get r c) := by
  unfold setSubMatrix
  apply loop_block hr hc (fun r c => sub.get r c)
  intro r h1 c h2 m
  simp [h1, h2, show ro + r < M by omega, show co + c < N by omega]

/-- C24 (blocks). For every offset at which the block fits: `get_sub_matrix` reads the block, `set_sub_matrix`
stores it, reading it back gives the stored block, and cells outside the block keep their value. -/
theorem C24_blocks (cfg : Cfg) (m : Mat M N α) (sub res : Mat O P α) (ro co : Nat) (hr : O + ro ≤ M)
    (hc : P + co ≤ N) :
    (∃ x, m.getSubMatrix cfg res ro co = .ok x ∧
      ∀ (r : Fin O) (c : Fin P), x.toMat r c = m.toMat ⟨ro + r, by omega⟩ ⟨co + c, by omega⟩) ∧
    (∃ m', m.setSubMatrix cfg sub ro co = .ok m' ∧ m'.getSubMatrix cfg res ro co = .ok sub ∧
      ∀ (r : Fin M) (c : Fin N), ¬ ((ro ≤ r.1 ∧ r.1 < ro + O) ∧ (co ≤ c.1 ∧ c.1 < co + P)) →
        m'.toMat r c = m.toMat r c) := by
  refine ⟨⟨_, getSubMatrix_eq cfg m res ro co hr hc, by simp⟩, _, setSubMatrix_eq cfg m sub ro co hr hc, ?_, ?_⟩
  · rw [getSubMatrix_eq _ _ _ _ _ hr hc]; congr 1; ext r c; simp
  · intro r c h
    simp only [toMat_apply, get_ofFn]
    rw [dif_neg (by omega)]

/-- A loop that meets an exception in some iteration raises it, if no earlier iteration fails otherwise. -/
theorem loop_throws {σ : Type} {n : Nat} {body : Nat → σ → Res σ} {s : σ} {k : Nat} (hk : k < n)
    (h : ∀ i, i ≤ k → ∀ s, (∃ s', body i s = .ok s') ∨ body i s = .error .thrown)
    (hk' : ∀ s, body k s = .error .thrown) : loop n body s = .error .thrown := by
  have h1 : ∀ j, j ≤ k → (∃ s', loop j body s = .ok s') ∨ loop j body s = .error .thrown := by
    intro j
    induction j with
    | zero => intro _; exact Or.inl ⟨s, rfl⟩
    | succ j ih =>
      intro hj
      rcases ih (by omega) with ⟨s', h'⟩ | h'
      · rw [loop_succ, h', bind_ok]; exact h j (by omega) s'
      · right; rw [loop_succ, h']; rfl
  have h2 : loop (k + 1) body s = .error .thrown := by
    rw [loop_succ]
    rcases h1 k le_rfl with ⟨s', h'⟩ | h'
    · rw [h', bind_ok, hk']
    · rw [h']; rfl
  have h3 : ∀ j, loop (k + 1 + j) body s = .error .thrown := by
    intro j
    induction j with
    | zero => exact h2
    | succ j ih => rw [← Nat.add_assoc, loop_succ, ih]; rfl
  have := h3 (n - (k + 1))
  rwa [show k + 1 + (n - (k + 1)) = n by omega] at this

/-- C24 (errors). With checked accessors and exceptions, an out-of-range row or column index, or a block that does
not fit, raises an exception (for a non-empty block in the case of `set_sub_matrix`). -/
theorem C24_errors (cfg : Cfg) (hs : cfg.safe = true) (ht : cfg.throws = true) (m : Mat M N α) (k : Nat)
    (col : Vec M α) (row : Vec N α) (sub : Mat O P α) (ro co : Nat) :
    (N ≤ k → m.getColumn cfg k col = .error .thrown ∧ m.setColumn cfg k col = .error .thrown) ∧
    (M ≤ k → m.getRow cfg k row = .error .thrown ∧ m.setRow cfg k row = .error .thrown) ∧
    (M < O + ro ∨ N < P + co → m.getSubMatrix cfg sub ro co = .error .thrown) ∧
    (M < O + ro ∨ N < P + co → 0 < O → 0 < P → m.setSubMatrix cfg sub ro co = .error .thrown) := by
  refine ⟨fun h => ?_, fun h => ?_, fun h => ?_, fun h hO hP => ?_⟩
  · simp [getColumn, setColumn, vmmlibError, hs, ht, h]
  · simp [getRow, setRow, vmmlibError, hs, ht, h]
  · simp [getSubMatrix, vmmlibError, hs, ht, h]
  · have hset : ∀ (m : Mat M N α) r c x, (∃ m', m.atSet cfg r c x = .ok m') ∨ m.atSet cfg r c x = .error .thrown := by
      intro m r c x
      by_cases h : r < M ∧ c < N
      · exact Or.inl ⟨_, atSet_lt cfg m x h.1 h.2⟩
      · right; simp [atSet, hs, ht, vmmlibError, show M ≤ r ∨ N ≤ c by omega]
    have inner : ∀ r, r < O → ∀ m : Mat M N α,
        (∃ m', loop P (fun c m => do m.atSet cfg (ro + r) (co + c) (← sub.atGet cfg r c)) m = .ok m') ∨
        loop P (fun c m => do m.atSet cfg (ro + r) (co + c) (← sub.atGet cfg r c)) m = .error .thrown := by
      intro r hr m
      have : ∀ j, j ≤ P → (∃ m', loop j (fun c m => do m.atSet cfg (ro + r) (co + c) (← sub.atGet cfg r c)) m = .ok m') ∨
        loop j (fun c m => do m.atSet cfg (ro + r) (co + c) (← sub.atGet cfg r c)) m = .error .thrown := by
        intro j
        induction j with
        | zero => intro _; exact Or.inl ⟨m, rfl⟩
        | succ j ih =>
          intro hj
          rcases ih (by omega) with ⟨m', h'⟩ | h'
          · rw [loop_succ, h', bind_ok, atGet_lt cfg sub hr (by omega), bind_ok]; exact hset _ _ _ _
          · right; rw [loop_succ, h']; rfl
      exact this P le_rfl
    unfold setSubMatrix
    rcases h with h | h
    · by_cases hro : M ≤ ro
      · refine loop_throws (k := 0) hO (fun i hi s => inner i (by omega) s) ?_
        intro s
        refine loop_throws (k := 0) hP (fun i hi s => ?_) ?_
        · rw [atGet_lt cfg sub hO (by omega), bind_ok]; exact hset _ _ _ _
        · intro s; rw [atGet_lt cfg sub hO hP, bind_ok]
          simp [atSet, hs, ht, vmmlibError, hro]
      · refine loop_throws (k := M - ro) (by omega) (fun i hi s => inner i (by omega) s) ?_
        intro s
        refine loop_throws (k := 0) hP (fun i hi s => ?_) ?_
        · rw [atGet_lt cfg sub (by omega) (by omega), bind_ok]; exact hset _ _ _ _
        · intro s; rw [atGet_lt cfg sub (by omega) hP, bind_ok]
          simp [atSet, hs, ht, vmmlibError, show M ≤ ro + (M - ro) by omega]
    · refine loop_throws (k := 0) hO (fun i hi s => inner i (by omega) s) ?_
      intro s
      refine loop_throws (k := if N ≤ co then 0 else N - co) (by split_ifs <;> omega) (fun i hi s => ?_) ?_
      · have : i < P := by split_ifs at hi <;> omega
        rw [atGet_lt cfg sub hO this, bind_ok]; exact hset _ _ _ _
      · intro s
        rw [atGet_lt cfg sub hO (by split_ifs <;> omega), bind_ok]
        have : N ≤ co + (if N ≤ co then 0 else N - co) := by split_ifs <;> omega
        simp only [atSet, hs, ht, vmmlibError, this, decide_true, Bool.or_true, Bool.and_true, if_true]
        rfl

example : (⟨#v[1, 2, 3, 4, 5, 6]⟩ : Mat 2 3 Int).setSubMatrix ⟨true, true, false⟩ (⟨#v[8, 9]⟩ : Mat 2 1 Int) 0 1 =
    .ok ⟨#v[1, 2, 8, 9, 5, 6]⟩ := by decide

/-! ## C48 -/

/-- A boolean conjunction computed by a loop that stops at the first failure. -/
theorem loop_all {n : Nat} {body : Nat → Bool → Res Bool} (p : Nat → Bool) (b : Bool)
    (h : ∀ i, i < n → ∀ ok, body i ok = .ok (ok && p i)) :
    ∃ r, loop n body b = .ok r ∧ (r = true ↔ b = true ∧ ∀ i, i < n → p i = true) := by
  induction n with
  | zero => exact ⟨b, rfl, by simp⟩
  | succ n ih =>
    obtain ⟨r, h1, h2⟩ := ih (fun i hi => h i (by omega))
    refine ⟨r && p n, by rw [loop_succ, h1, bind_ok, h n (by omega)], ?_⟩
    rw [Bool.and_eq_true, h2]
    constructor
    · rintro ⟨⟨h3, h4⟩, h5⟩
      refine ⟨h3, fun i hi => ?_⟩
      rcases Nat.lt_succ_iff_lt_or_eq.1 hi with h | rfl
      · exact h4 i h
      · exact h5
    · rintro ⟨h3, h4⟩
      exact ⟨⟨h3, fun i hi => h4 i (by omega)⟩, h4 n (by omega)⟩

/-- The doubly nested version. -/
theorem loop_all2 {body : Nat → Nat → Bool → Res Bool} (p : Fin M → Fin N → Bool)
    (h : ∀ r (hr : r < M) c (hc : c < N) ok, body r c ok = .ok (ok && p ⟨r, hr⟩ ⟨c, hc⟩)) :
    ∃ r, loop M (fun r ok => loop N (fun c ok => body r c ok) ok) true = .ok r ∧
      (r = true ↔ ∀ r c, p r c = true) := by
  obtain ⟨s, h1, h2⟩ := loop_ok (n := M) (body := fun r ok => loop N (fun c ok => body r c ok) ok) (s := true)
    (fun k ok => ok = true ↔ ∀ (r : Fin M) c, r.1 < k → p r c = true) (by simp) (by
      intro k hk ok hok
      obtain ⟨ok', h3, h4⟩ := loop_all (n := N) (body := fun c ok => body k c ok)
        (fun c => if hc : c < N then p ⟨k, hk⟩ ⟨c, hc⟩ else true) ok (by
          intro c hc ok; rw [h k hk c hc]; simp [hc])
      refine ⟨ok', h3, ?_⟩
      rw [h4, hok]
      constructor
      · rintro ⟨h5, h6⟩ r c hr
        rcases Nat.lt_succ_iff_lt_or_eq.1 hr with h | h
        · exact h5 r c h
        · have := h6 c.1 c.2
          simp only [c.2, dif_pos] at this
          rw [← this]; congr 1; exact Fin.ext h
      · intro h5
        refine ⟨fun r c hr => h5 r c (by omega), fun c hc => ?_⟩
        simp only [hc, dif_pos]
        exact h5 _ _ (Nat.lt_succ_self _))
  refine ⟨s, h1, h2.trans ?_⟩
  constructor
  · intro h r c; exact h r c r.2
  · intro h r c _; exact h r c

/-- C48. `==` holds iff all cells compare equal (by the element's `==`); `!=` is its negation. No fault. -/
theorem C48_eq [BEq α] (a b : Mat M N α) :
    ∃ r, a.eqOp b = .ok r ∧ a.neOp b = .ok (!r) ∧ (r = true ↔ ∀ i j, (a.toMat i j == b.toMat i j) = true) := by
  obtain ⟨r, h1, h2⟩ := loop_all (n := M * N)
    (body := fun i ok => if ok then do pure ((← a.rawGet i) == (← b.rawGet i)) else pure ok)
    (fun i => if h : i < M * N then a.array[i] == b.array[i] else true) true (by
      intro i hi ok
      cases ok <;> simp [rawGet_lt, hi])
  have h1' : a.eqOp b = .ok r := h1
  refine ⟨r, h1', by simp [neOp, h1'], h2.trans ?_⟩
  simp only [true_and]
  constructor
  · intro h i j
    have := h (j.1 * M + i.1) (idx_lt i.2 j.2)
    simpa [idx_lt i.2 j.2, Mat.get] using this
  · intro h i hi
    have hM : 0 < M := by
      rcases Nat.eq_zero_or_pos M with h | h
      · simp [h] at hi
      · exact h
    have := h ⟨i % M, Nat.mod_lt _ hM⟩ ⟨i / M, (Nat.div_lt_iff_lt_mul hM).2 (by rwa [Nat.mul_comm] at hi)⟩
    simp only [toMat_apply, Mat.get] at this
    have e : i / M * M + i % M = i := Nat.div_add_mod' i M
    simpa only [e, hi, dif_pos] using this

/-- C48. For element types whose `==` is equality (integers, …) the matrices are then identical. -/
theorem C48_eq_iff [BEq α] [LawfulBEq α] (a b : Mat M N α) : a.eqOp b = .ok true ↔ a = b := by
  obtain ⟨r, h1, -, h3⟩ := C48_eq a b
  rw [h1]
  constructor
  · intro h
    injection h with h
    ext i j
    simpa using h3.1 h i j
  · rintro rfl
    have : r = true := h3.2 (by simp)
    rw [this]

/-- C48. `equals( other, tolerance )` holds iff every cell difference is smaller than the tolerance. -/
theorem C48_equals (cfg : Cfg) (a b : Mat M N ℝ) (tol : ℝ) :
    ∃ r, a.equals cfg b tol = .ok r ∧ (r = true ↔ ∀ i j, |a.toMat i j - b.toMat i j| < tol) := by
  obtain ⟨r, h1, h2⟩ := loop_all2 (M := M) (N := N)
    (body := fun r c ok => if ok then do
      pure (decide (CMath.fabs ((← a.atGet cfg r c) - (← b.atGet cfg r c)) < tol)) else pure ok)
    (fun r c => decide (|a.get r c - b.get r c| < tol)) (by
      intro r hr c hc ok
      cases ok <;> simp [hr, hc])
  exact ⟨r, h1, by simpa using h2⟩

/-- C48. `equals( other, cmp )` holds iff the comparison object accepts every pair of cells. -/
theorem C48_equals_cmp (cfg : Cfg) (a b : Mat M N α) (cmp : α → α → Bool) :
    ∃ r, a.equalsCmp cfg b cmp = .ok r ∧ (r = true ↔ ∀ i j, cmp (a.toMat i j) (b.toMat i j) = true) := by
  obtain ⟨r, h1, h2⟩ := loop_all2 (M := M) (N := N)
    (body := fun r c ok => if ok then do pure (cmp (← a.atGet cfg r c) (← b.atGet cfg r c)) else pure ok)
    (fun r c => cmp (a.get r c) (b.get r c)) (by
      intro r hr c hc ok
      cases ok <;> simp [hr, hc])
  exact ⟨r, h1, h2⟩

example : (⟨#v[1, 2, 3, 4]⟩ : Mat 2 2 Int).eqOp ⟨#v[1, 2, 3, 5]⟩ = .ok false := by decide

end Vmml
