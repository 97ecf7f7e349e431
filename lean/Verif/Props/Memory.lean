import Verif.Model.Memory
import Verif.Props.MatrixSignal
import Verif.Props.RawFile

/-!
# C103: dynamic memory
-/

namespace Vmml
open Mat
variable {M N : Nat} {α : Type}

/-- Specification: every live block has an address the allocator has already handed out. Holds of the empty store and is kept by every allocation and release. -/
def Store.Ok (st : Store) : Prop := ∀ b ∈ st.live, b.1 < st.next

/-- Specification: the number of bytes in use. -/
def Store.used (st : Store) : Nat := (st.live.map (·.2)).sum

theorem Store.Ok.filter {st : Store} (h : st.Ok) (p : Nat) (hp : st.next ≤ p) : st.live.filter (fun b => b.1 != p) = st.live := by
  rw [List.filter_eq_self]
  intro b hb
  have := h b hb
  simp; omega

theorem Store.bind_apply {σ α β : Type} (x : Run σ α) (f : α → Run σ β) (s : σ) :
    (x >>= f) s = match x s with
      | (.ok a, s) => f a s
      | (.error e, s) => (.error e, s) := rfl

theorem Store.pure_apply {σ α : Type} (a : α) (s : σ) : (pure a : Run σ α) s = (.ok a, s) := rfl

theorem two_blocks {β : Type} (st : Store) (h : st.Ok) (n k : Nat) (r : Res β) :
    (do
      let p ← Store.alloc n
      let q ← Store.alloc k
      let r ← Store.body r
      Store.free p
      Store.free q
      pure r : Run Store β) st = match r with
        | .ok a => (.ok a, ⟨st.live, st.next + 2⟩)
        | .error e => (.error e, ⟨(st.next + 1, k) :: (st.next, n) :: st.live, st.next + 2⟩) := by
  cases r with
  | error e => rfl
  | ok a =>
    have e1 := h.filter st.next (le_refl _)
    have e2 := h.filter (st.next + 1) (by omega)
    simp [Store.bind_apply, Store.alloc, Store.body, Store.free, Run.read, e1, e2, Store.pure_apply]

/-- C103. In the model a block can be released only once and an address that was never handed out not at all: a second `delete` of the same block, or a `delete` of any address not yet allocated, is undefined behaviour.
So a computation that ends with `.ok` has released nothing twice. -/
theorem C103_release_once (st : Store) (p : Nat) : (do Store.free p; Store.free p : Run Store Unit) st = (.error .ub, (Store.free p st).2) ∧
    (st.Ok → st.next ≤ p → Store.free p st = (.error .ub, st)) := by
  constructor
  · rw [Store.bind_apply]
    unfold Store.free
    by_cases h : st.live.any (fun b => b.1 == p) = true
    · rw [if_pos h]
      have : ((st.live.filter fun b => b.1 != p).any fun b => b.1 == p) = false := by
        simp [List.any_eq_false]
      simp only [this, Bool.false_eq_true, if_false]
    · rw [if_neg h]
  · intro hok hp
    unfold Store.free
    rw [if_neg]
    intro h
    obtain ⟨b, hb, e⟩ := List.any_eq_true.1 h
    have := hok b hb
    have : b.1 = p := by simpa using e
    omega

/-- C103. `sum_rows` releases the memory it allocates: afterwards exactly the blocks of before are live; and it computes what `C44_sum_rows` says. -/
theorem C103_sum_rows [AddCommMonoid α] (cfg : Cfg) (s : Nat) (m : Mat M N α) (other : Mat (M / 2) N α) (st : Store) (h : st.Ok) :
    ∃ r st', m.sumRowsM cfg s other st = (.ok r, st') ∧ m.sumRows cfg other = .ok r ∧ st'.live = st.live ∧ st'.Ok := by
  obtain ⟨r, hr, _⟩ := C44_sum_rows cfg m other
  refine ⟨r, ⟨st.live, st.next + 2⟩, ?_, hr, rfl, fun b hb => Nat.lt_add_right 2 (h b hb)⟩
  unfold sumRowsM
  rw [two_blocks st h, hr]

/-- C103. `sum_columns` releases the memory it allocates. -/
theorem C103_sum_columns [AddCommMonoid α] (cfg : Cfg) (s : Nat) (m : Mat M N α) (other : Mat M (N / 2) α) (st : Store) (h : st.Ok) :
    ∃ r st', m.sumColumnsM cfg s other st = (.ok r, st') ∧ m.sumColumns cfg other = .ok r ∧ st'.live = st.live ∧ st'.Ok := by
  obtain ⟨r, hr, _⟩ := C44_sum_columns cfg m other
  refine ⟨r, ⟨st.live, st.next + 2⟩, ?_, hr, rfl, fun b hb => Nat.lt_add_right 2 (h b hb)⟩
  unfold sumColumnsM
  rw [two_blocks st h, hr]

/-- C103, proved part: `read_from_raw` of a file that can be opened releases its buffer (whenever the read itself is defined, see C47), and reads what the
model of C47 reads. -/
theorem C103_read_open_partial {s : Nat} {ofBytes : List UInt8 → α} (canOpen : List Char → Bool) (junk : Nat → UInt8) (m r : Mat M N α)
    (dir name : List Char) (fs : Files) (file : List UInt8) (ho : canOpen (rawPath dir name) = true) (hf : fs (rawPath dir name) = some file)
    (hr : m.readFromRaw s ofBytes canOpen junk dir name fs = .ok r) (st : Store) (h : st.Ok) :
    ∃ st', m.readFromRawM s ofBytes canOpen junk dir name fs st = (.ok r, st') ∧ st'.live = st.live ∧ st'.Ok := by
  refine ⟨⟨st.live, st.next + 1⟩, ?_, rfl, fun b hb => Nat.lt_succ_of_lt (h b hb)⟩
  unfold Mat.readFromRaw at hr
  simp only [ho, if_true, hf] at hr
  unfold readFromRawM
  simp only [ho, if_true, hf]
  have e1 := h.filter st.next (le_refl _)
  cases hc : rawChunks s ofBytes (2147483648 - s) (s * (M * N)) file (List.ofFn (n := s * (M * N)) fun i => junk i.1) 0 m.array with
  | error e => rw [hc] at hr; cases hr
  | ok a =>
    rw [hc] at hr
    have : (⟨a⟩ : Mat M N α) = r := by injection hr
    subst this
    simp [Store.bind_apply, Store.alloc, Store.body, Store.free, Run.read, e1, Store.pure_apply, hc]

/-- C103 fails for `read_from_raw` of a file that cannot be opened: the buffer of `sizeof( T ) * M * N` bytes stays allocated, the matrix is unchanged. -/
theorem C103_read_closed_violated {s : Nat} {ofBytes : List UInt8 → α} (canOpen : List Char → Bool) (junk : Nat → UInt8) (m : Mat M N α)
    (dir name : List Char) (fs : Files) (ho : canOpen (rawPath dir name) = false ∨ fs (rawPath dir name) = none) (st : Store) :
    m.readFromRawM s ofBytes canOpen junk dir name fs st = (.ok m, ⟨(st.next, s * (M * N)) :: st.live, st.next + 1⟩) := by
  unfold readFromRawM
  rcases ho with ho | ho
  · simp [ho, Store.bind_apply, Store.alloc, Store.pure_apply]
  · by_cases hc : canOpen (rawPath dir name) = true
    · simp [ho, hc, Store.bind_apply, Store.alloc, Store.pure_apply]
    · simp [hc, Store.bind_apply, Store.alloc, Store.pure_apply]

/-- Specification: `k` calls in a row. -/
def Store.calls {β : Type} (f : β → Run Store β) : Nat → β → Run Store β
  | 0, b => pure b
  | k + 1, b => do Store.calls f k (← f b)

/-- C103 fails without bound: `k` attempts to read a missing file take `k` times the size of the matrix from the free store for good. -/
theorem C103_leak_violated {s : Nat} {ofBytes : List UInt8 → α} (canOpen : List Char → Bool) (junk : Nat → UInt8) (m : Mat M N α)
    (dir name : List Char) (fs : Files) (ho : canOpen (rawPath dir name) = false ∨ fs (rawPath dir name) = none) (k : Nat) :
    ∀ st : Store, ∃ st', Store.calls (fun m : Mat M N α => m.readFromRawM s ofBytes canOpen junk dir name fs) k m st = (.ok m, st') ∧
      st'.used = st.used + k * (s * (M * N)) := by
  induction k with
  | zero => intro st; exact ⟨st, rfl, by simp⟩
  | succ k ih =>
    intro st
    obtain ⟨st', h1, h2⟩ := ih ⟨(st.next, s * (M * N)) :: st.live, st.next + 1⟩
    refine ⟨st', ?_, ?_⟩
    · rw [Store.calls, Store.bind_apply, C103_read_closed_violated canOpen junk m dir name fs ho st]
      exact h1
    · rw [h2]; simp only [Store.used, List.map_cons, List.sum_cons]; ring

/-- The empty store meets the hypothesis; and a 3x2 matrix of 4-byte elements, summed by rows, leaves it empty. -/
example : ∃ r st', (⟨#v[1, 2, 3, 4, 5, 6]⟩ : Mat 3 2 Int).sumRowsM ⟨true, true, false⟩ 4 ⟨#v[0, 0]⟩ ⟨[], 0⟩ = (.ok r, st') ∧ st'.live = [] := by
  obtain ⟨r, st', h1, _, h2, _⟩ := C103_sum_rows ⟨true, true, false⟩ 4 (⟨#v[1, 2, 3, 4, 5, 6]⟩ : Mat 3 2 Int) ⟨#v[0, 0]⟩ ⟨[], 0⟩ (by simp [Store.Ok])
  exact ⟨r, st', h1, h2⟩

end Vmml
