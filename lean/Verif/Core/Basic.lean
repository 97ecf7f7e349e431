import Mathlib.Algebra.BigOperators.Fin
import Mathlib.Tactic.Ring
import Mathlib.Tactic.NormNum

/-!
# Core of the model: faults, build configuration, loops

This file contains no model of a particular vmmlib function; it is the small imperative
vocabulary in which the headers are transcribed (`for` loops, `return` inside loops, the
`VMMLIB_ERROR` macro) together with the proof rules for loops.
-/

namespace Vmml

/-- How a call can fail to return: a C++ exception, a failed `assert` (process abort), or
undefined behaviour (access outside an array, etc.). -/
inductive Fault
  | thrown
  | aborted
  | ub
  deriving DecidableEq, Repr

/-- A call either returns a value or ends in a fault. -/
abbrev Res := Except Fault

instance {α : Type} [DecidableEq α] : DecidableEq (Res α)
  | .ok a, .ok b => if h : a = b then isTrue (by rw [h]) else isFalse (by intro h'; cases h'; exact h rfl)
  | .error a, .error b =>
    if h : a = b then isTrue (by rw [h]) else isFalse (by intro h'; cases h'; exact h rfl)
  | .ok _, .error _ => isFalse (by intro h; cases h)
  | .error _, .ok _ => isFalse (by intro h; cases h)

/-- Build configuration: `VMMLIB_SAFE_ACCESSORS`, `VMMLIB_THROW_EXCEPTIONS`, `NDEBUG`
(vmmlib_config.hpp:52-57, exception.hpp:46-50). -/
structure Cfg where
  safe : Bool
  throws : Bool
  ndebug : Bool
  deriving DecidableEq, Repr

/-- `VMMLIB_ERROR( desc, here )`, exception.hpp:46-50 and 64-72: throws with
`VMMLIB_THROW_EXCEPTIONS`; otherwise it is `error_noexcept`, which prints and then
`assert( 0 )`, so it aborts unless `NDEBUG` is defined, in which case execution continues. -/
def vmmlibError (cfg : Cfg) : Res Unit :=
  if cfg.throws then throw .thrown
  else if cfg.ndebug then pure ()
  else throw .aborted

/-- `assert( cond )` from `<cassert>`: aborts if the condition is false, unless `NDEBUG`. -/
def cassert (cfg : Cfg) (cond : Bool) : Res Unit :=
  if cond || cfg.ndebug then pure () else throw .aborted

/-- `for( size_t i = 0; i < n; ++i ) body`: iterations `0, 1, ..., n-1` in this order, the
loop-carried variables being the state `s`. -/
def loop {σ : Type} (n : Nat) (body : Nat → σ → Res σ) (s : σ) : Res σ :=
  match n with
  | 0 => pure s
  | n + 1 => do body n (← loop n body s)

/-- `for( size_t i = 0; i < n; ++i ) if( ... ) return b;`: a loop whose body may return from
the function. Once an iteration has returned, the later iterations do nothing. -/
def loopRet {β : Type} (n : Nat) (body : Nat → Res (Option β)) : Res (Option β) :=
  loop n (fun i r => match r with
    | some b => pure (some b)
    | none => body i) none

@[simp] theorem bind_ok {α β : Type} (a : α) (f : α → Res β) :
    (Except.ok a >>= f) = f a := rfl
@[simp] theorem bind_error {α β : Type} (e : Fault) (f : α → Res β) :
    ((Except.error e : Res α) >>= f) = .error e := rfl
@[simp] theorem map_ok {α β : Type} (a : α) (f : α → β) :
    (f <$> (Except.ok a : Res α)) = .ok (f a) := rfl
@[simp] theorem pure_ok {α : Type} (a : α) : (pure a : Res α) = .ok a := rfl
@[simp] theorem throw_error {α : Type} (e : Fault) : (throw e : Res α) = .error e := rfl

@[simp] theorem loop_zero {σ : Type} (body : Nat → σ → Res σ) (s : σ) :
    loop 0 body s = .ok s := rfl

theorem loop_succ {σ : Type} (n : Nat) (body : Nat → σ → Res σ) (s : σ) :
    loop (n + 1) body s = (loop n body s >>= body n) := rfl

/-- Invariant rule. -/
theorem loop_ok {σ : Type} {n : Nat} {body : Nat → σ → Res σ} {s : σ} (I : Nat → σ → Prop)
    (h0 : I 0 s)
    (hs : ∀ i, i < n → ∀ s, I i s → ∃ s', body i s = .ok s' ∧ I (i + 1) s') :
    ∃ s', loop n body s = .ok s' ∧ I n s' := by
  induction n with
  | zero => exact ⟨s, rfl, h0⟩
  | succ n ih =>
    obtain ⟨s', h1, h2⟩ := ih (fun i hi => hs i (by omega))
    obtain ⟨s'', h3, h4⟩ := hs n (by omega) s' h2
    exact ⟨s'', by simp [loop, h1, h3], h4⟩

/-- The state after `n` iterations of a pure step. -/
def iter {σ : Type} (f : Nat → σ → σ) (n : Nat) (s : σ) : σ :=
  match n with
  | 0 => s
  | n + 1 => f n (iter f n s)

/-- A loop whose body never faults is the iteration of its body. -/
theorem loop_iter {σ : Type} {n : Nat} {body : Nat → σ → Res σ} {s : σ} (f : Nat → σ → σ)
    (h : ∀ i, i < n → ∀ s, body i s = .ok (f i s)) :
    loop n body s = .ok (iter f n s) := by
  induction n with
  | zero => rfl
  | succ n ih =>
    rw [loop_succ, ih (fun i hi => h i (by omega))]
    simp [h n (by omega), iter]

/-- Congruence: the bodies need to agree only on the iterations performed. -/
theorem loop_congr {σ : Type} {n : Nat} {b₁ b₂ : Nat → σ → Res σ} {s : σ}
    (h : ∀ i, i < n → ∀ s, b₁ i s = b₂ i s) : loop n b₁ s = loop n b₂ s := by
  induction n with
  | zero => rfl
  | succ n ih =>
    rw [loop_succ, loop_succ, ih (fun i hi => h i (by omega))]
    congr 1; funext s; exact h n (by omega) s

/-- Accumulation rule. -/
theorem loop_sum {α : Type} [AddCommMonoid α] {n : Nat} {body : Nat → α → Res α} {s : α}
    (g : Fin n → α)
    (h : ∀ i (hi : i < n) s, body i s = .ok (s + g ⟨i, hi⟩)) :
    loop n body s = .ok (s + ∑ i, g i) := by
  induction n with
  | zero => simp
  | succ n ih =>
    rw [loop_succ, ih (fun i => g i.castSucc) (fun i hi s => h i (by omega) s)]
    simp [h n (by omega), Fin.sum_univ_castSucc, add_assoc]
    rfl

/-- Accumulation rule for products. -/
theorem loop_prod {α : Type} [CommMonoid α] {n : Nat} {body : Nat → α → Res α} {s : α}
    (g : Fin n → α)
    (h : ∀ i (hi : i < n) s, body i s = .ok (s * g ⟨i, hi⟩)) :
    loop n body s = .ok (s * ∏ i, g i) := by
  induction n with
  | zero => simp
  | succ n ih =>
    rw [loop_succ, ih (fun i => g i.castSucc) (fun i hi s => h i (by omega) s)]
    simp [h n (by omega), Fin.prod_univ_castSucc, mul_assoc]
    rfl

/-- The first value returned by iterations `0 .. n-1`, if any. -/
def firstSome {β : Type} (f : Nat → Option β) (n : Nat) : Option β :=
  match n with
  | 0 => none
  | n + 1 => match firstSome f n with
    | some b => some b
    | none => f n

theorem loopRet_eq {β : Type} {n : Nat} {body : Nat → Res (Option β)} (f : Nat → Option β)
    (h : ∀ i, i < n → body i = .ok (f i)) : loopRet n body = .ok (firstSome f n) := by
  unfold loopRet
  induction n with
  | zero => rfl
  | succ n ih =>
    rw [loop_succ, ih (fun i hi => h i (by omega))]
    simp only [bind_ok, firstSome]
    cases hf : firstSome f n <;> simp [h n (by omega)]

theorem firstSome_eq_none {β : Type} (f : Nat → Option β) (n : Nat) :
    firstSome f n = none ↔ ∀ i, i < n → f i = none := by
  induction n with
  | zero => simp [firstSome]
  | succ n ih =>
    simp only [firstSome]
    cases hf : firstSome f n with
    | some b =>
      simp only [reduceCtorEq, false_iff]
      intro hall
      have : firstSome f n = none := ih.2 (fun i hi => hall i (by omega))
      simp [hf] at this
    | none =>
      have h1 := ih.1 hf
      constructor
      · intro h i hi
        rcases Nat.lt_succ_iff_lt_or_eq.1 hi with h2 | rfl
        · exact h1 i h2
        · exact h
      · intro h; exact h n (by omega)

theorem firstSome_eq_some {β : Type} (f : Nat → Option β) (n : Nat) (b : β) :
    firstSome f n = some b ↔ ∃ i, i < n ∧ f i = some b ∧ ∀ j, j < i → f j = none := by
  induction n with
  | zero => simp [firstSome]
  | succ n ih =>
    simp only [firstSome]
    cases hf : firstSome f n with
    | some c =>
      simp only [hf] at ih
      simp only
      rw [ih]
      constructor
      · rintro ⟨i, hi, h⟩; exact ⟨i, by omega, h⟩
      · rintro ⟨i, hi, h1, h2⟩
        rcases Nat.lt_succ_iff_lt_or_eq.1 hi with h3 | rfl
        · exact ⟨i, h3, h1, h2⟩
        · have := (firstSome_eq_none f i).2 h2
          simp [hf] at this
    | none =>
      have h1 := (firstSome_eq_none f n).1 hf
      constructor
      · intro h; exact ⟨n, by omega, h, h1⟩
      · rintro ⟨i, hi, h2, h3⟩
        rcases Nat.lt_succ_iff_lt_or_eq.1 hi with h4 | rfl
        · simp [h1 i h4] at h2
        · exact h2

end Vmml
