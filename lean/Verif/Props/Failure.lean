import Verif.Model.Failure
import Verif.Props.MatrixAccess

/-!
# C95: what a call that throws leaves behind
-/

namespace Vmml
open Mat
variable {M N O P : Nat} {α σ β : Type}

/-- The strong guarantee: if the call throws, the object has the value it had before the call. -/
def Spec.Strong (g : Run σ β) : Prop := ∀ s s', g s = (.error .thrown, s') → s' = s

/-- A model with the state of the object agrees with a model without: same outcome, and on success the same new value. -/
def Spec.Agree (g : Run σ Unit) (f : σ → Res σ) : Prop := ∀ s, match f s with
  | .ok s' => g s = (.ok (), s')
  | .error e => (g s).1 = .error e

namespace Run

theorem pure_apply (a : β) (s : σ) : (pure a : Run σ β) s = (.ok a, s) := rfl
theorem bind_apply {γ : Type} (x : Run σ β) (f : β → Run σ γ) (s : σ) : (x >>= f) s = match x s with
    | (.ok a, s) => f a s
    | (.error e, s) => (.error e, s) := rfl
theorem bind_ok {γ : Type} {x : Run σ β} {f : β → Run σ γ} {s s' : σ} {a : β} (h : x s = (.ok a, s')) : (x >>= f) s = f a s' := by
  rw [bind_apply, h]
theorem bind_error {γ : Type} {x : Run σ β} {f : β → Run σ γ} {s s' : σ} {e : Fault} (h : x s = (.error e, s')) : (x >>= f) s = (.error e, s') := by
  rw [bind_apply, h]
theorem loop_succ (n : Nat) (body : Nat → Run σ Unit) (s : σ) : Run.loop (n + 1) body s = (Run.loop n body >>= fun _ => body n) s := rfl

/-! ### Agreement -/

theorem agree_store (f : σ → Res σ) : Spec.Agree (Run.store f) f := by
  intro s
  unfold Run.store
  cases f s <;> rfl

theorem agree_check {f : σ → Res σ} {g : Run σ Unit} (cfg : Cfg) (bad : Bool) (h : Spec.Agree g f) :
    Spec.Agree (Run.check cfg bad >>= fun _ => g) (fun s => (if bad then vmmlibError cfg else pure ()) >>= fun _ => f s) := by
  intro s
  simp only [bind_apply, Run.check, Run.read]
  cases hb : (if bad then vmmlibError cfg else pure () : Res Unit) with
  | ok u => simp only [Vmml.bind_ok]; exact h s
  | error e => rfl

theorem agree_read {γ : Type} {x : σ → Res γ} {f : γ → σ → Res σ} {g : γ → Run σ Unit} (h : ∀ a, Spec.Agree (g a) (f a)) :
    Spec.Agree (Run.read x >>= g) (fun s => x s >>= fun a => f a s) := by
  intro s
  simp only [bind_apply, Run.read]
  cases hx : x s with
  | ok a => simp only [Vmml.bind_ok]; exact h a s
  | error e => rfl

theorem agree_loop {n : Nat} {g : Nat → Run σ Unit} {f : Nat → σ → Res σ} (h : ∀ i, i < n → Spec.Agree (g i) (f i)) :
    Spec.Agree (Run.loop n g) (Vmml.loop n f) := by
  induction n with
  | zero => intro s; rfl
  | succ n ih =>
    intro s
    have h1 := ih (fun i hi => h i (by omega)) s
    rw [Vmml.loop_succ, Run.loop_succ, bind_apply]
    cases hl : Vmml.loop n f s with
    | error e =>
      simp only [hl] at h1
      rw [show Run.loop n g s = (Except.error e, (Run.loop n g s).2) from Prod.ext h1 rfl]
      rfl
    | ok s' =>
      simp only [hl] at h1
      rw [h1]
      simp only [Vmml.bind_ok]
      exact h n (by omega) s'

/-! ### Calls that do not throw -/

/-- The call never ends in an exception. -/
def NoThrow (g : Run σ β) : Prop := ∀ s s', g s ≠ (.error .thrown, s')

theorem noThrow_read {f : σ → Res β} (h : ∀ s, f s ≠ .error .thrown) : NoThrow (Run.read f) := by
  intro s s' he
  exact h s (congrArg Prod.fst he)

theorem noThrow_store {f : σ → Res σ} (h : ∀ s, f s ≠ .error .thrown) : NoThrow (Run.store f) := by
  intro s s' he
  unfold Run.store at he
  cases hf : f s with
  | ok a => rw [hf] at he; cases he
  | error e =>
    rw [hf] at he
    have : (Except.error e : Res Unit) = .error .thrown := congrArg Prod.fst he
    cases this
    exact h s hf

theorem noThrow_bind {γ : Type} {x : Run σ γ} {f : γ → Run σ β} (hx : NoThrow x) (hf : ∀ a, NoThrow (f a)) : NoThrow (x >>= f) := by
  intro s s' he
  rw [bind_apply] at he
  rcases hxs : x s with ⟨_ | _, t⟩
  · rw [hxs] at he
    rename_i e
    have : (Except.error e : Res β) = .error .thrown := congrArg Prod.fst he
    cases this
    exact hx s t hxs
  · rw [hxs] at he
    exact hf _ _ _ he

theorem noThrow_loop {n : Nat} {g : Nat → Run σ Unit} (h : ∀ i, i < n → NoThrow (g i)) : NoThrow (Run.loop n g) := by
  induction n with
  | zero => intro s s' he; cases he
  | succ n ih => exact noThrow_bind (ih fun i hi => h i (by omega)) (fun _ => h n (by omega))

theorem strong_of_noThrow {g : Run σ β} (h : NoThrow g) : Spec.Strong g := fun s s' he => absurd he (h s s')

/-- A check followed by code that does not throw, provided the check passed or reports without an exception. -/
theorem strong_check {g : Run σ Unit} (cfg : Cfg) (bad : Bool) (h : (cfg.throws = true → bad = false) → NoThrow g) :
    Spec.Strong (Run.check cfg bad >>= fun _ => g) := by
  by_cases hb : cfg.throws = true ∧ bad = true
  · intro s s' he
    rw [bind_apply] at he
    simp only [Run.check, Run.read, hb.2, if_true, vmmlibError, hb.1] at he
    exact (congrArg Prod.snd he).symm
  · have hb' : cfg.throws = true → bad = false := by
      intro ht
      cases hbad : bad
      · rfl
      · exact absurd ⟨ht, hbad⟩ hb
    apply strong_of_noThrow
    apply noThrow_bind _ fun _ => h hb'
    apply noThrow_read
    intro _ he
    by_cases hbad : bad = true
    · have ht : cfg.throws = false := by
        cases h : cfg.throws
        · rfl
        · rw [hb' h] at hbad; cases hbad
      simp only [hbad, if_true, vmmlibError, ht] at he
      cases hn : cfg.ndebug <;> simp [hn] at he
    · simp [hbad] at he

theorem strong_store (f : σ → Res σ) : Spec.Strong (Run.store f) := by
  intro s s' he
  unfold Run.store at he
  cases hf : f s with
  | ok a => rw [hf] at he; cases he
  | error e => rw [hf] at he; exact (congrArg Prod.snd he).symm

end Run

open Run

/-! ### Element accesses that do not throw -/

private theorem verr_noThrow (cfg : Cfg) (h : cfg.throws = false) : vmmlibError cfg ≠ .error .thrown := by
  cases hn : cfg.ndebug <;> simp [vmmlibError, h, hn]

private theorem mraw_noThrow (m : Mat M N α) (i : Nat) (x : α) : m.rawGet i ≠ .error .thrown ∧ m.rawSet i x ≠ .error .thrown := by
  by_cases h : i < M * N
  · simp [rawGet_lt m h, rawSet_lt m x h]
  · simp [rawGet_ge m (show M * N ≤ i by omega), rawSet_ge m x (show M * N ≤ i by omega)]

private theorem vraw_noThrow (v : Vec M α) (i : Nat) (x : α) : v.rawGet i ≠ .error .thrown ∧ v.rawSet i x ≠ .error .thrown := by
  by_cases h : i < M
  · simp [Vec.rawGet_lt v h, Vec.rawSet_lt v x h]
  · simp [Vec.rawGet_ge v (show M ≤ i by omega), Vec.rawSet_ge v x (show M ≤ i by omega)]

private theorem check_noThrow {β : Type} (cfg : Cfg) (bad : Bool) (k : Res β) (h : cfg.throws = true → bad = false) (hk : k ≠ .error .thrown) :
    ((if bad then vmmlibError cfg else pure ()) >>= fun _ => k) ≠ .error .thrown := by
  cases hb : bad
  · simpa using hk
  · have ht : cfg.throws = false := by
      cases ht : cfg.throws
      · rfl
      · rw [h ht] at hb; cases hb
    cases hn : cfg.ndebug
    · simp [vmmlibError, ht, hn]
    · simpa [vmmlibError, ht, hn] using hk

private theorem mat_noThrow (cfg : Cfg) (m : Mat M N α) (r c : Nat) (x : α) (h : cfg.throws = true → cfg.safe = true → r < M ∧ c < N) :
    m.atGet cfg r c ≠ .error .thrown ∧ m.atSet cfg r c x ≠ .error .thrown := by
  have hb : cfg.throws = true → (cfg.safe && (decide (M ≤ r) || decide (N ≤ c))) = false := by
    intro ht
    cases hs : cfg.safe
    · rfl
    · have := h ht hs
      simp; omega
  have e1 : m.atGet cfg r c = ((if (cfg.safe && (decide (M ≤ r) || decide (N ≤ c))) then vmmlibError cfg else pure ()) >>= fun _ => m.rawGet (c * M + r)) := by
    unfold Mat.atGet; split <;> rfl
  have e2 : m.atSet cfg r c x = ((if (cfg.safe && (decide (M ≤ r) || decide (N ≤ c))) then vmmlibError cfg else pure ()) >>= fun _ => m.rawSet (c * M + r) x) := by
    unfold Mat.atSet; split <;> rfl
  rw [e1, e2]
  exact ⟨check_noThrow cfg _ _ hb (mraw_noThrow m _ x).1, check_noThrow cfg _ _ hb (mraw_noThrow m _ x).2⟩

private theorem vec_noThrow (cfg : Cfg) (v : Vec M α) (i : Nat) (x : α) (h : cfg.throws = true → cfg.safe = true → i < M) :
    v.atGet cfg i ≠ .error .thrown ∧ v.atSet cfg i x ≠ .error .thrown := by
  have hb : cfg.throws = true → (cfg.safe && decide (M ≤ i)) = false := by
    intro ht
    cases hs : cfg.safe
    · rfl
    · have := h ht hs
      simp; omega
  have e1 : v.atGet cfg i = ((if (cfg.safe && decide (M ≤ i)) then vmmlibError cfg else pure ()) >>= fun _ => v.rawGet i) := by
    unfold Vec.atGet; split <;> rfl
  have e2 : v.atSet cfg i x = ((if (cfg.safe && decide (M ≤ i)) then vmmlibError cfg else pure ()) >>= fun _ => v.rawSet i x) := by
    unfold Vec.atSet; split <;> rfl
  rw [e1, e2]
  exact ⟨check_noThrow cfg _ _ hb (vraw_noThrow v _ x).1, check_noThrow cfg _ _ hb (vraw_noThrow v _ x).2⟩

/-! ## Agreement with the models of the other files -/

private theorem agree_of_eq {g : Run σ Unit} {f f' : σ → Res σ} (h : Spec.Agree g f) (e : ∀ s, f' s = f s) : Spec.Agree g f' := by
  rwa [show f' = f from funext e]

/-- C95. The models with the state after a failure agree with the models used everywhere else: same outcome, same new value on success. (Blocks: when
no `size_t` sum wraps around.) -/
theorem C95_agree (cfg : Cfg) (m : Mat M N α) (i r c : Nat) (x : α) (col : Vec M α) (row : Vec N α) (sub : Mat O P α) (data : List α)
    (W ro co : Nat) (hr : ro + O < W) (hc : co + P < W) :
    Spec.Agree (Vec.atSetR cfg i x) (fun v : Vec M α => v.atSet cfg i x) ∧
    Spec.Agree (Mat.atSetR cfg r c x) (fun m : Mat M N α => m.atSet cfg r c x) ∧
    Spec.Agree (Mat.bracketSetR cfg r c x) (fun m : Mat M N α => m.bracketSet cfg r c x) ∧
    Spec.Agree (m.getColumnR cfg i) (m.getColumn cfg i) ∧
    Spec.Agree (Mat.setColumnR cfg i col) (fun m : Mat M N α => m.setColumn cfg i col) ∧
    Spec.Agree (m.getRowR cfg i) (m.getRow cfg i) ∧
    Spec.Agree (Mat.setRowR cfg i row) (fun m : Mat M N α => m.setRow cfg i row) ∧
    Spec.Agree (m.getSubMatrixR W cfg ro co) (fun res : Mat O P α => m.getSubMatrix cfg res ro co) ∧
    Spec.Agree (Mat.setSubMatrixR W cfg sub ro co) (fun m : Mat M N α => m.setSubMatrix cfg sub ro co) ∧
    Spec.Agree (Mat.assignStdVectorR cfg data) (fun m : Mat M N α => m.assignStdVector cfg data) := by
  refine ⟨agree_store _, agree_store _, agree_store _, ?_, ?_, ?_, ?_, ?_, ?_, ?_⟩
  · refine agree_of_eq (agree_check cfg _ (agree_loop fun i _ => agree_read fun a => agree_store _)) fun s => ?_
    unfold getColumn; split <;> rfl
  · refine agree_of_eq (agree_check cfg _ (agree_loop fun i _ => agree_read fun a => agree_store _)) fun s => ?_
    unfold setColumn; split <;> rfl
  · refine agree_of_eq (agree_check cfg _ (agree_loop fun i _ => agree_read fun a => agree_store _)) fun s => ?_
    unfold getRow; split <;> rfl
  · refine agree_of_eq (agree_check cfg _ (agree_loop fun i _ => agree_read fun a => agree_store _)) fun s => ?_
    unfold setRow; split <;> rfl
  · refine agree_of_eq (agree_check cfg _ (agree_loop fun i _ => agree_loop fun j _ => agree_read fun a => agree_store _)) fun s => ?_
    rw [Nat.mod_eq_of_lt (show O + ro < W by omega), Nat.mod_eq_of_lt (show P + co < W by omega)]
    have e : ∀ res : Mat O P α, loop O (fun r res => loop P (fun c res => do res.atSet cfg r c (← m.atGet cfg (ro + r) (co + c))) res) res =
        loop O (fun r res => loop P (fun c res => do res.atSet cfg r c (← m.atGet cfg ((ro + r) % W) ((co + c) % W))) res) res := by
      intro res
      refine loop_congr fun i hi s => loop_congr fun j hj s => ?_
      rw [Nat.mod_eq_of_lt (show ro + i < W by omega), Nat.mod_eq_of_lt (show co + j < W by omega)]
    unfold getSubMatrix
    rw [e]
    split <;> rfl
  · refine agree_of_eq (agree_loop fun i _ => agree_loop fun j _ => agree_read fun a => agree_store _) fun s => ?_
    refine loop_congr fun i hi s => loop_congr fun j hj s => ?_
    rw [Nat.mod_eq_of_lt (show ro + i < W by omega), Nat.mod_eq_of_lt (show co + j < W by omega)]
  · refine agree_of_eq (agree_check cfg _ (agree_store _)) fun s => ?_
    unfold assignStdVector
    by_cases h : data.length < M * N <;> simp [h]

/-- C95. The same for the division of a quaternion. -/
theorem C95_agree_quaternion [Zero α] [One α] [Mul α] [Div α] [BEq α] (cfg : Cfg) (a : α) :
    Spec.Agree (Quat.divAssignSR cfg a) (fun q : Quat α => q.divAssignS cfg a) := by
  refine agree_of_eq (agree_check cfg _ (agree_store _)) fun s => ?_
  unfold Quat.divAssignS
  split <;> rfl

/-! ## The strong guarantee -/

/-- C95. Checked element stores, row and column setters and getters, assignment from a `std::vector` that is too short, division of a quaternion by zero:
if the call throws, the written object is unchanged, in every build configuration, for every index. -/
theorem C95_strong [Zero β] [One β] [Mul β] [Div β] [BEq β] (cfg : Cfg) (m : Mat M N α) (i r c : Nat) (x : α) (col : Vec M α) (row : Vec N α)
    (data : List α) (b : β) :
    Spec.Strong (Vec.atSetR cfg i x : Run (Vec M α) Unit) ∧ Spec.Strong (Mat.atSetR cfg r c x : Run (Mat M N α) Unit) ∧
    Spec.Strong (Mat.bracketSetR cfg r c x : Run (Mat M N α) Unit) ∧
    Spec.Strong (m.getColumnR cfg i) ∧ Spec.Strong (Mat.setColumnR cfg i col : Run (Mat M N α) Unit) ∧
    Spec.Strong (m.getRowR cfg i) ∧ Spec.Strong (Mat.setRowR cfg i row : Run (Mat M N α) Unit) ∧
    Spec.Strong (Mat.assignStdVectorR cfg data : Run (Mat M N α) Unit) ∧ Spec.Strong (Quat.divAssignSR cfg b) := by
  refine ⟨strong_store _, strong_store _, strong_store _, ?_, ?_, ?_, ?_, ?_, ?_⟩
  · refine strong_check cfg _ fun _ => noThrow_loop fun j hj => noThrow_bind (noThrow_read fun _ => ?_) fun a => noThrow_store fun v => ?_
    · exact (mraw_noThrow m _ x).1
    · exact (vraw_noThrow v _ a).2
  · refine strong_check cfg _ fun _ => noThrow_loop fun j hj => noThrow_bind (noThrow_read fun _ => ?_) fun a => noThrow_store fun m => ?_
    · exact (vraw_noThrow col _ x).1
    · exact (mraw_noThrow m _ a).2
  · refine strong_check cfg _ fun h => noThrow_loop fun j hj => noThrow_bind (noThrow_read fun _ => ?_) fun a => noThrow_store fun v => ?_
    · refine (mat_noThrow cfg m _ _ x fun ht hs => ⟨?_, hj⟩).1
      have := h ht
      simp [hs] at this
      exact this
    · exact (vec_noThrow cfg v _ a fun _ _ => hj).2
  · refine strong_check cfg _ fun h => noThrow_loop fun j hj => noThrow_bind (noThrow_read fun _ => ?_) fun a => noThrow_store fun m => ?_
    · exact (vec_noThrow cfg row _ x fun _ _ => hj).1
    · refine (mat_noThrow cfg m _ _ a fun ht hs => ⟨?_, hj⟩).2
      have := h ht
      simp [hs] at this
      exact this
  · refine strong_check cfg _ fun _ => noThrow_store fun m => ?_
    obtain ⟨m', h, -⟩ := C22_row_major cfg id m data
    rw [h]
    exact fun h => by cases h
  · exact strong_check cfg _ fun _ => noThrow_store fun q he => by cases he

/-! ## Blocks -/

/-- An iteration after a failed one is not executed. -/
private theorem loop_error {n : Nat} {g : Nat → Run σ Unit} {s s' : σ} {e : Fault} (k : Nat) (hk : k ≤ n) (h : Run.loop k g s = (.error e, s')) :
    Run.loop n g s = (.error e, s') := by
  induction n with
  | zero => rwa [Nat.le_zero.1 hk] at h
  | succ n ih =>
    rcases Nat.lt_or_ge n k with h' | h'
    · rwa [show n + 1 = k by omega]
    · rw [Run.loop_succ]; exact Run.bind_error (ih h')

/-- The state in which the store loops of one row of the block leave the matrix after `k` columns. -/
private def rowDone (m : Mat M N α) (sub : Mat O P α) (R r co k : Nat) (hr : r < O) : Mat M N α :=
  ofFn fun i j => if h : i.1 = R ∧ co ≤ j.1 ∧ j.1 < co + k ∧ j.1 - co < P then sub.get ⟨r, hr⟩ ⟨j.1 - co, h.2.2.2⟩ else m.get i j

private theorem rowDone_zero (m : Mat M N α) (sub : Mat O P α) (R r co : Nat) (hr : r < O) : rowDone m sub R r co 0 hr = m := by
  ext i j
  rw [rowDone, get_ofFn, dif_neg (by omega)]

private theorem row_ok (cfg : Cfg) (W : Nat) (sub : Mat O P α) (co R r k : Nat) (hr : r < O) (hR : R < M) (hk : k ≤ P) (hN : co + k ≤ N) (hW : N ≤ W)
    (m : Mat M N α) :
    Run.loop k (fun c => do
      let x ← Run.read fun _ => sub.atGet cfg r c
      Run.store fun m => m.atSet cfg R ((co + c) % W) x) m = (.ok (), rowDone m sub R r co k hr) := by
  induction k with
  | zero => rw [rowDone_zero]; rfl
  | succ k ih =>
    rw [Run.loop_succ, Run.bind_ok (ih (by omega) (by omega)), bind_apply]
    simp only [Run.read, atGet_lt cfg sub hr (show k < P by omega), Run.store, Nat.mod_eq_of_lt (show co + k < W by omega),
      atSet_lt cfg _ _ hR (show co + k < N by omega)]
    congr 1
    ext i j
    rw [get_put, rowDone, rowDone, get_ofFn, get_ofFn]
    by_cases h : (⟨R, hR⟩ : Fin M) = i ∧ (⟨co + k, by omega⟩ : Fin N) = j
    · obtain ⟨rfl, rfl⟩ := h
      rw [if_pos ⟨rfl, rfl⟩, dif_pos ⟨rfl, by simp, by simp, by simp; omega⟩]
      congr 1
      simp
    · rw [if_neg h]
      have h' : ¬ (i.1 = R ∧ j.1 = co + k) := fun h'' => h ⟨Fin.ext h''.1.symm, Fin.ext h''.2.symm⟩
      by_cases h2 : i.1 = R ∧ co ≤ j.1 ∧ j.1 < co + k ∧ j.1 - co < P
      · rw [dif_pos h2, dif_pos ⟨h2.1, h2.2.1, by omega, h2.2.2.2⟩]
      · rw [dif_neg h2, dif_neg (by omega)]

private theorem store_bad (cfg : Cfg) (hs : cfg.safe = true) (ht : cfg.throws = true) (sub : Mat O P α) (R C r c : Nat) (hr : r < O) (hc : c < P)
    (hbad : M ≤ R ∨ N ≤ C) (m : Mat M N α) :
    (do
      let x ← Run.read fun _ => sub.atGet cfg r c
      Run.store fun m => m.atSet cfg R C x : Run (Mat M N α) Unit) m = (.error .thrown, m) := by
  rw [bind_apply]
  have : ∀ x, m.atSet cfg R C x = .error .thrown := by
    intro x
    simp [atSet, hs, ht, vmmlibError, hbad]
  simp only [Run.read, atGet_lt cfg sub hr hc, Run.store, this]

private theorem row_error (cfg : Cfg) (hs : cfg.safe = true) (ht : cfg.throws = true) (W : Nat) (sub : Mat O P α) (co R r : Nat) (hr : r < O)
    (hP : 0 < P) (hbad : M ≤ R ∨ N < co + P) (hW : N + P ≤ W) (hco : co < W) (m : Mat M N α) :
    Run.loop P (fun c => do
      let x ← Run.read fun _ => sub.atGet cfg r c
      Run.store fun m => m.atSet cfg R ((co + c) % W) x) m = (.error .thrown, rowDone m sub R r co (N - co) hr) := by
  by_cases hR : R < M
  · have hN : N < co + P := by omega
    by_cases hc : co ≤ N
    · refine loop_error (N - co + 1) (by omega) ?_
      rw [Run.loop_succ, Run.bind_ok (row_ok cfg W sub co R r (N - co) hr hR (by omega) (by omega) (by omega) m)]
      exact store_bad cfg hs ht sub R _ r _ hr (by omega) (Or.inr (by rw [Nat.mod_eq_of_lt (by omega)]; omega)) _
    · rw [show N - co = 0 by omega, rowDone_zero]
      refine loop_error 1 (by omega) ?_
      rw [Run.loop_succ, Run.bind_ok (show Run.loop 0 _ m = (.ok (), m) from rfl)]
      exact store_bad cfg hs ht sub R _ r _ hr hP (Or.inr (by rw [Nat.add_zero, Nat.mod_eq_of_lt hco]; omega)) m
  · have : rowDone m sub R r co (N - co) hr = m := by
      ext i j
      rw [rowDone, get_ofFn, dif_neg (by have := i.2; omega)]
    rw [this]
    refine loop_error 1 (by omega) ?_
    rw [Run.loop_succ, Run.bind_ok (show Run.loop 0 _ m = (.ok (), m) from rfl)]
    exact store_bad cfg hs ht sub R _ r _ hr hP (Or.inl (by omega)) m

private theorem rows_ok (cfg : Cfg) (W : Nat) (sub : Mat O P α) (ro co k : Nat) (hk : k ≤ O) (hM : ro + k ≤ M) (hN : co + P ≤ N) (hW : M ≤ W) (hW' : N ≤ W)
    (m : Mat M N α) : ∃ m', Run.loop k (fun r => Run.loop P fun c => do
      let x ← Run.read fun _ => sub.atGet cfg r c
      Run.store fun m => m.atSet cfg ((ro + r) % W) ((co + c) % W) x) m = (.ok (), m') ∧
      ∀ i j, m'.get i j = if h : (ro ≤ i.1 ∧ i.1 < ro + k) ∧ i.1 - ro < O ∧ co ≤ j.1 ∧ j.1 - co < P then sub.get ⟨i.1 - ro, h.2.1⟩ ⟨j.1 - co, h.2.2.2⟩
        else m.get i j := by
  induction k with
  | zero => exact ⟨m, rfl, fun i j => by rw [dif_neg (by omega)]⟩
  | succ k ih =>
    obtain ⟨m', h1, h2⟩ := ih (by omega) (by omega)
    refine ⟨rowDone m' sub (ro + k) k co P (by omega), ?_, ?_⟩
    · rw [Run.loop_succ, Run.bind_ok h1, Nat.mod_eq_of_lt (show ro + k < W by omega)]
      exact row_ok cfg W sub co (ro + k) k P (by omega) (by omega) le_rfl hN hW' m'
    · intro i j
      rw [rowDone, get_ofFn, h2]
      by_cases h : i.1 = ro + k ∧ co ≤ j.1 ∧ j.1 < co + P ∧ j.1 - co < P
      · rw [dif_pos h, dif_pos ⟨by omega, by omega, by omega, by omega⟩]
        congr 1
        exact Fin.ext (show k = i.1 - ro by omega)
      · rw [dif_neg h]
        by_cases h3 : (ro ≤ i.1 ∧ i.1 < ro + k) ∧ i.1 - ro < O ∧ co ≤ j.1 ∧ j.1 - co < P
        · rw [dif_pos h3, dif_pos ⟨by omega, h3.2⟩]
        · rw [dif_neg h3, dif_neg (by omega)]

/-- C95. `set_sub_matrix` with a block that does not fit (checked accessors, exceptions): it throws, and before that it has written every row of the
block above the lower edge of the matrix if the columns fit, and the part of the first row left of the right edge if they do not. -/
theorem C95_set_sub_matrix_effect (cfg : Cfg) (hs : cfg.safe = true) (ht : cfg.throws = true) (W : Nat) (sub : Mat O P α) (ro co : Nat) (hO : 0 < O)
    (hP : 0 < P) (hbad : M < ro + O ∨ N < co + P) (hW : M + O ≤ W) (hW' : N + P ≤ W) (hro : ro < W) (hco : co < W) (m : Mat M N α) :
    ∃ m', Mat.setSubMatrixR W cfg sub ro co m = (.error .thrown, m') ∧ ∀ i j,
      m'.get i j = if h : (ro ≤ i.1 ∧ i.1 - ro < O) ∧ (co ≤ j.1 ∧ j.1 - co < P) ∧ (co + P ≤ N ∨ i.1 = ro) then
        sub.get ⟨i.1 - ro, h.1.2⟩ ⟨j.1 - co, h.2.1.2⟩ else m.get i j := by
  by_cases hN : co + P ≤ N
  · by_cases hM : ro ≤ M
    · obtain ⟨m', h1, h2⟩ := rows_ok cfg W sub ro co (M - ro) (by omega) (by omega) hN (by omega) (by omega) m
      refine ⟨m', ?_, ?_⟩
      · refine loop_error (M - ro + 1) (by omega) ?_
        rw [Run.loop_succ, Run.bind_ok h1, Nat.mod_eq_of_lt (show ro + (M - ro) < W by omega)]
        rw [row_error cfg hs ht W sub co _ (M - ro) (by omega) hP (Or.inl (by omega)) hW' hco m']
        congr 1
        ext i j
        rw [rowDone, get_ofFn, dif_neg (by have := i.2; omega)]
      · intro i j
        have hi := i.2
        rw [h2]
        by_cases h : (ro ≤ i.1 ∧ i.1 - ro < O) ∧ (co ≤ j.1 ∧ j.1 - co < P) ∧ (co + P ≤ N ∨ i.1 = ro)
        · rw [dif_pos h, dif_pos ⟨by omega, h.1.2, h.2.1⟩]
        · rw [dif_neg h, dif_neg (by omega)]
    · refine ⟨m, ?_, fun i j => by rw [dif_neg (by have := i.2; omega)]⟩
      refine loop_error 1 (by omega) ?_
      rw [Run.loop_succ, Run.bind_ok (show Run.loop 0 _ m = (.ok (), m) from rfl), Nat.add_zero, Nat.mod_eq_of_lt hro]
      rw [row_error cfg hs ht W sub co _ 0 hO hP (Or.inl (by omega)) hW' hco m]
      congr 1
      ext i j
      rw [rowDone, get_ofFn, dif_neg (by have := i.2; omega)]
  · refine ⟨rowDone m sub ro 0 co (N - co) hO, ?_, ?_⟩
    · refine loop_error 1 (by omega) ?_
      rw [Run.loop_succ, Run.bind_ok (show Run.loop 0 _ m = (.ok (), m) from rfl), Nat.add_zero, Nat.mod_eq_of_lt hro]
      exact row_error cfg hs ht W sub co ro 0 hO hP (Or.inr (by omega)) hW' hco m
    · intro i j
      have hj := j.2
      rw [rowDone, get_ofFn]
      by_cases h : i.1 = ro ∧ co ≤ j.1 ∧ j.1 < co + (N - co) ∧ j.1 - co < P
      · rw [dif_pos h, dif_pos ⟨by omega, by omega, Or.inr h.1⟩]
        congr 1
        exact Fin.ext (show 0 = i.1 - ro by omega)
      · rw [dif_neg h, dif_neg (by omega)]

/-- C95 fails for `set_sub_matrix`: for every block that overlaps the matrix but does not fit, there is a matrix that is changed by the call although
the call throws. -/
theorem C95_set_sub_matrix_violated (cfg : Cfg) (hs : cfg.safe = true) (ht : cfg.throws = true) (W : Nat) (ro co : Nat) (hO : 0 < O)
    (hP : 0 < P) (hbad : M < ro + O ∨ N < co + P) (hW : M + O ≤ W) (hW' : N + P ≤ W) (hro : ro < M) (hco : co < N) (a b : α) (hab : a ≠ b) :
    ¬ Spec.Strong (Mat.setSubMatrixR W cfg (ofFn fun _ _ => a : Mat O P α) ro co : Run (Mat M N α) Unit) := by
  intro h
  obtain ⟨m', h1, h2⟩ := C95_set_sub_matrix_effect cfg hs ht W (ofFn fun _ _ => a : Mat O P α) ro co hO hP hbad hW hW' (by omega) (by omega)
    (ofFn fun _ _ => b : Mat M N α)
  have e := h _ _ h1
  have h3 := h2 ⟨ro, hro⟩ ⟨co, hco⟩
  rw [dif_pos ⟨⟨le_rfl, by simpa using hO⟩, ⟨le_rfl, by simpa using hP⟩, Or.inr rfl⟩, e, get_ofFn, get_ofFn] at h3
  exact hab h3.symm

/-- C95. `get_sub_matrix` with any offsets, also those for which the sums in its check wrap around: if the block does not fit, the call throws and the
output matrix is unchanged; if it fits, it is read. -/
theorem C95_get_sub_matrix (cfg : Cfg) (hs : cfg.safe = true) (ht : cfg.throws = true) (W : Nat) (m : Mat M N α) (ro co : Nat) (hO : 0 < O)
    (hP : 0 < P) (hW : M + O ≤ W) (hW' : N + P ≤ W) (hro : ro < W) (hco : co < W) (res : Mat O P α) :
    (M < ro + O ∨ N < co + P → m.getSubMatrixR W cfg ro co res = (.error .thrown, res)) ∧
    ∀ (h : ro + O ≤ M) (h' : co + P ≤ N), m.getSubMatrixR W cfg ro co res =
      (.ok (), ofFn fun r c => m.get ⟨ro + r.1, by omega⟩ ⟨co + c.1, by omega⟩) := by
  constructor
  · intro hbad
    by_cases hc : M < (O + ro) % W ∨ N < (P + co) % W
    · refine Run.bind_error ?_
      have : (cfg.safe && (decide (M < (O + ro) % W) || decide (N < (P + co) % W))) = true := by simpa [hs] using hc
      simp only [Run.check, Run.read, this, if_true, vmmlibError, ht]
      rfl
    · push Not at hc
      have hfirst : M ≤ ro ∨ N ≤ co := by
        by_cases h1 : O + ro < W
        · rw [Nat.mod_eq_of_lt h1] at hc
          by_cases h2 : P + co < W
          · rw [Nat.mod_eq_of_lt h2] at hc; omega
          · right; omega
        · left; omega
      have : (cfg.safe && (decide (M < (O + ro) % W) || decide (N < (P + co) % W))) = false := by simpa [hs] using hc
      refine (Run.bind_ok (show Run.check cfg (cfg.safe && (decide (M < (O + ro) % W) || decide (N < (P + co) % W))) res = (.ok (), res) by simp only [Run.check, Run.read, this]; rfl)).trans ?_
      refine loop_error 1 (by omega) ?_
      rw [Run.loop_succ, Run.bind_ok (show Run.loop 0 _ res = (.ok (), res) from rfl)]
      refine loop_error 1 (by omega) ?_
      rw [Run.loop_succ, Run.bind_ok (show Run.loop 0 _ res = (.ok (), res) from rfl)]
      refine Run.bind_error ?_
      rw [Nat.add_zero, Nat.add_zero, Nat.mod_eq_of_lt hro, Nat.mod_eq_of_lt hco]
      simp [Run.read, atGet, hs, ht, vmmlibError, hfirst]
  · intro h h'
    have h1 := (C95_agree cfg m 0 0 0 (m.get ⟨0, by omega⟩ ⟨0, by omega⟩) (Vector.ofFn fun i => m.get i ⟨0, by omega⟩)
      (Vector.ofFn fun i => m.get ⟨0, by omega⟩ i) res [] W ro co (by omega) (by omega)).2.2.2.2.2.2.2.1 res
    simp only [getSubMatrix_eq cfg m res ro co (show O + ro ≤ M by omega) (show P + co ≤ N by omega)] at h1
    exact h1

/-! ## Instances -/

/-- A 2x2 block at offset (1, 0) of a 2x2 matrix: the call throws after the first row of the block has been written. -/
example : Mat.setSubMatrixR (2 ^ 64) ⟨true, true, false⟩ (⟨#v[5, 6, 7, 8]⟩ : Mat 2 2 Int) 1 0 (⟨#v[1, 2, 3, 4]⟩ : Mat 2 2 Int) =
    (.error .thrown, ⟨#v[1, 5, 3, 7]⟩) := by decide
example : ¬ Spec.Strong (Mat.setSubMatrixR (2 ^ 64) ⟨true, true, false⟩ (Mat.ofFn fun _ _ => (1 : Int) : Mat 2 2 Int) 1 0 : Run (Mat 2 2 Int) Unit) :=
  C95_set_sub_matrix_violated _ rfl rfl _ _ _ (by omega) (by omega) (by omega) (by omega) (by omega) (by omega) (by omega) 1 0 (by decide)
/-- `set_row( 2, .. )` of a 2x2 matrix throws and changes nothing. -/
example : Mat.setRowR ⟨true, true, false⟩ 2 #v[5, 6] (⟨#v[1, 2, 3, 4]⟩ : Mat 2 2 Int) = (.error .thrown, ⟨#v[1, 2, 3, 4]⟩) := by decide
/-- An offset for which the sum in the check of `get_sub_matrix` wraps around. -/
example : (⟨#v[1, 2, 3, 4]⟩ : Mat 2 2 Int).getSubMatrixR (2 ^ 64) ⟨true, true, false⟩ (2 ^ 64 - 1) 0 (⟨#v[5, 6, 7, 8]⟩ : Mat 2 2 Int) =
    (.error .thrown, ⟨#v[5, 6, 7, 8]⟩) :=
  (C95_get_sub_matrix _ rfl rfl _ _ _ _ (by omega) (by omega) (by omega) (by omega) (by omega) (by omega) _).1 (by omega)

end Vmml
