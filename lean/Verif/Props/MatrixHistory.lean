import Verif.Props.Failure

/-!
# C152: any mixture of matrix writes, including calls that throw
-/

namespace Vmml
open Mat
variable {M N : Nat} {α : Type}

/-! ## Specification -/

/-- A call that writes a part of an `M` by `N` matrix. -/
inductive Spec.Write (M N : Nat) (α : Type) where
  /-- `m.at( r, c ) = x` -/
  | cell (r c : Nat) (x : α)
  /-- `m.set_row( r, v )` -/
  | row (r : Nat) (v : Vec N α)
  /-- `m.set_column( c, v )` -/
  | column (c : Nat) (v : Vec M α)
  /-- `m.set_sub_matrix( sub, ro, co )` -/
  | block (O P : Nat) (sub : Mat O P α) (ro co : Nat)
  /-- `m = data` for a `std::vector` -/
  | list (data : List α)
  /-- `m.fill( x )` -/
  | fill (x : α)

/-- The arguments do not fit the matrix. -/
def Spec.Write.Bad : Spec.Write M N α → Prop
  | cell r c _ => M ≤ r ∨ N ≤ c
  | row r _ => M ≤ r
  | column c _ => N ≤ c
  | block O P _ ro co => M < ro + O ∨ N < co + P
  | list data => data.length < M * N
  | fill _ => False

/-- What the call is to store in cell `( i, j )`, if anything. A block that fits is stored as a whole. Of a block that does not fit, the part inside the matrix is stored if the
columns fit, and otherwise its part in the first row only (C95); the other calls that do not fit store nothing. -/
def Spec.Write.stores (i : Fin M) (j : Fin N) : Spec.Write M N α → Option α
  | cell r c x => if r = i.1 ∧ c = j.1 then some x else none
  | row r v => if r = i.1 then some v[j] else none
  | column c v => if c = j.1 then some v[i] else none
  | block O P sub ro co =>
    if h : (ro ≤ i.1 ∧ i.1 - ro < O) ∧ (co ≤ j.1 ∧ j.1 - co < P) ∧ (co + P ≤ N ∨ i.1 = ro) then some (sub.get ⟨i.1 - ro, h.1.2⟩ ⟨j.1 - co, h.2.1.2⟩) else none
  | list data => if data.length < M * N then none else data[i.1 * N + j.1]?
  | fill x => some x

/-- The block is not empty and no `size_t` sum wraps around (`W` is the number of `size_t` values). -/
def Spec.Write.Sane (W : Nat) : Spec.Write M N α → Prop
  | block O P _ ro co => 0 < O ∧ 0 < P ∧ M + O ≤ W ∧ N + P ≤ W ∧ ro < W ∧ co < W
  | _ => True

/-- The last value stored in `( i, j )` by a history, or the initial one. -/
def Spec.lastStored (m : Mat M N α) (i : Fin M) (j : Fin N) (ws : List (Spec.Write M N α)) : α :=
  ((ws.filterMap (Spec.Write.stores i j)).getLast?).getD (m.get i j)

/-- The call of the model: its outcome, and the matrix after it, also if it throws. -/
def Spec.Write.run (W : Nat) (cfg : Cfg) : Spec.Write M N α → Run (Mat M N α) Unit
  | cell r c x => Mat.atSetR cfg r c x
  | row r v => Mat.setRowR cfg r v
  | column c v => Mat.setColumnR cfg c v
  | block _ _ sub ro co => Mat.setSubMatrixR W cfg sub ro co
  | list data => Mat.assignStdVectorR cfg data
  | fill x => Run.store fun m => m.fill cfg x

/-- A history: the caller catches every exception and goes on. The outcomes of the calls, in order, and the final matrix. -/
def Spec.history (W : Nat) (cfg : Cfg) (m : Mat M N α) : List (Spec.Write M N α) → List (Res Unit) × Mat M N α
  | [] => ([], m)
  | w :: ws =>
    let (o, m') := w.run W cfg m
    let (os, m'') := Spec.history W cfg m' ws
    (o :: os, m'')

/-! ## One call -/

private theorem run_store_ok {σ : Type} {f : σ → Res σ} {s s' : σ} (h : f s = .ok s') : Run.store f s = (.ok (), s') := by unfold Run.store; rw [h]

private theorem agree_ok {σ : Type} {g : Run σ Unit} {f f' : σ → Res σ} (h : Spec.Agree g f) (e : ∀ s, f' s = f s) {s s' : σ} (hf : f' s = .ok s') : g s = (.ok (), s') := by
  have := h s; rw [← e, hf] at this; exact this

private theorem vmmlibError_thrown {cfg : Cfg} (ht : cfg.throws = true) : vmmlibError cfg = .error .thrown := by unfold vmmlibError; rw [ht]; rfl

private theorem check_thrown {σ : Type} {cfg : Cfg} (ht : cfg.throws = true) {b : Bool} (hb : b = true) (g : Run σ Unit) (s : σ) :
    (Run.check cfg b >>= fun _ => g) s = (.error .thrown, s) := by
  apply Run.bind_error
  unfold Run.check Run.read
  rw [if_pos hb, vmmlibError_thrown ht]

/-- What one call does, in every configuration if the arguments fit and in a checked build that throws if they do not. -/
private theorem step (W : Nat) (cfg : Cfg) (w : Spec.Write M N α) (hw : w.Sane W) (m : Mat M N α) :
    (¬ w.Bad → ∃ m', w.run W cfg m = (.ok (), m') ∧ ∀ i j, m'.get i j = (w.stores i j).getD (m.get i j)) ∧
    (w.Bad → cfg.safe = true → cfg.throws = true → ∃ m', w.run W cfg m = (.error .thrown, m') ∧ ∀ i j, m'.get i j = (w.stores i j).getD (m.get i j)) := by
  cases w with
  | cell r c x =>
    refine ⟨fun h => ?_, fun h hs ht => ?_⟩
    · simp only [Spec.Write.Bad, not_or, not_le] at h
      refine ⟨m.put ⟨r, h.1⟩ ⟨c, h.2⟩ x, ?_, fun i j => ?_⟩
      · rw [Spec.Write.run, Mat.atSetR]
        exact run_store_ok (atSet_lt cfg m x h.1 h.2)
      · rw [get_put]
        simp only [Spec.Write.stores, Fin.ext_iff]
        split_ifs <;> rfl
    · refine ⟨m, ?_, fun i j => ?_⟩
      · rw [Spec.Write.run, Mat.atSetR]
        have e : (cfg.safe && (decide (M ≤ r) || decide (N ≤ c))) = true := by simpa [hs, Spec.Write.Bad] using h
        have e' : m.atSet cfg r c x = .error .thrown := by
          unfold Mat.atSet
          simp only [e, if_true, vmmlibError_thrown ht]
          rfl
        unfold Run.store
        simp only [e']
      · have hi := i.2
        have hj := j.2
        simp only [Spec.Write.Bad] at h
        simp only [Spec.Write.stores]
        rw [if_neg (by omega)]
        rfl
  | row r v =>
    refine ⟨fun h => ?_, fun h hs ht => ?_⟩
    · simp only [Spec.Write.Bad, not_le] at h
      refine ⟨ofFn fun i c => if i = (⟨r, h⟩ : Fin M) then v[c] else m.get i c, ?_, fun i j => ?_⟩
      · rw [Spec.Write.run, Mat.setRowR]
        refine agree_ok (Run.agree_check cfg _ (Run.agree_loop fun i _ => Run.agree_read fun a => Run.agree_store _)) (f' := fun m : Mat M N α => m.setRow cfg r v) (fun s => ?_)
          (Mat.setRow_eq cfg m ⟨r, h⟩ v)
        unfold setRow; split <;> rfl
      · rw [get_ofFn]
        simp only [Spec.Write.stores, Fin.ext_iff]
        by_cases e : i.1 = r
        · rw [if_pos e, if_pos e.symm]; rfl
        · rw [if_neg e, if_neg (Ne.symm e)]; rfl
    · refine ⟨m, ?_, fun i j => ?_⟩
      · rw [Spec.Write.run, Mat.setRowR]
        exact check_thrown ht (by simpa [hs, Spec.Write.Bad] using h) _ _
      · simp only [Spec.Write.Bad] at h
        simp only [Spec.Write.stores]
        rw [if_neg (by omega)]; rfl
  | column c v =>
    refine ⟨fun h => ?_, fun h hs ht => ?_⟩
    · simp only [Spec.Write.Bad, not_le] at h
      refine ⟨ofFn fun r i => if i = (⟨c, h⟩ : Fin N) then v[r] else m.get r i, ?_, fun i j => ?_⟩
      · rw [Spec.Write.run, Mat.setColumnR]
        refine agree_ok (Run.agree_check cfg _ (Run.agree_loop fun i _ => Run.agree_read fun a => Run.agree_store _)) (f' := fun m : Mat M N α => m.setColumn cfg c v) (fun s => ?_)
          (Mat.setColumn_eq cfg m ⟨c, h⟩ v)
        unfold setColumn; split <;> rfl
      · rw [get_ofFn]
        simp only [Spec.Write.stores, Fin.ext_iff]
        by_cases e : j.1 = c
        · rw [if_pos e, if_pos e.symm]; rfl
        · rw [if_neg e, if_neg (Ne.symm e)]; rfl
    · refine ⟨m, ?_, fun i j => ?_⟩
      · rw [Spec.Write.run, Mat.setColumnR]
        exact check_thrown ht (by simpa [hs, Spec.Write.Bad] using h) _ _
      · simp only [Spec.Write.Bad] at h
        simp only [Spec.Write.stores]
        rw [if_neg (by omega)]; rfl
  | block O P sub ro co =>
    obtain ⟨hO, hP, hW, hW', hro, hco⟩ := hw
    refine ⟨fun h => ?_, fun h hs ht => ?_⟩
    · simp only [Spec.Write.Bad, not_or, not_lt] at h
      refine ⟨ofFn fun r c => if h : (ro ≤ r.1 ∧ r.1 - ro < O) ∧ (co ≤ c.1 ∧ c.1 - co < P) then sub.get ⟨r.1 - ro, h.1.2⟩ ⟨c.1 - co, h.2.2⟩ else m.get r c, ?_, fun i j => ?_⟩
      · rw [Spec.Write.run, Mat.setSubMatrixR]
        refine agree_ok (Run.agree_loop fun i _ => Run.agree_loop fun j _ => Run.agree_read fun a => Run.agree_store _)
          (f' := fun m : Mat M N α => m.setSubMatrix cfg sub ro co) (fun s => ?_) (Mat.setSubMatrix_eq cfg m sub ro co (by omega) (by omega))
        unfold setSubMatrix
        refine loop_congr fun i hi s => loop_congr fun j hj s => ?_
        rw [Nat.mod_eq_of_lt (show ro + i < W by omega), Nat.mod_eq_of_lt (show co + j < W by omega)]
      · rw [get_ofFn]
        simp only [Spec.Write.stores]
        by_cases e : (ro ≤ i.1 ∧ i.1 - ro < O) ∧ (co ≤ j.1 ∧ j.1 - co < P)
        · rw [dif_pos e, dif_pos ⟨e.1, e.2, Or.inl h.2⟩]; rfl
        · rw [dif_neg e, dif_neg (fun h' => e ⟨h'.1, h'.2.1⟩)]; rfl
    · obtain ⟨m', h1, h2⟩ := C95_set_sub_matrix_effect cfg hs ht W sub ro co hO hP h hW hW' hro hco m
      refine ⟨m', h1, fun i j => ?_⟩
      rw [h2]
      simp only [Spec.Write.stores]
      split_ifs <;> rfl
  | list data =>
    refine ⟨fun h => ?_, fun h hs ht => ?_⟩
    · simp only [Spec.Write.Bad] at h
      obtain ⟨m', h1, h2⟩ := C22_row_major cfg id m data
      refine ⟨m', ?_, fun i j => ?_⟩
      · rw [Spec.Write.run, Mat.assignStdVectorR]
        refine agree_ok (Run.agree_check cfg _ (Run.agree_store _)) (f' := fun m : Mat M N α => m.assignStdVector cfg data) (fun s => ?_) ?_
        · unfold assignStdVector
          by_cases h : data.length < M * N <;> simp [h]
        · unfold assignStdVector
          simp [h, h1]
      · have := h2 i j
        rw [toMat_apply] at this
        rw [this]
        simp only [Spec.Write.stores]
        rw [if_neg h]
        simp
    · refine ⟨m, ?_, fun i j => ?_⟩
      · rw [Spec.Write.run, Mat.assignStdVectorR]
        exact check_thrown ht (by simpa [Spec.Write.Bad] using h) _ _
      · simp only [Spec.Write.Bad] at h
        simp only [Spec.Write.stores]
        rw [if_pos h]; rfl
  | fill x =>
    refine ⟨fun h => ⟨_, run_store_ok (Mat.fill_eq cfg m x), fun i j => ?_⟩, fun h => h.elim⟩
    rw [get_ofFn]; rfl

/-! ## Histories -/

private theorem last_cons {w : Spec.Write M N α} {ws : List (Spec.Write M N α)} {m m' : Mat M N α} {i : Fin M} {j : Fin N} (h : m'.get i j = (w.stores i j).getD (m.get i j)) :
    Spec.lastStored m' i j ws = Spec.lastStored m i j (w :: ws) := by
  unfold Spec.lastStored
  rw [h, List.filterMap_cons]
  cases e : w.stores i j with
  | none => rfl
  | some x =>
    cases hl : ws.filterMap (Spec.Write.stores i j) with
    | nil => rfl
    | cons a l => simp [List.getLast?_cons]

/-- **C152** A checked build that throws. After any history of writes with any arguments, in which every exception is caught: exactly the calls whose arguments do not fit have thrown, the
others have succeeded, and every cell holds the value last stored in it, or its initial value. -/
theorem C152_history (W : Nat) (cfg : Cfg) (hs : cfg.safe = true) (ht : cfg.throws = true) (ws : List (Spec.Write M N α)) (hw : ∀ w ∈ ws, w.Sane W) (m : Mat M N α) :
    List.Forall₂ (fun w o => (w.Bad → o = .error .thrown) ∧ (¬ w.Bad → o = .ok ())) ws (Spec.history W cfg m ws).1 ∧
    ∀ i j, (Spec.history W cfg m ws).2.get i j = Spec.lastStored m i j ws := by
  induction ws generalizing m with
  | nil => exact ⟨.nil, fun i j => rfl⟩
  | cons w ws ih =>
    obtain ⟨h1, h2⟩ := step W cfg w (hw w (by simp)) m
    have key : ∃ o m', w.run W cfg m = (o, m') ∧ ((w.Bad → o = .error .thrown) ∧ (¬ w.Bad → o = .ok ())) ∧ ∀ i j, m'.get i j = (w.stores i j).getD (m.get i j) := by
      by_cases hb : w.Bad
      · obtain ⟨m', e, h⟩ := h2 hb hs ht
        exact ⟨_, m', e, ⟨fun _ => rfl, fun h => absurd hb h⟩, h⟩
      · obtain ⟨m', e, h⟩ := h1 hb
        exact ⟨_, m', e, ⟨fun h => absurd h hb, fun _ => rfl⟩, h⟩
    obtain ⟨o, m', e, ho, hm⟩ := key
    obtain ⟨i1, i2⟩ := ih (fun w hw' => hw w (by simp [hw'])) m'
    have e' : Spec.history W cfg m (w :: ws) = (o :: (Spec.history W cfg m' ws).1, (Spec.history W cfg m' ws).2) := by
      rw [Spec.history, e]
    rw [e']
    exact ⟨.cons ho i1, fun i j => by rw [i2, last_cons (hm i j)]⟩

/-- **C152** In every build configuration, if all arguments fit: every call succeeds, and every cell holds the value last stored in it. In particular the final matrix does not depend on
the configuration. -/
theorem C152_valid (W : Nat) (cfg : Cfg) (ws : List (Spec.Write M N α)) (hw : ∀ w ∈ ws, w.Sane W) (hb : ∀ w ∈ ws, ¬ w.Bad) (m : Mat M N α) :
    (∀ o ∈ (Spec.history W cfg m ws).1, o = .ok ()) ∧ ∀ i j, (Spec.history W cfg m ws).2.get i j = Spec.lastStored m i j ws := by
  induction ws generalizing m with
  | nil => exact ⟨by simp [Spec.history], fun i j => rfl⟩
  | cons w ws ih =>
    obtain ⟨m', e, hm⟩ := (step W cfg w (hw w (by simp)) m).1 (hb w (by simp))
    obtain ⟨i1, i2⟩ := ih (fun w hw' => hw w (by simp [hw'])) (fun w hw' => hb w (by simp [hw'])) m'
    have e' : Spec.history W cfg m (w :: ws) = (.ok () :: (Spec.history W cfg m' ws).1, (Spec.history W cfg m' ws).2) := by
      rw [Spec.history, e]
    rw [e']
    exact ⟨by simpa using i1, fun i j => by rw [i2, last_cons (hm i j)]⟩

/-- **C152** Two writes that share no cell commute, anywhere in a history, whatever they throw. -/
theorem C152_commute (W : Nat) (cfg : Cfg) (hs : cfg.safe = true) (ht : cfg.throws = true) (us vs : List (Spec.Write M N α)) (a b : Spec.Write M N α)
    (hu : ∀ w ∈ us, w.Sane W) (hv : ∀ w ∈ vs, w.Sane W) (ha : a.Sane W) (hb : b.Sane W) (hab : ∀ i j, a.stores i j = none ∨ b.stores i j = none) (m : Mat M N α) :
    (Spec.history W cfg m (us ++ a :: b :: vs)).2 = (Spec.history W cfg m (us ++ b :: a :: vs)).2 := by
  have s1 : ∀ w ∈ us ++ a :: b :: vs, w.Sane W := by
    intro w hw
    simp only [List.mem_append, List.mem_cons] at hw
    rcases hw with h | rfl | rfl | h
    exacts [hu w h, ha, hb, hv w h]
  have s2 : ∀ w ∈ us ++ b :: a :: vs, w.Sane W := by
    intro w hw
    simp only [List.mem_append, List.mem_cons] at hw
    rcases hw with h | rfl | rfl | h
    exacts [hu w h, hb, ha, hv w h]
  ext i j
  rw [(C152_history W cfg hs ht _ s1 m).2, (C152_history W cfg hs ht _ s2 m).2]
  unfold Spec.lastStored
  simp only [List.filterMap_append, List.filterMap_cons]
  rcases hab i j with h | h <;> rw [h]

/-- **C152** A write all of whose cells are written again later, with nothing read in between, can be left out. -/
theorem C152_overwritten (W : Nat) (cfg : Cfg) (hs : cfg.safe = true) (ht : cfg.throws = true) (us vs : List (Spec.Write M N α)) (a : Spec.Write M N α)
    (hu : ∀ w ∈ us, w.Sane W) (hv : ∀ w ∈ vs, w.Sane W) (ha : a.Sane W) (hov : ∀ i j, a.stores i j ≠ none → ∃ w ∈ vs, w.stores i j ≠ none) (m : Mat M N α) :
    (Spec.history W cfg m (us ++ a :: vs)).2 = (Spec.history W cfg m (us ++ vs)).2 := by
  have s1 : ∀ w ∈ us ++ a :: vs, w.Sane W := by
    intro w hw
    simp only [List.mem_append, List.mem_cons] at hw
    rcases hw with h | rfl | h
    exacts [hu w h, ha, hv w h]
  have s2 : ∀ w ∈ us ++ vs, w.Sane W := by
    intro w hw
    rcases List.mem_append.1 hw with h | h
    exacts [hu w h, hv w h]
  ext i j
  rw [(C152_history W cfg hs ht _ s1 m).2, (C152_history W cfg hs ht _ s2 m).2]
  unfold Spec.lastStored
  simp only [List.filterMap_append, List.filterMap_cons]
  cases e : a.stores i j with
  | none => rfl
  | some x =>
    obtain ⟨w, hw, hne⟩ := hov i j (by rw [e]; simp)
    obtain ⟨y, hy⟩ := Option.ne_none_iff_exists'.1 hne
    have : vs.filterMap (Spec.Write.stores i j) ≠ [] := by
      intro h
      have : y ∈ vs.filterMap (Spec.Write.stores i j) := List.mem_filterMap.2 ⟨w, hw, hy⟩
      rw [h] at this
      simp at this
    obtain ⟨c, l, hl⟩ := List.exists_cons_of_ne_nil this
    rw [hl]
    simp [List.getLast?_append]

/-! ## A concrete case -/

/-- A history on a 2 x 3 matrix of `int`s with a block that does not fit and a row out of range. -/
example : let ws : List (Spec.Write 2 3 Int) := [.fill 7, .row 1 #v[1, 2, 3], .row 2 #v[9, 9, 9], .block 2 2 (ofFn fun r c => 10 * (r.1 : Int) + c.1) 1 1, .cell 0 0 5]
    (∀ w ∈ ws, w.Sane (2 ^ 64)) ∧ ∀ (cfg : Cfg) (m : Mat 2 3 Int), cfg.safe = true → cfg.throws = true →
      (Spec.history (2 ^ 64) cfg m ws).1 = [.ok (), .ok (), .error .thrown, .error .thrown, .ok ()] ∧
      (Spec.history (2 ^ 64) cfg m ws).2 = ofFn fun r c => if r = 0 then (if c = 0 then 5 else 7) else if c = 0 then 1 else (c.1 : Int) - 1 := by
  intro ws
  have hw : ∀ w ∈ ws, w.Sane (2 ^ 64) := by
    intro w hw
    simp only [ws, List.mem_cons, List.not_mem_nil, or_false] at hw
    rcases hw with rfl | rfl | rfl | rfl | rfl <;> simp [Spec.Write.Sane]
  refine ⟨hw, fun cfg m hs ht => ?_⟩
  obtain ⟨h1, h2⟩ := C152_history (2 ^ 64) cfg hs ht ws hw m
  constructor
  · generalize (Spec.history (2 ^ 64) cfg m ws).1 = os at h1
    simp only [ws] at h1
    cases h1 with | cons a1 h1 => cases h1 with | cons a2 h1 => cases h1 with | cons a3 h1 => cases h1 with | cons a4 h1 => cases h1 with | cons a5 h1 =>
      cases h1
      rw [a1.2 (by simp [Spec.Write.Bad]), a2.2 (by simp [Spec.Write.Bad]), a3.1 (by simp [Spec.Write.Bad]), a4.1 (by simp [Spec.Write.Bad]), a5.2 (by simp [Spec.Write.Bad])]
  · ext i j
    rw [h2, get_ofFn]
    fin_cases i <;> fin_cases j <;> simp [ws, Spec.lastStored, Spec.Write.stores]

end Vmml
