import Verif.Proofs.VectorLemmas

/-!
# C01, C02, C14: component access, write histories, sub-vectors
-/

namespace Vmml
open Vec
variable {M N : Nat} {α : Type}

/-- C01. In range, under every configuration: writing `x` to component `i` succeeds, and
reading component `j` afterwards gives `x` if `j = i` and the old component otherwise. -/
theorem C01_read_after_write (cfg : Cfg) (v : Vec M α) (i j : Nat) (x : α) (hi : i < M) (hj : j < M) :
    ∃ v', v.atSet cfg i x = .ok v' ∧ v'.atGet cfg j = .ok (if j = i then x else v[j]) := by
  refine ⟨v.set i x, by simp [hi], ?_⟩
  rw [atGet_lt cfg _ hj, Vector.getElem_set]
  by_cases h : i = j
  · subst h; simp
  · simp [h, Ne.symm h]

/-- C01. With checked accessors and exceptions, any index `≥ M` raises an exception, for reads and writes. -/
theorem C01_checked_throws (cfg : Cfg) (hs : cfg.safe = true) (ht : cfg.throws = true) (v : Vec M α)
    (i : Nat) (x : α) (hi : M ≤ i) :
    v.atGet cfg i = .error .thrown ∧ v.atSet cfg i x = .error .thrown := by
  simp [atGet, atSet, vmmlibError, hs, ht, hi]

/-- C01. With checked accessors but neither exceptions nor `NDEBUG` the process aborts. -/
theorem C01_checked_aborts (cfg : Cfg) (hs : cfg.safe = true) (ht : cfg.throws = false)
    (hn : cfg.ndebug = false) (v : Vec M α) (i : Nat) (x : α) (hi : M ≤ i) :
    v.atGet cfg i = .error .aborted ∧ v.atSet cfg i x = .error .aborted := by
  simp [atGet, atSet, vmmlibError, hs, ht, hn, hi]

/-- C01. Otherwise an index `≥ M` is an access outside the array. -/
theorem C01_unchecked_ub (cfg : Cfg) (h : cfg.safe = false ∨ (cfg.throws = false ∧ cfg.ndebug = true))
    (v : Vec M α) (i : Nat) (x : α) (hi : M ≤ i) :
    v.atGet cfg i = .error .ub ∧ v.atSet cfg i x = .error .ub := by
  rcases h with h | ⟨h1, h2⟩
  · simp [atGet, atSet, h, rawGet_ge, rawSet_ge, hi]
  · simp [atGet, atSet, vmmlibError, h1, h2, hi, rawGet_ge, rawSet_ge]

/-- C01. An access never faults in range: faults happen exactly for `i ≥ M`. -/
theorem C01_fault_iff (cfg : Cfg) (v : Vec M α) (i : Nat) :
    (∃ f, v.atGet cfg i = .error f) ↔ M ≤ i := by
  constructor
  · rintro ⟨f, hf⟩
    by_contra h
    rw [atGet_lt cfg v (by omega)] at hf
    cases hf
  · intro h
    by_cases hs : cfg.safe = true <;> by_cases ht : cfg.throws = true <;>
      by_cases hn : cfg.ndebug = true <;> simp_all [atGet, vmmlibError, rawGet_ge]

/-- C01. `x, y, z, w` (and `r, g, b, a`) are components 0..3 when they exist, for reading and
writing; on a shorter vector they are *unchecked* even with safe accessors. -/
theorem C01_named_components (v : Vec M α) (a : α) :
    ((0 < M → v.getX = v.rawGet 0 ∧ ∃ u, v.setX a = .ok u ∧ u.rawGet 0 = .ok a)) ∧
    (∀ h : 0 < M, v.getX = .ok v[0]) ∧ (∀ h : 1 < M, v.getY = .ok v[1]) ∧
    (∀ h : 2 < M, v.getZ = .ok v[2]) ∧ (∀ h : 3 < M, v.getW = .ok v[3]) ∧
    (∀ h : 0 < M, v.setX a = .ok (v.set 0 a)) ∧ (∀ h : 1 < M, v.setY a = .ok (v.set 1 a)) ∧
    (∀ h : 2 < M, v.setZ a = .ok (v.set 2 a)) ∧ (∀ h : 3 < M, v.setW a = .ok (v.set 3 a)) ∧
    (M ≤ 2 → v.getZ = .error .ub) ∧ (M ≤ 3 → v.getW = .error .ub) := by
  refine ⟨fun h => ⟨rfl, v.set 0 a, by simp [setX, h], by simp [h]⟩, ?_, ?_, ?_, ?_, ?_, ?_, ?_, ?_, ?_, ?_⟩
  all_goals intro h
  all_goals first
    | exact rawGet_ge v h
    | exact rawGet_lt v h
    | exact rawSet_lt v a h

/-- Non-vacuity: a write to component 1 of a 3-vector. -/
example : ∃ v', Vec.atSet ⟨true, true, false⟩ (#v[1, 2, 3] : Vec 3 ℤ) 1 7 = .ok v' ∧
    v'.atGet ⟨true, true, false⟩ 2 = .ok 3 :=
  C01_read_after_write ⟨true, true, false⟩ (#v[1, 2, 3] : Vec 3 ℤ) 1 2 7 (by omega) (by omega)

/-- Specification of a write history: a function updated by each write in turn. -/
def Spec.writes (f : Nat → α) (ws : List (Nat × α)) : Nat → α :=
  ws.foldl (fun f w => Function.update f w.1 w.2) f

/-- The same history executed on the vector through `at( i ) = x`. -/
def runWrites (cfg : Cfg) (v : Vec M α) (ws : List (Nat × α)) : Res (Vec M α) :=
  ws.foldlM (fun v w => v.atSet cfg w.1 w.2) v

/-- C02. Any in-range write history succeeds, under every configuration, and the vector then
reads as the function updated by the history. -/
theorem C02_history_refines_store (cfg : Cfg) (v : Vec M α) (ws : List (Nat × α))
    (hws : ∀ w ∈ ws, w.1 < M) (f : Nat → α) (hf : ∀ j (h : j < M), f j = v[j]) :
    ∃ v', runWrites cfg v ws = .ok v' ∧ ∀ j (h : j < M), v'.atGet cfg j = .ok (Spec.writes f ws j) := by
  induction ws generalizing v f with
  | nil => exact ⟨v, rfl, fun j h => by simp [Spec.writes, h, hf j h]⟩
  | cons w ws ih =>
    have hw : w.1 < M := hws w (by simp)
    obtain ⟨v', h1, h2⟩ := ih (v.set w.1 w.2) (fun w hw => hws w (by simp [hw]))
      (Function.update f w.1 w.2) (by
        intro j hj
        rw [Vector.getElem_set, Function.update_apply]
        by_cases h : w.1 = j
        · subst h; simp
        · simp [h, Ne.symm h, hf j hj])
    refine ⟨v', ?_, h2⟩
    unfold runWrites at h1 ⊢
    rw [List.foldlM_cons]
    simp [hw, h1]

/-- C02. Histories that agree, index by index, on the last value written give equal vectors. -/
theorem C02_last_write_determines (cfg : Cfg) (v : Vec M α) (ws ws' : List (Nat × α))
    (hws : ∀ w ∈ ws, w.1 < M) (hws' : ∀ w ∈ ws', w.1 < M)
    (hlast : ∀ j, j < M → (ws.reverse.find? (·.1 = j)).map (·.2) =
      (ws'.reverse.find? (·.1 = j)).map (·.2)) :
    runWrites cfg v ws = runWrites cfg v ws' := by
  have key : ∀ (ws : List (Nat × α)) (f : Nat → α) (j : Nat), Spec.writes f ws j =
      ((ws.reverse.find? (·.1 = j)).map (·.2)).getD (f j) := by
    intro ws
    induction ws with
    | nil => intro f j; rfl
    | cons w ws ih =>
      intro f j
      show Spec.writes (Function.update f w.1 w.2) ws j = _
      rw [ih, List.reverse_cons, List.find?_append]
      cases h : ws.reverse.find? (·.1 = j) with
      | some a => simp
      | none =>
        by_cases hj : w.1 = j
        · subst hj; simp
        · simp [hj, Ne.symm hj]
  rcases Nat.eq_zero_or_pos M with rfl | hM
  · have e : ∀ ws : List (Nat × α), (∀ w ∈ ws, w.1 < 0) → ws = [] := by
      intro ws h
      rcases ws with _ | ⟨w, ws⟩
      · rfl
      · exact absurd (h w (by simp)) (by omega)
    rw [e ws hws, e ws' hws']
  obtain ⟨f, hf⟩ : ∃ f : Nat → α, ∀ j (h : j < M), f j = v[j] :=
    ⟨fun j => if h : j < M then v[j] else v[0], fun j h => by simp [h]⟩
  obtain ⟨a, ha, ha'⟩ := C02_history_refines_store cfg v ws hws f hf
  obtain ⟨b, hb, hb'⟩ := C02_history_refines_store cfg v ws' hws' f hf
  rw [ha, hb]
  congr 1
  ext j hj
  have h1 := ha' j hj
  have h2 := hb' j hj
  rw [atGet_lt cfg _ hj] at h1 h2
  have e1 : a[j] = Spec.writes f ws j := by injection h1
  have e2 : b[j] = Spec.writes f ws' j := by injection h2
  rw [e1, e2, key, key, hlast j hj]

/-- C02. With checked accessors and exceptions a history throws exactly when it contains an
out-of-range write (it never corrupts memory). -/
theorem C02_throws_iff (cfg : Cfg) (hs : cfg.safe = true) (ht : cfg.throws = true) (v : Vec M α)
    (ws : List (Nat × α)) :
    (runWrites cfg v ws = .error .thrown ↔ ∃ w ∈ ws, M ≤ w.1) ∧
    (∀ f, runWrites cfg v ws = .error f → f = .thrown) := by
  induction ws generalizing v with
  | nil => simp [runWrites]
  | cons w ws ih =>
    by_cases hw : w.1 < M
    · have : runWrites cfg v (w :: ws) = runWrites cfg (v.set w.1 w.2) ws := by
        simp [runWrites, hw]
      rw [this]
      simpa [Nat.not_le.2 hw] using ih (v.set w.1 w.2)
    · have hw' : M ≤ w.1 := by omega
      have : runWrites cfg v (w :: ws) = .error .thrown := by
        simp [runWrites, (C01_checked_throws cfg hs ht v w.1 w.2 hw').2]
      rw [this]
      simp [hw']

example : ∃ v', runWrites ⟨true, true, false⟩ (#v[1, 2, 3] : Vec 3 ℤ) [(0, 5), (2, 6), (0, 9)] = .ok v' ∧
    Vec.atGet ⟨true, true, false⟩ v' 0 = .ok 9 := ⟨#v[9, 2, 6], by decide, by decide⟩

/-! ## C14 -/

/-- C14. `get_sub_vector< N >( offset )` with `offset + N ≤ M` reads components
`offset .. offset + N - 1`, whatever the configuration. -/
theorem C14_getSub (cfg : Cfg) (v : Vec M α) (d : Vec N α) (offset : Nat) (h : offset + N ≤ M) :
    ∃ r, v.getSub cfg N offset d = .ok r ∧ ∀ i (hi : i < N), r[i] = v[offset + i] := by
  refine ⟨Vector.ofFn fun i => v[offset + i.1], ?_, by simp⟩
  unfold getSub
  simp only [cassert, show decide (offset ≤ M - N) = true by simp; omega, Bool.true_or, if_true,
    pure_ok, bind_ok]
  apply loop_set
  intro i hi u _
  simp [hi, show offset + i < M by omega]

/-- C14. A block that does not fit (`offset > M - N`) aborts in a debug build and reads outside
the array in a release build (for `N > 0`). -/
theorem C14_getSub_out_of_range (cfg : Cfg) (v : Vec M α) (d : Vec N α) (offset : Nat)
    (hN : 0 < N) (hNM : N ≤ M) (h : M < offset + N) :
    v.getSub cfg N offset d = .error (if cfg.ndebug then .ub else .aborted) := by
  unfold getSub
  have h1 : decide (offset ≤ M - N) = false := by simp; omega
  cases hn : cfg.ndebug
  · simp [cassert, h1, hn]
  · simp only [cassert, h1, hn, Bool.or_true, if_true, pure_ok, bind_ok]
    -- find the first iteration that leaves the array
    have key : ∀ n, 0 < n → n ≤ N → M < offset + n →
        loop n (fun i r => do r.rawSet i (← v.rawGet (offset + i))) d = .error .ub := by
      intro n
      induction n with
      | zero => intro h0; omega
      | succ n ih =>
        intro _ hn1 h2
        rw [loop_succ]
        by_cases h3 : 0 < n ∧ M < offset + n
        · rw [ih h3.1 (by omega) h3.2]; rfl
        · have hr : ∃ r, loop n (fun i r => do r.rawSet i (← v.rawGet (offset + i))) d = .ok r := by
            obtain ⟨r, hr, -⟩ := loop_ok (n := n)
              (body := fun i r => do r.rawSet i (← v.rawGet (offset + i))) (s := d) (fun _ _ => True)
              trivial (fun i hi s _ => ⟨s.set i v[offset + i], by
                simp [show offset + i < M by omega, show i < N by omega], trivial⟩)
            exact ⟨r, hr⟩
          obtain ⟨r, hr⟩ := hr
          rw [hr]
          simp [rawGet_ge v (show M ≤ offset + n by omega)]
    exact key N hN le_rfl h

/-- C14. Writing through the reference returned by `get_sub_vector` writes exactly component `offset + i`
of the original vector. -/
theorem C14_subSet (cfg : Cfg) (v : Vec M α) (offset i : Nat) (x : α) (h : offset + N ≤ M) (hi : i < N) :
    ∃ v', v.subSet cfg N offset i x = .ok v' ∧
      ∀ j (hj : j < M), v'[j] = if j = offset + i then x else v[j] := by
  refine ⟨v.set (offset + i) x, ?_, ?_⟩
  · simp [subSet, cassert, show offset ≤ M - N by omega, Nat.not_le.2 hi, show offset + i < M by omega]
  · intro j hj
    rw [Vector.getElem_set]
    by_cases h : offset + i = j
    · simp [h]
    · simp [h, Ne.symm h]

/-- C14. `set( Vector< N > )` overwrites the first `min( M, N )` components and keeps the others. -/
theorem C14_setVec (v : Vec M α) (w : Vec N α) :
    ∃ r, v.setVec w = .ok r ∧ ∀ j (hj : j < M), r[j] = if h : j < N then w[j] else v[j] := by
  refine ⟨_, memcpy_eq v w (if N < M then N else M) (by split <;> omega) (by split <;> omega), ?_⟩
  intro j hj
  simp only [Vector.getElem_ofFn]
  by_cases h1 : N < M
  · simp [h1]
  · simp [h1, hj, show j < N by omega]

/-- C14. The constructor `Vector( vec, last )` and `set( vec, last )` append one component,
independently of the previous content of the storage. -/
theorem C14_append (cfg : Cfg) (mem : Vec (N + 1) α) (v : Vec N α) (a : α) :
    ∃ r, mem.appendCtor v a = .ok r ∧ mem.setAppend cfg v a = .ok r ∧
      (∀ i (hi : i < N), r[i] = v[i]) ∧ r[N] = a := by
  have h : loop N (fun i my => do my.rawSet i (← v.rawGet i)) mem = mem.memcpy v N := rfl
  refine ⟨(Vector.ofFn fun j : Fin (N + 1) => if h : j.1 < N then v[j.1] else mem[j]).set N a,
    ?_, ?_, ?_, ?_⟩
  · simp [appendCtor, h, memcpy_eq mem v N (by omega) le_rfl]
  · simp [setAppend, memcpy_eq mem v N (by omega) le_rfl]
  · intro i hi
    rw [Vector.getElem_set]
    simp [hi, show ¬ N = i by omega]
  · simp

/-- C14. Fill construction/assignment sets every component, whatever the storage held. -/
theorem C14_fill (cfg : Cfg) (mem : Vec M α) (a : α) :
    ∃ r, mem.fill a = .ok r ∧ mem.assignFiller cfg a = .ok r ∧ ∀ i (hi : i < M), r[i] = a :=
  ⟨_, fill_eq mem a, assignFiller_eq cfg mem a, by simp⟩

/-- C14. The component constructors initialise exactly 2, 3, 4 components: with the matching dimension the
result does not depend on the previous content of the storage ... -/
theorem C14_component_ctors (x y z w : α) :
    (∀ mem : Vec 2 α, mem.set2 x y = .ok #v[x, y]) ∧
    (∀ mem : Vec 3 α, mem.set3 x y z = .ok #v[x, y, z]) ∧
    (∀ mem : Vec 4 α, mem.set4 x y z w = .ok #v[x, y, z, w]) := by
  refine ⟨fun mem => ?_, fun mem => ?_, fun mem => ?_⟩
  · simp only [set2, rawSet, Nat.reduceLT, dite_true, pure_ok, bind_ok]
    congr 1
    apply vec2_ext <;> simp
  · simp only [set3, rawSet, Nat.reduceLT, dite_true, pure_ok, bind_ok]
    congr 1
    apply vec3_ext <;> simp
  · simp only [set4, rawSet, Nat.reduceLT, dite_true, pure_ok, bind_ok]
    congr 1
    apply vec4_ext <;> simp

/-- ... but a longer vector keeps indeterminate components (here: `Vector< 4, T >( x, y, z )` leaves `w` as
it was), and a shorter one is written outside its storage. -/
theorem C14_component_ctors_mismatch (x y z : α) :
    (∀ mem : Vec 4 α, ∃ r, mem.set3 x y z = .ok r ∧ r[3] = mem[3]) ∧
    (∀ mem : Vec 2 α, mem.set3 x y z = .error .ub) := by
  refine ⟨fun mem => ⟨((mem.set 0 x).set 1 y).set 2 z, by simp [set3], by simp⟩,
    fun mem => by simp [set3, rawSet]⟩

example : ∃ r, Vec.getSub ⟨true, true, false⟩ (#v[1, 2, 3, 4, 5] : Vec 5 ℤ) 2 3 #v[0, 0] = .ok r ∧
    ∀ i (hi : i < 2), r[i] = (#v[1, 2, 3, 4, 5] : Vec 5 ℤ)[3 + i] :=
  C14_getSub ⟨true, true, false⟩ (#v[1, 2, 3, 4, 5] : Vec 5 ℤ) #v[0, 0] 3 (by omega)

end Vmml
