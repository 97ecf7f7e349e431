import Verif.Props.Threads
import Verif.Props.Aabb

/-!
# C156: threads that take a lock around every call

`C154_lost_update` shows that calls on a shared object must be synchronised by the user. Here every thread holds one lock during each of its calls, and threads may share and write whatever they like.
-/

namespace Vmml
variable {α β γ ι : Type} {M N P : Nat}

/-! ## Specification -/

/-- A thread: the calls it has not started, the call it is in (with what is left of it), and the results of the calls it has finished. -/
structure Spec.Worker (α : Type) where
  todo : List Spec.Op
  current : Option (Spec.Op × Call α (Spec.Out α))
  done : List (Res (Spec.Out α))
/-- The memory, the threads, and the thread that holds the lock. -/
structure Spec.Locked (ι α : Type) where
  heap : Mem α
  worker : ι → Spec.Worker α
  lock : Option ι

/-- The calls a thread has not finished. -/
def Spec.Worker.unfinished (w : Spec.Worker α) : List Spec.Op := (w.current.map Prod.fst).toList ++ w.todo

section
variable [DecidableEq ι] [Zero α] [Add α] [Mul α] [Neg α] [LE α] [DecidableLE α] [LT α] [DecidableLT α]

/-- Thread `i` is given the processor for one step: if nobody holds the lock it takes the lock and enters its next call; if it holds the lock itself it makes one access to memory, or returns from the call and releases
the lock; if another thread holds the lock it waits. -/
def Spec.Locked.step (cfg : Cfg) (c : Spec.Locked ι α) (i : ι) : Spec.Locked ι α :=
  match c.lock with
  | none =>
    match (c.worker i).todo with
    | [] => c
    | op :: ops => { c with lock := some i, worker := Function.update c.worker i ⟨ops, some (op, op.call cfg), (c.worker i).done⟩ }
  | some j =>
    if j = i then
      match (c.worker i).current with
      | some (_, .ret r) => { c with lock := none, worker := Function.update c.worker i ⟨(c.worker i).todo, none, (c.worker i).done ++ [r]⟩ }
      | some (op, p) => { c with heap := (p.next c.heap).2, worker := Function.update c.worker i ⟨(c.worker i).todo, some (op, (p.next c.heap).1), (c.worker i).done⟩ }
      | none => c
    else c
/-- Execution under a schedule. -/
def Spec.Locked.exec (cfg : Cfg) (c : Spec.Locked ι α) (σ : List ι) : Spec.Locked ι α := σ.foldl (Spec.Locked.step cfg) c
/-- At the beginning: thread `i` is about to make the calls `ts i`. -/
def Spec.Locked.start (h : Mem α) (ts : ι → List Spec.Op) : Spec.Locked ι α := ⟨h, fun i => ⟨ts i, none, []⟩, none⟩

/-- The calls of `order` made one after the other by a single thread: their results, and the memory afterwards. -/
def Spec.serial (cfg : Cfg) (order : List (ι × Spec.Op)) (h : Mem α) : List (ι × Res (Spec.Out α)) × Mem α :=
  order.foldl (fun s c => (s.1 ++ [(c.1, ((c.2.call cfg : Call α _).run s.2).1)], ((c.2.call cfg : Call α _).run s.2).2)) ([], h)
/-- What belongs to thread `i` in such a list. -/
def Spec.ofThread (i : ι) (l : List (ι × β)) : List β := (l.filter fun c => c.1 = i).map Prod.snd
/-- `order` makes the calls of every thread that are in `ts` but not in `left`, in the order of the thread. -/
def Spec.Merges (order : List (ι × Spec.Op)) (ts left : ι → List Spec.Op) : Prop := ∀ i, Spec.ofThread i order ++ left i = ts i

/-! ## Serial execution explains every schedule -/

omit [DecidableEq ι] in
private theorem serial_snoc (cfg : Cfg) (order : List (ι × Spec.Op)) (i : ι) (op : Spec.Op) (h : Mem α) :
    Spec.serial cfg (order ++ [(i, op)]) h =
      ((Spec.serial cfg order h).1 ++ [(i, ((op.call cfg : Call α _).run (Spec.serial cfg order h).2).1)], ((op.call cfg : Call α _).run (Spec.serial cfg order h).2).2) := by
  simp [Spec.serial]

private theorem of_snoc (i j : ι) (l : List (ι × β)) (b : β) : Spec.ofThread i (l ++ [(j, b)]) = Spec.ofThread i l ++ if j = i then [b] else [] := by
  unfold Spec.ofThread
  by_cases h : j = i <;> simp [h]

private structure Inv (cfg : Cfg) (h : Mem α) (ts : ι → List Spec.Op) (c : Spec.Locked ι α) (order : List (ι × Spec.Op)) : Prop where
  calls : Spec.Merges order ts fun i => (c.worker i).unfinished
  results : ∀ i, (c.worker i).done = Spec.ofThread i (Spec.serial cfg order h).1
  idle : ∀ i, c.lock ≠ some i → (c.worker i).current = none
  free : c.lock = none → c.heap = (Spec.serial cfg order h).2
  held : ∀ i, c.lock = some i → ∃ op p, (c.worker i).current = some (op, p) ∧ p.run c.heap = (op.call cfg : Call α _).run (Spec.serial cfg order h).2

omit [Zero α] [Add α] [Mul α] [Neg α] [LE α] [DecidableLE α] [LT α] [DecidableLT α] [DecidableEq ι] in
private theorem step_next (p : Prog α β) (h : Mem α) : (p.next h).1.run (p.next h).2 = p.run h := by cases p <;> rfl

private theorem inv_step (cfg : Cfg) (h : Mem α) (ts : ι → List Spec.Op) (c : Spec.Locked ι α) (order : List (ι × Spec.Op)) (hc : Inv cfg h ts c order) (i : ι) :
    ∃ order', Inv cfg h ts (c.step cfg i) order' := by
  obtain ⟨h1, h2, h3, h4, h5⟩ := hc
  unfold Spec.Locked.step
  cases hl : c.lock with
  | none =>
    cases ht : (c.worker i).todo with
    | nil => exact ⟨order, h1, h2, h3, h4, h5⟩
    | cons op ops =>
      have hcur : (c.worker i).current = none := h3 i (by rw [hl]; simp)
      refine ⟨order, fun j => ?_, fun j => ?_, fun j hj => ?_, fun hn => by simp at hn, fun j hj => ?_⟩
      · rw [← h1 j]
        by_cases hij : j = i
        · subst hij; simp [Spec.Worker.unfinished, hcur, ht]
        · simp [Function.update_of_ne hij]
      · rw [← h2 j]
        by_cases hij : j = i
        · subst hij; simp
        · simp [Function.update_of_ne hij]
      · have hij : j ≠ i := by rintro rfl; exact hj rfl
        simp only [Function.update_of_ne hij]
        exact h3 j (by rw [hl]; simp)
      · simp only [Option.some.injEq] at hj
        subst hj
        exact ⟨op, op.call cfg, by simp, by rw [h4 hl]⟩
  | some k =>
    by_cases hki : k = i
    · subst hki
      obtain ⟨op, p, e1, e2⟩ := h5 k hl
      have other : ∀ j, j ≠ k → (c.worker j).current = none := fun j hj => h3 j (by rw [hl]; simpa using Ne.symm hj)
      simp only [if_true, e1]
      have go : ∀ q : Call α (Spec.Out α), q = p → ∃ order', Inv cfg h ts (⟨(q.next c.heap).2, Function.update c.worker k ⟨(c.worker k).todo, some (op, (q.next c.heap).1), (c.worker k).done⟩, some k⟩ : Spec.Locked ι α) order' := by
        rintro q rfl
        refine ⟨order, fun j => ?_, fun j => ?_, fun j hj => ?_, fun hn => by simp at hn, fun j hj => ?_⟩
        · rw [← h1 j]
          by_cases hij : j = k
          · subst hij; simp [Spec.Worker.unfinished, e1]
          · simp [Function.update_of_ne hij]
        · rw [← h2 j]
          by_cases hij : j = k
          · subst hij; simp
          · simp [Function.update_of_ne hij]
        · have hij : j ≠ k := by rintro rfl; exact hj rfl
          simp only [Function.update_of_ne hij]
          exact other j hij
        · have : k = j := by simpa using hj
          subst this
          exact ⟨op, (q.next c.heap).1, by simp, by rw [step_next, e2]⟩
      cases p with
      | ret r =>
        refine ⟨order ++ [(k, op)], fun j => ?_, fun j => ?_, fun j _ => ?_, fun _ => ?_, fun j hj => by simp at hj⟩
        · rw [← h1 j, of_snoc]
          by_cases hij : j = k
          · subst hij; simp [Spec.Worker.unfinished, e1]
          · simp [Function.update_of_ne hij, Ne.symm hij]
        · rw [serial_snoc]
          simp only
          rw [of_snoc, ← h2 j, ← e2]
          by_cases hij : j = k
          · subst hij; simp [Prog.run]
          · simp [Function.update_of_ne hij, Ne.symm hij]
        · by_cases hij : j = k
          · subst hij; simp
          · simp only [Function.update_of_ne hij]; exact other j hij
        · rw [serial_snoc, ← e2]; rfl
      | read l f => exact go _ rfl
      | write l x f => exact go _ rfl
    · simp only [if_neg hki]
      exact ⟨order, h1, h2, h3, h4, h5⟩

private theorem inv_exec (cfg : Cfg) (h : Mem α) (ts : ι → List Spec.Op) (σ : List ι) : ∃ order, Inv cfg h ts ((Spec.Locked.start h ts).exec cfg σ) order := by
  induction σ using List.reverseRecOn with
  | nil => exact ⟨[], fun i => by simp [Spec.ofThread, Spec.Locked.start, Spec.Locked.exec, Spec.Worker.unfinished], fun i => rfl, fun i _ => rfl, fun _ => rfl, fun i hi => by simp [Spec.Locked.start, Spec.Locked.exec] at hi⟩
  | append_singleton σ i ih =>
    obtain ⟨order, ih⟩ := ih
    have e : (Spec.Locked.start h ts).exec cfg (σ ++ [i]) = ((Spec.Locked.start h ts).exec cfg σ).step cfg i := by simp [Spec.Locked.exec]
    rw [e]
    exact inv_step cfg h ts _ order ih i

/-- **C156** Calls under a lock are atomic. Whatever the threads share and write and however they are scheduled, whenever nobody holds the lock there is an order of the calls finished so far, which keeps the order of
every thread, such that all results returned and the contents of all objects are those of making the calls one after the other in that order. -/
theorem C156_atomic (cfg : Cfg) (h : Mem α) (ts : ι → List Spec.Op) (σ : List ι) (hl : ((Spec.Locked.start h ts).exec cfg σ).lock = none) :
    ∃ order, Spec.Merges order ts (fun i => (((Spec.Locked.start h ts).exec cfg σ).worker i).unfinished) ∧
      ((Spec.Locked.start h ts).exec cfg σ).heap = (Spec.serial cfg order h).2 ∧
      ∀ i, (((Spec.Locked.start h ts).exec cfg σ).worker i).done = Spec.ofThread i (Spec.serial cfg order h).1 := by
  obtain ⟨order, hc⟩ := inv_exec cfg h ts σ
  exact ⟨order, hc.calls, hc.free hl, hc.results⟩

/-- **C156** Mutual exclusion: only the thread that holds the lock is in a call. -/
theorem C156_exclusive (cfg : Cfg) (h : Mem α) (ts : ι → List Spec.Op) (σ : List ι) (i : ι) :
    (((Spec.Locked.start h ts).exec cfg σ).worker i).current ≠ none ↔ ((Spec.Locked.start h ts).exec cfg σ).lock = some i := by
  obtain ⟨order, hc⟩ := inv_exec cfg h ts σ
  constructor
  · intro hne
    by_contra hl
    exact hne (hc.idle i hl)
  · intro hl
    obtain ⟨op, p, e, -⟩ := hc.held i hl
    rw [e]; simp

/-! ## Nobody waits forever -/

private theorem drain (cfg : Cfg) (i : ι) (op : Spec.Op) : ∀ (p : Call α (Spec.Out α)) (c : Spec.Locked ι α), c.lock = some i → (c.worker i).current = some (op, p) →
    ∃ n, (c.exec cfg (List.replicate n i)).lock = none ∧ (∀ j, j ≠ i → (c.exec cfg (List.replicate n i)).worker j = c.worker j) ∧ ((c.exec cfg (List.replicate n i)).worker i).todo = (c.worker i).todo := by
  intro p
  induction p with
  | ret r =>
    intro c hl hc
    refine ⟨1, ?_, fun j hj => ?_, ?_⟩ <;> simp [Spec.Locked.exec, Spec.Locked.step, hl, hc]
    exact Function.update_of_ne hj _ _
  | read l k ih =>
    intro c hl hc
    obtain ⟨n, h1, h2, h3⟩ := ih (c.heap l) (c.step cfg i) (by simp [Spec.Locked.step, hl, hc]) (by simp [Spec.Locked.step, hl, hc, Prog.next])
    refine ⟨n + 1, ?_, fun j hj => ?_, ?_⟩
    · exact h1
    · rw [show c.exec cfg (List.replicate (n + 1) i) = (c.step cfg i).exec cfg (List.replicate n i) from rfl, h2 j hj]
      simp [Spec.Locked.step, hl, hc, Function.update_of_ne hj]
    · rw [show c.exec cfg (List.replicate (n + 1) i) = (c.step cfg i).exec cfg (List.replicate n i) from rfl, h3]
      simp [Spec.Locked.step, hl, hc]
  | write l x k ih =>
    intro c hl hc
    obtain ⟨n, h1, h2, h3⟩ := ih (c.step cfg i) (by simp [Spec.Locked.step, hl, hc]) (by simp [Spec.Locked.step, hl, hc, Prog.next])
    refine ⟨n + 1, ?_, fun j hj => ?_, ?_⟩
    · exact h1
    · rw [show c.exec cfg (List.replicate (n + 1) i) = (c.step cfg i).exec cfg (List.replicate n i) from rfl, h2 j hj]
      simp [Spec.Locked.step, hl, hc, Function.update_of_ne hj]
    · rw [show c.exec cfg (List.replicate (n + 1) i) = (c.step cfg i).exec cfg (List.replicate n i) from rfl, h3]
      simp [Spec.Locked.step, hl, hc]

omit [Mul α] in
private theorem exec_append [Mul α] (cfg : Cfg) (c : Spec.Locked ι α) (σ τ : List ι) : c.exec cfg (σ ++ τ) = (c.exec cfg σ).exec cfg τ := by simp [Spec.Locked.exec]

private theorem run_one (cfg : Cfg) (i : ι) : ∀ (n : Nat) (c : Spec.Locked ι α), c.lock = none → (c.worker i).todo.length = n →
    ∃ τ, (c.exec cfg τ).lock = none ∧ ((c.exec cfg τ).worker i).todo = [] ∧ ∀ j, j ≠ i → (c.exec cfg τ).worker j = c.worker j := by
  intro n
  induction n with
  | zero =>
    intro c hl hn
    exact ⟨[], hl, List.length_eq_zero_iff.1 hn, fun _ _ => rfl⟩
  | succ n ih =>
    intro c hl hn
    cases ht : (c.worker i).todo with
    | nil => rw [ht] at hn; simp at hn
    | cons op ops =>
      have e : c.step cfg i = { c with lock := some i, worker := Function.update c.worker i ⟨ops, some (op, op.call cfg), (c.worker i).done⟩ } := by
        simp [Spec.Locked.step, hl, ht]
      obtain ⟨m, d1, d2, d3⟩ := drain cfg i op (op.call cfg) (c.step cfg i) (by rw [e]) (by rw [e]; simp)
      obtain ⟨τ, t1, t2, t3⟩ := ih ((c.step cfg i).exec cfg (List.replicate m i)) d1 (by rw [d3, e]; simp; rw [ht] at hn; simpa using hn)
      have ee : c.exec cfg (i :: (List.replicate m i ++ τ)) = ((c.step cfg i).exec cfg (List.replicate m i)).exec cfg τ := by
        rw [← exec_append]; rfl
      refine ⟨i :: (List.replicate m i ++ τ), by rw [ee]; exact t1, by rw [ee]; exact t2, fun j hj => ?_⟩
      rw [ee, t3 j hj, d2 j hj, e]
      simp [Function.update_of_ne hj]

private theorem run_all (cfg : Cfg) : ∀ (l : List ι) (c : Spec.Locked ι α), c.lock = none →
    ∃ τ, (c.exec cfg τ).lock = none ∧ (∀ i ∈ l, ((c.exec cfg τ).worker i).todo = []) ∧ ∀ i, i ∉ l → (c.exec cfg τ).worker i = c.worker i := by
  intro l
  induction l with
  | nil => intro c hl; exact ⟨[], hl, by simp, fun _ _ => rfl⟩
  | cons i l ih =>
    intro c hl
    obtain ⟨τ, t1, t2, t3⟩ := run_one cfg i _ c hl rfl
    obtain ⟨τ', s1, s2, s3⟩ := ih _ t1
    refine ⟨τ ++ τ', by rw [exec_append]; exact s1, fun j hj => ?_, fun j hj => ?_⟩
    · rw [exec_append]
      by_cases hjl : j ∈ l
      · exact s2 j hjl
      · rw [s3 j hjl]
        rcases List.mem_cons.1 hj with rfl | h
        · exact t2
        · exact absurd h hjl
    · rw [exec_append, s3 j (fun h => hj (List.mem_cons_of_mem _ h)), t3 j (fun h => hj (by rw [h]; exact List.mem_cons_self))]

/-- **C156** There is no deadlock: whatever has happened so far, finitely many threads can be scheduled so that all of them finish. -/
theorem C156_finish [Fintype ι] (cfg : Cfg) (h : Mem α) (ts : ι → List Spec.Op) (σ : List ι) :
    ∃ τ, ∀ i, (((Spec.Locked.start h ts).exec cfg (σ ++ τ)).worker i).unfinished = [] := by
  obtain ⟨c, hc⟩ : ∃ c, c = (Spec.Locked.start h ts).exec cfg σ := ⟨_, rfl⟩
  have hfree : ∃ τ, (c.exec cfg τ).lock = none := by
    cases hl : c.lock with
    | none => exact ⟨[], hl⟩
    | some i =>
      obtain ⟨order, inv⟩ := inv_exec cfg h ts σ
      rw [← hc] at inv
      obtain ⟨op, p, e, -⟩ := inv.held i hl
      obtain ⟨n, d, -⟩ := drain cfg i op p c hl e
      exact ⟨_, d⟩
  obtain ⟨τ, hτ⟩ := hfree
  obtain ⟨τ', t1, t2, -⟩ := run_all cfg (Finset.univ : Finset ι).toList (c.exec cfg τ) hτ
  refine ⟨τ ++ τ', fun i => ?_⟩
  have e : (Spec.Locked.start h ts).exec cfg (σ ++ (τ ++ τ')) = (c.exec cfg τ).exec cfg τ' := by rw [exec_append, exec_append, ← hc]
  have hcur := mt (C156_exclusive cfg h ts (σ ++ (τ ++ τ')) i).1 (by rw [e, t1]; simp)
  rw [not_not, e] at hcur
  rw [e]
  unfold Spec.Worker.unfinished
  rw [hcur, t2 i (by simp)]
  rfl

/-- **C156** When all threads have finished, there is an order of all their calls, which keeps the order of every thread, that explains all results and the memory. -/
theorem C156_finished (cfg : Cfg) (h : Mem α) (ts : ι → List Spec.Op) (σ : List ι) (hf : ∀ i, (((Spec.Locked.start h ts).exec cfg σ).worker i).unfinished = []) :
    ∃ order, (∀ i, Spec.ofThread i order = ts i) ∧ ((Spec.Locked.start h ts).exec cfg σ).heap = (Spec.serial cfg order h).2 ∧
      ∀ i, (((Spec.Locked.start h ts).exec cfg σ).worker i).done = Spec.ofThread i (Spec.serial cfg order h).1 := by
  have hl : ((Spec.Locked.start h ts).exec cfg σ).lock = none := by
    cases e : ((Spec.Locked.start h ts).exec cfg σ).lock with
    | none => rfl
    | some i =>
      have := (C156_exclusive cfg h ts σ i).2 e
      have h2 := hf i
      unfold Spec.Worker.unfinished at h2
      cases e2 : (((Spec.Locked.start h ts).exec cfg σ).worker i).current with
      | none => exact absurd e2 this
      | some x => rw [e2] at h2; simp at h2
  obtain ⟨order, h1, h2, h3⟩ := C156_atomic cfg h ts σ hl
  refine ⟨order, fun i => ?_, h2, h3⟩
  have := h1 i
  simp only [hf i, List.append_nil] at this
  exact this
end

/-! ## Shared objects -/

private theorem mem_order [DecidableEq ι] {order : List (ι × β)} {c : ι × β} (hc : c ∈ order) : c.2 ∈ Spec.ofThread c.1 order := by
  unfold Spec.ofThread
  rw [List.mem_map]
  exact ⟨c, List.mem_filter.2 ⟨hc, by simp⟩, rfl⟩

private theorem of_mem [DecidableEq ι] {order : List (ι × β)} {i : ι} {b : β} (hb : b ∈ Spec.ofThread i order) : (i, b) ∈ order := by
  unfold Spec.ofThread at hb
  rw [List.mem_map] at hb
  obtain ⟨c, h1, h2⟩ := hb
  obtain ⟨h3, h4⟩ := List.mem_filter.1 h1
  have : c.1 = i := by simpa using h4
  rw [← this, ← h2]; exact h3

private theorem store_store (h : Mem α) (o : Nat) (v w : Vec M α) : Spec.store (Spec.store h o v) o w = Spec.store h o w := by
  funext l
  unfold Spec.store
  split_ifs <;> rfl

section shared
variable [CommRing α] [LinearOrder α]

/-- The call that merges the object `p` into the box `o`: `merge( point )` if it is a point, `merge( aabb )` if it is a box. -/
def Spec.mergeCall (o p : Nat) : Spec.Merge α → Spec.Op
  | .point _ => .mergePoint o p
  | .box _ => .mergeBox o p
/-- The object `p` contains the point or the box. -/
def Spec.HoldsThing (h : Mem α) (p : Nat) : Spec.Merge α → Prop
  | .point q => Spec.Holds h p q
  | .box a => Spec.Holds h p (Spec.corners a)

omit [CommRing α] [LinearOrder α] in
private theorem mergeCall_inj {o p p' : Nat} {m m' : Spec.Merge α} (e : Spec.mergeCall o p m = Spec.mergeCall o p' m') : p = p' := by
  cases m <;> cases m' <;> simp only [Spec.mergeCall, Spec.Op.mergePoint.injEq, Spec.Op.mergeBox.injEq, reduceCtorEq] at e <;> exact e.2

private theorem serial_merge (cfg : Cfg) (o : Nat) (q : Nat → Spec.Merge α) (order : List (ι × Spec.Op)) (h : Mem α) (b : Box α) (hb : Spec.Holds h o (Spec.corners b))
    (ho : ∀ c ∈ order, ∃ p, c.2 = Spec.mergeCall o p (q p) ∧ p ≠ o ∧ Spec.HoldsThing h p (q p)) :
    ∃ l : List (Spec.Merge α), (∀ v, v ∈ l ↔ ∃ c ∈ order, ∃ p, c.2 = Spec.mergeCall o p (q p) ∧ v = q p) ∧ (Spec.serial cfg order h).2 = Spec.store h o (Spec.corners (l.foldl Spec.Merge.apply b)) := by
  induction order using List.reverseRecOn with
  | nil => exact ⟨[], by simp, holds_store hb⟩
  | append_singleton order c ih =>
    obtain ⟨l, l1, l2⟩ := ih fun c hc => ho c (by simp [hc])
    obtain ⟨p, e1, e2, e3⟩ := ho c (by simp)
    refine ⟨l ++ [q p], fun v => ?_, ?_⟩
    · rw [List.mem_append, l1 v, List.mem_singleton]
      constructor
      · rintro (⟨c', h1, h2⟩ | rfl)
        · exact ⟨c', by simp [h1], h2⟩
        · exact ⟨c, by simp, p, e1, rfl⟩
      · rintro ⟨c', h1, p', h2, h3⟩
        rcases List.mem_append.1 h1 with h1 | h1
        · exact .inl ⟨c', h1, p', h2, h3⟩
        · rw [List.mem_singleton.1 h1, e1] at h2
          exact .inr (by rw [h3, mergeCall_inj h2])
    · obtain ⟨i, op⟩ := c
      simp only at e1
      subst e1
      rw [serial_snoc, l2]
      have hrun : ((Spec.mergeCall o p (q p)).call cfg : Call α _).run (Spec.store h o (Spec.corners (l.foldl Spec.Merge.apply b))) =
          (.ok .nothing, Spec.store (Spec.store h o (Spec.corners (l.foldl Spec.Merge.apply b))) o (Spec.corners (Spec.Merge.apply (l.foldl Spec.Merge.apply b) (q p)))) := by
        obtain ⟨c1, c2⟩ := C154_merge_call (Spec.store h o (Spec.corners (l.foldl Spec.Merge.apply b))) o p e2 _ (store_holds _ _ _)
        cases hq : q p with
        | point v =>
          rw [hq] at e3
          unfold Spec.mergeCall Spec.Op.call
          dsimp only
          rw [Call.run_bind_ok (c1 v (store_other e2 _ e3))]; rfl
        | box a =>
          rw [hq] at e3
          unfold Spec.mergeCall Spec.Op.call
          dsimp only
          rw [Call.run_bind_ok (c2 a (store_other e2 _ e3))]; rfl
      rw [hrun]
      simp only [List.foldl_append, List.foldl_cons, List.foldl_nil]
      exact store_store _ _ _ _

/-- **C156** A box shared by many threads: under the lock, the box that results from merging the points and boxes of all threads is the same for every schedule, and it is the result of merging all of them in any order. -/
theorem C156_merge [DecidableEq ι] (cfg : Cfg) (h : Mem α) (o : Nat) (b : Box α) (hb : Spec.Holds h o (Spec.corners b)) (ps : ι → List Nat) (thing : Nat → Spec.Merge α)
    (hq : ∀ i, ∀ p ∈ ps i, p ≠ o ∧ Spec.HoldsThing h p (thing p)) (σ : List ι)
    (hf : ∀ i, (((Spec.Locked.start h fun i => (ps i).map fun p => Spec.mergeCall o p (thing p)).exec cfg σ).worker i).unfinished = [])
    (all : List (Spec.Merge α)) (hall : ∀ m, m ∈ all ↔ ∃ i, ∃ p ∈ ps i, m = thing p) :
    Spec.Holds ((Spec.Locked.start h fun i => (ps i).map fun p => Spec.mergeCall o p (thing p)).exec cfg σ).heap o (Spec.corners (all.foldl Spec.Merge.apply b)) := by
  obtain ⟨order, h1, h2, -⟩ := C156_finished cfg h _ σ hf
  obtain ⟨l, l1, l2⟩ := serial_merge cfg o thing order h b hb (by
    intro c hc
    have hm := mem_order hc
    rw [h1 c.1, List.mem_map] at hm
    obtain ⟨p, hp, e⟩ := hm
    exact ⟨p, e.symm, hq c.1 p hp⟩)
  rw [h2, l2]
  have hsame : all.foldl Spec.Merge.apply b = l.foldl Spec.Merge.apply b := by
    refine C69_order b _ _ fun v => ?_
    rw [hall v, l1 v]
    constructor
    · rintro ⟨i, p, hp, rfl⟩
      have hm : Spec.mergeCall o p (thing p) ∈ Spec.ofThread i order := by rw [h1 i]; exact List.mem_map.2 ⟨p, hp, rfl⟩
      exact ⟨_, of_mem hm, p, rfl, rfl⟩
    · rintro ⟨c, hc, p, e1, rfl⟩
      have hm := mem_order hc
      rw [h1 c.1, List.mem_map] at hm
      obtain ⟨p', hp, e2⟩ := hm
      rw [e1] at e2
      exact ⟨c.1, p, mergeCall_inj e2 ▸ hp, rfl⟩
  rw [hsame]
  exact store_holds _ _ _

omit [LinearOrder α] in
private theorem sum_order [DecidableEq ι] [Fintype ι] (f : β → α) (order : List (ι × β)) : (order.map fun c => f c.2).sum = ∑ i, ((Spec.ofThread i order).map f).sum := by
  induction order using List.reverseRecOn with
  | nil => simp [Spec.ofThread]
  | append_singleton order c ih =>
    obtain ⟨j, b⟩ := c
    have : ∀ i, ((Spec.ofThread i (order ++ [(j, b)])).map f).sum = ((Spec.ofThread i order).map f).sum + if j = i then f b else 0 := by
      intro i
      rw [of_snoc]
      split_ifs <;> simp
    simp only [this, Finset.sum_add_distrib, Finset.sum_ite_eq, Finset.mem_univ, if_true, ← ih]
    simp

private def addend (q : Nat → Vec M α) (k : Fin M) : Spec.Op → α
  | .addAssign _ _ p => (q p)[k]
  | _ => 0

private theorem serial_sum (cfg : Cfg) (o : Nat) (q : Nat → Vec M α) (order : List (ι × Spec.Op)) (h : Mem α) (v : Vec M α) (hv : Spec.Holds h o v)
    (ho : ∀ c ∈ order, ∃ p, c.2 = .addAssign M o p ∧ p ≠ o ∧ Spec.Holds h p (q p)) :
    (Spec.serial cfg order h).2 = Spec.store h o (Vector.ofFn fun k : Fin M => v[k] + (order.map fun c => addend q k c.2).sum : Vec M α) := by
  induction order using List.reverseRecOn with
  | nil =>
    have : (Vector.ofFn fun k : Fin M => v[k] + (([] : List (ι × Spec.Op)).map fun c => addend q k c.2).sum : Vec M α) = v := by
      apply Vector.ext; intro i hi; simp
    rw [this]; exact holds_store hv
  | append_singleton order c ih =>
    have ih := ih fun c hc => ho c (by simp [hc])
    obtain ⟨p, e1, e2, e3⟩ := ho c (by simp)
    obtain ⟨i, op⟩ := c
    simp only at e1
    subst e1
    rw [serial_snoc, ih]
    obtain ⟨r, r1, r2⟩ := ((C154_writing_calls (M := M) (N := M) (P := M) cfg (Spec.store h o (Vector.ofFn fun k : Fin M => v[k] + (order.map fun c => addend q k c.2).sum : Vec M α)) o p p).1
      _ (q p) (store_holds _ _ _) (store_other e2 _ e3) e2).1
    have hrun : ((Spec.Op.addAssign M o p).call cfg : Call α _).run (Spec.store h o (Vector.ofFn fun k : Fin M => v[k] + (order.map fun c => addend q k c.2).sum : Vec M α)) =
        (.ok .nothing, Spec.store (Spec.store h o (Vector.ofFn fun k : Fin M => v[k] + (order.map fun c => addend q k c.2).sum : Vec M α)) o r) := by
      unfold Spec.Op.call
      rw [Call.run_bind_ok r2]; rfl
    rw [hrun]
    simp only
    rw [store_store]
    congr 1
    rw [Vec.addAssign_eq] at r1
    injection r1 with r1
    rw [← r1]
    apply Vector.ext
    intro k hk
    simp [addend, add_assoc]

/-- **C156** An accumulator shared by finitely many threads: under the lock, whatever the schedule, it ends as its initial value plus the vectors added by all threads. -/
theorem C156_sum [DecidableEq ι] [Fintype ι] (cfg : Cfg) (h : Mem α) (o : Nat) (v : Vec M α) (hv : Spec.Holds h o v) (vs : ι → List Nat) (q : Nat → Vec M α)
    (hq : ∀ i, ∀ p ∈ vs i, p ≠ o ∧ Spec.Holds h p (q p)) (σ : List ι)
    (hf : ∀ i, (((Spec.Locked.start h fun i => (vs i).map (.addAssign M o)).exec cfg σ).worker i).unfinished = []) (k : Fin M) :
    ((Spec.Locked.start h fun i => (vs i).map (.addAssign M o)).exec cfg σ).heap (o, k) = v[k] + ∑ i, ((vs i).map fun p => (q p)[k]).sum := by
  obtain ⟨order, h1, h2, -⟩ := C156_finished cfg h _ σ hf
  have := serial_sum cfg o q order h v hv (by
    intro c hc
    have hm := mem_order hc
    rw [h1 c.1, List.mem_map] at hm
    obtain ⟨p, hp, e⟩ := hm
    exact ⟨p, e.symm, hq c.1 p hp⟩)
  rw [h2, this, store_holds _ _ _ k]
  have e := sum_order (addend q k) order
  simp only [h1, List.map_map] at e
  have e2 : (Vector.ofFn fun k : Fin M => v[k] + (order.map fun c => addend q k c.2).sum : Vec M α)[k] = v[k] + (order.map fun c => addend q k c.2).sum := by simp
  rw [e2, e]
  rfl
end shared

/-! ## The hypotheses are met -/

private def scene : Mem Int := fun l => if l = (1, 0) then -1 else if l = (2, 0) then -2 else 0

/-- Two threads merge the points 1 and 2 into the box 0, the calls of `C154_lost_update`: the second thread asks for the lock while the first one has it, and no update is lost. -/
example : ∃ σ : List Bool, (∃ n, true ∈ σ.take n ∧ ((Spec.Locked.start scene fun i : Bool => [if i then 2 else 1].map (Spec.Op.mergePoint 0)).exec ⟨true, true, true⟩ (σ.take n)).lock = some false) ∧
    (∀ i, (((Spec.Locked.start scene fun i : Bool => [if i then 2 else 1].map (Spec.Op.mergePoint 0)).exec ⟨true, true, true⟩ σ).worker i).unfinished = []) ∧
    ((Spec.Locked.start scene fun i : Bool => [if i then 2 else 1].map (Spec.Op.mergePoint 0)).exec ⟨true, true, true⟩ σ).heap (0, 0) = -2 := by
  refine ⟨List.replicate 3 false ++ List.replicate 14 true ++ List.replicate 20 false ++ List.replicate 20 true, ⟨5, by decide, by decide⟩, ?_, by decide⟩
  intro i
  cases i <;> rfl
example (σ : List Bool) (hf) := C156_merge ⟨true, true, true⟩ scene 0 ⟨#v[0, 0, 0], #v[0, 0, 0]⟩ (by unfold Spec.Holds; decide) (fun i : Bool => [if i then 2 else 1])
  (fun p => if p = 1 then .point #v[-1, 0, 0] else .box ⟨#v[-2, 0, 0], #v[0, 0, 0]⟩) (by simp [Spec.HoldsThing]; unfold Spec.Holds; decide) σ hf [.point #v[-1, 0, 0], .box ⟨#v[-2, 0, 0], #v[0, 0, 0]⟩] (by simp)
example (σ : List Bool) (hf) := C156_sum ⟨true, true, true⟩ scene 0 (#v[0, 0, 0] : Vec 3 Int) (by unfold Spec.Holds; decide) (fun i : Bool => [if i then 2 else 1, 1]) (fun p => if p = 1 then #v[-1, 0, 0] else #v[-2, 0, 0])
  (by unfold Spec.Holds; decide) σ hf 0
end Vmml
