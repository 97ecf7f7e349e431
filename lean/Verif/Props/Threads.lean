import Verif.Model.Threads
import Verif.Props.FloatLaws

/-!
# C154: several threads
-/

namespace Vmml
variable {α β γ ι : Type} {M N P : Nat}

/-! ## Specification -/

/-- The object `o` contains the elements of `v`. -/
def Spec.Holds (h : Mem α) (o : Nat) (v : Vec M α) : Prop := ∀ i : Fin M, h (o, i) = v[i]
/-- The memory after the elements of `o` have been replaced by those of `v`. -/
def Spec.store (h : Mem α) (o : Nat) (v : Vec M α) : Mem α := fun l => if hl : l.1 = o ∧ l.2 < M then v[l.2]'hl.2 else h l

/-- The object `o` contains the planes of the culler, in the order of its members. -/
def Spec.HoldsCuller (h : Mem α) (o : Nat) (k : Culler α) : Prop :=
  ∀ i : Fin 4, h (o, i) = k.left[i] ∧ h (o, 4 + i) = k.right[i] ∧ h (o, 8 + i) = k.bottom[i] ∧ h (o, 12 + i) = k.top[i] ∧ h (o, 16 + i) = k.near[i] ∧ h (o, 20 + i) = k.far[i]

/-- The calls of `Model/Threads.lean`, with the objects they are made on. -/
inductive Spec.Op
  | dot (M v w : Nat)
  | add (M v w : Nat)
  | addAssign (M v w : Nat)
  | assign (M dst src : Nat)
  | mulVec (M N a v : Nat)
  | multiply (M P N m left right : Nat)
  | testSphere (culler sphere : Nat)
  | mergePoint (box point : Nat)
  | mergeBox (box other : Nat)
  | isIn (box point : Nat)
  | squaredLength (M v : Nat)
  | mulAssign (M v w : Nat)
  | matAddAssign (M N m a : Nat)
  | multiplyPiecewise (M N m a : Nat)
  | transposeTo (M N a t : Nat)
/-- The objects a call may change: `*this` of the calls that are not `const` (except `isIn`, which is not declared `const` and changes nothing), and the argument of `transpose_to`. -/
def Spec.Op.writes : Spec.Op → List Nat
  | .dot _ _ _ | .add _ _ _ | .mulVec _ _ _ _ | .testSphere _ _ | .isIn _ _ | .squaredLength _ _ => []
  | .addAssign _ v _ => [v]
  | .assign _ dst _ => [dst]
  | .multiply _ _ _ m _ _ => [m]
  | .mergePoint b _ | .mergeBox b _ => [b]
  | .mulAssign _ v _ => [v]
  | .matAddAssign _ _ m _ | .multiplyPiecewise _ _ m _ => [m]
  | .transposeTo _ _ _ t => [t]
/-- The objects a call only reads: `*this` of the `const` calls and the arguments. -/
def Spec.Op.reads : Spec.Op → List Nat
  | .dot _ v w | .add _ v w => [v, w]
  | .mulVec _ _ a v => [a, v]
  | .testSphere k s => [k, s]
  | .addAssign _ _ w => [w]
  | .assign _ _ src => [src]
  | .multiply _ _ _ _ l r => [l, r]
  | .mergePoint _ p => [p]
  | .mergeBox _ a => [a]
  | .isIn b p => [b, p]
  | .squaredLength _ v => [v]
  | .mulAssign _ _ w => [w]
  | .matAddAssign _ _ _ a | .multiplyPiecewise _ _ _ a => [a]
  | .transposeTo _ _ a _ => [a]
/-- What a call returns. -/
inductive Spec.Out (α : Type)
  | nothing
  | scalar (x : α)
  | vector (M : Nat) (v : Vec M α)
  | visibility (v : Visibility)
  | flag (b : Bool)

section
variable [Zero α] [Add α] [Mul α] [Neg α] [LE α] [DecidableLE α] [LT α] [DecidableLT α]
/-- The call itself. -/
def Spec.Op.call (cfg : Cfg) : Spec.Op → Call α (Spec.Out α)
  | .dot M v w => do pure (.scalar (← Call.dot cfg M v w))
  | .add M v w => do pure (.vector M (← Call.add cfg M v w))
  | .addAssign M v w => do Call.addAssign cfg M v w; pure .nothing
  | .assign M dst src => do Call.assign M dst src; pure .nothing
  | .mulVec M N a v => do pure (.vector M (← Call.mulVec cfg M N a v))
  | .multiply M P N m l r => do Call.multiply cfg M P N m l r; pure .nothing
  | .testSphere k s => do pure (.visibility (← Call.testSphere k s))
  | .mergePoint b p => do Call.mergePoint b p; pure .nothing
  | .mergeBox b a => do Call.mergeBox b a; pure .nothing
  | .isIn b p => do pure (.flag (← Call.isIn b p))
  | .squaredLength M v => do pure (.scalar (← Call.squaredLength M v))
  | .mulAssign M v w => do Call.mulAssign cfg M v w; pure .nothing
  | .matAddAssign M N m a => do Call.matAddAssign M N m a; pure .nothing
  | .multiplyPiecewise M N m a => do Call.multiplyPiecewise cfg M N m a; pure .nothing
  | .transposeTo M N a t => do Call.transposeTo cfg M N a t; pure .nothing
/-- A thread makes a sequence of calls and keeps the results; a fault ends it. -/
def Spec.thread (cfg : Cfg) : List Spec.Op → Call α (List (Spec.Out α))
  | [] => pure []
  | op :: ops => do
    let r ← op.call cfg
    let rs ← Spec.thread cfg ops
    pure (r :: rs)
end
/-- The next access: the element, and whether it is written. -/
def Spec.access : Prog α β → Option (Loc × Bool)
  | .ret _ => none
  | .read l _ => some (l, false)
  | .write l _ _ => some (l, true)
/-- A call that only touches objects in `R` or `W`, and writes only those in `W`. -/
def Spec.Footprint (R W : Nat → Prop) : Prog α β → Prop
  | .ret _ => True
  | .read l k => (R l.1 ∨ W l.1) ∧ ∀ x, Spec.Footprint R W (k x)
  | .write l _ k => W l.1 ∧ Spec.Footprint R W k

/-! ## Footprints -/

section within
variable {R W : Nat → Prop}

theorem within_bind {p : Call α β} {f : β → Call α γ} (hp : Spec.Footprint R W p) (hf : ∀ b, Spec.Footprint R W (f b)) : Spec.Footprint R W (p >>= f : Call α γ) := by
  show Spec.Footprint R W (Call.bind p f)
  induction p with
  | ret b =>
    cases b with
    | ok b => exact hf b
    | error e => exact trivial
  | read l k ih => exact ⟨hp.1, fun x => ih x (hp.2 x)⟩
  | write l x k ih => exact ⟨hp.1, ih hp.2⟩

theorem within_pure (b : β) : Spec.Footprint R W (pure b : Call α β) := trivial
theorem within_local (b : Res β) : Spec.Footprint R W (Call.local' b : Call α β) := trivial
theorem within_loop {σ : Type} {n : Nat} {body : Nat → σ → Call α σ} (h : ∀ i s, Spec.Footprint R W (body i s)) (s : σ) : Spec.Footprint R W (Call.loop n body s) := by
  induction n with
  | zero => exact trivial
  | succ n ih => exact within_bind ih fun s => h n s
theorem within_rawGet {M o i : Nat} (h : R o ∨ W o) : Spec.Footprint R W (Call.rawGet M o i : Call α α) := by
  unfold Call.rawGet
  by_cases hi : i < M
  · rw [if_pos hi]; exact ⟨h, fun _ => trivial⟩
  · rw [if_neg hi]; exact trivial
theorem within_rawSet {M o i : Nat} {x : α} (h : W o) : Spec.Footprint R W (Call.rawSet M o i x : Call α Unit) := by
  unfold Call.rawSet
  by_cases hi : i < M
  · rw [if_pos hi]; exact ⟨h, trivial⟩
  · rw [if_neg hi]; exact trivial
theorem within_vget {cfg : Cfg} {M o i : Nat} (h : R o ∨ W o) : Spec.Footprint R W (Call.vget cfg M o i : Call α α) := by
  unfold Call.vget
  split_ifs
  · exact within_bind (within_local _) fun _ => within_rawGet h
  · exact within_rawGet h
theorem within_vset {cfg : Cfg} {M o i : Nat} {x : α} (h : W o) : Spec.Footprint R W (Call.vset cfg M o i x : Call α Unit) := by
  unfold Call.vset
  split_ifs
  · exact within_bind (within_local _) fun _ => within_rawSet h
  · exact within_rawSet h
theorem within_mget {cfg : Cfg} {M N o r c : Nat} (h : R o ∨ W o) : Spec.Footprint R W (Call.mget cfg M N o r c : Call α α) := by
  unfold Call.mget
  split_ifs
  · exact within_bind (within_local _) fun _ => within_rawGet h
  · exact within_rawGet h
theorem within_mset {cfg : Cfg} {M N o r c : Nat} {x : α} (h : W o) : Spec.Footprint R W (Call.mset cfg M N o r c x : Call α Unit) := by
  unfold Call.mset
  split_ifs
  · exact within_bind (within_local _) fun _ => within_rawSet h
  · exact within_rawSet h
theorem within_ite {c : Prop} [Decidable c] {p q : Call α β} (hp : Spec.Footprint R W p) (hq : Spec.Footprint R W q) : Spec.Footprint R W (if c then p else q) := by
  by_cases h : c
  · rw [if_pos h]; exact hp
  · rw [if_neg h]; exact hq

variable [Zero α] [Add α] [Mul α] [Neg α] [LE α] [DecidableLE α] [LT α] [DecidableLT α]

theorem within_sphereBlock {k j s : Nat} {v : Option Visibility} (hk : R k ∨ W k) (hs : R s ∨ W s) : Spec.Footprint R W (Call.sphereBlock (α := α) k j s v) := by
  unfold Call.sphereBlock
  cases v with
  | none => exact trivial
  | some v =>
    refine within_bind (within_rawGet hk) fun _ => within_bind (within_rawGet hs) fun _ => within_bind (within_rawGet hk) fun _ => within_bind (within_rawGet hs) fun _ =>
      within_bind (within_rawGet hk) fun _ => within_bind (within_rawGet hs) fun _ => within_bind (within_rawGet hk) fun _ => ?_
    refine within_bind (within_rawGet hs) fun _ => within_ite trivial ?_
    exact within_bind (within_rawGet hs) fun _ => within_ite trivial trivial

/-- The footprint of a call. -/
theorem within_op (cfg : Cfg) (op : Spec.Op) (hR : ∀ o ∈ op.reads, R o ∨ W o) (hW : ∀ o ∈ op.writes, W o) : Spec.Footprint R W (op.call cfg : Call α (Spec.Out α)) := by
  cases op with
  | dot M v w =>
    simp only [Spec.Op.reads, List.mem_cons, List.mem_nil_iff, or_false, forall_eq_or_imp, forall_eq] at hR
    exact within_bind (within_loop (fun i s => within_bind (within_vget hR.1) fun _ => within_bind (within_vget hR.2) fun _ => within_pure _) _) fun _ => within_pure _
  | add M v w =>
    simp only [Spec.Op.reads, List.mem_cons, List.mem_nil_iff, or_false, forall_eq_or_imp, forall_eq] at hR
    exact within_bind (within_loop (fun i s => within_bind (within_vget hR.1) fun _ => within_bind (within_vget hR.2) fun _ => within_local _) _) fun _ => within_pure _
  | addAssign M v w =>
    simp only [Spec.Op.reads, Spec.Op.writes, List.mem_cons, List.mem_nil_iff, or_false, forall_eq_or_imp, forall_eq] at hR hW
    exact within_bind (within_loop (fun i s => within_bind (within_vget (.inr hW)) fun _ => within_bind (within_vget hR) fun _ => within_vset hW) _) fun _ => trivial
  | assign M dst src =>
    simp only [Spec.Op.reads, Spec.Op.writes, List.mem_cons, List.mem_nil_iff, or_false, forall_eq_or_imp, forall_eq] at hR hW
    exact within_bind (within_loop (fun i s => within_bind (within_rawGet hR) fun _ => within_rawSet hW) _) fun _ => trivial
  | mulVec M N a v =>
    simp only [Spec.Op.reads, List.mem_cons, List.mem_nil_iff, or_false, forall_eq_or_imp, forall_eq] at hR
    exact within_bind (within_loop (fun i s => within_bind (within_loop (fun j t => within_bind (within_mget hR.1) fun _ => within_bind (within_vget hR.2) fun _ => within_pure _) _) fun _ => within_local _) _) fun _ => within_pure _
  | multiply M P N m l r =>
    simp only [Spec.Op.reads, Spec.Op.writes, List.mem_cons, List.mem_nil_iff, or_false, forall_eq_or_imp, forall_eq] at hR hW
    exact within_bind (within_loop (fun i s => within_loop (fun j t => within_bind (within_mset hW) fun _ => within_loop (fun q u => within_bind (within_mget (.inr hW)) fun _ =>
      within_bind (within_mget hR.1) fun _ => within_bind (within_mget hR.2) fun _ => within_mset hW) _) _) _) fun _ => trivial
  | testSphere k s =>
    simp only [Spec.Op.reads, List.mem_cons, List.mem_nil_iff, or_false, forall_eq_or_imp, forall_eq] at hR
    have hb := fun j v => within_sphereBlock (α := α) (k := k) (j := j) (s := s) (v := v) hR.1 hR.2
    exact within_bind (within_bind (hb 0 _) fun v => within_bind (hb 1 v) fun v => within_bind (hb 2 v) fun v => within_bind (hb 3 v) fun v => within_bind (hb 4 v) fun v =>
      within_bind (hb 5 v) fun _ => trivial) fun _ => trivial
  | mergePoint b p =>
    simp only [Spec.Op.reads, Spec.Op.writes, List.mem_cons, List.mem_nil_iff, or_false, forall_eq_or_imp, forall_eq] at hR hW
    refine within_bind (within_bind (within_loop (fun i s => ?_) _) fun _ => within_loop (fun i s => ?_) _) fun _ => trivial
    · exact within_bind (within_rawGet hR) fun _ => within_bind (within_rawGet (.inr hW)) fun _ => within_ite (within_bind (within_rawGet hR) fun _ => within_rawSet hW) trivial
    · exact within_bind (within_rawGet hR) fun _ => within_bind (within_rawGet (.inr hW)) fun _ => within_ite (within_bind (within_rawGet hR) fun _ => within_rawSet hW) trivial
  | mergeBox b p =>
    simp only [Spec.Op.reads, Spec.Op.writes, List.mem_cons, List.mem_nil_iff, or_false, forall_eq_or_imp, forall_eq] at hR hW
    refine within_bind (within_bind (within_loop (fun i s => ?_) _) fun _ => within_loop (fun i s => ?_) _) fun _ => trivial
    · exact within_bind (within_rawGet hR) fun _ => within_bind (within_rawGet (.inr hW)) fun _ => within_ite (within_bind (within_rawGet hR) fun _ => within_rawSet hW) trivial
    · exact within_bind (within_rawGet hR) fun _ => within_bind (within_rawGet (.inr hW)) fun _ => within_ite (within_bind (within_rawGet hR) fun _ => within_rawSet hW) trivial
  | isIn b p =>
    simp only [Spec.Op.reads, List.mem_cons, List.mem_nil_iff, or_false, forall_eq_or_imp, forall_eq] at hR
    have test : ∀ {i j : Nat} {c : α → α → Prop} [∀ x y, Decidable (c x y)] {q : Call α Bool}, Spec.Footprint R W q →
        Spec.Footprint R W (Call.rawGet 3 p i >>= fun x => Call.rawGet 6 b j >>= fun y => if c x y then pure false else q : Call α Bool) :=
      fun hq => within_bind (within_rawGet hR.2) fun _ => within_bind (within_rawGet hR.1) fun _ => within_ite trivial hq
    exact within_bind (test (test (test (test (test (test trivial)))))) fun _ => within_pure _
  | squaredLength M v =>
    simp only [Spec.Op.reads, List.mem_cons, List.mem_nil_iff, or_false, forall_eq] at hR
    exact within_bind (within_loop (fun i s => within_bind (within_rawGet hR) fun _ => within_bind (within_rawGet hR) fun _ => within_pure _) _) fun _ => within_pure _
  | mulAssign M v w =>
    simp only [Spec.Op.reads, Spec.Op.writes, List.mem_cons, List.mem_nil_iff, or_false, forall_eq_or_imp, forall_eq] at hR hW
    exact within_bind (within_loop (fun i s => within_bind (within_vget (.inr hW)) fun _ => within_bind (within_vget hR) fun _ => within_vset hW) _) fun _ => trivial
  | matAddAssign M N m a =>
    simp only [Spec.Op.reads, Spec.Op.writes, List.mem_cons, List.mem_nil_iff, or_false, forall_eq_or_imp, forall_eq] at hR hW
    exact within_bind (within_loop (fun i s => within_bind (within_rawGet (.inr hW)) fun _ => within_bind (within_rawGet hR) fun _ => within_rawSet hW) _) fun _ => trivial
  | multiplyPiecewise M N m a =>
    simp only [Spec.Op.reads, Spec.Op.writes, List.mem_cons, List.mem_nil_iff, or_false, forall_eq_or_imp, forall_eq] at hR hW
    exact within_bind (within_loop (fun i s => within_loop (fun j t => within_bind (within_mget (.inr hW)) fun _ => within_bind (within_mget hR) fun _ => within_mset hW) _) _) fun _ => trivial
  | transposeTo M N a t =>
    simp only [Spec.Op.reads, Spec.Op.writes, List.mem_cons, List.mem_nil_iff, or_false, forall_eq_or_imp, forall_eq] at hR hW
    exact within_bind (within_loop (fun i s => within_loop (fun j t => within_bind (within_mget hR) fun _ => within_mset hW) _) _) fun _ => trivial

theorem within_thread (cfg : Cfg) (ops : List Spec.Op) (hR : ∀ op ∈ ops, ∀ o ∈ op.reads, R o ∨ W o) (hW : ∀ op ∈ ops, ∀ o ∈ op.writes, W o) :
    Spec.Footprint R W (Spec.thread cfg ops : Call α (List (Spec.Out α))) := by
  induction ops with
  | nil => exact trivial
  | cons op ops ih =>
    refine within_bind (within_op cfg op (hR op (by simp)) (hW op (by simp))) fun r => within_bind (ih (fun o ho => hR o (by simp [ho])) (fun o ho => hW o (by simp [ho]))) fun _ => trivial
end within

/-! ## Any schedule -/

/-- Two memories that agree on the objects of a footprint give the same run. -/
theorem run_agree {R W : Nat → Prop} {p : Prog α β} (hp : Spec.Footprint R W p) {h h' : Mem α} (e : ∀ l : Loc, R l.1 ∨ W l.1 → h l = h' l) :
    (p.run h).1 = (p.run h').1 ∧ (∀ l : Loc, R l.1 ∨ W l.1 → (p.run h).2 l = (p.run h').2 l) ∧ p.steps h = p.steps h' := by
  induction p generalizing h h' with
  | ret b => exact ⟨rfl, e, rfl⟩
  | read l k ih =>
    obtain ⟨h1, h2, h3⟩ := ih (h l) (hp.2 (h l)) e
    simp only [Prog.run, Prog.steps, ← e l hp.1]
    exact ⟨h1, h2, by rw [h3]⟩
  | write l x k ih =>
    obtain ⟨h1, h2, h3⟩ := ih hp.2 (h := Prog.put h l x) (h' := Prog.put h' l x) (by
      intro m hm
      simp only [Prog.put]
      split_ifs
      · rfl
      · exact e m hm)
    simp only [Prog.run, Prog.steps]
    exact ⟨h1, h2, by rw [h3]⟩

/-- One access does not change what the thread will do, leaves objects outside its footprint alone, and stays in the footprint. -/
theorem next_run {R W : Nat → Prop} {p : Prog α β} (hp : Spec.Footprint R W p) (h : Mem α) :
    (p.next h).1.run (p.next h).2 = p.run h ∧ (p.next h).1.steps (p.next h).2 = p.steps h - 1 ∧ Spec.Footprint R W (p.next h).1 ∧ ∀ l : Loc, ¬ W l.1 → (p.next h).2 l = h l := by
  cases p with
  | ret b => exact ⟨rfl, rfl, trivial, fun _ _ => rfl⟩
  | read l k => exact ⟨rfl, rfl, hp.2 _, fun _ _ => rfl⟩
  | write l x k =>
    refine ⟨rfl, rfl, hp.2, fun m hm => ?_⟩
    simp only [Prog.next, Prog.put]
    rw [if_neg]
    rintro rfl
    exact hm hp.1


/-- What all executions preserve. -/
private structure Inv [DecidableEq ι] (R W : ι → Nat → Prop) (h0 : Mem α) (p0 : ι → Prog α β) (σ : List ι) (c : Prog.Config ι α β) : Prop where
  foot : ∀ i, Spec.Footprint (R i) (W i) (c.thread i)
  result : ∀ i, ((c.thread i).run c.heap).1 = ((p0 i).run h0).1
  mem : ∀ i, ∀ l : Loc, R i l.1 ∨ W i l.1 → ((c.thread i).run c.heap).2 l = ((p0 i).run h0).2 l
  left : ∀ i, (c.thread i).steps c.heap = (p0 i).steps h0 - σ.count i
  frame : ∀ l : Loc, (∀ i, ¬ W i l.1) → c.heap l = h0 l

private theorem inv_exec [DecidableEq ι] {R W : ι → Nat → Prop} (sep : ∀ i j, i ≠ j → ∀ o, W i o → ¬ R j o ∧ ¬ W j o) (h0 : Mem α) (p0 : ι → Prog α β)
    (hf : ∀ i, Spec.Footprint (R i) (W i) (p0 i)) (σ : List ι) : Inv R W h0 p0 σ (Prog.Config.exec ⟨h0, p0⟩ σ) := by
  induction σ using List.reverseRecOn with
  | nil => exact ⟨hf, fun _ => rfl, fun _ _ _ => rfl, fun _ => rfl, fun _ _ => rfl⟩
  | append_singleton σ i ih =>
    have e : Prog.Config.exec (⟨h0, p0⟩ : Prog.Config ι α β) (σ ++ [i]) = (Prog.Config.exec ⟨h0, p0⟩ σ).step i := by simp [Prog.Config.exec]
    rw [e]
    obtain ⟨c, hc⟩ : ∃ c, c = Prog.Config.exec (⟨h0, p0⟩ : Prog.Config ι α β) σ := ⟨_, rfl⟩
    rw [← hc] at ih ⊢
    obtain ⟨n1, n2, n3, n4⟩ := next_run (ih.foot i) c.heap
    have other : ∀ j, j ≠ i → ∀ l : Loc, R j l.1 ∨ W j l.1 → (c.step i).heap l = c.heap l := by
      intro j hj l hl
      refine n4 l fun hw => ?_
      have := sep i j (Ne.symm hj) l.1 hw
      rcases hl with h | h
      · exact this.1 h
      · exact this.2 h
    have ti : (c.step i).thread i = ((c.thread i).next c.heap).1 := by simp [Prog.Config.step]
    have tj : ∀ j, j ≠ i → (c.step i).thread j = c.thread j := fun j hj => by simp [Prog.Config.step, hj]
    have hh : (c.step i).heap = ((c.thread i).next c.heap).2 := rfl
    refine ⟨fun j => ?_, fun j => ?_, fun j l hl => ?_, fun j => ?_, fun l hl => ?_⟩
    · by_cases hj : j = i
      · subst hj; rw [ti]; exact n3
      · rw [tj j hj]; exact ih.foot j
    · by_cases hj : j = i
      · subst hj; rw [ti, hh, n1]; exact ih.result j
      · rw [tj j hj, (run_agree (ih.foot j) (other j hj)).1]; exact ih.result j
    · by_cases hj : j = i
      · subst hj; rw [ti, hh, n1]; exact ih.mem j l hl
      · rw [tj j hj, (run_agree (ih.foot j) (other j hj)).2.1 l hl]; exact ih.mem j l hl
    · by_cases hj : j = i
      · subst hj
        rw [ti, hh, n2, ih.left j, List.count_append]
        simp only [List.count_singleton, beq_self_eq_true, if_true]
        omega
      · rw [tj j hj, (run_agree (ih.foot j) (other j hj)).2.2, ih.left j, List.count_append]
        have : List.count j [i] = 0 := by simp [List.count_singleton, Ne.symm hj]
        rw [this, Nat.add_zero]
    · rw [hh, n4 l (hl i)]; exact ih.frame l hl

section api
variable [Zero α] [Add α] [Mul α] [Neg α] [LE α] [DecidableLE α] [LT α] [DecidableLT α]

/-- No thread writes an object that another thread uses. Objects that are only read may be shared by any number of threads. -/
def Spec.Separate (ts : ι → List Spec.Op) : Prop :=
  ∀ i j, i ≠ j → ∀ op ∈ ts i, ∀ o ∈ op.writes, ∀ op' ∈ ts j, o ∉ op'.reads ∧ o ∉ op'.writes

private theorem separate_sets {ts : ι → List Spec.Op} (h : Spec.Separate ts) (i j : ι) (hij : i ≠ j) (o : Nat) (hw : ∃ op ∈ ts i, o ∈ op.writes) :
    ¬ (∃ op ∈ ts j, o ∈ op.reads) ∧ ¬ ∃ op ∈ ts j, o ∈ op.writes := by
  obtain ⟨op, h1, h2⟩ := hw
  exact ⟨fun ⟨op', h3, h4⟩ => (h i j hij op h1 o h2 op' h3).1 h4, fun ⟨op', h3, h4⟩ => (h i j hij op h1 o h2 op' h3).2 h4⟩

private theorem thread_foot (cfg : Cfg) (ops : List Spec.Op) :
    Spec.Footprint (fun o => ∃ op ∈ ops, o ∈ op.reads) (fun o => ∃ op ∈ ops, o ∈ op.writes) (Spec.thread cfg ops : Call α (List (Spec.Out α))) :=
  within_thread cfg ops (fun op h o ho => .inl ⟨op, h, ho⟩) fun op h o ho => ⟨op, h, ho⟩

/-- **C154** Any number of threads, each making any sequence of calls, under any schedule: if no thread writes an object another one uses, then a thread that has finished has returned exactly the results it would have
returned had it run alone from the initial memory, the objects it uses contain what they would then contain, and objects that nobody writes are unchanged. -/
theorem C154_isolated [DecidableEq ι] (cfg : Cfg) (ts : ι → List Spec.Op) (hs : Spec.Separate ts) (h : Mem α) (σ : List ι) :
    (∀ i r, (Prog.Config.exec ⟨h, fun i => Spec.thread cfg (ts i)⟩ σ).thread i = .ret r →
      r = ((Spec.thread cfg (ts i) : Call α _).run h).1 ∧
      ∀ op ∈ ts i, ∀ o, o ∈ op.reads ∨ o ∈ op.writes → ∀ k, (Prog.Config.exec ⟨h, fun i => Spec.thread cfg (ts i)⟩ σ).heap (o, k) = ((Spec.thread cfg (ts i) : Call α _).run h).2 (o, k)) ∧
    ∀ o, (∀ i, ∀ op ∈ ts i, o ∉ op.writes) → ∀ k, (Prog.Config.exec ⟨h, fun i => (Spec.thread cfg (ts i) : Call α _)⟩ σ).heap (o, k) = h (o, k) := by
  have inv := inv_exec (separate_sets hs) h (fun i => (Spec.thread cfg (ts i) : Call α (List (Spec.Out α)))) (fun i => thread_foot cfg (ts i)) σ
  refine ⟨fun i r hr => ?_, fun o ho k => inv.frame (o, k) fun i => ?_⟩
  · have h1 := inv.result i
    have h2 := inv.mem i
    rw [hr] at h1 h2
    refine ⟨h1, fun op hop o ho k => h2 (o, k) ?_⟩
    rcases ho with ho | ho
    · exact .inl ⟨op, hop, ho⟩
    · exact .inr ⟨op, hop, ho⟩
  · rintro ⟨op, h1, h2⟩
    exact ho i op h1 h2

/-- **C154** No thread ever waits for another: a thread has finished as soon as the schedule has given it as many accesses as it would need alone. -/
theorem C154_progress [DecidableEq ι] (cfg : Cfg) (ts : ι → List Spec.Op) (hs : Spec.Separate ts) (h : Mem α) (σ : List ι) (i : ι)
    (hi : (Spec.thread cfg (ts i) : Call α _).steps h ≤ σ.count i) :
    ∃ r, (Prog.Config.exec ⟨h, fun i => (Spec.thread cfg (ts i) : Call α _)⟩ σ).thread i = .ret r := by
  have inv := inv_exec (separate_sets hs) h (fun i => (Spec.thread cfg (ts i) : Call α (List (Spec.Out α)))) (fun i => thread_foot cfg (ts i)) σ
  have h1 := inv.left i
  rw [Nat.sub_eq_zero_of_le hi] at h1
  generalize (Prog.Config.exec ⟨h, fun i => (Spec.thread cfg (ts i) : Call α _)⟩ σ) = c at h1
  cases e : c.thread i with
  | ret r => exact ⟨r, rfl⟩
  | read l k => rw [e] at h1; simp [Prog.steps] at h1
  | write l x k => rw [e] at h1; simp [Prog.steps] at h1

/-- **C154** There are no data races: at no point of any execution are the next accesses of two threads to the same element with one of them a write. -/
theorem C154_race_free [DecidableEq ι] (cfg : Cfg) (ts : ι → List Spec.Op) (hs : Spec.Separate ts) (h : Mem α) (σ : List ι) (i j : ι) (hij : i ≠ j) (l : Loc) (w : Bool)
    (hi : Spec.access ((Prog.Config.exec ⟨h, fun i => (Spec.thread cfg (ts i) : Call α _)⟩ σ).thread i) = some (l, true)) :
    Spec.access ((Prog.Config.exec ⟨h, fun i => (Spec.thread cfg (ts i) : Call α _)⟩ σ).thread j) ≠ some (l, w) := by
  have inv := inv_exec (separate_sets hs) h (fun i => (Spec.thread cfg (ts i) : Call α (List (Spec.Out α)))) (fun i => thread_foot cfg (ts i)) σ
  have fi := inv.foot i
  have fj := inv.foot j
  generalize (Prog.Config.exec ⟨h, fun i => (Spec.thread cfg (ts i) : Call α _)⟩ σ) = c at *
  intro hj
  have wi : ∃ op ∈ ts i, l.1 ∈ op.writes := by
    cases e : c.thread i with
    | ret r => rw [e] at hi; cases hi
    | read l' k => rw [e] at hi; cases hi
    | write l' x k => rw [e] at hi fi; cases hi; exact fi.1
  have uj : (∃ op ∈ ts j, l.1 ∈ op.reads) ∨ ∃ op ∈ ts j, l.1 ∈ op.writes := by
    cases e : c.thread j with
    | ret r => rw [e] at hj; cases hj
    | read l' k => rw [e] at hj fj; cases hj; exact fj.1
    | write l' x k => rw [e] at hj fj; cases hj; exact .inr fj.1
  have := separate_sets hs i j hij l.1 wi
  rcases uj with h | h
  · exact this.1 h
  · exact this.2 h
end api


/-! ## A thread alone: the sequential model -/

section run
private theorem run_bind (p : Call α β) (f : β → Call α γ) (h : Mem α) : Prog.run (p >>= f : Call α γ) h = match p.run h with
    | (.ok b, h') => Prog.run (f b) h'
    | (.error e, h') => (.error e, h') := by
  show Prog.run (Call.bind p f) h = _
  induction p generalizing h with
  | ret b => cases b <;> rfl
  | read l k ih => exact ih (h l) h
  | write l x k ih => exact ih _

theorem Call.run_bind_ok {p : Call α β} {f : β → Call α γ} {h h' : Mem α} {b : β} (e : p.run h = (.ok b, h')) : Prog.run (p >>= f : Call α γ) h = Prog.run (f b) h' := by
  rw [run_bind, e]

/-- A call that only reads, with result `r`. -/
private def Pure (h : Mem α) (p : Call α β) (r : Res β) : Prop := p.run h = (r, h)

private theorem pure_bind' {h : Mem α} {p : Call α β} {f : β → Call α γ} {r : Res β} {g : β → Res γ} (hp : Pure h p r) (hf : ∀ b, Pure h (f b) (g b)) : Pure h (p >>= f : Call α γ) (r >>= g) := by
  unfold Pure at *
  rw [run_bind, hp]
  cases r with
  | ok b => exact hf b
  | error e => rfl
private theorem pure_local (h : Mem α) (r : Res β) : Pure h (Call.local' r : Call α β) r := rfl
private theorem pure_pure (h : Mem α) (b : β) : Pure h (pure b : Call α β) (pure b) := rfl
private theorem pure_loop' {σ : Type} {h : Mem α} {n : Nat} {body : Nat → σ → Call α σ} {body' : Nat → σ → Res σ} (hb : ∀ i, i < n → ∀ s, Pure h (body i s) (body' i s)) (s : σ) :
    Pure h (Call.loop n body s) (loop n body' s) := by
  induction n with
  | zero => exact rfl
  | succ n ih => exact pure_bind' (ih fun i hi => hb i (by omega)) fun s => hb n (by omega) s
private theorem pure_rawGet {h : Mem α} {o : Nat} {v : Vec M α} (hv : Spec.Holds h o v) (i : Nat) : Pure h (Call.rawGet M o i) (v.rawGet i) := by
  unfold Pure Call.rawGet Vec.rawGet
  by_cases hi : i < M
  · rw [if_pos hi, dif_pos hi]
    have := hv ⟨i, hi⟩
    show (Except.ok (h (o, i)), h) = _
    rw [this]; rfl
  · rw [if_neg hi, dif_neg hi]; rfl
private theorem pure_vget (cfg : Cfg) {h : Mem α} {o : Nat} {v : Vec M α} (hv : Spec.Holds h o v) (i : Nat) : Pure h (Call.vget cfg M o i) (v.atGet cfg i) := by
  unfold Call.vget Vec.atGet
  split_ifs
  · exact pure_bind' (pure_local h _) fun _ => pure_rawGet hv i
  · exact pure_rawGet hv i
private theorem pure_mget (cfg : Cfg) {h : Mem α} {o : Nat} {a : Mat M N α} (ha : Spec.Holds h o a.array) (r c : Nat) : Pure h (Call.mget cfg M N o r c) (a.atGet cfg r c) := by
  unfold Call.mget Mat.atGet
  split_ifs
  · exact pure_bind' (pure_local h _) fun _ => pure_rawGet ha _
  · exact pure_rawGet ha _

theorem store_holds (h : Mem α) (o : Nat) (v : Vec M α) : Spec.Holds (Spec.store h o v) o v := by
  intro i
  simp [Spec.store]
theorem holds_store {h : Mem α} {o : Nat} {v : Vec M α} (hv : Spec.Holds h o v) : h = Spec.store h o v := by
  funext l
  unfold Spec.store
  split_ifs with hl
  · obtain ⟨a, b⟩ := l
    obtain ⟨rfl, hb⟩ := hl
    exact hv ⟨b, hb⟩
  · rfl
theorem store_other {h : Mem α} {o o' : Nat} (ho : o' ≠ o) (v : Vec M α) {w : Vec N α} (hw : Spec.Holds h o' w) : Spec.Holds (Spec.store h o v) o' w := by
  intro i
  rw [← hw i]
  unfold Spec.store
  rw [dif_neg (fun hl => ho hl.1)]
private theorem run_rawSet {h : Mem α} {o : Nat} (v : Vec M α) {i : Nat} (hi : i < M) (x : α) : (Call.rawSet M o i x).run (Spec.store h o v) = (.ok (), Spec.store h o (v.set i x)) := by
  unfold Call.rawSet
  rw [if_pos hi]
  show (Except.ok (), Prog.put _ _ _) = _
  congr 1
  funext l
  simp only [Prog.put, Spec.store, Vector.getElem_set]
  by_cases h1 : l = (o, i)
  · subst h1; simp [hi]
  · rw [if_neg h1]
    by_cases h2 : l.1 = o ∧ l.2 < M
    · rw [dif_pos h2, dif_pos h2, if_neg (fun e => h1 (Prod.ext h2.1 e.symm))]
    · rw [dif_neg h2, dif_neg h2]
private theorem run_vset (cfg : Cfg) {h : Mem α} {o : Nat} (v : Vec M α) {i : Nat} (hi : i < M) (x : α) : (Call.vset cfg M o i x).run (Spec.store h o v) = (.ok (), Spec.store h o (v.set i x)) := by
  unfold Call.vset
  rw [if_neg (by simp [hi])]
  exact run_rawSet v hi x
private theorem run_mset (cfg : Cfg) {h : Mem α} {o : Nat} (a : Mat M N α) {r c : Nat} (hr : r < M) (hc : c < N) (x : α) :
    (Call.mset cfg M N o r c x).run (Spec.store h o a.array) = (.ok (), Spec.store h o (a.put ⟨r, hr⟩ ⟨c, hc⟩ x).array) := by
  unfold Call.mset
  rw [if_neg (by simp [hr, hc])]
  exact run_rawSet a.array (Mat.idx_lt hr hc) x
/-- Loops that change one object. -/
private theorem run_loop {S : Type} {n : Nat} {body : Nat → Unit → Call α Unit} {body' : Nat → S → Res S} {mem : S → Mem α}
    (hb : ∀ i, i < n → ∀ s, ∃ s', body' i s = .ok s' ∧ (body i ()).run (mem s) = (.ok (), mem s')) (s : S) :
    ∃ s', loop n body' s = .ok s' ∧ (Call.loop n body ()).run (mem s) = (.ok (), mem s') := by
  induction n with
  | zero => exact ⟨s, rfl, rfl⟩
  | succ n ih =>
    obtain ⟨s1, e1, e2⟩ := ih fun i hi => hb i (by omega)
    obtain ⟨s2, e3, e4⟩ := hb n (by omega) s1
    refine ⟨s2, by rw [loop_succ, e1]; exact e3, ?_⟩
    show Prog.run (Call.loop n body () >>= body n : Call α Unit) (mem s) = _
    rw [Call.run_bind_ok e2]; exact e4
end run

section calls
variable [Zero α] [Add α] [Mul α] [Neg α] [LE α] [DecidableLE α] [LT α] [DecidableLT α]

/-- **C154** `dot`, `operator+`, matrix times vector and `test_sphere` executed without interruption: they return what the sequential model says, and change nothing. -/
theorem C154_const_calls (cfg : Cfg) (h : Mem α) (o₁ o₂ : Nat) :
    (∀ v w : Vec M α, Spec.Holds h o₁ v → Spec.Holds h o₂ w → (Call.dot cfg M o₁ o₂).run h = (v.dot cfg w, h) ∧ (Call.add cfg M o₁ o₂).run h = (v.add cfg w, h)) ∧
    (∀ (a : Mat M N α) (v : Vec N α), Spec.Holds h o₁ a.array → Spec.Holds h o₂ v → (Call.mulVec cfg M N o₁ o₂).run h = (a.mulVec cfg v, h)) ∧
    (∀ (k : Culler α) (s : Vec 4 α), Spec.HoldsCuller h o₁ k → Spec.Holds h o₂ s →
      (Call.testSphere o₁ o₂).run h = (.ok (k.testSphere s), h)) := by
  refine ⟨fun v w hv hw => ⟨?_, ?_⟩, fun a v ha hv => ?_, fun k s hk hs => ?_⟩
  · exact pure_loop' (fun i _ t => pure_bind' (pure_vget cfg hv i) fun _ => pure_bind' (pure_vget cfg hw i) fun _ => pure_pure h _) _
  · exact pure_loop' (fun i _ t => pure_bind' (pure_vget cfg hv i) fun _ => pure_bind' (pure_vget cfg hw i) fun _ => pure_local h _) _
  · exact pure_loop' (fun i _ t => pure_bind' (pure_loop' (fun j _ t => pure_bind' (pure_mget cfg ha i j) fun _ => pure_bind' (pure_vget cfg hv j) fun _ => pure_pure h _) _) fun _ => pure_local h _) _
  · have block : ∀ (j : Nat) (p : Vec 4 α) (vis : Option Visibility), (∀ i : Fin 4, h (o₁, 4 * j + i) = p[i]) → j < 6 →
        (Call.sphereBlock o₁ j o₂ vis).run h = (.ok (vis.bind fun v => Culler.sphereBlock p s v), h) := by
      intro j p vis hp hj
      cases vis with
      | none => rfl
      | some vis =>
        have g1 : ∀ i (hi : i < 4), (Call.rawGet 24 o₁ (4 * j + i) : Call α α).run h = (.ok p[i], h) := by
          intro i hi
          unfold Call.rawGet
          rw [if_pos (by omega)]
          show (Except.ok (h (o₁, 4 * j + i)), h) = _
          rw [hp ⟨i, hi⟩]; rfl
        have g2 : ∀ i (hi : i < 4), (Call.rawGet 4 o₂ i : Call α α).run h = (.ok s[i], h) := by
          intro i hi
          unfold Call.rawGet
          rw [if_pos hi]
          show (Except.ok (h (o₂, i)), h) = _
          rw [hs ⟨i, hi⟩]; rfl
        have g0 := g1 0 (by omega)
        rw [Nat.add_zero] at g0
        unfold Call.sphereBlock
        dsimp only
        rw [Call.run_bind_ok g0, Call.run_bind_ok (g2 0 (by omega)), Call.run_bind_ok (g1 1 (by omega)), Call.run_bind_ok (g2 1 (by omega)), Call.run_bind_ok (g1 2 (by omega)), Call.run_bind_ok (g2 2 (by omega)),
          Call.run_bind_ok (g1 3 (by omega)), Call.run_bind_ok (g2 3 (by omega))]
        show _ = (Except.ok (Culler.sphereBlock p s vis), h)
        unfold Culler.sphereBlock
        dsimp only
        by_cases c1 : p[0] * s[0] + p[1] * s[1] + p[2] * s[2] + p[3] ≤ -s[3]
        · rw [if_pos c1, if_pos c1]; rfl
        · rw [if_neg c1, if_neg c1, Call.run_bind_ok (g2 3 (by omega))]
          by_cases c2 : p[0] * s[0] + p[1] * s[1] + p[2] * s[2] + p[3] < s[3]
          · rw [if_pos c2, if_pos c2]; rfl
          · rw [if_neg c2, if_neg c2]; rfl
    unfold Call.testSphere Culler.testSphere
    rw [Call.run_bind_ok (block 0 k.left _ (fun i => by rw [Nat.mul_zero, Nat.zero_add]; exact (hk i).1) (by omega)), Call.run_bind_ok (block 1 k.right _ (fun i => (hk i).2.1) (by omega)),
      Call.run_bind_ok (block 2 k.bottom _ (fun i => (hk i).2.2.1) (by omega)), Call.run_bind_ok (block 3 k.top _ (fun i => (hk i).2.2.2.1) (by omega)),
      Call.run_bind_ok (block 4 k.near _ (fun i => (hk i).2.2.2.2.1) (by omega)), Call.run_bind_ok (block 5 k.far _ (fun i => (hk i).2.2.2.2.2) (by omega))]
    show (Except.ok _, h) = _
    congr 2
    simp only [Option.bind_eq_bind, Option.bind_some, Option.bind_assoc]

/-- **C154** `operator+=`, `operator=` and `multiply` executed without interruption on different objects: they change the destination to what the sequential model says, and nothing else. -/
theorem C154_writing_calls (cfg : Cfg) (h : Mem α) (o o₁ o₂ : Nat) :
    (∀ v w : Vec M α, Spec.Holds h o v → Spec.Holds h o₁ w → o₁ ≠ o →
      (∃ r, v.addAssign cfg w = .ok r ∧ (Call.addAssign cfg M o o₁).run h = (.ok (), Spec.store h o r)) ∧ (∃ r, v.assign w = .ok r ∧ (Call.assign M o o₁).run h = (.ok (), Spec.store h o r))) ∧
    (∀ (m : Mat M N α) (a : Mat M P α) (b : Mat P N α), Spec.Holds h o m.array → Spec.Holds h o₁ a.array → Spec.Holds h o₂ b.array → o₁ ≠ o → o₂ ≠ o →
      ∃ r, m.multiply cfg a b = .ok r ∧ (Call.multiply cfg M P N o o₁ o₂).run h = (.ok (), Spec.store h o r.array)) := by
  refine ⟨fun v w hv hw ho => ⟨?_, ?_⟩, fun m a b hm ha hb h1 h2 => ?_⟩
  · obtain ⟨r, e1, e2⟩ := run_loop (n := M) (body := fun i _ => do Call.vset cfg M o i ((← Call.vget cfg M o i) + (← Call.vget cfg M o₁ i)))
      (body' := fun i (r : Vec M α) => do r.atSet cfg i ((← r.atGet cfg i) + (← w.atGet cfg i))) (mem := fun v => Spec.store h o v) (by
        intro i hi u
        refine ⟨u.set i (u[i] + w[i]), by simp [hi], ?_⟩
        have g1 := pure_vget cfg (store_holds h o u) i
        have g2 := pure_vget cfg (store_other ho u hw) i
        rw [Vec.atGet_lt cfg _ hi] at g1 g2
        rw [Call.run_bind_ok g1, Call.run_bind_ok g2]
        exact run_vset cfg u hi _) v
    refine ⟨r, e1, ?_⟩
    rw [← holds_store hv] at e2
    exact e2
  · obtain ⟨r, e1, e2⟩ := run_loop (n := M) (body := fun i _ => do Call.rawSet M o i (← Call.rawGet M o₁ i))
      (body' := fun i (r : Vec M α) => do r.rawSet i (← w.rawGet i)) (mem := fun v => Spec.store h o v) (by
        intro i hi u
        have g2 := pure_rawGet (store_other ho u hw) i
        have e : w.rawGet i = .ok w[i] := by unfold Vec.rawGet; rw [dif_pos hi]; rfl
        rw [e] at g2
        refine ⟨u.set i w[i], by rw [e, bind_ok]; unfold Vec.rawSet; rw [dif_pos hi]; rfl, ?_⟩
        rw [Call.run_bind_ok g2]
        exact run_rawSet u hi _) v
    refine ⟨r, e1, ?_⟩
    rw [← holds_store hv] at e2
    exact e2
  · obtain ⟨r, e1, e2⟩ := run_loop (n := M) (body := fun r _ => Call.loop N (fun c _ => do
        Call.mset cfg M N o r c 0
        Call.loop P (fun p _ => do
          Call.mset cfg M N o r c ((← Call.mget cfg M N o r c) + (← Call.mget cfg M P o₁ r p) * (← Call.mget cfg P N o₂ p c))) ()) ())
      (body' := fun r (m : Mat M N α) => loop N (fun c m => do
        let m ← m.atSet cfg r c 0
        loop P (fun p m => do m.atSet cfg r c ((← m.atGet cfg r c) + (← a.atGet cfg r p) * (← b.atGet cfg p c))) m) m) (mem := fun v => Spec.store h o v.array) (by
        intro r hr u
        refine run_loop (mem := fun v : Mat M N α => Spec.store h o v.array) (fun c hc u => ?_) u
        obtain ⟨z, ez⟩ : ∃ z, z = u.put ⟨r, hr⟩ ⟨c, hc⟩ 0 := ⟨_, rfl⟩
        obtain ⟨s, e3, e4⟩ := run_loop (n := P) (body := fun p _ => do
            Call.mset cfg M N o r c ((← Call.mget cfg M N o r c) + (← Call.mget cfg M P o₁ r p) * (← Call.mget cfg P N o₂ p c)))
          (body' := fun p (m : Mat M N α) => do m.atSet cfg r c ((← m.atGet cfg r c) + (← a.atGet cfg r p) * (← b.atGet cfg p c))) (mem := fun v => Spec.store h o v.array) (by
            intro p hp u
            refine ⟨u.put ⟨r, hr⟩ ⟨c, hc⟩ (u.get ⟨r, hr⟩ ⟨c, hc⟩ + a.get ⟨r, hr⟩ ⟨p, hp⟩ * b.get ⟨p, hp⟩ ⟨c, hc⟩), by simp [hr, hc, hp], ?_⟩
            have g1 := pure_mget cfg (store_holds h o u.array) r c
            have g2 := pure_mget cfg (store_other h1 u.array ha) r p
            have g3 := pure_mget cfg (store_other h2 u.array hb) p c
            rw [Mat.atGet_lt cfg _ hr hc] at g1
            rw [Mat.atGet_lt cfg _ hr hp] at g2
            rw [Mat.atGet_lt cfg _ hp hc] at g3
            rw [Call.run_bind_ok g1, Call.run_bind_ok g2, Call.run_bind_ok g3]
            exact run_mset cfg u hr hc _) z
        refine ⟨s, by rw [Mat.atSet_lt cfg u 0 hr hc, bind_ok, ← ez]; exact e3, ?_⟩
        rw [Call.run_bind_ok (run_mset cfg u hr hc 0), ← ez]
        exact e4) m
    refine ⟨r, e1, ?_⟩
    rw [← holds_store hm] at e2
    exact e2

/-- A box as the six numbers of the object. -/
def Spec.corners (b : Box α) : Vec 6 α := #v[b.min[0], b.min[1], b.min[2], b.max[0], b.max[1], b.max[2]]

private theorem merge_step {h : Mem α} {o : Nat} {gl : Call α α} {x : α} (u : Vec 6 α) (hg : gl.run (Spec.store h o u) = (.ok x, Spec.store h o u)) (i : Nat) (hi : i < 6) :
    ((do if (← gl) < (← Call.rawGet 6 o i) then Call.rawSet 6 o i (← gl)) : Call α Unit).run (Spec.store h o u) = (.ok (), Spec.store h o (if x < u[i] then u.set i x else u)) ∧
    ((do if (← gl) > (← Call.rawGet 6 o i) then Call.rawSet 6 o i (← gl)) : Call α Unit).run (Spec.store h o u) = (.ok (), Spec.store h o (if x > u[i] then u.set i x else u)) := by
  have g2 := pure_rawGet (store_holds h o u) i
  have e : ∀ {n : Nat} (w : Vec n α) {i : Nat} (hi : i < n), w.rawGet i = .ok w[i] := by intro n w i hi; unfold Vec.rawGet; rw [dif_pos hi]; rfl
  rw [e u hi] at g2
  constructor
  · rw [Call.run_bind_ok hg, Call.run_bind_ok g2]
    by_cases c : x < u[i]
    · rw [if_pos c, if_pos c, Call.run_bind_ok hg]; exact run_rawSet u hi _
    · rw [if_neg c, if_neg c]; rfl
  · rw [Call.run_bind_ok hg, Call.run_bind_ok g2]
    by_cases c : x > u[i]
    · rw [if_pos c, if_pos c, Call.run_bind_ok hg]; exact run_rawSet u hi _
    · rw [if_neg c, if_neg c]; rfl

private theorem run_loop_fun {S : Type} {n : Nat} {body : Nat → Unit → Call α Unit} {mem : S → Mem α} (f : Nat → S → S)
    (hb : ∀ i, i < n → ∀ s, (body i ()).run (mem s) = (.ok (), mem (f i s))) (s : S) : (Call.loop n body ()).run (mem s) = (.ok (), mem (iter f n s)) := by
  induction n with
  | zero => rfl
  | succ n ih =>
    show Prog.run (Call.loop n body () >>= body n : Call α Unit) (mem s) = _
    rw [Call.run_bind_ok (ih fun i hi => hb i (by omega))]
    exact hb n (by omega) _

/-- Merging a thing with the corners `lo` and `hi`, read through `gl` and `gh`. -/
private theorem merge_any {h : Mem α} {o : Nat} {gl gh : Nat → Call α α} {lower upper : Vec 3 α}
    (hl : ∀ i (hi : i < 3) (u : Vec 6 α), (gl i).run (Spec.store h o u) = (.ok lower[i], Spec.store h o u)) (hh : ∀ i (hi : i < 3) (u : Vec 6 α), (gh i).run (Spec.store h o u) = (.ok upper[i], Spec.store h o u))
    (b : Box α) (hb : Spec.Holds h o (Spec.corners b)) :
    ((do
      Call.loop 3 (fun i _ => do if (← gl i) < (← Call.rawGet 6 o i) then Call.rawSet 6 o i (← gl i)) ()
      Call.loop 3 (fun i _ => do if (← gh i) > (← Call.rawGet 6 o (3 + i)) then Call.rawSet 6 o (3 + i) (← gh i)) ()) : Call α Unit).run h =
      (.ok (), Spec.store h o (Spec.corners (b.mergeBox ⟨lower, upper⟩))) := by
  obtain ⟨f, hf⟩ : ∃ f : Nat → Vec 6 α → Vec 6 α, f = fun i u => if hi : i < 3 then (if lower[i] < u[i] then u.set i lower[i] else u) else u := ⟨_, rfl⟩
  obtain ⟨g, hg⟩ : ∃ g : Nat → Vec 6 α → Vec 6 α, g = fun i u => if hi : i < 3 then (if upper[i] > u[3 + i] then u.set (3 + i) upper[i] else u) else u := ⟨_, rfl⟩
  have e1 := run_loop_fun (n := 3) (body := fun i _ => (do if (← gl i) < (← Call.rawGet 6 o i) then Call.rawSet 6 o i (← gl i))) (mem := fun u => Spec.store h o u) f
    (fun i hi u => by rw [hf]; simp only [dif_pos hi]; exact (merge_step u (hl i hi u) i (by omega)).1) (Spec.corners b)
  have e2 := fun u => run_loop_fun (n := 3) (body := fun i _ => (do if (← gh i) > (← Call.rawGet 6 o (3 + i)) then Call.rawSet 6 o (3 + i) (← gh i))) (mem := fun u => Spec.store h o u) g
    (fun i hi u => by rw [hg]; simp only [dif_pos hi]; exact (merge_step u (hh i hi u) (3 + i) (by omega)).2) u
  rw [← holds_store hb] at e1
  rw [Call.run_bind_ok e1, e2]
  congr 2
  have f1 : ∀ i (hi : i < 3) (u : Vec 6 α) j (hj : j < 6), (f i u)[j] = if j = i then (if lower[i] < u[i] then lower[i] else u[i]) else u[j] := by
    intro i hi u j hj
    rw [hf]
    simp only [dif_pos hi]
    by_cases c : lower[i] < u[i]
    · simp only [if_pos c, Vector.getElem_set]
      by_cases hij : i = j
      · subst hij; simp
      · rw [if_neg hij, if_neg (Ne.symm hij)]
    · simp only [if_neg c]
      by_cases hij : j = i
      · subst hij; simp
      · rw [if_neg hij]
  have g1 : ∀ i (hi : i < 3) (u : Vec 6 α) j (hj : j < 6), (g i u)[j] = if j = 3 + i then (if upper[i] > u[3 + i] then upper[i] else u[3 + i]) else u[j] := by
    intro i hi u j hj
    rw [hg]
    simp only [dif_pos hi]
    by_cases c : upper[i] > u[3 + i]
    · simp only [if_pos c, Vector.getElem_set]
      by_cases hij : 3 + i = j
      · subst hij; simp
      · rw [if_neg hij, if_neg (Ne.symm hij)]
    · simp only [if_neg c]
      by_cases hij : j = 3 + i
      · subst hij; simp
      · rw [if_neg hij]
  have lo : ∀ (v : Vec 3 α) (i : Fin 3) (x : α) j (hj : j < 3), (Box.lowerTo v i x)[j] = if j = i.1 then (if x < v[i] then x else v[i]) else v[j] := by
    intro v i x j hj
    unfold Box.lowerTo
    by_cases c : x < v[i]
    · simp only [if_pos c, Vector.getElem_set]
      by_cases hij : i.1 = j
      · subst hij; simp
      · rw [if_neg hij, if_neg (Ne.symm hij)]
    · simp only [if_neg c]
      by_cases hij : j = i.1
      · subst hij; simp
      · rw [if_neg hij]
  have hi' : ∀ (v : Vec 3 α) (i : Fin 3) (x : α) j (hj : j < 3), (Box.raiseTo v i x)[j] = if j = i.1 then (if x > v[i] then x else v[i]) else v[j] := by
    intro v i x j hj
    unfold Box.raiseTo
    by_cases c : x > v[i]
    · simp only [if_pos c, Vector.getElem_set]
      by_cases hij : i.1 = j
      · subst hij; simp
      · rw [if_neg hij, if_neg (Ne.symm hij)]
    · simp only [if_neg c]
      by_cases hij : j = i.1
      · subst hij; simp
      · rw [if_neg hij]
  ext j hj
  have : j = 0 ∨ j = 1 ∨ j = 2 ∨ j = 3 ∨ j = 4 ∨ j = 5 := by omega
  rcases this with rfl | rfl | rfl | rfl | rfl | rfl <;> (simp [iter, f1, g1, Box.mergeBox, Spec.corners, lo, hi']; try rfl)

/-- **C154** `merge( point )` and `merge( aabb )` executed without interruption. -/
theorem C154_merge_call (h : Mem α) (o p : Nat) (ho : p ≠ o) (b : Box α) (hb : Spec.Holds h o (Spec.corners b)) :
    (∀ q : Vec 3 α, Spec.Holds h p q → (Call.mergePoint o p).run h = (.ok (), Spec.store h o (Spec.corners (b.mergePoint q)))) ∧
    (∀ a : Box α, Spec.Holds h p (Spec.corners a) → (Call.mergeBox o p).run h = (.ok (), Spec.store h o (Spec.corners (b.mergeBox a)))) := by
  have e : ∀ {n : Nat} (w : Vec n α) {i : Nat} (hi : i < n), w.rawGet i = .ok w[i] := by intro n w i hi; unfold Vec.rawGet; rw [dif_pos hi]; rfl
  constructor
  · intro q hq
    have g : ∀ i (hi : i < 3) (u : Vec 6 α), (Call.rawGet 3 p i : Call α α).run (Spec.store h o u) = (.ok q[i], Spec.store h o u) := fun i hi u => by
      have := pure_rawGet (store_other ho u hq) i; rwa [e q hi] at this
    exact merge_any (lower := q) (upper := q) g g b hb
  · intro a ha
    have g : ∀ i (hi : i < 6) (u : Vec 6 α), (Call.rawGet 6 p i : Call α α).run (Spec.store h o u) = (.ok (Spec.corners a)[i], Spec.store h o u) := fun i hi u => by
      have := pure_rawGet (store_other ho u ha) i; rwa [e _ hi] at this
    refine merge_any (gl := fun i => Call.rawGet 6 p i) (gh := fun i => Call.rawGet 6 p (3 + i)) (lower := a.min) (upper := a.max) (fun i hi u => ?_) (fun i hi u => ?_) b hb
    · have c : i = 0 ∨ i = 1 ∨ i = 2 := by omega
      rcases c with rfl | rfl | rfl <;> exact g _ (by omega) u
    · have c : i = 0 ∨ i = 1 ∨ i = 2 := by omega
      rcases c with rfl | rfl | rfl <;> exact g _ (by omega) u

/-- **C154** `isIn` and `squared_length` executed without interruption. -/
theorem C154_query_calls (h : Mem α) (o p : Nat) :
    (∀ (b : Box α) (q : Vec 3 α), Spec.Holds h o (Spec.corners b) → Spec.Holds h p q → (Call.isIn o p).run h = (.ok (b.isIn q), h)) ∧
    (∀ v : Vec M α, Spec.Holds h o v → (Call.squaredLength M o).run h = (v.squaredLength, h)) := by
  refine ⟨fun b q hb hq => ?_, fun v hv => ?_⟩
  · have e : ∀ {n : Nat} (w : Vec n α) {i : Nat} (hi : i < n), w.rawGet i = .ok w[i] := by intro n w i hi; unfold Vec.rawGet; rw [dif_pos hi]; rfl
    have g1 : ∀ i (hi : i < 3), (Call.rawGet 3 p i : Call α α).run h = (.ok q[i], h) := fun i hi => by have := pure_rawGet hq i; rwa [e q hi] at this
    have g2 : ∀ i (hi : i < 6), (Call.rawGet 6 o i : Call α α).run h = (.ok (Spec.corners b)[i], h) := fun i hi => by have := pure_rawGet hb i; rwa [e _ hi] at this
    unfold Call.isIn Box.isIn
    rw [Call.run_bind_ok (g1 0 (by omega)), Call.run_bind_ok (g2 3 (by omega)), show (Spec.corners b)[3] = b.max[0] from rfl]
    by_cases c1 : q[0] > b.max[0]
    · rw [if_pos c1, if_pos (.inl c1)]; rfl
    rw [if_neg c1, Call.run_bind_ok (g1 1 (by omega)), Call.run_bind_ok (g2 4 (by omega)), show (Spec.corners b)[4] = b.max[1] from rfl]
    by_cases c2 : q[1] > b.max[1]
    · rw [if_pos c2, if_pos (.inr (.inl c2))]; rfl
    rw [if_neg c2, Call.run_bind_ok (g1 2 (by omega)), Call.run_bind_ok (g2 5 (by omega)), show (Spec.corners b)[5] = b.max[2] from rfl]
    by_cases c3 : q[2] > b.max[2]
    · rw [if_pos c3, if_pos (.inr (.inr (.inl c3)))]; rfl
    rw [if_neg c3, Call.run_bind_ok (g1 0 (by omega)), Call.run_bind_ok (g2 0 (by omega)), show (Spec.corners b)[0] = b.min[0] from rfl]
    by_cases c4 : q[0] < b.min[0]
    · rw [if_pos c4, if_pos (.inr (.inr (.inr (.inl c4))))]; rfl
    rw [if_neg c4, Call.run_bind_ok (g1 1 (by omega)), Call.run_bind_ok (g2 1 (by omega)), show (Spec.corners b)[1] = b.min[1] from rfl]
    by_cases c5 : q[1] < b.min[1]
    · rw [if_pos c5, if_pos (.inr (.inr (.inr (.inr (.inl c5)))))]; rfl
    rw [if_neg c5, Call.run_bind_ok (g1 2 (by omega)), Call.run_bind_ok (g2 2 (by omega)), show (Spec.corners b)[2] = b.min[2] from rfl]
    by_cases c6 : q[2] < b.min[2]
    · rw [if_pos c6, if_pos (.inr (.inr (.inr (.inr (.inr c6)))))]; rfl
    rw [if_neg c6, if_neg (by rintro (c | c | c | c | c | c) <;> contradiction)]; rfl
  · exact pure_loop' (fun i _ t => pure_bind' (pure_rawGet hv i) fun _ => pure_bind' (pure_rawGet hv i) fun _ => pure_pure h _) _

/-- **C154** `operator*=`, `+=` of matrices, `multiply_piecewise` and `transpose_to` executed without interruption on different objects. -/
theorem C154_matrix_calls (cfg : Cfg) (h : Mem α) (o o₁ : Nat) (ho : o₁ ≠ o) :
    (∀ v w : Vec M α, Spec.Holds h o v → Spec.Holds h o₁ w → ∃ r, v.mulAssign cfg w = .ok r ∧ (Call.mulAssign cfg M o o₁).run h = (.ok (), Spec.store h o r)) ∧
    (∀ m a : Mat M N α, Spec.Holds h o m.array → Spec.Holds h o₁ a.array →
      (∃ r, m.addAssign a = .ok r ∧ (Call.matAddAssign M N o o₁).run h = (.ok (), Spec.store h o r.array)) ∧
      (∃ r, m.multiplyPiecewise cfg a = .ok r ∧ (Call.multiplyPiecewise cfg M N o o₁).run h = (.ok (), Spec.store h o r.array))) ∧
    (∀ (a : Mat M N α) (t : Mat N M α), Spec.Holds h o₁ a.array → Spec.Holds h o t.array →
      ∃ r, a.transposeTo cfg t = .ok r ∧ (Call.transposeTo cfg M N o₁ o).run h = (.ok (), Spec.store h o r.array)) := by
  refine ⟨fun v w hv hw => ?_, fun m a hm ha => ⟨?_, ?_⟩, fun a t ha ht => ?_⟩
  · obtain ⟨r, e1, e2⟩ := run_loop (n := M) (body := fun i _ => do Call.vset cfg M o i ((← Call.vget cfg M o i) * (← Call.vget cfg M o₁ i)))
      (body' := fun i (r : Vec M α) => do r.atSet cfg i ((← r.atGet cfg i) * (← w.atGet cfg i))) (mem := fun v => Spec.store h o v) (by
        intro i hi u
        refine ⟨u.set i (u[i] * w[i]), by simp [hi], ?_⟩
        have g1 := pure_vget cfg (store_holds h o u) i
        have g2 := pure_vget cfg (store_other ho u hw) i
        rw [Vec.atGet_lt cfg _ hi] at g1 g2
        rw [Call.run_bind_ok g1, Call.run_bind_ok g2]
        exact run_vset cfg u hi _) v
    refine ⟨r, e1, ?_⟩
    rw [← holds_store hv] at e2
    exact e2
  · obtain ⟨r, e1, e2⟩ := run_loop (n := M * N) (body := fun i _ => do Call.rawSet (M * N) o i ((← Call.rawGet (M * N) o i) + (← Call.rawGet (M * N) o₁ i)))
      (body' := fun i (m : Mat M N α) => do m.rawSet i ((← m.rawGet i) + (← a.rawGet i))) (mem := fun v => Spec.store h o v.array) (by
        intro i hi u
        have e : ∀ w : Vec (M * N) α, w.rawGet i = .ok w[i] := by intro w; unfold Vec.rawGet; rw [dif_pos hi]; rfl
        have g1 := pure_rawGet (store_holds h o u.array) i
        have g2 := pure_rawGet (store_other ho u.array ha) i
        rw [e] at g1 g2
        refine ⟨⟨u.array.set i (u.array[i] + a.array[i])⟩, ?_, ?_⟩
        · unfold Mat.rawGet Mat.rawSet
          rw [e, e, bind_ok, bind_ok]
          unfold Vec.rawSet
          rw [dif_pos hi]; rfl
        · rw [Call.run_bind_ok g1, Call.run_bind_ok g2]
          exact run_rawSet u.array hi _) m
    refine ⟨r, e1, ?_⟩
    rw [← holds_store hm] at e2
    exact e2
  · obtain ⟨r, e1, e2⟩ := run_loop (n := M) (body := fun r _ => Call.loop N (fun c _ => do Call.mset cfg M N o r c ((← Call.mget cfg M N o r c) * (← Call.mget cfg M N o₁ r c))) ())
      (body' := fun r (m : Mat M N α) => loop N (fun c m => do m.atSet cfg r c ((← m.atGet cfg r c) * (← a.atGet cfg r c))) m) (mem := fun v => Spec.store h o v.array) (by
        intro r hr u
        refine run_loop (mem := fun v : Mat M N α => Spec.store h o v.array) (fun c hc u => ?_) u
        refine ⟨u.put ⟨r, hr⟩ ⟨c, hc⟩ (u.get ⟨r, hr⟩ ⟨c, hc⟩ * a.get ⟨r, hr⟩ ⟨c, hc⟩), by simp [hr, hc], ?_⟩
        have g1 := pure_mget cfg (store_holds h o u.array) r c
        have g2 := pure_mget cfg (store_other ho u.array ha) r c
        rw [Mat.atGet_lt cfg _ hr hc] at g1 g2
        rw [Call.run_bind_ok g1, Call.run_bind_ok g2]
        exact run_mset cfg u hr hc _) m
    refine ⟨r, e1, ?_⟩
    rw [← holds_store hm] at e2
    exact e2
  · obtain ⟨r, e1, e2⟩ := run_loop (n := M) (body := fun r _ => Call.loop N (fun c _ => do Call.mset cfg N M o c r (← Call.mget cfg M N o₁ r c)) ())
      (body' := fun r (t : Mat N M α) => loop N (fun c t => do t.atSet cfg c r (← a.atGet cfg r c)) t) (mem := fun v => Spec.store h o v.array) (by
        intro r hr u
        refine run_loop (mem := fun v : Mat N M α => Spec.store h o v.array) (fun c hc u => ?_) u
        refine ⟨u.put ⟨c, hc⟩ ⟨r, hr⟩ (a.get ⟨r, hr⟩ ⟨c, hc⟩), by simp [hr, hc], ?_⟩
        have g2 := pure_mget cfg (store_other ho u.array ha) r c
        rw [Mat.atGet_lt cfg _ hr hc] at g2
        rw [Call.run_bind_ok g2]
        exact run_mset cfg u hc hr _) t
    refine ⟨r, e1, ?_⟩
    rw [← holds_store ht] at e2
    exact e2

/-- **C154** A thread alone makes its calls one after the other. -/
theorem C154_sequence (cfg : Cfg) (op : Spec.Op) (ops : List Spec.Op) (h h₁ h₂ : Mem α) (r : Spec.Out α) (rs : List (Spec.Out α)) (e₁ : (op.call cfg : Call α _).run h = (.ok r, h₁))
    (e₂ : (Spec.thread cfg ops : Call α _).run h₁ = (.ok rs, h₂)) : (Spec.thread cfg (op :: ops) : Call α _).run h = (.ok (r :: rs), h₂) := by
  unfold Spec.thread
  rw [Call.run_bind_ok e₁, Call.run_bind_ok e₂]; rfl

/-- **C154** Threads sharing operands: every thread multiplies the shared matrix `a` with a matrix of its own (or a shared one) into a matrix of its own. Under any schedule, when a thread has finished, its matrix is the
product, as computed by one thread alone. -/
theorem C154_shared_operand [DecidableEq ι] (cfg : Cfg) (h : Mem α) (a : Nat) (b c : ι → Nat) (hc : Function.Injective c) (hca : ∀ i, a ≠ c i) (hcb : ∀ i j, b j ≠ c i)
    (A : Mat M P α) (B : ι → Mat P N α) (C : ι → Mat M N α) (hA : Spec.Holds h a A.array) (hB : ∀ i, Spec.Holds h (b i) (B i).array) (hC : ∀ i, Spec.Holds h (c i) (C i).array) (σ : List ι) (i : ι)
    (r : Res (List (Spec.Out α))) (hr : (Prog.Config.exec ⟨h, fun i => (Spec.thread cfg [.multiply M P N (c i) a (b i)] : Call α _)⟩ σ).thread i = .ret r) :
    r = .ok [.nothing] ∧ ∃ m, (C i).multiply cfg A (B i) = .ok m ∧ Spec.Holds (Prog.Config.exec ⟨h, fun i => (Spec.thread cfg [.multiply M P N (c i) a (b i)] : Call α _)⟩ σ).heap (c i) m.array := by
  have sep : Spec.Separate fun i => [Spec.Op.multiply M P N (c i) a (b i)] := by
    intro i j hij op h1 o h2 op' h3
    simp only [List.mem_singleton] at h1 h3
    subst h1 h3
    simp only [Spec.Op.writes, List.mem_singleton] at h2
    subst h2
    simp only [Spec.Op.reads, Spec.Op.writes, List.mem_cons, List.mem_nil_iff, or_false]
    exact ⟨by rintro (e | e); exact hca i e.symm; exact hcb i j e.symm, fun e => hij (hc e)⟩
  obtain ⟨m, e1, e2⟩ := (C154_writing_calls cfg h (c i) a (b i)).2 (C i) A (B i) (hC i) hA (hB i) (hca i) (hcb i i)
  have e3 : (Spec.thread cfg [.multiply M P N (c i) a (b i)] : Call α _).run h = (.ok [.nothing], Spec.store h (c i) m.array) :=
    C154_sequence cfg _ [] h _ _ .nothing [] (by unfold Spec.Op.call; rw [Call.run_bind_ok e2]; rfl) rfl
  obtain ⟨q1, q2⟩ := (C154_isolated cfg _ sep h σ).1 i r hr
  rw [e3] at q1 q2
  refine ⟨q1, m, e1, fun k => ?_⟩
  rw [q2 _ (List.mem_singleton_self _) (c i) (.inr (by simp [Spec.Op.writes]))]
  exact store_holds h (c i) m.array k
end calls


/-! ## Why separation is needed -/

/-- A box `[0, 0]` (object 0) and the points `(-1, 0, 0)` (object 1) and `(-2, 0, 0)` (object 2). -/
private def scene : Mem Int := fun l => if l = (1, 0) then -1 else if l = (2, 0) then -2 else 0

/-- **C154** The library does not synchronise: two threads that merge a point into the same box can lose one of the points. Both calls return, and the point of the second thread is not in the box. -/
theorem C154_lost_update : ∃ σ : List Bool,
    (∀ i, ∃ r, (Prog.Config.exec ⟨scene, fun i => Spec.thread ⟨true, true, true⟩ [.mergePoint 0 (if i then 2 else 1)]⟩ σ).thread i = .ret (.ok r)) ∧
    scene (2, 0) < (Prog.Config.exec ⟨scene, fun i => Spec.thread ⟨true, true, true⟩ [.mergePoint 0 (if i then 2 else 1)]⟩ σ).heap (0, 0) := by
  refine ⟨List.replicate 3 false ++ List.replicate 14 true ++ List.replicate 11 false, ?_, ?_⟩
  · intro i
    cases i
    · exact ⟨[.nothing], rfl⟩
    · exact ⟨[.nothing], rfl⟩
  · decide

/-- The hypotheses of `C154_shared_operand` are met by three threads: object 0 is shared, thread `i` reads object `1 + i` and writes object `4 + i`. -/
example : Function.Injective (fun i : Fin 3 => 4 + i.1) ∧ (∀ i : Fin 3, 0 ≠ 4 + i.1) ∧ ∀ i j : Fin 3, 1 + j.1 ≠ 4 + i.1 :=
  ⟨fun i j h => Fin.ext (by simpa using h), fun i => by omega, fun i j => by omega⟩

/-- Threads that are separate and share a culler (object 0) and a matrix (object 1). -/
example : Spec.Separate (fun i : Fin 4 => [.testSphere 0 (10 + i), .mulVec 4 4 1 (10 + i), .assign 4 (20 + i) (10 + i), .addAssign 4 (20 + i) 2]) := by
  intro i j hij op h1 o h2 op' h3
  have hij' : i.1 ≠ j.1 := fun e => hij (Fin.ext e)
  simp only [List.mem_cons, List.mem_nil_iff, or_false] at h1 h3
  rcases h1 with rfl | rfl | rfl | rfl <;> simp [Spec.Op.writes] at h2 <;> subst h2 <;> rcases h3 with rfl | rfl | rfl | rfl <;> simp [Spec.Op.reads, Spec.Op.writes] <;> omega

end Vmml
