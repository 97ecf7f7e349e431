import Verif.Model.Vector
import Verif.Model.Matrix
import Lean.Elab.Tactic

/-!
# Calculus for C96, C97: no call faults, no call depends on the build configuration

Nothing here uses a law of the scalar type: all statements hold for `float`, `double` and integer types with any semantics of their operators.
-/

namespace Vmml
variable {α β γ σ : Type}

/-- The call returns normally in every build configuration, with the same value in all of them. -/
def Spec.Total (f : Cfg → Res β) : Prop := ∃ r, ∀ cfg, f cfg = .ok r

/-- `Spec.Total` with a postcondition. -/
def Spec.TotalP (P : β → Prop) (f : Cfg → Res β) : Prop := ∃ r, P r ∧ ∀ cfg, f cfg = .ok r

theorem total_of_P {P : β → Prop} {f : Cfg → Res β} (h : Spec.TotalP P f) : Spec.Total f := by
  obtain ⟨r, -, h⟩ := h; exact ⟨r, h⟩
theorem totalP_of {f : Cfg → Res β} (h : Spec.Total f) : Spec.TotalP (fun _ => True) f := by
  obtain ⟨r, h⟩ := h; exact ⟨r, trivial, h⟩
theorem total_pure (a : β) : Spec.Total (fun _ => (pure a : Res β)) := ⟨a, fun _ => rfl⟩
theorem total_okc (a : β) : Spec.Total (fun _ => (Except.ok a : Res β)) := ⟨a, fun _ => rfl⟩
theorem totalP_pure {P : β → Prop} {a : β} (h : P a) : Spec.TotalP P (fun _ => (pure a : Res β)) := ⟨a, h, fun _ => rfl⟩
theorem total_bind {x : Cfg → Res γ} {k : Cfg → γ → Res β} (hx : Spec.Total x) (hk : ∀ a, Spec.Total fun cfg => k cfg a) :
    Spec.Total fun cfg => x cfg >>= k cfg := by
  obtain ⟨a, ha⟩ := hx
  obtain ⟨b, hb⟩ := hk a
  exact ⟨b, fun cfg => by simp only [ha, bind_ok]; exact hb cfg⟩
theorem totalP_bind {P : γ → Prop} {Q : β → Prop} {x : Cfg → Res γ} {k : Cfg → γ → Res β} (hx : Spec.TotalP P x)
    (hk : ∀ a, P a → Spec.TotalP Q fun cfg => k cfg a) : Spec.TotalP Q fun cfg => x cfg >>= k cfg := by
  obtain ⟨a, hp, ha⟩ := hx
  obtain ⟨b, hq, hb⟩ := hk a hp
  exact ⟨b, hq, fun cfg => by simp only [ha, bind_ok]; exact hb cfg⟩
theorem total_bindP {P : γ → Prop} {x : Cfg → Res γ} {k : Cfg → γ → Res β} (hx : Spec.TotalP P x)
    (hk : ∀ a, P a → Spec.Total fun cfg => k cfg a) : Spec.Total fun cfg => x cfg >>= k cfg :=
  total_of_P (totalP_bind hx fun a ha => totalP_of (hk a ha))
theorem totalP_loop {I : Nat → σ → Prop} {n : Nat} {body : Cfg → Nat → σ → Res σ} {s : σ} (h0 : I 0 s)
    (h : ∀ i, i < n → ∀ s, I i s → Spec.TotalP (I (i + 1)) fun cfg => body cfg i s) : Spec.TotalP (I n) fun cfg => loop n (body cfg) s := by
  induction n with
  | zero => exact ⟨s, h0, fun _ => rfl⟩
  | succ n ih => exact totalP_bind (k := fun cfg => body cfg n) (ih fun i hi => h i (by omega)) (h n (by omega))
theorem total_loop {n : Nat} {body : Cfg → Nat → σ → Res σ} {s : σ} (h : ∀ i, i < n → ∀ s, Spec.Total fun cfg => body cfg i s) :
    Spec.Total fun cfg => loop n (body cfg) s :=
  total_of_P (totalP_loop (I := fun _ _ => True) trivial fun i hi s _ => totalP_of (h i hi s))
theorem total_loopRet {n : Nat} {body : Cfg → Nat → Res (Option β)} (h : ∀ i, i < n → Spec.Total fun cfg => body cfg i) :
    Spec.Total fun cfg => loopRet n (body cfg) := by
  refine total_loop (body := fun cfg i r => match r with
    | some b => pure (some b)
    | none => body cfg i) fun i hi s => ?_
  cases s
  · exact h i hi
  · exact total_pure _
theorem total_ite {c : Prop} [Decidable c] {a b : Cfg → Res β} (ha : c → Spec.Total a) (hb : ¬ c → Spec.Total b) :
    Spec.Total fun cfg => if c then a cfg else b cfg := by
  by_cases h : c
  · simpa [h] using ha h
  · simpa [h] using hb h
theorem totalP_ite {c : Prop} [Decidable c] {P : β → Prop} {a b : Cfg → Res β} (ha : c → Spec.TotalP P a) (hb : ¬ c → Spec.TotalP P b) :
    Spec.TotalP P fun cfg => if c then a cfg else b cfg := by
  by_cases h : c
  · simpa [h] using ha h
  · simpa [h] using hb h
theorem total_check {b : Bool} (h : b = true) : Spec.Total fun cfg => cassert cfg b := ⟨(), fun cfg => by simp [cassert, h]⟩

/-- `if( bad ) VMMLIB_ERROR( .. )` followed by `k`, `bad` being false. -/
theorem total_guard {g : Cfg → Bool} {a k : Cfg → Res β} (hg : ∀ cfg, g cfg = false) (hk : Spec.Total k) :
    Spec.Total fun cfg => if g cfg = true then a cfg else k cfg := by
  obtain ⟨r, h⟩ := hk
  exact ⟨r, fun cfg => by simp [hg, h]⟩

variable {M N O P : Nat}

namespace Vec
theorem total_rawGet (v : Vec M α) {i : Nat} (h : i < M) : Spec.Total fun _ => v.rawGet i := ⟨v[i], fun _ => by simp [rawGet, h]⟩
theorem total_rawSet (v : Vec M α) {i : Nat} (h : i < M) (x : α) : Spec.Total fun _ => v.rawSet i x := ⟨v.set i x, fun _ => by simp [rawSet, h]⟩
theorem total_atGet (v : Vec M α) {i : Nat} (h : i < M) : Spec.Total fun cfg => v.atGet cfg i :=
  ⟨v[i], fun cfg => by simp [atGet, rawGet, h, show ¬ M ≤ i by omega]⟩
theorem total_atSet (v : Vec M α) {i : Nat} (h : i < M) (x : α) : Spec.Total fun cfg => v.atSet cfg i x :=
  ⟨v.set i x, fun cfg => by simp [atSet, rawSet, h, show ¬ M ≤ i by omega]⟩
end Vec

namespace Mat
theorem idx_lt {r c : Nat} (hr : r < M) (hc : c < N) : c * M + r < M * N := by
  calc c * M + r < c * M + M := by omega
    _ = (c + 1) * M := by ring
    _ ≤ N * M := Nat.mul_le_mul_right _ hc
    _ = M * N := Nat.mul_comm ..
theorem total_rawGet (m : Mat M N α) {i : Nat} (h : i < M * N) : Spec.Total fun _ => m.rawGet i := ⟨m.array[i], fun _ => by simp [rawGet, Vec.rawGet, h]⟩
theorem total_rawSet (m : Mat M N α) {i : Nat} (h : i < M * N) (x : α) : Spec.Total fun _ => m.rawSet i x :=
  ⟨⟨m.array.set i x⟩, fun _ => by simp [rawSet, Vec.rawSet, h]⟩
theorem total_atGet (m : Mat M N α) {r c : Nat} (hr : r < M) (hc : c < N) : Spec.Total fun cfg => m.atGet cfg r c := by
  obtain ⟨x, hx⟩ := total_rawGet m (idx_lt hr hc)
  exact ⟨x, fun cfg => by simpa [atGet, show ¬ M ≤ r by omega, show ¬ N ≤ c by omega] using hx cfg⟩
theorem total_atSet (m : Mat M N α) {r c : Nat} (hr : r < M) (hc : c < N) (x : α) : Spec.Total fun cfg => m.atSet cfg r c x := by
  obtain ⟨y, hy⟩ := total_rawSet m (idx_lt hr hc) x
  exact ⟨y, fun cfg => by simpa [atSet, show ¬ M ≤ r by omega, show ¬ N ≤ c by omega] using hy cfg⟩
theorem idx2_lt {m o : Nat} (hm : m < M) (ho : o < O) : O * m + o < M * O := by
  rw [Nat.mul_comm O, Nat.mul_comm M]; exact idx_lt ho hm
theorem total_bracketGet (m : Mat M N α) {r c : Nat} (hr : r < M) (hc : c < N) : Spec.Total fun cfg => m.bracketGet cfg r c := by
  obtain ⟨x, hx⟩ := total_rawGet m (idx_lt hr hc)
  exact ⟨x, fun cfg => by simpa [bracketGet, show ¬ M < r by omega, show ¬ N ≤ c by omega, Nat.add_comm r] using hx cfg⟩
theorem total_bracketSet (m : Mat M N α) {r c : Nat} (hr : r < M) (hc : c < N) (x : α) : Spec.Total fun cfg => m.bracketSet cfg r c x := by
  obtain ⟨y, hy⟩ := total_rawSet m (idx_lt hr hc) x
  exact ⟨y, fun cfg => by simpa [bracketSet, show ¬ M < r by omega, show ¬ N ≤ c by omega, Nat.add_comm r] using hy cfg⟩
end Mat

open Lean Elab Tactic Meta in
/-- One step for a callee `f`: applies the lemma `total_f` of its namespace and closes the index bounds. -/
elab "total_callee" : tactic => do
  let t ← instantiateMVars (← (← getMainGoal).getType)
  let .app _ f := t.consumeMData | throwError "not Total"
  let n ← lambdaTelescope f fun _ b => match b.getAppFn with
    | .const n _ => pure n
    | _ => throwError "no head"
  let .str p s := n | throwError "no name"
  let l := Name.str p ("total_" ++ s)
  unless (← getEnv).contains l do throwError "no lemma {l}"
  evalTactic (← `(tactic| (with_reducible apply $(mkIdent (`_root_ ++ l))) <;> first | assumption | omega))

/-- Structural steps. -/
macro "total" : tactic => `(tactic| (repeat' (first
  | with_reducible exact total_pure _
  | total_callee
  | with_reducible refine total_bind ?_ fun _ => ?_
  | with_reducible refine total_loop fun _ _ _ => ?_
  | with_reducible refine total_loopRet fun _ _ => ?_
  | with_reducible refine total_ite (fun _ => ?_) fun _ => ?_
  | dsimp only)))

end Vmml
