import Verif.Proofs.MatrixLemmas

/-! A composable rule for nested loops that fill cells with the values of a fixed table. -/

namespace Vmml
namespace Mat
variable {M N : Nat} {α : Type}

/-- `m'` is `m` with the cells in `S` set to the values of the table `G`. -/
def Paint (m m' : Mat M N α) (S : Fin M → Fin N → Prop) (G : Fin M → Fin N → α) : Prop :=
  ∀ r c, (S r c → m'.get r c = G r c) ∧ (¬ S r c → m'.get r c = m.get r c)

theorem Paint.put (m : Mat M N α) (r : Fin M) (c : Fin N) (G : Fin M → Fin N → α) :
    Paint m (m.put r c (G r c)) (fun r' c' => r = r' ∧ c = c') G := by
  intro r' c'
  constructor
  · rintro ⟨rfl, rfl⟩; simp
  · intro h; rw [get_put, if_neg h]

theorem Paint.refl (m : Mat M N α) (G : Fin M → Fin N → α) : Paint m m (fun _ _ => False) G :=
  fun _ _ => ⟨fun h => h.elim, fun _ => rfl⟩

theorem Paint.trans {m m' m'' : Mat M N α} {S T : Fin M → Fin N → Prop} {G : Fin M → Fin N → α}
    (h1 : Paint m m' S G) (h2 : Paint m' m'' T G) : Paint m m'' (fun r c => S r c ∨ T r c) G := by
  intro r c
  constructor
  · intro h
    by_cases hT : T r c
    · exact (h2 r c).1 hT
    · rw [(h2 r c).2 hT]
      exact (h1 r c).1 (h.resolve_right hT)
  · intro h
    rw [(h2 r c).2 (fun h' => h (Or.inr h')), (h1 r c).2 (fun h' => h (Or.inl h'))]

theorem Paint.congr {m m' : Mat M N α} {S T : Fin M → Fin N → Prop} {G : Fin M → Fin N → α}
    (h1 : Paint m m' S G) (h : ∀ r c, T r c ↔ S r c) : Paint m m' T G := by
  intro r c; rw [h]; exact h1 r c

/-- Everything painted: the result is the table. -/
theorem Paint.all {m m' : Mat M N α} {S : Fin M → Fin N → Prop} {G : Fin M → Fin N → α}
    (h1 : Paint m m' S G) (h : ∀ r c, S r c) : m' = ofFn G := by
  ext r c; rw [(h1 r c).1 (h r c), get_ofFn]

/-- Loop rule. `π` projects the matrix out of the loop state, `I` is an invariant of the rest. -/
theorem loop_paint {σ : Type} (π : σ → Mat M N α) (I : Nat → σ → Prop) {n : Nat} {body : Nat → σ → Res σ} {s : σ}
    (S : Nat → Fin M → Fin N → Prop) (G : Fin M → Fin N → α) (hI : I 0 s)
    (h : ∀ i, i < n → ∀ s, I i s → ∃ s', body i s = .ok s' ∧ I (i + 1) s' ∧ Paint (π s) (π s') (S i) G) :
    ∃ s', loop n body s = .ok s' ∧ I n s' ∧ Paint (π s) (π s') (fun r c => ∃ i, i < n ∧ S i r c) G := by
  induction n with
  | zero => exact ⟨s, rfl, hI, (Paint.refl _ _).congr (by simp)⟩
  | succ n ih =>
    obtain ⟨s', h1, h2, h3⟩ := ih (fun i hi => h i (by omega))
    obtain ⟨s'', h4, h5, h6⟩ := h n (by omega) s' h2
    refine ⟨s'', by rw [loop_succ, h1, bind_ok, h4], h5, (h3.trans h6).congr ?_⟩
    intro r c
    constructor
    · rintro ⟨i, hi, hS⟩
      rcases Nat.lt_succ_iff_lt_or_eq.1 hi with h | rfl
      · exact Or.inl ⟨i, h, hS⟩
      · exact Or.inr hS
    · rintro (⟨i, hi, hS⟩ | hS)
      · exact ⟨i, by omega, hS⟩
      · exact ⟨n, by omega, hS⟩

/-- Loop rule when the state is the matrix. -/
theorem loop_paint' {n : Nat} {body : Nat → Mat M N α → Res (Mat M N α)} {m : Mat M N α}
    (S : Nat → Fin M → Fin N → Prop) (G : Fin M → Fin N → α)
    (h : ∀ i, i < n → ∀ m, ∃ m', body i m = .ok m' ∧ Paint m m' (S i) G) :
    ∃ m', loop n body m = .ok m' ∧ Paint m m' (fun r c => ∃ i, i < n ∧ S i r c) G := by
  obtain ⟨m', h1, -, h2⟩ := loop_paint (M := M) (N := N) (α := α) id (fun _ _ => True) S G (s := m) (body := body)
    (n := n) trivial (fun i hi m _ => by
      obtain ⟨m', h1, h2⟩ := h i hi m
      exact ⟨m', h1, trivial, h2⟩)
  exact ⟨m', h1, h2⟩

end Mat
end Vmml
