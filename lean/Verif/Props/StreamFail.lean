import Verif.Props.Stream

/-!
# C104: reading from any stream, also a short, malformed or failed one
-/

namespace Vmml
open Mat
variable {M N : Nat} {α : Type}

/-- Specification: the first elements, at most `n`, that the element type's input operator finds at the front of `cs`, and the characters that remain. -/
def Spec.tokens (io : TextIO α) : Nat → List Char → List α × List Char
  | 0, cs => ([], cs)
  | n + 1, cs => match io.parse cs with
    | none => ([], cs)
    | some (x, rest) => (x :: (Spec.tokens io n rest).1, (Spec.tokens io n rest).2)

/-- Specification: what element number `p` (in reading order) holds after reading `n` elements from `cs`: the element found there; zero if the extraction failed
exactly there; otherwise what it held before. -/
def Spec.readInto [Zero α] (io : TextIO α) (n : Nat) (cs : List Char) (p : Nat) (old : α) : α :=
  if h : p < (Spec.tokens io n cs).1.length then (Spec.tokens io n cs).1[p]
  else if p = (Spec.tokens io n cs).1.length ∧ p < n then 0
  else old

/-- Specification: the stream after that: failed exactly if fewer than `n` elements were found. -/
def Spec.streamAfter (io : TextIO α) (n : Nat) (cs : List Char) : IStream :=
  ⟨(Spec.tokens io n cs).2, decide ((Spec.tokens io n cs).1.length < n)⟩

theorem tokens_length (io : TextIO α) (n : Nat) : ∀ cs, (Spec.tokens io n cs).1.length ≤ n := by
  induction n with
  | zero => intro cs; simp [Spec.tokens]
  | succ n ih =>
    intro cs
    cases h : io.parse cs with
    | none => simp [Spec.tokens, h]
    | some x => simpa [Spec.tokens, h] using ih x.2

theorem tokens_short (io : TextIO α) (n : Nat) : ∀ cs, (Spec.tokens io n cs).1.length < n → Spec.tokens io (n + 1) cs = Spec.tokens io n cs := by
  induction n with
  | zero => intro cs h; simp at h
  | succ n ih =>
    intro cs h
    cases hp : io.parse cs with
    | none => simp [Spec.tokens, hp]
    | some x =>
      have h' : (Spec.tokens io n x.2).1.length < n := by simpa [Spec.tokens, hp] using h
      have := ih x.2 h'
      rw [Spec.tokens, hp]
      simp only [this]
      rw [Spec.tokens, hp]

theorem tokens_full (io : TextIO α) (n : Nat) : ∀ cs, (Spec.tokens io n cs).1.length = n →
    Spec.tokens io (n + 1) cs = match io.parse (Spec.tokens io n cs).2 with
      | none => Spec.tokens io n cs
      | some (x, rest) => ((Spec.tokens io n cs).1 ++ [x], rest) := by
  induction n with
  | zero =>
    intro cs _
    cases hp : io.parse cs with
    | none => simp [Spec.tokens, hp]
    | some x => simp [Spec.tokens, hp]
  | succ n ih =>
    intro cs h
    cases hp : io.parse cs with
    | none => simp [Spec.tokens, hp] at h
    | some x =>
      have h' : (Spec.tokens io n x.2).1.length = n := by simpa [Spec.tokens, hp] using h
      have := ih x.2 h'
      have e : Spec.tokens io (n + 1) cs = (x.1 :: (Spec.tokens io n x.2).1, (Spec.tokens io n x.2).2) := by rw [Spec.tokens, hp]
      rw [Spec.tokens, hp, e]
      simp only [this]
      cases io.parse (Spec.tokens io n x.2).2 <;> simp

/-- One extraction: the stream and the element read go from `t` to `t + 1`, every other element keeps its value. -/
theorem extract_step [Zero α] (io : TextIO α) (cs : List Char) (t : Nat) (old : α) :
    (Spec.streamAfter io t cs).extract io (Spec.readInto io t cs t old) = (Spec.readInto io (t + 1) cs t old, Spec.streamAfter io (t + 1) cs) ∧
      ∀ p, p ≠ t → ∀ old, Spec.readInto io (t + 1) cs p old = Spec.readInto io t cs p old := by
  have hle := tokens_length io t cs
  by_cases hlt : (Spec.tokens io t cs).1.length < t
  · have hs := tokens_short io t cs hlt
    constructor
    · simp only [Spec.streamAfter, Spec.readInto, hs, IStream.extract, hlt, decide_true, if_true]
      rw [dif_neg (by omega), dif_neg (by omega), if_neg (by omega), if_neg (by omega)]
      simp; omega
    · intro p hp old
      simp only [Spec.readInto, hs]
      split_ifs <;> first | rfl | omega
  · have heq : (Spec.tokens io t cs).1.length = t := by omega
    have hs := tokens_full io t cs heq
    cases hp : io.parse (Spec.tokens io t cs).2 with
    | none =>
      rw [hp] at hs
      simp only at hs
      constructor
      · simp only [Spec.streamAfter, Spec.readInto, hs, IStream.extract, heq, lt_irrefl, decide_false, hp]
        simp
      · intro p hp old
        simp only [Spec.readInto, hs, heq]
        split_ifs <;> first | rfl | omega
    | some x =>
      rw [hp] at hs
      simp only at hs
      constructor
      · simp only [Spec.streamAfter, Spec.readInto, hs, IStream.extract, heq, lt_irrefl, decide_false, hp]
        simp [heq]
      · intro p hp old
        simp only [Spec.readInto, hs, heq, List.length_append, List.length_singleton]
        by_cases h1 : p < t
        · rw [dif_pos (by omega), dif_pos h1, List.getElem_append_left (by omega)]
        · rw [dif_neg (by omega), dif_neg h1, if_neg (by omega), if_neg (by omega)]

theorem readInto_zero [Zero α] (io : TextIO α) (cs : List Char) (p : Nat) (old : α) : Spec.readInto io 0 cs p old = old := by
  simp [Spec.readInto, Spec.tokens]

/-- C104. Reading a vector from any stream that has not failed: the elements found are stored in order, the element at which the extraction fails becomes zero, the
ones behind it keep their values, and the stream has failed exactly if fewer than `M` elements were found. -/
theorem C104_vector [Zero α] (cfg : Cfg) (io : TextIO α) (v : Vec M α) (cs : List Char) :
    v.readFromStream cfg io ⟨cs, false⟩ = .ok (Vector.ofFn fun i : Fin M => Spec.readInto io M cs i.1 v[i], Spec.streamAfter io M cs) := by
  obtain ⟨s, h1, h2, h3⟩ := loop_ok (n := M) (s := (v, (⟨cs, false⟩ : IStream))) (body := fun i s => do
    let r := s.2.extract io (← s.1.atGet cfg i)
    pure (← s.1.atSet cfg i r.1, r.2))
    (fun k s => (∀ i (hi : i < M), s.1[i] = Spec.readInto io k cs i v[i]) ∧ s.2 = Spec.streamAfter io k cs)
    ⟨by intro i hi; rw [readInto_zero], by simp [Spec.streamAfter, Spec.tokens]⟩ (by
    rintro i hi ⟨u, is⟩ ⟨h1, h2⟩
    simp only at h1 h2
    obtain ⟨e1, e2⟩ := extract_step io cs i v[i]
    simp only [Vec.atGet_lt cfg u hi, bind_ok, h1 i hi, h2, e1, Vec.atSet_lt cfg u _ hi, pure_ok]
    refine ⟨_, rfl, ?_, rfl⟩
    intro j hj
    simp only [Vector.getElem_set]
    split_ifs with hij
    · subst hij; rfl
    · rw [h1 j hj, e2 j (by omega)])
  unfold Vec.readFromStream
  rw [h1]
  congr 1
  refine Prod.ext ?_ h3
  ext i hi
  simp [h2 i hi]

/-- C104. Reading a matrix from any stream that has not failed, row by row; element `(r, c)` is number `r * N + c` in reading order. -/
theorem C104_matrix [Zero α] (cfg : Cfg) (io : TextIO α) (m : Mat M N α) (cs : List Char) :
    ∃ m', m.readFromStream cfg io ⟨cs, false⟩ = .ok (m', Spec.streamAfter io (M * N) cs) ∧
      ∀ r c, m'.toMat r c = Spec.readInto io (M * N) cs (r.1 * N + c.1) (m.toMat r c) := by
  set J : Nat → Mat M N α × IStream → Prop := fun t s =>
    (∀ (r : Fin M) (c : Fin N), s.1.get r c = Spec.readInto io t cs (r.1 * N + c.1) (m.get r c)) ∧ s.2 = Spec.streamAfter io t cs with hJ
  obtain ⟨s, h1, h2, h3⟩ := loop_ok (n := M) (s := (m, (⟨cs, false⟩ : IStream))) (body := fun row s => loop N (fun col s => do
      let r := s.2.extract io (← s.1.atGet cfg row col)
      pure (← s.1.atSet cfg row col r.1, r.2)) s)
    (fun k s => J (k * N) s)
    ⟨by intro r c; rw [Nat.zero_mul, readInto_zero], by simp [Spec.streamAfter, Spec.tokens]⟩ (by
    intro row hrow s hs
    rw [Nat.succ_mul]
    refine loop_ok (fun k s => J (row * N + k) s) hs ?_
    rintro col hcol ⟨u, is⟩ ⟨h1, h2⟩
    simp only at h1 h2
    obtain ⟨e1, e2⟩ := extract_step io cs (row * N + col) (m.get ⟨row, hrow⟩ ⟨col, hcol⟩)
    simp only [Mat.atGet_lt cfg u hrow hcol, bind_ok, h1 ⟨row, hrow⟩ ⟨col, hcol⟩, h2, e1, Mat.atSet_lt cfg u _ hrow hcol, pure_ok]
    refine ⟨_, rfl, ?_, rfl⟩
    intro r c
    simp only [get_put]
    split_ifs with hij
    · obtain ⟨rfl, rfl⟩ := hij; rfl
    · rw [h1 r c, ← Nat.add_assoc, e2 _ ?_]
      intro he
      apply hij
      have hc := c.2
      have hd : r.1 = row := by
        have := congrArg (· / N) he
        simpa [Nat.add_comm, Nat.add_mul_div_right, Nat.div_eq_of_lt hc, Nat.div_eq_of_lt hcol, Nat.lt_of_le_of_lt (Nat.zero_le _) hc] using this
      refine ⟨Fin.ext hd.symm, Fin.ext ?_⟩
      rw [hd] at he
      exact (Nat.add_left_cancel he).symm)
  refine ⟨s.1, ?_, ?_⟩
  · unfold Mat.readFromStream
    rw [h1]
    congr 1
    exact Prod.ext rfl h3
  · intro r c
    simpa [toMat_apply] using h2 r c

/-- C104. Reading from a stream that has failed changes neither the object nor the stream. -/
theorem C104_failed [Zero α] (cfg : Cfg) (io : TextIO α) (v : Vec M α) (m : Mat M N α) (cs : List Char) :
    v.readFromStream cfg io ⟨cs, true⟩ = .ok (v, ⟨cs, true⟩) ∧ m.readFromStream cfg io ⟨cs, true⟩ = .ok (m, ⟨cs, true⟩) := by
  constructor
  · obtain ⟨s, h1, h2⟩ := loop_ok (n := M) (s := (v, (⟨cs, true⟩ : IStream))) (body := fun i s => do
      let r := s.2.extract io (← s.1.atGet cfg i)
      pure (← s.1.atSet cfg i r.1, r.2)) (fun _ s => s = (v, ⟨cs, true⟩)) rfl (by
      rintro i hi s rfl
      simp [hi, IStream.extract])
    unfold Vec.readFromStream
    rw [h1, h2]
  · obtain ⟨s, h1, h2⟩ := loop_ok (n := M) (s := (m, (⟨cs, true⟩ : IStream))) (body := fun row s => loop N (fun col s => do
        let r := s.2.extract io (← s.1.atGet cfg row col)
        pure (← s.1.atSet cfg row col r.1, r.2)) s) (fun _ s => s = (m, ⟨cs, true⟩)) rfl (by
      rintro row hrow s rfl
      refine loop_ok (fun _ (s : Mat M N α × IStream) => s = (m, ⟨cs, true⟩)) rfl ?_
      rintro col hcol s rfl
      simp only [Mat.atGet_lt cfg m hrow hcol, bind_ok, IStream.extract, if_true, Mat.atSet_lt cfg m _ hrow hcol, pure_ok]
      refine ⟨_, rfl, Prod.ext ?_ rfl⟩
      refine Mat.ext fun r c => ?_
      simp only [get_put]
      split_ifs with h
      · obtain ⟨rfl, rfl⟩ := h; rfl
      · rfl)
    unfold Mat.readFromStream
    rw [h1, h2]

/-- A short stream: `1 2` read into a vector of four integers. -/
example : Vec.readFromStream (Cfg.mk true true false) decimalIO (#v[7, 8, 9, 10] : Vec 4 Nat) ⟨"1 2 ".toList, false⟩ = .ok (#v[1, 2, 0, 10], ⟨" ".toList, true⟩) := by
  decide

end Vmml
