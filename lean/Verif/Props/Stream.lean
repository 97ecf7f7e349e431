import Verif.Model.Stream
import Verif.Proofs.MatrixLemmas
import Verif.Proofs.VectorLemmas
import Verif.Props.MatrixAccess
import Mathlib.Data.Nat.Digits.Lemmas
import Mathlib.Tactic.IntervalCases

/-!
# C46, C47, C83: streams, raw files, formatting state
-/

set_option linter.unusedSimpArgs false

namespace Vmml
open Mat
variable {M N : Nat} {α : Type}

/-! ## C46 -/

/-- The assumption on the element type's stream operators: a value written and followed by a blank reads back, after any number of
blanks, and leaves the blank that follows. -/
def Spec.ReadsBack (io : TextIO α) : Prop :=
  ∀ (x : α) (k : Nat) (rest : List Char),
    io.parse (List.replicate k ' ' ++ io.fmt x ++ ' ' :: rest) = some (x, ' ' :: rest)

/-- A stored value: a matrix or a vector of any size. -/
inductive Spec.Item (α : Type)
  | mat (M N : Nat) (m : Mat M N α)
  | vec (M : Nat) (v : Vec M α)

/-- Write one value. -/
def Spec.Item.write (cfg : Cfg) (io : TextIO α) : Spec.Item α → List Char → Res (List Char)
  | .mat _ _ m, os => m.writeToStream cfg io os
  | .vec _ v, os => v.writeToStream cfg io os

/-- Write several values one after another. -/
def Spec.writeAll (cfg : Cfg) (io : TextIO α) : List (Spec.Item α) → List Char → Res (List Char)
  | [], os => pure os
  | x :: xs, os => do Spec.writeAll cfg io xs (← x.write cfg io os)

/-- Read into a value of the same kind and size (its old contents are those of `x`). -/
def Spec.Item.read [Zero α] (cfg : Cfg) (io : TextIO α) : Spec.Item α → IStream → Res (Spec.Item α × IStream)
  | .mat M N m, is => do let r ← m.readFromStream cfg io is; pure (.mat M N r.1, r.2)
  | .vec M v, is => do let r ← v.readFromStream cfg io is; pure (.vec M r.1, r.2)

/-- Same kind and size. -/
def Spec.Item.SameShape : Spec.Item α → Spec.Item α → Prop
  | .mat M N _, .mat M' N' _ => M = M' ∧ N = N'
  | .vec M _, .vec M' _ => M = M'
  | _, _ => False

/-- Read into several variables one after another. -/
def Spec.readAll [Zero α] (cfg : Cfg) (io : TextIO α) : List (Spec.Item α) → IStream → Res (List (Spec.Item α) × IStream)
  | [], is => pure ([], is)
  | x :: xs, is => do
    let r ← x.read cfg io is
    let s ← Spec.readAll cfg io xs r.2
    pure (r.1 :: s.1, s.2)

/-- The text of a sequence of elements. -/
def text (io : TextIO α) (l : List α) : List Char := l.flatMap fun x => io.fmt x ++ [' ']

theorem text_append (io : TextIO α) (l l' : List α) : text io (l ++ l') = text io l ++ text io l' := by
  simp [text]

/-- The elements in writing order. -/
def Spec.Item.elements : Spec.Item α → List α
  | .mat M N m => (List.finRange M).flatMap fun r => (List.finRange N).map fun c => m.get r c
  | .vec _ v => v.toList

/-- A loop that appends to the output. -/
theorem loop_append {β : Type} {n : Nat} {body : Nat → List β → Res (List β)} (g : Fin n → List β) (os : List β)
    (h : ∀ i (hi : i < n) os, body i os = .ok (os ++ g ⟨i, hi⟩)) :
    loop n body os = .ok (os ++ (List.finRange n).flatMap g) := by
  induction n with
  | zero => simp
  | succ n ih =>
    rw [loop_succ, ih (fun i => g i.castSucc) (fun i hi s => h i (by omega) s), bind_ok, h n (by omega)]
    simp only [List.finRange_succ_last, List.flatMap_append, List.flatMap_map, List.flatMap_cons, List.flatMap_nil,
      List.append_nil, List.append_assoc]
    rfl

theorem flatMap_flatMap' {β γ δ : Type} (l : List β) (f : β → List γ) (g : γ → List δ) :
    (l.flatMap f).flatMap g = l.flatMap fun x => (f x).flatMap g := by
  induction l with
  | nil => rfl
  | cons a l ih => simp [List.flatMap_cons, ih]

theorem item_write (cfg : Cfg) (io : TextIO α) (x : Spec.Item α) (os : List Char) :
    x.write cfg io os = .ok (os ++ text io x.elements) := by
  cases x with
  | mat M N m =>
    simp only [Spec.Item.write, Mat.writeToStream, Spec.Item.elements, text]
    rw [loop_append (fun r => (List.finRange N).flatMap fun c => io.fmt (m.get r c) ++ [' ']) os (by
      intro r hr os
      rw [loop_append (fun c => io.fmt (m.get ⟨r, hr⟩ c) ++ [' ']) os (by
        intro c hc os
        rw [atGet_lt cfg m hr hc]; simp)])]
    simp [flatMap_flatMap', List.flatMap_map]
  | vec M v =>
    simp only [Spec.Item.write, Vec.writeToStream, Spec.Item.elements, text]
    rw [loop_append (fun i => io.fmt v[i] ++ [' ']) os (by
      intro i hi os
      rw [Vec.atGet_lt cfg v hi]; simp)]
    congr 2
    have : v.toList = (List.finRange M).map fun i => v[i] := by
      rw [← List.ofFn_eq_map]
      apply List.ext_getElem <;> simp
    rw [this, List.flatMap_map]

theorem extract_text [Zero α] {io : TextIO α} (h : Spec.ReadsBack io) (k : Nat) (x y : α) (l : List α) (rest : List Char) :
    IStream.extract io ⟨List.replicate k ' ' ++ text io (x :: l) ++ rest, false⟩ y =
      (x, ⟨List.replicate 1 ' ' ++ text io l ++ rest, false⟩) := by
  have := h x k (text io l ++ rest)
  simp only [text, List.flatMap_cons, List.append_assoc, List.singleton_append, List.nil_append, List.cons_append] at this ⊢
  simp [IStream.extract, this]

/-- What reading does with the text of the elements `l` followed by `rest`. -/
structure ReadState (io : TextIO α) (l : List α) (rest : List Char) (is : IStream) : Prop where
  fail : is.fail = false
  chars : ∃ k, is.chars = List.replicate k ' ' ++ text io l ++ rest

theorem ReadState.step [Zero α] {io : TextIO α} (h : Spec.ReadsBack io) {x : α} {l : List α} {rest : List Char} {is : IStream}
    (hs : ReadState io (x :: l) rest is) (y : α) : ∃ is', is.extract io y = (x, is') ∧ ReadState io l rest is' := by
  obtain ⟨h1, k, h2⟩ := hs
  obtain ⟨c, f⟩ := is
  simp only at h1 h2
  subst h1 h2
  exact ⟨_, extract_text h k x y l rest, rfl, 1, rfl⟩

theorem vec_read [Zero α] (cfg : Cfg) {io : TextIO α} (h : Spec.ReadsBack io) (v w : Vec M α) (l : List α) (rest : List Char)
    (is : IStream) (hs : ReadState io (v.toList ++ l) rest is) :
    ∃ is', w.readFromStream cfg io is = .ok (v, is') ∧ ReadState io l rest is' := by
  obtain ⟨s, h1, h2, h3⟩ := loop_ok (n := M) (s := (w, is)) (body := fun i s => do
    let r := s.2.extract io (← s.1.atGet cfg i)
    pure (← s.1.atSet cfg i r.1, r.2))
    (fun k s => (∀ i (hi : i < M), i < k → s.1[i] = v[i]) ∧ ReadState io (v.toList.drop k ++ l) rest s.2)
    ⟨by intro i hi h; omega, by simpa using hs⟩ (by
    rintro i hi ⟨u, is⟩ ⟨h1, h2⟩
    have e : v.toList.drop i = v[i] :: v.toList.drop (i + 1) := by
      rw [List.drop_eq_getElem_cons (by simpa using hi)]; simp
    rw [e, List.cons_append] at h2
    obtain ⟨is', h3, h4⟩ := h2.step h u[i]
    simp only [Vec.atGet_lt cfg u hi, bind_ok, h3, Vec.atSet_lt cfg u _ hi, pure_ok]
    refine ⟨_, rfl, ?_, h4⟩
    intro j hj hji
    simp only [Vector.getElem_set]
    split_ifs with hij
    · subst hij; rfl
    · exact h1 j hj (by omega))
  refine ⟨s.2, ?_, by rwa [List.drop_of_length_le (by simp), List.nil_append] at h3⟩
  have : s.1 = v := by ext i hi; exact h2 i hi hi
  show loop _ _ _ = _
  rw [h1, ← this]

theorem mat_read [Zero α] (cfg : Cfg) {io : TextIO α} (h : Spec.ReadsBack io) (m w : Mat M N α) (l : List α) (rest : List Char)
    (is : IStream) (hs : ReadState io ((Spec.Item.mat M N m).elements ++ l) rest is) :
    ∃ is', w.readFromStream cfg io is = .ok (m, is') ∧ ReadState io l rest is' := by
  have hrow : ∀ (r : Fin M) (l : List α) (w : Mat M N α) (is : IStream),
      ReadState io ((List.finRange N).map (fun c => m.get r c) ++ l) rest is →
      ∃ s, loop N (fun col s => do
        let x := s.2.extract io (← s.1.atGet cfg r col)
        pure (← s.1.atSet cfg r col x.1, x.2)) (w, is) = .ok s ∧
        (∀ r' c, s.1.get r' c = if r' = r then m.get r' c else w.get r' c) ∧ ReadState io l rest s.2 := by
    intro r l w is hs
    obtain ⟨s, h1, h2, h3⟩ := loop_ok (n := N) (s := (w, is)) (body := fun col s => do
        let x := s.2.extract io (← s.1.atGet cfg r col)
        pure (← s.1.atSet cfg r col x.1, x.2))
      (fun k s => (∀ r' c, s.1.get r' c = if r' = r ∧ c.1 < k then m.get r' c else w.get r' c) ∧
        ReadState io (((List.finRange N).map (fun c => m.get r c)).drop k ++ l) rest s.2)
      ⟨by intro r' c; simp, by simpa using hs⟩ (by
      rintro i hi ⟨u, is⟩ ⟨h1, h2⟩
      have e : ((List.finRange N).map (fun c => m.get r c)).drop i =
          m.get r ⟨i, hi⟩ :: ((List.finRange N).map (fun c => m.get r c)).drop (i + 1) := by
        rw [List.drop_eq_getElem_cons (by simpa using hi)]; simp
      rw [e, List.cons_append] at h2
      obtain ⟨is', h3, h4⟩ := h2.step h (u.get r ⟨i, hi⟩)
      simp only [atGet_lt cfg u r.2 hi, bind_ok, Fin.eta, h3, atSet_lt cfg u _ r.2 hi, pure_ok]
      refine ⟨_, rfl, ?_, h4⟩
      intro r' c
      have := h1 r' c
      simp only at this
      simp only [get_put, this]
      by_cases hr : r' = r
      · subst hr
        by_cases hc : c = ⟨i, hi⟩
        · subst hc; simp
        · have : c.1 ≠ i := fun h => hc (Fin.ext h)
          have e : (c.1 < i) = (c.1 < i + 1) := by simp only [eq_iff_iff]; omega
          simp only [Ne.symm hc, and_false, if_false, true_and, e]
      · simp only [hr, Ne.symm hr, false_and, if_false])
    refine ⟨s, h1, ?_, by rwa [List.drop_of_length_le (by simp), List.nil_append] at h3⟩
    intro r' c
    rw [h2]
    simp [c.2]
  have hdrop : ∀ i (hi : i < M), ((List.finRange M).drop i).flatMap (fun r => (List.finRange N).map fun c => m.get r c) =
      (List.finRange N).map (fun c => m.get ⟨i, hi⟩ c) ++
        ((List.finRange M).drop (i + 1)).flatMap (fun r => (List.finRange N).map fun c => m.get r c) := by
    intro i hi
    rw [List.drop_eq_getElem_cons (by simpa using hi), List.flatMap_cons]; simp
  obtain ⟨s, h1, h2, h3⟩ := loop_ok (n := M) (s := (w, is)) (body := fun row s => loop N (fun col s => do
      let r := s.2.extract io (← s.1.atGet cfg row col)
      pure (← s.1.atSet cfg row col r.1, r.2)) s)
    (fun k s => (∀ r c, r.1 < k → s.1.get r c = m.get r c) ∧
      ReadState io (((List.finRange M).drop k).flatMap (fun r => (List.finRange N).map fun c => m.get r c) ++ l) rest s.2)
    ⟨by intro r c h; omega, by simpa [Spec.Item.elements] using hs⟩ (by
    rintro i hi ⟨u, is⟩ ⟨h1, h2⟩
    rw [hdrop i hi, List.append_assoc] at h2
    obtain ⟨s, h3, h4, h5⟩ := hrow ⟨i, hi⟩ _ u is h2
    refine ⟨s, h3, ?_, h5⟩
    intro r c hr
    rw [h4]
    split_ifs with he
    · rfl
    · exact h1 r c (by have : r.1 ≠ i := fun h => he (Fin.ext h); omega))
  refine ⟨s.2, ?_, by rwa [List.drop_of_length_le (by simp), List.flatMap_nil, List.nil_append] at h3⟩
  have : s.1 = m := by ext r c; exact h2 r c r.2
  show loop _ _ _ = _
  rw [h1, ← this]

theorem item_read [Zero α] (cfg : Cfg) {io : TextIO α} (h : Spec.ReadsBack io) (x y : Spec.Item α) (hxy : x.SameShape y) (l : List α)
    (rest : List Char) (is : IStream) (hs : ReadState io (x.elements ++ l) rest is) :
    ∃ is', y.read cfg io is = .ok (x, is') ∧ ReadState io l rest is' := by
  cases x with
  | mat M N m =>
    cases y with
    | mat M' N' m' =>
      simp only [Spec.Item.SameShape] at hxy
      obtain ⟨h1, h2⟩ := hxy
      subst h1 h2
      obtain ⟨is', h1, h2⟩ := mat_read cfg h m m' l rest is hs
      exact ⟨is', by simp [Spec.Item.read, h1], h2⟩
    | vec => exact hxy.elim
  | vec M v =>
    cases y with
    | mat => exact hxy.elim
    | vec M' v' =>
      simp only [Spec.Item.SameShape] at hxy
      subst hxy
      obtain ⟨is', h1, h2⟩ := vec_read cfg h v v' l rest is hs
      exact ⟨is', by simp [Spec.Item.read, h1], h2⟩

/-- C46. Any sequence of matrices and vectors written with `write_to_stream` to one stream (after whatever it already contains) reads back
with `read_from_stream`, in order, into variables of the same sizes whatever they held, and the stream does not fail. -/
theorem C46_roundtrip [Zero α] (cfg : Cfg) (io : TextIO α) (h : Spec.ReadsBack io) (xs ys : List (Spec.Item α))
    (hs : List.Forall₂ Spec.Item.SameShape xs ys) (before : List Char) :
    ∃ written, Spec.writeAll cfg io xs before = .ok (before ++ written) ∧
      ∀ rest, ∃ is, Spec.readAll cfg io ys ⟨written ++ rest, false⟩ = .ok (xs, is) ∧ is.fail = false := by
  have hw : ∀ (xs : List (Spec.Item α)) (os : List Char),
      Spec.writeAll cfg io xs os = .ok (os ++ text io (xs.flatMap Spec.Item.elements)) := by
    intro xs
    induction xs with
    | nil => intro os; simp [Spec.writeAll, text]
    | cons x xs ih => intro os; simp [Spec.writeAll, item_write, ih, text_append]
  refine ⟨_, hw xs before, ?_⟩
  intro rest
  have key : ∀ (xs ys : List (Spec.Item α)), List.Forall₂ Spec.Item.SameShape xs ys → ∀ is : IStream,
      ReadState io (xs.flatMap Spec.Item.elements) rest is →
      ∃ is', Spec.readAll cfg io ys is = .ok (xs, is') ∧ is'.fail = false := by
    intro xs ys hs
    induction hs with
    | nil => intro is hs; exact ⟨is, rfl, hs.fail⟩
    | cons h1 _ ih =>
      intro is hs
      rw [List.flatMap_cons] at hs
      obtain ⟨is', h3, h4⟩ := item_read cfg h _ _ h1 _ rest is hs
      obtain ⟨is'', h5, h6⟩ := ih is' h4
      exact ⟨is'', by simp [Spec.readAll, h3, h5], h6⟩
  exact key xs ys hs _ ⟨rfl, 0, rfl⟩

/-- C46 for one matrix. -/
theorem C46_matrix [Zero α] (cfg : Cfg) (io : TextIO α) (h : Spec.ReadsBack io) (m m' : Mat M N α) :
    ∃ written is, m.writeToStream cfg io [] = .ok written ∧ m'.readFromStream cfg io ⟨written, false⟩ = .ok (m, is) ∧
      is.fail = false := by
  obtain ⟨is, h1, h2⟩ := mat_read cfg h m m' [] [] ⟨text io (Spec.Item.mat M N m).elements, false⟩
    ⟨rfl, 0, by simp⟩
  exact ⟨_, is, by simpa [Spec.Item.write] using item_write cfg io (.mat M N m) [], h1, h2.fail⟩

/-- Decimal output and input of unsigned integers. -/
def decimalIO : TextIO Nat where
  fmt n := if n = 0 then ['0'] else ((Nat.digits 10 n).map Nat.digitChar).reverse
  parse s :=
    let t := s.dropWhile (· == ' ')
    let d := t.takeWhile Char.isDigit
    if d = [] then none else some (Nat.ofDigits 10 (d.map fun c => c.toNat - 48).reverse, t.dropWhile Char.isDigit)

theorem digitChar_spec (d : Nat) (h : d < 10) : (Nat.digitChar d).isDigit = true ∧ (Nat.digitChar d == ' ') = false ∧
    (Nat.digitChar d).toNat - 48 = d := by
  interval_cases d <;> decide

/-- The assumption of C46 is met by decimal integers. -/
theorem decimalIO_readsBack : Spec.ReadsBack decimalIO := by
  intro n k rest
  have hfmt : ∃ d, decimalIO.fmt n = d ∧ d ≠ [] ∧ (∀ c ∈ d, c.isDigit = true ∧ (c == ' ') = false) ∧
      Nat.ofDigits 10 (d.map fun c => c.toNat - 48).reverse = n := by
    refine ⟨_, rfl, ?_⟩
    by_cases h0 : n = 0
    · subst h0; simp only [decimalIO, if_true]; exact ⟨by simp, by decide, by decide⟩
    · simp only [decimalIO, h0, if_false]
      refine ⟨by simpa [Nat.digits_eq_nil_iff_eq_zero] using h0, ?_, ?_⟩
      · intro c hc
        simp only [List.mem_reverse, List.mem_map] at hc
        obtain ⟨d, hd, rfl⟩ := hc
        have := digitChar_spec d (Nat.digits_lt_base (by norm_num) hd)
        exact ⟨this.1, this.2.1⟩
      · rw [List.map_reverse, List.reverse_reverse, List.map_map]
        have : (Nat.digits 10 n).map ((fun c : Char => c.toNat - 48) ∘ Nat.digitChar) = Nat.digits 10 n := by
          conv_rhs => rw [← List.map_id (Nat.digits 10 n)]
          apply List.map_congr_left
          intro d hd
          exact (digitChar_spec d (Nat.digits_lt_base (by norm_num) hd)).2.2
        rw [this, Nat.ofDigits_digits]
  obtain ⟨d, h1, h2, h3, h4⟩ := hfmt
  rw [h1]
  have hdw : ∀ k, (List.replicate k ' ' ++ d ++ ' ' :: rest).dropWhile (· == ' ') = d ++ ' ' :: rest := by
    intro k
    induction k with
    | zero =>
      cases d with
      | nil => exact absurd rfl h2
      | cons c d => simp [(h3 c (by simp)).2]
    | succ k ih => simpa [List.replicate_succ] using ih
  have htw : (d ++ ' ' :: rest).takeWhile Char.isDigit = d := by
    rw [List.takeWhile_append_of_pos (fun c hc => (h3 c hc).1)]
    have : Char.isDigit ' ' = false := by decide
    simp [this]
  have hdd : (d ++ ' ' :: rest).dropWhile Char.isDigit = ' ' :: rest := by
    rw [List.dropWhile_append_of_pos (fun c hc => (h3 c hc).1)]
    have : Char.isDigit ' ' = false := by decide
    simp [this]
  simp only [decimalIO, hdw, htw, hdd, h2, if_false, h4]

example : (⟨#v[1, 3, 20, 4]⟩ : Mat 2 2 Nat).writeToStream ⟨true, true, false⟩ decimalIO [] = .ok "1 20 3 4 ".toList := by
  decide

/-! ## C83 -/

theorem flags_identity (f : BitVec 32) :
    ((f &&& ~~~Ios.adjustfield) ||| (Ios.right &&& Ios.adjustfield)) ||| f = f ||| Ios.right := by
  have e1 : Ios.right &&& Ios.adjustfield = Ios.right := by decide
  rw [e1]
  ext i hi
  simp only [BitVec.getElem_or, BitVec.getElem_and, BitVec.getElem_not]
  cases f[i] <;> cases Ios.right[i] <;> simp

/-- The last two statements of the output operators. -/
def endPrint (os o : OStream) : OStream :=
  { o with ios := { o.ios with prec := os.ios.prec, flags := o.ios.flags ||| os.ios.flags } }

/-- The formatting state after printing a vector. -/
theorem Vec.print_ios (cfg : Cfg) (fmt : Ios → α → List Char) (v : Vec M α) (os : OStream) :
    ∃ os', v.print cfg fmt os = .ok os' ∧ os'.ios.prec = os.ios.prec ∧ os'.ios.flags = os.ios.flags ||| Ios.right := by
  obtain ⟨s, h1, h2⟩ := loop_ok (n := M)
    (s := ({ os with ios := { os.ios.setfMask Ios.right Ios.adjustfield with prec := 5 } } : OStream).put ['[', ' '])
    (body := fun i os => do
      let os := os.setw 10
      let os := os.put (fmt os.ios (← v.atGet cfg i))
      pure (os.put [' ']))
    (fun _ s => s.ios.flags = (os.ios.setfMask Ios.right Ios.adjustfield).flags) rfl (by
    intro i hi s hs
    simp only [Vec.atGet_lt cfg v hi, bind_ok, pure_ok]
    exact ⟨_, rfl, hs⟩)
  refine ⟨endPrint os (s.put [']']), congrArg (· >>= fun o : OStream => Except.ok (endPrint os (o.put [']']))) h1, rfl, ?_⟩
  exact (congrArg (· ||| os.ios.flags) h2).trans (flags_identity _)

/-- The formatting state after printing a matrix. -/
theorem Mat.print_ios (cfg : Cfg) (fmt : Ios → α → List Char) (m : Mat M N α) (os : OStream) :
    ∃ os', m.print cfg fmt os = .ok os' ∧ os'.ios.prec = os.ios.prec ∧ os'.ios.flags = os.ios.flags ||| Ios.right := by
  obtain ⟨s, h1, h2⟩ := loop_ok (n := M)
    (s := ({ os with ios := { os.ios.setfMask Ios.right Ios.adjustfield with prec := 5 } } : OStream))
    (body := fun row os => do
      let os := os.put ['|']
      let os ← loop N (fun col os => do
        let os := os.setw 10
        let os := os.put (fmt os.ios (← m.atGet cfg row col))
        pure (os.put [' '])) os
      pure ((os.put ['|']).endl))
    (fun _ s => s.ios.flags = (os.ios.setfMask Ios.right Ios.adjustfield).flags) rfl (by
    intro r hr s hs
    obtain ⟨s', h1, h2⟩ := loop_ok (n := N) (s := s.put ['|']) (body := fun col os => do
        let os := os.setw 10
        let os := os.put (fmt os.ios (← m.atGet cfg r col))
        pure (os.put [' ']))
      (fun _ s => s.ios.flags = (os.ios.setfMask Ios.right Ios.adjustfield).flags) hs (by
      intro i hi s hs
      simp only [Mat.atGet_lt cfg m hr hi, bind_ok, pure_ok]
      exact ⟨_, rfl, hs⟩)
    exact ⟨(s'.put ['|']).endl,
      congrArg (· >>= fun o : OStream => Except.ok ((o.put ['|']).endl)) h1, h2⟩)
  refine ⟨endPrint os s, congrArg (· >>= fun o : OStream => Except.ok (endPrint os o)) h1, rfl, ?_⟩
  exact (congrArg (· ||| os.ios.flags) h2).trans (flags_identity _)

/-- C83, proved part: `operator<<` of vectors and matrices restores the precision, and the flags afterwards are the flags before plus
`ios::right`; so they are restored exactly if `right` was already set. (Missing: restoration in the other cases, which does not
hold, see `C83_flags_violated`.) -/
theorem C83_print_partial (cfg : Cfg) (fmt : Ios → α → List Char) (v : Vec M α) (m : Mat M N α) (os : OStream) :
    (∃ os', v.print cfg fmt os = .ok os' ∧ os'.ios.prec = os.ios.prec ∧
      (os'.ios.flags = os.ios.flags ↔ os.ios.flags &&& Ios.right = Ios.right)) ∧
    (∃ os', m.print cfg fmt os = .ok os' ∧ os'.ios.prec = os.ios.prec ∧
      (os'.ios.flags = os.ios.flags ↔ os.ios.flags &&& Ios.right = Ios.right)) := by
  have key : ∀ f g : BitVec 32, f ||| g = f ↔ f &&& g = g := by
    intro f g
    constructor
    · intro h
      ext i hi
      have := congrArg (fun b => b[i]) h
      simp only [BitVec.getElem_or, BitVec.getElem_and] at this ⊢
      cases hf : f[i] <;> cases hg : g[i] <;> simp_all
    · intro h
      ext i hi
      have := congrArg (fun b => b[i]) h
      simp only [BitVec.getElem_or, BitVec.getElem_and] at this ⊢
      cases hf : f[i] <;> cases hg : g[i] <;> simp_all
  constructor
  · obtain ⟨os', h1, h2, h3⟩ := Vec.print_ios cfg fmt v os
    exact ⟨os', h1, h2, by rw [h3, key]⟩
  · obtain ⟨os', h1, h2, h3⟩ := Mat.print_ios cfg fmt m os
    exact ⟨os', h1, h2, by rw [h3, key]⟩

/-- C83 fails for every stream on which `ios::right` is not set, for instance every newly created one (`skipws | dec`) and every
stream set to `ios::left` (which then has both `left` and `right` set). -/
theorem C83_flags_violated (cfg : Cfg) (fmt : Ios → α → List Char) (v : Vec M α) (os : OStream)
    (h : os.ios.flags = Ios.default ∨ os.ios.flags = Ios.default ||| Ios.left) :
    ∃ os', v.print cfg fmt os = .ok os' ∧ os'.ios.flags ≠ os.ios.flags ∧ os'.ios.flags &&& Ios.right = Ios.right := by
  obtain ⟨os', h1, -, h3⟩ := Vec.print_ios cfg fmt v os
  refine ⟨os', h1, ?_⟩
  rw [h3]
  rcases h with h | h <;> rw [h] <;> exact ⟨by decide, by decide⟩

end Vmml
