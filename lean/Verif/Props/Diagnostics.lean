import Verif.Model.Diagnostics
import Mathlib.Data.Prod.Lex
import Mathlib.Tactic.Tauto

/-!
# C93, C94: version macros; texts of error reports
-/

namespace Vmml

/-! ## C93 -/

/-- Versions in lexicographic order of major, minor, patch. -/
def Spec.order (v : Version) : Int ×ₗ Int ×ₗ Int := toLex (v.major, toLex (v.minor, v.patch))

private theorem lt_lex (a b c a' b' c' : Int) : (toLex (a, toLex (b, c)) : Int ×ₗ Int ×ₗ Int) < toLex (a', toLex (b', c')) ↔
    a < a' ∨ a = a' ∧ (b < b' ∨ b = b' ∧ c < c') := by
  simp [Prod.Lex.lt_iff]

/-- C93. The four macros decide the lexicographic order, in the direction "current version compared with the given one". -/
theorem C93_order (v w : Version) :
    (v.gt w.major w.minor w.patch = true ↔ Spec.order w < Spec.order v) ∧ (v.ge w.major w.minor w.patch = true ↔ Spec.order w ≤ Spec.order v) ∧
    (v.lt w.major w.minor w.patch = true ↔ Spec.order v < Spec.order w) ∧ (v.le w.major w.minor w.patch = true ↔ Spec.order v ≤ Spec.order w) := by
  have h1 := lt_lex v.major v.minor v.patch w.major w.minor w.patch
  have h2 := lt_lex w.major w.minor w.patch v.major v.minor v.patch
  refine ⟨?_, ?_, ?_, ?_⟩
  · unfold Spec.order
    rw [h2, Version.gt]
    simp
    omega
  · rw [← not_lt]
    unfold Spec.order
    rw [h1, Version.ge]
    simp
    omega
  · unfold Spec.order
    rw [h1, Version.lt]
    simp
  · rw [← not_lt]
    unfold Spec.order
    rw [h2, Version.le]
    simp
    omega

/-- C93. Exactly one of older, equal, newer; "newer or equal" is the negation of "older"; transitivity through a third version. -/
theorem C93_consistent (v w x : Version) :
    (v.ge w.major w.minor w.patch = !v.lt w.major w.minor w.patch) ∧ (v.le w.major w.minor w.patch = !v.gt w.major w.minor w.patch) ∧
    ((v.ge w.major w.minor w.patch && v.le w.major w.minor w.patch) = true ↔ v = w) ∧
    (v.gt w.major w.minor w.patch = w.lt v.major v.minor v.patch) ∧
    (v.ge w.major w.minor w.patch = true → w.ge x.major x.minor x.patch = true → v.ge x.major x.minor x.patch = true) := by
  obtain ⟨a1, a2, a3, a4⟩ := C93_order v w
  refine ⟨?_, ?_, ?_, ?_, ?_⟩
  · rw [Bool.eq_iff_iff, a2, Bool.not_eq_true', ← Bool.not_eq_true, a3, not_lt]
  · rw [Bool.eq_iff_iff, a4, Bool.not_eq_true', ← Bool.not_eq_true, a1, not_lt]
  · rw [Bool.and_eq_true, a2, a4]
    constructor
    · intro h
      have := le_antisymm h.2 h.1
      unfold Spec.order at this
      have h1 := congrArg (fun t => (ofLex t).1) this
      have h2 := congrArg (fun t => (ofLex (ofLex t).2).1) this
      have h3 := congrArg (fun t => (ofLex (ofLex t).2).2) this
      cases v; cases w
      simp_all
    · rintro rfl; exact ⟨le_rfl, le_rfl⟩
  · rw [Bool.eq_iff_iff, a1, (C93_order w v).2.2.1]
  · intro h1 h2
    rw [(C93_order v x).2.1]
    exact ((C93_order w x).2.1.1 h2).trans (a2.1 h1)

example : (⟨1, 9, 0⟩ : Version).ge 1 8 5 = true ∧ (⟨1, 9, 0⟩ : Version).gt 1 9 0 = false ∧ (⟨1, 9, 0⟩ : Version).lt 2 0 0 = true := by decide

/-! ## C94 -/

private theorem takeWhile_all {p : Char → Bool} {l : List Char} (h : ∀ c ∈ l, p c = true) : l.takeWhile p = l := by
  induction l with
  | nil => rfl
  | cons a l ih =>
    rw [List.takeWhile_cons, h a (by simp), if_pos rfl, ih fun c hc => h c (by simp [hc])]

private theorem takeWhile_stop {p : Char → Bool} {l r : List Char} {c : Char} (h : ∀ c ∈ l, p c = true) (hc : p c = false) :
    (l ++ c :: r).takeWhile p = l := by
  induction l with
  | nil => simp [hc]
  | cons a l ih =>
    rw [List.cons_append, List.takeWhile_cons, h a (by simp), if_pos rfl, ih fun c hc => h c (by simp [hc])]

private theorem digits (n : Int) : ∀ c ∈ showInt n, c ≠ '\x00' := by
  intro c hc h
  subst h
  unfold showInt at hc
  cases n with
  | ofNat k =>
    have : toString (Int.ofNat k) = toString k := rfl
    rw [this] at hc
    change '\x00' ∈ (Nat.repr k).toList at hc
    have := Nat.isDigit_of_mem_toDigits (b := 10) (by omega) (by omega) (show '\x00' ∈ Nat.toDigits 10 k by simpa [Nat.repr] using hc)
    revert this; decide
  | negSucc k =>
    have : toString (Int.negSucc k) = "-" ++ toString (k + 1) := rfl
    rw [this, String.toList_append] at hc
    rcases List.mem_append.1 hc with h | h
    · revert h; decide
    · change '\x00' ∈ (Nat.repr (k + 1)).toList at h
      have := Nat.isDigit_of_mem_toDigits (b := 10) (by omega) (by omega) (show '\x00' ∈ Nat.toDigits 10 (k + 1) by simpa [Nat.repr] using h)
      revert this; decide

/-- C94. `what()` of the exception thrown by a failed check is `file(line): - description` and a line end, for every description and file name without
NUL characters. -/
theorem C94_what (cfg : Cfg) (ht : cfg.throws = true) (desc : List Char) (here : Here) (cerr : List Char) (hd : ∀ c ∈ desc, c ≠ '\x00')
    (hf : ∀ c ∈ here.file, c ≠ '\x00') :
    ∃ e, report cfg desc here cerr = .thrown e ∧
      what e = here.file ++ ['('] ++ showInt here.line ++ [')', ':', ' ', '-', ' '] ++ desc ++ ['\n'] := by
  refine ⟨exceptionText desc here, by simp [report, ht], ?_⟩
  have e : exceptionText desc here = here.file ++ ['('] ++ showInt here.line ++ [')', ':', ' ', '-', ' '] ++ desc ++ ['\n'] := rfl
  rw [e, what, cString, takeWhile_all]
  intro c hc
  simp only [List.mem_append] at hc
  have : c ≠ '\x00' := by
    rcases hc with ((((h | h) | h) | h) | h) | h
    · exact hf c h
    · rintro rfl; revert h; decide
    · exact digits _ c h
    · rintro rfl; revert h; decide
    · exact hd c h
    · rintro rfl; revert h; decide
  simpa using this

/-- C94. A description with a NUL character is cut there. -/
theorem C94_what_nul (desc rest : List Char) (here : Here) (hd : ∀ c ∈ desc, c ≠ '\x00') (hf : ∀ c ∈ here.file, c ≠ '\x00') :
    what (exceptionText (desc ++ '\x00' :: rest) here) = here.file ++ ['('] ++ showInt here.line ++ [')', ':', ' ', '-', ' '] ++ desc := by
  have e : exceptionText (desc ++ '\x00' :: rest) here =
      (here.file ++ ['('] ++ showInt here.line ++ [')', ':', ' ', '-', ' '] ++ desc) ++ '\x00' :: (rest ++ ['\n']) := by
    change here.file ++ ['('] ++ showInt here.line ++ [')', ':', ' ', '-', ' '] ++ (desc ++ '\x00' :: rest) ++ ['\n'] = _
    simp only [List.append_assoc, List.cons_append]
  rw [e, what, cString, takeWhile_stop]
  · intro c hc
    simp only [List.mem_append] at hc
    have : c ≠ '\x00' := by
      rcases hc with (((h | h) | h) | h) | h
      · exact hf c h
      · rintro rfl; revert h; decide
      · exact digits _ c h
      · rintro rfl; revert h; decide
      · exact hd c h
    simpa using this
  · decide

/-- C94. Without exceptions the report goes to `std::cerr`, after everything written before, and the program stops unless `NDEBUG` is defined; the
outcome is the one of the model of `VMMLIB_ERROR` used in all other files. -/
theorem C94_report (cfg : Cfg) (desc : List Char) (here : Here) (cerr : List Char) :
    (cfg.throws = false → ∃ added, (report cfg desc here cerr = .aborted (cerr ++ added) ∨ report cfg desc here cerr = .continued (cerr ++ added)) ∧
      here.file <:+: added ∧ showInt here.line <:+: added ∧ desc <:+: added) ∧
    (vmmlibError cfg = match report cfg desc here cerr with
      | .thrown _ => .error .thrown
      | .aborted _ => .error .aborted
      | .continued _ => .ok ()) := by
  constructor
  · intro ht
    refine ⟨"vmmlib error at ".toList ++ here.file ++ ":".toList ++ showInt here.line ++ "\n".toList ++ desc ++ "\n".toList, ?_, ?_, ?_, ?_⟩
    · cases hn : cfg.ndebug
      · left; simp [report, ht, hn, List.append_assoc]
      · right; simp [report, ht, hn, List.append_assoc]
    · exact ⟨"vmmlib error at ".toList, ":".toList ++ showInt here.line ++ "\n".toList ++ desc ++ "\n".toList, by simp only [List.append_assoc]⟩
    · exact ⟨"vmmlib error at ".toList ++ here.file ++ ":".toList, "\n".toList ++ desc ++ "\n".toList, by simp only [List.append_assoc]⟩
    · exact ⟨"vmmlib error at ".toList ++ here.file ++ ":".toList ++ showInt here.line ++ "\n".toList, "\n".toList, by simp only [List.append_assoc]⟩
  · cases ht : cfg.throws <;> cases hn : cfg.ndebug <;> simp [report, vmmlibError, ht, hn]

example : what (exceptionText "at() - index out of bounds".toList ⟨"vector.hpp".toList, 676⟩) =
    "vector.hpp(676): - at() - index out of bounds\n".toList := by decide

end Vmml
