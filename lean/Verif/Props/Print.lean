import Verif.Props.Stream
import Verif.Props.RawFile
import Verif.Model.Print
import Verif.Model.Frustum

/-!
# C87, C88: the text the output operators write, csv files
-/
set_option linter.unusedSimpArgs false

namespace Vmml
variable {M N : Nat} {α : Type}

/-! ## Specification: right-aligned cells -/
namespace Spec

/-- `s` right-aligned in a field of `w` characters. -/
def cell (w : Nat) (fill : Char) (s : List Char) : List Char := List.replicate (w - s.length) fill ++ s

/-- The formatting state an element of a vector, matrix or frustum is printed with, whatever the stream's own state:
right-aligned, five digits, ten columns; the other flags and the fill character are the stream's. -/
def elemIos (ios : Ios) : Ios :=
  ⟨(ios.flags &&& ~~~Ios.adjustfield) ||| Ios.right, 5, 10, ios.fill⟩

/-- One element: ten columns and a blank. -/
def elem (ios : Ios) (fmt : Ios → α → List Char) (x : α) : List Char :=
  cell 10 ios.fill (fmt (elemIos ios) x) ++ [' ']

/-- The text of a vector: `[ `, the elements, `]`. A field width pending on the stream pads the opening bracket. -/
def vecText (ios : Ios) (fmt : Ios → α → List Char) (l : List α) : List Char :=
  cell ios.width ios.fill ['[', ' '] ++ l.flatMap (elem ios fmt) ++ [']']

/-- One line of a matrix. -/
def rowText (ios : Ios) (fmt : Ios → α → List Char) (l : List α) : List Char :=
  ['|'] ++ l.flatMap (elem ios fmt) ++ ['|', '\n']

end Spec
open Spec

/-- Right-adjusting states: printing pads on the left. -/
theorem put_right (os : OStream) (s : List Char)
    (h : os.ios.flags &&& Ios.adjustfield = Ios.right &&& Ios.adjustfield) :
    os.put s = ⟨os.out ++ cell os.ios.width os.ios.fill s, { os.ios with width := 0 }⟩ := by
  have : ¬ Ios.right &&& Ios.adjustfield = Ios.left := by decide
  simp only [OStream.put, h, this, if_false, cell]

theorem put_zero (os : OStream) (s : List Char) (h : os.ios.width = 0) :
    os.put s = ⟨os.out ++ s, os.ios⟩ := by
  obtain ⟨o, f, p, w, c⟩ := os
  simp only at h
  subst h
  simp only [OStream.put, Nat.zero_sub, List.replicate_zero, List.append_nil, List.nil_append, ite_self]

theorem right_adjust (f : BitVec 32) :
    ((f &&& ~~~Ios.adjustfield) ||| (Ios.right &&& Ios.adjustfield)) &&& Ios.adjustfield = Ios.right &&& Ios.adjustfield := by
  ext i hi
  simp only [BitVec.getElem_or, BitVec.getElem_and, BitVec.getElem_not]
  cases f[i] <;> cases Ios.right[i] <;> cases Ios.adjustfield[i] <;> simp

theorem setfMask_right (ios : Ios) : (ios.setfMask Ios.right Ios.adjustfield) =
    { ios with flags := (ios.flags &&& ~~~Ios.adjustfield) ||| Ios.right } := by
  have e1 : Ios.right &&& Ios.adjustfield = Ios.right := by decide
  simp only [Ios.setfMask, e1]

/-- Adding `right` afterwards does not change how elements are printed. -/
theorem elemIos_or (ios : Ios) (w p : Nat) :
    elemIos ⟨ios.flags ||| Ios.right, p, w, ios.fill⟩ = elemIos ios := by
  simp only [elemIos, Ios.mk.injEq, and_true]
  have e : ∀ i (hi : i < 32), Ios.right[i] = true → Ios.adjustfield[i] = true := by decide
  ext i hi
  simp only [BitVec.getElem_or, BitVec.getElem_and, BitVec.getElem_not]
  cases f : ios.flags[i] <;> cases hr : Ios.right[i] <;> simp

/-- The element step shared by all the operators, on a stream in the printing state of `ios`. -/
theorem elem_step (ios : Ios) (fmt : Ios → α → List Char) (x : α) (o : List Char) :
    ((⟨o, { elemIos ios with width := 0 }⟩ : OStream).setw 10).put
        (fmt ((⟨o, { elemIos ios with width := 0 }⟩ : OStream).setw 10).ios x) =
      ⟨o ++ cell 10 ios.fill (fmt (elemIos ios) x), { elemIos ios with width := 0 }⟩ := by
  have e1 : Ios.right &&& Ios.adjustfield = Ios.right := by decide
  have := right_adjust ios.flags
  rw [e1] at this
  rw [put_right _ _ (by simp only [OStream.setw, elemIos]; rw [this, e1])]
  simp only [OStream.setw, elemIos]

theorem elem_step' (ios : Ios) (fmt : Ios → α → List Char) (x : α) (o : List Char) :
    (((⟨o, { elemIos ios with width := 0 }⟩ : OStream).setw 10).put
        (fmt ((⟨o, { elemIos ios with width := 0 }⟩ : OStream).setw 10).ios x)).put [' '] =
      ⟨o ++ elem ios fmt x, { elemIos ios with width := 0 }⟩ := by
  rw [elem_step, put_zero _ _ rfl]
  simp only [elem, List.append_assoc]

/-- A stream in a literal state without pending width. -/
theorem put_lit (o : List Char) (f : BitVec 32) (p : Nat) (c : Char) (s : List Char) :
    (⟨o, ⟨f, p, 0, c⟩⟩ : OStream).put s = ⟨o ++ s, ⟨f, p, 0, c⟩⟩ := put_zero _ _ rfl

/-- The first two statements of the output operators. -/
def startPrint (os : OStream) : OStream :=
  { os with ios := { os.ios.setfMask Ios.right Ios.adjustfield with prec := 5 } }

theorem startPrint_eq (os : OStream) : startPrint os = ⟨os.out, { elemIos os.ios with width := os.ios.width }⟩ := by
  simp only [startPrint, setfMask_right, elemIos]

theorem put_start (os : OStream) (s : List Char) :
    (⟨os.out, { elemIos os.ios with width := os.ios.width }⟩ : OStream).put s =
      ⟨os.out ++ cell os.ios.width os.ios.fill s, { elemIos os.ios with width := 0 }⟩ := by
  have e1 : Ios.right &&& Ios.adjustfield = Ios.right := by decide
  have := right_adjust os.ios.flags
  rw [e1] at this
  rw [put_right _ _ (by simp only [elemIos]; rw [this, e1])]
  rfl

/-- The state the operators leave: precision and fill as before, `right` added to the flags, no pending width. -/
theorem endPrint_eq (os : OStream) (o : List Char) (w : Nat) :
    endPrint os ⟨o, { elemIos os.ios with width := w }⟩ = ⟨o, ⟨os.ios.flags ||| Ios.right, os.ios.prec, w, os.ios.fill⟩⟩ := by
  have e1 : Ios.right &&& Ios.adjustfield = Ios.right := by decide
  have := flags_identity os.ios.flags
  rw [e1] at this
  simp only [elemIos, endPrint, this]

/-- C88. `os << vector`: exactly `[ `, every element in order right-aligned in ten columns and followed by a blank, `]`
— for every size, element type, stream and formatting state. The complete state left on the stream is given too. -/
theorem C88_vector (cfg : Cfg) (fmt : Ios → α → List Char) (v : Vec M α) (os : OStream) :
    v.print cfg fmt os = .ok ⟨os.out ++ vecText os.ios fmt v.toList,
      ⟨os.ios.flags ||| Ios.right, os.ios.prec, 0, os.ios.fill⟩⟩ := by
  have hp : v.print cfg fmt os = (loop M (fun i os => do
      let os' := os.setw 10
      let os'' := os'.put (fmt os'.ios (← v.atGet cfg i))
      pure (os''.put [' '])) ((startPrint os).put ['[', ' ']) >>= fun o => .ok (endPrint os (o.put [']']))) := rfl
  rw [hp, startPrint_eq, put_start]
  have hl : ∀ o : List Char, loop M (fun i os => do
      let os' := os.setw 10
      let os'' := os'.put (fmt os'.ios (← v.atGet cfg i))
      pure (os''.put [' '])) (⟨o, { elemIos os.ios with width := 0 }⟩ : OStream) =
      .ok ⟨o ++ v.toList.flatMap (elem os.ios fmt), { elemIos os.ios with width := 0 }⟩ := by
    intro o
    obtain ⟨s, h1, h2⟩ := loop_ok (n := M) (s := (⟨o, { elemIos os.ios with width := 0 }⟩ : OStream))
      (body := fun i os => do
        let os' := os.setw 10
        let os'' := os'.put (fmt os'.ios (← v.atGet cfg i))
        pure (os''.put [' ']))
      (fun k s => s = ⟨o ++ (v.toList.take k).flatMap (elem os.ios fmt), { elemIos os.ios with width := 0 }⟩) (by simp) (by
      rintro i hi s rfl
      simp only [Vec.atGet_lt cfg v hi, bind_ok, pure_ok]
      refine ⟨_, rfl, ?_⟩
      rw [elem_step']
      have : v.toList.take (i + 1) = v.toList.take i ++ [v[i]] := by
        rw [List.take_add_one]
        simp [hi]
      rw [this, List.flatMap_append, List.append_assoc]
      simp)
    rw [h1, h2, List.take_of_length_le (by simp)]
  rw [hl, bind_ok, put_lit, endPrint_eq]
  simp only [vecText, List.append_assoc]

/-- The elements of row `r`, in order. -/
def Spec.row (m : Mat M N α) (r : Fin M) : List α := List.ofFn fun c => m.get r c

/-- C88. `os << matrix`: one line per row, each with the row's elements in order, ten columns and a blank each, between
`|` and `|`. (Stated for a stream without a pending field width; otherwise the first `|` is padded.) -/
theorem C88_matrix (cfg : Cfg) (fmt : Ios → α → List Char) (m : Mat M N α) (os : OStream) (hw : os.ios.width = 0) :
    m.print cfg fmt os = .ok ⟨os.out ++ (List.ofFn fun r => rowText os.ios fmt (row m r)).flatten,
      ⟨os.ios.flags ||| Ios.right, os.ios.prec, 0, os.ios.fill⟩⟩ := by
  have hp : m.print cfg fmt os = (loop M (fun row os => do
      let os := os.put ['|']
      let os ← loop N (fun col os => do
        let os := os.setw 10
        let os := os.put (fmt os.ios (← m.atGet cfg row col))
        pure (os.put [' '])) os
      pure ((os.put ['|']).endl)) (startPrint os) >>= fun o => .ok (endPrint os o)) := rfl
  rw [hp, startPrint_eq, hw]
  have hrow : ∀ (o : List Char) r (hr : r < M), loop N (fun col os => do
      let os' := os.setw 10
      let os'' := os'.put (fmt os'.ios (← m.atGet cfg r col))
      pure (os''.put [' '])) (⟨o, { elemIos os.ios with width := 0 }⟩ : OStream) =
      .ok ⟨o ++ (row m ⟨r, hr⟩).flatMap (elem os.ios fmt), { elemIos os.ios with width := 0 }⟩ := by
    intro o r hr
    obtain ⟨s, h1, h2⟩ := loop_ok (n := N) (s := (⟨o, { elemIos os.ios with width := 0 }⟩ : OStream))
      (body := fun col os => do
        let os' := os.setw 10
        let os'' := os'.put (fmt os'.ios (← m.atGet cfg r col))
        pure (os''.put [' ']))
      (fun k s => s = ⟨o ++ ((row m ⟨r, hr⟩).take k).flatMap (elem os.ios fmt), { elemIos os.ios with width := 0 }⟩) (by simp) (by
      rintro i hi s rfl
      simp only [Mat.atGet_lt cfg m hr hi, bind_ok, pure_ok]
      refine ⟨_, rfl, ?_⟩
      rw [elem_step']
      have : (row m ⟨r, hr⟩).take (i + 1) = (row m ⟨r, hr⟩).take i ++ [m.get ⟨r, hr⟩ ⟨i, hi⟩] := by
        rw [List.take_add_one]
        simp [row, hi]
      rw [this, List.flatMap_append, List.append_assoc]
      simp)
    rw [h1, h2, List.take_of_length_le (by simp [row])]
  obtain ⟨s, h1, h2⟩ := loop_ok (n := M) (s := (⟨os.out, { elemIos os.ios with width := 0 }⟩ : OStream))
    (body := fun row os => do
      let os := os.put ['|']
      let os ← loop N (fun col os => do
        let os := os.setw 10
        let os := os.put (fmt os.ios (← m.atGet cfg row col))
        pure (os.put [' '])) os
      pure ((os.put ['|']).endl))
    (fun k s => s = ⟨os.out ++ ((List.ofFn fun r => rowText os.ios fmt (row m r)).take k).flatten, { elemIos os.ios with width := 0 }⟩)
    (by simp) (by
    rintro r hr s rfl
    have h0 := hrow (os.out ++ ((List.ofFn fun r => rowText os.ios fmt (row m r)).take r).flatten ++ ['|']) r hr
    rw [← put_lit] at h0
    refine ⟨_, congrArg (· >>= fun o : OStream => Except.ok ((o.put ['|']).endl)) h0, ?_⟩
    rw [put_lit]
    have : (List.ofFn fun r => rowText os.ios fmt (row m r)).take (r + 1) =
        (List.ofFn fun r => rowText os.ios fmt (row m r)).take r ++ [rowText os.ios fmt (row m ⟨r, hr⟩)] := by
      rw [List.take_add_one]
      simp [hr]
    rw [this, List.flatten_append]
    simp [OStream.endl, rowText])
  rw [List.take_of_length_le (by simp)] at h2
  subst h2
  rw [h1, bind_ok, endPrint_eq]

/-- C88. The printed matrix has exactly `M` lines (if the elements' own text contains no line break). -/
theorem C88_matrix_lines (cfg : Cfg) (fmt : Ios → α → List Char) (m : Mat M N α) (ios : Ios) (hw : ios.width = 0)
    (hf : ∀ i x, '\n' ∉ fmt i x) (hfill : ios.fill ≠ '\n') :
    ∃ os', m.print cfg fmt ⟨[], ios⟩ = .ok os' ∧ os'.out.count '\n' = M := by
  refine ⟨_, C88_matrix cfg fmt m ⟨[], ios⟩ hw, ?_⟩
  simp only [List.nil_append, List.count_flatten]
  have h : ∀ r : Fin M, (rowText ios fmt (row m r)).count '\n' = 1 := by
    intro r
    have h0 : ((row m r).flatMap (elem ios fmt)).count '\n' = 0 := by
      rw [List.count_eq_zero]
      intro h
      obtain ⟨x, -, hx⟩ := List.mem_flatMap.1 h
      simp only [elem, cell, List.mem_append, List.mem_replicate, List.mem_singleton] at hx
      rcases hx with (⟨-, hx⟩ | hx) | hx
      · exact hfill hx.symm
      · exact hf _ _ hx
      · exact absurd hx (by decide)
    simp [rowText, List.count_append, h0]
  have : (List.map (List.count '\n') (List.ofFn fun r => rowText ios fmt (row m r))) = List.replicate M 1 := by
    rw [List.map_ofFn]
    apply List.ext_getElem
    · simp
    · intro i h1 h2
      simp [h]
  rw [this]
  simp

/-- C88. `os << frustum`: the six values left, right, bottom, top, near, far in this order. -/
theorem C88_frustum (fmt : Ios → α → List Char) (f : Frustum α) (os : OStream) :
    f.print fmt os = ⟨os.out ++ cell os.ios.width os.ios.fill ['['] ++
        ([f.left, f.right, f.bottom, f.top, f.nearPlane].flatMap (elem os.ios fmt)) ++
        cell 10 os.ios.fill (fmt (elemIos os.ios) f.farPlane) ++ [']'],
      ⟨os.ios.flags ||| Ios.right, os.ios.prec, 0, os.ios.fill⟩⟩ := by
  let putW := fun (os : OStream) (x : α) => (os.setw 10).put (fmt (os.setw 10).ios x)
  have hp : f.print fmt os = endPrint os ((putW ((putW ((putW ((putW ((putW ((putW ((startPrint os).put ['[']) f.left).put [' '])
      f.right).put [' ']) f.bottom).put [' ']) f.top).put [' ']) f.nearPlane).put [' ']) f.farPlane).put [']']) := rfl
  rw [hp, startPrint_eq, put_start]
  simp only [putW, elem_step']
  simp only [elem_step, put_lit, endPrint_eq]
  simp [List.flatMap_cons, List.append_assoc]

/-- C88. `os << quaternion`: `(x, y, z, w) ` with the stream's own format. -/
theorem C88_quaternion (fmt : Ios → α → List Char) (q : Quat α) (os : OStream) (hw : os.ios.width = 0) :
    q.print fmt os = ⟨os.out ++ ['('] ++ fmt os.ios q.x ++ [',', ' '] ++ fmt os.ios q.y ++ [',', ' '] ++
      fmt os.ios q.z ++ [',', ' '] ++ fmt os.ios q.w ++ [')', ' '], os.ios⟩ := by
  obtain ⟨o, f, p, w, c⟩ := os
  simp only at hw
  subst hw
  simp only [Quat.print, put_lit]

/-- C88. `os << box`: the least corner, ` - `, the greatest corner. -/
theorem C88_box (cfg : Cfg) (fmt : Ios → α → List Char) (b : Box α) (os : OStream) (hw : os.ios.width = 0) :
    b.print cfg fmt os = .ok ⟨os.out ++ vecText os.ios fmt b.min.toList ++ [' ', '-', ' '] ++ vecText os.ios fmt b.max.toList,
      ⟨os.ios.flags ||| Ios.right, os.ios.prec, 0, os.ios.fill⟩⟩ := by
  unfold Box.print
  rw [C88_vector, bind_ok, put_zero _ _ rfl, C88_vector]
  have he : ∀ l : List α, vecText ⟨os.ios.flags ||| Ios.right, os.ios.prec, 0, os.ios.fill⟩ fmt l = vecText os.ios fmt l := by
    intro l
    simp only [vecText, hw]
    congr 2
    have : elem (⟨os.ios.flags ||| Ios.right, os.ios.prec, 0, os.ios.fill⟩ : Ios) fmt = elem os.ios fmt := by
      funext x
      simp only [elem, elemIos_or]
    rw [this]
  rw [he]
  simp [BitVec.or_assoc]

/-- C88. `os << culler`: a heading and one line per plane, in the order left, right, top, bottom, near, far, each plane
printed as a vector. -/
theorem C88_culler (cfg : Cfg) (fmt : Ios → α → List Char) (k : Culler α) (os : OStream) (hw : os.ios.width = 0) :
    ∃ os', k.print cfg fmt os = .ok os' ∧ os'.ios = ⟨os.ios.flags ||| Ios.right, os.ios.prec, 0, os.ios.fill⟩ ∧
    os'.out = os.out ++ "Frustum cull planes: \n".toList ++
      "    left   ".toList ++ vecText os.ios fmt k.left.toList ++ "\n    right  ".toList ++ vecText os.ios fmt k.right.toList ++
      "\n    top    ".toList ++ vecText os.ios fmt k.top.toList ++ "\n    bottom ".toList ++ vecText os.ios fmt k.bottom.toList ++
      "\n    near   ".toList ++ vecText os.ios fmt k.near.toList ++ "\n    far    ".toList ++ vecText os.ios fmt k.far.toList ++
      "\n".toList := by
  have he : ∀ l : List α, vecText ⟨os.ios.flags ||| Ios.right, os.ios.prec, 0, os.ios.fill⟩ fmt l = vecText os.ios fmt l := by
    intro l
    simp only [vecText, hw]
    congr 2
    have : elem (⟨os.ios.flags ||| Ios.right, os.ios.prec, 0, os.ios.fill⟩ : Ios) fmt = elem os.ios fmt := by
      funext x
      simp only [elem, elemIos_or]
    rw [this]
  obtain ⟨o, f, p, w, c⟩ := os
  simp only at hw he
  subst hw
  simp only [Culler.print, OStream.endl, put_lit, C88_vector, bind_ok, pure_ok, BitVec.or_assoc, BitVec.or_self, he]
  refine ⟨_, rfl, rfl, ?_⟩
  simp [List.append_assoc]

/-- C88. The three visibility values print as distinct texts of the same length. -/
theorem C88_visibility (v w : Visibility) (os : OStream) (hw : os.ios.width = 0) :
    (v.print os).out.length = os.out.length + 17 ∧ ((v.print os).out = (w.print os).out ↔ v = w) := by
  cases v <;> cases w <;> simp [Visibility.print, put_zero os _ hw]

/-- Concrete output: a vector of numbers printed as their decimal digits. -/
example : (Vec.print ⟨true, true, false⟩ (fun _ (n : Nat) => n.repr.toList) #v[7, 42] newStream).toOption.map (fun o => String.ofList o.out) =
    some "[          7         42 ]" := by decide

example : (Mat.print ⟨true, true, false⟩ (fun _ (n : Nat) => n.repr.toList) (⟨#v[1, 3, 2, 4]⟩ : Mat 2 2 Nat) newStream).toOption.map
    (fun o => String.ofList o.out) = some "|         1          2 |\n|         3          4 |\n" := by decide

/-! ## C87 -/

theorem noSuffix_iff (suf name : List Char) (h3 : suf.length = 3) : noSuffix suf name = true ↔ ¬ suf <:+ name := by
  unfold noSuffix
  split_ifs with h
  · simp only [true_iff]
    intro hs
    have := hs.length_le
    omega
  · simp only [Bool.not_eq_true', beq_eq_false_iff_ne, ne_eq, not_iff_not]
    constructor
    · intro he
      exact ⟨name.take (name.length - 3), by rw [← he, List.take_append_drop]⟩
    · rintro ⟨t, rfl⟩
      simp [h3]

/-- The specification of a path: directory, one separator unless the directory is empty or already ends in one, name,
and the extension unless the name already ends in its letters. -/
def Spec.path (dir name ext : List Char) : List Char :=
  (if dir = [] ∨ dir.getLast? = some '/' then dir else dir ++ ['/']) ++ name ++ (if ext <:+ name then [] else '.' :: ext)

theorem rawPath_spec (dir name : List Char) :
    rawPath dir name = (if dir = [] ∨ dir.getLast? = some '/' then dir else dir ++ ['/']) ++ name := by
  rcases List.eq_nil_or_concat dir with rfl | ⟨d, c, rfl⟩
  · simp [(C47_path [] name).1]
  · rw [List.concat_eq_append]
    by_cases hc : c = '/'
    · subst hc
      rw [(C47_path d name).2.1]
      simp
    · rw [(C47_path d name).2.2 c hc]
      simp [hc]

/-- C87. The file names: `write_to_raw`, `write_csv_file` and `read_csv_file` use the specified path for every directory
and name; in particular writing and reading csv agree on the name. -/
theorem C87_paths (dir name : List Char) :
    writePath dir name = path dir name ['r', 'a', 'w'] ∧ csvPath dir name = path dir name ['c', 's', 'v'] := by
  constructor
  · unfold writePath path
    rw [← rawPath_spec]
    by_cases h : ['r', 'a', 'w'] <:+ name
    · have : noSuffix ['r', 'a', 'w'] name = false := by
        rw [← Bool.not_eq_true, noSuffix_iff _ _ rfl]; exact not_not.2 h
      simp [this, h]
    · have := (noSuffix_iff ['r', 'a', 'w'] name rfl).2 h
      simp [this, h]
  · unfold csvPath path
    rw [← rawPath_spec]
    by_cases h : ['c', 's', 'v'] <:+ name
    · have : noSuffix ['c', 's', 'v'] name = false := by
        rw [← Bool.not_eq_true, noSuffix_iff _ _ rfl]; exact not_not.2 h
      simp [this, h]
    · have := (noSuffix_iff ['c', 's', 'v'] name rfl).2 h
      simp [this, h]

/-- C87, proved part: what `write_csv_file` leaves in the file system: under the specified name the rows as text followed
by an empty line, every other file untouched; nothing if the file cannot be opened. (Missing: `read_csv_file` does not
read, see `C87_csv_roundtrip_violated`. The values are not separated by commas.) -/
theorem C87_write_csv_partial (cfg : Cfg) (fmt : Ios → α → List Char) (enc : List Char → List UInt8)
    (canOpen : List Char → Bool) (m : Mat M N α) (dir name : List Char) (fs : Files) :
    ∃ fs', m.writeCsvFile cfg fmt enc canOpen dir name fs = .ok fs' ∧
      (canOpen (path dir name ['c', 's', 'v']) = false → fs' = fs) ∧
      (canOpen (path dir name ['c', 's', 'v']) = true →
        fs' (path dir name ['c', 's', 'v']) = some (enc ((List.ofFn fun r => rowText newStream.ios fmt (row m r)).flatten ++ ['\n'])) ∧
        ∀ p, p ≠ path dir name ['c', 's', 'v'] → fs' p = fs p) := by
  unfold Mat.writeCsvFile
  rw [(C87_paths dir name).2]
  by_cases h : canOpen (path dir name ['c', 's', 'v']) = true
  swap
  · simp only [h, if_false]
    exact ⟨fs, rfl, fun _ => rfl, by simp⟩
  · simp only [h, if_true, C88_matrix cfg fmt m newStream rfl, bind_ok, pure_ok]
    refine ⟨_, rfl, by simp, fun _ => ⟨?_, ?_⟩⟩
    · simp [OStream.endl, newStream]
    · intro p hp
      simp [hp]

/-- C87 fails for csv files: `read_csv_file` never changes the matrix, so reading back what was written returns the
written matrix only if the target already was that matrix — for every file name, format and file system. -/
theorem C87_csv_roundtrip_violated (cfg : Cfg) (fmt : Ios → α → List Char) (enc : List Char → List UInt8)
    (canOpen : List Char → Bool) (m m' : Mat M N α) (dir name : List Char) (fs : Files) :
    ∃ fs', m.writeCsvFile cfg fmt enc canOpen dir name fs = .ok fs' ∧
      (m'.readCsvFile canOpen dir name fs' = m ↔ m' = m) := by
  obtain ⟨fs', h, -⟩ := C87_write_csv_partial cfg fmt enc canOpen m dir name fs
  refine ⟨fs', h, ?_⟩
  simp [Mat.readCsvFile]

example : csvPath "out".toList "a.csv".toList = "out/a.csv".toList ∧ csvPath "out/".toList "a".toList = "out/a.csv".toList := by
  decide

end Vmml
