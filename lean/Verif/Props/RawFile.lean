import Verif.Model.Stream
import Verif.Proofs.MatrixLemmas
import Mathlib.Tactic.Ring

/-!
# C47: raw files
-/

set_option linter.unusedSimpArgs false

namespace Vmml
open Mat
variable {M N : Nat} {α : Type}

theorem drop_flatMap {bytes : α → List UInt8} {s : Nat} (hs : ∀ x, (bytes x).length = s) (l : List α) (j : Nat) :
    (l.flatMap bytes).drop (s * j) = (l.drop j).flatMap bytes := by
  induction l generalizing j with
  | nil => simp
  | cons x l ih =>
    cases j with
    | zero => simp
    | succ j =>
      have e : s * (j + 1) = (bytes x).length + s * j := by rw [hs]; ring
      rw [List.flatMap_cons, e, ← List.drop_drop, List.drop_left, ih]; rfl

theorem take_flatMap {bytes : α → List UInt8} {s : Nat} (hs : ∀ x, (bytes x).length = s) (l : List α) (j : Nat) :
    (l.flatMap bytes).take (s * j) = (l.take j).flatMap bytes := by
  induction l generalizing j with
  | nil => simp
  | cons x l ih =>
    cases j with
    | zero => simp
    | succ j =>
      have e : s * (j + 1) = (bytes x).length + s * j := by rw [hs]; ring
      rw [List.flatMap_cons, e, List.take_length_add_append, ih]; rfl

theorem length_flatMap_const {bytes : α → List UInt8} {s : Nat} (hs : ∀ x, (bytes x).length = s) (l : List α) :
    (l.flatMap bytes).length = s * l.length := by
  induction l with
  | nil => simp
  | cons x l ih => rw [List.flatMap_cons, List.length_append, ih, hs, List.length_cons]; ring

/-- The element loop reads `k` elements from a buffer that starts (at `ptr`) with their bytes. -/
theorem rawElements_eq {bytes : α → List UInt8} {ofBytes : List UInt8 → α} {s : Nat} (hpos : 0 < s)
    (hs : ∀ x, (bytes x).length = s) (hb : ∀ x, ofBytes (bytes x) = x) (src : Vector α (M * N)) (data : List UInt8) :
    ∀ (k n it ptr : Nat) (a : Vector α (M * N)), k ≤ n → it + n = M * N → ptr + s * k ≤ data.length →
      (∀ j (hj : j < k) (h : it + j < M * N), (data.drop (ptr + s * j)).take s = bytes src[it + j]) →
      ∃ a', rawElements s ofBytes data n it ptr (s * k) a = .ok (it + k, a') ∧
        ∀ i (h : i < M * N), a'[i] = if it ≤ i ∧ i < it + k then src[i] else a[i] := by
  intro k
  induction k with
  | zero =>
    intro n it ptr a _ _ _ _
    refine ⟨a, ?_, by intro i hi; rw [if_neg]; omega⟩
    cases n with
    | zero => rfl
    | succ n => simp [rawElements]
  | succ k ih =>
    intro n it ptr a hkn hn hlen hdata
    obtain ⟨n, rfl⟩ : ∃ n', n = n' + 1 := ⟨n - 1, by omega⟩
    have hit : it < M * N := by omega
    have hmul : s * (k + 1) = s * k + s := by ring
    have h0 : s * (k + 1) ≠ 0 := by positivity
    rw [rawElements, if_neg h0, if_neg (by omega), dif_pos hit]
    have e1 : subSizeT (s * (k + 1)) s = s * k := by
      unfold subSizeT; rw [if_pos (by omega)]; omega
    have e2 : (data.drop ptr).take s = bytes src[it] := by simpa using hdata 0 (by omega) (by omega)
    rw [e1, e2, hb]
    obtain ⟨a', h1, h2⟩ := ih n (it + 1) (ptr + s) (a.set it src[it]) (by omega) (by omega) (by omega) (by
      intro j hj h
      have := hdata (j + 1) (by omega) (by omega)
      have e : ptr + s + s * j = ptr + s * (j + 1) := by ring
      rw [e, this]
      congr 2; omega)
    refine ⟨a', by rw [h1]; congr 2; omega, ?_⟩
    intro i hi
    rw [h2 i hi, Vector.getElem_set]
    split_ifs <;> first | rfl | omega | (subst_vars; rfl)

theorem bufRead_length (data file : List UInt8) (n : Nat) (h : file.length ≤ data.length) :
    (bufRead data file n).length = data.length := by
  simp [bufRead]; omega

/-- The chunk loop reads back what was written. -/
theorem rawChunks_eq {bytes : α → List UInt8} {ofBytes : List UInt8 → α} {s : Nat} (hpos : 0 < s)
    (hs : ∀ x, (bytes x).length = s) (hb : ∀ x, ofBytes (bytes x) = x) (src : Vector α (M * N)) (maxLen : Nat) :
    ∀ (K it : Nat) (data : List UInt8) (a : Vector α (M * N)), s ∣ s * K % maxLen → it + K = M * N → data.length = s * (M * N) →
      (∀ i (h : i < M * N), i < it → a[i] = src[i]) →
      rawChunks s ofBytes maxLen (s * K) ((src.toList.drop it).flatMap bytes) data it a = .ok src := by
  intro K
  induction K using Nat.strong_induction_on with
  | _ K ih =>
  intro it data a hdvd hK hdata ha
  rw [rawChunks]
  by_cases h0 : s * K = 0
  · rw [dif_pos h0]
    have : K = 0 := by rcases Nat.mul_eq_zero.1 h0 with h | h <;> omega
    subst this
    congr 1
    ext i hi
    exact ha i hi (by omega)
  · rw [dif_neg h0]
    have hKpos : 0 < K := Nat.pos_of_ne_zero (by rintro rfl; simp at h0)
    obtain ⟨k, hk1, hk2, hk3, hk4⟩ : ∃ k, (if 0 < s * K % maxLen then s * K % maxLen else s * K) = s * k ∧ 0 < k ∧ k ≤ K ∧
        s ∣ (s * K - s * k) % maxLen := by
      by_cases h : 0 < s * K % maxLen
      · obtain ⟨k, hk⟩ := hdvd
        rw [if_pos h, hk]
        have hle : s * k ≤ s * K := hk ▸ Nat.mod_le _ _
        refine ⟨k, rfl, Nat.pos_of_ne_zero (by rintro rfl; simp [hk] at h), Nat.le_of_mul_le_mul_left hle hpos, ?_⟩
        have e : s * K - s * k = maxLen * (s * K / maxLen) := by have := Nat.div_add_mod (s * K) maxLen; omega
        rw [e, Nat.mul_mod_right]; exact dvd_zero s
      · exact ⟨K, by rw [if_neg h], hKpos, le_rfl, by simp⟩
    simp only [hk1]
    set file := (src.toList.drop it).flatMap bytes with hfile
    have hfl : file.length = s * K := by
      rw [hfile, length_flatMap_const hs]; congr 1; simp; omega
    have hKs : s * (M * N) = s * it + s * K := by rw [← hK]; ring
    have hks : s * K = s * k + s * (K - k) := by rw [← Nat.mul_add]; congr 1; omega
    have hblen : (bufRead data file (s * k)).length = s * (M * N) := by
      rw [bufRead_length _ _ _ (by rw [hfl, hdata, hKs]; omega), hdata]
    obtain ⟨a', h1, h2⟩ := rawElements_eq (ofBytes := ofBytes) hpos hs hb src (bufRead data file (s * k)) k (M * N - it) it 0 a
      (by omega) (by omega) (by rw [hblen, hKs]; omega) (by
      intro j hj h
      have hsj : s * k = s * j + s + s * (k - j - 1) := by
        rw [show s * j + s + s * (k - j - 1) = s * (j + 1 + (k - j - 1)) by ring]; congr 1; omega
      have e1 : (bufRead data file (s * k)).drop (0 + s * j) =
          ((file.take (s * k)).drop (s * j)) ++ data.drop (min (s * k) (s * K)) := by
        rw [zero_add, bufRead]
        simp only [List.length_take, hfl]
        rw [List.drop_append_of_le_length (by rw [List.length_take, hfl]; omega)]
      rw [e1, hfile, take_flatMap hs, drop_flatMap hs]
      have e2 : ((src.toList.drop it).take k).drop j = src[it + j] :: ((src.toList.drop it).take k).drop (j + 1) := by
        rw [List.drop_eq_getElem_cons (by simp; omega)]; simp
      rw [e2, List.flatMap_cons, List.append_assoc, List.take_append_of_le_length (by rw [hs]),
        List.take_of_length_le (by rw [hs])])
    rw [h1, bind_ok]
    have e3 : s * K - s * k = s * (K - k) := by omega
    rw [e3, hfile, drop_flatMap hs, List.drop_drop]
    apply ih (K - k) (by omega) (it + k) _ _ (e3 ▸ hk4) (by omega) hblen
    intro i hi hik
    rw [h2 i hi]
    split_ifs with h
    · rfl
    · exact ha i hi (by omega)

theorem roundtrip_aux {bytes : α → List UInt8} {ofBytes : List UInt8 → α} {s : Nat} (hpos : 0 < s)
    (hs : ∀ x, (bytes x).length = s) (hb : ∀ x, ofBytes (bytes x) = x) (hdvd : s ∣ s * (M * N) % (2147483648 - s)) (canOpen : List Char → Bool)
    (junk : Nat → UInt8) (m m' : Mat M N α) (dir name : List Char) (fs : Files) (ho : canOpen (rawPath dir name) = true)
    (hfs : fs (rawPath dir name) = some (m.array.toList.flatMap bytes)) :
    m'.readFromRaw s ofBytes canOpen junk dir name fs = .ok m := by
  unfold Mat.readFromRaw
  simp only [ho, if_true, hfs]
  have h2 := rawChunks_eq hpos hs hb m.array (2147483648 - s) (M * N) 0
    (List.ofFn (n := s * (M * N)) fun i => junk i.1) m'.array hdvd (by omega) (by simp) (by intro i hi h; omega)
  rw [List.drop_zero] at h2
  rw [h2]
  rfl

/-- C47, proved part: if the file name ends in `raw` and the file can be opened, `read_from_raw` of what `write_to_raw` wrote with the same
arguments gives the same matrix — for every size, every previous content of the matrix, of the file system and of the
uninitialised buffer, and every element type whose bytes determine the value, if the size of the first chunk, the number of bytes modulo `2^31 - sizeof( T )`,
is a whole number of elements. `C47_sizes` gives the two ways in which this holds in practice. (Missing: other file names, see
`C47_suffix_violated`; a first chunk that is not a whole number of elements, see `C47_large_violated`.) -/
theorem C47_roundtrip_partial {bytes : α → List UInt8} {ofBytes : List UInt8 → α} {s : Nat} (hpos : 0 < s)
    (hs : ∀ x, (bytes x).length = s) (hb : ∀ x, ofBytes (bytes x) = x) (hdvd : s ∣ s * (M * N) % (2147483648 - s)) (canOpen : List Char → Bool)
    (junk : Nat → UInt8) (m m' : Mat M N α) (dir base : List Char) (fs : Files)
    (ho : canOpen (writePath dir (base ++ ['r', 'a', 'w'])) = true) :
    m'.readFromRaw s ofBytes canOpen junk dir (base ++ ['r', 'a', 'w'])
      (m.writeToRaw bytes canOpen dir (base ++ ['r', 'a', 'w']) fs) = .ok m := by
  have hp : writePath dir (base ++ ['r', 'a', 'w']) = rawPath dir (base ++ ['r', 'a', 'w']) := by
    simp [writePath, noSuffix]
  rw [hp] at ho
  apply roundtrip_aux hpos hs hb hdvd _ _ _ _ _ _ _ ho
  simp [Mat.writeToRaw, hp, ho]

/-- C47, proved part: the file is always found under the name with `.raw` appended, and writing changes no other file. -/
theorem C47_written_file_partial {bytes : α → List UInt8} (canOpen : List Char → Bool) (m : Mat M N α) (dir name : List Char)
    (fs : Files) (hn : ¬ ['r', 'a', 'w'] <:+ name) (ho : canOpen (rawPath dir name ++ ['.', 'r', 'a', 'w']) = true) :
    (m.writeToRaw bytes canOpen dir name fs) (rawPath dir name ++ ['.', 'r', 'a', 'w']) = some (m.array.toList.flatMap bytes) ∧
      ∀ p, p ≠ rawPath dir name ++ ['.', 'r', 'a', 'w'] → (m.writeToRaw bytes canOpen dir name fs) p = fs p := by
  have hsuf : noSuffix ['r', 'a', 'w'] name = true := by
    unfold noSuffix
    split_ifs with h
    · rfl
    · simp only [Bool.not_eq_true', beq_eq_false_iff_ne, ne_eq]
      intro he
      exact hn ⟨name.take (name.length - 3), by rw [← he, List.take_append_drop]⟩
  have hp : writePath dir name = rawPath dir name ++ ['.', 'r', 'a', 'w'] := by simp [writePath, hsuf]
  constructor
  · simp [Mat.writeToRaw, hp, ho]
  · intro p hne
    simp [Mat.writeToRaw, hp, ho, hne]

/-- C47 fails for every file name that does not end in `raw`: `write_to_raw` appends `.raw`, `read_from_raw` does not, so it does not
find the file and leaves the matrix as it was. -/
theorem C47_suffix_violated {bytes : α → List UInt8} {ofBytes : List UInt8 → α} {s : Nat} (canOpen : List Char → Bool)
    (junk : Nat → UInt8) (m m' : Mat M N α) (dir name : List Char) (fs : Files) (hn : ¬ ['r', 'a', 'w'] <:+ name)
    (hnew : fs (rawPath dir name) = none) :
    m'.readFromRaw s ofBytes canOpen junk dir name (m.writeToRaw bytes canOpen dir name fs) = .ok m' := by
  have hne : rawPath dir name ≠ rawPath dir name ++ ['.', 'r', 'a', 'w'] := by
    intro h
    have := congrArg List.length h
    simp at this
  have hr : (m.writeToRaw bytes canOpen dir name fs) (rawPath dir name) = none := by
    by_cases ho : canOpen (rawPath dir name ++ ['.', 'r', 'a', 'w']) = true
    · rw [(C47_written_file_partial canOpen m dir name fs hn ho).2 _ hne, hnew]
    · have hsuf : noSuffix ['r', 'a', 'w'] name = true := by
        unfold noSuffix
        split_ifs with h
        · rfl
        · simp only [Bool.not_eq_true', beq_eq_false_iff_ne, ne_eq]
          intro he
          exact hn ⟨name.take (name.length - 3), by rw [← he, List.take_append_drop]⟩
      have hp : writePath dir name = rawPath dir name ++ ['.', 'r', 'a', 'w'] := by simp [writePath, hsuf]
      simp [Mat.writeToRaw, hp, ho, hnew]
  unfold Mat.readFromRaw
  simp only [hr]
  split_ifs <;> rfl

/-- C47. How the path is formed: exactly one separator between a non-empty directory and the name. -/
theorem C47_path (dir name : List Char) :
    rawPath [] name = name ∧ rawPath (dir ++ ['/']) name = dir ++ ['/'] ++ name ∧
    (∀ c, c ≠ '/' → rawPath (dir ++ [c]) name = dir ++ [c] ++ ['/'] ++ name) := by
  refine ⟨rfl, ?_, ?_⟩
  · simp [rawPath, lastSeparator, List.findIdx?_cons]
  · intro c hc
    have h : lastSeparator (dir ++ [c]) < ((dir ++ [c]).length : Int) - 1 := by
      unfold lastSeparator
      rw [List.reverse_append, List.reverse_singleton, List.singleton_append, List.findIdx?_cons]
      have : (c == '/') = false := by simpa using hc
      simp only [this, Bool.false_eq_true, if_false]
      cases hf : List.findIdx? (fun x => x == '/') dir.reverse with
      | none => simp; omega
      | some k => simp
    unfold rawPath
    simp only [h, if_true]

/-- The chunk condition of `C47_roundtrip_partial` holds for all element sizes dividing `2^31` (1, 2, 4, 8, 16, ..) and for all data below `2^31 - sizeof( T )` bytes. -/
theorem C47_sizes (s K : Nat) (h : s ∣ 2147483648 ∨ s * K < 2147483648 - s) : s ∣ s * K % (2147483648 - s) := by
  rcases h with h | h
  · exact (Nat.dvd_mod_iff (Nat.dvd_sub h (dvd_refl s))).2 (Nat.dvd_mul_right s K)
  · rw [Nat.mod_eq_of_lt h]; exact Nat.dvd_mul_right s K

/-- The element loop when `len_read` is not a whole number of elements (or exceeds what is left): it does not stop before the end of the matrix, because `len_read`
passes zero and wraps around. -/
theorem rawElements_wrap (ofBytes : List UInt8 → α) {s : Nat} (data : List UInt8) :
    ∀ (n it ptr len : Nat) (a : Vector α (M * N)), it + n = M * N → ptr + s * n ≤ data.length →
      ((¬ s ∣ len ∧ s * n + s < 2 ^ 64) ∨ s * n < len) →
      ∃ a', rawElements s ofBytes data n it ptr len a = .ok (M * N, a') ∧
        ∀ i (h : i < M * N), a'[i] = if it ≤ i then ofBytes ((data.drop (ptr + s * (i - it))).take s) else a[i] := by
  intro n
  induction n with
  | zero =>
    intro it ptr len a hn _ _
    refine ⟨a, by rw [rawElements]; congr 2, ?_⟩
    intro i hi
    rw [if_neg (by omega)]
  | succ n ih =>
    intro it ptr len a hn hlen hP
    have hmul : s * (n + 1) = s * n + s := by ring
    have h0 : len ≠ 0 := by
      rcases hP with ⟨h, _⟩ | h
      · rintro rfl; exact h (dvd_zero s)
      · omega
    have hit : it < M * N := by omega
    rw [rawElements, if_neg h0, if_neg (by omega), dif_pos hit]
    have hP' : (¬ s ∣ subSizeT len s ∧ s * n + s < 2 ^ 64) ∨ s * n < subSizeT len s := by
      unfold subSizeT
      rcases hP with ⟨h, hb⟩ | h
      · split_ifs with hle
        · exact Or.inl ⟨fun hd => h (by have := Nat.dvd_add hd (dvd_refl s); rwa [Nat.sub_add_cancel hle] at this), by omega⟩
        · exact Or.inr (by omega)
      · rw [if_pos (by omega)]
        exact Or.inr (by omega)
    obtain ⟨a', h1, h2⟩ := ih (it + 1) (ptr + s) (subSizeT len s) (a.set it (ofBytes ((data.drop ptr).take s))) (by omega) (by omega) hP'
    refine ⟨a', h1, ?_⟩
    intro i hi
    rw [h2 i hi, Vector.getElem_set]
    by_cases hi1 : it + 1 ≤ i
    · have e : s * (i - it) = s + s * (i - (it + 1)) := by
        rw [show i - it = 1 + (i - (it + 1)) by omega]; ring
      rw [if_pos hi1, if_pos (by omega), e, Nat.add_assoc]
    · rw [if_neg hi1]
      by_cases hi2 : it = i
      · subst hi2; simp
      · rw [if_neg hi2, if_neg (by omega)]

/-- Once the matrix is full, further chunks change nothing. -/
theorem rawChunks_full (s : Nat) (ofBytes : List UInt8 → α) (maxLen : Nat) (a : Vector α (M * N)) :
    ∀ (len : Nat) (file data : List UInt8), rawChunks s ofBytes maxLen len file data (M * N) a = .ok a := by
  intro len
  induction len using Nat.strong_induction_on with
  | _ len ih =>
  intro file data
  rw [rawChunks]
  split_ifs with h h'
  · rfl
  all_goals
    simp only [Nat.sub_self, rawElements, pure_ok, bind_ok]
    exact ih _ (by first | omega | simp [h, Nat.pos_of_ne_zero h]) _ _

/-- C47 fails for large data whose first chunk, `r` bytes, is not a whole number of elements: every element behind the first `r` bytes is read from the
uninitialised part of the buffer, whatever the file contains. -/
theorem C47_large_violated {ofBytes : List UInt8 → α} {s : Nat} (hsz : s * (M * N) + s < 2 ^ 64)
    (canOpen : List Char → Bool) (junk : Nat → UInt8) (m' : Mat M N α) (dir name : List Char) (fs : Files) (file : List UInt8)
    (ho : canOpen (rawPath dir name) = true) (hf : fs (rawPath dir name) = some file) (hd : ¬ s ∣ s * (M * N) % (2147483648 - s)) :
    ∃ m'' : Mat M N α, m'.readFromRaw s ofBytes canOpen junk dir name fs = .ok m'' ∧
      ∀ i (h : i < M * N), s * (M * N) % (2147483648 - s) ≤ s * i →
        m''.array[i] = ofBytes (List.ofFn (n := s) fun k => junk (s * i + k.1)) := by
  set len := s * (M * N) with hlen
  set r := len % (2147483648 - s) with hr
  have hr0 : 0 < r := Nat.pos_of_ne_zero (by rintro h; rw [h] at hd; exact hd (dvd_zero s))
  have hl0 : len ≠ 0 := by rintro h; rw [hr, h] at hr0; simp at hr0
  obtain ⟨data, hdata⟩ : ∃ d, d = List.ofFn (n := len) fun i => junk i.1 := ⟨_, rfl⟩
  have hbl : len ≤ (bufRead data file r).length := by
    have hrl : r ≤ len := Nat.mod_le _ _
    simp only [bufRead, List.length_append, List.length_drop, List.length_take, hdata, List.length_ofFn]
    omega
  obtain ⟨a', h1, h2⟩ := rawElements_wrap (M := M) (N := N) ofBytes (s := s) (bufRead data file r) (M * N) 0 0 r m'.array (by omega) (by omega)
    (Or.inl ⟨hd, hsz⟩)
  refine ⟨⟨a'⟩, ?_, ?_⟩
  · unfold Mat.readFromRaw
    simp only [ho, if_true, hf]
    have e : rawChunks s ofBytes (2147483648 - s) len file data 0 m'.array = .ok a' := by
      rw [rawChunks, dif_neg hl0]
      simp only [← hr, if_pos hr0, Nat.sub_zero, h1, bind_ok, rawChunks_full]
    rw [hdata] at e
    rw [e]
    rfl
  · intro i hi hri
    have hsi : s * i + s ≤ len := by
      have : s * (i + 1) ≤ s * (M * N) := Nat.mul_le_mul_left s hi
      have e : s * (i + 1) = s * i + s := by ring
      omega
    change a'[i] = _
    rw [h2 i hi, if_pos (Nat.zero_le _)]
    simp only [Nat.sub_zero, Nat.zero_add]
    congr 1
    apply List.ext_getElem
    · simp only [bufRead, List.length_take, List.length_drop, List.length_append, hdata, List.length_ofFn]; omega
    · intro k hk1 hk2
      have hk : k < s := by simpa using hk2
      rw [List.getElem_take, List.getElem_drop]
      simp only [bufRead]
      rw [List.getElem_append_right (by simp only [List.length_take]; omega)]
      rw [List.getElem_drop]
      simp only [hdata, List.getElem_ofFn, List.length_take]
      congr 1
      omega

/-- The case exists: twelve-byte elements (`long double` on 32-bit systems, `Vector< 3, float >`) and 178956970 of them: the first chunk has 4 bytes. -/
example : ¬ 12 ∣ 12 * (178956970 * 1) % (2147483648 - 12) ∧ 12 * (178956970 * 1) + 12 < 2 ^ 64 := by decide

/-- The hypotheses of the round trip are met by bytes (`unsigned char`) and by `float`. -/
example : (⟨#v[1, 2, 3, 4]⟩ : Mat 2 2 UInt8).readFromRaw 1 (fun l => l.headD 0) (fun _ => true) (fun _ => 7) "d".toList "m.raw".toList
    ((⟨#v[5, 6, 7, 8]⟩ : Mat 2 2 UInt8).writeToRaw (fun b => [b]) (fun _ => true) "d".toList "m.raw".toList fun _ => none) =
    .ok ⟨#v[5, 6, 7, 8]⟩ :=
  C47_roundtrip_partial (s := 1) (bytes := fun b : UInt8 => [b]) (base := "m.".toList) (by norm_num) (fun _ => rfl) (fun _ => rfl) (by norm_num) _ _ _ _ _ _ rfl

end Vmml
