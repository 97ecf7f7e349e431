import Verif.Model.Vector

/-! Helper lemmas: closed forms of the vector loops. -/

namespace Vmml
namespace Vec
variable {M N : Nat} {α β : Type}

@[simp] theorem rawGet_lt (v : Vec M α) {i} (h : i < M) : rawGet v i = .ok v[i] := by
  simp [rawGet, h]
theorem rawGet_ge (v : Vec M α) {i} (h : M ≤ i) : rawGet v i = .error .ub := by
  simp [rawGet, Nat.not_lt.2 h]
@[simp] theorem rawSet_lt (v : Vec M α) {i} (x : α) (h : i < M) :
    rawSet v i x = .ok (v.set i x) := by simp [rawSet, h]
theorem rawSet_ge (v : Vec M α) {i} (x : α) (h : M ≤ i) : rawSet v i x = .error .ub := by
  simp [rawSet, Nat.not_lt.2 h]
@[simp] theorem atGet_lt (cfg : Cfg) (v : Vec M α) {i} (h : i < M) : atGet cfg v i = .ok v[i] := by
  simp [atGet, h]
@[simp] theorem atSet_lt (cfg : Cfg) (v : Vec M α) {i} (x : α) (h : i < M) :
    atSet cfg v i x = .ok (v.set i x) := by simp [atSet, h]

end Vec

open Vec
variable {M N : Nat} {α β : Type}

/-- Elementwise rule: the body at `i` writes cell `i` only. -/
theorem loop_set {body : Nat → Vec M α → Res (Vec M α)} {v0 : Vec M α} (g : Fin M → α)
    (h : ∀ i (hi : i < M) (v : Vec M α), (∀ j (hj : j < M), i ≤ j → v[j] = v0[j]) →
      body i v = .ok (v.set i (g ⟨i, hi⟩))) :
    loop M body v0 = .ok (Vector.ofFn g) := by
  obtain ⟨s', h1, h2⟩ := loop_ok (n := M) (body := body) (s := v0)
    (fun i v => (∀ j (hj : j < M), v[j] = if j < i then g ⟨j, hj⟩ else v0[j])) (by simp) (by
      intro i hi v hv
      refine ⟨_, h i hi v ?_, ?_⟩
      · intro j hj hij; rw [hv j hj, if_neg (by omega)]
      · intro j hj
        rw [Vector.getElem_set]
        split_ifs <;> first
          | omega
          | (subst_vars; rfl)
          | (rw [hv j hj]; split_ifs <;> first | omega | rfl))
  rw [h1]; congr 1; ext j hj; simp [h2 j hj, hj]

/-- Elementwise rule for a prefix of `n` cells. -/
theorem loop_set_prefix {n : Nat} (hn : n ≤ M) {body : Nat → Vec M α → Res (Vec M α)} {v0 : Vec M α}
    (g : Fin n → α)
    (h : ∀ i (hi : i < n) (v : Vec M α), (∀ j (hj : j < M), i ≤ j → v[j] = v0[j]) →
      body i v = .ok (v.set i (g ⟨i, hi⟩))) :
    loop n body v0 =
      .ok (Vector.ofFn fun j : Fin M => if h : j.1 < n then g ⟨j, h⟩ else v0[j]) := by
  obtain ⟨s', h1, h2⟩ := loop_ok (n := n) (body := body) (s := v0)
    (fun i v => i ≤ n ∧ (∀ j (hj : j < M), v[j] = if h : j < i ∧ j < n then g ⟨j, h.2⟩ else v0[j]))
      (by simp) (by
      rintro i hi v ⟨-, hv⟩
      refine ⟨_, h i hi v ?_, hi, ?_⟩
      · intro j hj hij; rw [hv j hj, dif_neg (by omega)]
      · intro j hj
        rw [Vector.getElem_set]
        split_ifs <;> first
          | omega
          | (subst_vars; rfl)
          | (rw [hv j hj]; split_ifs <;> first | omega | rfl))
  rw [h1]; congr 1; ext j hj
  simp only [Vector.getElem_ofFn]
  rw [h2.2 j hj]
  by_cases hjn : j < n <;> simp [hjn]

theorem vec2_ext {v w : Vec 2 α} (h0 : v[0] = w[0]) (h1 : v[1] = w[1]) : v = w := by
  apply Vector.ext; intro i hi
  match i, hi with
  | 0, _ => exact h0
  | 1, _ => exact h1

theorem vec3_ext {v w : Vec 3 α} (h0 : v[0] = w[0]) (h1 : v[1] = w[1]) (h2 : v[2] = w[2]) : v = w := by
  apply Vector.ext; intro i hi
  match i, hi with
  | 0, _ => exact h0
  | 1, _ => exact h1
  | 2, _ => exact h2

theorem vec4_ext {v w : Vec 4 α} (h0 : v[0] = w[0]) (h1 : v[1] = w[1]) (h2 : v[2] = w[2])
    (h3 : v[3] = w[3]) : v = w := by
  apply Vector.ext; intro i hi
  match i, hi with
  | 0, _ => exact h0
  | 1, _ => exact h1
  | 2, _ => exact h2
  | 3, _ => exact h3

theorem ofFn3 (f : Fin 3 → α) : (Vector.ofFn f : Vec 3 α) = #v[f 0, f 1, f 2] := by
  apply vec3_ext <;> simp

theorem ofFn4 (f : Fin 4 → α) : (Vector.ofFn f : Vec 4 α) = #v[f 0, f 1, f 2, f 3] := by
  apply vec4_ext <;> simp

theorem set3_eq (v : Vec 3 α) (x y z : α) : v.set3 x y z = .ok #v[x, y, z] := by
  simp only [Vec.set3, Vec.rawSet_lt, bind_ok, Nat.reduceLT, Nat.zero_lt_succ]
  congr 1
  apply vec3_ext <;> simp

namespace Vec

@[simp] theorem zeroCtor_get [Zero α] (i : Nat) (h : i < M) : (zeroCtor : Vec M α)[i] = 0 := by
  simp [zeroCtor]

theorem fill_eq (mem : Vec M α) (a : α) : mem.fill a = .ok (Vector.replicate M a) := by
  unfold fill
  rw [loop_set (fun _ => a) (by intro i hi v _; simp [hi])]
  congr 1; ext; simp

theorem assignFiller_eq (cfg : Cfg) (v : Vec M α) (a : α) :
    v.assignFiller cfg a = .ok (Vector.replicate M a) := by
  unfold assignFiller
  rw [loop_set (fun _ => a) (by intro i hi v _; simp [hi])]
  congr 1; ext; simp

theorem memcpy_eq (dst : Vec M α) (src : Vec N α) (n : Nat) (h1 : n ≤ M) (h2 : n ≤ N) :
    dst.memcpy src n = .ok (Vector.ofFn fun j : Fin M =>
      if h : j.1 < n then src[j.1] else dst[j]) := by
  unfold memcpy
  rw [loop_set_prefix h1 (fun i => src[i.1])]
  intro i hi v _
  simp [show i < N by omega, show i < M by omega]

section arith
variable (cfg : Cfg) (v w : Vec M α) (a : α)

theorem add_eq [Zero α] [Add α] : v.add cfg w = .ok (Vector.ofFn fun i => v[i] + w[i]) := by
  unfold add; apply loop_set; intro i hi u _; simp [hi]
theorem sub_eq [Zero α] [Sub α] : v.sub cfg w = .ok (Vector.ofFn fun i => v[i] - w[i]) := by
  unfold sub; apply loop_set; intro i hi u _; simp [hi]
theorem mul_eq [Zero α] [Mul α] : v.mul cfg w = .ok (Vector.ofFn fun i => v[i] * w[i]) := by
  unfold mul; apply loop_set; intro i hi u _; simp [hi]
theorem div_eq [Zero α] [Div α] : v.div cfg w = .ok (Vector.ofFn fun i => v[i] / w[i]) := by
  unfold div; apply loop_set; intro i hi u _; simp [hi]
theorem addS_eq [Zero α] [Add α] : v.addS cfg a = .ok (Vector.ofFn fun i => v[i] + a) := by
  unfold addS; apply loop_set; intro i hi u _; simp [hi]
theorem subS_eq [Zero α] [Sub α] : v.subS cfg a = .ok (Vector.ofFn fun i => v[i] - a) := by
  unfold subS; apply loop_set; intro i hi u _; simp [hi]
theorem mulS_eq [Zero α] [Mul α] : v.mulS cfg a = .ok (Vector.ofFn fun i => v[i] * a) := by
  unfold mulS; apply loop_set; intro i hi u _; simp [hi]
theorem divS_eq [Zero α] [Div α] : v.divS cfg a = .ok (Vector.ofFn fun i => v[i] / a) := by
  unfold divS; apply loop_set; intro i hi u _; simp [hi]
theorem addAssign_eq [Add α] : v.addAssign cfg w = .ok (Vector.ofFn fun i => v[i] + w[i]) := by
  unfold addAssign; apply loop_set; intro i hi u hu; simp [hi, hu i hi]
theorem subAssign_eq [Sub α] : v.subAssign cfg w = .ok (Vector.ofFn fun i => v[i] - w[i]) := by
  unfold subAssign; apply loop_set; intro i hi u hu; simp [hi, hu i hi]
theorem mulAssign_eq [Mul α] : v.mulAssign cfg w = .ok (Vector.ofFn fun i => v[i] * w[i]) := by
  unfold mulAssign; apply loop_set; intro i hi u hu; simp [hi, hu i hi]
theorem divAssign_eq [Div α] : v.divAssign cfg w = .ok (Vector.ofFn fun i => v[i] / w[i]) := by
  unfold divAssign; apply loop_set; intro i hi u hu; simp [hi, hu i hi]
theorem addAssignS_eq [Add α] : v.addAssignS cfg a = .ok (Vector.ofFn fun i => v[i] + a) := by
  unfold addAssignS; apply loop_set; intro i hi u hu; simp [hi, hu i hi]
theorem subAssignS_eq [Sub α] : v.subAssignS cfg a = .ok (Vector.ofFn fun i => v[i] - a) := by
  unfold subAssignS; apply loop_set; intro i hi u hu; simp [hi, hu i hi]
theorem mulAssignS_eq [Mul α] : v.mulAssignS cfg a = .ok (Vector.ofFn fun i => v[i] * a) := by
  unfold mulAssignS; apply loop_set; intro i hi u hu; simp [hi, hu i hi]
theorem divAssignS_eq [Div α] : v.divAssignS cfg a = .ok (Vector.ofFn fun i => v[i] / a) := by
  unfold divAssignS; apply loop_set; intro i hi u hu; simp [hi, hu i hi]
theorem negate_eq [Neg α] : v.negate = .ok (Vector.ofFn fun i => -v[i]) := by
  unfold negate; apply loop_set; intro i hi u hu; simp [hi, hu i hi]
end arith

theorem dot_eq [NonUnitalNonAssocSemiring α] (cfg : Cfg) (v w : Vec M α) :
    v.dot cfg w = .ok (∑ i : Fin M, v[i] * w[i]) := by
  unfold dot
  rw [loop_sum (fun i : Fin M => v[i] * w[i]) (by intro i hi s; simp [hi])]
  simp

theorem squaredLength_eq [NonUnitalNonAssocSemiring α] (v : Vec M α) :
    v.squaredLength = .ok (∑ i : Fin M, v[i] * v[i]) := by
  unfold squaredLength
  rw [loop_sum (fun i : Fin M => v[i] * v[i]) (by intro i hi s; simp [hi])]
  simp

end Vec
end Vmml
