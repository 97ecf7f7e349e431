import Verif.Model.MatrixAlias
import Verif.Proofs.MatrixPaint
import Verif.Props.MatrixAccess
import Mathlib.Tactic.FieldSimp
import Mathlib.Tactic.LinearCombination
import Mathlib.Tactic.Linarith

/-!
# C25-C28, C32-C35: products, transposition, negation, tensor and block constructions
-/
set_option linter.unusedSimpArgs false

namespace Vmml
open Mat
variable {M N P Q O : Nat} {α β : Type}

/-! ## C25 -/

/-- C25. `A * B` and `multiply( A, B )` are the matrix product, for all sizes and all (possibly non-commutative)
semirings, whatever the target contained. -/
theorem C25_mul [NonAssocSemiring α] (cfg : Cfg) (t : Mat M P α) (a : Mat M N α) (b : Mat N P α) :
    ∃ x, a.mul cfg b = .ok x ∧ t.multiply cfg a b = .ok x ∧ x.toMat = a.toMat * b.toMat := by
  refine ⟨_, mul_eq cfg a b, multiply_eq cfg t a b, ?_⟩
  ext r c; simp [Matrix.mul_apply]

/-- C25. `+`, `-`, `+=`, `-=`, piecewise product and scalar operations act cell by cell. -/
theorem C25_entrywise [Ring α] [Div α] (cfg : Cfg) (a b : Mat M N α) (s : α) :
    (∃ x, a.add b = .ok x ∧ a.addAssign b = .ok x ∧ x.toMat = a.toMat + b.toMat) ∧
    (∃ x, a.sub b = .ok x ∧ a.subAssign b = .ok x ∧ x.toMat = a.toMat - b.toMat) ∧
    (∃ x, a.multiplyPiecewise cfg b = .ok x ∧ ∀ i j, x.toMat i j = a.toMat i j * b.toMat i j) ∧
    (∃ x, a.mulS cfg s = .ok x ∧ a.mulAssignS cfg s = .ok x ∧ ∀ i j, x.toMat i j = a.toMat i j * s) ∧
    (∃ x, a.divS cfg s = .ok x ∧ a.divAssignS cfg s = .ok x ∧ ∀ i j, x.toMat i j = a.toMat i j / s) ∧
    (∃ x, a.addAssignS s = .ok x ∧ ∀ i j, x.toMat i j = a.toMat i j + s) ∧
    (∃ x, a.subAssignS s = .ok x ∧ ∀ i j, x.toMat i j = a.toMat i j - s) := by
  refine ⟨⟨_, add_eq a b, addAssign_eq a b, ?_⟩, ⟨_, sub_eq a b, subAssign_eq a b, ?_⟩,
    ⟨_, multiplyPiecewise_eq cfg a b, by simp⟩, ⟨_, mulS_eq cfg a s, mulAssignS_eq cfg a s, by simp⟩,
    ⟨_, divS_eq cfg a s, divAssignS_eq cfg a s, by simp⟩, ⟨_, addAssignS_eq a s, by simp⟩,
    ⟨_, subAssignS_eq a s, by simp⟩⟩ <;> ext r c <;> simp

/-- C25. Associativity, as the two ways a user can evaluate `A * B * C`. -/
theorem C25_assoc [Semiring α] (cfg : Cfg) (a : Mat M N α) (b : Mat N P α) (c : Mat P Q α) :
    (do (← a.mul cfg b).mul cfg c) = (do a.mul cfg (← b.mul cfg c)) := by
  obtain ⟨x, hx, -, hx'⟩ := C25_mul cfg (ofFn fun _ _ => 0) a b
  obtain ⟨y, hy, -, hy'⟩ := C25_mul cfg (ofFn fun _ _ => 0) b c
  obtain ⟨z, hz, -, hz'⟩ := C25_mul cfg (ofFn fun _ _ => 0) x c
  obtain ⟨w, hw, -, hw'⟩ := C25_mul cfg (ofFn fun _ _ => 0) a y
  simp only [hx, hy, bind_ok, hz, hw]
  congr 1
  rw [← toMat_inj, hz', hw', hx', hy', Matrix.mul_assoc]

/-- C25. Distributivity on both sides. -/
theorem C25_distrib [Semiring α] (cfg : Cfg) (a : Mat M N α) (b c : Mat N P α) (d e : Mat M N α) :
    (do a.mul cfg (← b.add c)) = (do (← a.mul cfg b).add (← a.mul cfg c)) ∧
    (do (← d.add e).mul cfg b) = (do (← d.mul cfg b).add (← e.mul cfg b)) := by
  simp only [add_eq, mul_eq, bind_ok]
  constructor <;> congr 1 <;> ext r c <;> simp [mul_add, add_mul, Finset.sum_add_distrib]

example : (⟨#v[1, 3, 2, 4]⟩ : Mat 2 2 Int).mul ⟨true, true, false⟩ (⟨#v[5, 7, 6, 8]⟩ : Mat 2 2 Int) =
    .ok ⟨#v[19, 43, 22, 50]⟩ := by decide

/-! ## C26 -/

theorem Mat.multiplyH_eq [NonAssocSemiring α] (cfg : Cfg) (h : Heap (Mat M M α)) (this left right : Nat)
    (hl : left ≠ this) (hr : right ≠ this) :
    multiplyH cfg h this left right =
      .ok (Function.update h this (ofFn fun r c => ∑ p, (h left).get r p * (h right).get p c)) := by
  -- the heap stays `h` except at `this`, and there the value follows the non-aliased `multiply`
  have inner : ∀ r c (hr' : r < M) (hc : c < M) (m : Mat M M α),
      (do
        let h' := Function.update (Function.update h this m) this
          (← ((Function.update h this m) this).atSet cfg r c 0)
        loop M (fun p (h : Heap (Mat M M α)) => do
          let x := (← (h this).atGet cfg r c) + (← (h left).atGet cfg r p) * (← (h right).atGet cfg p c)
          pure (Function.update h this (← (h this).atSet cfg r c x))) h') =
      .ok (Function.update h this (m.put ⟨r, hr'⟩ ⟨c, hc⟩
        (∑ p, (h left).get ⟨r, hr'⟩ p * (h right).get p ⟨c, hc⟩))) := by
    intro r c hr' hc m
    simp only [Function.update_self, atSet_lt cfg m 0 hr' hc, bind_ok, Function.update_idem]
    obtain ⟨s', h1, h2⟩ := loop_ok (n := M)
      (body := fun p (h : Heap (Mat M M α)) => do
          let x := (← (h this).atGet cfg r c) + (← (h left).atGet cfg r p) * (← (h right).atGet cfg p c)
          pure (Function.update h this (← (h this).atSet cfg r c x)))
      (s := Function.update h this (m.put ⟨r, hr'⟩ ⟨c, hc⟩ 0))
      (fun k s => s = Function.update h this (m.put ⟨r, hr'⟩ ⟨c, hc⟩
        (∑ p : Fin M, if p.1 < k then (h left).get ⟨r, hr'⟩ p * (h right).get p ⟨c, hc⟩ else 0))) (by simp) (by
        rintro k hk s rfl
        refine ⟨Function.update h this (m.put ⟨r, hr'⟩ ⟨c, hc⟩
          ((∑ p : Fin M, if p.1 < k then (h left).get ⟨r, hr'⟩ p * (h right).get p ⟨c, hc⟩ else 0) +
            (h left).get ⟨r, hr'⟩ ⟨k, hk⟩ * (h right).get ⟨k, hk⟩ ⟨c, hc⟩)), by simp [hr', hc, hk, hl, hr], ?_⟩
        congr 2
        have : ∀ p : Fin M, (if p.1 < k + 1 then (h left).get ⟨r, hr'⟩ p * (h right).get p ⟨c, hc⟩ else 0) =
            (if p.1 < k then (h left).get ⟨r, hr'⟩ p * (h right).get p ⟨c, hc⟩ else 0) +
            (if p = ⟨k, hk⟩ then (h left).get ⟨r, hr'⟩ p * (h right).get p ⟨c, hc⟩ else 0) := by
          intro p
          by_cases e : p = ⟨k, hk⟩
          · subst e; simp
          · have : p.1 ≠ k := fun h => e (Fin.ext h)
            by_cases h' : p.1 < k
            · simp [h', e, show p.1 < k + 1 by omega]
            · simp [h', e, show ¬ p.1 < k + 1 by omega]
        simp only [this, Finset.sum_add_distrib, Finset.sum_ite_eq', Finset.mem_univ, if_true])
    rw [h1, h2]
    simp
  unfold multiplyH
  set G : Fin M → Fin M → α := fun r c => ∑ p, (h left).get r p * (h right).get p c with hG
  obtain ⟨s', h1, h2, h3⟩ := loop_paint (M := M) (N := M) (α := α) (fun s : Heap (Mat M M α) => s this)
    (fun _ s => ∃ m, s = Function.update h this m)
    (n := M) (s := h) (fun r r' _ => r'.1 = r) G
    (body := fun r h => loop M (fun c h => do
      let h := Function.update h this (← (h this).atSet cfg r c 0)
      loop M (fun p h => do
        let x := (← (h this).atGet cfg r c) + (← (h left).atGet cfg r p) * (← (h right).atGet cfg p c)
        pure (Function.update h this (← (h this).atSet cfg r c x))) h) h)
    ⟨h this, by simp⟩ (by
      rintro r hr' s hs
      obtain ⟨s', h1, h2, h3⟩ := loop_paint (M := M) (N := M) (α := α) (fun s : Heap (Mat M M α) => s this)
        (fun _ s => ∃ m, s = Function.update h this m)
        (n := M) (s := s) (fun c r' c' => r'.1 = r ∧ c'.1 = c) G
        (body := fun c h => do
          let h := Function.update h this (← (h this).atSet cfg r c 0)
          loop M (fun p h => do
            let x := (← (h this).atGet cfg r c) + (← (h left).atGet cfg r p) * (← (h right).atGet cfg p c)
            pure (Function.update h this (← (h this).atSet cfg r c x))) h)
        hs (by
          rintro c hc s ⟨m, rfl⟩
          refine ⟨_, inner r c hr' hc m, ⟨_, rfl⟩, ?_⟩
          simp only [Function.update_self]
          refine (Paint.put m ⟨r, hr'⟩ ⟨c, hc⟩ G).congr ?_
          intro r' c'; simp [Fin.ext_iff, eq_comm])
      refine ⟨s', h1, h2, h3.congr ?_⟩
      intro r' c'
      constructor
      · intro h; exact ⟨c'.1, c'.2, h, rfl⟩
      · rintro ⟨_, _, h, _⟩; exact h)
  obtain ⟨m, rfl⟩ := h2
  rw [h1]
  congr 2
  simp only [Function.update_self] at h3
  exact h3.all (fun r c => ⟨r.1, r.2, rfl⟩)

/-- C26, the proved part. `A *= B` computes `A * B` and changes nothing else, for every `B` that is another object
than `A` (`tmp` is the address of the local copy). Missing: `B` being `A` itself, where the claim is false
(`C26_self_multiplication_violated`). -/
theorem C26_mul_assign_partial [NonAssocSemiring α] (cfg : Cfg) (h : Heap (Mat M M α)) (this right tmp : Nat)
    (ht : tmp ≠ this) (ht' : tmp ≠ right) (hr : right ≠ this) :
    ∃ h', mulAssignH cfg h this right tmp = .ok h' ∧ (h' this).toMat = (h this).toMat * (h right).toMat ∧
      ∀ a, a ≠ this → a ≠ tmp → h' a = h a := by
  refine ⟨_, multiplyH_eq cfg _ this tmp right ht hr, ?_, ?_⟩
  · ext r c; simp [Matrix.mul_apply, Function.update_of_ne (Ne.symm ht')]
  · intro a h1 h2; simp [h1, h2]

/-- C26 fails for `A *= A`: with `A = [1 2; 3 4]` the true square is `[7 10; 15 22]`, the library computes
`[6 8; 90 120]`: each cell is cleared before it is read as an operand. -/
theorem C26_self_multiplication_violated :
    let A : Mat 2 2 Int := ⟨#v[1, 3, 2, 4]⟩
    (mulAssignH ⟨true, true, false⟩ (fun _ => A) 0 0 1).map (fun h => h 0) = .ok ⟨#v[6, 90, 8, 120]⟩ ∧
    A.mul ⟨true, true, false⟩ A = .ok ⟨#v[7, 15, 10, 22]⟩ := by
  decide

/-- C26. The other compound operators are safe under aliasing: `A += A`, `A -= A` give the cellwise result. -/
theorem C26_entrywise_alias (op : α → α → α) (h : Heap (Mat M N α)) (this other : Nat) :
    ∃ h', Mat.opAssignH op h this other = .ok h' ∧
      (∀ r c, (h' this).toMat r c = op ((h this).toMat r c) ((h other).toMat r c)) ∧ ∀ a, a ≠ this → h' a = h a := by
  obtain ⟨s', h1, h2, h3⟩ := loop_ok (n := M * N) (body := fun i (h : Heap (Mat M N α)) => do
      let x := op (← (h this).rawGet i) (← (h other).rawGet i)
      pure (Function.update h this (← (h this).rawSet i x))) (s := h)
    (fun i s => (∀ a, a ≠ this → s a = h a) ∧ ∀ j (hj : j < M * N), (s this).array[j] =
      if j < i then op (h this).array[j] (h other).array[j] else (h this).array[j]) (by simp) (by
      rintro i hi s ⟨hs1, hs2⟩
      have e : (s other).array[i] = (h other).array[i] := by
        by_cases e : other = this
        · subst e; rw [hs2 i hi, if_neg (by omega)]
        · rw [hs1 other e]
      refine ⟨_, by simp [Mat.rawGet_lt, Mat.rawSet_lt, hi]; rfl, ?_, ?_⟩
      · intro a ha; rw [Function.update_of_ne ha, hs1 a ha]
      · intro j hj
        simp only [Function.update_self, Vector.getElem_set]
        split_ifs with e1 e2 e2
        · subst e1; rw [hs2 i hi, if_neg (by omega), e]
        · omega
        · rw [hs2 j hj, if_pos (by omega)]
        · rw [hs2 j hj, if_neg (by omega)])
  refine ⟨s', h1, ?_, h2⟩
  intro r c
  have := h3 (c.1 * M + r.1) (idx_lt r.2 c.2)
  simpa [idx_lt r.2 c.2, Mat.get] using this

/-! ## C27 -/

/-- C27. `A * v` is the matrix-vector product. -/
theorem C27_mul_vec [NonUnitalNonAssocSemiring α] (cfg : Cfg) (a : Mat M N α) (v : Vec N α) :
    ∃ w, a.mulVec cfg v = .ok w ∧ ∀ i : Fin M, w[i] = (a.toMat.mulVec fun j => v[j]) i :=
  ⟨_, mulVec_eq cfg a v, fun i => by simp [Matrix.mulVec, dotProduct]⟩

/-- C27. `( A * B ) * v = A * ( B * v )`. -/
theorem C27_mul_vec_assoc [Semiring α] (cfg : Cfg) (a : Mat M N α) (b : Mat N P α) (v : Vec P α) :
    (do (← a.mul cfg b).mulVec cfg v) = (do a.mulVec cfg (← b.mulVec cfg v)) := by
  simp only [mul_eq, mulVec_eq, bind_ok]
  congr 1; ext i hi
  simp only [Vector.getElem_ofFn, get_ofFn, Finset.sum_mul, Finset.mul_sum]
  rw [Finset.sum_comm]
  refine Finset.sum_congr rfl fun x _ => ?_
  simp [Finset.mul_sum, mul_assoc]

/-- The homogeneous coordinate of row `r`: `sum_j A( r, j ) v_j + A( r, K )`. -/
def homRow [Semiring α] {K : Nat} (a : Matrix (Fin (K + 1)) (Fin (K + 1)) α) (v : Fin K → α) (r : Fin (K + 1)) : α :=
  (∑ j : Fin K, a r j.castSucc * v j) + a r (Fin.last K)

theorem Mat.mulVecHom_eq [Field α] {K : Nat} (cfg : Cfg) (a : Mat (K + 1) (K + 1) α) (v : Vec K α) :
    a.mulVecHom cfg v = .ok (Vector.ofFn fun i : Fin K =>
      homRow a.toMat (fun j => v[j]) i.castSucc / homRow a.toMat (fun j => v[j]) (Fin.last K)) := by
  unfold mulVecHom
  rw [loop_succ]
  have hin : ∀ r (hr : r < K + 1), loop K (fun c tmp => do pure (tmp + (← v.atGet cfg c) * (← a.atGet cfg r c))) (0 : α) =
      .ok (∑ j : Fin K, a.get ⟨r, hr⟩ j.castSucc * v[j]) := by
    intro r hr
    rw [loop_sum (fun j : Fin K => a.get ⟨r, hr⟩ j.castSucc * v[j]) (by
      intro j hj s
      rw [Vec.atGet_lt cfg v hj, bind_ok, atGet_lt cfg a hr (by omega), bind_ok, mul_comm]; rfl)]
    simp
  have h1 : loop K (fun r (res : Vec K α) => do
      let tmp ← loop K (fun c tmp => do pure (tmp + (← v.atGet cfg c) * (← a.atGet cfg r c))) (0 : α)
      if r < K then
        res.atSet cfg r (tmp + (← a.atGet cfg r K))
      else do
        let tmp := tmp + (← a.atGet cfg r K)
        loop K (fun c res => do res.atSet cfg c ((← res.atGet cfg c) / tmp)) res) Vec.zeroCtor =
      .ok (Vector.ofFn fun i : Fin K => homRow a.toMat (fun j => v[j]) i.castSucc) := by
    apply loop_set
    intro i hi w _
    rw [hin i (by omega), bind_ok, if_pos hi, atGet_lt cfg a (by omega) (by omega), bind_ok, Vec.atSet_lt cfg w _ hi]
    rfl
  rw [h1, bind_ok, hin K (by omega), bind_ok, if_neg (by omega), atGet_lt cfg a (by omega) (by omega), bind_ok]
  apply loop_set
  intro i hi w hw
  rw [Vec.atGet_lt cfg w hi, bind_ok, Vec.atSet_lt cfg w _ hi, hw i hi le_rfl]
  simp only [Vector.getElem_ofFn]
  rfl

/-- C27 (homogeneous). The vector is extended by 1, multiplied, and the first coordinates divided by the last one. -/
theorem C27_homogeneous [Field α] {K : Nat} (cfg : Cfg) (a : Mat (K + 1) (K + 1) α) (v : Vec K α) :
    ∃ u, a.mulVecHom cfg v = .ok u ∧ ∀ i : Fin K, u[i] =
      (a.toMat.mulVec (Fin.snoc (fun j => v[j]) 1)) i.castSucc /
      (a.toMat.mulVec (Fin.snoc (fun j => v[j]) 1)) (Fin.last K) := by
  refine ⟨_, mulVecHom_eq cfg a v, fun i => ?_⟩
  have : ∀ r, (a.toMat.mulVec (Fin.snoc (fun j => v[j]) 1)) r = homRow a.toMat (fun j => v[j]) r := by
    intro r
    simp [Matrix.mulVec, dotProduct, Fin.sum_univ_castSucc, homRow]
  rw [this, this]
  simp only [Fin.getElem_fin, Vector.getElem_ofFn]

/-- C27 (homogeneous, composition). Transforming by `B` and then by `A` is transforming by `A * B`, whenever the
intermediate homogeneous coordinate is not zero. -/
theorem C27_homogeneous_compose [Field α] {K : Nat} (cfg : Cfg) (a b : Mat (K + 1) (K + 1) α) (v : Vec K α)
    (hw : (b.toMat.mulVec (Fin.snoc (fun j => v[j]) 1)) (Fin.last K) ≠ 0) :
    (do (← a.mul cfg b).mulVecHom cfg v) = (do a.mulVecHom cfg (← b.mulVecHom cfg v)) := by
  have e : (b.toMat.mulVec (Fin.snoc (fun j => v[j]) 1)) (Fin.last K) = homRow b.toMat (fun j => v[j]) (Fin.last K) := by
    simp [Matrix.mulVec, dotProduct, Fin.sum_univ_castSucc, homRow]
  rw [e] at hw
  obtain ⟨x, hx, -, hx'⟩ := C25_mul cfg (ofFn fun _ _ => 0) a b
  rw [hx]
  simp only [bind_ok, mulVecHom_eq]
  congr 1; ext i hi
  rw [Vector.getElem_ofFn, Vector.getElem_ofFn, hx']
  set w := homRow b.toMat (fun j => v[j]) (Fin.last K) with hwdef
  have key : ∀ r, homRow (a.toMat * b.toMat) (fun j => v[j]) r =
      w * homRow a.toMat (fun j => homRow b.toMat (fun j => v[j]) j.castSucc / w) r := by
    intro r
    have h1 : homRow (a.toMat * b.toMat) (fun j => v[j]) r = ∑ k, a.toMat r k * homRow b.toMat (fun j => v[j]) k := by
      simp only [homRow, Matrix.mul_apply, mul_add, Finset.sum_add_distrib, Finset.mul_sum, Finset.sum_mul]
      congr 1
      rw [Finset.sum_comm (s := (Finset.univ : Finset (Fin K)))]
      exact Finset.sum_congr rfl fun x _ => Finset.sum_congr rfl fun y _ => mul_assoc _ _ _
    have e1 : ∀ k : Fin K, a.toMat r k.castSucc * homRow b.toMat (fun j => v[j]) k.castSucc =
        w * (a.toMat r k.castSucc * (homRow b.toMat (fun j => v[j]) k.castSucc / w)) := by
      intro k; field_simp
    have e2 : homRow a.toMat (fun j => homRow b.toMat (fun j => v[j]) j.castSucc / w) r =
      (∑ k : Fin K, a.toMat r k.castSucc * (homRow b.toMat (fun j => v[j]) k.castSucc / w)) +
        a.toMat r (Fin.last K) := rfl
    rw [h1, Fin.sum_univ_castSucc, e2, mul_add, Finset.mul_sum, Finset.sum_congr rfl fun k _ => e1 k,
      mul_comm (a.toMat r (Fin.last K))]
  rw [key, key]
  have : ∀ f : Fin K → α, (fun j : Fin K => (Vector.ofFn f)[j]) = f := by intro f; funext j; simp
  simp only [this]
  rw [mul_div_mul_left _ _ hw]

example : (⟨#v[2, 0, 0, 3]⟩ : Mat 2 2 Int).mulVec ⟨true, true, false⟩ #v[5, 7] = .ok #v[10, 21] := by decide

/-! ## C28 -/

/-- C28. `transpose_to` and `transpose` give the transposed matrix, for all sizes. -/
theorem C28_transpose [Zero α] [One α] (cfg : Cfg) (a : Mat M N α) (t : Mat N M α) :
    ∃ x, a.transposeTo cfg t = .ok x ∧ a.transpose cfg = .ok x ∧ x.toMat = a.toMat.transpose :=
  ⟨_, transposeTo_eq cfg a t, transpose_eq cfg a, by ext; simp⟩

/-- C28. Transposing twice gives the matrix back; transposition reverses products. -/
theorem C28_laws [CommSemiring α] (cfg : Cfg) (a : Mat M N α) (b : Mat N P α) :
    (do (← a.transpose cfg).transpose cfg) = .ok a ∧
    (do (← a.mul cfg b).transpose cfg) = (do (← b.transpose cfg).mul cfg (← a.transpose cfg)) := by
  simp only [transpose_eq, mul_eq, bind_ok]
  refine ⟨by congr 1; ext; simp, ?_⟩
  congr 1; ext r c; simp [mul_comm]

/-- C28. Transposing a square matrix onto itself is wrong: `m.transpose_to( m )` symmetrises. -/
theorem C28_self_transpose_violated :
    let A : Mat 2 2 Int := ⟨#v[1, 3, 2, 4]⟩
    (transposeToH ⟨true, true, false⟩ (fun _ => A) 0 0).map (fun h => h 0) = .ok ⟨#v[1, 2, 2, 4]⟩ := by
  decide

example : (⟨#v[1, 2, 3, 4, 5, 6]⟩ : Mat 2 3 Int).transpose ⟨true, true, false⟩ = .ok ⟨#v[1, 3, 5, 2, 4, 6]⟩ := by decide

/-! ## C32 -/

/-- C32, what the code computes for square matrices: the *transposed* outer product, cell `(r, c) = u[c] * v[r]`.
Missing: the documented order (see `C32_tensor_violated`) and non-square sizes (`C32_tensor_nonsquare_violated`). -/
theorem C32_tensor_partial [Mul α] (cfg : Cfg) (m : Mat M M α) (u v : Vec M α) :
    ∃ x, m.tensor cfg u v = .ok x ∧ ∀ r c, x.toMat r c = u[c] * v[r] := by
  obtain ⟨x, h1, h2⟩ := loop_paint' (M := M) (N := M) (α := α) (n := M) (m := m) (fun c _ c' => c'.1 = c)
    (fun r c => u[c] * v[r]) (body := fun c m => loop M (fun r m => do
      m.atSet cfg r c ((← u.rawGet c) * (← v.rawGet r))) m) (by
      intro c hc m
      obtain ⟨x, h1, h2⟩ := loop_paint' (M := M) (N := M) (α := α) (n := M) (m := m)
        (fun r r' c' => r'.1 = r ∧ c'.1 = c) (fun r c => u[c] * v[r]) (body := fun r m => do
          m.atSet cfg r c ((← u.rawGet c) * (← v.rawGet r))) (by
          intro r hr m
          refine ⟨_, by simp [hr, hc], (Paint.put m ⟨r, hr⟩ ⟨c, hc⟩ (fun r c => u[c] * v[r])).congr ?_⟩
          intro r' c'; simp [Fin.ext_iff, eq_comm])
      refine ⟨x, h1, h2.congr ?_⟩
      intro r' c'
      exact ⟨fun h => ⟨r'.1, r'.2, rfl, h⟩, fun ⟨_, _, _, h⟩ => h⟩)
  refine ⟨x, h1, ?_⟩
  intro r c
  exact (h2 r c).1 ⟨c.1, c.2, rfl⟩

/-- C32 fails: `tensor( (1,2), (3,4) )` has `8` at `(1, 1)` but `u[0] * v[1] = 4` is not at `(0, 1)`. -/
theorem C32_tensor_violated :
    ∃ x, (⟨#v[0, 0, 0, 0]⟩ : Mat 2 2 Int).tensor ⟨true, true, false⟩ #v[1, 2] #v[3, 4] = .ok x ∧
      x.toMat 0 1 ≠ (#v[1, 2] : Vec 2 Int)[0] * (#v[3, 4] : Vec 2 Int)[1] :=
  ⟨⟨#v[3, 4, 6, 8]⟩, by decide, by decide⟩

/-- C32 fails for every non-square size: the operands are read outside their arrays. -/
theorem C32_tensor_nonsquare_violated [Mul α] (cfg : Cfg) (m : Mat M N α) (u : Vec M α) (v : Vec N α) (hM : 0 < M)
    (hN : 0 < N) (h : M ≠ N) : m.tensor cfg u v = .error .ub := by
  have stuck : ∀ {σ : Type} {n : Nat} {body : Nat → σ → Res σ} {s : σ} {k : Nat} (hk : k < n)
      (h : ∀ i, i < k → ∀ s, ∃ s', body i s = .ok s') (hk' : ∀ s, body k s = .error .ub),
      loop n body s = .error .ub := by
    intro σ n body s k hk h hk'
    obtain ⟨s', h1, -⟩ := loop_ok (n := k) (body := body) (s := s) (fun _ _ => True) trivial
      (fun i hi s _ => by obtain ⟨s', h'⟩ := h i hi s; exact ⟨s', h', trivial⟩)
    have h3 : ∀ j, loop (k + 1 + j) body s = .error .ub := by
      intro j
      induction j with
      | zero => rw [Nat.add_zero, loop_succ, h1, bind_ok, hk']
      | succ j ih => rw [← Nat.add_assoc, loop_succ, ih]; rfl
    have := h3 (n - (k + 1))
    rwa [show k + 1 + (n - (k + 1)) = n by omega] at this
  unfold tensor
  rcases Nat.lt_or_gt_of_ne h with h | h
  · -- `N > M`: the first bad column is `M`
    refine stuck (k := M) h ?_ ?_
    · intro c hc m
      obtain ⟨s', h1, -⟩ := loop_ok (n := M) (body := fun r (m : Mat M N α) => do
          m.atSet cfg r c ((← u.rawGet c) * (← v.rawGet r))) (s := m) (fun _ _ => True) trivial (by
        intro r hr m _
        exact ⟨_, by simp [hc, hr, show r < N by omega, show c < N by omega]; rfl, trivial⟩)
      exact ⟨s', h1⟩
    · intro m
      refine stuck (k := 0) hM (by intro i hi; omega) ?_
      intro m
      rw [Vec.rawGet_ge u le_rfl]; rfl
  · refine stuck (k := 0) hN (by intro i hi; omega) ?_
    intro m
    refine stuck (k := N) h ?_ ?_
    · intro r hr m
      exact ⟨_, by simp [hr, hM, hN, show r < M by omega]; rfl⟩
    · intro m
      rw [Vec.rawGet_lt u hM, bind_ok, Vec.rawGet_ge v le_rfl]; rfl

/-- C32. The 4x4 form takes `(u, 1)` and `(v, 1)`, with the same (transposed) order. -/
theorem C32_tensor4 [MulOneClass α] (cfg : Cfg) (m : Mat 4 4 α) (u v : Vec 3 α) :
    ∃ x, m.tensor4 cfg u v = .ok x ∧
      ∀ r c, x.toMat r c = (Fin.snoc (fun j => u[j]) 1 : Fin 4 → α) c * (Fin.snoc (fun j => v[j]) 1 : Fin 4 → α) r := by
  set G : Fin 4 → Fin 4 → α :=
    fun r c => (Fin.snoc (fun j => u[j]) 1 : Fin 4 → α) c * (Fin.snoc (fun j => v[j]) 1 : Fin 4 → α) r with hG
  have hsn : ∀ (w : Vec 3 α) k (hk : k < 3), (Fin.snoc (fun j => w[j]) 1 : Fin 4 → α) ⟨k, by omega⟩ = w[k] := by
    intro w k hk
    have : (⟨k, by omega⟩ : Fin 4) = Fin.castSucc ⟨k, hk⟩ := rfl
    rw [this, Fin.snoc_castSucc]; rfl
  have hs3 : ∀ (w : Vec 3 α), (Fin.snoc (fun j => w[j]) 1 : Fin 4 → α) 3 = 1 := by
    intro w
    exact Fin.snoc_last (n := 3) (α := fun _ => α) 1 (fun j : Fin 3 => w[j])
  unfold tensor4
  obtain ⟨m1, h1, p1⟩ := loop_paint' (M := 4) (N := 4) (α := α) (n := 3) (m := m) (fun c _ c' => c'.1 = c) G
    (body := fun c m => do
      let m ← loop 3 (fun r m => do m.atSet cfg r c ((← u.rawGet c) * (← v.rawGet r))) m
      m.atSet cfg 3 c (← u.rawGet c)) (by
      intro c hc m
      obtain ⟨x, h1, h2⟩ := loop_paint' (M := 4) (N := 4) (α := α) (n := 3) (m := m)
        (fun r r' c' => r'.1 = r ∧ c'.1 = c) G (body := fun r m => do
          m.atSet cfg r c ((← u.rawGet c) * (← v.rawGet r))) (by
          intro r hr m
          refine ⟨m.put ⟨r, by omega⟩ ⟨c, by omega⟩ (G ⟨r, by omega⟩ ⟨c, by omega⟩), ?_,
            (Paint.put m ⟨r, by omega⟩ ⟨c, by omega⟩ G).congr ?_⟩
          · rw [Vec.rawGet_lt u hc, bind_ok, Vec.rawGet_lt v hr, bind_ok, atSet_lt cfg m _ (by omega) (by omega)]
            simp only [hG, hsn u c hc, hsn v r hr]
          · intro r' c'; simp [Fin.ext_iff, eq_comm])
      refine ⟨x.put 3 ⟨c, by omega⟩ (G 3 ⟨c, by omega⟩), ?_, (h2.trans (Paint.put x 3 ⟨c, by omega⟩ G)).congr ?_⟩
      · rw [h1, bind_ok, Vec.rawGet_lt u hc, bind_ok, atSet_lt cfg x _ (by omega) (by omega)]
        simp only [hG, hsn u c hc, hs3, mul_one]; rfl
      · intro r' c'
        constructor
        · intro h
          by_cases e : r'.1 < 3
          · exact Or.inl ⟨r'.1, e, rfl, h⟩
          · right; refine ⟨?_, Fin.ext h.symm⟩
            apply Fin.ext; have := r'.2; show 3 = r'.1; omega
        · rintro (⟨_, _, _, h⟩ | ⟨_, h⟩)
          · exact h
          · rw [← h])
  obtain ⟨m2, h2, p2⟩ := loop_paint' (M := 4) (N := 4) (α := α) (n := 3) (m := m1)
    (fun r r' c' => r'.1 = r ∧ c'.1 = 3) G (body := fun r m => do m.atSet cfg r 3 (← v.rawGet r)) (by
      intro r hr m
      refine ⟨m.put ⟨r, by omega⟩ 3 (G ⟨r, by omega⟩ 3), ?_, (Paint.put m ⟨r, by omega⟩ 3 G).congr ?_⟩
      · rw [Vec.rawGet_lt v hr, bind_ok, atSet_lt cfg m _ (by omega) (by omega)]
        simp only [hG, hsn v r hr, hs3, one_mul]; rfl
      · intro r' c'
        simp only [Fin.ext_iff]
        constructor
        · rintro ⟨h, h'⟩; exact ⟨h.symm, h'.symm⟩
        · rintro ⟨h, h'⟩; exact ⟨h.symm, h'.symm⟩)
  refine ⟨m2.put 3 3 (G 3 3), ?_, ?_⟩
  · rw [h1, bind_ok, h2, bind_ok, atSet_lt cfg m2 _ (by omega) (by omega)]
    simp only [hG, hs3, mul_one]; rfl
  · have p := (p1.trans p2).trans (Paint.put m2 3 3 G)
    intro r c
    refine (p r c).1 ?_
    by_cases hc : c.1 < 3
    · exact Or.inl (Or.inl ⟨c.1, hc, rfl⟩)
    · have hc3 : c.1 = 3 := by omega
      by_cases hr : r.1 < 3
      · exact Or.inl (Or.inr ⟨r.1, hr, rfl, hc3⟩)
      · right; exact ⟨Fin.ext (by show 3 = r.1; omega), Fin.ext (by show 3 = c.1; omega)⟩

/-! ## C33 -/

/-- C33, what the code computes: `negate()` and unary minus ignore the matrix; the result is minus the identity
(square) or minus zero (non-square). Missing: the claim itself, which is false. -/
theorem C33_negate_partial [Ring α] (cfg : Cfg) :
    (∀ a : Mat M M α, ∃ x, a.negate cfg = .ok x ∧ x.toMat = -1) ∧
    (M ≠ N → ∀ a : Mat M N α, ∃ x, a.negate cfg = .ok x ∧ x.toMat = 0) := by
  refine ⟨fun a => ⟨_, negate_eq cfg a, ?_⟩, fun h a => ⟨_, negate_eq cfg a, ?_⟩⟩
  · ext r c
    by_cases e : r = c
    · subst e; simp
    · simp [Matrix.one_apply, e, show ¬ r.1 = c.1 from fun h => e (Fin.ext h)]
  · ext r c; simp [h]

/-- C33 fails: for every square matrix other than the identity, `-A` is not the negated matrix. -/
theorem C33_negate_violated [Ring α] (cfg : Cfg) (a : Mat M M α) (ha : a.toMat ≠ 1) :
    ∃ x, a.negate cfg = .ok x ∧ x.toMat ≠ -a.toMat := by
  obtain ⟨x, h1, h2⟩ := (C33_negate_partial (M := M) (N := M) (α := α) cfg).1 a
  exact ⟨x, h1, by rw [h2]; intro h; exact ha (neg_inj.1 h).symm⟩

/-- Non-vacuity: `2 * identity` is such a matrix. -/
example : ∃ a : Mat 2 2 Int, a.toMat ≠ 1 := ⟨⟨#v[2, 0, 0, 2]⟩, fun h => by
  have := congrFun (congrFun h 0) 0; revert this; decide⟩

/-! ## C34 -/

/-- C34. `direct_sum` is the block-diagonal matrix. -/
theorem C34_direct_sum [Zero α] (cfg : Cfg) (m : Mat (O + P) (Q + N) α) (ul : Mat O Q α) (lr : Mat P N α) :
    ∃ x, m.directSum cfg ul lr = .ok x ∧
      (∀ r c, x.toMat (Fin.castAdd P r) (Fin.castAdd N c) = ul.toMat r c) ∧
      (∀ r c, x.toMat (Fin.natAdd O r) (Fin.natAdd Q c) = lr.toMat r c) ∧
      (∀ r c, x.toMat (Fin.castAdd P r) (Fin.natAdd Q c) = 0) ∧
      (∀ r c, x.toMat (Fin.natAdd O r) (Fin.castAdd N c) = 0) := by
  unfold directSum
  rw [assignFill_eq, bind_ok]
  have h1 : loop O (fun r m => loop Q (fun c m => do m.atSet cfg r c (← ul.atGet cfg r c)) m)
      (ofFn fun _ _ => 0 : Mat (O + P) (Q + N) α) = .ok (ofFn fun r c =>
      if h : (0 ≤ r.1 ∧ r.1 - 0 < O) ∧ (0 ≤ c.1 ∧ c.1 - 0 < Q) then ul.get ⟨r.1 - 0, h.1.2⟩ ⟨c.1 - 0, h.2.2⟩
      else (ofFn fun _ _ => 0 : Mat (O + P) (Q + N) α).get r c) := by
    apply loop_block (ro := 0) (co := 0) (by omega) (by omega) (fun r c => ul.get r c)
    intro r h1 c h2 m
    simp [h1, h2, show r < O + P by omega, show c < Q + N by omega]
  rw [h1, bind_ok]
  refine ⟨_, loop_block (ro := O) (co := Q) (by omega) (by omega) (fun r c => lr.get r c) ?_, ?_, ?_, ?_, ?_⟩
  · intro r h1 c h2 m
    simp [h1, h2]
  · intro r c; simp [Nat.not_le.2 r.2]
  · intro r c; simp
  · intro r c; simp [Nat.not_le.2 r.2]
  · intro r c; simp [Nat.not_le.2 c.2]

/-- C34. `diag( v )` is the diagonal matrix. -/
theorem C34_diag [Zero α] (cfg : Cfg) (m : Mat M M α) (d : Vec M α) :
    ∃ x, m.diag cfg d = .ok x ∧ x.toMat = Matrix.diagonal fun i => d[i] := by
  unfold diag
  rw [zero_eq, bind_ok]
  refine ⟨_, loop_diag (fun i => d[i]) (by intro i hi m; simp [hi]), ?_⟩
  ext r c; simp [Matrix.diagonal_apply]

/-- C34. The Kronecker product: cell `(O m + o, P n + p)` is `A( m, n ) * B( o, p )`. -/
theorem C34_kronecker [Mul α] (cfg : Cfg) (a : Mat M N α) (b : Mat O P α) (res : Mat (M * O) (N * P) α) :
    ∃ x, a.kronecker cfg b res = .ok x ∧ ∀ m n o p, x.toMat (finProdFinEquiv (m, o)) (finProdFinEquiv (n, p)) =
      a.toMat m n * b.toMat o p := by
  unfold kronecker
  set G : Fin (M * O) → Fin (N * P) → α := fun R C =>
    a.get (finProdFinEquiv.symm R).1 (finProdFinEquiv.symm C).1 *
    b.get (finProdFinEquiv.symm R).2 (finProdFinEquiv.symm C).2 with hG
  obtain ⟨x, h1, h2⟩ := loop_paint' (M := M * O) (N := N * P) (α := α) (n := M) (m := res)
    (fun m R _ => (finProdFinEquiv.symm R).1.1 = m) G
    (body := fun m s => loop N (fun n s => loop O (fun o s => loop P (fun p s => do
      s.atSet cfg (O * m + o) (P * n + p) ((← a.atGet cfg m n) * (← b.atGet cfg o p))) s) s) s) (by
    intro m hm s
    obtain ⟨x, h1, h2⟩ := loop_paint' (M := M * O) (N := N * P) (α := α) (n := N) (m := s)
      (fun n R C => (finProdFinEquiv.symm R).1.1 = m ∧ (finProdFinEquiv.symm C).1.1 = n) G
      (body := fun n s => loop O (fun o s => loop P (fun p s => do
        s.atSet cfg (O * m + o) (P * n + p) ((← a.atGet cfg m n) * (← b.atGet cfg o p))) s) s) (by
      intro n hn s
      obtain ⟨x, h1, h2⟩ := loop_paint' (M := M * O) (N := N * P) (α := α) (n := O) (m := s)
        (fun o R C => (finProdFinEquiv.symm R).1.1 = m ∧ (finProdFinEquiv.symm C).1.1 = n ∧
          (finProdFinEquiv.symm R).2.1 = o) G
        (body := fun o s => loop P (fun p s => do
          s.atSet cfg (O * m + o) (P * n + p) ((← a.atGet cfg m n) * (← b.atGet cfg o p))) s) (by
        intro o ho s
        obtain ⟨x, h1, h2⟩ := loop_paint' (M := M * O) (N := N * P) (α := α) (n := P) (m := s)
          (fun p R C => (finProdFinEquiv.symm R).1.1 = m ∧ (finProdFinEquiv.symm C).1.1 = n ∧
            (finProdFinEquiv.symm R).2.1 = o ∧ (finProdFinEquiv.symm C).2.1 = p) G
          (body := fun p s => do
            s.atSet cfg (O * m + o) (P * n + p) ((← a.atGet cfg m n) * (← b.atGet cfg o p))) (by
          intro p hp s
          have eR : O * m + o = (finProdFinEquiv ((⟨m, hm⟩ : Fin M), (⟨o, ho⟩ : Fin O))).1 := by
            simp [finProdFinEquiv]; ring
          have eC : P * n + p = (finProdFinEquiv ((⟨n, hn⟩ : Fin N), (⟨p, hp⟩ : Fin P))).1 := by
            simp [finProdFinEquiv]; ring
          refine ⟨s.put (finProdFinEquiv (⟨m, hm⟩, ⟨o, ho⟩)) (finProdFinEquiv (⟨n, hn⟩, ⟨p, hp⟩))
            (G (finProdFinEquiv (⟨m, hm⟩, ⟨o, ho⟩)) (finProdFinEquiv (⟨n, hn⟩, ⟨p, hp⟩))), ?_,
            (Paint.put s _ _ G).congr ?_⟩
          · rw [atGet_lt cfg a hm hn, bind_ok, atGet_lt cfg b ho hp, bind_ok, eR, eC,
              atSet_lt cfg s _ (Fin.is_lt _) (Fin.is_lt _)]
            simp only [hG, Equiv.symm_apply_apply, Fin.eta]
          · intro R C
            rw [← Equiv.eq_symm_apply, ← Equiv.eq_symm_apply]
            simp only [Prod.ext_iff, Fin.ext_iff]
            constructor
            · rintro ⟨h1, h2, h3, h4⟩; exact ⟨⟨h1.symm, h3.symm⟩, h2.symm, h4.symm⟩
            · rintro ⟨⟨h1, h3⟩, h2, h4⟩; exact ⟨h1.symm, h2.symm, h3.symm, h4.symm⟩)
        refine ⟨x, h1, h2.congr fun R C => ?_⟩
        constructor
        · rintro ⟨h1, h2, h3⟩; exact ⟨_, Fin.is_lt _, h1, h2, h3, rfl⟩
        · rintro ⟨_, _, h1, h2, h3, _⟩; exact ⟨h1, h2, h3⟩)
      refine ⟨x, h1, h2.congr fun R C => ?_⟩
      constructor
      · rintro ⟨h1, h2⟩; exact ⟨_, Fin.is_lt _, h1, h2, rfl⟩
      · rintro ⟨_, _, h1, h2, _⟩; exact ⟨h1, h2⟩)
    refine ⟨x, h1, h2.congr fun R C => ?_⟩
    constructor
    · rintro h1; exact ⟨_, Fin.is_lt _, h1, rfl⟩
    · rintro ⟨_, _, h1, _⟩; exact h1)
  refine ⟨x, h1, fun m n o p => ?_⟩
  rw [toMat_apply, (h2 _ _).1 ⟨_, Fin.is_lt _, rfl⟩]
  simp only [hG, Equiv.symm_apply_apply, toMat_apply]

/-- C34. The Khatri-Rao product: cell `(O m + o, c)` is `A( m, c ) * B( o, c )`. -/
theorem C34_khatri_rao [Mul α] (cfg : Cfg) (a : Mat M N α) (b : Mat O N α) (res : Mat (M * O) N α) :
    ∃ x, a.khatriRao cfg b res = .ok x ∧ ∀ m o c, x.toMat (finProdFinEquiv (m, o)) c =
      a.toMat m c * b.toMat o c := by
  unfold khatriRao
  set G : Fin (M * O) → Fin N → α := fun R C =>
    a.get (finProdFinEquiv.symm R).1 C * b.get (finProdFinEquiv.symm R).2 C with hG
  obtain ⟨x, h1, h2⟩ := loop_paint' (M := M * O) (N := N) (α := α) (n := N) (m := res)
    (fun n R C => C.1 = n) G
    (body := fun c s => loop M (fun m s => loop O (fun o s => do
      s.atSet cfg (O * m + o) c ((← a.atGet cfg m c) * (← b.atGet cfg o c))) s) s) (by
    intro c hc s
    obtain ⟨x, h1, h2⟩ := loop_paint' (M := M * O) (N := N) (α := α) (n := M) (m := s)
      (fun m R C => C.1 = c ∧ (finProdFinEquiv.symm R).1.1 = m) G
      (body := fun m s => loop O (fun o s => do
        s.atSet cfg (O * m + o) c ((← a.atGet cfg m c) * (← b.atGet cfg o c))) s) (by
      intro m hm s
      obtain ⟨x, h1, h2⟩ := loop_paint' (M := M * O) (N := N) (α := α) (n := O) (m := s)
        (fun o R C => C.1 = c ∧ (finProdFinEquiv.symm R).1.1 = m ∧ (finProdFinEquiv.symm R).2.1 = o) G
        (body := fun o s => do
          s.atSet cfg (O * m + o) c ((← a.atGet cfg m c) * (← b.atGet cfg o c))) (by
        intro o ho s
        have eR : O * m + o = (finProdFinEquiv ((⟨m, hm⟩ : Fin M), (⟨o, ho⟩ : Fin O))).1 := by
          simp [finProdFinEquiv]; ring
        refine ⟨s.put (finProdFinEquiv (⟨m, hm⟩, ⟨o, ho⟩)) ⟨c, hc⟩
          (G (finProdFinEquiv (⟨m, hm⟩, ⟨o, ho⟩)) ⟨c, hc⟩), ?_, (Paint.put s _ _ G).congr ?_⟩
        · rw [atGet_lt cfg a hm hc, bind_ok, atGet_lt cfg b ho hc, bind_ok, eR,
            atSet_lt cfg s _ (Fin.is_lt _) hc]
          simp only [hG, Equiv.symm_apply_apply, Fin.eta]
        · intro R C
          rw [← Equiv.eq_symm_apply]
          simp only [Prod.ext_iff, Fin.ext_iff]
          constructor
          · rintro ⟨h1, h2, h3⟩; exact ⟨⟨h2.symm, h3.symm⟩, h1.symm⟩
          · rintro ⟨⟨h2, h3⟩, h1⟩; exact ⟨h1.symm, h2.symm, h3.symm⟩)
      refine ⟨x, h1, h2.congr fun R C => ?_⟩
      constructor
      · rintro ⟨h1, h2⟩; exact ⟨_, Fin.is_lt _, h1, h2, rfl⟩
      · rintro ⟨_, _, h1, h2, _⟩; exact ⟨h1, h2⟩)
    refine ⟨x, h1, h2.congr fun R C => ?_⟩
    constructor
    · rintro h1; exact ⟨_, Fin.is_lt _, h1, rfl⟩
    · rintro ⟨_, _, h1, _⟩; exact h1)
  refine ⟨x, h1, fun m o c => ?_⟩
  rw [toMat_apply, (h2 _ _).1 ⟨_, Fin.is_lt _, rfl⟩]
  simp only [hG, Equiv.symm_apply_apply, toMat_apply]

/-- The index convention of `finProdFinEquiv` used above: the pair `(m, o)` is row `O * m + o`. -/
theorem C34_index_convention (m : Fin M) (o : Fin O) : (finProdFinEquiv (m, o) : Fin (M * O)).1 = O * m + o := by
  simp [finProdFinEquiv]; ring

/-! ## C35 -/

/-- C35. `symmetric_covariance` computes `A * A^T`. -/
theorem C35_covariance [CommSemiring α] (cfg : Cfg) (a : Mat M N α) (cov : Mat M M α) :
    ∃ x, a.symmetricCovariance cfg cov = .ok x ∧ x.toMat = a.toMat * a.toMat.transpose := by
  unfold symmetricCovariance
  set G : Fin M → Fin M → α := fun r c => ∑ k, a.get r k * a.get c k with hG
  have hsym : ∀ r c, G r c = G c r := by
    intro r c; simp only [hG]; exact Finset.sum_congr rfl fun k _ => mul_comm _ _
  obtain ⟨s, h1, -, h2⟩ := loop_paint (M := M) (N := M) (α := α) (fun s : Mat M M α × α => s.1) (fun _ s => s.2 = 0)
    (n := M) (s := (cov, 0)) (fun r r' c' => (r'.1 = r ∧ r ≤ c'.1) ∨ (c'.1 = r ∧ r ≤ r'.1)) G
    (body := fun r s => loop (M - r) (fun d s => do
      let c := r + d
      let tmp ← loop N (fun k tmp => do pure (tmp + (← a.atGet cfg r k) * (← a.atGet cfg c k))) s.2
      let cov ← s.1.atSet cfg r c tmp
      let cov ← cov.atSet cfg c r tmp
      pure (cov, 0)) s) rfl (by
    intro r hr s hs
    obtain ⟨s', h1, h2, h3⟩ := loop_paint (M := M) (N := M) (α := α) (fun s : Mat M M α × α => s.1) (fun _ s => s.2 = 0)
      (n := M - r) (s := s)
      (fun d r' c' => (r'.1 = r ∧ c'.1 = r + d) ∨ (c'.1 = r ∧ r'.1 = r + d)) G
      (body := fun d s => do
        let c := r + d
        let tmp ← loop N (fun k tmp => do pure (tmp + (← a.atGet cfg r k) * (← a.atGet cfg c k))) s.2
        let cov ← s.1.atSet cfg r c tmp
        let cov ← cov.atSet cfg c r tmp
        pure (cov, 0)) hs (by
      rintro d hd ⟨m, t⟩ (ht : t = 0)
      subst ht
      have hc : r + d < M := by omega
      have hsum : loop N (fun k tmp => do pure (tmp + (← a.atGet cfg r k) * (← a.atGet cfg (r + d) k))) (0 : α) =
          .ok (G ⟨r, hr⟩ ⟨r + d, hc⟩) := by
        rw [loop_sum (fun k : Fin N => a.get ⟨r, hr⟩ k * a.get ⟨r + d, hc⟩ k) (by intro k hk s; simp [hr, hc, hk])]
        simp [hG]
      refine ⟨((m.put ⟨r, hr⟩ ⟨r + d, hc⟩ (G ⟨r, hr⟩ ⟨r + d, hc⟩)).put ⟨r + d, hc⟩ ⟨r, hr⟩
        (G ⟨r + d, hc⟩ ⟨r, hr⟩), 0), ?_, rfl, ((Paint.put m _ _ G).trans (Paint.put _ _ _ G)).congr ?_⟩
      · simp only [hsum, bind_ok, atSet_lt cfg _ _ hr hc, atSet_lt cfg _ _ hc hr]
        rw [hsym ⟨r + d, hc⟩]; rfl
      · intro r' c'; simp only [Fin.ext_iff]; omega)
    refine ⟨s', h1, h2, h3.congr fun r' c' => ?_⟩
    constructor
    · rintro (⟨e1, e2⟩ | ⟨e1, e2⟩)
      · exact ⟨c'.1 - r, by have := c'.2; omega, Or.inl ⟨e1, by omega⟩⟩
      · exact ⟨r'.1 - r, by have := r'.2; omega, Or.inr ⟨e1, by omega⟩⟩
    · rintro ⟨d, _, h⟩; omega)
  refine ⟨s.1, congrArg (· >>= fun s => pure s.1) h1, ?_⟩
  ext r c
  rw [toMat_apply, (h2 r c).1]
  · simp [hG, Matrix.mul_apply]
  · rcases Nat.le_total r.1 c.1 with h | h
    · exact ⟨r.1, r.2, Or.inl ⟨rfl, h⟩⟩
    · exact ⟨c.1, c.2, Or.inr ⟨rfl, h⟩⟩

/-- C35. The result is symmetric and positive semidefinite. -/
theorem C35_symmetric_psd (cfg : Cfg) (a : Mat M N ℝ) (cov : Mat M M ℝ) :
    ∃ x, a.symmetricCovariance cfg cov = .ok x ∧ (∀ i j, x.toMat i j = x.toMat j i) ∧
      ∀ v : Fin M → ℝ, 0 ≤ ∑ i, ∑ j, v i * x.toMat i j * v j := by
  obtain ⟨x, h1, h2⟩ := C35_covariance cfg a cov
  refine ⟨x, h1, ?_, ?_⟩
  · intro i j; rw [h2]; simp [Matrix.mul_apply, mul_comm]
  · intro v
    have : ∑ i, ∑ j, v i * x.toMat i j * v j = ∑ k, (∑ i, v i * a.get i k) ^ 2 := by
      rw [h2]
      simp only [Matrix.mul_apply, Matrix.transpose_apply, toMat_apply, sq, Finset.sum_mul_sum, Finset.mul_sum,
        Finset.sum_mul]
      have e1 : ∀ i : Fin M, (∑ j : Fin M, ∑ k : Fin N, v i * (a.get i k * a.get j k) * v j) =
          ∑ k : Fin N, ∑ j : Fin M, v i * (a.get i k * a.get j k) * v j := fun i => Finset.sum_comm
      rw [Finset.sum_congr rfl fun i _ => e1 i, Finset.sum_comm]
      refine Finset.sum_congr rfl fun k _ => Finset.sum_congr rfl fun i _ => Finset.sum_congr rfl fun j _ => ?_
      ring
    rw [this]
    exact Finset.sum_nonneg fun k _ => sq_nonneg _

example : (⟨#v[1, 2, 3, 4]⟩ : Mat 2 2 Int).symmetricCovariance ⟨true, true, false⟩ ⟨#v[9, 9, 9, 9]⟩ =
    .ok ⟨#v[10, 14, 14, 20]⟩ := by decide

end Vmml
