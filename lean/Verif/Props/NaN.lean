import Verif.Model.Ieee
import Verif.Model.Aabb
import Verif.Model.Quaternion
import Verif.Model.FrustumCuller
import Verif.Proofs.MatrixLemmas
import Verif.Proofs.VectorLemmas

/-!
# C82: NaN

Scalars are reals or NaN (`NaNable`): operations with a NaN operand give NaN, comparisons with NaN are false, as in IEEE arithmetic.
-/

namespace Vmml
open NaNable
variable {M N : Nat}

/-! ## What holds -/

private theorem loop_bool {n : Nat} {body : Nat → Bool → Res Bool} (f : Nat → Bool)
    (h : ∀ i, i < n → ∀ ok, body i ok = .ok (ok && f i)) (s : Bool) :
    loop n body s = .ok (s && decide (∀ i, i < n → f i = true)) := by
  induction n with
  | zero => simp
  | succ n ih =>
    rw [loop_succ, ih (fun i hi => h i (by omega)), bind_ok, h n (by omega)]
    congr 1
    rw [Bool.and_assoc]
    congr 1
    rw [Bool.eq_iff_iff]
    simp only [Bool.and_eq_true, decide_eq_true_eq]
    constructor
    · rintro ⟨h1, h2⟩ i hi
      rcases Nat.lt_succ_iff_lt_or_eq.1 hi with h3 | rfl
      · exact h1 i h3
      · exact h2
    · intro h1
      exact ⟨fun i hi => h1 i (by omega), h1 n (by omega)⟩

/-- **C82** (matrices) `Matrix::equals( other, tolerance )` is false as soon as one element of either matrix is NaN, for every tolerance. -/
theorem C82_matrix_equals (cfg : Cfg) (a b : Mat M N NaNable) (tol : NaNable) (r : Fin M) (c : Fin N)
    (h : a.get r c = nan ∨ b.get r c = nan) : a.equals cfg b tol = .ok false := by
  unfold Mat.equals
  have inner : ∀ (i : Nat) (hi : i < M) (ok : Bool), loop N (fun c ok => if ok then do
      pure (decide (CMath.fabs ((← a.atGet cfg i c) - (← b.atGet cfg i c)) < tol)) else pure ok) ok =
      .ok (ok && decide (∀ j, j < N → (if hj : j < N then decide (CMath.fabs (a.get ⟨i, hi⟩ ⟨j, hj⟩ - b.get ⟨i, hi⟩ ⟨j, hj⟩) < tol) else true) = true)) := by
    intro i hi ok
    apply loop_bool
    intro j hj ok
    cases ok <;> simp [hj, hi]
  rw [loop_bool (fun i => if hi : i < M then decide (∀ j, j < N → (if hj : j < N then decide (CMath.fabs (a.get ⟨i, hi⟩ ⟨j, hj⟩ - b.get ⟨i, hi⟩ ⟨j, hj⟩) < tol) else true) = true) else true)
    (by intro i hi ok; rw [inner i hi]; simp [hi])]
  simp only [Bool.true_and]
  congr 1
  rw [decide_eq_false_iff_not]
  intro hall
  have h1 := hall r r.2
  simp only [Fin.is_lt, dif_pos, Fin.eta, decide_eq_true_eq] at h1
  have h2 := h1 c c.2
  simp only [Fin.is_lt, dif_pos, Fin.eta, decide_eq_true_eq] at h2
  rcases h with h | h <;> rw [h] at h2 <;> simp at h2

/-- **C82** NaN is not lost: if a component of either operand is NaN, so are the dot product and (for the same vector) the squared length and
the length. -/
theorem C82_propagate (cfg : Cfg) (v w : Vec M NaNable) (i : Fin M) (h : v[i] = nan) :
    v.dot cfg w = .ok nan ∧ w.dot cfg v = .ok nan ∧ v.squaredLength = .ok nan ∧ v.length = .ok nan := by
  have key : ∀ (body : Nat → NaNable → Res NaNable) (g : Nat → NaNable) (n : Nat) (_ : n ≤ M),
      (∀ k, k < M → ∀ s, body k s = .ok (s + g k)) → g i = nan → ∀ s, ∃ x, loop n body s = .ok x ∧ (i.1 < n → x = nan) := by
    intro body g n hn hb hg s
    induction n with
    | zero => exact ⟨s, rfl, by omega⟩
    | succ n ih =>
      obtain ⟨x, h1, h2⟩ := ih (by omega)
      refine ⟨x + g n, by rw [loop_succ, h1, bind_ok, hb n (by omega)], fun hi => ?_⟩
      rcases Nat.lt_succ_iff_lt_or_eq.1 hi with h3 | h3
      · rw [h2 h3]; rfl
      · rw [← h3, hg]; simp
  have run : ∀ (body : Nat → NaNable → Res NaNable) (g : Nat → NaNable),
      (∀ k, k < M → ∀ s, body k s = .ok (s + g k)) → g i = nan → loop M body 0 = .ok nan := by
    intro body g hb hg
    obtain ⟨x, h1, h2⟩ := key body g M le_rfl hb hg 0
    rw [h1, h2 i.2]
  have hv : v[i.1] = nan := h
  have h1 : v.dot cfg w = .ok nan :=
    run _ (fun k => if hk : k < M then v[k] * w[k] else 0) (by intro k hk s; simp [hk]) (by simp [hv])
  have h2 : w.dot cfg v = .ok nan :=
    run _ (fun k => if hk : k < M then w[k] * v[k] else 0) (by intro k hk s; simp [hk]) (by simp [hv])
  have h3 : v.squaredLength = .ok nan :=
    run _ (fun k => if hk : k < M then v[k] * v[k] else 0) (by intro k hk s; simp [hk]) (by simp [hv])
  exact ⟨h1, h2, h3, by simp [Vec.length, h3]⟩

/-- **C82** (proved part of the claim on `clamp`; missing: NaN components, which `clamp` leaves as NaN, `C82_clamp_violated`.) For bounds `lo ≤ hi`
every component that is a number ends up inside the bounds. -/
theorem C82_clamp_partial (v : Vec M NaNable) (lo hi : ℝ) (hlh : lo ≤ hi) :
    ∃ w, v.clamp (num lo) (num hi) = .ok w ∧ ∀ i (h : i < M), v[i] = nan ∧ w[i] = nan ∨ ∃ x, w[i] = num x ∧ lo ≤ x ∧ x ≤ hi := by
  let cl : NaNable → NaNable := fun x => let y := if x < num lo then num lo else x; if num hi < y then num hi else y
  refine ⟨_, loop_set (fun i : Fin M => cl v[i]) ?_, ?_⟩
  · intro i hi' w hw
    have hwi : w[i] = v[i] := by
      have := hw i hi'
      simpa using this
    simp only [Vec.rawGet_lt _ hi', bind_ok, hwi, cl, Fin.getElem_fin]
    by_cases h1 : v[i] < num lo
    · simp only [h1, if_true, Vec.rawSet_lt _ _ hi', bind_ok, Vec.rawGet_lt _ hi', Vector.getElem_set_self]
      by_cases h2 : num hi < num lo
      · simp [h2]
      · simp [h2]
    · simp only [h1, if_false, pure_ok, bind_ok, Vec.rawGet_lt _ hi', hwi]
      by_cases h2 : num hi < v[i]
      · simp [h2, hi']
      · simp only [h2, if_false]
        rw [← hwi, Vector.set_getElem_self]
  · intro i h
    simp only [Vector.getElem_ofFn, Fin.getElem_fin]
    generalize v[i] = x
    match x with
    | none => left; exact ⟨rfl, by change cl nan = nan; simp [cl]⟩
    | some x =>
      right
      change ∃ y, cl (num x) = num y ∧ _
      simp only [cl, num_lt]
      by_cases h1 : x < lo
      · simp only [h1, if_true, num_lt, not_lt.2 hlh, if_false]
        exact ⟨lo, rfl, le_rfl, hlh⟩
      · simp only [h1, if_false, num_lt]
        by_cases h2 : hi < x
        · simp only [h2, if_true]; exact ⟨hi, rfl, hlh, le_rfl⟩
        · simp only [h2, if_false]; exact ⟨x, rfl, not_lt.1 h1, not_lt.1 h2⟩

/-! ## What does not hold -/

/-- `clamp` leaves NaN unclamped. -/
theorem C82_clamp_violated (lo hi : ℝ) : Vec.clamp (#v[nan] : Vec 1 NaNable) (num lo) (num hi) = .ok #v[nan] := by
  simp [Vec.clamp, loop, Vec.rawGet]

/-- `Vector::equals` is true for a vector of NaNs and *any* vector and tolerance, in every dimension. -/
theorem C82_equals_violated (cfg : Cfg) (v w : Vec M NaNable) (tol : NaNable) (h : ∀ i (hi : i < M), v[i] = nan) :
    v.equals cfg w tol = .ok true := by
  unfold Vec.equals
  rw [loopRet_eq (fun _ => none) (by intro i hi; simp [hi, h i hi])]
  have : firstSome (fun _ => (none : Option Bool)) M = none := (firstSome_eq_none _ _).2 (fun _ _ => rfl)
  simp [this]

/-- The point with NaN coordinates is inside every box (`isIn` and `isIn2d`). -/
theorem C82_isIn_violated (b : Box NaNable) : b.isIn #v[nan, nan, nan] = true ∧ b.isIn2d #v[nan, nan, nan] = true := by
  simp [Box.isIn, Box.isIn2d]

/-- A quaternion of NaNs is "akin" to every quaternion (a conversion to `float` keeps NaN). -/
theorem C82_isAkin_violated (narrow : NaNable → NaNable) (hn : narrow nan = nan) (a : Quat NaNable) (delta : NaNable) :
    Quat.isAkin narrow ⟨nan, nan, nan, nan⟩ a delta = true := by
  simp [Quat.isAkin, hn]

/-- With NaN components `operator<` is not a strict weak order (which `std::sort` and `std::map` require): `( 1 )` and `( NaN )` are equivalent, `( NaN )` and `( 2 )`
are equivalent, but `( 1 ) < ( 2 )`. -/
theorem C82_order_violated (cfg : Cfg) :
    let lt := fun a b : NaNable => Vec.lt cfg (#v[a] : Vec 1 NaNable) #v[b];
    lt (num 1) nan = .ok false ∧ lt nan (num 1) = .ok false ∧ lt nan (num 2) = .ok false ∧ lt (num 2) nan = .ok false ∧
      lt (num 1) (num 2) = .ok true := by
  simp [Vec.lt, loopRet, loop, Vec.atGet, Vec.rawGet]

/-- A sphere with a NaN centre coordinate is reported as *fully visible* by every frustum. -/
theorem C82_sphere_violated (k : Culler NaNable) (y z r : NaNable) : k.testSphere #v[nan, y, z, r] = .full := by
  have : ∀ p : Vec 4 NaNable, Culler.sphereBlock p #v[nan, y, z, r] .full = some .full := by
    intro p
    simp [Culler.sphereBlock]
  simp [Culler.testSphere, this]

end Vmml
