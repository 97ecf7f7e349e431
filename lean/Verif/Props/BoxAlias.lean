import Verif.Model.BoxAlias
import Verif.Props.Aabb

/-!
# C105: bounding boxes and references to their own corners
-/

namespace Vmml
open Box
variable {α : Type}

theorem assignMin_eq (b : Box α) (p : Ref α) : b.assignMin p = .ok { b with min := p.read b } := by
  cases p <;> simp [assignMin, Ref.read, assign_eq3, pure_ok, bind_ok]

theorem assignMax_eq (b : Box α) (p : Ref α) : b.assignMax p = .ok { b with max := p.read b } := by
  cases p <;> simp [assignMax, Ref.read, assign_eq3, pure_ok, bind_ok]

/-- C105. `setMin`, `setMax` with a reference to a corner of the box itself do what they do with a copy. -/
theorem C105_set_corner (b : Box α) (p : Ref α) :
    b.setMinRef p = b.setMin (p.read b) ∧ b.setMaxRef p = b.setMax (p.read b) := by
  constructor
  · rw [setMinRef, assignMin_eq, Box.setMin, assign_eq3]; rfl
  · rw [setMaxRef, assignMax_eq, Box.setMax, assign_eq3]; rfl

section
variable [LT α] [DecidableLT α] (b : Box α) (v : Vec 3 α) (i : Fin 3)
theorem lower_ext : b.lowerRef (.ext v) i = ⟨lowerTo b.min i v[i], b.max⟩ := by
  unfold lowerRef lowerTo Ref.read; simp only [Fin.getElem_fin]; split_ifs <;> first | rfl | contradiction
theorem raise_ext : b.raiseRef (.ext v) i = ⟨b.min, raiseTo b.max i v[i]⟩ := by
  unfold raiseRef raiseTo Ref.read; simp only [Fin.getElem_fin]; split_ifs <;> first | rfl | contradiction
theorem lower_max : b.lowerRef .ownMax i = ⟨lowerTo b.min i b.max[i], b.max⟩ := by
  unfold lowerRef lowerTo Ref.read; simp only [Fin.getElem_fin]; split_ifs <;> first | rfl | contradiction
theorem raise_min : b.raiseRef .ownMin i = ⟨b.min, raiseTo b.max i b.min[i]⟩ := by
  unfold raiseRef raiseTo Ref.read; simp only [Fin.getElem_fin]; split_ifs <;> first | rfl | contradiction
theorem lower_min (hirr : ∀ x : α, ¬ x < x) : b.lowerRef .ownMin i = b := by simp [lowerRef, Ref.read, hirr]
theorem raise_max (hirr : ∀ x : α, ¬ x < x) : b.raiseRef .ownMax i = b := by simp [raiseRef, Ref.read, hirr]
theorem lowerTo_self (hirr : ∀ x : α, ¬ x < x) : lowerTo v i v[i] = v := by simp [lowerTo, hirr]
theorem raiseTo_self (hirr : ∀ x : α, ¬ x < x) : raiseTo v i v[i] = v := by simp [raiseTo, hirr]
end

/-- C105. `merge( point )` with a reference to a corner of the box itself does what it does with a copy, for every element type whose `<` is irreflexive (also
floating point with NaN). -/
theorem C105_merge_point [LT α] [DecidableLT α] (hirr : ∀ x : α, ¬ x < x) (b : Box α) (p : Ref α) :
    b.mergePointRef p = b.mergePoint (p.read b) := by
  have h0 := fun v : Vec 3 α => lowerTo_self v 0 hirr
  have h1 := fun v : Vec 3 α => lowerTo_self v 1 hirr
  have h2 := fun v : Vec 3 α => lowerTo_self v 2 hirr
  have k0 := fun v : Vec 3 α => raiseTo_self v 0 hirr
  have k1 := fun v : Vec 3 α => raiseTo_self v 1 hirr
  have k2 := fun v : Vec 3 α => raiseTo_self v 2 hirr
  simp only [Fin.getElem_fin] at h0 h1 h2 k0 k1 k2
  cases p <;> simp only [mergePointRef, mergePoint, lower_ext, raise_ext, lower_min, raise_min, lower_max, raise_max, hirr,
    not_false_eq_true, implies_true, Ref.read]
  · rfl
  · congr 1
    exact (by rw [show lowerTo b.min 0 b.min[0] = b.min from h0 _, show lowerTo b.min 1 b.min[1] = b.min from h1 _]; exact (h2 _).symm)
  · congr 1
    exact (by rw [show raiseTo b.max 0 b.max[0] = b.max from k0 _, show raiseTo b.max 1 b.max[1] = b.max from k1 _]; exact (k2 _).symm)

/-- C105. Merging a box with itself changes nothing. -/
theorem C105_merge_self [LT α] [DecidableLT α] (hirr : ∀ x : α, ¬ x < x) (b : Box α) : b.mergeSelf = b := by
  simp [mergeSelf, lowerRef, raiseRef, Ref.read, hirr]

/-- C105, proved part: `set( pMin, pMax )` stores what the arguments referred to before the call, unless `pMax` refers to the box's own lower corner and `pMin` does
not. -/
theorem C105_set_partial (b : Box α) (p q : Ref α) (h : q ≠ .ownMin ∨ p = .ownMin) :
    b.setRef p q = .ok ⟨p.read b, q.read b⟩ := by
  rw [setRef, assignMin_eq, bind_ok, assignMax_eq]
  cases p <;> cases q <;> simp_all [Ref.read]

/-- C105 fails in exactly the other cases: `set( p, b.getMin() )` stores `p` in both corners. -/
theorem C105_set_violated (b : Box α) (p : Ref α) (h : p ≠ .ownMin) : b.setRef p .ownMin = .ok ⟨p.read b, p.read b⟩ := by
  rw [setRef, assignMin_eq, bind_ok, assignMax_eq]
  cases p <;> simp_all [Ref.read]

/-- Exchanging the corners of an inverted box this way, `b.set( b.getMax(), b.getMin() )`, loses one of them. -/
example : (⟨#v[1, 1, 1], #v[0, 0, 0]⟩ : Box Int).setRef .ownMax .ownMin = .ok ⟨#v[0, 0, 0], #v[0, 0, 0]⟩ := by decide

/-- The hypothesis of the merges holds of the integers; a box with an inverted axis merged with its own lower corner. -/
example : (⟨#v[5, 0, 0], #v[1, 1, 1]⟩ : Box Int).mergePointRef .ownMin = ⟨#v[5, 0, 0], #v[5, 1, 1]⟩ := by
  rw [C105_merge_point (fun x => lt_irrefl x)]; decide

end Vmml
