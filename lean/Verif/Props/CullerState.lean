import Verif.Props.FrustumCullerBox

/-!
# C107: a culler that was never set up
-/

namespace Vmml
open Culler

/-- C107. Before the first `setup()` a culler hides nothing that has an extent: a sphere with positive radius is reported as partially visible (one without as
not visible), every box as fully visible. -/
theorem C107_unset (cfg : Cfg) (s : Vec 4 ℝ) (x y z : Vec 2 ℝ) :
    testSphere (ctor : Culler ℝ) s = (if (0 : ℝ) < s[3] then .partly else .none) ∧ testAabb cfg (1 / 2) (ctor : Culler ℝ) x y z = .ok .full := by
  have hz : ∀ p ∈ Spec.planes (ctor : Culler ℝ), ∀ a b c, Spec.side p a b c = 0 := by
    intro p hp a b c
    have : p = Vec.zeroCtor := by simpa [Spec.planes, ctor] using hp
    subst this
    simp [Spec.side, Vec.zeroCtor]
  have hm : (Vec.zeroCtor : Vec 4 ℝ) ∈ Spec.planes (ctor : Culler ℝ) := by simp [Spec.planes, ctor]
  obtain ⟨v1, -, v3⟩ := C66_verdict (ctor : Culler ℝ) s
  constructor
  · split_ifs with h
    · rw [v3]
      exact ⟨fun p hp => by rw [hz p hp]; linarith, _, hm, by rw [hz _ hm]; exact h⟩
    · rw [v1]
      exact ⟨_, hm, by rw [hz _ hm]; linarith⟩
  · obtain ⟨v, h1, -, h3⟩ := C67_exact cfg (ctor : Culler ℝ) x y z
    rw [h1, h3.2 (fun p hp a b c _ => (hz p hp a b c).ge)]

example : testSphere (ctor : Culler ℝ) #v[1, 2, 3, 4] = .partly := by
  rw [(C107_unset ⟨true, true, false⟩ #v[1, 2, 3, 4] #v[0, 0] #v[0, 0] #v[0, 0]).1]; simp

end Vmml
