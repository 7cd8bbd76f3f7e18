import Verif.Spec.Mechanics
/-!
# Specification: loads and support reactions of a recorded result
-/

namespace TrussPy

/-- Load on the node at position `i` at load factor `l`: constant part plus load factor times step load. -/
def loadAt (ef : StepForces ℝ) (l : ℝ) (i : Nat) : V3 ℝ := row3 ef.forcesConst i + l • row3 ef.forces i

/-- Force exerted by the supports on the node at position `i`: the negative residual force in the components that are
not active, zero in the active ones. -/
noncomputable def reaction (dofs : List Nat) (g : List ℝ) (i : Nat) : V3 ℝ := fun d =>
  if 3 * i + d.val ∈ dofs then 0 else -row3 g i d

end TrussPy
