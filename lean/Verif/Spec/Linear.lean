import Verif.Solver
import Verif.Instances
/-!
# Specification: linear algebra and sorting in exact arithmetic
-/

namespace TrussPy

/-- `A x` for a matrix given by rows. -/
def matVec (A : List (List ℝ)) (x : List ℝ) : List ℝ :=
  A.map fun row => (List.zipWith (· * ·) row x).sum

/-- The linear solver is exact for the matrix `A` of size `n`. -/
def SolvesExactly (sp : List (List ℝ) → List ℝ → Py (List ℝ)) (A : List (List ℝ)) (n : Nat) : Prop :=
  ∀ r : List ℝ, r.length = n → ∃ dx, sp A r = .ok dx ∧ dx.length = n ∧ matVec A dx = r

/-- Whatever the linear solver returns is an exact solution (it may raise). -/
def ExactSolver (env : Env ℝ) : Prop := ∀ A b dx, env.spsolve A b = .ok dx → matVec A dx = b

/-- The last entry of `argsort` is the position of a maximum. -/
def ArgMax (env : Env ℝ) : Prop :=
  ∀ l : List ℝ, l ≠ [] → ∃ i v, (env.argsortF l).getLast? = some i ∧ l[i]? = some v ∧ ∀ w ∈ l, w ≤ v

end TrussPy
