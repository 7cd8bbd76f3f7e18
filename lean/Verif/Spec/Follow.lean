import Verif.Spec.Converge
import Verif.Run
import Mathlib.Topology.ContinuousOn
import Mathlib.Topology.Order.Basic
/-!
# Specification: an equilibrium path of a truss
-/

namespace TrussPy

/-- A continuous curve `γ` of displacements and load factors on `[0, S]` along which the truss is in equilibrium, with
component `k` (1-based and signed: `j`) as parameter: it changes by `s`, in the direction of the sign of `j`.  On the curve
all bars have a length and are elastic or below their yield stress, and the stiffness matrix, extended by the control equation, is
regular. -/
structure EquilPath (c : Ctx ℝ) (bars : List (Bar ℝ)) (a : Analysis ℝ) {n : Nat} (j : Int) (k : Fin (n + 1)) (S : ℝ)
    (γ : ℝ → Fin (n + 1) → ℝ) : Prop where
  cont : ContinuousOn γ (Set.Icc 0 S)
  equilibrium : ∀ s ∈ Set.Icc 0 S, ∃ a1, equilibrium c a (List.ofFn (γ s)) (List.ofFn (γ s)) .G false =
    .ok (a1, List.replicate n 0)
  control : ∀ s ∈ Set.Icc 0 S, γ s k = γ 0 k + s * (j.sign : ℝ)
  calm : ∀ s ∈ Set.Icc 0 S, CalmAt c bars a (γ s)
  regular : ∀ s ∈ Set.Icc 0 S, ∃ a2 K, extDf (modelProblem c) j a (List.ofFn (γ s)) = .ok (a2, K) ∧
    IsUnit (Matrix.det (matOf (n + 1) K))

end TrussPy
