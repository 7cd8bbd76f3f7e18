import Verif.Spec.Converge
import Verif.Run
import Mathlib.Analysis.Calculus.Deriv.Basic
/-!
# Specification: a regular equilibrium path, with no component as parameter
-/

namespace TrussPy

/-- A curve `γ` of displacements and load factors on `[0, S]` with continuous derivative `γ'`, along which the truss is in
equilibrium.  The load factor or any displacement may turn back on it.  The derivative does not vanish: measured by the step
widths `d` it is at least 1 in some component; at the beginning the load factor grows.  On the curve all bars have a length and
are elastic or below their yield stress, and the stiffness matrix extended by some control equation is regular. -/
structure FreePath (c : Ctx ℝ) (bars : List (Bar ℝ)) (a : Analysis ℝ) {n : Nat} (d : Fin (n + 1) → ℝ) (S : ℝ)
    (γ γ' : ℝ → Fin (n + 1) → ℝ) : Prop where
  deriv : ∀ s ∈ Set.Icc 0 S, HasDerivWithinAt γ (γ' s) (Set.Icc 0 S) s
  derivCont : ContinuousOn γ' (Set.Icc 0 S)
  speed : ∀ s ∈ Set.Icc 0 S, ∃ i, d i ≤ |γ' s i|
  start : 0 < γ' 0 (Fin.last n)
  equilibrium : ∀ s ∈ Set.Icc 0 S, ∃ a1, equilibrium c a (List.ofFn (γ s)) (List.ofFn (γ s)) .G false =
    .ok (a1, List.replicate n 0)
  calm : ∀ s ∈ Set.Icc 0 S, CalmAt c bars a (γ s)
  regular : ∀ s ∈ Set.Icc 0 S, ∃ (j : Int) (a2 : Analysis ℝ) (K : List (List ℝ)), 1 ≤ j ∧ j ≤ n + 1 ∧
    extDf (modelProblem c) j a (List.ofFn (γ s)) = .ok (a2, K) ∧ IsUnit (Matrix.det (matOf (n + 1) K))

end TrussPy
