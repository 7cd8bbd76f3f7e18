import Verif.Spec.Follow
import Verif.Spec.Trail
/-!
# Specification: linear solvers with a relative error
-/

namespace TrussPy

/-- The linear solver returns, for every regular system of `n` equations, a vector that leaves a residual of at most `θ` times the
largest right-hand side entry. -/
def SolvesWithin (sp : List (List ℝ) → List ℝ → Py (List ℝ)) (n : Nat) (θ : ℝ) : Prop :=
  ∀ (K : List (List ℝ)) (b : List ℝ), K.length = n → (∀ row ∈ K, row.length = n) → IsUnit (Matrix.det (matOf n K)) →
    b.length = n → ∃ dx, sp K b = .ok dx ∧ dx.length = n ∧
      ∀ r : ℝ, (∀ v ∈ b, |v| ≤ r) → ∀ e ∈ List.zipWith (fun p q => p - q) (matVec K dx) b, |e| ≤ θ * r

/-- The iterations allowed reduce the residual by a quarter often enough to go from a step of width `h` to the tolerances. -/
def ManyIterations (s : Settings ℝ) (C h : ℝ) : Prop :=
  ∃ N : Nat, C * (h + (10 : ℝ) ^ (-s.ftol)) * (3 / 4) ^ N < (10 : ℝ) ^ (-s.ftol) ∧
    C * (h + (10 : ℝ) ^ (-s.ftol)) * (3 / 4) ^ N < (10 : ℝ) ^ (-s.xtol) ∧ (N : Int) + 1 ≤ s.nfev

/-- The first `q` results after the undeformed state are points of the path, up to `L * f`; the parameter of the `i`-th of them is
`i h`, up to `i f`.  There are `K` of them, unless the last one exceeds the limit `xl`. -/
structure FollowsRoughly (labels : List Int) (R : List (Analysis ℝ)) (h f L : ℝ) (U : ℝ → Int → V3 ℝ) (l : ℝ → ℝ) (S : ℝ) (K : Nat)
    (xl : Int × ℝ) (q : Nat) : Prop where
  points : ∀ i < q, ∃ r t, R[i + 1]? = some r ∧ t ∈ Set.Icc 0 S ∧ |t - (i + 1) * h| ≤ (i + 1) * f ∧
    OnPath labels r (U t) (l t) (L * f)
  count : q ≤ K
  stop : q = K ∨ 0 < q ∧ ∃ r v, R[q]? = some r ∧ r.Vred[(xl.1 - 1).toNat]? = some v ∧ xl.2 < |v|

end TrussPy
