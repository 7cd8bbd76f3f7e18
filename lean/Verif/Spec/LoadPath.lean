import Verif.Spec.FreeTrail
/-!
# Specification: linear truss theory

All in terms of the calls made by the user: displacements are functions of node label and direction.
-/

namespace TrussPy

/-- Part of the element `e` in the internal force of node `l` in linear truss theory: the strain is the relative displacement along
the undeformed element over its length, and the normal force acts along the undeformed element. -/
noncomputable def linearElementPull (u : UserInput ℝ) (v : Int → V3 ℝ) (e : Elem ℝ) (l : Int) (d : Fin 3) : ℝ :=
  match e.conn with
  | [A, E] => ((if l = E then 1 else 0) - (if l = A then 1 else 0)) *
      (e.mprop.vals.headD 0 * (inner3 (span u 0 A E) (fun i => v E i - v A i) / len (span u 0 A E) ^ 2) * e.gprop.vals.headD 0 *
        (span u 0 A E d / len (span u 0 A E)))
  | _ => 0

/-- Internal force at node `l` in linear truss theory. -/
noncomputable def linearPull (u : UserInput ℝ) (es : List (Elem ℝ)) (v : Int → V3 ℝ) (l : Int) (d : Fin 3) : ℝ :=
  (es.map fun e => linearElementPull u v e l d).sum

/-- The displacements `v` solve the equations of linear truss theory under the loads of the first step. -/
structure LinearSolution (u : UserInput ℝ) (es : List (Elem ℝ)) (v : Int → V3 ℝ) : Prop where
  supports : AllowedVelocity u v
  equilibrium : ∀ lab d, FreeAt u lab d → linearPull u es v lab d = firstLoad u lab d

end TrussPy
