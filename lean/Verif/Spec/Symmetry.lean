import Verif.Spec.Trail
import Verif.Spec.Stages
import Verif.Spec.Congruent
/-!
# Specification: symmetric structures
-/

namespace TrussPy

/-- The solver only returns vectors which solve the system, and only if there is no other solution. -/
def UniqueSolver (env : Env ℝ) : Prop :=
  ∀ A b x, env.spsolve A b = .ok x → matVec A x = b ∧ ∀ y, y.length = x.length → matVec A y = b → y = x

/-- The motion `x ↦ Q x + t` (rotation, reflection, ...) maps the entered structure, its supports and its loads to themselves:
node `n` to node `ν n`, element `k` (of the list of elements) to element `π k`, possibly with its ends interchanged. -/
structure Symmetry (Q : M3 ℝ) (t : V3 ℝ) (ν : Int → Int) (π : Nat → Nat) (u : UserInput ℝ) (es : List (Elem ℝ)) (nsteps : Nat) :
    Prop where
  orthogonal : Orthogonal Q
  once : ∀ n ∈ u.nodes, ∀ n' ∈ u.nodes, ν n.label = ν n'.label → n.label = n'.label
  nodes : ∀ n ∈ u.nodes, ∃ n' ∈ u.nodes, n'.label = ν n.label ∧
    ∀ d : Fin 3, n'.coord.getD d 0 = mulVec3 Q (fun d => n.coord.getD d 0) d + t d
  supports : ∀ n ∈ u.nodes, ∀ c d : Fin 3, FreeAt u n.label c → Q d c ≠ 0 → FreeAt u (ν n.label) d
  loads : ∀ n ∈ u.nodes, ∀ s, s < nsteps → stepLoad u s (ν n.label) = mulVec3 Q (stepLoad u s n.label)
  order : Rearranges π es.length
  elems : ∀ k e, es[k]? = some e → ∃ e' A E, es[π k]? = some e' ∧ e'.mtype = e.mtype ∧ e'.mprop.vals = e.mprop.vals ∧
    e'.gprop.vals = e.gprop.vals ∧ e.conn = [A, E] ∧ (e'.conn = [ν A, ν E] ∨ e'.conn = [ν E, ν A])

/-- The motion maps the state of the structure to itself: displacement, internal force and residual at the image of a node are the
images of those at the node; an element and its image have equal stretch, normal force, stress and state variables.  `labels` are
the node labels, in the order of the rows of nodal results. -/
structure Analysis.Symmetric (Q : M3 ℝ) (ν : Int → Int) (π : Nat → Nat) (labels : List Int) (nelems : Nat) (a : Analysis ℝ) :
    Prop where
  nodes : ∀ (i j : Nat) (l : Int), labels[i]? = some l → labels[j]? = some (ν l) →
    row3 a.U j = mulVec3 Q (row3 a.U i) ∧ a.r.getD j 0 = mulVec3 Q (a.r.getD i 0) ∧ row3 a.g j = mulVec3 Q (row3 a.g i)
  stretch : ∀ k, k < nelems → a.stretch[π k]? = a.stretch[k]?
  force : ∀ k, k < nelems → a.elementForce[π k]? = a.elementForce[k]?
  stress : ∀ k, k < nelems → a.elementStress[π k]? = a.elementStress[k]?
  state : ∀ sv, a.statev = some sv → ∀ k, k < nelems → sv[π k]? = sv[k]?

end TrussPy
