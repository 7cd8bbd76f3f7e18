import Verif.Results
/-!
# Specification: sequences of changes of the result list
-/

namespace TrussPy

variable {F : Type} [Zero F]

/-- By how much the number of results changes. -/
def ResOp.net : ResOp → Int
  | .copy => 1
  | .removeLast => -1
  | .dupFirst => 1

/-- By how much a sequence of changes changes the number of results. -/
def netChange (ops : List ResOp) : Int := (ops.map ResOp.net).sum

/-- One change after the other. -/
def resOps (R : List (Analysis F)) (ops : List ResOp) : Py (List (Analysis F)) := ops.foldlM resOp R

/-- The reduced vector `w` holds the entries of `v` at the free positions `dof`, the other entries of `v` are zero. -/
structure ReducedTo (v : List F) (dof : List Nat) (w : List F) : Prop where
  length : w.length = dof.length
  free : ∀ (k i : Nat), dof[k]? = some i → v[i]? = w[k]? ∧ v[i]? ≠ none
  locked : ∀ i, i < v.length → i ∉ dof → v[i]? = some 0

end TrussPy
