import Verif.Spec.Mirror
import Verif.Spec.Valid
import Mathlib.Algebra.BigOperators.Group.Finset.Basic
/-!
# Specification: elements replaced by bundles of parallel elements, elements without area
-/

namespace TrussPy

/-- Element `e'` is the share `w` of element `e`: same nodes, same material, `w` times its area. -/
structure Elem.Share (w : ℝ) (e e' : Elem ℝ) : Prop where
  conn : e'.conn = e.conn
  mtype : e'.mtype = e.mtype
  mprop : e'.mprop.vals = e.mprop.vals
  area : ∃ A, e.gprop.vals[0]? = some A ∧ e'.gprop.vals[0]? = some (w * A)

/-- Every element of `es` is replaced by parallel elements whose shares sum up to one: element `k` of `es'` is the share `w k` of
element `π k` of `es`.  Elements without area may be added anywhere (`w k = 0` for them). -/
structure SplitElems (π : Nat → Nat) (w : Nat → ℝ) (es es' : List (Elem ℝ)) : Prop where
  sum : ∀ j, j < es.length → ∑ k ∈ Finset.range es'.length, (if π k = j then w k else 0) = 1
  elem : ∀ (k : Nat) e', es'[k]? = some e' →
    (w k = 0 ∧ e'.gprop.vals[0]? = some 0) ∨ ∃ e, es[π k]? = some e ∧ e.Share (w k) e'

/-- The recorded analysis object `b` of the second structure compared to `a` of the first one: the same displacements, internal
forces, residual, loads, load factor, reduced stiffness matrix, control component and step width; every share has the stretch and
the stress of the whole element, its share of the normal force, and the same state variables if it is plastic; elements without
area have no normal force. -/
structure Analysis.SplitResult (π : Nat → Nat) (w : Nat → ℝ) (es es' : List (Elem ℝ)) (a b : Analysis ℝ) : Prop where
  step : b.step = a.step
  U : b.U = a.U
  U0 : b.U0 = a.U0
  r : b.r = a.r
  g : b.g = a.g
  dof0 : b.DOF0 = a.DOF0
  dof1 : b.DOF1 = a.DOF1
  Ured : b.Ured = a.Ured
  lpf : b.lpf = a.lpf
  loads : b.extForces = a.extForces
  f0red : b.f0red = a.f0red
  Kred : b.Kred = a.Kred
  j : b.j = a.j
  dVmax : b.dVmax = a.dVmax
  share : ∀ (k : Nat) e e', es'[k]? = some e' → es[π k]? = some e → e.Share (w k) e' →
    b.stretch[k]? = a.stretch[π k]? ∧ b.elementStress[k]? = a.elementStress[π k]? ∧
      b.elementForce[k]? = (a.elementForce[π k]?).map (w k * ·) ∧
      (e.mtype = 2 → ∃ sv sv' row, a.statev = some sv ∧ b.statev = some sv' ∧ sv[π k]? = some row ∧ sv'[k]? = some row)
  void : ∀ (k : Nat) e', es'[k]? = some e' → e'.gprop.vals[0]? = some 0 → b.elementForce[k]? = some 0

/-- The results of both models, one by one; the load factors at the ends of the steps are the same. -/
def Model.SplitResults (π : Nat → Nat) (w : Nat → ℝ) (es es' : List (Elem ℝ)) (m2 m2' : Model ℝ) : Prop :=
  ∃ R R' ends, m2.results = some ⟨R, ends⟩ ∧ m2'.results = some ⟨R', ends⟩ ∧
    List.Forall₂ (Analysis.SplitResult π w es es') R R'

end TrussPy
