import Verif.Spec.Structure
/-!
# Specification: inputs of an evaluation, sequences of evaluations, complete bars
-/

namespace TrussPy

section
variable {F : Type}

/-- Two analysis objects that agree on what an evaluation may depend on: free degrees of freedom, loads,
committed state variables, load factor and the displacements of the *locked* degrees of freedom.
Everything else (active displacements, forces, stiffness, stresses, ... of earlier evaluations) may
differ; arrays have equal shapes. -/
structure SameInputs (a b : Analysis F) : Prop where
  dof1 : a.DOF1 = b.DOF1
  ext : a.extForces = b.extForces
  statev : a.statev = b.statev
  lpf : a.lpf = b.lpf
  U : ∀ i, i ∉ a.DOF1 → a.U[i]? = b.U[i]?
  U0 : ∀ i, i ∉ a.DOF1 → a.U0[i]? = b.U0[i]?
  Ulen : a.U.length = b.U.length
  U0len : a.U0.length = b.U0.length
  rlen : a.r.length = b.r.length
  Kshape : a.K.map List.length = b.K.map List.length

/-- The bar has all data its law reads. -/
structure Bar.Complete (b : Bar F) (nstatev : Nat) : Prop where
  geo : b.geo ≠ []
  mat : b.mat ≠ []
  plastic : b.law = .elplast → 3 ≤ b.mat.length ∧ 2 ≤ nstatev

/-- Everything an evaluation needs has the right size: consistent tables, all properties present, loads and
state variables for the whole structure, as many free degrees of freedom as the model says. -/
structure Evaluable (c : Ctx F) (bars : List (Bar F)) (a : Analysis F) (ef : StepForces F) : Prop where
  tables : c.Bars bars
  fits : a.Fits c
  complete : ∀ b ∈ bars, b.Complete c.nstatev
  statev : ∀ sv, a.statev = some sv → ∀ row ∈ sv, row.length = c.nstatev
  ext : a.extForces = some ef
  forces : ef.forces.length = 3 * c.nnodes
  forcesConst : ef.forcesConst.length = 3 * c.nnodes
  dofs : a.DOF1.length = c.ndof1

end

variable {F : Type} [Zero F] [One F] [Add F] [Sub F] [Mul F] [Div F] [Neg F] [Flt F]

/-- `b` arises from `a` by any number of `equilibrium` evaluations without commit and `stiffness`
evaluations, at arbitrary displacements. -/
inductive Evaluations (c : Ctx F) : Analysis F → Analysis F → Prop
  | refl (a) : Evaluations c a a
  | equilibrium {a b b' V V0 g} : Evaluations c a b → equilibrium c b V V0 .G false = .ok (b', g) → Evaluations c a b'
  | stiffness {a b b' V K} : Evaluations c a b → stiffness c b V = .ok (b', K) → Evaluations c a b'

end TrussPy
