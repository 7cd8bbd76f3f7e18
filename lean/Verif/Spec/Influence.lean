import Verif.Spec.Mirror
import Verif.Spec.Entered
/-!
# Specification: input without influence on a run
-/

namespace TrussPy

variable {F : Type} [Zero F]

/-- Elements that agree in everything the analysis uses: label, nodes, material type, area (the first geometric property) and the
material properties read by the law, Young's modulus for type 1, the first three ones otherwise.  The element type and further
properties may differ. -/
structure Elem.SameUse (e e' : Elem F) : Prop where
  label : e'.label = e.label
  conn : e'.conn = e.conn
  mtype : e'.mtype = e.mtype
  young : e'.mprop.vals[0]? = e.mprop.vals[0]?
  mat : e.mtype ≠ 1 → e'.mprop.vals[1]? = e.mprop.vals[1]? ∧ e'.mprop.vals[2]? = e.mprop.vals[2]?
  area : e'.gprop.vals[0]? = e.gprop.vals[0]?

/-- The same nodes and supports, and in the steps up to `nsteps` the same loads on components which are not supported.  Component
`q` of a load belongs to direction `q % 3`. -/
structure UserInput.SameFreeLoads (nsteps : Nat) (u u' : UserInput F) : Prop where
  nodes : u'.nodes = u.nodes
  bounds : u'.bounds = u.bounds
  loads : ∀ n ∈ u.nodes, ∀ q : Nat, q < 3 * nsteps → (supportOf u.bounds n.label)[q % 3]? = some 1 →
    (loadOf u'.forces n.label)[q]? = (loadOf u.forces n.label)[q]?

/-- Two analysis objects that agree in everything except the loads and the residual forces, and in the latter for the active
degrees of freedom. -/
def Analysis.SameButSupports (a b : Analysis F) : Prop :=
  b = { a with g := b.g, extForces := b.extForces } ∧ ∀ p ∈ a.DOF1, b.g[p]? = a.g[p]?

/-- The results of both models, one by one; the load factors at the ends of the steps are the same. -/
def Model.SameButSupports (m m' : Model F) : Prop :=
  ∃ R R' ends, m.results = some ⟨R, ends⟩ ∧ m'.results = some ⟨R', ends⟩ ∧ List.Forall₂ Analysis.SameButSupports R R'

end TrussPy
