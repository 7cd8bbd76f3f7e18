import Verif.Run
import Verif.Spec.Entered
import Verif.Instances
/-!
# Specification: settings and external routines with which a run must come to an end
-/

namespace TrussPy

variable {F : Type} [Flt F]

/-- No value is NaN: every value has a sign. -/
def SignTotal (F : Type) [Flt F] : Prop := ∀ v : F, ∃ s, Flt.sgn v = some s ∧ s.natAbs ≤ 1

/-- The external routines return: the linear solver a vector of the size of the system, the sort an order whose last
entry is a position of the list. -/
structure Env.Returns (env : Env F) (n : Nat) : Prop where
  solve : ∀ A b, A.length = n → (∀ row ∈ A, row.length = n) → b.length = n →
    ∃ dx, env.spsolve A b = .ok dx ∧ dx.length = n
  sort : ∀ l : List F, l ≠ [] → ∃ i, (env.argsortF l).getLast? = some i ∧ i < l.length

/-- Python index `i` (1-based, zero and negative numbers count from the end) of a vector with `n` entries. -/
def IndexOK (n : Nat) (i : Int) : Prop := -(n : Int) < i ∧ i ≤ n

/-- The settings make sense for `n` active degrees of freedom: at least one recycle and two Newton iterations, a
control component if it is fixed, a number of increments and a limit for every step. -/
structure Settings.Sane (s : Settings F) (n : Nat) : Prop where
  log : 1 < s.log → s.j0 = none
  cycl : 1 ≤ s.cycl
  nfev : 2 ≤ s.nfev
  control : s.jFixed = true → ∃ j, s.j0 = some j ∧ j.natAbs ≤ n + 1
  incs : ∀ l, s.incs = .tuple l → s.nsteps ≤ l.length
  limit : ∀ j v, s.xlimit = .const j v → IndexOK (n + 1) j
  limits : ∀ l, s.xlimit = .tuple l → s.nsteps ≤ l.length ∧ ∀ p ∈ l, IndexOK (n + 1) p.1

/-- The step control can only shrink the step width down to a positive multiple of `du`, and really shrinks it. -/
structure Settings.Controlled (s : Settings ℝ) : Prop where
  du : 0 < s.du
  minfac_pos : 0 < s.minfac
  minfac_le : s.minfac ≤ 1
  maxfac_ge : 1 ≤ s.maxfac
  reduce_gt : 1 < s.reduce
  increase_ge : 0 ≤ s.increase

/-- Number of components the user left free. -/
def freeCount {F : Type} (u : UserInput F) : Nat := (u.nodes.map fun n => (supportOf u.bounds n.label).count 1).sum

/-- The entered data describe a truss with loads for `nsteps` steps: elements with all their properties, supports and
loads at existing nodes, no node twice, at least one free component. -/
structure ValidInput {F : Type} (u : UserInput F) (es : List (Elem F)) (nsteps : Nat) : Prop where
  posed : WellPosed u es
  props : PropsEntered es
  elems : es ≠ []
  supports : ∀ b ∈ u.bounds, b.values.length = 3
  supportsOnce : (u.bounds.map (·.node)).Nodup
  supportsAt : ∀ b ∈ u.bounds, ∃ n ∈ u.nodes, n.label = b.node
  loads : u.forces ≠ []
  loadsOnce : (u.forces.map (·.node)).Nodup
  loadsAt : ∀ f ∈ u.forces, ∃ n ∈ u.nodes, n.label = f.node
  width : 3 * nsteps ≤ loadWidth u.forces
  free : 1 ≤ freeCount u

end TrussPy
