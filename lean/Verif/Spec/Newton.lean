import Verif.Solver
/-!
# Specification: Newton iterations

`f` and `df` may mutate a state `S` and may raise.  One iteration from `x` to `x'` solves
`df(x) dx = -f(x)` with the given linear solver and sets `x' = x + dx`.
-/

namespace TrussPy

variable {F : Type} [Add F] [Neg F]

/-- One Newton iteration; `fx'` is the residual at the new iterate. -/
def NewtonIter {S : Type} (f : S → List F → Py (S × List F)) (df : S → List F → Py (S × List (List F)))
    (spsolve : List (List F) → List F → Py (List F)) (s : S) (x : List F) (s' : S)
    (x' fx' dx : List F) : Prop :=
  ∃ s1 J s2 fx, df s x = .ok (s1, J) ∧ f s1 x = .ok (s2, fx) ∧ spsolve J (fx.map fun v => -v) = .ok dx ∧
    dx.length = x.length ∧ x' = List.zipWith (· + ·) x dx ∧ f s2 x' = .ok (s', fx')

/-- A sequence of iterations, with residual and update of each. -/
inductive NewtonRun {S : Type} (f : S → List F → Py (S × List F)) (df : S → List F → Py (S × List (List F)))
    (spsolve : List (List F) → List F → Py (List F)) :
    S → List F → List (List F × List F) → S → List F → Prop
  | nil (s : S) (x : List F) : NewtonRun f df spsolve s x [] s x
  | cons {s x s1 x1 fx dx its s' x'} : NewtonIter f df spsolve s x s1 x1 fx dx →
      NewtonRun f df spsolve s1 x1 its s' x' → NewtonRun f df spsolve s x ((fx, dx) :: its) s' x'

/-- Both tolerances are met by an iteration. -/
def Converged [Flt F] (ftol xtol : F) (it : List F × List F) : Prop :=
  Flt.lt (Flt.vnorm it.1) ftol = true ∧ Flt.lt (Flt.vnorm it.2) xtol = true

end TrussPy
