import Verif.Spec.RoundedTruss
import Verif.Lemmas.Total
/-!
# Specification: a structure in a number format and the same structure in real numbers
-/

namespace TrussPy

/-- The structure `c'`, `bars'`, `a'`, `ef'` in real numbers is the one that `c`, `bars`, `a`, `ef` stand for.  The state `a` is ready for path
following (an increment has been stored and the load factor is set), and the loads of the free degrees of freedom are those of `ef`. -/
structure StandsFor {F : Type} [Zero F] [One F] (val : F → ℝ) (c : Ctx F) (bars : List (Bar F)) (a : Analysis F) (ef : StepForces F)
    (c' : Ctx ℝ) (bars' : List (Bar ℝ)) (a' : Analysis ℝ) (ef' : StepForces ℝ) : Prop where
  eval : Evaluable c bars a ef
  ready : a.Ready c
  loads : a.f0red = a.DOF1.map fun p => ef.forces.getD p 0
  bars : bars.map (Bar.image val) = bars'
  forces : ef.image val = ef'
  twin : Twin val c a c' a'

end TrussPy
