import Verif.Solver
/-!
# Specification: recorded increments of the path-following solver
-/

namespace TrussPy

variable {F : Type} [Zero F] [One F] [Add F] [Sub F] [Mul F] [Div F] [Neg F] [Flt F]

/-- The problem's residual function does not touch the recorded step width. -/
def KeepsWidth (P : Problem F) : Prop :=
  ∀ a V V0 w a' r, P.g a V V0 w = .ok (a', r) → a'.dVmax = a.dVmax

/-- Component `i` moved by at most `dxtol` times the step width `dV` (`u` new, `v` old value). -/
def Within (dxtol u v d : F) : Prop := Flt.le (Flt.abs ((u - v) / d)) dxtol = true

/-- An increment from `prev` to the record `r` is converged and bounded: an evaluation of the residual
`g` at the recorded vector, extended by the control equation of some component, has norm below `ftol`,
and the recorded vector differs from the previous one by at most `dxtol` times the recorded step width
in every component (only in the control component, if the user fixed it). -/
def ConvergedIncrement (P : Problem F) (cfg : PFCfg F) (prev : List F) (r : Rec F) : Prop :=
  (∃ (a a' : Analysis F) (gv : List F) (j : Int) (vj vmax : F),
    P.g a r.x prev false = .ok (a', gv) ∧ pyGet r.x (j.natAbs - 1) = .ok vj ∧
    Flt.lt (Flt.vnorm ((gv.map fun v => -v) ++ [vj - vmax])) cfg.ftol = true) ∧
  ∃ dV, r.a.dVmax = some dV ∧
    if cfg.jFixed then
      ∃ j u v d, cfg.j = some j ∧ pyGet r.x (j.natAbs - 1) = .ok u ∧ pyGet prev (j.natAbs - 1) = .ok v ∧
        pyGet dV (j.natAbs - 1) = .ok d ∧ Within cfg.dxtol u v d
    else ∀ (i : Nat) u v d, r.x[i]? = some u → prev[i]? = some v → dV[i]? = some d →
      Within cfg.dxtol u v d

/-- The increment ended with one of the two error messages. -/
def Rec.isError (r : Rec F) : Prop := r.out = .error1 ∨ r.out = .error2

/-- The limited component of `x` exceeds its limit. -/
def ExceedsLimit (x : List F) (xlimit : Option (Int × F)) : Prop :=
  ∃ i lim v, xlimit = some (i, lim) ∧ pyGet x (i - 1) = .ok v ∧ Flt.lt lim (Flt.abs v) = true

end TrussPy
