import Verif.Material
/-!
# Specification: histories of committed strains
-/

namespace TrussPy

variable {F : Type} [Zero F] [One F] [Add F] [Sub F] [Mul F] [Div F] [Neg F] [Flt F]

/-- State variables after the strains (with strain increments) of a history have been committed one
after the other; `trace` collects the state after every commit. -/
def commitTrace (mp : List F) : List F → List (F × F) → Py (List (List F))
  | _, [] => .ok []
  | sv, (e, de) :: h => do
    let o ← umatElplastIso e de mp (some sv)
    let sv' := o.statev.getD []
    let rest ← commitTrace mp sv' h
    return sv' :: rest

/-- State after the whole history. -/
def commitAll (mp : List F) (sv : List F) (h : List (F × F)) : Py (List F) := do
  let tr ← commitTrace mp sv h
  return tr.getLastD sv

/-- Stress of a law as a function of strain (0 where the law raises). -/
def stressAt (law : F → Py (UmatOut F)) (e : F) : F :=
  match law e with
  | .ok o => o.s
  | .error _ => 0

end TrussPy
