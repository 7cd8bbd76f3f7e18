import Verif.Base
/-!
# Material laws

Models `materials/material_definition.py`.
-/

namespace TrussPy

variable {F : Type} [Zero F] [One F] [Add F] [Sub F] [Mul F] [Div F] [Neg F] [Flt F]

/-- Return value `(s, dsde, dsdt, state_v)` of a material law (`material_definition.py:18`, `67`). -/
structure UmatOut (F : Type) where
  s : F
  dsde : F
  dsdt : F
  statev : Option (List F)
  deriving DecidableEq, Repr

/-- `np.sign(x)` as a float (`material_definition.py:54`, `tpsolver.py:429`). -/
def npSign (x : F) : F :=
  match Flt.sgn x with
  | some k => Flt.ofInt k
  | none => Flt.nan

/-- `materials/material_definition.py:11-18` `umat_el` (its strain increment argument is unused). -/
def umatEl (e _de : F) (matProp : List F) (statev : Option (List F)) : Py (UmatOut F) := do
  let E ← pyGet matProp 0
  return { s := E * e, dsde := E, dsdt := 0, statev := statev }

/-- `materials/material_definition.py:21-67` `umat_elplast_iso`.  `state_v = [yield stress (0 means
virgin), plastic strain]`; `None` is not subscriptable (`TypeError`). -/
def umatElplastIso (e _de : F) (matProp : List F) (statev : Option (List F)) : Py (UmatOut F) := do
  let E ← pyGet matProp 0
  let K ← pyGet matProp 1
  let Sy ← pyGet matProp 2
  match statev with
  | none => .error .typeError
  | some sv =>
    let epsPl0 ← pyGet sv 1
    let sv0 ← pyGet sv 0
    let stressYield0 := if Flt.eq sv0 0 then Sy else sv0
    -- trial state
    let stressTrial := E * (e - epsPl0)
    let fTrial := Flt.abs stressTrial - stressYield0
    let (stress1, epsPl1, dsde, dGamma) :=
      if Flt.le fTrial 0 then
        (stressTrial, epsPl0, E, (0 : F))
      else
        let dGamma := fTrial / (E + K)
        ((1 - (dGamma * E) / Flt.abs stressTrial) * stressTrial,
          epsPl0 + dGamma * npSign stressTrial, E * K / (E + K), dGamma)
    let stressYield1 := stressYield0 + K * dGamma
    let sv' := (sv.set 0 stressYield1).set 1 epsPl1
    return { s := stress1, dsde := dsde, dsdt := 0, statev := some sv' }

/-- The two laws selectable in `model.py:538-541`. -/
inductive Umat where
  | el
  | elplast
  deriving DecidableEq, Repr

/-- Call of the selected law, `element_definition.py:62` (`umat(E11, dE11, mat_prop, state_ve)`). -/
def Umat.call (u : Umat) (e de : F) (matProp : List F) (statev : Option (List F)) : Py (UmatOut F) :=
  match u with
  | .el => umatEl e de matProp statev
  | .elplast => umatElplastIso e de matProp statev

end TrussPy
