import Verif.Handlers
/-!
# Analysis object, settings and `Model.build`

Models `core/analysis.py`, `handlers/handler_settings.py` and `model.py:126-199`.
-/

namespace TrussPy

/-- A row of three components, e.g. of `analysis.r` (`core/analysis.py:112-121`). -/
abbrev V3 (F : Type) := Fin 3 → F

/-- A 3x3 block `analysis.K[i, j]` (`core/analysis.py:112-121`). -/
abbrev M3 (F : Type) := Fin 3 → Fin 3 → F

/-- The part of `ExternalForceHandler` that the solver reads from `Analysis.ExtForces`
(`model.py:329-347`): the load slice of the current step and the constant part, both flattened. -/
structure StepForces (F : Type) where
  forces : List F
  forcesConst : List F
  deriving DecidableEq, Repr

/-- `core/analysis.py:11-153` `Analysis`: all data of one increment.  `U`, `U0` and `g` are stored
flattened (`U[i][c]` is entry `3*i+c`), `(nelems,1)` columns as lists.  Attributes that do not exist
before `Model.run` are `Option`s when the code can read them earlier (`lpf`, `extForces`), otherwise
they start with an empty value. -/
structure Analysis (F : Type) where
  step : Nat
  U : List F
  U0 : List F
  r : List (V3 F)
  g : List F
  K : List (List (M3 F))
  stretch : List F
  elementForce : List F
  elementStress0 : List F
  elementStress : List F
  DOF0 : List Nat
  DOF1 : List Nat
  Ured : List F
  rred : List F
  statev : Option (List (List F))
  dVmax : Option (List F) := none
  Vred : List F := []
  lpf : Option F := none
  extForces : Option (StepForces F) := none
  f0red : List F := []
  Kred : List (List F) := []
  Kmod : List (List F) := []
  j : Int := 0

/-- `incs` setting (`model.py:309-312`): one number for all steps or a tuple with one entry per step. -/
inductive Incs where
  | const (n : Nat)
  | tuple (l : List Nat)
  deriving DecidableEq

/-- `xlimit` setting (`model.py:313-316`): one pair for all steps or a tuple of pairs. -/
inductive XLimit (F : Type) where
  | const (j : Int) (v : F)
  | tuple (l : List (Int × F))

/-- `handlers/handler_settings.py:11-47` `SettingsHandler`.  `log` is kept only because of
`model.py:241` (see `Verif/Run.lean`); `lpf` is unused by the code. -/
structure Settings (F : Type) where
  ndim : Nat := 3
  incs : Incs := .const 50
  stepcontrol : Bool := false
  maxfac : F
  minfac : F
  increase : F
  reduce : F
  dxtol : F
  ftol : Int := 8
  xtol : Int := 8
  cycl : Int := 4
  nfev : Int := 8
  dlpf : F
  du : F
  xlimit : XLimit F
  log : Int := 2
  j0 : Option Int := none
  jPre : Bool := true
  jFixed : Bool := false
  nstatev : Nat := 0
  nsteps : Nat := 1

variable {F : Type} [Zero F]

/-- `core/analysis.py:85-135` `Analysis.build` on a fresh object, for `ndim = 3`. -/
def Analysis.fresh (nnodes nelems : Nat) (DOF0 DOF1 : List Nat) (nstatev : Nat) : Analysis F :=
  { step := 1
    U := List.replicate (3 * nnodes) 0
    U0 := List.replicate (3 * nnodes) 0
    r := List.replicate nnodes (fun _ => 0)
    g := List.replicate (3 * nnodes) 0
    K := List.replicate nnodes (List.replicate nnodes (fun _ _ => 0))
    stretch := List.replicate nelems 0
    elementForce := List.replicate nelems 0
    elementStress0 := List.replicate nelems 0
    elementStress := List.replicate nelems 0
    DOF0 := DOF0
    DOF1 := DOF1
    Ured := List.replicate DOF1.length 0
    rred := List.replicate DOF1.length 0
    statev := if 0 < nstatev then some (List.replicate nelems (List.replicate nstatev 0)) else none }

/-- `core/analysis.py:110,134`: `Analysis.build` raises `ValueError` unless `U is None`. -/
def Analysis.build (a : Option (Analysis F)) (nnodes nelems : Nat) (DOF0 DOF1 : List Nat)
    (nstatev : Nat) : Py (Analysis F) :=
  match a with
  | none => .ok (Analysis.fresh nnodes nelems DOF0 DOF1 nstatev)
  | some _ => .error .valueError

/-- `handlers/handler_result.py:17-19` `ResultHandler`. -/
structure Results (F : Type) where
  R : List (Analysis F)
  stepLpfEnd : List F

/-- Attributes that `Model.build` derives (`model.py:136-166`). -/
structure Dims where
  nnodes : Nat
  nelems : Nat
  ndof : Nat
  dof0 : List Nat
  dof1 : List Nat
  deriving DecidableEq, Repr

/-- `model.py:40-124` `Model`: handlers, settings and what `build` adds. -/
structure Model (F : Type) where
  nodes : Option (NodeTab F) := none
  elems : Option (ElemTab F) := none
  bounds : Option BoundTab := none
  forces : Option (ForceTab F) := none
  settings : Settings F
  dims : Option Dims := none
  analysis : Option (Analysis F) := none
  results : Option (Results F) := none

/-- `np.where(self.nproBC.flatten() == v)` applied to `np.arange(ndof)` (`model.py:162-164`):
positions with value `v`; `IndexError` if one exceeds the number of degrees of freedom. -/
def dofWhere (ndof : Nat) (bc : List Int) (v : Int) : Py (List Nat) :=
  npTake (List.range ndof) (whereEq bc v)

/-- `handlers/handler_result.py:21-36` `add_increment` with the arguments of `model.py:192-196`:
a copy of the analysis, with the full load table attached, `forces_const` zero and `lpf = 0`. -/
def addIncrement (a : Analysis F) (forces : List F) (R : List (Analysis F)) : List (Analysis F) :=
  R ++ [{ a with lpf := some 0, extForces := some ⟨forces, a.U.map fun _ => 0⟩ }]

/-- `model.py:126-199` `Model.build`.  Simplification: a `ndim` other than 3 is rejected here; the
code raises `IndexError`/`ValueError` in `build` or at the first evaluation, because elements are
hard-coded to three components. -/
def Model.build (argsort : List Int → List Nat) (m : Model F) : Py (Model F) := do
  -- len(None) raises TypeError (136-137)
  let some nt := m.nodes | .error .typeError
  let some et := m.elems | .error .typeError
  let nnodes := nt.labels.length
  let nelems := et.labels.length
  if m.settings.ndim ≠ 3 then .error .valueError else
  let ndof := nnodes * 3
  -- fix node sorting, undefined boundaries and undefined external forces (142-144)
  let nt ← fixNodes argsort nt
  let bt ← fixBoundsU argsort nt.labels m.bounds
  let ft ← fixForces argsort nt.labels m.forces
  -- 146-150
  let okB ← npAllclose nt.labels bt.nodes
  let okF ← if okB then npAllclose nt.labels ft.nodes else pure false
  if !(okB && okF) then .error .ioError else
  -- init state variables for plasticity (153-154)
  let nstatev := if et.mtype.contains 2 then 2 else m.settings.nstatev
  -- 161-166
  let dof0 ← dofWhere ndof bt.values.flatten 0
  let dof1 ← dofWhere ndof bt.values.flatten 1
  let a ← Analysis.build none nnodes nelems dof0 dof1 nstatev
  return { m with
    nodes := some nt
    bounds := some bt
    forces := some ft
    settings := { m.settings with nstatev := nstatev }
    dims := some ⟨nnodes, nelems, ndof, dof0, dof1⟩
    analysis := some a
    results := some ⟨addIncrement a ft.forces.rows.flatten [], []⟩ }

end TrussPy
