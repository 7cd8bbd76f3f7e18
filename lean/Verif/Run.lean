import Verif.Solver
/-!
# `Model.run`

Models `model.py:201-441` and the result handler `handlers/handler_result.py:38-48`.
Timing and printed tables are not modelled, except for the line that raises (241).
-/

namespace TrussPy

variable {F : Type} [Zero F] [One F] [Add F] [Sub F] [Mul F] [Div F] [Neg F] [Flt F]

/-- What the bound methods `self.equilibrium`/`self.stiffness` (`model.py:443-572`) read from `self` (attributes set in
`model.py:136-166`). -/
def Model.ctx (m : Model F) : Option (Ctx F) := do
  let nt ← m.nodes
  let et ← m.elems
  let d ← m.dims
  return ⟨nt, et, d.nnodes, d.dof1.length, m.settings.nstatev⟩

/-- The callables `g = self.equilibrium` and `dgdx = self.stiffness` of `model.py:353-355`. -/
def modelProblem (c : Ctx F) : Problem F where
  g a V V0 write := equilibrium c a V V0 .G write
  dgdx a U := stiffness c a U

/-- `forces[:, 3*s : 3*(s+1)]`, `model.py:332`, `337`, `345-347`. -/
def stepSlice (rows : List (List F)) (s : Nat) : List (List F) :=
  rows.map fun r => (r.drop (3 * s)).take 3

/-- `f0_const += lpf * forces[:, 3s:3s+3]` (`model.py:335-338`) on flattened arrays; `ValueError` for other shapes. -/
def addScaled (acc : List F) (lpf : F) (f : List F) : Py (List F) :=
  if acc.length = f.length then .ok (List.zipWith (fun p q => p + lpf * q) acc f)
  else .error .valueError

/-- `model.py:331-338`: constant part of the load in step number `step` (0-based). -/
def constLoad (rows : List (List F)) (lpfEnd : List F) (step : Nat) : Py (List F) :=
  (List.range step).foldlM (fun acc (s : Nat) => do
    let l ← pyGet lpfEnd (s : Int)
    addScaled acc l (stepSlice rows s).flatten) ((stepSlice rows step).flatten.map fun _ => 0)

/-- `model.py:329-351`: load data and step number written to the analysis object. -/
def setStep (rows : List (List F)) (lpfEnd : List F) (step : Nat) (a : Analysis F) :
    Py (Analysis F) := do
  let fc ← constLoad rows lpfEnd step
  let f := (stepSlice rows step).flatten
  let f0red ← npTake f a.DOF1
  return { a with extForces := some ⟨f, fc⟩, f0red := f0red, step := 1 + step }

/-- `model.py:309-312`: number of increments of the step. -/
def stepIncs (s : Settings F) (step : Nat) : Py Nat :=
  match s.incs with
  | .const n => .ok n
  | .tuple l => pyGet l (step : Int)

/-- `model.py:313-316`: limit of the step. -/
def stepXlimit (s : Settings F) (step : Nat) : Py (Int × F) :=
  match s.xlimit with
  | .const j v => .ok (j, v)
  | .tuple l => pyGet l (step : Int)

/-- `model.py:353-375`: arguments of the call of `pathfollow`. -/
def stepCfg (s : Settings F) (incs : Nat) (xl : Int × F) : PFCfg F where
  dxmax := .vec [s.du, s.dlpf]
  j := s.j0
  jFixed := s.jFixed
  jPre := s.jPre
  xlimit := some xl
  incs := incs
  nfev := s.nfev
  cycl := s.cycl
  ftol := Flt.pow10neg s.ftol
  xtol := Flt.pow10neg s.xtol
  stepcontrol := s.stepcontrol
  maxfac := s.maxfac
  minfac := s.minfac
  reduce := s.reduce
  increase := s.increase
  dxtol := s.dxtol

/-- `model.py:393-394`: `R[-1] = r_a; copy_increment()` (`handler_result.py:38-40`). -/
def recordOne (R : List (Analysis F)) (ra : Analysis F) : List (Analysis F) :=
  (R.dropLast ++ [ra]) ++ [ra]

/-- `model.py:397`: `R[-1].U0 = np.copy(R[-1].U)`. -/
def syncU0 (R : List (Analysis F)) : Py (List (Analysis F)) :=
  match R.getLast? with
  | none => .error .indexError
  | some a => .ok (R.dropLast ++ [{ a with U0 := a.U }])

/-- `model.py:400`: `step_lpf_end.append(R[-1].lpf)`. -/
def lastLpf (R : List (Analysis F)) : Py F :=
  match R.getLast? with
  | none => .error .indexError
  | some a => match a.lpf with
    | none => .error .attributeError
    | some l => .ok l

/-- `model.py:404-405`: `Analysis.Vred[-1] = 0; Analysis.lpf = 0`. -/
def resetLpf (a : Analysis F) : Analysis F :=
  { a with Vred := a.Vred.dropLast ++ [0], lpf := some 0 }

/-- One pass of the step loop `model.py:307-407` (`step` is 0-based). -/
def runStep (env : Env F) (fuel : Nat) (c : Ctx F) (s : Settings F) (rows : List (List F))
    (st : Analysis F × Results F) (step : Nat) : Py (Analysis F × Results F) := do
  let (a, res) := st
  let incs ← stepIncs s step
  let xl ← stepXlimit s step
  let a ← setStep rows res.stepLpfEnd step a
  let o ← pathfollow env (modelProblem c) (stepCfg s incs xl) fuel a.Ured a
  let R := (o.recs.map (·.a)).foldl recordOne res.R
  let R ← syncU0 R
  let l ← lastLpf R
  let lpfEnd := res.stepLpfEnd ++ [l]
  if step + 1 < s.nsteps then return (resetLpf o.final, ⟨R, lpfEnd⟩)
  else return (o.final, ⟨R.dropLast, lpfEnd⟩)

/-- `handler_result.py:46-48` `duplicate_first_increment`. -/
def dupFirst (R : List (Analysis F)) : Py (List (Analysis F)) :=
  match R with
  | [] => .error .indexError
  | a :: _ => .ok (a :: R)

/-- `model.py:201-441` `Model.run`. -/
def Model.run (env : Env F) (fuel : Nat) (m : Model F) : Py (Model F) :=
  -- line 241: `self.Settings.j0 + "|"`
  if 1 < m.settings.log ∧ m.settings.j0 ≠ none then .error .typeError else
  match m.ctx, m.analysis, m.results, m.forces with
  | some c, some a, some res, some ft => do
    let a := { a with Vred := a.Ured ++ [0], lpf := some 0 }
    let R ← dupFirst res.R
    let (a, res) ← (List.range m.settings.nsteps).foldlM
      (runStep env fuel c m.settings ft.forces.rows) (a, ⟨R, res.stepLpfEnd⟩)
    return { m with analysis := some a, results := some res }
  | _, _, _, _ => .error .attributeError

end TrussPy
