import Verif.Run
/-!
# The printed protocol

Models what `Model.__init__`, `Model.build`, `Model.run`, `pathfollow`, `dxmax_control` and `newton` print, for every
log level (`model.py:95-117`, `168-180`, `204-298`, `318-343`, `377-392`, `409-438`; `tpsolver.py:158-190`, `339-351`,
`397-402`, `414-423`, `458-466`, `516-561`; `zerosearch.py:101-106`).  A printed line is represented by its kind and
the values in it; wording, number formats and the line breaks between the kinds are left out.  The functions here repeat
those of `Verif/Build.lean`, `Verif/Solver.lean` and `Verif/Run.lean` with the `print` calls in place; that they compute the
same is proved in `Verif/Lemmas/Report.lean`.  Printing raises in two places: `model.py:241` (a control component given as
a number) and the quotient `1 / reduce` of a Python number (`model.py:287`, `tpsolver.py:160`).
-/

namespace TrussPy

/-- Values in the summary of the analysis parameters (`model.py:215-295`). -/
inductive PVal (F : Type) where
  | int (v : Int)
  | flt (v : F)
  | bool (v : Bool)
  | incs (v : Incs)
  /-- the word `LPF` (`model.py:241`) -/
  | lpf
  deriving DecidableEq

/-- A kind of printed text with the values in it. -/
inductive Line (F : Type) where
  /-- a code fence of the log file (`model.py:97`, `117`) -/
  | fence
  /-- name and version (`model.py:99-115`) -/
  | banner
  /-- `# Model Summary` with numbers of nodes, elements, degrees of freedom and the active and fixed ones
  (`model.py:169-180`) -/
  | summary (ndim nnodes nelems ndof : Nat) (dof1 dof0 : List Nat)
  /-- `# Run Simulation` (`model.py:205-207`) -/
  | runHead
  /-- head of the table of parameters (`model.py:210-213`) -/
  | paramHead
  /-- a row of the tables of parameters: name and value (`model.py:214-264`, `271-296`) -/
  | param (name : String) (v : PVal F)
  /-- head of the table of the adaptive step width (`model.py:267-270`) -/
  | widthHead
  /-- `## Step` (`model.py:319`) -/
  | stepHead (k : Nat)
  /-- explanation of the columns (`model.py:321-327`) -/
  | stepNotes
  /-- constant part of the external forces (`model.py:340-341`) -/
  | constLoad (f : List F)
  /-- initial values due to previous steps (`model.py:342-343`) -/
  | initial (x : List F)
  /-- `### Increment` (`tpsolver.py:341-342`) -/
  | incHead (i : Nat)
  /-- head of the iteration table (`tpsolver.py:344-351`, `414-423`) -/
  | tableHead
  /-- row of the predictor (`tpsolver.py:397-402`) -/
  | preRow (cycle it control : Int) (fnorm : F) (i1 : Int) (v1 : F)
  /-- row of a Newton iteration (`zerosearch.py:101-106`) -/
  | iterRow (n : Int) (fnorm : F)
  /-- row with the totals of a cycle (`tpsolver.py:458-466`) -/
  | totalRow (cycle its control : Int) (fnorm : F) (i1 : Int) (v1 : F) (i2 : Int) (v2 : F) (i3 : Int) (v3 : F)
  /-- `reduce NR-step although control comp. changes` (`tpsolver.py:147-149`) -/
  | reduceForced
  /-- `reduce NR-step size by factor: (inactive) due to recycle` (`tpsolver.py:153`) -/
  | reduceInactive
  /-- `reduce NR-step size by factor` (`tpsolver.py:158-160`) -/
  | reduceBy (v : F)
  /-- `increase NR-step (inactive)` (`tpsolver.py:173-176`) -/
  | growInactive (b : Int)
  /-- `increase NR-step size by factor` (`tpsolver.py:186-190`) -/
  | growBy (v : F)
  /-- `ERROR 1` (`tpsolver.py:518-522`) -/
  | error1
  /-- `ERROR 2` (`tpsolver.py:527-531`) -/
  | error2
  /-- `recycling increment` (`tpsolver.py:541-542`) -/
  | recycling
  /-- `final LPF` (`tpsolver.py:553-555`) -/
  | finalLpf (v : F)
  /-- `EXIT 1` (`tpsolver.py:564`) -/
  | exit1
  /-- `Create result object from analysis results for step` (`model.py:378-384`) -/
  | resultHead (k : Nat)
  /-- `write result i/n (LPF)` (`model.py:388-392`) -/
  | writeResult (i n : Nat) (lpf : F)
  /-- `End of Step` (`model.py:410`) -/
  | stepEnd (k : Nat)
  /-- `## Job duration` (`model.py:417-421`) -/
  | durationHead
  /-- a duration: labelled `cpu` or `wall`, of `build` or `run` (`model.py:422-438`) -/
  | duration (cpu run : Bool) (v : F)
  deriving DecidableEq

/-- A Python computation that prints: the text so far is kept if an exception is raised. -/
def Pr (F α : Type) : Type := List (Line F) × Py α

namespace Pr
variable {F α β : Type}

/-- The printed text. -/
def text (p : Pr F α) : List (Line F) := p.1

/-- The value or the exception. -/
def res (p : Pr F α) : Py α := p.2

/-- Sequential execution. -/
def bind (p : Pr F α) (k : α → Pr F β) : Pr F β :=
  match p with
  | (l, .ok a) => match k a with
    | (l', r) => (l ++ l', r)
  | (l, .error e) => (l, .error e)

instance : Monad (Pr F) where
  pure a := ([], .ok a)
  bind := bind

/-- A computation that prints nothing. -/
def lift (m : Py α) : Pr F α := ([], m)

/-- `print(...)`, several calls in a row. -/
def say (l : List (Line F)) : Pr F Unit := (l, .ok ())

/-- `if b: print(...)`. -/
def sayIf (b : Prop) [Decidable b] (l : List (Line F)) : Pr F Unit := if b then say l else say []

end Pr

variable {F : Type} [Zero F] [One F] [Add F] [Sub F] [Mul F] [Div F] [Neg F] [Flt F]

/-- `1 / reduce` for a Python number (`model.py:287`, `tpsolver.py:160`): raises `ZeroDivisionError` for zero. -/
def pyInv (v : F) : Py F := if Flt.eq v 0 then .error .zeroDivision else .ok (1 / v)

/-- `zerosearch.py:91-110` with line 101-106. -/
def newtonLoopP {S : Type} (verbose : Int) (f : S → List F → Py (S × List F))
    (df : S → List F → Py (S × List (List F))) (spsolve : List (List F) → List F → Py (List F))
    (ftol xtol : F) : Nat → Int → S → List F → Pr F (S × NewtonOut F)
  | 0, _, _, _ => .lift (.error .unboundLocal)
  | k + 1, n, s, x => do
    let (s, J) ← .lift (df s x)
    let (s, fx) ← .lift (f s x)
    let dx ← .lift (spsolve J (fx.map fun v => -v))
    if dx.length ≠ x.length then .lift (.error .valueError) else
    let x := vadd x dx
    let (s, fx) ← .lift (f s x)
    let fnorm := Flt.vnorm fx
    let xnorm := Flt.vnorm dx
    .sayIf (0 < verbose) [.iterRow (n + 1) fnorm]
    if Flt.lt fnorm ftol && Flt.lt xnorm xtol then
      return (s, ⟨x, true, n + 1, fnorm, xnorm⟩)
    else match k with
      | 0 => return (s, ⟨x, false, n + 1, fnorm, xnorm⟩)
      | _ => newtonLoopP verbose f df spsolve ftol xtol k (n + 1) s x

/-- `zerosearch.py:13-112` `newton`. -/
def newtonP {S : Type} (verbose : Int) (f : S → List F → Py (S × List F))
    (df : S → List F → Py (S × List (List F))) (spsolve : List (List F) → List F → Py (List F))
    (s : S) (x : List F) (nfev : Int) (ftol xtol : F) : Pr F (S × NewtonOut F) :=
  newtonLoopP verbose f df spsolve ftol xtol nfev.toNat 0 s x

/-- `tpsolver.py:52-195` `dxmax_control`; `pathfollow` always calls it with `verbose=2` (line 505). -/
def dxmaxControlP (cfg : PFCfg F) (dxmax dxmax0 : List F) (j j0 z : Int) (nrSuccess : Bool)
    (b n nfev : Int) : Pr F (DxOut F) := do
  let d ← .lift (pyGet dxmax 0)
  let d0 ← .lift (pyGet dxmax0 0)
  if !nrSuccess then
    if Flt.lt (d0 * cfg.minfac) d then
      let final := decide (z + 1 = cfg.cycl)
      let z := if final then 0 else z
      .say [if final then .reduceForced else .reduceInactive]
      if decide (j0 = j) || final then
        let v ← .lift (pyInv cfg.reduce)
        .say [.reduceBy v]
        return ⟨dxmax.map fun v => v / cfg.reduce, z, 0, true⟩
      else return ⟨dxmax, z, b, false⟩
    else return ⟨dxmax, z, b, false⟩
  else
    if Flt.lt d (d0 * cfg.maxfac) then
      if j0 = j then
        if 0 < z then return ⟨dxmax, z, b, false⟩
        else if b ≤ 3 then
          .say [.growInactive b]
          return ⟨dxmax, z, b, false⟩
        else
          let fac := 1 + Flt.ofInt (nfev - n) / Flt.ofInt nfev * cfg.increase
          .say [.growBy fac]
          return ⟨dxmax.map fun v => v * fac, z, b, true⟩
      else return ⟨dxmax, z, b, false⟩
    else
      if j = j0 then return ⟨dxmax0.map fun v => v * cfg.maxfac, z, b, true⟩
      else return ⟨dxmax, z, b, false⟩

/-- `Dxi[-k]`, `Dxs[-k]` (`tpsolver.py:389-393`, `445-453`): the `k`-th biggest component of `abs(Dx/dxmax)`,
index counted from one and signed value. -/
def bigComp (env : Env F) (d : List F) (k : Nat) : Py (Int × F) :=
  match (env.argsortF (d.map Flt.abs)).reverse[k - 1]? with
  | none => .error .indexError
  | some i => match d[i]? with
    | none => .error .indexError
    | some v => .ok ((i : Int) + 1, Flt.abs v * npSign v)

/-- What is shown of the third biggest component (`tpsolver.py:450-453`). -/
def thirdComp (env : Env F) (d : List F) : Py (Int × F) :=
  if 2 < d.length then bigComp env d 3 else .ok (0, Flt.nan)

/-- `tpsolver.py:486-506`: step width after a Newton run. -/
def nextWidthP (cfg : PFCfg F) (rc : RCtx F) (st : RState F) (j : Int) (nr : NewtonOut F) : Pr F (DxOut F) :=
  if cfg.stepcontrol then
    dxmaxControlP cfg st.dxmax rc.dxmax0 j st.j st.z nr.success st.b nr.n (cfg.nfev - st.nPre)
  else pure ⟨st.dxmax, st.z, st.b, false⟩

/-- One pass of the recycle loop, `tpsolver.py:413-542`. -/
def attemptP (verbose : Int) (env : Env F) (P : Problem F) (cfg : PFCfg F) (rc : RCtx F) (st : RState F) :
    Pr F (RState F × Option Outcome) := do
  .sayIf (1 < verbose) [.tableHead]
  let j0 := st.j
  let xmax ← .lift (target rc.x0 st.dxmax st.j)
  let start := if st.z = 0 ∧ rc.jPre ≠ 0 ∧ cfg.jFixed = false then
      vadd rc.x0 (rc.DxPre.map fun v => v / Flt.abs rc.vPre)
    else rc.x0
  let (a, nr) ← newtonP verbose (extF P rc.x0 st.j xmax false) (extDf P st.j) env.spsolve st.a start
    (cfg.nfev - st.nPre) cfg.ftol cfg.xtol
  let x := nr.x
  let Dx := vsub x rc.x0
  let d := vdiv Dx st.dxmax
  let (i1, v1) ← .lift (bigComp env d 1)
  let (i2, v2) ← .lift (bigComp env d 2)
  let (i3, v3) ← .lift (thirdComp env d)
  .sayIf (1 < verbose) [.totalRow (st.z + 1) (nr.n + st.nPre) st.j nr.fnorm i1 v1 i2 v2 i3 v3]
  let j ← .lift (nextJ cfg st.j i1 v1)
  let a := { a with dVmax := some st.dxmax }
  let valid ← .lift (solutionValid cfg Dx st.dxmax j)
  let dc ← nextWidthP cfg rc st j nr
  if valid && nr.success then
    let (a, _) ← .lift (extF P rc.x0 j0 xmax true a x)
    return (⟨x, dc.z, st.nPre, dc.dxmax, j, dc.b + 1, a⟩, some .accepted)
  else if dc.z + 1 = cfg.cycl then
    .say [.error1]
    return (⟨x, dc.z, st.nPre, dc.dxmax, j, dc.b, a⟩, some .error1)
  else if j0 = j ∧ nr.success = false ∧ dc.changed = false then
    .say [.error2]
    return (⟨x, dc.z, st.nPre, dc.dxmax, j, dc.b, a⟩, some .error2)
  else
    let j := if nr.success then j else j0
    .say [.recycling]
    return (⟨x, dc.z + 1, 0, dc.dxmax, j, dc.b, a⟩, none)

/-- The recycle loop `tpsolver.py:413-542` with fuel. -/
def recycleP (verbose : Int) (env : Env F) (P : Problem F) (cfg : PFCfg F) (rc : RCtx F) :
    Nat → RState F → Pr F (RState F × Outcome)
  | 0, _ => .lift (.error .outOfFuel)
  | k + 1, st => do
    let (st, o) ← attemptP verbose env P cfg rc st
    match o with
    | some o => return (st, o)
    | none => recycleP verbose env P cfg rc k st

/-- The predictor block `tpsolver.py:359-406`; its Newton call is silent (line 382). -/
def predictorP (verbose : Int) (env : Env F) (P : Problem F) (cfg : PFCfg F) (s : PState F) : Pr F (PreOut F) :=
  if s.jPre ≠ 0 ∧ cfg.jFixed = false then do
    let xmax ← .lift (target s.x s.dxmax s.j)
    let (a, nr) ← newtonP 0 (extF P s.x s.j xmax false) (extDf P s.j) env.spsolve s.a s.x 1 cfg.ftol cfg.xtol
    let Dx := vsub nr.x s.x
    let (i1, v1) ← .lift (bigComp env (vdiv Dx s.dxmax) 1)
    let j ← .lift (signedIdx i1 v1)
    .sayIf (1 < verbose) [.preRow 1 (nr.n - 1) s.j nr.fnorm i1 v1]
    let success := if Flt.lt cfg.dxtol (Flt.abs v1) then false else nr.success
    return ⟨success, nr.n, j, j, Dx, v1, a⟩
  else return ⟨false, 0, s.j, s.jPre, [], 0, s.a⟩

/-- The iteration part of increment number `i` (counted from one), `tpsolver.py:339-542`. -/
def solveIncP (verbose : Int) (env : Env F) (P : Problem F) (cfg : PFCfg F) (dxmax0 : List F) (fuel : Nat)
    (i : Nat) (s : PState F) : Pr F (Int × RState F × Outcome) := do
  .sayIf (0 < verbose) [.incHead i]
  .sayIf (1 < verbose) [.tableHead]
  let pre ← predictorP verbose env P cfg s
  let st0 : RState F := ⟨s.x, 0, pre.nPre, s.dxmax, pre.j, s.b, pre.a⟩
  if pre.success then return (pre.jPre, st0, Outcome.predictor)
  else
    let r ← recycleP verbose env P cfg ⟨s.x, dxmax0, pre.jPre, pre.DxPre, pre.vPre⟩ fuel st0
    return (pre.jPre, r)

/-- One increment, `tpsolver.py:339-555`. -/
def incrementP (verbose : Int) (env : Env F) (P : Problem F) (cfg : PFCfg F) (dxmax0 : List F) (fuel : Nat)
    (i : Nat) (s : PState F) : Pr F (PState F × Outcome) := do
  let (jp, st, o) ← solveIncP verbose env P cfg dxmax0 fuel i s
  match st.x.getLast? with
  | none => .lift (.error .indexError)
  | some lpf =>
    let a : Analysis F := { st.a with Vred := st.x, Ured := st.x.dropLast, lpf := some lpf }
    .sayIf (0 < verbose) [.finalLpf lpf]
    return (⟨st.x, st.dxmax, st.j, jp, st.b, a⟩, o)

/-- The increment loop `tpsolver.py:337-565` with `k` increments left, the next one has number `i`. -/
def incrLoopP (verbose : Int) (env : Env F) (P : Problem F) (cfg : PFCfg F) (dxmax0 : List F) (fuel : Nat) :
    Nat → Nat → PState F → Pr F (PState F × List (Rec F))
  | 0, _, s => pure (s, [])
  | k + 1, i, s => do
    let (s, o) ← incrementP verbose env P cfg dxmax0 fuel i s
    let rec1 : Rec F := ⟨s.x, s.a, o⟩
    if o.isStop then return (s, [rec1]) else
    let lim ← .lift (limitReached s.x cfg.xlimit)
    if lim then
      .say [.exit1]
      return (s, [rec1])
    else
    let (s, rest) ← incrLoopP verbose env P cfg dxmax0 fuel k (i + 1) s
    return (s, rec1 :: rest)

/-- `tpsolver.py:198-567` `pathfollow`. -/
def pathfollowP (verbose : Int) (env : Env F) (P : Problem F) (cfg : PFCfg F) (fuel : Nat) (x : List F)
    (a : Analysis F) : Pr F (PFOut F) := do
  let x := x ++ [0]
  let dxmax := initDxmax x cfg.dxmax
  let j ← .lift (startJ cfg x)
  if dxmax.length ≠ x.length ∧ cfg.incs ≠ 0 then .lift (.error .valueError) else
  let s : PState F := ⟨x, dxmax, j, if cfg.jPre then 1 else 0, 4, a⟩
  let (s, recs) ← incrLoopP verbose env P cfg dxmax fuel cfg.incs 1 s
  return ⟨x, a, recs, s.a⟩

/-- `model.py:386-394` for the records `as` of a step with `n` of them, the next one has number `i`. -/
def writeText (n : Nat) : Nat → List (Analysis F) → List (Line F)
  | _, [] => []
  | i, a :: as => .writeResult i n (a.lpf.getD 0) :: writeText n (i + 1) as

/-- One pass of the step loop `model.py:307-410` (`step` is 0-based). -/
def runStepP (env : Env F) (fuel : Nat) (c : Ctx F) (s : Settings F) (rows : List (List F))
    (st : Analysis F × Results F) (step : Nat) : Pr F (Analysis F × Results F) := do
  let (a, res) := st
  let incs ← .lift (stepIncs s step)
  let xl ← .lift (stepXlimit s step)
  .sayIf (0 < s.log) [.stepHead (step + 1)]
  .sayIf (1 < s.log) [.stepNotes]
  let fc ← .lift (constLoad rows res.stepLpfEnd step)
  .sayIf (step ≠ 0) [.constLoad fc, .initial a.Vred]
  let a ← .lift (setStep rows res.stepLpfEnd step a)
  let o ← pathfollowP s.log env (modelProblem c) (stepCfg s incs xl) fuel a.Ured a
  .sayIf (1 < s.log) (.resultHead (step + 1) :: writeText o.recs.length 1 (o.recs.map (·.a)))
  let R := (o.recs.map (·.a)).foldl recordOne res.R
  let R ← .lift (syncU0 R)
  let l ← .lift (lastLpf R)
  let lpfEnd := res.stepLpfEnd ++ [l]
  .sayIf (0 < s.log) [.stepEnd (step + 1)]
  if step + 1 < s.nsteps then return (resetLpf o.final, ⟨R, lpfEnd⟩)
  else return (o.final, ⟨R.dropLast, lpfEnd⟩)

/-- Elapsed times of `build` and `run`, measured by `time.perf_counter` and `time.process_time` (`model.py:132-133`,
`198-199`, `300-301`, `412-415`). -/
structure Times (F : Type) where
  perfBuild : F
  processBuild : F
  perfRun : F
  processRun : F

/-- `model.py:239-242`: a number plus a string raises `TypeError`. -/
def j0P : Option Int → Pr F Unit
  | none => .say [.param "j0" .lpf]
  | some _ => .lift (.error .typeError)

/-- `model.py:204-298`: head of `run` and summary of the parameters. -/
def paramsP (s : Settings F) : Pr F Unit :=
  if 1 < s.log then do
    .say [.runHead, .paramHead, .param "incs" (.incs s.incs), .param "cycl" (.int s.cycl),
      .param "nfev" (.int s.nfev), .param "du" (.flt s.du), .param "dlpf" (.flt s.dlpf)]
    j0P s.j0
    .say [.param "j_fixed" (.bool s.jFixed), .param "dxtol" (.flt s.dxtol), .param "xtol" (.int s.xtol),
      .param "ftol" (.int s.ftol)]
    if s.stepcontrol then
      .say [.widthHead, .param "stepcontrol" (.bool s.stepcontrol), .param "minfac" (.flt s.minfac),
        .param "maxfac" (.flt s.maxfac)]
      let v ← .lift (pyInv s.reduce)
      .say [.param "reduce" (.flt v), .param "increase" (.flt s.increase)]
    else return ()
  else return ()

/-- The loop over the steps, `model.py:307-410`. -/
def stepsP (env : Env F) (fuel : Nat) (c : Ctx F) (s : Settings F) (rows : List (List F)) :
    List Nat → Analysis F × Results F → Pr F (Analysis F × Results F)
  | [], st => pure st
  | k :: ks, st => do
    let st ← runStepP env fuel c s rows st k
    stepsP env fuel c s rows ks st

/-- `model.py:201-441` `Model.run`.  The lines `cpu` show differences of `time.perf_counter`, the lines `wall`
differences of `time.process_time` (`model.py:422-438`). -/
def Model.runP (env : Env F) (fuel : Nat) (t : Times F) (m : Model F) : Pr F (Model F) := do
  paramsP m.settings
  match m.ctx, m.analysis, m.results, m.forces with
  | some c, some a, some res, some ft => do
    let a := { a with Vred := a.Ured ++ [0], lpf := some 0 }
    let R ← .lift (dupFirst res.R)
    let (a, res) ← stepsP env fuel c m.settings ft.forces.rows (List.range m.settings.nsteps) (a, ⟨R, res.stepLpfEnd⟩)
    .sayIf (1 < m.settings.log) [.durationHead, .duration true false t.perfBuild, .duration false false t.processBuild,
      .duration true true t.perfRun, .duration false true t.processRun]
    return { m with analysis := some a, results := some res }
  | _, _, _, _ => .lift (.error .attributeError)

/-- `model.py:126-199` `Model.build` with the summary of lines 168-180, which is printed before the analysis object is
built and cannot raise. -/
def Model.buildP (argsort : List Int → List Nat) (m : Model F) : Pr F (Model F) := do
  let m' ← .lift (m.build argsort)
  match m'.dims with
  | none => return m'
  | some d =>
    .sayIf (1 < m'.settings.log) [.summary m'.settings.ndim d.nnodes d.nelems d.ndof d.dof1 d.dof0]
    return m'

/-- `model.py:92-117`: text of `Model.__init__`. -/
def initText (log : Int) (logfile : Bool) : List (Line F) :=
  (if 1 < log then (if logfile then [.fence] else []) ++ [.banner] else []) ++ (if logfile then [.fence] else [])

end TrussPy
