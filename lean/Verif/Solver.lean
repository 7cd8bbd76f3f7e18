import Verif.Equil
/-!
# Newton solver and path following

Models `solvers/zerosearch.py` and `solvers/tpsolver.py`.  Printing is modelled in
`Verif/Report.lean`; here the reason why an increment ended (the `ERROR 1`/`ERROR 2` messages) is returned.
-/

namespace TrussPy

variable {F : Type} [Zero F] [One F] [Add F] [Sub F] [Mul F] [Div F] [Neg F] [Flt F]

/-- `x + dx` (`zerosearch.py:96`, `tpsolver.py:428`): element-wise sum of two vectors of equal length (callers check the lengths). -/
def vadd (a b : List F) : List F := List.zipWith (· + ·) a b

/-- Element-wise difference `x - x0` (`tpsolver.py:386`, `442`). -/
def vsub (a b : List F) : List F := List.zipWith (· - ·) a b

/-- Element-wise quotient `Dx / dxmax` (`tpsolver.py:389`, `445`). -/
def vdiv (a b : List F) : List F := List.zipWith (· / ·) a b

/-! ## `zerosearch.py` -/

/-- Return value of `newton` (`zerosearch.py:112`). -/
structure NewtonOut (F : Type) where
  x : List F
  success : Bool
  n : Int
  fnorm : F
  xnorm : F

/-- The loop `zerosearch.py:91-110` with `k` passes left, `n` passes done.  `s` is whatever state the
functions mutate (the analysis object).  Order of evaluation: `dfdx`, `f`, solve, `f`.  `x + dx`
raises `ValueError` for vectors of different lengths.  (NumPy would broadcast a vector of length one;
`spsolve` returns as many entries as the matrix has columns, i.e. as `x` has.) -/
def newtonLoop {S : Type} (f : S → List F → Py (S × List F))
    (df : S → List F → Py (S × List (List F))) (spsolve : List (List F) → List F → Py (List F))
    (ftol xtol : F) : Nat → Int → S → List F → Py (S × NewtonOut F)
  | 0, _, _, _ => .error .unboundLocal
  | k + 1, n, s, x => do
    let (s, J) ← df s x
    let (s, fx) ← f s x
    let dx ← spsolve J (fx.map fun v => -v)
    if dx.length ≠ x.length then .error .valueError else
    let x := vadd x dx
    let (s, fx) ← f s x
    let fnorm := Flt.vnorm fx
    let xnorm := Flt.vnorm dx
    if Flt.lt fnorm ftol && Flt.lt xnorm xtol then
      return (s, ⟨x, true, n + 1, fnorm, xnorm⟩)
    else match k with
      | 0 => return (s, ⟨x, false, n + 1, fnorm, xnorm⟩)
      | _ => newtonLoop f df spsolve ftol xtol k (n + 1) s x

/-- `zerosearch.py:13-112` `newton`.  With `nfev <= 0` the loop body never runs and `return` reads
unbound names. -/
def newton {S : Type} (f : S → List F → Py (S × List F))
    (df : S → List F → Py (S × List (List F))) (spsolve : List (List F) → List F → Py (List F))
    (s : S) (x : List F) (nfev : Int) (ftol xtol : F) : Py (S × NewtonOut F) :=
  newtonLoop f df spsolve ftol xtol nfev.toNat 0 s x

/-! ## `tpsolver.py` -/

/-- The two callables `g`, `dgdx` of `pathfollow` (`tpsolver.py:198-202`); both mutate the analysis object.
`g a V V0 write` is `equilibrium(Vred, V0red, analysis=a, statev_write=write)`,
`dgdx a U` is `stiffness(Vred[:-1], analysis=a)`. -/
structure Problem (F : Type) where
  g : Analysis F → List F → List F → Bool → Py (Analysis F × List F)
  dgdx : Analysis F → List F → Py (Analysis F × List (List F))

/-- External numerical routines called in `zerosearch.py:95` and `tpsolver.py:389`, `445`. -/
structure Env (F : Type) where
  /-- `scipy.sparse.linalg.spsolve(csr_matrix(A), b)` -/
  spsolve : List (List F) → List F → Py (List F)
  /-- `np.argsort` on floats -/
  argsortF : List F → List Nat

/-- `tpsolver.py:15-23` `f`: residual extended by the control equation. -/
def extF (P : Problem F) (V0 : List F) (j : Int) (Vmax : F) (write : Bool) (a : Analysis F)
    (V : List F) : Py (Analysis F × List F) := do
  let a := { a with j := j }
  let (a, gv) ← P.g a V V0 write
  let vj ← pyGet V (j.natAbs - 1)
  return (a, (gv.map fun v => -v) ++ [vj - Vmax])

/-- `tpsolver.py:26-49` `dfdx`: `[[K, -f0red], [qc]]`. -/
def extDf (P : Problem F) (j : Int) (a : Analysis F) (V : List F) :
    Py (Analysis F × List (List F)) := do
  let a := { a with j := j }
  let qc ← pySet (List.replicate V.length (0 : F)) (j.natAbs - 1) 1
  let (a, K) ← P.dgdx a V.dropLast
  let Kmod := (List.zipWith (fun row f0 => row ++ [-f0]) K a.f0red) ++ [qc]
  return ({ a with Kmod := Kmod }, Kmod)

/-- Parameters of `dxmax_control` and `pathfollow` (`tpsolver.py:198-220`). -/
inductive DxMax (F : Type) where
  | scalar (v : F)
  | vec (l : List F)

structure PFCfg (F : Type) where
  dxmax : DxMax F
  j : Option Int
  jFixed : Bool
  jPre : Bool
  xlimit : Option (Int × F)
  incs : Nat
  nfev : Int
  cycl : Int
  ftol : F
  xtol : F
  stepcontrol : Bool
  maxfac : F
  minfac : F
  reduce : F
  increase : F
  dxtol : F

/-- Return value of `dxmax_control` (`tpsolver.py:195`). -/
structure DxOut (F : Type) where
  dxmax : List F
  z : Int
  b : Int
  changed : Bool

/-- `tpsolver.py:52-195` `dxmax_control`. -/
def dxmaxControl (cfg : PFCfg F) (dxmax dxmax0 : List F) (j j0 z : Int) (nrSuccess : Bool)
    (b n nfev : Int) : Py (DxOut F) := do
  let d ← pyGet dxmax 0
  let d0 ← pyGet dxmax0 0
  if !nrSuccess then
    if Flt.lt (d0 * cfg.minfac) d then
      let final := decide (z + 1 = cfg.cycl)
      let z := if final then 0 else z
      if decide (j0 = j) || final then
        return ⟨dxmax.map fun v => v / cfg.reduce, z, 0, true⟩
      else return ⟨dxmax, z, b, false⟩
    else return ⟨dxmax, z, b, false⟩
  else
    if Flt.lt d (d0 * cfg.maxfac) then
      if j0 = j then
        if 0 < z then return ⟨dxmax, z, b, false⟩
        else if b ≤ 3 then return ⟨dxmax, z, b, false⟩
        else
          let fac := 1 + Flt.ofInt (nfev - n) / Flt.ofInt nfev * cfg.increase
          return ⟨dxmax.map fun v => v * fac, z, b, true⟩
      else return ⟨dxmax, z, b, false⟩
    else
      if j = j0 then return ⟨dxmax0.map fun v => v * cfg.maxfac, z, b, true⟩
      else return ⟨dxmax, z, b, false⟩

/-- `tpsolver.py:310-323`: expansion of the `dxmax` argument to a vector (`np.ones*v` is `v`). -/
def initDxmax (x : List F) : DxMax F → List F
  | .scalar v => x.map fun _ => v
  | .vec [du, dlpf] => List.replicate (x.length - 1) du ++ [dlpf]
  | .vec l => l

/-- `tpsolver.py:389-393` and `445-448`: 1-based index `i1` of the biggest component of
`abs(Dx/dxmax)` (last entry of `argsort`) and its signed value `v1`. -/
def maxComp (env : Env F) (d : List F) : Py (Int × F) :=
  match (env.argsortF (d.map Flt.abs)).getLast? with
  | none => .error .indexError
  | some i => match d[i]? with
    | none => .error .indexError
    | some v => .ok ((i : Int) + 1, Flt.abs v * npSign v)

/-- `int(i1*np.sign(v1))` (`tpsolver.py:394`, `470`): `ValueError` for NaN. -/
def signedIdx (i1 : Int) (v1 : F) : Py Int :=
  match Flt.sgn v1 with
  | none => .error .valueError
  | some s => .ok (i1 * s)

/-- `x[abs(j)-1] + dxmax[abs(j)-1]*np.sign(j)`, `tpsolver.py:378,430`. -/
def target (x dxmax : List F) (j : Int) : Py F := do
  let xj ← pyGet x (j.natAbs - 1)
  let dj ← pyGet dxmax (j.natAbs - 1)
  return xj + dj * Flt.ofInt j.sign

/-- Why an increment ended (`tpsolver.py:413`, `508-527`). -/
inductive Outcome where
  /-- converged and valid solution found (line 508) -/
  | accepted
  /-- `ERROR 1`: maximum number of recycles (line 516) -/
  | error1
  /-- `ERROR 2`: not converged, control component unchanged (line 525) -/
  | error2
  /-- the predictor met the tolerances, recycle loop skipped (line 413) -/
  | predictor
  deriving DecidableEq, Repr

/-- Local variables of the recycle loop (`tpsolver.py:413-542`). -/
structure RState (F : Type) where
  x : List F
  z : Int
  nPre : Int
  dxmax : List F
  j : Int
  b : Int
  a : Analysis F

/-- What the recycle loop (`tpsolver.py:413-542`) reads: start vector of the increment, initial step width, value of the
variable `j_pre` (as an integer, `True` is 1), predictor increment `Dx_pre` and `Dxs_pre[-1]`. -/
structure RCtx (F : Type) where
  x0 : List F
  dxmax0 : List F
  jPre : Int
  DxPre : List F
  vPre : F

/-- Validity check `tpsolver.py:478-484`. -/
def solutionValid (cfg : PFCfg F) (Dx dxmax : List F) (j : Int) : Py Bool :=
  if cfg.jFixed then do
    let a ← pyGet Dx (j.natAbs - 1)
    let b ← pyGet dxmax (j.natAbs - 1)
    return Flt.le (Flt.abs (a / b)) cfg.dxtol
  else return (vdiv Dx dxmax).all fun v => Flt.le (Flt.abs v) cfg.dxtol

/-- `tpsolver.py:468-470`: control component after a Newton run. -/
def nextJ (cfg : PFCfg F) (j i1 : Int) (v1 : F) : Py Int :=
  if cfg.jFixed then .ok j else signedIdx i1 v1

/-- `tpsolver.py:486-506`: step width after a Newton run. -/
def nextWidth (cfg : PFCfg F) (rc : RCtx F) (st : RState F) (j : Int) (nr : NewtonOut F) : Py (DxOut F) :=
  if cfg.stepcontrol then
    dxmaxControl cfg st.dxmax rc.dxmax0 j st.j st.z nr.success st.b nr.n (cfg.nfev - st.nPre)
  else .ok ⟨st.dxmax, st.z, st.b, false⟩

/-- One pass of the recycle loop, `tpsolver.py:425-542`.  `some o`: the loop ends by `break`. -/
def attempt (env : Env F) (P : Problem F) (cfg : PFCfg F) (rc : RCtx F) (st : RState F) :
    Py (RState F × Option Outcome) := do
  let j0 := st.j
  let xmax ← target rc.x0 st.dxmax st.j
  let start := if st.z = 0 ∧ rc.jPre ≠ 0 ∧ cfg.jFixed = false then
      vadd rc.x0 (rc.DxPre.map fun v => v / Flt.abs rc.vPre)
    else rc.x0
  let (a, nr) ← newton (extF P rc.x0 st.j xmax false) (extDf P st.j) env.spsolve st.a start
    (cfg.nfev - st.nPre) cfg.ftol cfg.xtol
  let x := nr.x
  let Dx := vsub x rc.x0
  let d := vdiv Dx st.dxmax
  let (i1, v1) ← maxComp env d
  -- `Dxi[-2]` (line 449)
  if d.length < 2 then .error .indexError else
  let j ← nextJ cfg st.j i1 v1
  let a := { a with dVmax := some st.dxmax }
  let valid ← solutionValid cfg Dx st.dxmax j
  let dc ← nextWidth cfg rc st j nr
  if valid && nr.success then
    -- UPDATE STATE VARIABLES
    let (a, _) ← extF P rc.x0 j0 xmax true a x
    return (⟨x, dc.z, st.nPre, dc.dxmax, j, dc.b + 1, a⟩, some .accepted)
  else if dc.z + 1 = cfg.cycl then
    return (⟨x, dc.z, st.nPre, dc.dxmax, j, dc.b, a⟩, some .error1)
  else if j0 = j ∧ nr.success = false ∧ dc.changed = false then
    return (⟨x, dc.z, st.nPre, dc.dxmax, j, dc.b, a⟩, some .error2)
  else
    let j := if nr.success then j else j0
    return (⟨x, dc.z + 1, 0, dc.dxmax, j, dc.b, a⟩, none)

/-- The recycle loop `tpsolver.py:413-542` with fuel. -/
def recycle (env : Env F) (P : Problem F) (cfg : PFCfg F) (rc : RCtx F) :
    Nat → RState F → Py (RState F × Outcome)
  | 0, _ => .error .outOfFuel
  | k + 1, st => do
    let (st, o) ← attempt env P cfg rc st
    match o with
    | some o => return (st, o)
    | none => recycle env P cfg rc k st

/-- Variables of `pathfollow` that live across increments (`tpsolver.py:304-334`; `jPre`: the Python variable `j_pre`, which
line 394 overwrites by an integer). -/
structure PState (F : Type) where
  x : List F
  dxmax : List F
  j : Int
  jPre : Int
  b : Int
  a : Analysis F

/-- Result of the predictor block `tpsolver.py:359-406`. -/
structure PreOut (F : Type) where
  success : Bool
  nPre : Int
  j : Int
  jPre : Int
  DxPre : List F
  vPre : F
  a : Analysis F

/-- The predictor block `tpsolver.py:359-406`. -/
def predictor (env : Env F) (P : Problem F) (cfg : PFCfg F) (s : PState F) : Py (PreOut F) :=
  if s.jPre ≠ 0 ∧ cfg.jFixed = false then do
    let xmax ← target s.x s.dxmax s.j
    let (a, nr) ← newton (extF P s.x s.j xmax false) (extDf P s.j) env.spsolve s.a s.x 1 cfg.ftol cfg.xtol
    let Dx := vsub nr.x s.x
    let (i1, v1) ← maxComp env (vdiv Dx s.dxmax)
    let j ← signedIdx i1 v1
    let success := if Flt.lt cfg.dxtol (Flt.abs v1) then false else nr.success
    return ⟨success, nr.n, j, j, Dx, v1, a⟩
  else return ⟨false, 0, s.j, s.jPre, [], 0, s.a⟩

/-- The iteration part of one increment, `tpsolver.py:353-542`; first component: `j_pre`. -/
def solveInc (env : Env F) (P : Problem F) (cfg : PFCfg F) (dxmax0 : List F) (fuel : Nat)
    (s : PState F) : Py (Int × RState F × Outcome) := do
  let pre ← predictor env P cfg s
  let st0 : RState F := ⟨s.x, 0, pre.nPre, s.dxmax, pre.j, s.b, pre.a⟩
  if pre.success then return (pre.jPre, st0, Outcome.predictor)
  else
    let r ← recycle env P cfg ⟨s.x, dxmax0, pre.jPre, pre.DxPre, pre.vPre⟩ fuel st0
    return (pre.jPre, r)

/-- One increment, `tpsolver.py:353-548`: iterate, then save the result to the analysis object
(546-548). -/
def increment (env : Env F) (P : Problem F) (cfg : PFCfg F) (dxmax0 : List F) (fuel : Nat)
    (s : PState F) : Py (PState F × Outcome) := do
  let (jp, st, o) ← solveInc env P cfg dxmax0 fuel s
  match st.x.getLast? with
  | none => .error .indexError
  | some lpf =>
    let a : Analysis F := { st.a with Vred := st.x, Ured := st.x.dropLast, lpf := some lpf }
    return (⟨st.x, st.dxmax, st.j, jp, st.b, a⟩, o)

/-- A recorded increment (`tpsolver.py:550-551`): vector, analysis snapshot (deep copy) and why the increment ended. -/
structure Rec (F : Type) where
  x : List F
  a : Analysis F
  out : Outcome

/-- `stop` flag of `tpsolver.py:517,526`. -/
def Outcome.isStop : Outcome → Bool
  | .error1 => true
  | .error2 => true
  | _ => false

/-- `tpsolver.py:562-565`: limit of one component. -/
def limitReached (x : List F) : Option (Int × F) → Py Bool
  | none => .ok false
  | some (i, lim) => do
    let v ← pyGet x (i - 1)
    return Flt.lt lim (Flt.abs v)

/-- The increment loop `tpsolver.py:337-565` with `k` increments left. -/
def incrLoop (env : Env F) (P : Problem F) (cfg : PFCfg F) (dxmax0 : List F) (fuel : Nat) :
    Nat → PState F → Py (PState F × List (Rec F))
  | 0, s => .ok (s, [])
  | k + 1, s => do
    let (s, o) ← increment env P cfg dxmax0 fuel s
    let rec1 : Rec F := ⟨s.x, s.a, o⟩
    if o.isStop then return (s, [rec1]) else
    let lim ← limitReached s.x cfg.xlimit
    if lim then return (s, [rec1]) else
    let (s, rest) ← incrLoop env P cfg dxmax0 fuel k s
    return (s, rec1 :: rest)

/-- Return value of `pathfollow` (`tpsolver.py:567`): `start`, `start :: recs` are `res_x[0]`/`res_a[0]`; `final` is the
state of the (shared, mutated) analysis object at return. -/
structure PFOut (F : Type) where
  startX : List F
  startA : Analysis F
  recs : List (Rec F)
  final : Analysis F

/-- `tpsolver.py:326-328`: initial control component (`x` already extended).  Without increments it is
never used. -/
def startJ (cfg : PFCfg F) (x : List F) : Py Int :=
  if cfg.jFixed then
    match cfg.j with
    | some j => .ok j
    | none => if cfg.incs = 0 then .ok 0 else .error .typeError
  else .ok x.length

/-- `tpsolver.py:198-567` `pathfollow`.  Simplification: a `dxmax` array whose length is not that of the
extended vector raises `ValueError` or `IndexError` in the first increment; here `ValueError` before
it. -/
def pathfollow (env : Env F) (P : Problem F) (cfg : PFCfg F) (fuel : Nat) (x : List F)
    (a : Analysis F) : Py (PFOut F) := do
  let x := x ++ [0]
  let dxmax := initDxmax x cfg.dxmax
  let j ← startJ cfg x
  if dxmax.length ≠ x.length ∧ cfg.incs ≠ 0 then .error .valueError else
  let s : PState F := ⟨x, dxmax, j, if cfg.jPre then 1 else 0, 4, a⟩
  let (s, recs) ← incrLoop env P cfg dxmax fuel cfg.incs s
  return ⟨x, a, recs, s.a⟩

/-- `res_x` (2D array as list of rows), `tpsolver.py:307`, `550`. -/
def PFOut.resX (o : PFOut F) : List (List F) := o.startX :: o.recs.map (·.x)

/-- `res_a`, `tpsolver.py:308`, `551`. -/
def PFOut.resA (o : PFOut F) : List (Analysis F) := o.startA :: o.recs.map (·.a)

end TrussPy
