import Verif.Run
import Verif.Spec.Structure
import Verif.Spec.Commit
/-!
# Specification: the path-following calls of a run
-/

namespace TrussPy

variable {F : Type} [Zero F] [One F] [Add F] [Sub F] [Mul F] [Div F] [Neg F] [Flt F]

/-- Number of increments set for step number `k` (0-based): one number for all steps or one for each. -/
def Incs.ofStep (i : Incs) (k : Nat) : Option Nat :=
  match i with
  | .const n => some n
  | .tuple l => l[k]?

/-- Limit set for step number `k` (0-based): one for all steps or one for each. -/
def XLimit.ofStep (x : XLimit F) (k : Nat) : Option (Int × F) :=
  match x with
  | .const j v => some (j, v)
  | .tuple l => l[k]?

/-- What the settings `s` hand over to a path-following call with `incs` increments and limit `xl`: every argument is the
setting of that name, the tolerances are powers of ten, the two step widths those for displacements and load factor. -/
structure Handed (s : Settings F) (incs : Nat) (xl : Int × F) (cfg : PFCfg F) : Prop where
  widths : cfg.dxmax = .vec [s.du, s.dlpf]
  control : cfg.j = s.j0
  fixed : cfg.jFixed = s.jFixed
  predicted : cfg.jPre = s.jPre
  limit : cfg.xlimit = some xl
  increments : cfg.incs = incs
  iterations : cfg.nfev = s.nfev
  cycles : cfg.cycl = s.cycl
  tolF : cfg.ftol = Flt.pow10neg s.ftol
  tolX : cfg.xtol = Flt.pow10neg s.xtol
  stepcontrol : cfg.stepcontrol = s.stepcontrol
  maxfac : cfg.maxfac = s.maxfac
  minfac : cfg.minfac = s.minfac
  reduce : cfg.reduce = s.reduce
  increase : cfg.increase = s.increase
  overshoot : cfg.dxtol = s.dxtol

/-- `cfg` are the arguments of the path-following call of step number `k` (0-based). -/
def StepArgs (s : Settings F) (k : Nat) (cfg : PFCfg F) : Prop :=
  ∃ incs xl, s.incs.ofStep k = some incs ∧ s.xlimit.ofStep k = some xl ∧ Handed s incs xl cfg

/-- `o` is the result of the call of `pathfollow` for step number `k` (0-based): the model's own residual and
stiffness, the settings of the step, started at the displacements of the analysis object `o.startA`. -/
def StepCall (env : Env F) (fuel : Nat) (c : Ctx F) (s : Settings F) (k : Nat) (o : PFOut F) : Prop :=
  ∃ cfg, StepArgs s k cfg ∧ o.startA.step = k + 1 ∧
    pathfollow env (modelProblem c) cfg fuel o.startA.Ured o.startA = .ok o

/-- Loads of step number `s` (0-based) of all nodes, one after the other: columns `3 s`, `3 s + 1`, `3 s + 2` of the table of
the loads. -/
def columnsOf (rows : List (List F)) (s : Nat) : List F := rows.flatMap fun r => (r.drop (3 * s)).take 3

/-- Sum of the loads of the first `k` steps, each one times the load factor at the end of its step (`n` entries). -/
def loadsHeld (rows : List (List F)) (ends : List F) (n : Nat) : Nat → List F
  | 0 => List.replicate n 0
  | s + 1 => List.zipWith (fun c f => c + ends.getD s 0 * f) (loadsHeld rows ends n s) (columnsOf rows s)

/-- `a` is the analysis object `p` prepared for step number `k` (0-based): the loads of the step are those which the load
factor multiplies, the loads of the steps before are held at the load factors `ends` reached at their ends. -/
structure BeginsStep (rows : List (List F)) (ends : List F) (k : Nat) (p a : Analysis F) : Prop where
  known : k ≤ ends.length
  sizes : ∀ s, s < k → (columnsOf rows s).length = (columnsOf rows k).length
  free : a.f0red.map some = p.DOF1.map fun i => (columnsOf rows k)[i]?
  rest : a = { p with
    step := k + 1
    f0red := a.f0red
    extForces := some ⟨columnsOf rows k, loadsHeld rows ends (columnsOf rows k).length k⟩ }

/-- The analysis object between two steps: that of the model with load factor 0 before the first step, the one left by
the step before with load factor 0 otherwise. -/
def beforeStep (a : Analysis F) (outs : List (PFOut F)) : Nat → Option (Analysis F)
  | 0 => some { a with Vred := a.Ured ++ [0], lpf := some 0 }
  | k + 1 => outs[k]?.map fun o => { o.final with Vred := o.final.Vred.dropLast ++ [0], lpf := some 0 }

/-- Load factor noted before step number `k`: that of the last result before the run (zero after `build`) or of the end of
the step before. -/
def factorBefore (R : List (Analysis F)) (ends : List F) : Nat → Option F
  | 0 => R.getLast?.bind (·.lpf)
  | k + 1 => ends[k]?

/-- `outs` are the results of the path-following calls of a run of the model `m`: one call per step, in order of the
steps, each one started from the analysis object left by the one before, with the loads of its step.  `ends` are the
load factors at the end of the steps (of their last increments; a step without increments repeats the one before). -/
structure RunCalls (env : Env F) (fuel : Nat) (m : Model F) (c : Ctx F) (outs : List (PFOut F)) : Prop where
  count : outs.length = m.settings.nsteps
  call : ∀ k o, outs[k]? = some o → StepCall env fuel c m.settings k o
  chain : ∃ a res ft, ∃ ends : List F, m.analysis = some a ∧ m.results = some res ∧ m.forces = some ft ∧
    ∀ k o, outs[k]? = some o →
      (∃ p, beforeStep a outs k = some p ∧
        BeginsStep ft.forces.rows (res.stepLpfEnd ++ ends.take k) k p o.startA) ∧
      ends[k]? = match o.recs.getLast? with
        | some r => r.a.lpf
        | none => factorBefore res.R ends k

/-- All increments in order. -/
def recorded (outs : List (PFOut F)) : List (Rec F) := outs.flatMap (·.recs)

/-- The state before any load: no displacement, no force, no stress, load factor zero. -/
structure Undeformed (d : Dims) (a : Analysis F) : Prop where
  U : a.U = List.replicate (3 * d.nnodes) 0
  U0 : a.U0 = List.replicate (3 * d.nnodes) 0
  r : a.r = List.replicate d.nnodes (fun _ => 0)
  force : a.elementForce = List.replicate d.nelems 0
  stress : a.elementStress = List.replicate d.nelems 0
  lpf : a.lpf = some 0
  Ured : a.Ured = List.replicate d.dof1.length 0

/-- From the result `p` to the next result `q` either the step and its loads stay the same, or the next step
begins: its constant load is the constant load of `p` plus load factor of `p` times step load of `p`. -/
def LoadsContinue (p q : Analysis F) : Prop :=
  (q.step = p.step ∧ q.extForces = p.extForces) ∨
  (q.step = p.step + 1 ∧ ∃ ef ef' l, p.extForces = some ef ∧ q.extForces = some ef' ∧ p.lpf = some l ∧
    ef.forces.length = ef.forcesConst.length ∧
    ef'.forcesConst = List.zipWith (fun k f => k + l * f) ef.forcesConst ef.forces)

/-- Deformed over undeformed length at displacements `U`. -/
def Bar.stretchAt (b : Bar F) (U : List F) : F :=
  let X : V3 F := fun i => b.XE i - b.XA i
  let x : V3 F := fun i => X i + (row3 U b.iE i - row3 U b.iA i)
  Flt.sqrt (dot3 x x) / Flt.sqrt (dot3 X X)

/-- Stretch minus one. -/
def Bar.strainAt (b : Bar F) (U : List F) : F := b.stretchAt U - 1

/-- The state variables `new` of bar `b` are the material update of `old` at displacements `U`, reached from
displacements `U0`. -/
def StateUpdate (b : Bar F) (U U0 : List F) (old new : List F) : Prop :=
  ∃ out, b.law.call (b.strainAt U) (b.stretchAt U - b.stretchAt U0) b.mat (some old) = .ok out ∧ out.statev = some new

/-- Strains (with strain increments) of a bar at the accepted increments of `recs`. -/
def acceptedStrains (b : Bar F) (recs : List (Rec F)) : List (F × F) :=
  (recs.filter fun r => r.out == .accepted).map fun r =>
    (b.strainAt r.a.U, b.stretchAt r.a.U - b.stretchAt r.a.U0)

/-- Displacement table, reduced vectors, load factor, internal forces, loads and residual of a result fit
together. -/
structure SelfConsistent (a : Analysis F) : Prop where
  reduced : npTake a.U a.DOF1 = .ok a.Ured
  vector : ∃ l, a.lpf = some l ∧ a.Vred = a.Ured ++ [l]
  residual : ∃ ef l, a.extForces = some ef ∧ a.lpf = some l ∧ a.g.length = 3 * a.r.length ∧
    ∀ (i : Nat) (v : V3 F), a.r[i]? = some v → ∀ d : Fin 3, ∃ k f, ef.forcesConst[3 * i + d.val]? = some k ∧
      ef.forces[3 * i + d.val]? = some f ∧ a.g[3 * i + d.val]? = some (-(v d) + k + l * f)

end TrussPy
