import Verif.Spec.Report
import Mathlib.Data.List.Chain
/-!
# Specification: the iteration tables of the protocol

What the rows printed for one increment say about the iterations it needed.
-/

namespace TrussPy

variable {F : Type} [Zero F] [One F] [Add F] [Sub F] [Mul F] [Div F] [Neg F] [Flt F]

/-- One Newton iteration: new vector, residual there, and the step that led to it. -/
structure Iter (F : Type) where
  x : List F
  fx : List F
  dx : List F

/-- Consecutive Newton iterations from the state `s` and the vector `x`: the step solves the linear system with the
Jacobian and the negative residual, and the residual is evaluated again after it. -/
inductive Iterates {S : Type} (f : S → List F → Py (S × List F)) (df : S → List F → Py (S × List (List F)))
    (sp : List (List F) → List F → Py (List F)) : S → List F → List (Iter F) → S → Prop
  | nil (s : S) (x : List F) : Iterates f df sp s x [] s
  | cons {s s1 s2 s3 s4 : S} {x b dx fx : List F} {J : List (List F)} {its : List (Iter F)}
      (h1 : df s x = .ok (s1, J)) (h2 : f s1 x = .ok (s2, b)) (h3 : sp J (b.map fun v => -v) = .ok dx)
      (h4 : dx.length = x.length) (h5 : f s2 (vadd x dx) = .ok (s3, fx))
      (rest : Iterates f df sp s3 (vadd x dx) its s4) :
      Iterates f df sp s x (⟨vadd x dx, fx, dx⟩ :: its) s4

/-- Both tolerances are met. -/
def Iter.converged (ftol xtol : F) (i : Iter F) : Bool := Flt.lt (Flt.vnorm i.fx) ftol && Flt.lt (Flt.vnorm i.dx) xtol

/-- Rows of a table of iterations, numbered from one. -/
def iterRows (norms : List F) : List (Line F) := norms.mapIdx fun k f => .iterRow ((k : Int) + 1) f

/-- `argsort` lists every position once, and never a bigger value before a smaller one. -/
structure Env.Sorts (env : Env F) : Prop where
  ranks : env.Ranks
  sorted : ∀ l : List F, (env.argsortF l).Pairwise fun i j => ∀ u v, l[i]? = some u → l[j]? = some v → Flt.lt v u = false

/-- `i` (counted from one) and `v` are number and signed value of a component of `d`. -/
def ShowsComp (d : List F) (i : Int) (v : F) : Prop :=
  ∃ (k : Nat) (w : F), d[k]? = some w ∧ i = (k : Int) + 1 ∧ v = Flt.abs w * npSign w

/-- No component of `d` other than those with the numbers `top` is bigger than component number `i`. -/
def NoBigger (d : List F) (top : List Int) (i : Int) : Prop :=
  ∀ (k k' : Nat) (w w' : F), d[k]? = some w → ((k : Int) + 1) ∉ top → d[k']? = some w' → i = (k' : Int) + 1 →
    Flt.lt (Flt.abs w') (Flt.abs w) = false

/-- The three columns show the three biggest components of `d` (only two, if there are no more). -/
structure Biggest (d : List F) (i1 : Int) (v1 : F) (i2 : Int) (v2 : F) (i3 : Int) (v3 : F) : Prop where
  first : ShowsComp d i1 v1 ∧ NoBigger d [i1] i1
  second : ShowsComp d i2 v2 ∧ i2 ≠ i1 ∧ NoBigger d [i1, i2] i2
  third : if 2 < d.length then ShowsComp d i3 v3 ∧ i3 ≠ i1 ∧ i3 ≠ i2 ∧ NoBigger d [i1, i2, i3] i3
    else i3 = 0 ∧ v3 = Flt.nan

/-- `f` is the norm of the residual at `x`, extended by the control equation `x[|j|-1] = xmax`; `prev` is the end of the
increment before. -/
def ResidualNorm (P : Problem F) (prev : List F) (j : Int) (xmax : F) (x : List F) (f : F) : Prop :=
  ∃ (a a' : Analysis F) (gv : List F) (vj : F), P.g a x prev false = .ok (a', gv) ∧ pyGet x (j.natAbs - 1) = .ok vj ∧
    f = Flt.vnorm ((gv.map fun v => -v) ++ [vj - xmax])

/-- One cycle of an increment. -/
structure Cycle (F : Type) where
  /-- number of the cycle -/
  number : Int
  /-- iterations of the predictor, counted in the total -/
  before : Int
  /-- control component -/
  control : Int
  /-- step width -/
  width : List F
  /-- vectors after each iteration -/
  iterates : List (List F)
  /-- norms printed -/
  norms : List F
  /-- columns for the biggest components -/
  tops : Int × F × Int × F × Int × F
  /-- messages about the step width -/
  messages : List (Line F)
  /-- how the cycle ended; `none`: another one follows -/
  out : Option Outcome

/-- The line that ends a cycle. -/
def cycleEnd : Option Outcome → List (Line F)
  | none => [.recycling]
  | some .error1 => [.error1]
  | some .error2 => [.error2]
  | some _ => []

/-- The text of a cycle: head, a row for every iteration, totals, messages about the step width, end. -/
def Cycle.text (log : Int) (c : Cycle F) : List (Line F) :=
  (if 1 < log then [.tableHead] else []) ++ (if 0 < log then iterRows c.norms else []) ++
  (if 1 < log then match c.tops with
    | (i1, v1, i2, v2, i3, v3) =>
      [.totalRow c.number (c.norms.length + c.before) c.control (c.norms.getLast?.getD 0) i1 v1 i2 v2 i3 v3] else []) ++
  c.messages ++ cycleEnd c.out

/-- What is printed about a cycle is true. -/
structure Cycle.IsTrue (P : Problem F) (cfg : PFCfg F) (prev : List F) (c : Cycle F) : Prop where
  some : c.iterates ≠ []
  rows : c.norms.length = c.iterates.length
  /-- every row shows the norm of the residual after its iteration; the control component is to move by its width -/
  norms : ∃ b w, pyGet prev (c.control.natAbs - 1) = .ok b ∧ pyGet c.width (c.control.natAbs - 1) = .ok w ∧
    ∀ (k : Nat) x f, c.iterates[k]? = .some x → c.norms[k]? = .some f →
      ResidualNorm P prev c.control (b + w * Flt.ofInt c.control.sign) x f
  /-- the totals show the biggest changes of components relative to the step width -/
  tops : ∀ x, c.iterates.getLast? = .some x → match c.tops with
    | (i1, v1, i2, v2, i3, v3) => Biggest (vdiv (vsub x prev) c.width) i1 v1 i2 v2 i3 v3
  /-- at most `nfev` iterations with those of the predictor -/
  limit : c.norms.length + c.before ≤ cfg.nfev
  /-- an accepted cycle is converged -/
  accepted : c.out = .some .accepted → ∃ f, c.norms.getLast? = .some f ∧ Flt.lt f cfg.ftol = true
  /-- messages about the step width only with step control -/
  width : ∀ l ∈ c.messages, l.isWidth = true ∧ cfg.stepcontrol = true

/-- Consecutive cycles: the number increases by one; after a forced reduction in the last cycle it goes on with two. -/
def Cycle.Next (cfg : PFCfg F) (c c' : Cycle F) : Prop :=
  c.out = none ∧ (c'.number = c.number + 1 ∨ (cfg.stepcontrol = true ∧ c.number = cfg.cycl ∧ c'.number = 2)) ∧
    c'.before = 0

/-- Row of the predictor: one iteration, shown with the number zero, from the end of the increment before with the step
width `w`. -/
def PredictorRow (P : Problem F) (prev w : List F) : Line F → Prop
  | .preRow cycle it j f i v => cycle = 1 ∧ it = 0 ∧ ∃ b d x, pyGet prev (j.natAbs - 1) = .ok b ∧
      pyGet w (j.natAbs - 1) = .ok d ∧ ResidualNorm P prev j (b + d * Flt.ofInt j.sign) x f ∧
      ShowsComp (vdiv (vsub x prev) w) i v ∧ NoBigger (vdiv (vsub x prev) w) [i] i
  | _ => False

/-- The table `b` printed for the increment from `prev` to the record `r` is true. -/
structure IncTable (log : Int) (P : Problem F) (cfg : PFCfg F) (prev : List F) (r : Rec F) (b : List (Line F)) : Prop where
  text : ∃ (pre : List (Line F)) (w : List F) (cs : List (Cycle F)),
    b = (if 1 < log then [.tableHead] else []) ++ pre ++ cs.flatMap (Cycle.text log) ∧
    (∀ l ∈ pre, PredictorRow P prev w l) ∧ pre.length ≤ 1 ∧ (∀ c ∈ cs, c.IsTrue P cfg prev) ∧
    cs.IsChain (Cycle.Next cfg) ∧ (∀ c, cs.head? = some c → c.number = 1 ∧ c.width = w ∧ (1 < log → c.before = pre.length)) ∧
    if r.out = .predictor then cs = [] ∧ r.x = prev
    else ∃ c, cs.getLast? = some c ∧ c.out = some r.out ∧ c.iterates.getLast? = some r.x

/-- Head, table and final load factor of every increment; `i` is the number of the first one. -/
def incsText (log : Int) : Nat → List (F × List (Line F)) → List (Line F)
  | _, [] => []
  | i, (l, b) :: es => (if 0 < log then [.incHead i] else []) ++ b ++ (if 0 < log then [.finalLpf l] else []) ++
      incsText log (i + 1) es

/-- What is printed about a step. -/
structure StepReport (F : Type) where
  /-- constant load and vector taken over from the steps before -/
  const : List F
  initial : List F
  /-- load factor and table of every increment -/
  entries : List (F × List (Line F))
  /-- the limit was reached -/
  exit : Bool

/-- The text of step number `k + 1`. -/
def StepReport.text (log : Int) (k : Nat) (s : StepReport F) : List (Line F) :=
  (if 0 < log then [.stepHead (k + 1)] else []) ++ (if 1 < log then [.stepNotes] else []) ++
  (if k ≠ 0 then [.constLoad s.const, .initial s.initial] else []) ++
  (incsText log 1 s.entries ++ if s.exit then [.exit1] else []) ++
  (if 1 < log then .resultHead (k + 1) :: s.entries.mapIdx fun i e => .writeResult (i + 1) s.entries.length e.1 else []) ++
  (if 0 < log then [.stepEnd (k + 1)] else [])

/-- What is printed about the step with the increments `o` is true. -/
structure StepReport.IsTrue (log : Int) (c : Ctx F) (s : Settings F) (k : Nat) (o : PFOut F) (p : StepReport F) : Prop where
  lpf : p.entries.map (fun e => some e.1) = o.recs.map (·.a.lpf)
  incs : ∃ cfg, StepArgs s k cfg ∧
    (∀ (i : Nat) prev r e, o.resX[i]? = some prev → o.recs[i]? = some r → p.entries[i]? = some e →
      IncTable log (modelProblem c) cfg prev r e.2) ∧
    (p.exit = true ↔ ∃ r, o.recs.getLast? = some r ∧ (r.out = .accepted ∨ r.out = .predictor) ∧ ExceedsLimit r.x cfg.xlimit)
  const : ∃ ef, o.startA.extForces = some ef ∧ p.const = ef.forcesConst
  initial : p.initial = o.startA.Vred

/-- The summary of the parameters. -/
def paramText (s : Settings F) : List (Line F) :=
  if 1 < s.log then
    [.runHead, .paramHead, .param "incs" (.incs s.incs), .param "cycl" (.int s.cycl), .param "nfev" (.int s.nfev),
      .param "du" (.flt s.du), .param "dlpf" (.flt s.dlpf), .param "j0" .lpf, .param "j_fixed" (.bool s.jFixed),
      .param "dxtol" (.flt s.dxtol), .param "xtol" (.int s.xtol), .param "ftol" (.int s.ftol)] ++
    if s.stepcontrol then
      [.widthHead, .param "stepcontrol" (.bool true), .param "minfac" (.flt s.minfac), .param "maxfac" (.flt s.maxfac),
        .param "reduce" (.flt (1 / s.reduce)), .param "increase" (.flt s.increase)]
    else []
  else []

/-- The durations at the end. -/
def durationText (log : Int) (t : Times F) : List (Line F) :=
  if 1 < log then
    [.durationHead, .duration true false t.perfBuild, .duration false false t.processBuild, .duration true true t.perfRun,
      .duration false true t.processRun]
  else []

end TrussPy
