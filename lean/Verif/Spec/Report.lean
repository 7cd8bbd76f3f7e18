import Verif.Report
import Verif.Spec.Run
import Verif.Spec.Path
/-!
# Specification: contents of the printed protocol
-/

namespace TrussPy

variable {F : Type}

/-- `argsort` lists every position once. -/
def Env.Ranks (env : Env F) : Prop := ∀ l : List F, (env.argsortF l).Perm (List.range l.length)

/-- The load proportionality factor of a line `final LPF`. -/
def Line.finalLpf? : Line F → Option F
  | .finalLpf v => some v
  | _ => none

/-- The number of a line `### Increment`. -/
def Line.incHead? : Line F → Option Nat
  | .incHead i => some i
  | _ => none

/-- The number of a line `## Step`. -/
def Line.stepHead? : Line F → Option Nat
  | .stepHead k => some k
  | _ => none

/-- The number of a line `End of Step`. -/
def Line.stepEnd? : Line F → Option Nat
  | .stepEnd k => some k
  | _ => none

/-- Numbers and load proportionality factor of a line `write result`. -/
def Line.written? : Line F → Option (Nat × Nat × F)
  | .writeResult i n v => some (i, n, v)
  | _ => none

/-- The outcome announced by an error message. -/
def Line.failure? : Line F → Option Outcome
  | .error1 => some .error1
  | .error2 => some .error2
  | _ => none

/-- The outcome of an increment if it is a failure. -/
def Outcome.failure? : Outcome → Option Outcome
  | .error1 => some .error1
  | .error2 => some .error2
  | _ => none

/-- `EXIT 1`. -/
def Line.exit? : Line F → Option Unit
  | .exit1 => some ()
  | _ => none

/-- The log level from which on a line is printed; 0: at every level. -/
def Line.level : Line F → Int
  | .banner | .summary .. | .runHead | .paramHead | .param .. | .widthHead | .stepNotes | .tableHead | .preRow ..
  | .totalRow .. | .resultHead _ | .writeResult .. | .durationHead | .duration .. => 2
  | .stepHead _ | .incHead _ | .iterRow .. | .finalLpf _ | .stepEnd _ => 1
  | _ => 0

/-- Lines about changes of the step width. -/
def Line.isWidth : Line F → Bool
  | .reduceForced | .reduceInactive | .reduceBy _ | .growInactive _ | .growBy _ => true
  | _ => false

/-- Lines about what a step takes over from the steps before. -/
def Line.isCarry : Line F → Bool
  | .constLoad _ | .initial _ => true
  | _ => false

/-- Lines of the creation of the model and of `build`. -/
def Line.isBefore : Line F → Bool
  | .fence | .banner | .summary .. => true
  | _ => false

/-- Label (`cpu`, `run`) and value of a line with a duration. -/
def Line.duration? : Line F → Option (Bool × Bool × F)
  | .duration cpu run v => some (cpu, run, v)
  | _ => none

/-- The line may appear in the text of `run` at log level `log`, with (`sc`) or without step control, with (`multi`) or
without several steps, with (`timed`) or without durations. -/
structure Line.Shown (log : Int) (sc multi timed : Prop) (l : Line F) : Prop where
  level : l.level = 0 ∨ l.level ≤ log
  width : l.isWidth = true → sc
  carry : l.isCarry = true → multi
  own : l.isBefore = false
  last : l.duration? ≠ none → timed

/-- Lines of the iterations of one increment, between its head and its `final LPF`. -/
def Line.isInner : Line F → Bool
  | .tableHead | .preRow .. | .iterRow .. | .totalRow .. => true
  | .reduceForced | .reduceInactive | .reduceBy _ | .growInactive _ | .growBy _ => true
  | .error1 | .error2 | .recycling => true
  | _ => false

/-- The lines `write result` of one step: consecutive numbers, the number of increments of the step and the load
factor of each. -/
def writtenOf (recs : List (Rec F)) : List (Nat × Nat × Option F) :=
  (recs.zipIdx 1).map fun p => (p.2, recs.length, p.1.a.lpf)

/-- The text reports the increments of the steps `outs` at log level `log`. -/
structure Reports (log : Int) (outs : List (PFOut F)) (text : List (Line F)) : Prop where
  /-- one line `final LPF` per increment, with its load factor -/
  lpf : (text.filterMap Line.finalLpf?).map some = if 0 < log then (recorded outs).map (·.a.lpf) else []
  /-- increments are numbered from one in every step -/
  heads : text.filterMap Line.incHead? = if 0 < log then outs.flatMap (fun o => List.range' 1 o.recs.length) else []
  /-- one error message per failed increment, of its kind, whatever the log level is -/
  failures : text.filterMap Line.failure? = (recorded outs).filterMap (·.out.failure?)
  /-- one line `write result` per increment -/
  written : (text.filterMap Line.written?).map (fun p => (p.1, p.2.1, some p.2.2)) =
    if 1 < log then outs.flatMap (fun o => writtenOf o.recs) else []
  /-- one line `## Step` per step -/
  steps : text.filterMap Line.stepHead? = if 0 < log then List.range' 1 outs.length else []
  /-- one line `End of Step` per step -/
  ends : text.filterMap Line.stepEnd? = if 0 < log then List.range' 1 outs.length else []

end TrussPy
