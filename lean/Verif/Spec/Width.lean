import Verif.Solver
import Verif.Instances
/-!
# Specification: the log of all passes of the recycle loop

A pass is one call of Newton's method inside the loop `tpsolver.py:413-542`.
-/

namespace TrussPy

/-- What is noted about a pass: the step width it was made with, the one it left behind, and whether it was accepted. -/
structure PassEvent where
  before : List ℝ
  after : List ℝ
  accepted : Bool

/-- First component of a step width; the others are proportional (C37). -/
def firstOf (l : List ℝ) : ℝ := l.headD 0

/-- The step width is smaller after the pass. -/
def PassEvent.Shrinks (e : PassEvent) : Prop := firstOf e.after < firstOf e.before

/-- The step width is bigger after the pass. -/
def PassEvent.Grows (e : PassEvent) : Prop := firstOf e.before < firstOf e.after

/-- The passes of one increment, from the state in which the recycle loop begins to the one in which it ends. -/
inductive PassLog (env : Env ℝ) (P : Problem ℝ) (cfg : PFCfg ℝ) (rc : RCtx ℝ) :
    RState ℝ → List PassEvent → RState ℝ → Outcome → Prop
  | last {st st' o} : attempt env P cfg rc st = .ok (st', some o) →
      PassLog env P cfg rc st [⟨st.dxmax, st'.dxmax, o == .accepted⟩] st' o
  | more {st st1 log st' o} : attempt env P cfg rc st = .ok (st1, none) → PassLog env P cfg rc st1 log st' o →
      PassLog env P cfg rc st (⟨st.dxmax, st1.dxmax, false⟩ :: log) st' o

/-- The passes of all increments with the records of these increments.  An increment which the predictor ends has no
passes. -/
inductive WidthLog (env : Env ℝ) (P : Problem ℝ) (cfg : PFCfg ℝ) (dxmax0 : List ℝ) (fuel : Nat) :
    PState ℝ → List (Rec ℝ) → List PassEvent → Prop
  | nil (s) : WidthLog env P cfg dxmax0 fuel s [] []
  | predicted {s s' recs log} : increment env P cfg dxmax0 fuel s = .ok (s', .predictor) →
      WidthLog env P cfg dxmax0 fuel s' recs log →
      WidthLog env P cfg dxmax0 fuel s (⟨s'.x, s'.a, .predictor⟩ :: recs) log
  | solved {s s' p l st' o recs log} : increment env P cfg dxmax0 fuel s = .ok (s', o) → o ≠ .predictor →
      predictor env P cfg s = .ok p →
      PassLog env P cfg ⟨s.x, dxmax0, p.jPre, p.DxPre, p.vPre⟩ ⟨s.x, 0, p.nPre, s.dxmax, p.j, s.b, p.a⟩ l st' o →
      WidthLog env P cfg dxmax0 fuel s' recs log →
      WidthLog env P cfg dxmax0 fuel s (⟨s'.x, s'.a, o⟩ :: recs) (l ++ log)

/-- Number of accepted passes. -/
def acceptedIn (l : List PassEvent) : Nat := (l.filter (·.accepted)).length

/-- After a pass that reduced the step width, four passes are accepted before one increases it again. -/
def CautiousGrowth (log : List PassEvent) : Prop :=
  ∀ (A : List PassEvent) (r : PassEvent) (B : List PassEvent) (e : PassEvent) (C : List PassEvent),
    log = A ++ r :: (B ++ e :: C) → r.Shrinks → e.Grows → 4 ≤ acceptedIn B

end TrussPy
