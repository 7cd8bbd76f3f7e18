import Verif.Log
/-!
# Specification: schedules of model creations and runs
-/

namespace TrussPy

/-- What a program does with models. -/
inductive LogEvent where
  | create (logfile : Bool)
  | run (model : Nat) (raises : Bool)
  deriving DecidableEq, Repr

/-- One event. -/
def LogState.step (s : LogState) : LogEvent → LogState
  | .create b => s.create b
  | .run i r => s.run i r

/-- A whole schedule. -/
def LogState.exec (s : LogState) (evs : List LogEvent) : LogState := evs.foldl LogState.step s

/-- Properly nested schedules: every model created is run once later, and what happens in between is nested itself.
`n` and `n'` count the models before and after; the model created as number `n` is the one that is run.  A run of a
model with log file must not raise. -/
inductive Nested : Nat → List LogEvent → Nat → Prop where
  | nil (n : Nat) : Nested n [] n
  | pair {n k l : Nat} {inner rest : List LogEvent} (b r : Bool) (hr : b = true → r = false) :
      Nested (n + 1) inner k → Nested k rest l → Nested n (.create b :: (inner ++ .run n r :: rest)) l

end TrussPy
