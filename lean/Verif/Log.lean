import Verif.Base
/-!
# Redirection of standard output

Models `model.py:88-93` (`Model.__init__`: save `sys.stdout`, redirect if `logfile`) and
`model.py:440-441` (end of `run`: restore if `logfile`).  `open` is assumed to succeed.  Streams are
file objects: two models with the same `logfile_name` write to the same file through different streams.
-/

namespace TrussPy

/-- Where text printed by `print` goes: `0` is the stream in place at program start, the others are
log files, one per creation of a model with `logfile=True` (`model.py:93`). -/
abbrev Stream := Nat

/-- What a model object keeps: `self.stdout` and `self.logfile` (`model.py:88-89`). -/
structure LogModel where
  saved : Stream
  logfile : Bool
  deriving DecidableEq, Repr

/-- Interpreter state: `sys.stdout` (`model.py:88-93`, `441`), models created so far (by creation number), next unused file. -/
structure LogState where
  stdout : Stream
  models : List LogModel
  next : Stream
  deriving DecidableEq, Repr

/-- `Model.__init__` (`model.py:88-93`). -/
def LogState.create (s : LogState) (logfile : Bool) : LogState :=
  { stdout := if logfile then s.next else s.stdout
    models := s.models ++ [⟨s.stdout, logfile⟩]
    next := if logfile then s.next + 1 else s.next }

/-- `Model.run` of model number `i` (`model.py:440-441`); `raises`: an exception leaves `run` before line 440. -/
def LogState.run (s : LogState) (i : Nat) (raises : Bool) : LogState :=
  match s.models[i]? with
  | none => s
  | some m => if raises then s else if m.logfile then { s with stdout := m.saved } else s

end TrussPy
