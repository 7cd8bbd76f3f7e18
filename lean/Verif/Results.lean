import Verif.Run
/-!
# Getters of results and the result handler

Models `core/analysis.py:137-153` and `handlers/handler_result.py:38-55`.
-/

namespace TrussPy

variable {F : Type} [Zero F]

/-- What `get_U` and `get_r` return (`core/analysis.py:137-153`): a vector or a table with a row for each node. -/
inductive Got (F : Type) where
  | vec (v : List F)
  | table (rows : List (List F))
  deriving DecidableEq, Repr

/-- The rows of three of a flattened table (`core/analysis.py:112`: `U` has the shape `(nnodes, 3)`). -/
def tableRows (n : Nat) (U : List F) : List (List F) := (List.range n).map fun i => (U.drop (3 * i)).take 3

/-- `core/analysis.py:137-144` `get_U`. -/
def Analysis.getU (a : Analysis F) (flat red : Bool) : Got F :=
  if flat then .vec a.U else if red then .vec a.Ured else .table (tableRows (a.U.length / 3) a.U)

/-- `core/analysis.py:146-153` `get_r`. -/
def Analysis.getR (a : Analysis F) (flat red : Bool) : Got F :=
  if flat then .vec (flat3 a.r) else if red then .vec a.rred else .table (a.r.map fun v => [v 0, v 1, v 2])

/-- Methods of `ResultHandler` that change the list of results (`handlers/handler_result.py:38-48`). -/
inductive ResOp where
  | copy
  | removeLast
  | dupFirst
  deriving DecidableEq, Repr

/-- `copy_increment` (`handler_result.py:38-40`), `remove_last_increment` (42-44), `duplicate_first_increment` (46-48): all three
raise `IndexError` on an empty list. -/
def resOp (R : List (Analysis F)) : ResOp → Py (List (Analysis F))
  | .copy => match R.getLast? with
    | none => .error .indexError
    | some a => .ok (R ++ [a])
  | .removeLast => match R.getLast? with
    | none => .error .indexError
    | some _ => .ok R.dropLast
  | .dupFirst => dupFirst R

/-- `handler_result.py:53-55` `get_result`. -/
def getResult (R : List (Analysis F)) (i : Int) : Py (Analysis F) := pyGet R i

end TrussPy
