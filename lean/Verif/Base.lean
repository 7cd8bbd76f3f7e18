/-!
# Base layer: Python exceptions, float-like carriers, NumPy primitives

Nothing in this file is specific to trusses.  It fixes how the Python/NumPy vocabulary used by
`/repo/src/trusspy` is rendered in Lean.
-/

namespace TrussPy

/-- Python exceptions that the modelled code can raise.  `outOfFuel` is not a Python exception: it
marks a `while` loop of the model that has not finished within the given fuel. -/
inductive Err where
  | typeError | valueError | indexError | keyError | attributeError | ioError | unboundLocal
  | zeroDivision | outOfFuel
  deriving DecidableEq, Repr

/-- A Python computation: a value or an exception. -/
abbrev Py (α : Type) := Except Err α

/-- `Py` computations are compared in examples. -/
instance {α : Type} [DecidableEq α] : DecidableEq (Py α) := fun a b =>
  match a, b with
  | .ok x, .ok y => if h : x = y then isTrue (by rw [h]) else isFalse (by intro h'; exact h (Except.ok.inj h'))
  | .error x, .error y =>
      if h : x = y then isTrue (by rw [h]) else isFalse (by intro h'; exact h (Except.error.inj h'))
  | .ok _, .error _ => isFalse (by intro h; cases h)
  | .error _, .ok _ => isFalse (by intro h; cases h)

/-- The special functions of a NumPy float type.  Deliberately *lawless*: IEEE doubles, exact reals
and rationals are all instances.  The arithmetic `+ - * / neg 0 1` is taken from the usual classes,
also without laws. -/
class Flt (F : Type) where
  /-- `abs(x)` -/
  abs : F → F
  /-- `x < y` (False if one is NaN) -/
  lt : F → F → Bool
  /-- `x <= y` (False if one is NaN) -/
  le : F → F → Bool
  /-- `x == y` -/
  eq : F → F → Bool
  /-- `np.sign(x)` as an integer in {-1,0,1}; `none` is NaN. -/
  sgn : F → Option Int
  /-- `np.sqrt` -/
  sqrt : F → F
  /-- `np.linalg.norm` of a vector (summation order left open). -/
  vnorm : List F → F
  /-- an exact integer as a float -/
  ofInt : Int → F
  /-- conversion to an integer dtype and back: truncation toward zero -/
  trunc : F → F
  /-- `10**-n` -/
  pow10neg : Int → F
  /-- `np.nan` (an arbitrary junk value for carriers without NaN) -/
  nan : F

section numpy
variable {α : Type}

/-- Python indexing `l[i]` with negative indices and `IndexError` (e.g. `tpsolver.py:394`, `429`,
`helper_functions2.py:229-286`). -/
def pyGet (l : List α) (i : Int) : Py α :=
  let k := if 0 ≤ i then i else i + l.length
  if k < 0 then .error .indexError
  else match l[k.toNat]? with
    | some a => .ok a
    | none => .error .indexError

/-- Python item assignment `l[i] = v` (`model.py:394`, `404`). -/
def pySet (l : List α) (i : Int) (v : α) : Py (List α) :=
  let k := if 0 ≤ i then i else i + l.length
  if k < 0 ∨ (l.length : Int) ≤ k then .error .indexError
  else .ok (l.set k.toNat v)

/-- `np.where(labels == l)[0]`: all positions of `l`, ascending (e.g. `handler_node.py:39`, `handler_element.py:103`). -/
def whereEq (labels : List Int) (l : Int) : List Nat :=
  (List.range labels.length).filter fun i => labels[i]? == some l

/-- Fancy indexing / `take(idx, axis=0)`: `IndexError` if an index is out of range (e.g. `handler_node.py:49-50`). -/
def npTake (l : List α) : List Nat → Py (List α)
  | [] => .ok []
  | i :: is =>
    match l[i]? with
    | none => .error .indexError
    | some a => match npTake l is with
      | .error e => .error e
      | .ok as => .ok (a :: as)

/-- `arr[np.where(labels == l)][0]`: first selected row, `IndexError` if there is none (e.g.
`handler_element.py:116`, `model.py:513`). -/
def npFirst (l : List α) (idx : List Nat) : Py α :=
  match npTake l idx with
  | .error e => .error e
  | .ok [] => .error .indexError
  | .ok (a :: _) => .ok a

/-- `arr[idx] = [v]` for an index list `idx` (all in range in the modelled code, e.g. `handler_element.py:50`,
`element_definition.py:81-89`). -/
def setAll (l : List α) (idx : List Nat) (v : α) : List α :=
  idx.foldl (fun acc i => acc.set i v) l

/-- `np.delete(arr, idx, axis=0)` (e.g. `handler_node.py:40`). -/
def npDelete (l : List α) (idx : List Nat) : Py (List α) :=
  if idx.any (fun i => l.length ≤ i) then .error .indexError
  else .ok ((l.zipIdx.filter fun p => !idx.contains p.2).map Prod.fst)

/-- A two-dimensional NumPy array: column count (kept even without rows) and rows (`coords`, `conns`, `forces`,
`Uvalues` in `handlers/*.py:12-22`). -/
structure Tab (α : Type) where
  cols : Nat
  rows : List (List α)
  deriving DecidableEq, Repr

/-- `np.array([row])` (e.g. `handler_node.py:33`). -/
def Tab.ofRow (r : List α) : Tab α := ⟨r.length, [r]⟩

/-- `np.vstack((tab, row))`: `ValueError` for a row of a different length (e.g. `handler_node.py:36`). -/
def Tab.vstack (t : Tab α) (r : List α) : Py (Tab α) :=
  if r.length = t.cols then .ok { t with rows := t.rows ++ [r] } else .error .valueError

/-- `np.delete(tab, idx, axis=0)` (e.g. `handler_node.py:41`). -/
def Tab.delete (t : Tab α) (idx : List Nat) : Py (Tab α) :=
  match npDelete t.rows idx with
  | .ok rows => .ok { t with rows := rows }
  | .error e => .error e

/-- `tab.take(idx, axis=0)` (e.g. `handler_node.py:50`). -/
def Tab.take (t : Tab α) (idx : List Nat) : Py (Tab α) :=
  match npTake t.rows idx with
  | .ok rows => .ok { t with rows := rows }
  | .error e => .error e

/-- `np.allclose(a, b)` for one pair of integers with the default `rtol=1e-5`, `atol=1e-8`:
`|a-b| <= 1e-8 + 1e-5*|b|`, multiplied by `10^8` (`model.py:147-148`). -/
def closeInt (a b : Int) : Bool := decide (iabs (a - b) * 100000000 ≤ 1 + 1000 * iabs b)
where
  /-- integer absolute value -/
  iabs (x : Int) : Int := x.natAbs

/-- `np.allclose` on two 1-D integer arrays with NumPy broadcasting (equal lengths, or one of length
one); `ValueError` if the shapes do not broadcast (`model.py:147-148`). -/
def npAllclose (a b : List Int) : Py Bool :=
  if a.length = b.length then .ok ((a.zip b).all fun p => closeInt p.1 p.2)
  else match a, b with
    | [x], _ => .ok (b.all fun y => closeInt x y)
    | _, [y] => .ok (a.all fun x => closeInt x y)
    | _, _ => .error .valueError

end numpy

/-- Specification of `np.argsort` for integer labels (`handler_node.py:48`, `handler_boundary.py:69`,
`handler_extforce.py:56`): the result is a permutation of the positions
and lists the entries in ascending order.  The order of equal entries is left open (NumPy's default
sort is not stable). -/
def IsArgsort (argsort : List Int → List Nat) : Prop :=
  ∀ l, (argsort l).Perm (List.range l.length) ∧
    ((argsort l).map fun i => l.getD i 0).Pairwise (· ≤ ·)

end TrussPy
