import Verif.Handlers
/-!
# Argument objects of `Element(...)`

`Handlers.lean` takes property arguments as values.  Here they are Python objects as the user passes them: lists (which
are stored by reference and can be edited later), tuples and NumPy arrays.  The comparison with `[np.nan]` in
`core/element.py:71-79` treats them differently, and the default lists of `core/element.py:39-40` are objects that exist
once for all calls.

Simplified: arrays are values (editing an array in place is left out).
-/

namespace TrussPy

section
variable {F : Type}

/-- An entry of a list of properties.  `npnan` is the object `np.nan`: lists compare their entries by identity first, so only
this NaN equals the one in `[np.nan]`. -/
inductive Entry (F : Type) where
  | npnan
  | num (isInt : Bool) (v : F)
  deriving DecidableEq, Repr

/-- The number that NumPy stores for the entry. -/
def Entry.val [Flt F] : Entry F → F
  | .npnan => Flt.nan
  | .num _ v => v

/-- `np.array` infers an integer type iff all entries are Python integers. -/
def Entry.int : Entry F → Bool
  | .npnan => false
  | .num b _ => b

/-- `np.array([l])` for a list or tuple of numbers (`handler_element.py:88-89`; an empty list gives a float array). -/
def rowOf [Flt F] (l : List (Entry F)) : PRow F := ⟨!l.isEmpty && l.all Entry.int, l.map Entry.val⟩

/-- A property argument. -/
inductive PArg (F : Type) where
  /-- a reference to a list -/
  | list (ref : Nat)
  | tuple (l : List (Entry F))
  | array (r : PRow F)
  deriving DecidableEq, Repr

/-- The lists that exist.  Lists 0 and 1 are the default values of `material_properties` and `geometric_properties`
(`core/element.py:39-40`), created when the class is defined. -/
abbrev Lists (F : Type) := List (List (Entry F))

/-- The lists when the package has been imported. -/
def Lists.init : Lists F := [[.npnan], [.npnan]]

/-- The contents of an argument. -/
def PArg.read [Flt F] (h : Lists F) : PArg F → PRow F
  | .list r => rowOf (h.getD r [])
  | .tuple l => rowOf l
  | .array r => r

/-- `bool(x != [np.nan])` (`core/element.py:71`, `76`).  Lists are compared entry by entry; a tuple is never equal to a
list; an array is compared by entries and the truth value of the array of results is taken, which raises `ValueError` for
two or more.  The truth value of an empty array depends on the version of NumPy (`emptyTruth`). -/
def PArg.differs (emptyTruth : Py Bool) (h : Lists F) : PArg F → Py Bool
  | .list r => match h.getD r [] with
    | [.npnan] => .ok false
    | _ => .ok true
  | .tuple _ => .ok true
  | .array r => match r.vals with
    | [] => emptyTruth
    | [_] => .ok true
    | _ => .error .valueError

/-- An `Element` object: its properties are the argument objects (`core/element.py:81-89`). -/
structure ElemObj (F : Type) where
  label : Int
  conn : List Int
  etype : Int := 1
  mtype : Int := 1
  mprop : PArg F
  gprop : PArg F
  deriving DecidableEq, Repr

/-- What `add_element` copies into the tables (`handler_element.py:82-101`). -/
def ElemObj.entered [Flt F] (h : Lists F) (E : ElemObj F) : Elem F :=
  ⟨E.label, E.conn, E.etype, E.mtype, E.mprop.read h, E.gprop.read h⟩

/-- `core/element.py:33-89` `Element.__init__` with argument objects; an argument not given is `none`. -/
def mkElemObj (emptyTruth : Py Bool) (h : Lists F) (label : Int) (conn : List Int) (etype mtype : Int)
    (material_properties geometric_properties mprop gprop : Option (PArg F)) : Py (ElemObj F) := do
  let material_properties := material_properties.getD (.list 0)
  let geometric_properties := geometric_properties.getD (.list 1)
  -- core/element.py:71-74
  if (← material_properties.differs emptyTruth h) && mprop.isSome then .error .typeError
  -- core/element.py:76-79
  if (← geometric_properties.differs emptyTruth h) && gprop.isSome then .error .typeError
  -- core/element.py:81-89
  return ⟨label, conn, etype, mtype, mprop.getD material_properties, gprop.getD geometric_properties⟩

/-- What a user's program does with lists. -/
inductive ListOp (F : Type) where
  /-- a new list -/
  | make (l : List (Entry F))
  /-- change the contents of a list, possibly through an attribute of an element that refers to it -/
  | edit (ref : Nat) (l : List (Entry F))
  deriving DecidableEq, Repr

/-- One such action. -/
def Lists.step (h : Lists F) : ListOp F → Lists F
  | .make l => h ++ [l]
  | .edit r l => h.set r l

end

end TrussPy
