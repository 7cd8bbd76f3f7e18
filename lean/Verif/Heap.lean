import Verif.Base
/-!
# Objects and arrays in memory

The other modules treat analysis objects as values.  In Python they are mutable objects whose attributes refer to
mutable NumPy arrays, several names can refer to one array, and the solver works on one analysis object all the time.
This module models the memory and the statements of `model.py`, `tpsolver.py`, `handler_result.py` and
`element_definition.py` that create, bind, alias, write or copy these objects.  The numbers written are arbitrary.

Simplification: an analysis object and its `ExtForces` sub-object (which it owns alone, see `model.py:329` and
`handler_result.py:30`) are one object here, with attributes such as `"ExtForces.forces"`.
-/

namespace TrussPy

variable {F : Type}

/-- A NumPy array: a buffer and the positions of the buffer it shows.  `x[:-1]`, `U.reshape(..)` and
`forces[:, 3*s:3*s+3]` are views: they show positions of the same buffer. -/
structure View where
  buf : Nat
  idx : List Nat
  deriving DecidableEq, Repr

/-- Attribute values: an array or an immutable value (number, `None`). -/
inductive AttrVal (F : Type) where
  | arr (v : View)
  | val (x : Option F)
  deriving DecidableEq, Repr

/-- Attributes of an object (those of `core/analysis.py:64-83`). -/
abbrev Attrs (F : Type) := List (String × AttrVal F)

/-- Memory: objects and array buffers, both addressed by creation number. -/
structure Heap (F : Type) where
  objs : List (Attrs F)
  bufs : List (List F)
  deriving DecidableEq, Repr

/-- Content of an array. -/
def Heap.read (h : Heap F) (v : View) : List (Option F) := v.idx.map fun i => (h.bufs[v.buf]?).bind (·[i]?)

/-- A new array, the value of a NumPy expression (e.g. `core/analysis.py:112-121`). -/
def Heap.alloc (h : Heap F) (data : List F) : Heap F × View :=
  ({ h with bufs := h.bufs ++ [data] }, ⟨h.bufs.length, List.range data.length⟩)

/-- `view[i] = x` in place (e.g. `model.py:404`, `element_definition.py:81-89`); nothing happens for positions out of range. -/
def Heap.write (h : Heap F) (v : View) (i : Nat) (x : F) : Heap F :=
  match v.idx[i]? with
  | none => h
  | some k => { h with bufs := h.bufs.modify v.buf fun b => b.set k x }

/-- `obj.name = value` (e.g. `tpsolver.py:546-548`). -/
def setAttr (name : String) (x : AttrVal F) : Attrs F → Attrs F
  | [] => [(name, x)]
  | (n, y) :: as => if n = name then (n, x) :: as else (n, y) :: setAttr name x as

/-- `obj.name = value` in memory (e.g. `tpsolver.py:546-548`). -/
def Heap.bind (h : Heap F) (o : Nat) (name : String) (x : AttrVal F) : Heap F :=
  { h with objs := h.objs.modify o (setAttr name x) }

/-- `copy.deepcopy` of the attributes (`tpsolver.py:308`, `551`, `handler_result.py:27`, `40`, `48`): every array becomes a new array with the same content (positions without
content do not occur). -/
def Heap.copyAttrs (h : Heap F) : Attrs F → Heap F × Attrs F
  | [] => (h, [])
  | (n, .val x) :: as =>
    let (h', as') := h.copyAttrs as
    (h', (n, .val x) :: as')
  | (n, .arr v) :: as =>
    let (h1, v') := h.alloc ((h.read v).filterMap id)
    let (h', as') := h1.copyAttrs as
    (h', (n, .arr v') :: as')

/-- `copy.deepcopy(obj)`: a new object (`tpsolver.py:308`, `551`, `handler_result.py:27`, `40`, `48`). -/
def Heap.deepcopy (h : Heap F) (o : Nat) : Heap F × Nat :=
  let (h', as) := h.copyAttrs (h.objs[o]?.getD [])
  ({ h' with objs := h'.objs ++ [as] }, h'.objs.length)

/-- What one sees of an object: attribute names with values. -/
def Heap.observe (h : Heap F) (o : Nat) : Option (List (String × (List (Option F) ⊕ Option F))) :=
  h.objs[o]?.map fun as => as.map fun p => (p.1, match p.2 with
    | .arr v => .inl (h.read v)
    | .val x => .inr x)

/-- State of the program: memory, `self.Analysis` (`model.py:130`), the arrays reachable through other names (local variables `x`,
`x0`, `dxmax`, ... and the tables of the handlers), `res_a` of `pathfollow`, `Results.R`. -/
structure HState (F : Type) where
  heap : Heap F
  live : Nat
  locals : List View
  resA : List Nat
  R : List Nat
  deriving DecidableEq, Repr

/-- Statements that touch memory; the lines of the code are given for each. -/
inductive HOp (F : Type) where
  /-- a new array by any NumPy expression, e.g. `x = np.append(..)`, `dxmax.copy()`, `state_v.copy()`, `-r + ..` -/
  | compute (data : List F)
  /-- a view of an array, e.g. `x[:-1]` (`tpsolver.py:547`), `self.ExtForces.forces[:, ..]` (`model.py:345`) -/
  | viewLocal (k : Nat) (sel : List Nat)
  /-- a view of an attribute, e.g. `self.Analysis.U.reshape(..)` (`model.py:492`), `analysis.r` (`element_definition.py:88`) -/
  | viewAttr (name : String) (sel : List Nat)
  /-- `analysis.name = array` without copy: `analysis.Vred = x` (`tpsolver.py:546`), `analysis.dVmax = dxmax` (475), ... -/
  | bindArr (name : String) (k : Nat)
  /-- `analysis.lpf = ..`, `analysis.j = ..`, `analysis.step = ..` -/
  | bindVal (name : String) (x : Option F)
  /-- in-place write through any name: `r.fill(0.0)` (`model.py:487`), `U.reshape(..)[DOF1] = ..` (492-496),
  `analysis.stretch[..] = ..` (`element_definition.py:81-115`), `Vred[-1] = 0.0` (`model.py:404`) -/
  | write (k : Nat) (i : Nat) (x : F)
  /-- `res_a = [copy.deepcopy(analysis)]` (`tpsolver.py:308`), begins a new call of `pathfollow` -/
  | newResA
  /-- `res_a.append(copy.deepcopy(analysis))` (`tpsolver.py:551`) -/
  | snapshot
  /-- `self.Results.R[-1] = r_a; self.Results.copy_increment()` (`model.py:393-394`, `handler_result.py:38-40`) -/
  | publish (k : Nat)
  /-- `self.Results.R[-1].U0 = np.copy(self.Results.R[-1].U)` (`model.py:397`), the numbers given -/
  | syncU0 (data : List F)
  /-- `add_increment` (`handler_result.py:27-36`): a copy of the analysis with other loads and load factor -/
  | addIncrement (forces fconst : List F) (lpf : Option F)
  /-- `duplicate_first_increment` (`handler_result.py:46-48`) -/
  | dupFirst
  /-- `remove_last_increment` (`handler_result.py:42-44`), at the end of the last step (`model.py:407`) -/
  | removeLast
  /-- `self.Analysis = analysis` (`model.py:450-451`, `475-476`) when a user passes the result `R[k]` as `analysis`;
  in a run the argument is `self.Analysis` itself -/
  | adopt (k : Nat)
  deriving DecidableEq, Repr

/-- Effect of a statement (lines of the code: see `HOp`). -/
def HState.step (s : HState F) : HOp F → HState F
  | .compute data =>
    let (h, v) := s.heap.alloc data
    { s with heap := h, locals := s.locals ++ [v] }
  | .viewLocal k sel =>
    match s.locals[k]? with
    | none => s
    | some v => { s with locals := s.locals ++ [⟨v.buf, sel.filterMap (v.idx[·]?)⟩] }
  | .viewAttr name sel =>
    match (s.heap.objs[s.live]?).bind (·.lookup name) with
    | some (.arr v) => { s with locals := s.locals ++ [⟨v.buf, sel.filterMap (v.idx[·]?)⟩] }
    | _ => s
  | .bindArr name k =>
    match s.locals[k]? with
    | none => s
    | some v => { s with heap := s.heap.bind s.live name (.arr v) }
  | .bindVal name x => { s with heap := s.heap.bind s.live name (.val x) }
  | .write k i x =>
    match s.locals[k]? with
    | none => s
    | some v => { s with heap := s.heap.write v i x }
  | .newResA =>
    let (h, o) := s.heap.deepcopy s.live
    { s with heap := h, resA := [o] }
  | .snapshot =>
    let (h, o) := s.heap.deepcopy s.live
    { s with heap := h, resA := s.resA ++ [o] }
  | .publish k =>
    match s.resA[k]? with
    | none => s
    | some o =>
      let (h, c) := s.heap.deepcopy o
      { s with heap := h, R := s.R.dropLast ++ [o, c] }
  | .syncU0 data =>
    match s.R.getLast? with
    | none => s
    | some o =>
      let (h, v) := s.heap.alloc data
      { s with heap := h.bind o "U0" (.arr v) }
  | .addIncrement forces fconst lpf =>
    let (h, o) := s.heap.deepcopy s.live
    let (h, v) := h.alloc forces
    let (h, w) := h.alloc fconst
    { s with
      heap := ((h.bind o "ExtForces.forces" (.arr v)).bind o "ExtForces.forces_const" (.arr w)).bind o "lpf" (.val lpf)
      R := s.R ++ [o] }
  | .dupFirst =>
    match s.R.head? with
    | none => s
    | some o =>
      let (h, c) := s.heap.deepcopy o
      { s with heap := h, R := c :: s.R }
  | .removeLast => { s with R := s.R.dropLast }
  | .adopt k =>
    match s.R[k]? with
    | none => s
    | some o => { s with live := o }

/-- A sequence of statements. -/
def HState.exec (s : HState F) (ops : List (HOp F)) : HState F := ops.foldl HState.step s

/-- Before `build` creates the first result (`model.py:182-196`): some analysis object and some tables, no results. -/
def HState.start (attrs : Attrs F) (bufs : List (List F)) (locals : List View) : HState F :=
  ⟨⟨[attrs], bufs⟩, 0, locals, [], []⟩

end TrussPy
