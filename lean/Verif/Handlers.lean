import Verif.Base
/-!
# Input objects and their handlers

Models `core/{node,boundary,external_force,element}.py` and
`handlers/handler_{node,boundary,extforce,element}.py`.

A handler whose tables are still `None` is `Option.none`.  Raw call `add_node(1, coord=..)` and
object call `add_node(Node(1, ..))` build the same object first (`if "Node" not in str(type(N))`), so
the model takes the object.
-/

namespace TrussPy

/-! ## Nodes -/

/-- `core/node.py:11-36` `Node`: label and coordinates. -/
structure Node (F : Type) where
  label : Int
  coord : List F
  deriving DecidableEq, Repr

/-- `handlers/handler_node.py:16-18`: `labels`, `coords` once populated. -/
structure NodeTab (F : Type) where
  labels : List Int
  coords : Tab F
  deriving DecidableEq, Repr

/-- `handlers/handler_node.py:26-36` `add_node`. -/
def addNode {F} (h : Option (NodeTab F)) (n : Node F) : Py (Option (NodeTab F)) :=
  match h with
  | none => .ok (some ⟨[n.label], Tab.ofRow n.coord⟩)
  | some t => do
    let coords ← t.coords.vstack n.coord
    return some ⟨t.labels ++ [n.label], coords⟩

/-- `handlers/handler_node.py:43-45` `add_nodes`. -/
def addNodes {F} (h : Option (NodeTab F)) (ns : List (Node F)) : Py (Option (NodeTab F)) :=
  ns.foldlM addNode h

/-- `handlers/handler_node.py:38-41` `del_node`.  On empty handlers `np.delete(None, .., axis=0)`
raises `AxisError`, a `ValueError`. -/
def delNode {F} (h : Option (NodeTab F)) (label : Int) : Py (Option (NodeTab F)) :=
  match h with
  | none => .error .valueError
  | some t => do
    let idx := whereEq t.labels label
    let labels ← npDelete t.labels idx
    let coords ← t.coords.delete idx
    return some ⟨labels, coords⟩

/-- `handlers/handler_node.py:47-50` `fix_nodes`. -/
def fixNodes {F} (argsort : List Int → List Nat) (t : NodeTab F) : Py (NodeTab F) := do
  let indices := argsort t.labels
  let labels ← npTake t.labels indices
  let coords ← t.coords.take indices
  return ⟨labels, coords⟩

/-! ## Displacement boundaries -/

/-- `core/boundary.py:11-34` `BoundaryU`.  Simplification: values are integers (documented 0/1). -/
structure BoundU where
  node : Int
  values : List Int
  deriving DecidableEq, Repr

/-- `handler_boundary.py:42-47`: `Uvalues` is one-dimensional after the first `add_bound_U` (line 44
has no enclosing list) and two-dimensional from the second one on. -/
inductive BArr where
  | d1 (v : List Int)
  | d2 (t : Tab Int)
  deriving DecidableEq, Repr

/-- `handlers/handler_boundary.py:16-23`: `Unodes`, `Uvalues` once populated. -/
structure BoundTab where
  nodes : List Int
  values : BArr
  deriving DecidableEq, Repr

/-- `np.vstack((self.Uvalues, B.values))`, handler_boundary.py:47. -/
def BArr.vstack (a : BArr) (r : List Int) : Py BArr :=
  match a with
  | .d1 v => if r.length = v.length then .ok (.d2 ⟨v.length, [v, r]⟩) else .error .valueError
  | .d2 t => match t.vstack r with
    | .ok t' => .ok (.d2 t')
    | .error e => .error e

/-- `np.delete(self.Uvalues, idx, axis=0)`, handler_boundary.py:53. -/
def BArr.delete (a : BArr) (idx : List Nat) : Py BArr :=
  match a with
  | .d1 v => match npDelete v idx with
    | .ok v' => .ok (.d1 v')
    | .error e => .error e
  | .d2 t => match t.delete idx with
    | .ok t' => .ok (.d2 t')
    | .error e => .error e

/-- `self.Uvalues.take(indices, axis=0)`, handler_boundary.py:71. -/
def BArr.take (a : BArr) (idx : List Nat) : Py BArr :=
  match a with
  | .d1 v => match npTake v idx with
    | .ok v' => .ok (.d1 v')
    | .error e => .error e
  | .d2 t => match t.take idx with
    | .ok t' => .ok (.d2 t')
    | .error e => .error e

/-- `Uvalues.flatten()`, model.py:163. -/
def BArr.flatten : BArr → List Int
  | .d1 v => v
  | .d2 t => t.rows.flatten

/-- `handlers/handler_boundary.py:36-47` `add_bound_U`. -/
def addBoundU (h : Option BoundTab) (b : BoundU) : Py (Option BoundTab) :=
  match h with
  | none => .ok (some ⟨[b.node], .d1 b.values⟩)
  | some t => do
    let values ← t.values.vstack b.values
    return some ⟨t.nodes ++ [b.node], values⟩

/-- `handlers/handler_boundary.py:55-58` `add_bounds_U`. -/
def addBoundsU (h : Option BoundTab) (bs : List BoundU) : Py (Option BoundTab) :=
  bs.foldlM addBoundU h

/-- `handlers/handler_boundary.py:49-53` `del_bound_U`. -/
def delBoundU (h : Option BoundTab) (label : Int) : Py (Option BoundTab) :=
  match h with
  | none => .error .valueError
  | some t => do
    let idx := whereEq t.nodes label
    let nodes ← npDelete t.nodes idx
    let values ← t.values.delete idx
    return some ⟨nodes, values⟩

/-- An object passed to `add_bound_T` (`handler_boundary.py:73-80`): its attributes `node` and `value`, `none` if it has no
such attribute. -/
structure ThermalArg (F : Type) where
  node : Option Int
  value : Option F
  deriving DecidableEq, Repr

/-- `core/boundary.py:37-57` `BoundaryT(element, value)`: the attributes are called `element` and `value`. -/
def boundaryT {F : Type} (_element : Int) (value : F) : ThermalArg F := ⟨none, some value⟩

/-- Thermal attributes of `BoundaryHandler` (`handler_boundary.py:25-28`, `73-80`): `tnodes = none` if there is no attribute
`Tnodes`, `some none` if it is `None`.  `Tvalues` holds the values one below the other, `None` is one missing value. -/
structure ThermalTab (F : Type) where
  tnodes : Option (Option (List Int))
  tvalues : List (Option F)
  deriving DecidableEq, Repr

/-- `BoundaryHandler.__init__` (`handler_boundary.py:16-28`) sets `Telements` and `Tvalues`, but not `Tnodes`. -/
def ThermalTab.init {F : Type} : ThermalTab F := ⟨none, [none]⟩

/-- Reading an attribute (`B.node`, `B.value`, `self.Tnodes` in `handler_boundary.py:73-80`). -/
def readAttr {α : Type} : Option α → Py α
  | none => .error .attributeError
  | some v => .ok v

/-- `handlers/handler_boundary.py:73-80` `add_bound_T`: result and state of the handler afterwards (an exception between two
assignments would leave the first one done). -/
def addBoundT {F : Type} (t : ThermalTab F) (b : ThermalArg F) : Py Unit × ThermalTab F :=
  match t.tnodes with
  | none => (.error .attributeError, t)
  | some nodes =>
    match readAttr b.node with
    | .error e => (.error e, t)
    | .ok n =>
      let t := { t with tnodes := some (some (match nodes with | none => [n] | some l => l ++ [n])) }
      match readAttr b.value with
      | .error e => (.error e, t)
      | .ok v => match nodes with
        | none => (.ok (), { t with tvalues := [some v] })
        | some _ => (.ok (), { t with tvalues := t.tvalues ++ [some v] })

/-- `handlers/handler_boundary.py:82-85` `add_bounds_T`. -/
def addBoundsT {F : Type} (t : ThermalTab F) : List (ThermalArg F) → Py Unit × ThermalTab F
  | [] => (.ok (), t)
  | b :: bs => match addBoundT t b with
    | (.ok _, t') => addBoundsT t' bs
    | (.error e, t') => (.error e, t')

/-- `nodelist[np.isin(nodelist, nodes, invert=True)]`, handler_boundary.py:64-65 and
handler_extforce.py:50-51 (`nodes = None` matches nothing). -/
def missing (nodelist : List Int) (nodes : Option (List Int)) : List Int :=
  nodelist.filter fun n => match nodes with
    | none => true
    | some l => !l.contains n

/-- `handlers/handler_boundary.py:60-71` `fix_bounds_U`.  `np.argsort(None)` (empty node list and no
boundary) raises `AxisError`. -/
def fixBoundsU (argsort : List Int → List Nat) (nodelist : List Int) (h : Option BoundTab) :
    Py BoundTab := do
  let h ← addBoundsU h ((missing nodelist (h.map (·.nodes))).map fun n => ⟨n, [1, 1, 1]⟩)
  match h with
  | none => .error .valueError
  | some t =>
    let indices := argsort t.nodes
    let nodes ← npTake t.nodes indices
    let values ← t.values.take indices
    return ⟨nodes, values⟩

/-! ## External forces -/

/-- `core/external_force.py:11-36` `ExternalForce`. -/
structure ExtForce (F : Type) where
  node : Int
  force : List F
  deriving DecidableEq, Repr

/-- `handlers/handler_extforce.py:16-18`. -/
structure ForceTab (F : Type) where
  nodes : List Int
  forces : Tab F
  deriving DecidableEq, Repr

/-- `handlers/handler_extforce.py:26-35` `add_force`. -/
def addForce {F} (h : Option (ForceTab F)) (f : ExtForce F) : Py (Option (ForceTab F)) :=
  match h with
  | none => .ok (some ⟨[f.node], Tab.ofRow f.force⟩)
  | some t => do
    let forces ← t.forces.vstack f.force
    return some ⟨t.nodes ++ [f.node], forces⟩

/-- `handlers/handler_extforce.py:42-44` `add_forces`. -/
def addForces {F} (h : Option (ForceTab F)) (fs : List (ExtForce F)) : Py (Option (ForceTab F)) :=
  fs.foldlM addForce h

/-- `handlers/handler_extforce.py:37-40` `del_force`. -/
def delForce {F} (h : Option (ForceTab F)) (label : Int) : Py (Option (ForceTab F)) :=
  match h with
  | none => .error .valueError
  | some t => do
    let idx := whereEq t.nodes label
    let nodes ← npDelete t.nodes idx
    let forces ← t.forces.delete idx
    return some ⟨nodes, forces⟩

/-- `handlers/handler_extforce.py:46-58` `fix_forces`; `None.shape` raises `AttributeError`. -/
def fixForces {F} [Zero F] (argsort : List Int → List Nat) (nodelist : List Int)
    (h : Option (ForceTab F)) : Py (ForceTab F) := do
  match h with
  | none => .error .attributeError
  | some t =>
    let comp := t.forces.cols
    let h ← addForces h ((missing nodelist (some t.nodes)).map fun n => ⟨n, List.replicate comp 0⟩)
    match h with
    | none => .error .attributeError
    | some t =>
      let indices := argsort t.nodes
      let nodes ← npTake t.nodes indices
      let forces ← t.forces.take indices
      return ⟨nodes, forces⟩

/-! ## Elements -/

/-- A list of property values as passed by the user (`core/element.py:60-89`), with the dtype NumPy infers for it: `isInt` iff
all values are Python integers. -/
structure PRow (F : Type) where
  isInt : Bool
  vals : List F
  deriving DecidableEq, Repr

/-- A two-dimensional property array with dtype (`handler_element.py:88-89`). -/
structure PTab (F : Type) where
  isInt : Bool
  cols : Nat
  rows : List (List F)
  deriving DecidableEq, Repr

/-- `core/element.py:33-89` `Element` object after construction. -/
structure Elem (F : Type) where
  label : Int
  conn : List Int
  etype : Int := 1
  mtype : Int := 1
  mprop : PRow F
  gprop : PRow F
  deriving DecidableEq, Repr

/-- The default `[np.nan]` of `core/element.py:39-40`. -/
def defaultProp {F} [Flt F] : PRow F := ⟨false, [Flt.nan]⟩

/-- `core/element.py:71-89`: resolution of `material_properties`/`mprop` (and likewise the geometric
pair).  An argument left at its default (or given as the default `[np.nan]`) is `none`. -/
def resolveProp {F} [Flt F] (long short : Option (PRow F)) : Py (PRow F) :=
  match long, short with
  | some _, some _ => .error .typeError
  | _, some p => .ok p
  | some p, none => .ok p
  | none, none => .ok defaultProp

/-- `core/element.py:33-89` `Element.__init__`. -/
def mkElem {F} [Flt F] (label : Int) (conn : List Int) (etype mtype : Int)
    (material_properties geometric_properties mprop gprop : Option (PRow F)) : Py (Elem F) :=
  match material_properties, mprop, geometric_properties, gprop with
  | some _, some _, _, _ => .error .typeError
  | _, _, some _, some _ => .error .typeError
  | _, _, _, _ => do
    let m ← resolveProp material_properties mprop
    let g ← resolveProp geometric_properties gprop
    return { label, conn, etype, mtype, mprop := m, gprop := g }

/-- `handlers/handler_element.py:16-22`. -/
structure ElemTab (F : Type) where
  labels : List Int
  conns : Tab Int
  etype : List Int
  mtype : List Int
  mprop : PTab F
  gprop : PTab F
  deriving DecidableEq, Repr

/-- `np.array([row])` (`handler_element.py:88-89`). -/
def PTab.ofRow {F} (r : PRow F) : PTab F := ⟨r.isInt, r.vals.length, [r.vals]⟩

/-- `np.vstack((tab, row))` with dtype promotion (integer only if both are), `handler_element.py:95-100`. -/
def PTab.vstack {F} (t : PTab F) (r : PRow F) : Py (PTab F) :=
  if r.vals.length = t.cols then .ok ⟨t.isInt && r.isInt, t.cols, t.rows ++ [r.vals]⟩
  else .error .valueError

/-- `np.delete(tab, idx, axis=0)` (`handler_element.py:106-107`). -/
def PTab.delete {F} (t : PTab F) (idx : List Nat) : Py (PTab F) :=
  match npDelete t.rows idx with
  | .ok rows => .ok { t with rows := rows }
  | .error e => .error e

/-- `tab[idx] = [vals]` (`handler_element.py:48`, `56`, `62`): broadcasting of a `(1,k)` value to `(m, cols)` and cast to the dtype of the
table (truncation for integer tables). -/
def PTab.assign {F} [Flt F] (t : PTab F) (idx : List Nat) (vals : List F) : Py (PTab F) :=
  let cast (v : F) : F := if t.isInt then Flt.trunc v else v
  if vals.length = t.cols then .ok { t with rows := setAll t.rows idx (vals.map cast) }
  else match vals with
    | [v] => .ok { t with rows := setAll t.rows idx (List.replicate t.cols (cast v)) }
    | _ => .error .valueError

/-- `handlers/handler_element.py:76-100` `add_element`. -/
def addElem {F} (h : Option (ElemTab F)) (e : Elem F) : Py (Option (ElemTab F)) :=
  match h with
  | none => .ok (some ⟨[e.label], Tab.ofRow e.conn, [e.etype], [e.mtype], PTab.ofRow e.mprop,
      PTab.ofRow e.gprop⟩)
  | some t => do
    let conns ← t.conns.vstack e.conn
    let mprop ← t.mprop.vstack e.mprop
    let gprop ← t.gprop.vstack e.gprop
    return some ⟨t.labels ++ [e.label], conns, t.etype ++ [e.etype], t.mtype ++ [e.mtype], mprop, gprop⟩

/-- `handlers/handler_element.py:109-112` `add_elements`. -/
def addElems {F} (h : Option (ElemTab F)) (es : List (Elem F)) : Py (Option (ElemTab F)) :=
  es.foldlM addElem h

/-- `handlers/handler_element.py:102-107` `del_element`: note that `elem_type` and `mat_type` are not
touched. -/
def delElem {F} (h : Option (ElemTab F)) (label : Int) : Py (Option (ElemTab F)) :=
  match h with
  | none => .error .valueError
  | some t => do
    let idx := whereEq t.labels label
    let labels ← npDelete t.labels idx
    let conns ← t.conns.delete idx
    let mprop ← t.mprop.delete idx
    let gprop ← t.gprop.delete idx
    return some { t with labels, conns, mprop, gprop }

/-- The `labels` argument of the `assign_*` methods (`handler_element.py:27-74`). -/
inductive LabelSel where
  | all
  | list (l : List Int)

/-- `if labels == "all": labels = self.labels` (`handler_element.py:30-31`, `53-54`, `59-60`, `65-66`, `71-72`). -/
def LabelSel.resolve (s : LabelSel) (labels : List Int) : List Int :=
  match s with
  | .all => labels
  | .list l => l

/-- `handlers/handler_element.py:30-50` `assign_material`.  `mprop.isInt` is irrelevant here.
A label without element selects no row and is ignored. -/
def assignMaterial {F} [Zero F] [Flt F] (t : ElemTab F) (sel : LabelSel) (mprop : List F)
    (mtype : Option Int) : Py (ElemTab F) := do
  let labels := sel.resolve t.labels
  -- reshape (extend) material properties
  let (tab, mprop) :=
    if t.mprop.cols < mprop.length then
      let k := mprop.length - t.mprop.cols
      (({ isInt := false, cols := mprop.length, rows := t.mprop.rows.map (· ++ List.replicate k 0) } : PTab F),
        mprop)
    else if mprop.length < t.mprop.cols then
      (t.mprop, mprop ++ List.replicate (t.mprop.cols - mprop.length) 0)
    else (t.mprop, mprop)
  labels.foldlM (fun (t : ElemTab F) label => do
    let idx := whereEq t.labels label
    let m ← t.mprop.assign idx mprop
    return { t with
      mprop := m
      mtype := match mtype with
        | none => t.mtype
        | some ty => setAll t.mtype idx ty }) { t with mprop := tab }

/-- `handlers/handler_element.py:52-56` `assign_geometry`. -/
def assignGeometry {F} [Flt F] (t : ElemTab F) (sel : LabelSel) (gprop : List F) : Py (ElemTab F) :=
  (sel.resolve t.labels).foldlM (fun (t : ElemTab F) label => do
    let g ← t.gprop.assign (whereEq t.labels label) gprop
    return { t with gprop := g }) t

/-- `handlers/handler_element.py:58-62` `assign_geometries` (a scalar entry is a one-element list:
both broadcast alike). -/
def assignGeometries {F} [Flt F] (t : ElemTab F) (sel : LabelSel) (gprops : List (List F)) :
    Py (ElemTab F) :=
  ((sel.resolve t.labels).zip gprops).foldlM (fun (t : ElemTab F) p => do
    let g ← t.gprop.assign (whereEq t.labels p.1) p.2
    return { t with gprop := g }) t

/-- `handlers/handler_element.py:64-68` `assign_etype`. -/
def assignEtype {F} (t : ElemTab F) (sel : LabelSel) (ty : Int) : ElemTab F :=
  (sel.resolve t.labels).foldl (fun (t : ElemTab F) label =>
    { t with etype := setAll t.etype (whereEq t.labels label) ty }) t

/-- `handlers/handler_element.py:70-74` `assign_mtype`. -/
def assignMtype {F} (t : ElemTab F) (sel : LabelSel) (ty : Int) : ElemTab F :=
  (sel.resolve t.labels).foldl (fun (t : ElemTab F) label =>
    { t with mtype := setAll t.mtype (whereEq t.labels label) ty }) t

/-- `handlers/handler_element.py:114-116` `get_nodes`. -/
def getNodes {F} (t : ElemTab F) (label : Int) : Py (List Int) :=
  npFirst t.conns.rows (whereEq t.labels label)

/-- `handlers/handler_element.py:118-120` `NE`: `conns[np.where(..)][0, -1]`. -/
def elemNE {F} (t : ElemTab F) (label : Int) : Py Int := do
  let c ← npFirst t.conns.rows (whereEq t.labels label)
  pyGet c (-1)

/-- `handlers/handler_element.py:122-124` `NA`: `conns[np.where(..)][0, -2]`. -/
def elemNA {F} (t : ElemTab F) (label : Int) : Py Int := do
  let c ← npFirst t.conns.rows (whereEq t.labels label)
  pyGet c (-2)

/-- `handlers/handler_element.py:126-128` `get_material_type`. -/
def getMaterialType {F} (t : ElemTab F) (label : Int) : Py Int :=
  npFirst t.mtype (whereEq t.labels label)

/-- `handlers/handler_element.py:130-132` `get_element_type`. -/
def getElementType {F} (t : ElemTab F) (label : Int) : Py Int :=
  npFirst t.etype (whereEq t.labels label)

/-- `handlers/handler_element.py:134-136` `get_material_properties`. -/
def getMaterialProperties {F} (t : ElemTab F) (label : Int) : Py (List F) :=
  npFirst t.mprop.rows (whereEq t.labels label)

/-- `handlers/handler_element.py:138-140` `get_geometric_properties`. -/
def getGeometricProperties {F} (t : ElemTab F) (label : Int) : Py (List F) :=
  npFirst t.gprop.rows (whereEq t.labels label)

end TrussPy
