import Verif.Build
import Verif.Material
/-!
# Truss element, equilibrium and stiffness

Models `elements/element_definition.py` and `model.py:443-572`.
-/

namespace TrussPy

variable {F : Type} [Zero F] [One F] [Add F] [Sub F] [Mul F] [Div F] [Neg F] [Flt F]

/-- `np.dot` of two rows of length 3 (`element_definition.py:44-46`). -/
def dot3 (a b : V3 F) : F := a 0 * b 0 + a 1 * b 1 + a 2 * b 2

/-- `np.outer(n, n)` entry-wise (`element_definition.py:94`). -/
def outer3 (a b : V3 F) : M3 F := fun i k => a i * b k

/-- `np.eye(3)` (`element_definition.py:93`). -/
def eye3 : M3 F := fun i k => if i = k then 1 else 0

/-- Assigning a row to a row of `np.zeros((2,3))` (`model.py:511-534`): three components, or one
component that is broadcast; otherwise `ValueError`. -/
def toV3 (l : List F) : Py (V3 F) :=
  match l with
  | [a, b, c] => .ok fun i => if i = 0 then a else if i = 1 then b else c
  | [a] => .ok fun _ => a
  | _ => .error .valueError

/-- Row `i` of a flattened `(n,3)` array (`self.Analysis.U[..]`, `model.py:518`, `523`). -/
def row3 (u : List F) (i : Nat) : V3 F := fun c => u.getD (3 * i + c.val) 0

/-- Everything `truss` computes before writing to the analysis object (`element_definition.py:27-65`). -/
structure TrussOut (F : Type) where
  n : V3 F
  L : F
  l : F
  lam : F
  stress : F
  dsde : F
  A : F
  N : F
  statev : Option (List F)

/-- `elements/element_definition.py:27-65`: kinematics, material call and normal force.  Lengths use
`sqrt(dot)`; line 41 uses `np.linalg.norm(dx)`, the same quantity.  Division by a zero length is left
to the carrier (NumPy yields nan/inf with a warning, no exception).  Lines 69-74 compute a matrix
`KT` that is overwritten in stage K and unused in stage G; it is omitted. -/
def trussCore (umat : Umat) (XA XE UA UE U0A U0E : V3 F) (matProp geoProp : List F)
    (statev : Option (List F)) : Py (TrussOut F) := do
  let dU : V3 F := fun i => UE i - UA i
  let dX : V3 F := fun i => XE i - XA i
  let dx : V3 F := fun i => dX i + dU i
  let dU0 : V3 F := fun i => U0E i - U0A i
  let dx0 : V3 F := fun i => dX i + dU0 i
  -- elemental normal vector in deformed configuration
  let n : V3 F := fun i => dx i / Flt.sqrt (dot3 dx dx)
  let L := Flt.sqrt (dot3 dX dX)
  let l := Flt.sqrt (dot3 dx dx)
  let l0 := Flt.sqrt (dot3 dx0 dx0)
  let lam0 := l0 / L
  let lam := l / L
  let E11 := lam - 1
  let dE11 := lam - lam0
  let out ← umat.call E11 dE11 matProp statev
  let A ← pyGet geoProp 0
  let N := out.s * A
  return { n, L, l, lam, stress := out.s, dsde := out.dsde, A, N, statev := out.statev }

/-- `element_definition.py:93-94`: tangent block
`dsde*A/L * outer(n,n) + N/l * (J - outer(n,n))`. -/
def trussK (o : TrussOut F) : M3 F := fun i k =>
  o.dsde * o.A / o.L * outer3 o.n o.n i k + o.N / o.l * (eye3 i k - outer3 o.n o.n i k)

/-- The `stage` argument of `truss` and `Model.equilibrium` (`element_definition.py:76`, `91`, `model.py:472`). -/
inductive Stage where
  | G
  | K
  deriving DecidableEq, Repr

/-- `analysis.K[a, b] += block` (`element_definition.py:97-117`). -/
def addBlock (K : List (List (M3 F))) (a b : Nat) (blk : M3 F) : List (List (M3 F)) :=
  K.modify a fun row => row.modify b fun m => fun i k => m i k + blk i k

/-- `np.where(nodelist == node)[0][0]` (`element_definition.py:97-117`). -/
def firstIdx (labels : List Int) (node : Int) : Py Nat :=
  match whereEq labels node with
  | [] => .error .indexError
  | i :: _ => .ok i

/-- `element_definition.py:55-59`: the row of the element in the table of state variables. -/
def elemState (statev : Option (List (List F))) (idx : List Nat) : Py (Option (List F)) :=
  match statev with
  | none => .ok none
  | some sv => do
    let row ← npFirst sv idx
    return some row

/-- `elements/element_definition.py:11-119` `truss`: kinematics and writes to the analysis object.
Returns the analysis and the updated (local) table of state variables. -/
def truss (e : Int) (nodes : List Int) (Xn Un U0n rn : List (V3 F)) (nodelist elementlist : List Int)
    (stage : Stage) (statev : Option (List (List F))) (matProp geoProp : List F) (umat : Umat)
    (a : Analysis F) : Py (Analysis F × Option (List (List F))) := do
  let [NA, NE] := nodes | .error .valueError
  let [XA, XE] := Xn | .error .valueError
  let [UA, UE] := Un | .error .valueError
  let [rA, rE] := rn | .error .valueError
  let [U0A, U0E] := U0n | .error .valueError
  let idx := whereEq elementlist e
  let statee ← elemState statev idx
  let o ← trussCore umat XA XE UA UE U0A U0E matProp geoProp statee
  match stage with
  | .G =>
    let rA' : V3 F := fun i => rA i + o.N * -(o.n i)
    let rE' : V3 F := fun i => rE i + o.N * o.n i
    let statev' := match statev, o.statev with
      | some sv, some row => some (setAll sv idx row)
      | sv, _ => sv
    return ({ a with
      stretch := setAll a.stretch idx o.lam
      elementStress := setAll a.elementStress idx o.stress
      elementForce := setAll a.elementForce idx o.N
      r := setAll (setAll a.r (whereEq nodelist NA) rA') (whereEq nodelist NE) rE' }, statev')
  | .K =>
    let KTEE := trussK o
    let ia ← firstIdx nodelist NA
    let ie ← firstIdx nodelist NE
    let neg : M3 F := fun i k => -(KTEE i k)
    let K := addBlock a.K ia ia KTEE
    let K := addBlock K ia ie neg
    let K := addBlock K ie ia neg
    let K := addBlock K ie ie KTEE
    return ({ a with K := K }, statev)

/-- What `equilibrium`/`stiffness` read from the model object (`self.Nodes`, `self.Elements`,
`self.ndof1`, `self.Settings.nstatev`, ..., `model.py:443-572`). -/
structure Ctx (F : Type) where
  nodes : NodeTab F
  elems : ElemTab F
  nnodes : Nat
  ndof1 : Nat
  nstatev : Nat

/-- `U.reshape(-1)[DOF1] = v` (`model.py:492-501`): `ValueError` unless lengths agree or `v` has one
entry. -/
def scatter (u : List F) (idx : List Nat) (v : List F) : Py (List F) :=
  if v.length = idx.length then .ok ((idx.zip v).foldl (fun acc p => acc.set p.1 p.2) u)
  else match v with
    | [x] => .ok (setAll u idx x)
    | _ => .error .valueError

/-- `model.py:511-534`: one row per connected node, taken at `np.where(labels == node)`. -/
def gatherRows {α : Type} (f : List Nat → Py α) (labels : List Int) : List Int → Py (List α)
  | [] => .ok []
  | n :: ns => do
    let x ← f (whereEq labels n)
    let xs ← gatherRows f labels ns
    return x :: xs

/-- `model.py:538-541`: selection of the law.  The Python variable `umat` survives from one loop pass
to the next, so an unknown type keeps the previous law. -/
def selectUmat (prev : Option Umat) (mtype : Int) : Option Umat :=
  if mtype = 1 then some .el else if mtype = 2 then some .elplast else prev

/-- Body of the element loop `model.py:504-562`. -/
def elemStep (c : Ctx F) (stage : Stage) (write : Bool) (lpf : F) (Ured : List F)
    (st : Analysis F × Option Umat) (e : Int) : Py (Analysis F × Option Umat) := do
  let (a, prev) := st
  let nodes ← getNodes c.elems e
  let matProp ← getMaterialProperties c.elems e
  let geoProp ← getGeometricProperties c.elems e
  let labels := c.nodes.labels
  let Xn ← gatherRows (fun idx => do let row ← npFirst c.nodes.coords.rows idx; toV3 row) labels nodes
  let Un ← gatherRows (fun idx => npFirst ((List.range c.nnodes).map (row3 a.U)) idx) labels nodes
  let U0n ← gatherRows (fun idx => npFirst ((List.range c.nnodes).map (row3 a.U0)) idx) labels nodes
  let statev := if 0 < c.nstatev then a.statev else none
  let rn ← gatherRows (fun idx => npFirst a.r idx) labels nodes
  let mtype ← getMaterialType c.elems e
  let umat? := selectUmat prev mtype
  -- an unset local variable raises UnboundLocalError
  let some umat := umat? | .error .unboundLocal
  let (a, statev) ← truss e nodes Xn Un U0n rn labels c.elems.labels stage statev matProp geoProp umat a
  let a := if write && decide (0 < c.nstatev) then
      { a with statev := statev, lpf := some lpf, Vred := Ured ++ [lpf] }
    else a
  return (a, umat?)

/-- `analysis.r.flatten()` (`model.py:566`). -/
def flat3 (r : List (V3 F)) : List F := (r.map fun v => [v 0, v 1, v 2]).flatten

/-- `model.py:565-569`: `-r.flatten() + forces_const.flatten() + lpf * forces.flatten()`;
`ValueError` for different shapes. -/
def residual (r : List (V3 F)) (fc f : List F) (lpf : F) : Py (List F) :=
  let rf := flat3 r
  if rf.length = fc.length ∧ rf.length = f.length then
    .ok (List.zipWith (· + ·) (List.zipWith (· + ·) (rf.map fun x => -x) fc) (f.map fun x => lpf * x))
  else .error .valueError

/-- `model.py:478-484`: an extended vector carries the LPF as last entry. -/
def splitV (c : Ctx F) (a : Analysis F) (Ured U0red : List F) : Py (F × List F × List F) :=
  if c.ndof1 < Ured.length then
    match Ured.getLast? with
    | some lpf => .ok (lpf, Ured.take c.ndof1, U0red.take c.ndof1)
    | none => .error .indexError
  else match a.lpf with
    | some lpf => .ok (lpf, Ured, U0red)
    | none => .error .attributeError

/-- `model.py:486-501`: reset of `r` or `K` and copy of the displacement vectors. -/
def prepare (a : Analysis F) (Ured U0red : List F) (stage : Stage) : Py (Analysis F) := do
  let a : Analysis F := match stage with
    | .G => { a with r := a.r.map fun _ => fun _ => 0 }
    | .K => { a with K := a.K.map fun row => row.map fun _ => fun _ _ => 0 }
  let U ← scatter a.U a.DOF1 Ured
  let U0 ← scatter a.U0 a.DOF1 U0red
  return { a with U := U, U0 := U0 }

/-- `model.py:472-572` `Model.equilibrium` on the given analysis object (`self.Analysis` or the
`analysis` argument, which replaces it).  Returns the mutated analysis and the result (`[]` for the
`None` of stage K). -/
def equilibrium (c : Ctx F) (a : Analysis F) (Ured U0red : List F) (stage : Stage) (write : Bool) :
    Py (Analysis F × List F) := do
  let (lpf, Ured, U0red) ← splitV c a Ured U0red
  let a ← prepare a Ured U0red stage
  let (a, _) ← c.elems.labels.foldlM (elemStep c stage write lpf Ured) (a, none)
  match stage with
  | .K => return (a, [])
  | .G =>
    match a.extForces with
    | none => .error .attributeError
    | some ef =>
      let g ← residual a.r ef.forcesConst ef.forces lpf
      let gred ← npTake g a.DOF1
      return ({ a with g := g }, gred)

/-- Entry `(p,q)` of the re-shaped matrix `K_out` (`model.py:457-465`): the double loop writes block
`K[a,b]` to rows `3a..3a+2` and columns `3b..3b+2`. -/
def kOut (K : List (List (M3 F))) (p q : Nat) : F :=
  match K[p / 3]? with
  | none => 0
  | some row => match row[q / 3]? with
    | none => 0
    | some m => m ⟨p % 3, Nat.mod_lt _ (by decide)⟩ ⟨q % 3, Nat.mod_lt _ (by decide)⟩

/-- `model.py:443-470` `Model.stiffness`. -/
def stiffness (c : Ctx F) (a : Analysis F) (Ured : List F) : Py (Analysis F × List (List F)) := do
  let (a, _) ← equilibrium c a Ured Ured .K false
  let Kred := a.DOF1.map fun p => a.DOF1.map fun q => kOut a.K p q
  return ({ a with Kred := Kred }, Kred)

end TrussPy
