import Verif.Run
/-!
# Data selection of the plot and movie functions

Models which numbers `tools/plot_utilities.py`, `tools/helper_functions2.py` and
`tools/movie_generator.py` hand over to matplotlib/imageio.  The drawing commands are in `Draw.lean`;
rendering is not modelled.
-/

namespace TrussPy

variable {F : Type} [Zero F] [One F] [Add F] [Sub F] [Mul F] [Div F] [Neg F] [Flt F]

/-! ## `plot_model` -/

/-- Rows of a flattened `(n,3)` array added to the coordinate rows: `self.Nodes.coords + U`
(`plot_utilities.py:108`, `116`, `125`). -/
def deformed (coords : List (List F)) (U : List F) : List (List F) :=
  coords.zipIdx.map fun p => p.1.zipIdx.map fun q => q.1 + U.getD (3 * p.2 + q.2) 0

/-- Contour quantities of `plot_utilities.py:61-95`. -/
inductive Contour where
  | stretch
  | force
  | stress
  deriving DecidableEq, Repr

/-- One contour column: `R[inc].stretch[:, 0]` and so on (`plot_utilities.py:69`, `78`, `87`). -/
def contourData (a : Analysis F) : Contour → List F
  | .stretch => a.stretch
  | .force => a.elementForce
  | .stress => a.elementStress

/-- Python's `max` of a sequence (`plot_utilities.py:64-83`): the first of the largest entries, `ValueError` if there is none. -/
def pyMax : List F → Py F
  | [] => .error .valueError
  | a :: as => .ok (as.foldl (fun m b => if Flt.lt m b then b else m) a)

/-- Colour bar limits for `cbar_limits="auto"` (`plot_utilities.py:62-66`, `71-75`, `80-84`). -/
def contourLimits (a : Analysis F) : Contour → Py (F × F)
  | .stretch => do
    let m ← pyMax (a.stretch.map fun l => Flt.abs (l - 1))
    return (1 - m, 1 + m)
  | .force => do
    let m ← pyMax (a.elementForce.map Flt.abs)
    return (-m, m)
  | .stress => do
    let m ← pyMax (a.elementStress.map Flt.abs)
    return (-m, m)

/-- What `p_model` draws (`plot_utilities.py:105-139`): nodal load rows, node positions, element segments (begin, end), optional
contour (value per drawn element, colour bar limits). -/
structure PlotData (F : Type) where
  loads : List (List F)
  points : List (List F)
  segments : List (List F × List F)
  contour : Option (List F × F × F)

/-- `helper_functions2.py:229-286` in `plot_elems`: the segment of one connectivity row;
`NA = e[-2]`, `NE = e[-1]`, positions `X[NA-1]`, `X[NE-1]` (python indexing). -/
def plotSegment (X : List (List F)) (e : List Int) : Py (List F × List F) := do
  let NA ← pyGet e (-2)
  let NE ← pyGet e (-1)
  let p ← pyGet X (NA - 1)
  let q ← pyGet X (NE - 1)
  return (p, q)

/-- `plot_utilities.py:107`: `f0_const + lpf * forces[:, 3*(step-1):3*step]`, `f0_const` flattened,
the result by rows; `ValueError` if the shapes differ (NumPy would accept a slice with a single column,
which this model rejects). -/
def plotLoads (fconst : List F) (lpf : F) (rows : List (List F)) : Py (List (List F)) :=
  if (∀ row ∈ rows, row.length = 3) ∧ fconst.length = 3 * rows.length then
    .ok (rows.zipIdx.map fun p => p.1.zipIdx.map fun q => fconst.getD (3 * p.2 + q.2) 0 + lpf * q.1)
  else .error .valueError

/-- `plot_utilities.py:51-59`: load factor and contour actually used; increment 0 is drawn with load factor 1
and without contour.  A load factor `None` would fail in line 107. -/
def plotFactor (r : Analysis F) (contour : Option Contour) (inc : Int) : Py (F × Option Contour) :=
  if inc = 0 then .ok (1, none) else
  match r.lpf with
  | none => .error .typeError
  | some l => .ok (l, contour)

/-- `plot_utilities.py:61-87`: contour values and limits. -/
def plotContour (r : Analysis F) : Option Contour → Py (Option (List F × F × F))
  | none => .ok none
  | some q => do
    let lim ← contourLimits r q
    return some (contourData r q, lim.1, lim.2)

/-- `plot_utilities.py:33-173` `p_model`: data selection with `cbar_limits="auto"`.  The increment is
normalised first (48-49). -/
def pModel (m : Model F) (contour : Option Contour) (inc : Int) : Py (PlotData F) :=
  match m.nodes, m.elems, m.forces, m.results with
  | some nt, some et, some ft, some res => do
    let inc := if inc < 0 then (res.R.length : Int) + inc else inc
    let r ← pyGet res.R inc
    let (lpf, contour) ← plotFactor r contour inc
    let con ← plotContour r contour
    match r.extForces with
    | none => .error .attributeError
    | some ef => do
      let loads ← plotLoads ef.forcesConst lpf (stepSlice ft.forces.rows (r.step - 1))
      let X := deformed nt.coords.rows r.U
      let segs ← et.conns.rows.mapM (plotSegment X)
      return ⟨loads, X, segs, con⟩
  | _, _, _, _ => .error .attributeError

/-- The calls of `model.py:575-582`: `plt_nodes`, `plt_elements`, `plt_extforces`. -/
inductive PltCall where
  | nodes
  | elements
  | extforces
  deriving DecidableEq, Repr

/-- Their argument `config` (`model.py:575-582`): a string (the default is `"undeformed"`) or an integer. -/
inductive PltArg where
  | text (s : List Char)
  | int (n : Int)
  deriving DecidableEq, Repr

/-- `p_extforces(self, step)` (`plot_utilities.py:26-30`).  A string minus one is a `TypeError`, raised while the index is
computed, before the table is looked at.  `forces` is `None` until the first load is added (`handler_extforce.py`), and
`None[...]` is a `TypeError`.  Then `self.Results.U` is read: there is no `Results` before `build`, and no attribute `U` of
`ResultHandler` (`handler_result.py:17-19`) after it. -/
def pExtforces (m : Model F) (step : PltArg) : Py Unit :=
  match step with
  | .text _ => .error .typeError
  | .int _ => match m.forces with
    | none => .error .typeError
    | some _ => .error .attributeError

/-- The calls of `PltCall` (`model.py:575-582`).  `plt_nodes` and `plt_elements` pass one argument more than `p_nodes` and
`p_elements` have (`plot_utilities.py:18`, `22`). -/
def pltCall (m : Model F) (config : PltArg) : PltCall → Py Unit
  | .nodes => .error .typeError
  | .elements => .error .typeError
  | .extforces => pExtforces m config

/-! ## `plot_history` and `plot_path` -/

/-- Python's `p in s` for strings (`plot_utilities.py:214-220`, `241-266`). -/
def hasSub (p : List Char) : List Char → Bool
  | [] => p.isEmpty
  | c :: s => p.isPrefixOf (c :: s) || hasSub p s

/-- `dir_dict[Y[-1]]` (`plot_utilities.py:207`, `237`): `KeyError` for other letters. -/
def dirIndex (s : List Char) : Py (Fin 3) :=
  match s.getLast? with
  | some 'X' => .ok 0
  | some 'Y' => .ok 1
  | some 'Z' => .ok 2
  | some _ => .error .keyError
  | none => .error .indexError

/-- `int(Y[-1])` (`plot_utilities.py:221`, `248`, `258`): `ValueError` unless the last character is a digit (only ASCII digits). -/
def lastDigit (s : List Char) : Py Int :=
  match s.getLast? with
  | some c => if c.isDigit then .ok ((c.toNat : Int) - 48) else .error .valueError
  | none => .error .indexError

/-- One value of `plot_utilities.py:214-222` / `241-249` / `251-259`: the branches are tried in the order
of the code; any other string keeps the previous value, initially NaN.  A load factor `None` is drawn as
NaN by matplotlib. -/
def quantity (labels : List Int) (node : Int) (Y : List Char) (r : Analysis F) (prev : F) : Py F :=
  if hasSub "Displacement".toList Y then do
    let row ← npFirst ((List.range (r.U.length / 3)).map (row3 r.U)) (whereEq labels node)
    let c ← dirIndex Y
    return row c
  else if hasSub "LPF".toList Y then .ok (r.lpf.getD Flt.nan)
  else if hasSub "Force".toList Y then do
    let row ← npFirst r.r (whereEq labels node)
    let c ← dirIndex Y
    return row c
  else if hasSub "State Variable".toList Y then do
    let k ← lastDigit Y
    match r.statev with
    | none => .error .typeError
    | some sv => do
      let row ← npFirst sv (whereEq labels node)
      pyGet row (k - 1)
  else .ok prev

/-- The loop over results of `p_history` (`plot_utilities.py:240-261`). -/
def histLoop (labels : List Int) (n0 n1 : Int) (X Y : List Char) :
    List (Analysis F) → F → F → Py (List (F × F))
  | [], _, _ => .ok []
  | r :: rs, x, y => do
    let x ← quantity labels n0 X r x
    let y ← quantity labels n1 Y r y
    let ps ← histLoop labels n0 n1 X Y rs x y
    return (x, y) :: ps

/-- `np.arange(n)` as numbers (`plot_utilities.py:264`, `266`). -/
def arangeF (n : Nat) : List F := (List.range n).map fun (i : Nat) => Flt.ofInt (i : Int)

/-- `plot_utilities.py:233-272` `p_history`: the two data rows handed to `plot_hist`; leading 0, then one
value per result; `Increments` replaces all by `0..len(R)` (263-266). -/
def pHistory (m : Model F) (n0 n1 : Int) (X Y : List Char) : Py (List F × List F) :=
  match m.results, m.nodes with
  | some res, some nt => do
    let ps ← histLoop nt.labels n0 n1 X Y res.R Flt.nan Flt.nan
    let xs := if hasSub "Increments".toList X then arangeF (1 + res.R.length) else 0 :: ps.map (·.1)
    let ys := if hasSub "Increments".toList Y then arangeF (1 + res.R.length) else 0 :: ps.map (·.2)
    return (xs, ys)
  | _, _ => .error .attributeError

/-- The loop over nodes of `p_path` (`plot_utilities.py:213-224`). -/
def pathLoop (labels : List Int) (Y : List Char) (r : Analysis F) : List Int → F → Py (List F)
  | [], _ => .ok []
  | n :: ns, prev => do
    let v ← quantity labels n Y r prev
    let vs ← pathLoop labels Y r ns v
    return v :: vs

/-- `plot_utilities.py:203-230` `p_path` with the `min(x)` of `plot_pth` (`helper_functions2.py:58`), which
raises `ValueError` for an empty path: the ordinates. -/
def pPath (m : Model F) (nodepath : List Int) (increment : Int) (Y : List Char) : Py (List F) :=
  match m.results, m.nodes with
  | some res, some nt => do
    let r ← pyGet res.R increment
    let ys ← pathLoop nt.labels Y r nodepath Flt.nan
    if nodepath.isEmpty then .error .valueError else return ys
  | _, _ => .error .attributeError

/-! ## Movie -/

/-- Decimal digits of `n` padded with zeros to `w` characters (for `plot_utilities.py:197`). -/
def padDigits (w n : Nat) : List Char :=
  let d := Nat.toDigits 10 n
  List.replicate (w - d.length) '0' ++ d

/-- `"{:03d}".format(i)` (`plot_utilities.py:197`): the sign counts as one of the three characters. -/
def pad3 (i : Int) : List Char :=
  if i < 0 then '-' :: padDigits 2 i.natAbs else padDigits 3 i.toNat

/-- File name of the frame of increment `i`, `plot_utilities.py:197`. -/
def frameName (i : Int) : List Char := "fig_".toList ++ (pad3 i ++ ".png".toList)

/-- Python's order of strings: lexicographic by code point (for `sorted`, `movie_generator.py:23`). -/
def strLe : List Char → List Char → Bool
  | [], _ => true
  | _ :: _, [] => false
  | a :: as, b :: bs => if a.val < b.val then true else if a = b then strLe as bs else false

/-- A directory with pictures of type `P`: file names with contents (`figures/png`, `plot_utilities.py:193`). -/
abbrev Dir (P : Type) := List (List Char × P)

/-- What `"figures/"` is on disk (`plot_utilities.py:190-193`); `dir` carries what is in `figures/png`. -/
inductive OnDisk (P : Type) where
  | absent
  | file
  | dir (png : Dir P)

/-- `plot_utilities.py:190-191`: `if os.path.isdir(..): shutil.rmtree(..)`. -/
def OnDisk.rmtree {P : Type} : OnDisk P → OnDisk P
  | .absent => .absent
  | .file => .file
  | .dir _ => .absent

/-- `plot_utilities.py:192-193`: `os.mkdir`, `FileExistsError` if the path exists. -/
def OnDisk.mkdir {P : Type} : OnDisk P → Py (Dir P)
  | .absent => .ok []
  | .file => .error .ioError
  | .dir _ => .error .ioError

/-- `plt.savefig(name)`: create or overwrite (`plot_utilities.py:197`). -/
def savefig {P : Type} (d : Dir P) (name : List Char) (p : P) : Dir P :=
  (d.filter fun q => q.1 ≠ name) ++ [(name, p)]

/-- The loop `plot_utilities.py:195-198`; `plot i` is the picture of increment `i`. -/
def frameLoop {P : Type} (plot : Int → Py P) : List Int → Dir P → Py (Dir P)
  | [], d => .ok d
  | i :: is, d => do
    let p ← plot i
    frameLoop plot is (savefig d (frameName i) p)

/-- Insert a file into a list of files sorted by name (for `sorted`, `movie_generator.py:23`). -/
def insertFile {P : Type} (f : List Char × P) : Dir P → Dir P
  | [] => [f]
  | g :: d => if strLe f.1 g.1 then f :: g :: d else g :: insertFile f d

/-- `sorted(os.listdir(..))` (`movie_generator.py:23`); names in a directory are distinct, so any sorting algorithm gives this list. -/
def sortFiles {P : Type} (d : Dir P) : Dir P := d.foldr insertFile []

/-- `movie_generator.py:24-27` in `png_to_gif`: the `.png` files in the order of `sorted(os.listdir(..))`. -/
def pngToGif {P : Type} (d : Dir P) : List P :=
  ((sortFiles d).filter fun p => ".png".toList.isSuffixOf p.1).map (·.2)

/-- `plot_utilities.py:176-200` `p_movie` (without `**kwargs`): the pictures of the gif in order. -/
def pMovie {P : Type} (plot : Int → Py P) (disk : OnDisk P) (incs : List Int) : Py (List P) := do
  let d ← disk.rmtree.mkdir
  let d ← frameLoop plot incs d
  return pngToGif d

/-- `incs="all"` (`plot_utilities.py:187-188`): `range(1, len(self.Results.R))`. -/
def allIncs (n : Nat) : List Int := (List.range (n - 1)).map fun (i : Nat) => (i : Int) + 1

end TrussPy
