import Verif.Plot
/-!
# Drawing commands of `plot_model` and `plot_path`

Models `tools/helper_functions2.py` (`plot_nodes`, `plot_force`, `plot_elems`, `plot_pth`) and the part of
`tools/plot_utilities.py:33-173` which calls them, as a list of commands handed over to matplotlib: figures and axes created,
points, arrows, lines, colour bar, axis limits and axis names.  Colours, line widths, the text box and the title are not
modelled; what `plt.xlim()` and `plt.ylim()` return after automatic scaling is a parameter.
-/

namespace TrussPy

variable {F : Type} [Zero F] [One F] [Add F] [Sub F] [Mul F] [Div F] [Neg F] [Flt F]

/-- The argument `view` (`helper_functions2.py:78-84`, `101-108`, `211-216`); `other` is any string without a branch. -/
inductive PlotView where
  | xz
  | xy
  | yz
  | d3
  | other
  deriving DecidableEq, Repr

/-- How a line is painted (`helper_functions2.py:227-284`): grey, the wide grey line below a coloured one, or by the colour
of a contour value. -/
inductive Paint (F : Type) where
  | plain
  | halo
  | shade (v : F)
  deriving DecidableEq, Repr

/-- Calls of matplotlib: `plt.figure` (`plot_utilities.py:45`), new figure with 3-d axes (`helper_functions2.py:87-90`,
`121-124`, `242-245`), the transparent lines which only make room (135-140, 183), arrows, markers, lines, colour bar
(286-292), limits (295-361), `set_aspect` (355), coordinate frame (`plot_coord`, 28-45) and axis names
(`plot_utilities.py:165-171`). -/
inductive Cmd (F : Type) where
  | figure
  | axes3
  | ghost2 (x0 x1 y0 y1 : F)
  | ghost3 (x0 x1 y0 y1 z0 z1 : F)
  | arrow2 (x y dx dy : F)
  | arrow3 (x0 x1 y0 y1 z0 z1 : F)
  | marks2 (pts : List (F × F))
  | marks3 (pts : List (F × F × F))
  | line2 (x0 x1 y0 y1 : F) (p : Paint F)
  | line3 (x0 x1 y0 y1 z0 z1 : F) (p : Paint F)
  | colorbar (lo hi : F)
  | xlim (lo hi : F)
  | ylim (lo hi : F)
  | zlim (lo hi : F)
  | aspectEqual
  | frame (a : F)
  | axisNames2 (h v : Char)
  | axisNames3 (x y z : Char)
  deriving DecidableEq, Repr

/-- `helper_functions2.py:78-83`, `211-216`: horizontal and vertical component; the names stay unbound for other views. -/
def viewAxes : PlotView → Py (Int × Int)
  | .xz => .ok (0, 2)
  | .xy => .ok (0, 1)
  | .yz => .ok (1, 2)
  | .d3 => .error .unboundLocal
  | .other => .error .unboundLocal

/-- `helper_functions2.py:101-108`: the same in `plot_force`, with a third component. -/
def forceAxes : PlotView → Py (Int × Int × Int)
  | .xz => .ok (0, 2, 1)
  | .xy => .ok (0, 1, 2)
  | .yz => .ok (1, 2, 0)
  | .d3 => .ok (0, 1, 2)
  | .other => .error .unboundLocal

/-- `if fig is None: ...; if ax is None: ...` (`helper_functions2.py:121-124`): new 3-d axes unless there are some. -/
def openAxes (ax : Bool) : List (Cmd F) := if ax then [] else [.axes3]

/-- `helper_functions2.py:134-178`: the arrows of one node in the 3-d view, components in the order k, j, i. -/
def arrows3 (scale xx yy zz fi fj fk : F) : List (Cmd F) :=
  (if Flt.eq fk 0 then [] else
    [.ghost3 xx xx yy yy zz (zz + scale * fk), .arrow3 xx xx yy yy zz (zz + scale * fk)]) ++
  (if Flt.eq fj 0 then [] else
    [.ghost3 xx xx yy (yy + scale * fj) zz zz, .arrow3 xx xx yy (yy + scale * fj) zz zz]) ++
  (if Flt.eq fi 0 then [] else
    [.ghost3 xx (xx + scale * fi) yy yy zz zz, .arrow3 xx (xx + scale * fi) yy yy zz zz])

/-- `helper_functions2.py:179-205`: the arrows of one node in a plane view. -/
def arrows2 (scale xx yy fi fj : F) : List (Cmd F) :=
  (if Flt.eq fi 0 then [] else
    [.arrow2 xx yy (scale * fi) 0, .ghost2 xx (xx + scale * fi) yy (yy + 0)]) ++
  (if Flt.eq fj 0 then [] else
    [.arrow2 xx yy 0 (scale * fj), .ghost2 xx (xx + 0) yy (yy + scale * fj)])

/-- `helper_functions2.py:100-207` `plot_force`: loop over the pairs of load and position; `ax` says whether 3-d axes exist. -/
def forceLoop (view : PlotView) (scale : F) : List (List F × List F) → Bool → Py (List (Cmd F) × Bool)
  | [], ax => .ok ([], ax)
  | (f, X) :: rest, ax =>
    if f.all fun v => Flt.eq v 0 then forceLoop view scale rest ax
    else do
      let (i, j, k) ← forceAxes view
      let xx ← pyGet X i
      let yy ← pyGet X j
      let fi ← pyGet f i
      let fj ← pyGet f j
      if view = .d3 then do
        let zz ← pyGet X k
        let fk ← pyGet f k
        let (cmds, ax') ← forceLoop view scale rest true
        return (openAxes ax ++ arrows3 scale xx yy zz fi fj fk ++ cmds, ax')
      else do
        let (cmds, ax') ← forceLoop view scale rest ax
        return (arrows2 scale xx yy fi fj ++ cmds, ax')

/-- `helper_functions2.py:77-97` `plot_nodes`. -/
def plotNodes (view : PlotView) (X : List (List F)) (ax : Bool) : Py (List (Cmd F)) :=
  if view = .d3 then do
    let pts ← X.mapM fun row => do
      let x ← pyGet row 0
      let y ← pyGet row 1
      let z ← pyGet row 2
      return (x, y, z)
    return openAxes ax ++ [.marks3 pts]
  else do
    let (i, j) ← viewAxes view
    let pts ← X.mapM fun row => do
      let x ← pyGet row i
      let y ← pyGet row j
      return (x, y)
    return [.marks2 pts]

/-- `helper_functions2.py:227-239`: how element number `k` is painted. -/
def elemPaint (con : Option (List F × Option (F × F))) (k : Nat) : Py (Paint F) :=
  match con with
  | none => .ok .plain
  | some (vals, _) => do
    let v ← pyGet vals (k : Int)
    return .shade v

/-- `helper_functions2.py:241-284`: the line of one element from `p` to `q`, above a wide grey one if there is a contour. -/
def elemLines (view : PlotView) (p q : List F) (paint : Paint F) : Py (List (Cmd F)) :=
  let paints : List (Paint F) := match paint with
    | .shade v => [.halo, .shade v]
    | c => [c]
  if view = .d3 then do
    let x0 ← pyGet p 0
    let x1 ← pyGet q 0
    let y0 ← pyGet p 1
    let y1 ← pyGet q 1
    let z0 ← pyGet p 2
    let z1 ← pyGet q 2
    return paints.map (.line3 x0 x1 y0 y1 z0 z1)
  else do
    let (i, j) ← viewAxes view
    let x0 ← pyGet p i
    let x1 ← pyGet q i
    let y0 ← pyGet p j
    let y1 ← pyGet q j
    return paints.map (.line2 x0 x1 y0 y1)

/-- `helper_functions2.py:223-284`: loop over the elements, `k` counts them.  (In the 3-d view the axes exist, because
`plot_nodes` comes first.) -/
def elemLoop (view : PlotView) (X : List (List F)) (con : Option (List F × Option (F × F))) :
    List (List Int) → Nat → Py (List (Cmd F))
  | [], _ => .ok []
  | e :: es, k => do
    let (p, q) ← plotSegment X e
    let paint ← elemPaint con k
    let line ← elemLines view p q paint
    let rest ← elemLoop view X con es (k + 1)
    return line ++ rest

/-- `helper_functions2.py:286-293`: the colour bar; `s_m` is unbound without elements, `None[0]` raises without limits. -/
def colourBar (con : Option (List F × Option (F × F))) (nelems : Nat) : Py (List (Cmd F)) :=
  match con with
  | none => .ok []
  | some (_, lims) =>
    if nelems = 0 then .error .unboundLocal else
    match lims with
    | none => .error .typeError
    | some (lo, hi) => .ok [.colorbar lo hi]

/-- The argument `lim_scale`: a number, or a tuple of limits (`helper_functions2.py:295-317`). -/
inductive LimScale (F : Type) where
  | scalar (s : F)
  | tuple (l : List F)

/-- Python's `max(a, b)` and `max(a, b, c, d)` (`helper_functions2.py:320-325`, `334`): the first of the largest. -/
def pyMax2 (a b : F) : F := if Flt.lt a b then b else a

/-- Python's `min(a, b)` (`helper_functions2.py:311`): the first of the smallest. -/
def pyMin2 (a b : F) : F := if Flt.lt b a then b else a

/-- `helper_functions2.py:295-359`: axis limits, `lx`, `ly` are what `plt.xlim()` and `plt.ylim()` return.  Six limits in a
plane view: `ax.set_zlim` raises, and so does the handler, because the tuple cannot be multiplied by a float. -/
def setLimits (view : PlotView) (lim : LimScale F) (lx ly : F × F) : Py (List (Cmd F)) :=
  match lim with
  | .tuple [a, b] => .ok [.xlim a b, .ylim a b]
  | .tuple [a, b, c, d] => .ok [.xlim a b, .ylim c d]
  | .tuple [a, b, c, d, e, f] =>
    if view = .d3 then
      .ok [.xlim a b, .ylim c d, .zlim e f, .frame (Flt.ofInt 1 / Flt.ofInt 2 * pyMin2 (pyMin2 b d) f)]
    else .error .typeError
  | .tuple _ => .ok []
  | .scalar s =>
    let m := s * pyMax2 (pyMax2 (pyMax2 (Flt.abs lx.1) (Flt.abs lx.2)) (Flt.abs ly.1)) (Flt.abs ly.2)
    let small := Flt.lt (Flt.abs s) (Flt.ofInt 100)
    let m := if Flt.lt s 0 then -s else m
    let centred : List (Cmd F) :=
      if Flt.lt s 0 then [] else
      let alimx := (lx.2 - lx.1) / Flt.ofInt 2
      let alimy := (ly.2 - ly.1) / Flt.ofInt 2
      let mlimx := (lx.2 + lx.1) / Flt.ofInt 2
      let mlimy := (ly.2 + ly.1) / Flt.ofInt 2
      let alim := s * pyMax2 alimx alimy
      if small then [.xlim (mlimx - alim) (mlimx + alim), .ylim (mlimy - alim) (mlimy + alim)] else []
    if view = .d3 then
      .ok (centred ++ if small then [.xlim (-m) m, .ylim (-m) m, .zlim (-m) m, .frame m] else [.frame 1])
    else
      .ok (centred ++ [.aspectEqual] ++ if Flt.lt s 0 && small then [.xlim (-m) m, .ylim (-m) m] else [])

/-- The argument `contour` (`plot_utilities.py:61-95`): none, a known name, an unknown one, or a tuple of name and limits. -/
inductive ContourArg (F : Type) where
  | none
  | name (q : Contour)
  | unknown
  | pair (q : Option Contour) (lims : Option (F × F))

/-- The argument `cbar_limits`: `"auto"` or limits (`plot_utilities.py:62`); `given none` is Python's `None`. -/
inductive CbarArg (F : Type) where
  | auto
  | given (lims : Option (F × F))

/-- `plot_utilities.py:51-95`: contour handed over to `plot_elems`; `con_data` is unbound for a tuple with an unknown name. -/
def chooseContour (r : Analysis F) (inc : Int) (contour : ContourArg F) (cbar : CbarArg F) :
    Py (Option (List F × Option (F × F))) :=
  if inc = 0 then .ok none else
  match contour with
  | .none => .ok none
  | .unknown => .ok none
  | .name q => match cbar with
    | .auto => do
      let lim ← contourLimits r q
      return some (contourData r q, some lim)
    | .given lims => .ok (some (contourData r q, lims))
  | .pair (some q) lims => .ok (some (contourData r q, lims))
  | .pair none _ => .error .unboundLocal

/-- `plot_utilities.py:160-171`: names of the axes. -/
def axisNames : PlotView → List (Cmd F)
  | .d3 => [.axisNames3 'x' 'y' 'z']
  | .xz => [.axisNames2 'x' 'z']
  | .xy => [.axisNames2 'x' 'y']
  | .yz => [.axisNames2 'y' 'z']
  | .other => []

/-- `plot_utilities.py:33-173` `p_model` with all commands; `auto cmds` is what `plt.xlim()` and `plt.ylim()` return after
these commands. -/
def drawModel (auto : List (Cmd F) → (F × F) × (F × F)) (m : Model F) (view : PlotView) (contour : ContourArg F)
    (lim : LimScale F) (scale : F) (cbar : CbarArg F) (inc : Int) : Py (List (Cmd F)) :=
  match m.nodes, m.elems, m.forces, m.results with
  | some nt, some et, some ft, some res => do
    let inc := if inc < 0 then (res.R.length : Int) + inc else inc
    let r ← pyGet res.R inc
    let (lpf, _) ← plotFactor r none inc
    let con ← chooseContour r inc contour cbar
    match r.extForces with
    | none => .error .attributeError
    | some ef => do
      let loads ← plotLoads ef.forcesConst lpf (stepSlice ft.forces.rows (r.step - 1))
      let X := deformed nt.coords.rows r.U
      let (arrows, ax) ← forceLoop view scale (loads.zip X) false
      let marks ← plotNodes view X ax
      let lines ← elemLoop view X con et.conns.rows 0
      let bar ← colourBar con et.conns.rows.length
      let drawn := .figure :: (arrows ++ marks ++ lines ++ bar)
      let limits ← setLimits view lim (auto drawn).1 (auto drawn).2
      return drawn ++ limits ++ axisNames view
  | _, _, _, _ => .error .attributeError

/-! ## `plot_path` -/

/-- The argument `nodepath`: a list (or tuple) of labels, or a `range` (`helper_functions2.py:61`). -/
inductive NodePath where
  | list (l : List Int)
  | range (start stop step : Int)

/-- Labels of a `range` with step `d > 0`, at most `n` of them (`helper_functions2.py:61`). -/
def rangeUp (stop d : Int) : Nat → Int → List Int
  | 0, _ => []
  | n + 1, a => if a < stop then a :: rangeUp stop d n (a + d) else []

/-- Labels of a `range` with step `d < 0`, at most `n` of them (`helper_functions2.py:61`). -/
def rangeDown (stop d : Int) : Nat → Int → List Int
  | 0, _ => []
  | n + 1, a => if stop < a then a :: rangeDown stop d n (a + d) else []

/-- The sequence of labels of a node path (`plot_utilities.py:213`). -/
def NodePath.labels : NodePath → List Int
  | .list l => l
  | .range a b d =>
    if 0 < d then rangeUp b d (b - a).toNat a
    else if d < 0 then rangeDown b d (a - b).toNat a
    else []

/-- Smallest and largest label, Python's `min(x)`, `max(x)` (`helper_functions2.py:61`): `ValueError` for an empty sequence. -/
def minMax : List Int → Py (Int × Int)
  | [] => .error .valueError
  | a :: l => .ok (l.foldl min a, l.foldl max a)

/-- `np.linspace(lo, hi, 11, dtype=int)` (`helper_functions2.py:62`): rounded down. -/
def intTicks (lo hi : Int) : List Int := (List.range 11).map fun (k : Nat) => lo + (hi - lo) * (k : Int) / 10

/-- `helper_functions2.py:58-73` `plot_pth`: abscissae of the points, and ticks as pairs of position and label.  A list never
equals a `range`. -/
def pathAxis (x : NodePath) : Py (List Int × List (Int × Int)) := do
  let (lo, hi) ← minMax x.labels
  match x with
  | .range _ _ _ =>
    if x.labels = (NodePath.range lo (hi + 1) 1).labels then
      return (x.labels, (intTicks lo hi).map fun t => (t, t))
    else
      return ((List.range x.labels.length).map Int.ofNat, x.labels.zipIdx.map fun p => ((p.2 : Int), p.1))
  | .list _ =>
    return ((List.range x.labels.length).map Int.ofNat, x.labels.zipIdx.map fun p => ((p.2 : Int), p.1))

end TrussPy
