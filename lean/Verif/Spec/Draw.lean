import Verif.Draw
import Verif.Spec.Plot
import Verif.Instances
import Mathlib.Data.Real.Basic
/-!
# Specification: what the picture of a truss should contain
-/

namespace TrussPy

variable {F : Type} [Zero F] [One F] [Add F] [Sub F] [Mul F] [Div F] [Neg F] [Flt F]

/-- The component named by a coordinate letter. -/
def letterComponent : Char → Option Nat
  | 'x' => some 0
  | 'y' => some 1
  | 'z' => some 2
  | _ => none

/-- `(h, v)` are the components drawn to the right and upwards in a plane view: the letters of the name of the view. -/
def PlaneView (view : PlotView) (h v : Nat) : Prop :=
  view = .xz ∧ h = 0 ∧ v = 2 ∨ view = .xy ∧ h = 0 ∧ v = 1 ∨ view = .yz ∧ h = 1 ∧ v = 2

/-- The load component is drawn: it does not compare equal to zero. -/
def Loaded (v : F) : Prop := Flt.eq v 0 = false

/-- Arrow of the plane view: it starts at the projection of a node and is `scale` times one drawn load component of that node,
in its direction. -/
def WantedArrow2 (loads points : List (List F)) (scale : F) (h v : Nat) (x y dx dy : F) : Prop :=
  ∃ (i : Nat) (f p : List F) (c : F), loads[i]? = some f ∧ points[i]? = some p ∧ p[h]? = some x ∧ p[v]? = some y ∧ Loaded c ∧
    (f[h]? = some c ∧ dx = scale * c ∧ dy = 0 ∨ f[v]? = some c ∧ dx = 0 ∧ dy = scale * c)

/-- Arrow of the 3-d view, from the node to the node plus `scale` times one load component in its direction. -/
def WantedArrow3 (loads points : List (List F)) (scale : F) (x0 x1 y0 y1 z0 z1 : F) : Prop :=
  ∃ (i : Nat) (f p : List F) (c : F), loads[i]? = some f ∧ points[i]? = some p ∧ p[0]? = some x0 ∧ p[1]? = some y0 ∧
    p[2]? = some z0 ∧ Loaded c ∧
    (f[0]? = some c ∧ x1 = x0 + scale * c ∧ y1 = y0 ∧ z1 = z0 ∨ f[1]? = some c ∧ x1 = x0 ∧ y1 = y0 + scale * c ∧ z1 = z0 ∨
      f[2]? = some c ∧ x1 = x0 ∧ y1 = y0 ∧ z1 = z0 + scale * c)

/-- The markers of the nodes. -/
def markers : List (Cmd F) → List (Cmd F) := List.filter fun
  | .marks2 _ => true
  | .marks3 _ => true
  | _ => false

/-- The coloured (or grey, without contour) lines: one per element; the wide line below a coloured one does not count. -/
def barLines : List (Cmd F) → List (Cmd F) := List.filter fun
  | .line2 _ _ _ _ .halo => false
  | .line3 _ _ _ _ _ _ .halo => false
  | .line2 .. => true
  | .line3 .. => true
  | _ => false

/-- The arrows. -/
def arrowCmds : List (Cmd F) → List (Cmd F) := List.filter fun
  | .arrow2 .. => true
  | .arrow3 .. => true
  | _ => false

/-- The colour bars. -/
def colorBars : List (Cmd F) → List (Cmd F) := List.filter fun
  | .colorbar .. => true
  | _ => false

/-- Number of drawn load components among the components `cs` of the loads of all drawn nodes. -/
def loadedCount (cs : List Nat) (loads points : List (List F)) : Nat :=
  ((loads.take points.length).map fun f => (cs.filter fun c => (f[c]?).any fun v => !Flt.eq v 0).length).sum

/-- The axis limits in force after the commands: the last ones set. -/
def finalX (cmds : List (Cmd F)) : Option (F × F) :=
  (cmds.filterMap fun | .xlim a b => some (a, b) | _ => none).getLast?

/-- See `finalX`. -/
def finalY (cmds : List (Cmd F)) : Option (F × F) :=
  (cmds.filterMap fun | .ylim a b => some (a, b) | _ => none).getLast?

/-- See `finalX`. -/
def finalZ (cmds : List (Cmd F)) : Option (F × F) :=
  (cmds.filterMap fun | .zlim a b => some (a, b) | _ => none).getLast?

/-- Point number `i` of the drawn points is the projection of row `i`. -/
def Projected2 (h v : Nat) (X : List (List F)) (pts : List (F × F)) : Prop :=
  pts.length = X.length ∧ ∀ (i : Nat) (p : List F), X[i]? = some p → ∃ x y, pts[i]? = some (x, y) ∧ p[h]? = some x ∧ p[v]? = some y

/-- The same in space. -/
def Projected3 (X : List (List F)) (pts : List (F × F × F)) : Prop :=
  pts.length = X.length ∧ ∀ (i : Nat) (p : List F), X[i]? = some p → ∃ x y z, pts[i]? = some (x, y, z) ∧ p[0]? = some x ∧
    p[1]? = some y ∧ p[2]? = some z

/-- Line of a bar from `p` to `q` in a plane view. -/
def BarLine2 (h v : Nat) (p q : List F) (c : Paint F) (cmd : Cmd F) : Prop :=
  ∃ x0 x1 y0 y1, cmd = .line2 x0 x1 y0 y1 c ∧ p[h]? = some x0 ∧ q[h]? = some x1 ∧ p[v]? = some y0 ∧ q[v]? = some y1

/-- Line of a bar from `p` to `q` in the 3-d view. -/
def BarLine3 (p q : List F) (c : Paint F) (cmd : Cmd F) : Prop :=
  ∃ x0 x1 y0 y1 z0 z1, cmd = .line3 x0 x1 y0 y1 z0 z1 c ∧ p[0]? = some x0 ∧ q[0]? = some x1 ∧ p[1]? = some y0 ∧
    q[1]? = some y1 ∧ p[2]? = some z0 ∧ q[2]? = some z1

/-- The paint of element `k`: grey without contour, otherwise its contour value. -/
def PaintOf (con : Option (List F × Option (F × F))) (k : Nat) (c : Paint F) : Prop :=
  con = none ∧ c = .plain ∨ ∃ vals lims v, con = some (vals, lims) ∧ vals[k]? = some v ∧ c = .shade v

/-- The paint of a line. -/
def cmdPaint : Cmd F → Option (Paint F)
  | .line2 _ _ _ _ p => some p
  | .line3 _ _ _ _ _ _ p => some p
  | _ => none

/-- The contour quantity `q` of element number `k` in the result `r`. -/
inductive ContourValue (r : Analysis F) : Contour → Nat → F → Prop where
  | stretch {k : Nat} {v : F} : r.stretch[k]? = some v → ContourValue r .stretch k v
  | force {k : Nat} {v : F} : r.elementForce[k]? = some v → ContourValue r .force k v
  | stress {k : Nat} {v : F} : r.elementStress[k]? = some v → ContourValue r .stress k v

/-- The command lies inside the plane limits `lx`, `ly`; only for the items which matplotlib takes into account when it
chooses limits itself: markers and lines, also transparent ones, but not arrows. -/
def Inside2 (lx ly : ℝ × ℝ) : Cmd ℝ → Prop
  | .marks2 pts => ∀ p ∈ pts, (lx.1 ≤ p.1 ∧ p.1 ≤ lx.2) ∧ ly.1 ≤ p.2 ∧ p.2 ≤ ly.2
  | .line2 x0 x1 y0 y1 _ => ((lx.1 ≤ x0 ∧ x0 ≤ lx.2) ∧ lx.1 ≤ x1 ∧ x1 ≤ lx.2) ∧ (ly.1 ≤ y0 ∧ y0 ≤ ly.2) ∧ ly.1 ≤ y1 ∧ y1 ≤ ly.2
  | .ghost2 x0 x1 y0 y1 => ((lx.1 ≤ x0 ∧ x0 ≤ lx.2) ∧ lx.1 ≤ x1 ∧ x1 ≤ lx.2) ∧ (ly.1 ≤ y0 ∧ y0 ≤ ly.2) ∧ ly.1 ≤ y1 ∧ y1 ≤ ly.2
  | _ => True

/-- The arrow, from its foot to its tip, lies inside the plane limits. -/
def ArrowInside2 (lx ly : ℝ × ℝ) : Cmd ℝ → Prop
  | .arrow2 x y dx dy =>
    ((lx.1 ≤ x ∧ x ≤ lx.2) ∧ lx.1 ≤ x + dx ∧ x + dx ≤ lx.2) ∧ (ly.1 ≤ y ∧ y ≤ ly.2) ∧ ly.1 ≤ y + dy ∧ y + dy ≤ ly.2
  | _ => True

/-- The horizontal coordinates of the command lie inside the limits of the 3-d axes. -/
def Inside3 (lx ly : ℝ × ℝ) : Cmd ℝ → Prop
  | .marks3 pts => ∀ p ∈ pts, (lx.1 ≤ p.1 ∧ p.1 ≤ lx.2) ∧ ly.1 ≤ p.2.1 ∧ p.2.1 ≤ ly.2
  | .line3 x0 x1 y0 y1 _ _ _ =>
    ((lx.1 ≤ x0 ∧ x0 ≤ lx.2) ∧ lx.1 ≤ x1 ∧ x1 ≤ lx.2) ∧ (ly.1 ≤ y0 ∧ y0 ≤ ly.2) ∧ ly.1 ≤ y1 ∧ y1 ≤ ly.2
  | .ghost3 x0 x1 y0 y1 _ _ =>
    ((lx.1 ≤ x0 ∧ x0 ≤ lx.2) ∧ lx.1 ≤ x1 ∧ x1 ≤ lx.2) ∧ (ly.1 ≤ y0 ∧ y0 ≤ ly.2) ∧ ly.1 ≤ y1 ∧ y1 ≤ ly.2
  | _ => True

/-- Limits chosen by matplotlib: ascending, and around every marker and line. -/
structure Autoscales (auto : List (Cmd ℝ) → (ℝ × ℝ) × (ℝ × ℝ)) : Prop where
  ascX : ∀ cs, (auto cs).1.1 ≤ (auto cs).1.2
  ascY : ∀ cs, (auto cs).2.1 ≤ (auto cs).2.2
  plane : ∀ cs, ∀ c ∈ cs, Inside2 (auto cs).1 (auto cs).2 c
  space : ∀ cs, ∀ c ∈ cs, Inside3 (auto cs).1 (auto cs).2 c

/-! ## A box around everything: one possible choice of limits -/

/-- Horizontal coordinates of a command (first and second axis). -/
def cmdXs : Cmd F → List F
  | .marks2 pts => pts.map (·.1)
  | .marks3 pts => pts.map (·.1)
  | .line2 x0 x1 _ _ _ => [x0, x1]
  | .ghost2 x0 x1 _ _ => [x0, x1]
  | .line3 x0 x1 _ _ _ _ _ => [x0, x1]
  | .ghost3 x0 x1 _ _ _ _ => [x0, x1]
  | _ => []

/-- See `cmdXs`. -/
def cmdYs : Cmd F → List F
  | .marks2 pts => pts.map (·.2)
  | .marks3 pts => pts.map (·.2.1)
  | .line2 _ _ y0 y1 _ => [y0, y1]
  | .ghost2 _ _ y0 y1 => [y0, y1]
  | .line3 _ _ y0 y1 _ _ _ => [y0, y1]
  | .ghost3 _ _ y0 y1 _ _ => [y0, y1]
  | _ => []

/-- Smallest interval around 0 and some numbers. -/
def hull (l : List F) : F × F :=
  (l.foldr (fun a m => if Flt.lt a m then a else m) 0, l.foldr (fun a m => if Flt.lt m a then a else m) 0)

/-- The smallest box which contains the origin and everything drawn. -/
def boxAround (cs : List (Cmd F)) : (F × F) × (F × F) := (hull (cs.flatMap cmdXs), hull (cs.flatMap cmdYs))

end TrussPy
