import Verif.Spec.Mechanics
/-!
# Specification: the same structure in other units

Lengths are multiplied by `s`, areas by `a` and stresses by `e` (so forces by `a * e`). The three factors are independent; a
change of the unit of length alone is `a = s ^ 2`, `e = 1 / s ^ 2`, a change of the unit of force alone is `s = a = 1`.
-/

namespace TrussPy

/-- Positive conversion factors. -/
structure Units where
  s : ℝ
  a : ℝ
  e : ℝ
  hs : 0 < s
  ha : 0 < a
  he : 0 < e

/-- Factor of forces. -/
def Units.force (t : Units) : ℝ := t.a * t.e

/-- The bar `b'` is the bar `b` in other units. -/
structure Bar.Converted (t : Units) (b b' : Bar ℝ) : Prop where
  iA : b'.iA = b.iA
  iE : b'.iE = b.iE
  XA : ∀ d, b'.XA d = t.s * b.XA d
  XE : ∀ d, b'.XE d = t.s * b.XE d
  mat : b'.mat = b.mat.map (t.e * ·)
  geo : b'.geo = b.geo.map (t.a * ·)
  law : b'.law = b.law

/-- State variables in other units: a yield stress, then strains. -/
def convRow (t : Units) : List ℝ → List ℝ
  | [] => []
  | y :: r => t.e * y :: r

/-- The structure of `c'` is that of `c` in other units. -/
structure Converted (t : Units) (c c' : Ctx ℝ) (bars bars' : List (Bar ℝ)) : Prop where
  nnodes : c'.nnodes = c.nnodes
  ndof1 : c'.ndof1 = c.ndof1
  nstatev : c'.nstatev = c.nstatev
  length : bars'.length = bars.length
  bar : ∀ (k : Nat) b b', bars[k]? = some b → bars'[k]? = some b' → b.Converted t b'

/-- The analysis object `b` has the displacements, loads and state variables of `a` in other units. -/
structure Analysis.Converted (t : Units) (a b : Analysis ℝ) : Prop where
  dofs : b.DOF1 = a.DOF1
  U : b.U = a.U.map (t.s * ·)
  U0 : b.U0 = a.U0.map (t.s * ·)
  lpf : b.lpf = a.lpf
  loads : b.extForces = a.extForces.map fun ef => ⟨ef.forces.map (t.force * ·), ef.forcesConst.map (t.force * ·)⟩
  loadsFree : b.f0red = a.f0red.map (t.force * ·)
  statev : b.statev = a.statev.map (·.map (convRow t))

/-- An extended vector (displacements, then the load factor) in other units. -/
def convV (t : Units) (n : Nat) (V : List ℝ) : List ℝ := (V.take n).map (t.s * ·) ++ V.drop n

/-- Factor of component `i` of an extended vector. -/
noncomputable def Units.comp (t : Units) (n i : Nat) : ℝ := if i < n then t.s else 1

end TrussPy
