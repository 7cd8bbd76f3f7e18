import Verif.Plot
/-!
# Specification: what a plot should show
-/

namespace TrussPy

variable {F : Type} [Zero F] [One F] [Add F] [Sub F] [Mul F] [Div F] [Neg F] [Flt F]

/-- The labels are 1, 2, ..., n in this order. -/
def Consecutive (labels : List Int) : Prop :=
  ∀ (i : Nat) (l : Int), labels[i]? = some l → l = (i : Int) + 1

/-- The segment `seg` joins the points of the two nodes named in the connectivity row `e`.  `points` has one row per
node, in the order of `labels`. -/
def JoinsNodes (labels : List Int) (points : List (List F)) (e : List Int) (seg : List F × List F) : Prop :=
  ∃ (a b : Int) (i j : Nat), e = [a, b] ∧ labels[i]? = some a ∧ labels[j]? = some b ∧
    points[i]? = some seg.1 ∧ points[j]? = some seg.2

/-- `points` are the coordinates plus the displacements (flat, three per node). -/
def DisplacedPoints (coords : List (List F)) (U : List F) (points : List (List F)) : Prop :=
  points.length = coords.length ∧
  ∀ (i : Nat) (row : List F), coords[i]? = some row → ∃ p, points[i]? = some p ∧ p.length = row.length ∧
    ∀ (k : Nat) (x u : F), row[k]? = some x → U[3 * i + k]? = some u → p[k]? = some (x + u)

/-- `inc` names result number `k` of `n`: directly or, if negative, counted from the end. -/
def NamesResult (n : Nat) (inc : Int) (k : Nat) : Prop :=
  k < n ∧ (inc = (k : Int) ∨ inc = (k : Int) - n)

/-- The load rows `loads` are the external load of the result `r`: constant load plus load factor times step load. -/
def LoadsOf (r : Analysis F) (loads : List (List F)) : Prop :=
  ∃ ef l, r.extForces = some ef ∧ r.lpf = some l ∧ 3 * loads.length = ef.forcesConst.length ∧
    ∀ (i : Nat) (row : List F), loads[i]? = some row → row.length = 3 ∧ ∀ k, k < 3 → ∃ c f,
      ef.forcesConst[3 * i + k]? = some c ∧ ef.forces[3 * i + k]? = some f ∧ row[k]? = some (c + l * f)

/-- The quantity named by the string `Y` at node number `i`. -/
inductive Shows (r : Analysis F) (i : Nat) : String → F → Prop where
  | dispX {u : F} : r.U[3 * i]? = some u → Shows r i "Displacement X" u
  | dispY {u : F} : r.U[3 * i + 1]? = some u → Shows r i "Displacement Y" u
  | dispZ {u : F} : r.U[3 * i + 2]? = some u → Shows r i "Displacement Z" u
  | forceX {v : V3 F} : r.r[i]? = some v → Shows r i "Force X" (v 0)
  | forceY {v : V3 F} : r.r[i]? = some v → Shows r i "Force Y" (v 1)
  | forceZ {v : V3 F} : r.r[i]? = some v → Shows r i "Force Z" (v 2)
  | lpf {l : F} : r.lpf = some l → Shows r i "LPF" l

/-- The seven strings which name a nodal quantity or the load factor. -/
def nodalQuantities : List String :=
  ["Displacement X", "Displacement Y", "Displacement Z", "Force X", "Force Y", "Force Z", "LPF"]

end TrussPy
