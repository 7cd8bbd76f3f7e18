import Verif.Spec.Structure
import Verif.Instances
import Verif.Spec.Plasticity
import Mathlib.LinearAlgebra.Matrix.ToLin
/-!
# Specification: mechanics of bars in exact arithmetic

Textbook quantities of a bar with end points moved by the displacements `U` (`row3 U i` is the
displacement of the node at position `i`).
-/

namespace TrussPy

/-- Euclidean length. -/
noncomputable def len (v : V3 ℝ) : ℝ := √(v 0 ^ 2 + v 1 ^ 2 + v 2 ^ 2)

/-- Undeformed axis. -/
def Bar.ref (b : Bar ℝ) : V3 ℝ := fun c => b.XE c - b.XA c

/-- Deformed axis: end point minus begin point. -/
def Bar.axis (b : Bar ℝ) (U : List ℝ) : V3 ℝ := fun c => (b.XE c + row3 U b.iE c) - (b.XA c + row3 U b.iA c)

/-- Stretch: deformed over undeformed length. -/
noncomputable def Bar.stretch (b : Bar ℝ) (U : List ℝ) : ℝ := len (b.axis U) / len b.ref

/-- Unit vector of the deformed axis. -/
noncomputable def Bar.dir (b : Bar ℝ) (U : List ℝ) : V3 ℝ := fun c => b.axis U c / len (b.axis U)

/-- `+1` at the end node, `-1` at the begin node, `0` elsewhere. -/
def Bar.sgn (b : Bar ℝ) (i : Nat) : ℝ := (if i = b.iE then 1 else 0) - (if i = b.iA then 1 else 0)

/-- Result of a bar. -/
structure BarRes where
  stretch : ℝ
  stress : ℝ
  /-- material tangent -/
  dsde : ℝ
  area : ℝ
  force : ℝ

/-- `x` is the result of the bar at displacement `U` with state variables `sv`: the material law gives
stress and tangent for the strain `stretch - 1`, and the normal force is stress times area. -/
structure Bar.Result (b : Bar ℝ) (U : List ℝ) (sv : Option (List ℝ)) (x : BarRes) : Prop where
  stretch : x.stretch = b.stretch U
  law : ∃ de out, b.law.call (x.stretch - 1) de b.mat sv = .ok out ∧ x.stress = out.s ∧ x.dsde = out.dsde
  area : b.geo[0]? = some x.area
  force : x.force = x.stress * x.area

/-- Results of all bars, in table order. -/
structure Results.Of (c : Ctx ℝ) (bars : List (Bar ℝ)) (U : List ℝ) (sv : Option (List (List ℝ)))
    (xs : List BarRes) : Prop where
  length : xs.length = bars.length
  result : ∀ (k : Nat) b x, bars[k]? = some b → xs[k]? = some x → b.Result U (stateRow c sv k) x

/-- Internal force of the node at position `i`: the sum of `+N n` over bars ending and `-N n` over bars
beginning there. -/
noncomputable def nodeForce (bars : List (Bar ℝ)) (xs : List BarRes) (U : List ℝ) (i : Nat) : V3 ℝ := fun c =>
  ((bars.zip xs).map fun p => p.1.sgn i * (p.2.force * p.1.dir U c)).sum

/-- Tangent matrix of a bar: `D A / L * n nᵀ + N / l * (1 - n nᵀ)`. -/
noncomputable def Bar.tangent (b : Bar ℝ) (U : List ℝ) (x : BarRes) : M3 ℝ := fun c d =>
  x.dsde * x.area / len b.ref * (b.dir U c * b.dir U d) +
    x.force / len (b.axis U) * ((if c = d then 1 else 0) - b.dir U c * b.dir U d)

/-- Stiffness block of the nodes at positions `i`, `j`. -/
noncomputable def nodeStiffness (bars : List (Bar ℝ)) (xs : List BarRes) (U : List ℝ) (i j : Nat) : M3 ℝ := fun c d =>
  ((bars.zip xs).map fun p => p.1.sgn i * p.1.sgn j * p.1.tangent U p.2 c d).sum

/-- The load factor of an evaluation at `V`: the last entry of an extended vector, otherwise that of the analysis object. -/
def LoadFactor (c : Ctx ℝ) (a : Analysis ℝ) (V : List ℝ) (lpf : ℝ) : Prop :=
  if c.ndof1 < V.length then V.getLast? = some lpf else a.lpf = some lpf

/-- Direction of the degree of freedom `p = 3 * node + direction`. -/
def comp (p : Nat) : Fin 3 := ⟨p % 3, Nat.mod_lt _ (by decide)⟩

/-- The reduced stiffness matrix: rows and columns of the free degrees of freedom. -/
noncomputable def reducedStiffness (dofs : List Nat) (bars : List (Bar ℝ)) (xs : List BarRes) (U : List ℝ) :
    List (List ℝ) :=
  dofs.map fun p => dofs.map fun q => nodeStiffness bars xs U (p / 3) (q / 3) (comp p) (comp q)

/-- Cross product. -/
def cross (a b : V3 ℝ) : V3 ℝ := fun c =>
  if c = 0 then a 1 * b 2 - a 2 * b 1 else if c = 1 then a 2 * b 0 - a 0 * b 2 else a 0 * b 1 - a 1 * b 0

/-- The same bar with begin and end node exchanged. -/
def Bar.flip (b : Bar ℝ) : Bar ℝ := ⟨b.iE, b.iA, b.XE, b.XA, b.mat, b.geo, b.law⟩

/-- The second structure has the bars of the first in another order (bar `k` was bar `π k`), some of
them flipped, with their state variables. -/
structure Rearranged (c c' : Ctx ℝ) (bars bars' : List (Bar ℝ)) (sv sv' : Option (List (List ℝ))) (π : Nat → Nat) :
    Prop where
  nnodes : c'.nnodes = c.nnodes
  perm : ((List.range bars.length).map π).Perm (List.range bars.length)
  length : bars'.length = bars.length
  bar : ∀ k b', bars'[k]? = some b' → ∃ b, bars[π k]? = some b ∧ (b' = b ∨ b' = b.flip)
  state : ∀ k, k < bars.length → stateRow c' sv' k = stateRow c sv (π k)

/-- `Q` is orthogonal (a rotation, possibly with a reflection). -/
def Orthogonal (Q : M3 ℝ) : Prop := ∀ c d, Q 0 c * Q 0 d + Q 1 c * Q 1 d + Q 2 c * Q 2 d = if c = d then 1 else 0

/-- Matrix times vector. -/
def mulVec3 (Q : M3 ℝ) (v : V3 ℝ) : V3 ℝ := fun c => Q c 0 * v 0 + Q c 1 * v 1 + Q c 2 * v 2

/-- The deformed configuration of `U'` is that of `U`, rotated by `Q` about the origin and shifted by
`t`. -/
def RigidlyMoved (c : Ctx ℝ) (Q : M3 ℝ) (t : V3 ℝ) (U U' : List ℝ) : Prop :=
  ∀ i X, CoordRow c i X → ∀ d, X d + row3 U' i d = mulVec3 Q (fun e => X e + row3 U i e) d + t d

/-- Conditions under which the force of a bar is differentiable: the deformed bar has not collapsed to a
point and, for the plastic law with the usual constants, the trial stress is not exactly on the yield
surface (`y = 0` encodes the virgin yield stress `Sy`). -/
structure Bar.Smooth (b : Bar ℝ) (U : List ℝ) (row : Option (List ℝ)) : Prop where
  length : len (b.axis U) ≠ 0
  plastic : b.law = .elplast → ∃ (m : Spec.Plastic) (rest more : List ℝ) (y p : ℝ), m.Valid ∧
    b.mat = m.E :: m.K :: m.Sy :: rest ∧ row = some (y :: p :: more) ∧ 0 ≤ y ∧
    |m.E * (b.stretch U - 1 - p)| ≠ if y = 0 then m.Sy else y

/-- Residual at the free degrees of freedom as a function of their displacements `u` (load factor and
previous solution fixed). -/
noncomputable def residualAt (c : Ctx ℝ) (a : Analysis ℝ) (lpf : ℝ) (V0 : List ℝ) {n : Nat} (u : Fin n → ℝ) :
    Fin n → ℝ := fun m =>
  match equilibrium c a (List.ofFn u ++ [lpf]) V0 .G false with
  | .ok (_, g) => g.getD m 0
  | .error _ => 0

/-- A matrix given by rows. -/
def matOf (n : Nat) (K : List (List ℝ)) : Matrix (Fin n) (Fin n) ℝ := fun i j => (K.getD i []).getD j 0

/-- Vector of a function on vectors as used by the solver (0 where it raises). -/
noncomputable def vecFun {S : Type} {n : Nat} (f : List ℝ → Py (S × List ℝ)) (V : Fin n → ℝ) : Fin n → ℝ := fun m =>
  match f (List.ofFn V) with
  | .ok (_, r) => r.getD m 0
  | .error _ => 0

end TrussPy
