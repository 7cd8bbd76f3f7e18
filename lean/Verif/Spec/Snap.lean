import Verif.Build
import Verif.Instances
import Verif.Spec.Structure
/-!
# Specification: the symmetric two-bar truss (von Mises truss)
-/

namespace TrussPy

/-- Two bars of modulus `E` and area `A` from supports at `(-w, 0, 0)` and `(w, 0, 0)` to an apex at `(0, 0, H)` which is free
to move along z only. -/
def vmCtx (w H E A : ℝ) : Ctx ℝ where
  nodes := ⟨[1, 2, 3], ⟨3, [[-w, 0, 0], [0, 0, H], [w, 0, 0]]⟩⟩
  elems := {
    labels := [1, 2]
    conns := ⟨2, [[1, 2], [2, 3]]⟩
    etype := [1, 1]
    mtype := [1, 1]
    mprop := ⟨false, 1, [[E], [E]]⟩
    gprop := ⟨false, 1, [[A], [A]]⟩ }
  nnodes := 3
  ndof1 := 1
  nstatev := 0

/-- The undeformed truss with a unit load downwards at the apex. -/
def vmA : Analysis ℝ :=
  { Analysis.fresh 3 2 [0, 1, 2, 3, 4, 6, 7, 8] [5] 0 with
    extForces := some ⟨[0, 0, 0, 0, 0, -1, 0, 0, 0], [0, 0, 0, 0, 0, 0, 0, 0, 0]⟩
    f0red := [-1]
    lpf := some 0 }

/-- Load factor that holds the apex displaced downwards by `s`, from statics: `2 E A (H - s) (1/l - 1/L)` with the length `l`
of the bars and their undeformed length `L`. -/
noncomputable def vmLoad (w H E A s : ℝ) : ℝ :=
  2 * E * A * (H - s) * (1 / √(w ^ 2 + (H - s) ^ 2) - 1 / √(w ^ 2 + H ^ 2))

end TrussPy
