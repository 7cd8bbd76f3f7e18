import Verif.Spec.RoundedPath
import Verif.Spec.Trail
import Verif.Spec.Entered
/-!
# Specification: entered data in a number format, and results that follow a path

The calls made with the numbers of the format stand for the same calls with real numbers.
-/

namespace TrussPy

section
variable {F : Type}

def Node.image (val : F → ℝ) (n : Node F) : Node ℝ := ⟨n.label, n.coord.map val⟩

def ExtForce.image (val : F → ℝ) (f : ExtForce F) : ExtForce ℝ := ⟨f.node, f.force.map val⟩

def Elem.image (val : F → ℝ) (e : Elem F) : Elem ℝ :=
  ⟨e.label, e.conn, e.etype, e.mtype, ⟨e.mprop.isInt, e.mprop.vals.map val⟩, ⟨e.gprop.isInt, e.gprop.vals.map val⟩⟩

/-- The entered data with the real numbers they stand for. -/
def UserInput.image (val : F → ℝ) (u : UserInput F) : UserInput ℝ :=
  ⟨u.nodes.map (Node.image val), u.bounds, u.forces.map (ExtForce.image val)⟩

/-- Settings with the control component `j` fixed, step width `h` for it, and no step control; `n` free directions. -/
structure HeldControl (s : Settings F) (n : Nat) (j : Int) (h : F) : Prop where
  fixed : s.jFixed = true
  control : s.j0 = some j
  plain : s.stepcontrol = false
  width : (if j.natAbs ≤ n then s.du else s.dlpf) = h

/-- The numbers in the recorded state `r` stand for the displacements `U` and the load factor `l`, up to `tol`; `labels` are the labels of
the nodes in table order. -/
structure ShowsPoint [Zero F] (val : F → ℝ) (labels : List Int) (r : Analysis F) (U : Int → V3 ℝ) (l tol : ℝ) : Prop where
  load : ∃ lpf, r.lpf = some lpf ∧ |val lpf - l| ≤ tol
  disp : ∀ (i : Nat) (lab : Int), labels[i]? = some lab → ∀ d, |val (row3 r.U i d) - U lab d| ≤ tol

/-- The first `q` results after the undeformed state are points of the path, up to `L * f`; the parameter of the `i`-th of them is `i h`, up to `6 i f`.
There are `K` of them, unless the last one exceeds the limit `xl`. -/
structure FollowsClosely [Zero F] (val : F → ℝ) (labels : List Int) (R : List (Analysis F)) (h f L : ℝ) (U : ℝ → Int → V3 ℝ) (l : ℝ → ℝ) (S : ℝ)
    (K : Nat) (xl : Int × F) (q : Nat) : Prop where
  points : ∀ i < q, ∃ r t, R[i + 1]? = some r ∧ t ∈ Set.Icc 0 S ∧ |t - (i + 1) * h| ≤ (i + 1) * (6 * f) ∧
    ShowsPoint val labels r (U t) (l t) (L * f)
  count : q ≤ K
  stop : q = K ∨ 0 < q ∧ ∃ r v, R[q]? = some r ∧ r.Vred[(xl.1 - 1).toNat]? = some v ∧ val xl.2 < |val v|

end

end TrussPy
