import Verif.Spec.Rounded
import Verif.Spec.Evaluation
import Verif.Spec.Mechanics
/-!
# Specification: a structure in rounded numbers and the structure they stand for

The exact structure has exactly the numbers that the rounded numbers stand for.  So only the errors of the calculation are compared, not
those of entering decimal numbers.
-/

namespace TrussPy

section
variable {F : Type}

/-- The bar with the real numbers its data stand for. -/
def Bar.image (val : F → ℝ) (b : Bar F) : Bar ℝ where
  iA := b.iA
  iE := b.iE
  XA := fun d => val (b.XA d)
  XE := fun d => val (b.XE d)
  mat := b.mat.map val
  geo := b.geo.map val
  law := b.law

/-- The loads with the real numbers they stand for. -/
def StepForces.image (val : F → ℝ) (f : StepForces F) : StepForces ℝ := ⟨f.forces.map val, f.forcesConst.map val⟩

/-- The same state in rounded and in real numbers, as far as an evaluation reads it: sizes, free components, and the displacements of the other
components. -/
structure Twin [Zero F] (val : F → ℝ) (c : Ctx F) (a : Analysis F) (c' : Ctx ℝ) (a' : Analysis ℝ) : Prop where
  nnodes : c'.nnodes = c.nnodes
  ndof1 : c'.ndof1 = c.ndof1
  dof1 : a'.DOF1 = a.DOF1
  locked : ∀ i, i ∉ a.DOF1 → a'.U.getD i 0 = val (a.U.getD i 0)

end

/-- `W` is the displacement vector of the nodes if the free components have the values `v` and all others are as in `u`. -/
structure Placed (u : List ℝ) (dofs : List Nat) (v W : List ℝ) : Prop where
  length : W.length = u.length
  locked : ∀ i, i ∉ dofs → W[i]? = u[i]?
  free : ∀ (m i : Nat), dofs[m]? = some i → W[i]? = v[m]?

/-- The data of the elements and the loads are at most `C`, and no undeformed length is below `1/√C`. -/
structure Moderate (C : ℝ) (bars : List (Bar ℝ)) (ef : StepForces ℝ) : Prop where
  begin_ : ∀ b ∈ bars, ∀ d, |b.XA d| ≤ C
  end_ : ∀ b ∈ bars, ∀ d, |b.XE d| ≤ C
  modulus : ∀ b ∈ bars, |b.mat.getD 0 0| ≤ C
  area : ∀ b ∈ bars, |b.geo.getD 0 0| ≤ C
  ref : ∀ b ∈ bars, 1 ≤ C * dot3 b.ref b.ref
  forces : ∀ v ∈ ef.forces, |v| ≤ C
  forcesConst : ∀ v ∈ ef.forcesConst, |v| ≤ C

/-- The displacements are at most `C`, and no deformed length is below `1/√C`. -/
structure Clear (C : ℝ) (bars : List (Bar ℝ)) (W : List ℝ) : Prop where
  disp : ∀ v ∈ W, |v| ≤ C
  axis : ∀ b ∈ bars, 1 ≤ C * dot3 (b.axis W) (b.axis W)

/-- Equally long lists, entries equal up to `ε`. -/
def NearList {F : Type} (val : F → ℝ) (ε : ℝ) (l : List F) (l' : List ℝ) : Prop :=
  l.length = l'.length ∧ ∀ (i : Nat) (x : F) (y : ℝ), l[i]? = some x → l'[i]? = some y → |val x - y| ≤ ε

/-- Equally large matrices, entries equal up to `ε`. -/
def NearMatrix {F : Type} (val : F → ℝ) (ε : ℝ) (K : List (List F)) (K' : List (List ℝ)) : Prop :=
  K.length = K'.length ∧ ∀ (i : Nat) (r : List F) (r' : List ℝ), K[i]? = some r → K'[i]? = some r' → NearList val ε r r'

end TrussPy
