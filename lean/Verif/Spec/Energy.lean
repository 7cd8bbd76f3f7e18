import Verif.Spec.Mechanics
/-!
# Specification: energy of an elastic structure, quadratic form of the stiffness
-/

namespace TrussPy

/-- Young's modulus: the first material property. -/
def Bar.E (b : Bar ℝ) : ℝ := b.mat.getD 0 0

/-- Cross section: the first geometric property. -/
def Bar.area (b : Bar ℝ) : ℝ := b.geo.getD 0 0

/-- Stored energy of the bars: `E A L / 2` times the square of the strain. -/
noncomputable def strainEnergy (bars : List (Bar ℝ)) (U : List ℝ) : ℝ :=
  (bars.map fun b => b.E * b.area * len b.ref / 2 * (b.stretch U - 1) ^ 2).sum

/-- Total potential energy: stored energy minus potential of the loads `const + lpf * forces`. -/
noncomputable def potential (bars : List (Bar ℝ)) (ef : StepForces ℝ) (lpf : ℝ) (U : List ℝ) : ℝ :=
  strainEnergy bars U - ((List.range U.length).map fun p =>
    (ef.forcesConst.getD p 0 + lpf * ef.forces.getD p 0) * U.getD p 0).sum

/-- The potential energy at the displacements `u` of the free degrees of freedom; the displacement table is the one an
evaluation with these displacements writes. -/
noncomputable def potentialAt (c : Ctx ℝ) (bars : List (Bar ℝ)) (a : Analysis ℝ) (ef : StepForces ℝ) (lpf : ℝ)
    (V0 : List ℝ) {n : Nat} (u : Fin n → ℝ) : ℝ :=
  match equilibrium c a (List.ofFn u ++ [lpf]) V0 .G false with
  | .ok (a', _) => potential bars ef lpf a'.U
  | .error _ => 0

/-- The usual restrictions on the properties of a bar. -/
structure Bar.Ordinary (b : Bar ℝ) : Prop where
  area : 0 ≤ b.area
  elastic : b.law = .el → 0 ≤ b.E
  plastic : b.law = .elplast → ∃ (m : Spec.Plastic) (rest : List ℝ), m.Valid ∧ b.mat = m.E :: m.K :: m.Sy :: rest

/-- Relative displacement of the end nodes of a bar under the displacement table `U`. -/
def Bar.delta (b : Bar ℝ) (U : List ℝ) : V3 ℝ := fun c => row3 U b.iE c - row3 U b.iA c

/-- Inner product. -/
def inner3 (a b : V3 ℝ) : ℝ := a 0 * b 0 + a 1 * b 1 + a 2 * b 2

end TrussPy
