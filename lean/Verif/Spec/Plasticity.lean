import Mathlib.Data.Real.Sign
/-!
# Specification: one-dimensional plasticity with linear isotropic hardening

Textbook return mapping on real numbers, independent of the model.  `Y` is the current yield stress,
`p` the plastic strain.
-/

namespace TrussPy.Spec

/-- Material constants: Young's modulus, hardening modulus, initial yield stress. -/
structure Plastic where
  E : ℝ
  K : ℝ
  Sy : ℝ

/-- The usual restrictions on the constants. -/
structure Plastic.Valid (c : Plastic) : Prop where
  E : 0 < c.E
  K : 0 ≤ c.K
  Sy : 0 < c.Sy

/-- Amount of plastic flow `Δγ` for the total strain `e`: zero inside the yield surface. -/
noncomputable def flow (c : Plastic) (Y p e : ℝ) : ℝ := max 0 ((|c.E * (e - p)| - Y) / (c.E + c.K))

/-- Updated plastic strain. -/
noncomputable def newP (c : Plastic) (Y p e : ℝ) : ℝ := p + flow c Y p e * Real.sign (c.E * (e - p))

/-- Updated yield stress. -/
noncomputable def newY (c : Plastic) (Y p e : ℝ) : ℝ := Y + c.K * flow c Y p e

end TrussPy.Spec
