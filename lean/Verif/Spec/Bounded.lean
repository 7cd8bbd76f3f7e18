import Verif.Spec.Valid
import Verif.Spec.Run
import Mathlib.Data.Real.Basic
/-!
# Specification: what the settings say about two results in a row
-/

namespace TrussPy

/-- Load factor from which the result after `p` starts, if it belongs to the step number `step` (1-based): that of `p` within a
step, zero at the start of the next one. -/
def factorFrom {F : Type} [Zero F] (p : Analysis F) (step : Nat) : Option F := if p.step = step then p.lpf else some 0

/-- The step widths noted in the result `r` are `f` times those of the settings: `du` for the `n` free displacements and `dlpf`
for the load factor.  Without step control `f` is one, with step control it stays between the limits. -/
structure WidthsOf (s : Settings ℝ) (n : Nat) (f : ℝ) (r : Analysis ℝ) : Prop where
  widths : r.dVmax = some (List.replicate n (f * s.du) ++ [f * s.dlpf])
  plain : s.stepcontrol = false → f = 1
  lower : s.stepcontrol = true → s.minfac / s.reduce < f
  upper : s.stepcontrol = true → f ≤ s.maxfac * (1 + s.increase)

/-- The result `r` comes after the result `p` and belongs to a converged increment with step widths `f` times those of the settings:
no free displacement moves by more than `dxtol` times its step width, nor does the load factor (unless the control component is
fixed), and the control component moves by its step width in the direction of its sign, up to the tolerance `10 ^ (-ftol)`. -/
structure MovesBy (s : Settings ℝ) (f : ℝ) (p r : Analysis ℝ) : Prop where
  displacements : s.jFixed = false → ∀ (i : Nat) u v, r.Ured[i]? = some u → p.Ured[i]? = some v → |u - v| ≤ s.dxtol * (f * s.du)
  factor : s.jFixed = false → ∀ l l0, r.lpf = some l → factorFrom p r.step = some l0 → |l - l0| ≤ s.dxtol * (f * s.dlpf)
  control : ∃ l l0 dV u v w, r.lpf = some l ∧ factorFrom p r.step = some l0 ∧ r.dVmax = some dV ∧
    pyGet (r.Ured ++ [l]) (r.j.natAbs - 1) = .ok u ∧ pyGet (p.Ured ++ [l0]) (r.j.natAbs - 1) = .ok v ∧
    pyGet dV (r.j.natAbs - 1) = .ok w ∧ |(u - v) - w * (r.j.sign : ℝ)| < (10 : ℝ) ^ (-s.ftol)

end TrussPy
