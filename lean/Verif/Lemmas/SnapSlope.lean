import Verif.Spec.Snap
import Mathlib.Analysis.SpecialFunctions.Sqrt
import Mathlib.Analysis.Calculus.Deriv.Add
import Mathlib.Analysis.Calculus.Deriv.Inv
import Mathlib.Analysis.Calculus.Deriv.Pow
import Mathlib.Tactic.FieldSimp
/-!
# Slope of the load curve of the two-bar truss
-/

namespace TrussPy

/-- Derivative of `vmLoad`. -/
noncomputable def vmSlope (w H E A s : ℝ) : ℝ :=
  2 * E * A * ((H - s) ^ 2 / (√(w ^ 2 + (H - s) ^ 2)) ^ 3 - (1 / √(w ^ 2 + (H - s) ^ 2) - 1 / √(w ^ 2 + H ^ 2)))

theorem vmLoad_deriv {w : ℝ} (hw : 0 < w) (H E A s : ℝ) : HasDerivAt (vmLoad w H E A) (vmSlope w H E A s) s := by
  have hq : w ^ 2 + (H - s) ^ 2 ≠ 0 := by positivity
  have hl : √(w ^ 2 + (H - s) ^ 2) ≠ 0 := (Real.sqrt_pos.2 (by positivity)).ne'
  have h1 : HasDerivAt (fun s => H - s) (-1) s := by simpa using (hasDerivAt_id s).const_sub H
  have h2 : HasDerivAt (fun s => w ^ 2 + (H - s) ^ 2) (2 * (H - s) * -1) s := by
    simpa using (h1.pow 2).const_add (w ^ 2)
  have h3 := (h2.sqrt hq).inv hl
  have h4 := (h1.const_mul (2 * E * A)).mul (h3.sub_const (1 / √(w ^ 2 + H ^ 2)))
  have hf : (fun s => 2 * E * A * (H - s) * ((√(w ^ 2 + (H - s) ^ 2))⁻¹ - 1 / √(w ^ 2 + H ^ 2))) = vmLoad w H E A := by
    funext s
    unfold vmLoad
    rw [one_div (√(w ^ 2 + (H - s) ^ 2))]
  refine (HasDerivAt.congr_deriv (f := vmLoad w H E A) (by rw [← hf]; exact h4) ?_)
  unfold vmSlope
  rw [Pi.inv_apply]
  generalize 1 / √(w ^ 2 + H ^ 2) = r
  generalize √(w ^ 2 + (H - s) ^ 2) = l at hl
  field_simp
  ring

theorem vmSlope_cont {w : ℝ} (hw : 0 < w) (H E A : ℝ) : Continuous (vmSlope w H E A) := by
  have hl : ∀ s, √(w ^ 2 + (H - s) ^ 2) ≠ 0 := fun s => (Real.sqrt_pos.2 (by positivity)).ne'
  unfold vmSlope
  refine continuous_const.mul (Continuous.sub (Continuous.div (by fun_prop) (by fun_prop) fun s => pow_ne_zero 3 (hl s))
    (Continuous.sub (Continuous.div (by fun_prop) (by fun_prop) hl) continuous_const))

theorem vmSlope_start {w H E A : ℝ} (hH : 0 < H) (hE : 0 < E) (hA : 0 < A) : 0 < vmSlope w H E A 0 := by
  have hl : 0 < √(w ^ 2 + H ^ 2) := Real.sqrt_pos.2 (by positivity)
  unfold vmSlope
  rw [sub_zero, sub_self, sub_zero]
  positivity

theorem vmSlope_bound {w H E A : ℝ} (hw : 0 < w) (hE : 0 < E) (hA : 0 < A) (s : ℝ) : |vmSlope w H E A s| ≤ 4 * E * A / w := by
  have hle : ∀ h : ℝ, w ≤ √(w ^ 2 + h ^ 2) := fun h => Real.le_sqrt_of_sq_le (by nlinarith [sq_nonneg h])
  have hinv : ∀ h : ℝ, 0 < 1 / √(w ^ 2 + h ^ 2) ∧ 1 / √(w ^ 2 + h ^ 2) ≤ 1 / w := fun h =>
    ⟨one_div_pos.2 (hw.trans_le (hle h)), one_div_le_one_div_of_le hw (hle h)⟩
  obtain ⟨a1, a2⟩ := hinv (H - s)
  obtain ⟨b1, b2⟩ := hinv H
  have hl := hw.trans_le (hle (H - s))
  have hsq : (√(w ^ 2 + (H - s) ^ 2)) ^ 2 = w ^ 2 + (H - s) ^ 2 := Real.sq_sqrt (by positivity)
  have c1 : 0 ≤ (H - s) ^ 2 / (√(w ^ 2 + (H - s) ^ 2)) ^ 3 := by positivity
  have c2 : (H - s) ^ 2 / (√(w ^ 2 + (H - s) ^ 2)) ^ 3 ≤ 1 / √(w ^ 2 + (H - s) ^ 2) := by
    rw [div_le_div_iff₀ (by positivity) hl, one_mul]
    have : (H - s) ^ 2 ≤ (√(w ^ 2 + (H - s) ^ 2)) ^ 2 := by rw [hsq]; nlinarith
    calc (H - s) ^ 2 * √(w ^ 2 + (H - s) ^ 2) ≤ (√(w ^ 2 + (H - s) ^ 2)) ^ 2 * √(w ^ 2 + (H - s) ^ 2) :=
          mul_le_mul_of_nonneg_right this hl.le
      _ = _ := by ring
  unfold vmSlope
  rw [abs_mul, abs_of_pos (by positivity : 0 < 2 * E * A), show 4 * E * A / w = 2 * E * A * (2 * (1 / w)) by ring]
  refine mul_le_mul_of_nonneg_left (abs_le.2 ⟨?_, ?_⟩) (by positivity) <;> linarith

end TrussPy
