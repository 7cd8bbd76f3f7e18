import Verif.Lemmas.Converge
import Mathlib.Analysis.Calculus.ContDiff.RCLike
import Mathlib.Analysis.Calculus.ContDiff.Operations
/-!
# Newton's method near a point with regular Jacobian
-/

namespace TrussPy

/-- Multiplication by a matrix as a continuous linear map. -/
noncomputable def mulCLM {n : Nat} (B : Matrix (Fin n) (Fin n) ℝ) : (Fin n → ℝ) →L[ℝ] Fin n → ℝ :=
  LinearMap.toContinuousLinearMap (Matrix.toLin' B)

theorem mulCLM_apply {n : Nat} (B : Matrix (Fin n) (Fin n) ℝ) (v : Fin n → ℝ) : mulCLM B v = B.mulVec v :=
  Matrix.toLin'_apply B v

theorem exists_tame {n : Nat} {φ : (Fin n → ℝ) → Fin n → ℝ} {J : (Fin n → ℝ) → Matrix (Fin n) (Fin n) ℝ} {c : Fin n → ℝ}
    (hφ : ContDiffAt ℝ 1 φ c) (hJ : ∀ᶠ x in nhds c, HasFDerivAt φ (mulCLM (J x)) x) (hreg : IsUnit (J c).det) :
    ∃ ρ ε M, 0 < ρ ∧ Tame φ J (mulCLM (J c)) c ρ ε M := by
  have hinj : LinearMap.ker (Matrix.toLin' (J c)) = ⊥ := by
    rw [LinearMap.ker_eq_bot']
    intro v hv
    by_contra hne
    rw [Matrix.toLin'_apply] at hv
    exact (isUnit_iff_ne_zero.1 hreg) (Matrix.exists_mulVec_eq_zero_iff.1 ⟨v, hne, hv⟩)
  obtain ⟨M, hM, hanti⟩ := LinearMap.exists_antilipschitzWith _ hinj
  have hM : (0 : ℝ) < M := hM
  have hε : 0 < 1 / (8 * (M : ℝ)) := by positivity
  have h0 : HasFDerivAt φ (mulCLM (J c)) c := hJ.self_of_nhds
  have hstrict : HasStrictFDerivAt φ (mulCLM (J c)) c := by
    have := hφ.hasStrictFDerivAt (n := 1) (by simp)
    rwa [h0.fderiv] at this
  have e1 := hstrict.isLittleO.def hε
  rw [nhds_prod_eq] at e1
  have hcont : ContinuousAt (fderiv ℝ φ) c := (hφ.fderiv_right (m := 0) (by simp)).continuousAt
  have e2 : ∀ᶠ x in nhds c, ‖fderiv ℝ φ x - fderiv ℝ φ c‖ < 1 / (8 * (M : ℝ)) := by
    have := hcont.tendsto.sub (tendsto_const_nhds (x := fderiv ℝ φ c))
    rw [sub_self] at this
    have := this.norm
    rw [norm_zero] at this
    exact this.eventually_lt tendsto_const_nhds hε
  obtain ⟨t, ht, hpq⟩ := Filter.eventually_prod_self_iff'.1 e1
  obtain ⟨r, hr, hball⟩ := Metric.eventually_nhds_iff_ball.1 ((Filter.eventually_mem_set.2 ht).and (e2.and hJ))
  have hin : ∀ x : Fin n → ℝ, ‖x - c‖ ≤ r / 2 → x ∈ Metric.ball c r := by
    intro x hx
    rw [Metric.mem_ball, dist_eq_norm]
    linarith
  refine ⟨r / 2, 1 / (8 * M), M, by linarith, ?_, ?_, ?_, hM, hε.le, ?_⟩
  · intro x y hx hy
    exact hpq x (hball x (hin x hx)).1 y (hball y (hin y hy)).1
  · intro x hx v
    obtain ⟨-, h2, h3⟩ := hball x (hin x hx)
    rw [h3.fderiv, h0.fderiv] at h2
    rw [← mulCLM_apply, ← sub_apply]
    exact ContinuousLinearMap.le_of_opNorm_le _ h2.le v
  · intro v
    have := hanti.le_mul_dist v 0
    rwa [dist_zero_right, map_zero, dist_zero_right] at this
  · rw [mul_one_div, div_le_div_iff₀ (by positivity) (by norm_num)]
    linarith

end TrussPy
