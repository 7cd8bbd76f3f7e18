import Verif.Lemmas.Tame
import Verif.Lemmas.Rigid
import Mathlib.Analysis.Calculus.InverseFunctionTheorem.ContDiff
import Mathlib.Analysis.Calculus.ContDiff.Basic
import Mathlib.LinearAlgebra.FiniteDimensional.Basic
import Mathlib.Topology.Algebra.Module.FiniteDimension
/-!
# A regular zero lies on a curve on which the residual grows in a given direction
-/

set_option linter.unusedSectionVars false

namespace TrussPy

open Filter Topology

theorem exists_curve {n : Nat} {φ : (Fin n → ℝ) → Fin n → ℝ} {J : (Fin n → ℝ) → Matrix (Fin n) (Fin n) ℝ} {z : Fin n → ℝ}
    (hz : φ z = 0) (hφ : ContDiffAt ℝ 1 φ z) (hJ : ∀ᶠ x in 𝓝 z, HasFDerivAt φ (mulCLM (J x)) x) (hreg : IsUnit (J z).det)
    (b : Fin n → ℝ) {Q : (Fin n → ℝ) → Prop} (hQ : ∀ᶠ x in 𝓝 z, Q x) :
    ∃ S > 0, ∃ γ γ' : ℝ → Fin n → ℝ, γ 0 = z ∧
      (∀ s ∈ Set.Icc 0 S, HasDerivAt γ (γ' s) s ∧ φ (γ s) = s • b ∧ (J (γ s)).mulVec (γ' s) = b ∧ IsUnit (J (γ s)).det ∧ Q (γ s)) ∧
      ContinuousOn γ' (Set.Icc 0 S) ∧ ∃ ρ > 0, ∀ x, ‖x - z‖ ≤ ρ → ∀ s, φ x = s • b → x = γ s := by
  have hinj : Function.Injective (Matrix.toLin' (J z)) := by
    rw [injective_iff_map_eq_zero]
    intro v hv
    rw [Matrix.toLin'_apply] at hv
    exact (regular_iff_injective _).1 hreg v hv
  let A : (Fin n → ℝ) ≃L[ℝ] Fin n → ℝ := (LinearEquiv.ofInjectiveEndo (Matrix.toLin' (J z)) hinj).toContinuousLinearEquiv
  have hA : (A : (Fin n → ℝ) →L[ℝ] Fin n → ℝ) = mulCLM (J z) := by
    ext v
    rfl
  have hd : HasFDerivAt φ (A : (Fin n → ℝ) →L[ℝ] Fin n → ℝ) z := by
    rw [hA]
    exact hJ.self_of_nhds
  have h1 : (1 : WithTop ℕ∞) ≠ 0 := one_ne_zero
  have hst := hφ.hasStrictFDerivAt' hd h1
  set g := hφ.localInverse hd h1 with hg
  have hgc : ContDiffAt ℝ 1 g 0 := by
    have := hφ.to_localInverse hd h1
    rwa [hz] at this
  have hgz : g 0 = z := by
    have := hφ.localInverse_apply_image hd h1
    rwa [hz] at this
  have hright : ∀ᶠ y in 𝓝 (0 : Fin n → ℝ), φ (g y) = y := by
    have := hst.eventually_right_inverse
    rwa [hz] at this
  have hleft : ∀ᶠ x in 𝓝 z, g (φ x) = x := hst.eventually_left_inverse
  have hgt : Tendsto g (𝓝 0) (𝓝 z) := by
    have := hgc.continuousAt
    rwa [ContinuousAt, hgz] at this
  have hall : ∀ᶠ y in 𝓝 (0 : Fin n → ℝ), ContDiffAt ℝ 1 g y ∧ φ (g y) = y ∧ HasFDerivAt φ (mulCLM (J (g y))) (g y) ∧ Q (g y) :=
    (hgc.eventually (by simp)).and (hright.and ((hgt.eventually hJ).and (hgt.eventually hQ)))
  obtain ⟨δ, hδ, hball⟩ := Metric.eventually_nhds_iff_ball.1 hall
  -- the curve
  have hb : ∀ s : ℝ, |s| < δ / (‖b‖ + 1) → s • b ∈ Metric.ball (0 : Fin n → ℝ) δ := by
    intro s hs
    rw [mem_ball_zero_iff, norm_smul, Real.norm_eq_abs]
    rw [lt_div_iff₀ (by positivity)] at hs
    nlinarith [abs_nonneg s, norm_nonneg b]
  have hinv : ∀ y ∈ Metric.ball (0 : Fin n → ℝ) δ, ∀ w, (J (g y)).mulVec (fderiv ℝ g y w) = w := by
    intro y hy w
    obtain ⟨c1, -, c3, -⟩ := hball y hy
    have hc := c3.comp y (c1.differentiableAt (by simp)).hasFDerivAt
    have hid : HasFDerivAt (φ ∘ g) (ContinuousLinearMap.id ℝ (Fin n → ℝ)) y := by
      refine (hasFDerivAt_id y).congr_of_eventuallyEq ?_
      filter_upwards [Metric.isOpen_ball.mem_nhds hy] with y' hy'
      exact (hball y' hy').2.1
    have := congrArg (fun L : (Fin n → ℝ) →L[ℝ] Fin n → ℝ => L w) (hc.unique hid)
    exact this
  have hS0 : 0 < δ / (‖b‖ + 1) := by positivity
  have hIcc : ∀ s ∈ Set.Icc 0 (δ / (‖b‖ + 1) / 2), s • b ∈ Metric.ball (0 : Fin n → ℝ) δ := by
    intro s hs
    refine hb s ?_
    rw [abs_of_nonneg hs.1]
    linarith [hs.2]
  obtain ⟨ρ, hρ, hρl⟩ := Metric.eventually_nhds_iff_ball.1 hleft
  refine ⟨δ / (‖b‖ + 1) / 2, by positivity, fun s => g (s • b), fun s => fderiv ℝ g (s • b) b, by simp [hgz], ?_, ?_,
    ρ / 2, by positivity, ?_⟩
  · intro s hs
    obtain ⟨c1, c2, c3, c4⟩ := hball _ (hIcc s hs)
    refine ⟨?_, c2, hinv _ (hIcc s hs) b, ?_, c4⟩
    · have hl : HasDerivAt (fun s : ℝ => s • b) b s := by
        simpa using (hasDerivAt_id s).smul_const b
      exact HasFDerivAt.comp_hasDerivAt s (c1.differentiableAt (by simp)).hasFDerivAt hl
    · rw [← Matrix.isUnit_iff_isUnit_det, ← Matrix.mulVec_surjective_iff_isUnit]
      intro w
      exact ⟨_, hinv _ (hIcc s hs) w⟩
  · have hon : ContDiffOn ℝ 1 g (Metric.ball 0 δ) := fun y hy => (hball y hy).1.contDiffWithinAt
    have hf := hon.continuousOn_fderiv_of_isOpen Metric.isOpen_ball (by simp)
    have hc : ContinuousOn (fun s : ℝ => fderiv ℝ g (s • b)) (Set.Icc 0 (δ / (‖b‖ + 1) / 2)) :=
      hf.comp (by fun_prop) hIcc
    exact hc.clm_apply continuousOn_const
  · intro x hx s hs
    have := hρl x (by rw [mem_ball_iff_norm]; linarith)
    rw [hs] at this
    exact this.symm

end TrussPy
