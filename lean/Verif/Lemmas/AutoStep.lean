import Verif.Lemmas.AutoBound
import Verif.Lemmas.Follow
import Mathlib.Analysis.Calculus.MeanValue
/-!
# Geometry of one increment with free choice of the control component
-/

namespace TrussPy

open Filter Topology

/-- A vector whose image is nearly that of `g` is near `g`. -/
theorem Tame.predict {n : Nat} {φ : (Fin n → ℝ) → Fin n → ℝ} {J : (Fin n → ℝ) → Matrix (Fin n) (Fin n) ℝ}
    {A : (Fin n → ℝ) →L[ℝ] Fin n → ℝ} {z x p g : Fin n → ℝ} {ρ ε M f : ℝ} (h : Tame φ J A z ρ ε M) (hx : ‖x - z‖ ≤ ρ)
    (hr : ‖(J x).mulVec p - A g‖ ≤ f) : ‖p - g‖ ≤ 2 * M * (ε * ‖g‖ + f) := by
  have hM := h.pos
  have h1 := h.matrix x hx p
  have h2 : ‖A (p - g)‖ ≤ ε * ‖p‖ + f := by
    rw [map_sub]
    calc ‖A p - A g‖ = ‖((J x).mulVec p - A g) - ((J x).mulVec p - A p)‖ := by congr 1; abel
      _ ≤ _ := norm_sub_le _ _
      _ ≤ _ := by linarith
  have h3 : ‖p‖ ≤ ‖p - g‖ + ‖g‖ := by
    calc ‖p‖ = ‖(p - g) + g‖ := by congr 1; abel
      _ ≤ _ := norm_add_le _ _
  have h4 := h.below (p - g)
  have h5 : M * ‖A (p - g)‖ ≤ M * (ε * (‖p - g‖ + ‖g‖) + f) :=
    mul_le_mul_of_nonneg_left (h2.trans (by gcongr; exact h.eps)) hM.le
  have h6 : M * ε * ‖p - g‖ ≤ 1 / 8 * ‖p - g‖ := mul_le_mul_of_nonneg_right h.small (norm_nonneg _)
  have h7 : 0 ≤ M * (ε * ‖g‖ + f) := by
    have : 0 ≤ ε * ‖g‖ := mul_nonneg h.eps (norm_nonneg _)
    have := (norm_nonneg _).trans hr
    positivity
  nlinarith

/-- Scaling a vector near a multiple of `g` to its step widths gives a vector near `g`. -/
theorem scale_dir {m : Nat} {d g τ : Fin (m + 1) → ℝ} {c e1 dm D : ℝ} (hdm : 0 < dm) (hd : ∀ i, dm ≤ d i) (hD : ∀ i, d i ≤ D)
    (hg : ∀ i, |g i| ≤ d i) {p : Fin (m + 1)} (hp : |g p| = d p) (hc : 1 ≤ c) (hτ : ‖τ - c • g‖ ≤ e1) (he1 : e1 ≤ dm / 4)
    {i0 : Fin (m + 1)} (hbig : ∀ i, |τ i / d i| ≤ |τ i0 / d i0|) :
    3 / 4 ≤ |τ i0 / d i0| ∧ ‖|τ i0 / d i0|⁻¹ • τ - g‖ ≤ 2 * e1 * (1 + D / dm) := by
  have hd0 : ∀ i, 0 < d i := fun i => hdm.trans_le (hd i)
  have he0 : 0 ≤ e1 := (norm_nonneg _).trans hτ
  have hD0 : 0 < D := (hd0 0).trans_le (hD 0)
  have hcomp : ∀ i, |τ i - c * g i| ≤ e1 := fun i => by
    have := norm_le_pi_norm (τ - c • g) i
    rw [Real.norm_eq_abs] at this
    exact this.trans hτ
  have hdiv : ∀ i, e1 / d i ≤ e1 / dm := fun i => div_le_div_of_nonneg_left he0 hdm (hd i)
  set v := |τ i0 / d i0| with hv
  have hup : v ≤ c + e1 / dm := by
    have h1 : |τ i0| ≤ c * d i0 + e1 := by
      have h2 := abs_add_le (τ i0 - c * g i0) (c * g i0)
      rw [sub_add_cancel, abs_mul, abs_of_pos (by linarith : 0 < c)] at h2
      have := mul_le_mul_of_nonneg_left (hg i0) (by linarith : 0 ≤ c)
      linarith [hcomp i0]
    rw [hv, abs_div, abs_of_pos (hd0 i0)]
    have h3 : |τ i0| / d i0 ≤ c + e1 / d i0 := by
      rw [div_le_iff₀ (hd0 i0), add_mul, div_mul_cancel₀ _ (hd0 i0).ne']
      exact h1
    linarith [hdiv i0]
  have hlo : c - e1 / dm ≤ v := by
    have h1 : c * d p - e1 ≤ |τ p| := by
      have h2 := abs_sub_abs_le_abs_sub (c * g p) (τ p)
      rw [abs_mul, abs_of_pos (by linarith : 0 < c), hp, abs_sub_comm] at h2
      linarith [hcomp p]
    have h3 : c - e1 / d p ≤ |τ p / d p| := by
      rw [abs_div, abs_of_pos (hd0 p), le_div_iff₀ (hd0 p), sub_mul, div_mul_cancel₀ _ (hd0 p).ne']
      exact h1
    linarith [hdiv p, hbig p]
  have he4 : e1 / dm ≤ 1 / 4 := by
    rw [div_le_iff₀ hdm]; linarith
  have hv34 : 3 / 4 ≤ v := by linarith
  refine ⟨hv34, ?_⟩
  have hvpos : 0 < v := by linarith
  have hgn : ‖g‖ ≤ D := (pi_norm_le_iff_of_nonneg hD0.le).2 fun i => by
    rw [Real.norm_eq_abs]; exact (hg i).trans (hD i)
  have h1 : v • (v⁻¹ • τ - g) = (τ - c • g) + (c - v) • g := by
    rw [smul_sub, smul_smul, mul_inv_cancel₀ hvpos.ne', one_smul, sub_smul]
    abel
  have h2 : v * ‖v⁻¹ • τ - g‖ ≤ e1 + e1 / dm * D := by
    calc v * ‖v⁻¹ • τ - g‖ = ‖v • (v⁻¹ • τ - g)‖ := by rw [norm_smul, Real.norm_eq_abs, abs_of_pos hvpos]
      _ = ‖(τ - c • g) + (c - v) • g‖ := by rw [h1]
      _ ≤ ‖τ - c • g‖ + ‖(c - v) • g‖ := norm_add_le _ _
      _ ≤ _ := by
        refine add_le_add hτ ?_
        rw [norm_smul, Real.norm_eq_abs]
        refine mul_le_mul ?_ hgn (norm_nonneg _) (by positivity)
        rw [abs_le]
        constructor <;> linarith
  have h3 : e1 + e1 / dm * D = e1 * (1 + D / dm) := by ring
  rw [h3] at h2
  have h4 : 0 ≤ e1 * (1 + D / dm) := by positivity
  nlinarith [norm_nonneg (v⁻¹ • τ - g)]

section
variable {n : Nat} {S : ℝ} {γ γ' : ℝ → Fin (n + 1) → ℝ}

/-- Linear prediction along the path. -/
theorem path_linear (hderiv : ∀ s ∈ Set.Icc 0 S, HasDerivWithinAt γ (γ' s) (Set.Icc 0 S) s) {s s' ω : ℝ}
    (hs : s ∈ Set.Icc 0 S) (hs' : s' ∈ Set.Icc 0 S) (hle : s ≤ s')
    (hω : ∀ r ∈ Set.Icc 0 S, s ≤ r → r ≤ s' → ‖γ' r - γ' s‖ ≤ ω) : ‖γ s' - γ s - (s' - s) • γ' s‖ ≤ ω * (s' - s) := by
  have hsub : Set.Icc s s' ⊆ Set.Icc 0 S := Set.Icc_subset_Icc hs.1 hs'.2
  have h1 : ∀ r ∈ Set.Icc s s', HasDerivWithinAt (fun r => γ r - (r - s) • γ' s) (γ' r - (1 : ℝ) • γ' s) (Set.Icc s s') r := by
    intro r hr
    refine ((hderiv r (hsub hr)).mono hsub).sub ?_
    exact ((hasDerivWithinAt_id r _).sub_const s).smul_const (γ' s)
  have := (convex_Icc s s').norm_image_sub_le_of_norm_hasDerivWithin_le h1 (C := ω)
    (fun r hr => by rw [one_smul]; exact hω r (hsub hr) hr.1 hr.2) (Set.left_mem_Icc.2 hle) (Set.right_mem_Icc.2 hle)
  rw [sub_self, zero_smul, sub_zero, Real.norm_eq_abs, abs_of_nonneg (sub_nonneg.2 hle)] at this
  rwa [sub_right_comm]

/-- The point of the path that belongs to the new value of the control component. -/
theorem next_param (hderiv : ∀ s ∈ Set.Icc 0 S, HasDerivWithinAt γ (γ' s) (Set.Icc 0 S) s) {s t ω N e2 e5 e δ σ xi : ℝ}
    {g : Fin (n + 1) → ℝ} {i : Fin (n + 1)} (hs : s ∈ Set.Icc 0 S) (ht : 0 < t) (hN : 1 ≤ N) (hg : γ' s = N • g) (hσ : |σ| = 1)
    (hlo : δ - e2 ≤ σ * g i) (hup : |g i| ≤ δ) (hx : |xi - γ s i| ≤ e5 * t) (he : 0 ≤ e) (he1 : e ≤ 1)
    (hend : s + (1 + e) * t ≤ S) (hω : ∀ r ∈ Set.Icc 0 S, s ≤ r → r ≤ s + (1 + e) * t → ‖γ' r - γ' s‖ ≤ ω)
    (hsmall : 2 * (e2 + ω) + e5 ≤ e * δ) (he2 : 0 ≤ e2) :
    ∃ u, 1 - e ≤ u ∧ u ≤ 1 + e ∧ s + u * t / N ∈ Set.Icc 0 S ∧ γ (s + u * t / N) i = xi + t * δ * σ ∧
      ‖γ (s + u * t / N) - γ s - (u * t) • g‖ ≤ ω * (u * t) ∧ ‖γ' (s + u * t / N) - γ' s‖ ≤ ω := by
  have hN0 : 0 < N := by linarith
  have hω0 : 0 ≤ ω := by
    have := hω s hs le_rfl (by nlinarith)
    exact (norm_nonneg _).trans this
  have hrange : ∀ u, 0 ≤ u → u ≤ 1 + e → s ≤ s + u * t / N ∧ s + u * t / N ≤ s + (1 + e) * t := by
    intro u hu0 hu
    have h1 : 0 ≤ u * t / N := by positivity
    have h2 : u * t / N ≤ u * t := div_le_self (by positivity) hN
    have h3 : u * t ≤ (1 + e) * t := mul_le_mul_of_nonneg_right hu ht.le
    exact ⟨by linarith, by linarith⟩
  have hin : ∀ u, 0 ≤ u → u ≤ 1 + e → s + u * t / N ∈ Set.Icc 0 S := fun u h0 h1 =>
    ⟨hs.1.trans (hrange u h0 h1).1, (hrange u h0 h1).2.trans hend⟩
  have hlin : ∀ u, 0 ≤ u → u ≤ 1 + e → ‖γ (s + u * t / N) - γ s - (u * t) • g‖ ≤ ω * (u * t) := by
    intro u h0 h1
    have := path_linear hderiv hs (hin u h0 h1) (hrange u h0 h1).1
      (fun r hr h2 h3 => hω r hr h2 (h3.trans (hrange u h0 h1).2))
    rw [add_sub_cancel_left, hg, smul_smul, div_mul_cancel₀ _ hN0.ne'] at this
    refine this.trans (mul_le_mul_of_nonneg_left (div_le_self (by positivity) hN) hω0)
  have hσ2 : σ * σ = 1 := by
    rw [← abs_mul_abs_self, hσ, one_mul]
  have hval : ∀ u, 0 ≤ u → u ≤ 1 + e → |σ * (γ (s + u * t / N) i - xi) - u * t * (σ * g i)| ≤ ω * (u * t) + e5 * t := by
    intro u h0 h1
    have h2 := (norm_le_pi_norm _ i).trans (hlin u h0 h1)
    rw [Real.norm_eq_abs] at h2
    simp only [Pi.sub_apply, Pi.smul_apply, smul_eq_mul] at h2
    have h3 : σ * (γ (s + u * t / N) i - xi) - u * t * (σ * g i) =
        σ * ((γ (s + u * t / N) i - γ s i - u * t * g i) - (xi - γ s i)) := by ring
    rw [h3, abs_mul, hσ, one_mul]
    exact (abs_sub _ _).trans (add_le_add h2 hx)
  have hσg : σ * g i ≤ δ := by
    have := le_abs_self (σ * g i)
    rw [abs_mul, hσ, one_mul] at this
    exact this.trans hup
  have hcont : ContinuousOn (fun u => σ * (γ (s + u * t / N) i - xi)) (Set.Icc (1 - e) (1 + e)) := by
    have hγ : ContinuousOn γ (Set.Icc 0 S) := fun r hr => (hderiv r hr).continuousWithinAt
    have h1 : ContinuousOn (fun u => γ (s + u * t / N)) (Set.Icc (1 - e) (1 + e)) :=
      hγ.comp (by fun_prop) fun u hu => hin u (by linarith [hu.1]) hu.2
    exact continuousOn_const.mul ((continuousOn_pi.1 h1 i).sub continuousOn_const)
  have hδ0 : 0 ≤ δ := (abs_nonneg _).trans hup
  have hA : σ * (γ (s + (1 - e) * t / N) i - xi) ≤ t * δ := by
    have h1 := (abs_le.1 (hval (1 - e) (by linarith) (by linarith))).2
    have h2 : (1 - e) * t * (σ * g i) ≤ (1 - e) * t * δ := mul_le_mul_of_nonneg_left hσg (by
      have : 0 ≤ 1 - e := by linarith
      positivity)
    have h3 : ω * ((1 - e) * t) ≤ ω * t := mul_le_mul_of_nonneg_left (by nlinarith) hω0
    have h4 : t * (2 * (e2 + ω) + e5) ≤ t * (e * δ) := mul_le_mul_of_nonneg_left hsmall ht.le
    nlinarith
  have hB : t * δ ≤ σ * (γ (s + (1 + e) * t / N) i - xi) := by
    have h1 := (abs_le.1 (hval (1 + e) (by linarith) le_rfl)).1
    have h2 : (1 + e) * t * (δ - e2) ≤ (1 + e) * t * (σ * g i) := mul_le_mul_of_nonneg_left hlo (by positivity)
    have h4 : t * (2 * (e2 + ω) + e5) ≤ t * (e * δ) := mul_le_mul_of_nonneg_left hsmall ht.le
    have h5 : (1 + e) * t * e2 ≤ 2 * t * e2 := by
      have : (1 + e) * t ≤ 2 * t := by nlinarith
      exact mul_le_mul_of_nonneg_right this he2
    have h6 : ω * ((1 + e) * t) ≤ ω * (2 * t) := mul_le_mul_of_nonneg_left (by nlinarith) hω0
    nlinarith
  obtain ⟨u, hu, hval2⟩ := intermediate_value_Icc (by linarith) hcont ⟨hA, hB⟩
  have hu0 : 0 ≤ u := by linarith [hu.1]
  refine ⟨u, hu.1, hu.2, hin u hu0 hu.2, ?_, hlin u hu0 hu.2, hω _ (hin u hu0 hu.2) (hrange u hu0 hu.2).1 (hrange u hu0 hu.2).2⟩
  have hval2 : σ * (γ (s + u * t / N) i - xi) = t * δ := hval2
  linear_combination σ * hval2 - (γ (s + u * t / N) i - xi) * hσ2

end

end TrussPy
