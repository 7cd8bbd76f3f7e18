import Verif.Spec.History
import Verif.Lemmas.LoadPath
/-!
# The displacements of a stable structure as a function of the loads
-/

set_option linter.unusedSectionVars false

namespace TrussPy

open Filter Topology

theorem exists_response {n : Nat} {φ : (Fin n → ℝ) → Fin n → ℝ} {J : (Fin n → ℝ) → Matrix (Fin n) (Fin n) ℝ} {z : Fin n → ℝ}
    (hz : φ z = 0) (hφ : ContDiffAt ℝ 1 φ z) (hJ : ∀ᶠ x in 𝓝 z, HasFDerivAt φ (mulCLM (J x)) x) (hreg : IsUnit (J z).det)
    {Q : (Fin n → ℝ) → Prop} (hQ : ∀ᶠ x in 𝓝 z, Q x) :
    ∃ ρ > 0, ∀ ε > 0, ∃ δ > 0, ∃ g : (Fin n → ℝ) → Fin n → ℝ, g 0 = z ∧
      (∀ y, ‖y‖ ≤ δ → φ (g y) = y ∧ IsUnit (J (g y)).det ∧ Q (g y) ∧ ‖g y - z‖ ≤ ε) ∧
      ContinuousOn g (Metric.closedBall 0 δ) ∧ ∀ x, ‖x - z‖ ≤ ρ → g (φ x) = x := by
  have hinj : Function.Injective (Matrix.toLin' (J z)) := by
    rw [injective_iff_map_eq_zero]
    intro v hv
    rw [Matrix.toLin'_apply] at hv
    exact (regular_iff_injective _).1 hreg v hv
  let A : (Fin n → ℝ) ≃L[ℝ] Fin n → ℝ := (LinearEquiv.ofInjectiveEndo (Matrix.toLin' (J z)) hinj).toContinuousLinearEquiv
  have hA : (A : (Fin n → ℝ) →L[ℝ] Fin n → ℝ) = mulCLM (J z) := by
    ext v
    rfl
  have hd : HasFDerivAt φ (A : (Fin n → ℝ) →L[ℝ] Fin n → ℝ) z := by
    rw [hA]
    exact hJ.self_of_nhds
  have h1 : (1 : WithTop ℕ∞) ≠ 0 := one_ne_zero
  have hst := hφ.hasStrictFDerivAt' hd h1
  set g := hφ.localInverse hd h1 with hg
  have hgc : ContDiffAt ℝ 1 g 0 := by
    have := hφ.to_localInverse hd h1
    rwa [hz] at this
  have hgz : g 0 = z := by
    have := hφ.localInverse_apply_image hd h1
    rwa [hz] at this
  have hright : ∀ᶠ y in 𝓝 (0 : Fin n → ℝ), φ (g y) = y := by
    have := hst.eventually_right_inverse
    rwa [hz] at this
  have hleft : ∀ᶠ x in 𝓝 z, g (φ x) = x := hst.eventually_left_inverse
  have hgt : Tendsto g (𝓝 0) (𝓝 z) := by
    have := hgc.continuousAt
    rwa [ContinuousAt, hgz] at this
  obtain ⟨ρ, hρ, hρl⟩ := Metric.eventually_nhds_iff_ball.1 hleft
  refine ⟨ρ / 2, by positivity, fun ε hε => ?_⟩
  have hall : ∀ᶠ y in 𝓝 (0 : Fin n → ℝ), ContDiffAt ℝ 1 g y ∧ φ (g y) = y ∧ HasFDerivAt φ (mulCLM (J (g y))) (g y) ∧ Q (g y) ∧
      dist (g y) z < ε :=
    (hgc.eventually (by simp)).and (hright.and ((hgt.eventually hJ).and ((hgt.eventually hQ).and
      (hgt.eventually (Metric.ball_mem_nhds z hε)))))
  obtain ⟨δ, hδ, hball⟩ := Metric.eventually_nhds_iff_ball.1 hall
  have hinv : ∀ y ∈ Metric.ball (0 : Fin n → ℝ) δ, ∀ w, (J (g y)).mulVec (fderiv ℝ g y w) = w := by
    intro y hy w
    obtain ⟨c1, -, c3, -⟩ := hball y hy
    have hc := c3.comp y (c1.differentiableAt (by simp)).hasFDerivAt
    have hid : HasFDerivAt (φ ∘ g) (ContinuousLinearMap.id ℝ (Fin n → ℝ)) y := by
      refine (hasFDerivAt_id y).congr_of_eventuallyEq ?_
      filter_upwards [Metric.isOpen_ball.mem_nhds hy] with y' hy'
      exact (hball y' hy').2.1
    have := congrArg (fun L : (Fin n → ℝ) →L[ℝ] Fin n → ℝ => L w) (hc.unique hid)
    exact this
  have hin : ∀ y : Fin n → ℝ, ‖y‖ ≤ δ / 2 → y ∈ Metric.ball (0 : Fin n → ℝ) δ := by
    intro y hy
    rw [mem_ball_zero_iff]
    linarith
  refine ⟨δ / 2, by positivity, g, hgz, fun y hy => ?_, fun y hy => ?_, fun x hx => ?_⟩
  · obtain ⟨-, c2, -, c4, c5⟩ := hball y (hin y hy)
    refine ⟨c2, ?_, c4, ?_⟩
    · rw [← Matrix.isUnit_iff_isUnit_det, ← Matrix.mulVec_surjective_iff_isUnit]
      intro w
      exact ⟨_, hinv _ (hin y hy) w⟩
    · rw [← dist_eq_norm]
      exact c5.le
  · rw [mem_closedBall_zero_iff] at hy
    exact (hball y (hin y hy)).1.continuousAt.continuousWithinAt
  · exact hρl x (by rw [mem_ball_iff_norm]; linarith)

section
variable {u : UserInput ℝ} {es : List (Elem ℝ)} {c : Ctx ℝ} {bars : List (Bar ℝ)} {a : Analysis ℝ} {ef : StepForces ℝ}

/-- A stable structure has equilibrium displacements under small loads. -/
theorem LaidStep.response (h : LaidStep u es c bars a ef) (hst : StiffElems u es) (hk : KinematicallyStable u es) :
    ∃ ρ > 0, ∃ σ > 0, ∃ D, Response u es ρ σ D := by
  have hn : c.ndof1 = a.DOF1.length := h.eval.dofs.symm
  have hV0 : (List.replicate (a.DOF1.length + 1) (0 : ℝ)).length = a.DOF1.length + 1 := by simp
  have hj : ((a.DOF1.length : Int) + 1).natAbs = ((Fin.last a.DOF1.length : Fin (a.DOF1.length + 1)) : Nat) + 1 := by
    rw [Fin.val_last]; omega
  have hs0 := h.zero_calm hst
  have hev := calmAt_eventually h.eval hn hs0
  obtain ⟨δ0, hδ0, hball⟩ := Metric.eventually_nhds_iff.1 hev
  obtain ⟨ρ0, hρ0, key⟩ := exists_response (h.zero_sys hst hV0) (sys_contDiff h.eval hn hV0 hj 0 hs0.smooth)
    (J := sysMat c a a.DOF1.length ((a.DOF1.length : Int) + 1)) (hev.mono fun x hx => sys_hasFDerivAt h.eval h.lpf h.f0 hn hV0 hj 0 hx.smooth)
    (h.zero_regular hst hk) hev
  set σ := min ρ0 (δ0 / 2) with hσd
  have hσ : 0 < σ := lt_min hρ0 (by positivity)
  obtain ⟨δ, hδ, g, g0, g1, g2, g3⟩ := key σ hσ
  have hy : ∀ f, SmallLoads u δ f → ‖fieldVec c a.DOF1 f 0‖ ≤ δ := by
    intro f hf
    rw [pi_norm_le_iff_of_nonneg hδ.le]
    intro i
    refine Fin.lastCases ?_ (fun q => ?_) i
    · rw [fieldVec_last, norm_zero]; exact hδ.le
    · rw [fieldVec_castSucc, Real.norm_eq_abs]
      obtain ⟨n, hn', hl⟩ := h.laid.node (h.laid.dofLabel (p := a.DOF1[q]) (List.getElem_mem q.isLt))
      rw [← hl]
      exact hf n hn' _
  have hlast : ∀ f, SmallLoads u δ f → g (fieldVec c a.DOF1 f 0) (Fin.last _) = 0 := by
    intro f hf
    have h1 := congrFun (g1 _ (hy f hf)).1 (Fin.last _)
    rw [sysRes_last h.eval hn hV0 hj, fieldVec_last, sub_zero] at h1
    exact h1
  have hvec : ∀ f, SmallLoads u δ f → fieldVec c a.DOF1 (fieldOf c a.DOF1 (g (fieldVec c a.DOF1 f 0))) 0 = g (fieldVec c a.DOF1 f 0) :=
    fun f hf => h.laid.fieldVec_fieldOf (hlast f hf)
  have hsm : ∀ f, SmallLoads u δ f → CalmAt c bars a (fieldVec c a.DOF1 (fieldOf c a.DOF1 (g (fieldVec c a.DOF1 f 0))) 0) := by
    intro f hf
    rw [hvec f hf]
    exact (g1 _ (hy f hf)).2.2.1
  refine ⟨δ, hδ, σ, hσ, fun f => fieldOf c a.DOF1 (g (fieldVec c a.DOF1 f 0)), ?_⟩
  refine ⟨?_, fun f _ => h.laid.allowed_fieldOf _, ?_, ?_, ?_, ?_,
    fun f hf => h.length_of_smooth (h.laid.allowed_fieldOf _) (hsm f hf).smooth,
    fun f hf => h.below_of_calm (h.laid.allowed_fieldOf _) (hsm f hf), ?_⟩
  · intro n _ d
    simp only [fieldVec_zero, g0]
    exact Finset.sum_eq_zero fun q _ => mul_zero _
  · intro f hf lab d hfr
    obtain ⟨p, hp, rfl, rfl⟩ := h.laid.freeDof hfr
    obtain ⟨q, hq, rfl⟩ := List.getElem_of_mem hp
    have h1 := h.system hV0 hj 0 (h.laid.allowed_fieldOf (g (fieldVec c a.DOF1 f 0)))
      (h.below_of_calm (h.laid.allowed_fieldOf _) (hsm f hf)) 0 ⟨q, hq⟩
    have h2 := congrFun (g1 _ (hy f hf)).1 (⟨q, hq⟩ : Fin a.DOF1.length).castSucc
    rw [hvec f hf, h2, fieldVec_castSucc, zero_mul, sub_zero] at h1
    exact h1.symm
  · intro f hf n hn' d
    by_cases hfr : FreeAt u n.label d
    · obtain ⟨p, hp, e1, e2⟩ := h.laid.freeDof hfr
      obtain ⟨q, hq, rfl⟩ := List.getElem_of_mem hp
      have h1 := congrFun (hvec f hf) (⟨q, hq⟩ : Fin a.DOF1.length).castSucc
      rw [fieldVec_castSucc] at h1
      have h2 := (g1 _ (hy f hf)).2.2.2
      rw [sub_zero, pi_norm_le_iff_of_nonneg hσ.le] at h2
      have h3 := h2 (⟨q, hq⟩ : Fin a.DOF1.length).castSucc
      rw [← h1, Real.norm_eq_abs] at h3
      rw [← e1, ← e2]
      exact h3
    · rw [h.laid.allowed_fieldOf _ n hn' d fun h1 => hfr ⟨⟨n, hn', rfl⟩, h1⟩, abs_zero]
      exact hσ.le
  · intro f hf V hV hb heq n hn' d
    refine h.laid.field_ext hV (h.laid.allowed_fieldOf _) (l := 0) (l' := 0) ?_ hn' d
    rw [hvec f hf]
    have hnorm : ‖fieldVec c a.DOF1 V 0 - 0‖ ≤ σ := by
      rw [sub_zero, pi_norm_le_iff_of_nonneg hσ.le]
      intro i
      refine Fin.lastCases ?_ (fun q => ?_) i
      · rw [fieldVec_last, norm_zero]; exact hσ.le
      · rw [fieldVec_castSucc, Real.norm_eq_abs]
        obtain ⟨n, hn', hl⟩ := h.laid.node (h.laid.dofLabel (p := a.DOF1[q]) (List.getElem_mem q.isLt))
        rw [← hl]
        exact hb n hn' _
    have hcalm : CalmAt c bars a (fieldVec c a.DOF1 V 0) := hball (by
      rw [dist_eq_norm]
      refine hnorm.trans_lt ((min_le_right _ _).trans_lt ?_)
      linarith)
    rw [← g3 _ (hnorm.trans (min_le_left _ _))]
    congr 1
    funext i
    refine Fin.lastCases ?_ (fun q => ?_) i
    · rw [sysRes_last h.eval hn hV0 hj, fieldVec_last, fieldVec_last, sub_zero]
    · rw [h.system hV0 hj 0 hV (h.below_of_calm hV hcalm), heq _ _ (h.laid.dofFree (p := a.DOF1[q]) (List.getElem_mem q.isLt)),
        fieldVec_castSucc, zero_mul, sub_zero]
  · intro n _ d
    unfold fieldOf
    refine continuousOn_finsetSum _ fun q _ => continuousOn_const.mul ?_
    have hfv : Continuous fun f : Int → V3 ℝ => fieldVec c a.DOF1 f 0 := by
      refine continuous_pi fun i => ?_
      refine Fin.lastCases ?_ (fun q => ?_) i
      · simp only [fieldVec_last]; exact continuous_const
      · simp only [fieldVec_castSucc]
        exact (continuous_apply _).comp (continuous_apply _)
    refine (continuous_apply _).comp_continuousOn (g2.comp hfv.continuousOn fun f hf => ?_)
    rw [mem_closedBall_zero_iff]
    exact hy f hf
  · intro f hf v hv hd n hn' d
    have h0 : fieldVec c a.DOF1 v 0 = 0 := by
      refine (regular_iff_injective _).1 (g1 _ (hy f hf)).2.1 _ ?_
      funext i
      refine Fin.lastCases ?_ (fun q => ?_) i
      · rw [(sysMat_rows h.eval h.lpf h.f0 hn hj hj _).2, fieldVec_last]; rfl
      · have h1 := h.derivative hj (h.laid.allowed_fieldOf (g (fieldVec c a.DOF1 f 0))) (hsm f hf) hv 0 q
        simp only [mul_zero, add_zero, zero_mul, sub_zero] at h1
        have h2 := h1.unique (hd _ _ (h.laid.dofFree (List.getElem_mem q.isLt)))
        rw [hvec f hf] at h2
        rw [h2]; rfl
    have h1 := h.laid.field_ext hv allowed_zero (l := 0) (l' := 0) (by rw [h0, fieldVec_zero]) hn' d
    rw [h1]; rfl

end

end TrussPy
