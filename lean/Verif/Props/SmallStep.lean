import Verif.Props.Converge
/-!
# Property C71: increments with small step widths are accepted
-/

set_option linter.unusedSectionVars false

namespace TrussPy

section
variable {c : Ctx ℝ} {bars : List (Bar ℝ)} {a : Analysis ℝ} {ef : StepForces ℝ}

/-- **C71, free choice of the control component.** Let `x` be an exact equilibrium of a truss where all bars have a length, no
bar is just at its yield limit and the extended stiffness matrix is regular, and let the linear solver be exact.  Then there
are `t0 > 0` and `C` such that with step widths `t * d`, `t < t0`, tolerances `C t < 2^N ftol`, `C t < 2^N xtol`, `xtol` not
above the step widths and `N + 2` allowed iterations, the increment is accepted at the first attempt, and some component of
the vector moves exactly by its step width. -/
theorem C71_small_steps_accepted (he : Evaluable c bars a ef) (hl : a.lpf.isSome = true)
    (hf0 : a.f0red = a.DOF1.map fun p => ef.forces.getD p 0) {n : Nat} (hn : c.ndof1 = n) (hn1 : 1 ≤ n)
    {x : Fin (n + 1) → ℝ} (hs : SmoothAt c bars a x)
    {a1 : Analysis ℝ} (heq : equilibrium c a (List.ofFn x) (List.ofFn x) .G false = .ok (a1, List.replicate n 0))
    {j : Int} (hj : 1 ≤ j.natAbs ∧ j.natAbs ≤ n + 1)
    {a2 : Analysis ℝ} {K : List (List ℝ)} (hK : extDf (modelProblem c) j a (List.ofFn x) = .ok (a2, K))
    (hreg : IsUnit (Matrix.det (matOf (n + 1) K))) {env : Env ℝ} (hsp : SolvesRegular env.spsolve (n + 1)) (hA : ArgMax env)
    {d : Fin (n + 1) → ℝ} (hd : ∀ i, 0 < d i) {dxtol : ℝ} (hdx : 1 < dxtol) :
    ∃ t0 > 0, ∃ C : ℝ, ∀ t, 0 < t → t < t0 → ∀ (cfg : PFCfg ℝ), cfg.jFixed = false → dxtol ≤ cfg.dxtol →
      (∀ i, cfg.xtol ≤ t * d i) → ∀ N : Nat, C * t < cfg.ftol * 2 ^ N → C * t < cfg.xtol * 2 ^ N → (N : Int) + 2 ≤ cfg.nfev →
      ∀ (dxmax0 : List ℝ), dxmax0 ≠ [] → ∀ (fuel : Nat), 1 ≤ fuel → ∀ (jPre b : Int), jPre ≠ 0 →
        ∃ s', increment env (modelProblem c) cfg dxmax0 fuel ⟨List.ofFn x, List.ofFn fun i => t * d i, j, jPre, b, a⟩ =
          .ok (s', .accepted) ∧ ∃ (y : Fin (n + 1) → ℝ) (i : Fin (n + 1)), s'.x = List.ofFn y ∧ |y i - x i| = t * d i := by
  obtain ⟨k, hjk⟩ : ∃ k : Fin (n + 1), j.natAbs = k + 1 := ⟨⟨j.natAbs - 1, by omega⟩, by show _ = j.natAbs - 1 + 1; omega⟩
  have hmat : sysMat c a n j x = matOf (n + 1) K := by unfold sysMat; rw [hK]
  have hregA : IsUnit (sysMat c a n j x).det := by rw [hmat]; exact hreg
  have hV0 : (List.ofFn x).length = n + 1 := by simp
  set σ : ℝ := Flt.ofInt j.sign with hσ
  have hσ1 : |σ| = 1 := by
    rw [hσ]
    show |((j.sign : Int) : ℝ)| = 1
    rw [← Int.cast_abs, Int.abs_sign_of_ne_zero (by omega)]
    simp
  -- the residual vanishes at `x`
  have hres : ∀ {j' : Int} {k' : Fin (n + 1)}, j'.natAbs = k' + 1 → ∀ Vmax,
      sysRes c a n (List.ofFn x) j' Vmax x = Fin.snoc (α := fun _ => ℝ) (fun _ => 0) (x k' - Vmax) := by
    intro j' k' hj' Vmax
    funext m
    refine Fin.lastCases ?_ (fun m => ?_) m
    · rw [Fin.snoc_last, sysRes_last he hn hV0 hj']
    · rw [Fin.snoc_castSucc]
      exact sysRes_zero he hn hj' Vmax heq m
  -- the tangent
  obtain ⟨τ, hτ⟩ : ∃ τ, (sysMat c a n j x).mulVec τ = Fin.snoc (α := fun _ => ℝ) (fun _ => 0) (d k * σ) :=
    ⟨(sysMat c a n j x)⁻¹.mulVec _, by rw [Matrix.mulVec_mulVec, Matrix.mul_nonsing_inv _ hregA, Matrix.one_mulVec]⟩
  have hτk : τ k = d k * σ := by
    rw [← (sysMat_rows he hl hf0 hn hjk hjk x).2 τ, hτ, Fin.snoc_last]
  obtain ⟨i0, hmax, hbig⟩ := maxComp_ofFn hA fun i => τ i / d i
  have hrk : |τ k / d k| = 1 := by
    rw [hτk, mul_div_right_comm, div_self (hd k).ne', one_mul, hσ1]
  have hr0 : τ i0 / d i0 ≠ 0 := by
    intro h0
    have := hbig k
    rw [hrk, h0, abs_zero] at this
    linarith
  set v := τ i0 / d i0 with hv
  have hvpos : 0 < |v| := abs_pos.2 hr0
  obtain ⟨j1, hj1, hj1a, hj1s⟩ := signedIdx_pos (i := ((i0 : Nat) : Int) + 1) hr0 (by omega)
  have hj1k : j1.natAbs = i0 + 1 := by rw [hj1a]; omega
  set σ1 : ℝ := Flt.ofInt j1.sign with hσ1'
  have hτi0 : τ i0 = v * d i0 := by rw [hv, div_mul_cancel₀ _ (hd i0).ne']
  have hreg1 : IsUnit (sysMat c a n j1 x).det := by
    refine sysMat_switch he hl hf0 hn hjk hj1k x hregA (fun m => ?_) ?_ ?_ (τ := τ)
    · rw [hτ, Fin.snoc_castSucc]
    · intro h0
      rw [h0, zero_div, abs_zero] at hrk
      exact zero_ne_one hrk
    · rw [hτi0]
      exact mul_ne_zero hr0 (hd i0).ne'
  -- the scaled tangent
  set w : Fin (n + 1) → ℝ := fun i => τ i / |v| with hw
  have hwle : ∀ i, |w i| ≤ d i := by
    intro i
    have h1 := hbig i
    rw [abs_div, abs_of_pos (hd i), div_le_iff₀ (hd i)] at h1
    rw [hw]
    simp only
    rw [abs_div, abs_abs, div_le_iff₀ hvpos]
    linarith
  have hwi0 : w i0 = d i0 * σ1 := by
    rw [hw]
    simp only
    rw [hτi0, div_eq_iff hvpos.ne']
    linear_combination (-(d i0)) * hj1s
  have hAw : (sysMat c a n j1 x).mulVec w = Fin.snoc (α := fun _ => ℝ) (fun _ => 0) (d i0 * σ1) := by
    obtain ⟨r1, -⟩ := sysMat_rows he hl hf0 hn hjk hj1k x
    obtain ⟨-, r3⟩ := sysMat_rows he hl hf0 hn hj1k hjk x
    funext m
    refine Fin.lastCases ?_ (fun m => ?_) m
    · rw [r3, Fin.snoc_last, hwi0]
    · rw [Fin.snoc_castSucc]
      have h1 : (sysMat c a n j1 x).mulVec w m.castSucc = (sysMat c a n j x).mulVec w m.castSucc := by
        show dotProduct (sysMat c a n j1 x m.castSucc) w = dotProduct (sysMat c a n j x m.castSucc) w
        rw [r1 m]
      have h2 : w = |v|⁻¹ • τ := by
        funext i
        rw [hw, Pi.smul_apply, smul_eq_mul]
        ring
      rw [h1, h2, Matrix.mulVec_smul, Pi.smul_apply, hτ, Fin.snoc_castSucc, smul_zero]
  obtain ⟨ρ, ε, M, hρ, ht⟩ := sys_tame he hl hf0 hn hV0 hj1k 0 hs hreg1
  have hM := ht.pos
  -- smallest step width
  obtain ⟨dm, hdm0, hdm⟩ : ∃ dm > 0, ∀ i, dm ≤ d i := by
    obtain ⟨i, -, hi⟩ := Finset.exists_min_image Finset.univ d ⟨0, Finset.mem_univ _⟩
    exact ⟨d i, hd i, fun m => hi m (Finset.mem_univ m)⟩
  set W := ‖w‖ + 1 with hW
  have hW0 : 0 < W := by positivity
  set η := (dxtol - 1) * dm / (4 * M * W) with hη
  have hη0 : 0 < η := by
    rw [hη]
    have : 0 < dxtol - 1 := by linarith
    positivity
  have hηM : 4 * M * (η * W) = (dxtol - 1) * dm := by
    rw [hη]
    field_simp
  have hder := sys_hasFDerivAt he hl hf0 hn hV0 hj1k 0 hs
  obtain ⟨δ, hδ0, hδ⟩ : ∃ δ > 0, ∀ y, ‖y - x‖ < δ → ‖sysRes c a n (List.ofFn x) j1 0 y - sysRes c a n (List.ofFn x) j1 0 x -
      (sysMat c a n j1 x).mulVec (y - x)‖ ≤ η * ‖y - x‖ := by
    have := hder.isLittleO.def hη0
    obtain ⟨δ, hδ0, h⟩ := Metric.eventually_nhds_iff.1 this
    refine ⟨δ, hδ0, fun y hy => ?_⟩
    have := h (y := y) (by rw [dist_eq_norm]; exact hy)
    rwa [mulCLM_apply] at this
  refine ⟨min (δ / W) (ρ / (W + 4 * M * (η * W))), by positivity, ((n : ℝ) + 1) * ((1 + 2 * M) * (η * W)), ?_⟩
  intro t ht0 htlt cfg hjf hdxtol hxtol N hN1 hN2 hnfev dxmax0 hdx0 fuel hfuel jPre b hjPre
  have htδ : t * W < δ := by
    have := htlt.trans_le (min_le_left _ _)
    rwa [lt_div_iff₀ hW0] at this
  have htρ : t * (W + 4 * M * (η * W)) ≤ ρ := by
    have := (htlt.trans_le (min_le_right _ _)).le
    rwa [le_div_iff₀ (by positivity)] at this
  -- predictor
  have hpre : ∃ a', predictor env (modelProblem c) cfg ⟨List.ofFn x, List.ofFn fun i => t * d i, j, jPre, b, a⟩ =
      .ok ⟨false, 1, j1, j1, List.ofFn (t • τ), v, a'⟩ ∧ Trial a a' := by
    obtain ⟨a', o, dd, e1, e2, e3, e4, e5, e6⟩ := newton_one (model_computes he hl hf0 hn hV0 hjk (x k + t * d k * σ)) hsp
      (Trial.refl a) hregA cfg.ftol cfg.xtol
    have hdd : dd = t • τ := by
      have : (sysMat c a n j x).mulVec dd = (sysMat c a n j x).mulVec (t • τ) := by
        rw [e5, hres hjk, Matrix.mulVec_smul, hτ]
        funext m
        refine Fin.lastCases ?_ (fun m => ?_) m
        · simp only [Pi.neg_apply, Pi.smul_apply, Fin.snoc_last, smul_eq_mul]
          ring
        · simp only [Pi.neg_apply, Pi.smul_apply, Fin.snoc_castSucc, smul_zero, neg_zero]
      have hinj := Matrix.mulVec_injective_iff_isUnit.2 ((Matrix.isUnit_iff_isUnit_det _).2 hregA)
      exact hinj this
    subst hdd
    have hsucc : o.success = false := by
      by_contra hne
      have h1 := e6 (by simpa using hne)
      have h2 := norm_le_vnorm (t • τ)
      have h3 := norm_le_pi_norm (t • τ) k
      rw [Pi.smul_apply, smul_eq_mul, hτk, Real.norm_eq_abs, abs_mul, abs_mul, hσ1, abs_of_pos ht0, abs_of_pos (hd k), mul_one] at h3
      have h4 := hxtol k
      linarith
    refine ⟨a', ?_, e2⟩
    unfold predictor
    have hDx : vsub o.x (List.ofFn x) = List.ofFn (t • τ) := by
      rw [e3, vsub_ofFn, add_sub_cancel_left]
    have hdiv : vdiv (List.ofFn (t • τ)) (List.ofFn fun i => t * d i) = List.ofFn fun i => τ i / d i := by
      rw [vdiv_ofFn]
      congr 1
      funext i
      rw [Pi.smul_apply, smul_eq_mul, mul_div_mul_left _ _ ht0.ne']
    rw [if_pos ⟨hjPre, hjf⟩]
    simp only [target_ofFn x (fun i => t * d i) hjk, py_bind_ok]
    rw [e1]
    simp only [py_bind_ok, hDx, hdiv, hmax, hj1, hsucc, e4, ite_self]
    rfl
  obtain ⟨a', hpre, ha'⟩ := hpre
  -- Newton iteration
  set Vmax := x i0 + t * d i0 * σ1 with hVmax
  have htame : Tame (sysRes c a n (List.ofFn x) j1 Vmax) (sysMat c a n j1) (mulCLM (sysMat c a n j1 x)) x ρ ε M :=
    ht.shift fun p q => sysRes_shift he hn hV0 hj1k Vmax 0 p q
  have hφ : ‖sysRes c a n (List.ofFn x) j1 Vmax (x + t • w)‖ ≤ η * W * t := by
    have hnorm : ‖x + t • w - x‖ ≤ t * W := by
      rw [add_sub_cancel_left, norm_smul, Real.norm_eq_abs, abs_of_pos ht0]
      exact mul_le_mul_of_nonneg_left (by rw [hW]; linarith) ht0.le
    have h1 := hδ (x + t • w) (hnorm.trans_lt htδ)
    rw [← sysRes_shift he hn hV0 hj1k Vmax 0, hres hj1k] at h1
    have h2 : (Fin.snoc (α := fun _ => ℝ) (fun _ => 0) (x i0 - Vmax) : Fin (n + 1) → ℝ) +
        (sysMat c a n j1 x).mulVec (x + t • w - x) = 0 := by
      rw [add_sub_cancel_left, Matrix.mulVec_smul, hAw]
      funext m
      refine Fin.lastCases ?_ (fun m => ?_) m
      · simp only [Pi.add_apply, Pi.smul_apply, Fin.snoc_last, smul_eq_mul, hVmax, Pi.zero_apply]
        ring
      · simp only [Pi.add_apply, Pi.smul_apply, Fin.snoc_castSucc, smul_zero, add_zero, Pi.zero_apply]
    rw [sub_sub, h2, sub_zero] at h1
    calc _ ≤ η * ‖x + t • w - x‖ := h1
      _ ≤ η * (t * W) := mul_le_mul_of_nonneg_left hnorm hη0.le
      _ = _ := by ring
  have hstart : ‖x + t • w - x‖ + 4 * M * ‖sysRes c a n (List.ofFn x) j1 Vmax (x + t • w)‖ ≤ ρ := by
    have h1 : ‖x + t • w - x‖ ≤ t * W := by
      rw [add_sub_cancel_left, norm_smul, Real.norm_eq_abs, abs_of_pos ht0]
      exact mul_le_mul_of_nonneg_left (by rw [hW]; linarith) ht0.le
    have h2 : 4 * M * ‖sysRes c a n (List.ofFn x) j1 Vmax (x + t • w)‖ ≤ 4 * M * (η * W * t) :=
      mul_le_mul_of_nonneg_left hφ (by positivity)
    linarith
  have hit : ((n + 1 : Nat) : ℝ) * ((1 + 2 * M) * ‖sysRes c a n (List.ofFn x) j1 Vmax (x + t • w)‖) ≤
      ((n : ℝ) + 1) * ((1 + 2 * M) * (η * W)) * t := by
    have : ((n + 1 : Nat) : ℝ) * ((1 + 2 * M) * ‖sysRes c a n (List.ofFn x) j1 Vmax (x + t • w)‖) ≤
      ((n + 1 : Nat) : ℝ) * ((1 + 2 * M) * (η * W * t)) := by gcongr
    refine this.trans (le_of_eq ?_)
    push_cast
    ring
  obtain ⟨a3, o, y, g1, g2, g3, g4, g5, -, g6⟩ := newton_converges (model_computes he hl hf0 hn hV0 hj1k Vmax) hsp htame
    (N := N) (nfev := cfg.nfev - 1) (by omega) ha' hstart (hit.trans_lt hN1) (hit.trans_lt hN2)
  have hst : (if (0 : Int) = 0 ∧ j1 ≠ 0 ∧ cfg.jFixed = false then
      vadd (List.ofFn x) ((List.ofFn (t • τ)).map fun u => u / Flt.abs v) else List.ofFn x) = List.ofFn (x + t • w) := by
    rw [if_pos ⟨rfl, by omega, hjf⟩, List.map_ofFn, vadd_ofFn]
    congr 1
    funext i
    simp only [Pi.add_apply, Function.comp, Pi.smul_apply, smul_eq_mul, hw]
    show x i + t * τ i / |v| = _
    ring
  obtain ⟨st', hat, hy⟩ := attempt_accepts he hn hn1 hA (cfg := cfg)
    (rc := ⟨List.ofFn x, dxmax0, j1, List.ofFn (t • τ), v⟩) (st := ⟨List.ofFn x, 0, 1, List.ofFn fun i => t * d i, j1, b, a'⟩)
    (x := x) (y := y) (d := fun i => t * d i) rfl rfl hdx0 hj1k hst g1 g2 g3 g4
    (Or.inr ⟨hjf, fun i => by
      have h1 : |(y - x) i| ≤ dxtol * (t * d i) := by
        have h2 : |(y - (x + t • w)) i| ≤ (dxtol - 1) * d i * t := by
          have h3 := norm_le_pi_norm (y - (x + t • w)) i
          rw [Real.norm_eq_abs] at h3
          have h4 : 4 * M * ‖sysRes c a n (List.ofFn x) j1 Vmax (x + t • w)‖ ≤ 4 * M * (η * W * t) :=
            mul_le_mul_of_nonneg_left hφ (by positivity)
          have h5 : 4 * M * (η * W * t) = (dxtol - 1) * dm * t := by rw [← hηM]; ring
          have h6 : (dxtol - 1) * dm * t ≤ (dxtol - 1) * d i * t := by
            have : 0 ≤ dxtol - 1 := by linarith
            have := hdm i
            gcongr
          linarith
        have h7 : (y - x) i = (y - (x + t • w)) i + t * w i := by
          simp only [Pi.sub_apply, Pi.add_apply, Pi.smul_apply, smul_eq_mul]
          ring
        rw [h7]
        refine (abs_add_le _ _).trans ?_
        rw [abs_mul, abs_of_pos ht0]
        have := mul_le_mul_of_nonneg_left (hwle i) ht0.le
        linarith
      have h0 : 0 < t * d i := mul_pos ht0 (hd i)
      rw [abs_div, abs_of_pos h0, div_le_iff₀ h0]
      exact h1.trans (mul_le_mul_of_nonneg_right hdxtol h0.le)⟩)
  obtain ⟨s', hs', hs''⟩ := increment_accepts hpre rfl hat hy hfuel
  refine ⟨s', hs', y, i0, hs'', ?_⟩
  have hσ11 : |σ1| = 1 := by
    rw [hσ1']
    show |((j1.sign : Int) : ℝ)| = 1
    rw [← Int.cast_abs, Int.abs_sign_of_ne_zero (by omega)]
    simp
  rw [control_exact he hl hf0 hn hV0 hj1k g6, hVmax, add_sub_cancel_left, abs_mul, hσ11, mul_one,
    abs_of_pos (mul_pos ht0 (hd i0))]

/-- **C71, control component fixed by the user.** The same with `j_fixed`: then the predictor is skipped, and it is the given
component which moves by its step width; `dxtol` need not be bigger than 1. -/
theorem C71_small_steps_accepted_fixed (he : Evaluable c bars a ef) (hl : a.lpf.isSome = true)
    (hf0 : a.f0red = a.DOF1.map fun p => ef.forces.getD p 0) {n : Nat} (hn : c.ndof1 = n) (hn1 : 1 ≤ n)
    {x : Fin (n + 1) → ℝ} (hs : SmoothAt c bars a x)
    {a1 : Analysis ℝ} (heq : equilibrium c a (List.ofFn x) (List.ofFn x) .G false = .ok (a1, List.replicate n 0))
    {j : Int} {k : Fin (n + 1)} (hjk : j.natAbs = k + 1)
    {a2 : Analysis ℝ} {K : List (List ℝ)} (hK : extDf (modelProblem c) j a (List.ofFn x) = .ok (a2, K))
    (hreg : IsUnit (Matrix.det (matOf (n + 1) K))) {env : Env ℝ} (hsp : SolvesRegular env.spsolve (n + 1)) (hA : ArgMax env)
    {d : Fin (n + 1) → ℝ} (hd : ∀ i, 0 < d i) :
    ∃ t0 > 0, ∃ C : ℝ, ∀ t, 0 < t → t < t0 → ∀ (cfg : PFCfg ℝ), cfg.jFixed = true → 1 ≤ cfg.dxtol →
      ∀ N : Nat, C * t < cfg.ftol * 2 ^ N → C * t < cfg.xtol * 2 ^ N → (N : Int) + 1 ≤ cfg.nfev →
      ∀ (dxmax0 : List ℝ), dxmax0 ≠ [] → ∀ (fuel : Nat), 1 ≤ fuel → ∀ (jPre b : Int),
        ∃ s', increment env (modelProblem c) cfg dxmax0 fuel ⟨List.ofFn x, List.ofFn fun i => t * d i, j, jPre, b, a⟩ =
          .ok (s', .accepted) ∧ ∃ y : Fin (n + 1) → ℝ, s'.x = List.ofFn y ∧ |y k - x k| = t * d k := by
  have hmat : sysMat c a n j x = matOf (n + 1) K := by unfold sysMat; rw [hK]
  have hregA : IsUnit (sysMat c a n j x).det := by rw [hmat]; exact hreg
  have hV0 : (List.ofFn x).length = n + 1 := by simp
  set σ : ℝ := Flt.ofInt j.sign with hσ
  have hσ1 : |σ| = 1 := by
    rw [hσ]
    show |((j.sign : Int) : ℝ)| = 1
    rw [← Int.cast_abs, Int.abs_sign_of_ne_zero (by omega)]
    simp
  obtain ⟨ρ, ε, M, hρ, ht⟩ := sys_tame he hl hf0 hn hV0 hjk 0 hs hregA
  have hM := ht.pos
  have hdk := hd k
  refine ⟨ρ / (4 * M * d k), by positivity, ((n : ℝ) + 1) * ((1 + 2 * M) * d k), ?_⟩
  intro t ht0 htlt cfg hjf hdxtol N hN1 hN2 hnfev dxmax0 hdx0 fuel hfuel jPre b
  have htρ : t * (4 * M * d k) ≤ ρ := by
    have := htlt.le
    rwa [le_div_iff₀ (by positivity)] at this
  set Vmax := x k + t * d k * σ with hVmax
  have habs : |t * d k * σ| = t * d k := by rw [abs_mul, hσ1, mul_one, abs_of_pos (mul_pos ht0 hdk)]
  have htame : Tame (sysRes c a n (List.ofFn x) j Vmax) (sysMat c a n j) (mulCLM (sysMat c a n j x)) x ρ ε M :=
    ht.shift fun p q => sysRes_shift he hn hV0 hjk Vmax 0 p q
  have hφ : ‖sysRes c a n (List.ofFn x) j Vmax x‖ ≤ t * d k := by
    refine (pi_norm_le_iff_of_nonneg (mul_pos ht0 hdk).le).2 fun m => ?_
    refine Fin.lastCases ?_ (fun m => ?_) m
    · rw [sysRes_last he hn hV0 hjk, hVmax, Real.norm_eq_abs, sub_add_cancel_left, abs_neg, habs]
    · rw [sysRes_zero he hn hjk Vmax heq m, norm_zero]
      exact (mul_pos ht0 hdk).le
  have hstart : ‖x - x‖ + 4 * M * ‖sysRes c a n (List.ofFn x) j Vmax x‖ ≤ ρ := by
    have h2 : 4 * M * ‖sysRes c a n (List.ofFn x) j Vmax x‖ ≤ 4 * M * (t * d k) :=
      mul_le_mul_of_nonneg_left hφ (by positivity)
    rw [sub_self, norm_zero]
    linarith
  have hit : ((n + 1 : Nat) : ℝ) * ((1 + 2 * M) * ‖sysRes c a n (List.ofFn x) j Vmax x‖) ≤
      ((n : ℝ) + 1) * ((1 + 2 * M) * d k) * t := by
    have : ((n + 1 : Nat) : ℝ) * ((1 + 2 * M) * ‖sysRes c a n (List.ofFn x) j Vmax x‖) ≤
      ((n + 1 : Nat) : ℝ) * ((1 + 2 * M) * (t * d k)) := by gcongr
    refine this.trans (le_of_eq ?_)
    push_cast
    ring
  obtain ⟨a3, o, y, g1, g2, g3, g4, g5, -, g6⟩ := newton_converges (model_computes he hl hf0 hn hV0 hjk Vmax) hsp htame
    (N := N) (nfev := cfg.nfev - 0) (by omega) (Trial.refl a) hstart (hit.trans_lt hN1) (hit.trans_lt hN2)
  have hyk : |y k - x k| = t * d k := by
    rw [control_exact he hl hf0 hn hV0 hjk g6, hVmax, add_sub_cancel_left, habs]
  have hpre : predictor env (modelProblem c) cfg ⟨List.ofFn x, List.ofFn fun i => t * d i, j, jPre, b, a⟩ =
      .ok ⟨false, 0, j, jPre, [], 0, a⟩ := by
    unfold predictor
    rw [if_neg (by rw [hjf]; simp)]
    rfl
  have hst : (if (0 : Int) = 0 ∧ jPre ≠ 0 ∧ cfg.jFixed = false then
      vadd (List.ofFn x) (([] : List ℝ).map fun u => u / Flt.abs (0 : ℝ)) else List.ofFn x) = List.ofFn x := by
    rw [if_neg (by rw [hjf]; simp)]
  obtain ⟨st', hat, hy⟩ := attempt_accepts he hn hn1 hA (cfg := cfg)
    (rc := ⟨List.ofFn x, dxmax0, jPre, [], 0⟩) (st := ⟨List.ofFn x, 0, 0, List.ofFn fun i => t * d i, j, b, a⟩)
    (x := x) (y := y) (d := fun i => t * d i) rfl rfl hdx0 hjk hst g1 g2 g3 g4
    (Or.inl ⟨hjf, by
      have h0 : 0 < t * d k := mul_pos ht0 hdk
      rw [Pi.sub_apply, abs_div, abs_of_pos h0, div_le_iff₀ h0, hyk]
      exact le_mul_of_one_le_left h0.le hdxtol⟩)
  obtain ⟨s', hs', hs''⟩ := increment_accepts hpre rfl hat hy hfuel
  exact ⟨s', hs', y, hs'', hyk⟩

end

/-! ## The hypotheses are met: the undeformed bar -/

example : ∃ t0 > 0, ∃ C : ℝ, ∀ t, 0 < t → t < t0 → ∀ (cfg : PFCfg ℝ), cfg.jFixed = false → 1000001 / 1000000 ≤ cfg.dxtol →
      (∀ i : Fin 2, cfg.xtol ≤ t * ![1, 1/2] i) → ∀ N : Nat, C * t < cfg.ftol * 2 ^ N → C * t < cfg.xtol * 2 ^ N →
      (N : Int) + 2 ≤ cfg.nfev → ∀ (dxmax0 : List ℝ), dxmax0 ≠ [] → ∀ (fuel : Nat), 1 ≤ fuel → ∀ (jPre b : Int), jPre ≠ 0 →
        ∃ s', increment exactEnv (modelProblem sbCtx) cfg dxmax0 fuel
          ⟨List.ofFn ![0, 0], List.ofFn fun i => t * ![1, 1/2] i, 2, jPre, b, sbA⟩ = .ok (s', .accepted) ∧
          ∃ (y : Fin 2 → ℝ) (i : Fin 2), s'.x = List.ofFn y ∧ |y i - (![0, 0] : Fin 2 → ℝ) i| = t * ![1, 1/2] i := by
  obtain ⟨a2, K, hK, hreg⟩ := sbMatrix (u := 0) le_rfl 0
  obtain ⟨a1, h1⟩ := sbEquilibrium (u := 0) le_rfl (V0 := List.ofFn ![0, 0]) (by simp)
  exact C71_small_steps_accepted sbEvaluable rfl rfl (n := 1) rfl le_rfl (sbSmooth le_rfl _) h1 ⟨by decide, by decide⟩ hK hreg
    (exactEnv_solves 2) exactEnv_argmax (fun i => by fin_cases i <;> norm_num) (by norm_num)

example : ∃ t0 > 0, ∃ C : ℝ, ∀ t, 0 < t → t < t0 → ∀ (cfg : PFCfg ℝ), cfg.jFixed = true → 1 ≤ cfg.dxtol →
      ∀ N : Nat, C * t < cfg.ftol * 2 ^ N → C * t < cfg.xtol * 2 ^ N → (N : Int) + 1 ≤ cfg.nfev →
      ∀ (dxmax0 : List ℝ), dxmax0 ≠ [] → ∀ (fuel : Nat), 1 ≤ fuel → ∀ (jPre b : Int),
        ∃ s', increment exactEnv (modelProblem sbCtx) cfg dxmax0 fuel
          ⟨List.ofFn ![0, 0], List.ofFn fun i => t * ![1, 1/2] i, 2, jPre, b, sbA⟩ = .ok (s', .accepted) ∧
          ∃ y : Fin 2 → ℝ, s'.x = List.ofFn y ∧ |y 1 - (![0, 0] : Fin 2 → ℝ) 1| = t * ![1, 1/2] 1 := by
  obtain ⟨a2, K, hK, hreg⟩ := sbMatrix (u := 0) le_rfl 0
  obtain ⟨a1, h1⟩ := sbEquilibrium (u := 0) le_rfl (V0 := List.ofFn ![0, 0]) (by simp)
  exact C71_small_steps_accepted_fixed sbEvaluable rfl rfl (n := 1) rfl le_rfl (sbSmooth le_rfl _) h1 (k := 1) rfl hK hreg
    (exactEnv_solves 2) exactEnv_argmax (d := ![1, 1/2]) (fun i => by fin_cases i <;> norm_num)

end TrussPy
