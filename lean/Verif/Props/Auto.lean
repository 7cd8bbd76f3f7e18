import Verif.Lemmas.AutoLoop
import Verif.Props.Follow
import Mathlib.Analysis.Calculus.MeanValue
/-!
# Property C102: with free choice of the control component small steps follow any regular equilibrium path
-/

set_option linter.unusedSectionVars false

namespace TrussPy

section
variable {c : Ctx ℝ} {bars : List (Bar ℝ)} {a : Analysis ℝ} {ef : StepForces ℝ}

/-- **C102.** Let `γ` be a regular equilibrium path of a truss below yield on which any component - also the load factor - may turn
back, let the linear solver be exact, `η > 0` and `W ≥ 1`.  Then there are `t0 > 0`, `φ0 > 0` and constants `L`, `C` such that
`pathfollow` in its default mode (free choice of the control component, predictor, with or without step control), started
at `γ 0` with the step widths `t * d i`, `t < t0`, with tolerances `ftol ≤ φ0 * t`, `xtol ≤ t * d i`, with `dxtol ≥ 1 + η` and
enough iterations allowed, returns; every increment is accepted; there are growing parameters `p 0 = 0 < p 1 < ...` such that
the `m`-th recorded vector lies within `L * ftol` of `γ (p m)`; the parameter grows by at most `(1 + η) W t` and, if the speed
of the path is at most `G`, by at least `(1 - η) t / G`; consecutive points of the path differ by at most
`(1 + η) W t d i` in every and by at least `(1 - η) t d i` in some component; and all increments are recorded unless the
limit `xlimit` is passed.  `W` bounds the enlargement of the step width by step control (`W = 1` without). -/
theorem C102_follows_free_path (he : Evaluable c bars a ef) (hr : a.Ready c)
    (hf0 : a.f0red = a.DOF1.map fun p => ef.forces.getD p 0) {n : Nat} (hn : c.ndof1 = n)
    (hn1 : 1 ≤ n) {d : Fin (n + 1) → ℝ} (hd : ∀ i, 0 < d i) {S : ℝ} (hS : 0 < S) {γ γ' : ℝ → Fin (n + 1) → ℝ}
    (hP : FreePath c bars a d S γ γ') {x : List ℝ} (hx : List.ofFn (γ 0) = x ++ [0])
    {env : Env ℝ} (hsp : SolvesRegular env.spsolve (n + 1)) (hA : ArgMax env) {η W : ℝ} (hη : 0 < η) (hW1 : 1 ≤ W) :
    ∃ t0 > 0, ∃ φ0 > 0, ∃ L C : ℝ, ∀ (t : ℝ), 0 < t → t < t0 → ∀ (cfg : PFCfg ℝ), cfg.jFixed = false → cfg.jPre = true →
      (cfg.stepcontrol = true → 1 ≤ cfg.maxfac ∧ 0 ≤ cfg.increase ∧ cfg.maxfac * (1 + cfg.increase) ≤ W) →
      1 + η ≤ cfg.dxtol → 0 < cfg.ftol → cfg.ftol ≤ φ0 * t → (∀ i, cfg.xtol ≤ t * d i) →
      initDxmax (x ++ [0]) cfg.dxmax = (List.ofFn fun i => t * d i) →
      (∀ p, cfg.xlimit = some p → 1 ≤ p.1 ∧ p.1 ≤ n + 1) → cfg.incs * ((1 + η) * (W * t)) ≤ S →
      ∀ N : Nat, Shrinks C t cfg.ftol N → Shrinks C t cfg.xtol N → (N : Int) + 2 ≤ cfg.nfev →
      ∀ fuel : Nat, 1 ≤ fuel → ∃ o, pathfollow env (modelProblem c) cfg fuel x a = .ok o ∧
        (∃ p : Nat → ℝ, p 0 = 0 ∧ ∀ (m : Nat) (r : Rec ℝ), o.recs[m]? = some r → r.out = .accepted ∧
          0 ≤ p m ∧ p m < p (m + 1) ∧ p (m + 1) ≤ S ∧ p (m + 1) ≤ p m + (1 + η) * (W * t) ∧
          (∀ G, (∀ s ∈ Set.Icc 0 S, ∀ i, |γ' s i| ≤ G * d i) → (1 - η) * t ≤ G * (p (m + 1) - p m)) ∧
          (∃ y : Fin (n + 1) → ℝ, r.x = List.ofFn y ∧ ∀ i, |y i - γ (p (m + 1)) i| ≤ L * cfg.ftol) ∧
          (∀ i, |γ (p (m + 1)) i - γ (p m) i| ≤ (1 + η) * (W * t * d i)) ∧
          ∃ i, (1 - η) * (t * d i) ≤ |γ (p (m + 1)) i - γ (p m) i|) ∧
        (o.recs.length = cfg.incs ∨ ∃ r v p, o.recs.getLast? = some r ∧ cfg.xlimit = some p ∧
          r.x[(p.1 - 1).toNat]? = some v ∧ p.2 < |v|) := by
  have hl : a.lpf.isSome = true := hr.base.lpf
  have h0S : (0 : ℝ) ∈ Set.Icc 0 S := ⟨le_rfl, hS.le⟩
  obtain ⟨il, -, hil⟩ := Finset.exists_min_image Finset.univ d ⟨0, Finset.mem_univ _⟩
  obtain ⟨iu, -, hiu⟩ := Finset.exists_max_image Finset.univ d ⟨0, Finset.mem_univ _⟩
  obtain ⟨dm, hdm, hdl⟩ : ∃ dm, 0 < dm ∧ ∀ i, dm ≤ d i := ⟨d il, hd il, fun i => hil i (Finset.mem_univ i)⟩
  obtain ⟨D, hD⟩ : ∃ D, ∀ i, d i ≤ D := ⟨d iu, fun i => hiu i (Finset.mem_univ i)⟩
  have hD0 : 0 < D := (hd 0).trans_le (hD 0)
  -- the load factor is a control component at the beginning
  have hγ0 : 0 < ‖γ' 0‖ := lt_of_lt_of_le (abs_pos.2 hP.start.ne') (by
    have := norm_le_pi_norm (γ' 0) (Fin.last n)
    rwa [Real.norm_eq_abs] at this)
  obtain ⟨κ, hκ, hκ2, hκ3⟩ : ∃ κ : ℝ, 0 < κ ∧ κ ≤ 1 / 2 ∧ κ * (‖γ' 0‖ * D) ≤ γ' 0 (Fin.last n) * dm := by
    have hst := hP.start
    refine ⟨min (1 / 2) (γ' 0 (Fin.last n) * dm / (‖γ' 0‖ * D)), by positivity, min_le_left _ _, ?_⟩
    rw [← le_div_iff₀ (by positivity)]
    exact min_le_right _ _
  obtain ⟨M0, hM0, hB⟩ := free_below he hl hf0 hn hd hS hP hκ
  obtain ⟨e, hepos, hele, heη⟩ : ∃ e : ℝ, 0 < e ∧ e ≤ 1 / 4 ∧ 2 * e ≤ η :=
    ⟨min (1 / 4) (η / 2), by positivity, min_le_left _ _, by linarith [min_le_right (1 / 4) (η / 2)]⟩
  -- small numbers
  set A : ℝ := 4 * M0 * (D / κ) * (1 + D / dm) + 16 * M0 * D with hAd
  set B : ℝ := 4 * M0 * (1 + D / dm) + 12 * M0 with hBd
  have hA0 : 0 < A := by positivity
  have hB0 : 0 < B := by positivity
  obtain ⟨ε, hε, hεA, hεM⟩ : ∃ ε : ℝ, 0 < ε ∧ ε * A ≤ e * dm / 16 ∧ M0 * ε ≤ 1 / 8 := by
    refine ⟨min (e * dm / 16 / A) (1 / 8 / M0), by positivity, ?_, ?_⟩
    · rw [← le_div_iff₀ hA0]; exact min_le_left _ _
    · rw [mul_comm, ← le_div_iff₀ hM0]; exact min_le_right _ _
  obtain ⟨φ, hφ, hφB⟩ : ∃ φ : ℝ, 0 < φ ∧ φ * B ≤ e * dm / 16 :=
    ⟨e * dm / 16 / B, by positivity, by rw [div_mul_cancel₀ _ hB0.ne']⟩
  obtain ⟨ρ1, hρ1, hT1⟩ := free_near he hl hf0 hn hP (V0 := List.replicate (n + 1) 0) (by simp) hε
  obtain ⟨ρ2, hρ2, Λ, hΛ, hQ2⟩ := free_quad he hl hf0 hn hP (V0 := List.replicate (n + 1) 0) (by simp)
  obtain ⟨ρ, hρ, hρ1', hρ2'⟩ : ∃ ρ : ℝ, 0 < ρ ∧ ρ ≤ ρ1 ∧ ρ ≤ ρ2 := ⟨min ρ1 ρ2, lt_min hρ1 hρ2, min_le_left _ _, min_le_right _ _⟩
  have hT : ∀ k : Fin (n + 1), ∀ s ∈ Set.Icc 0 S,
      Near (sysRes c a n (List.replicate (n + 1) 0) (num k) 0) (sysMat c a n (num k)) (mulCLM (sysMat c a n (num k) (γ s)))
        (γ s) ρ ε ∧ ∀ y, ‖y - γ s‖ ≤ ρ → CalmAt c bars a y := fun k s hs =>
    ⟨⟨fun x y hx hy => (hT1 k s hs).1.diff x y (hx.trans hρ1') (hy.trans hρ1'), fun x hx => (hT1 k s hs).1.matrix x (hx.trans hρ1')⟩,
      fun y hy => (hT1 k s hs).2 y (hy.trans hρ1')⟩
  have hQ : ∀ k : Fin (n + 1), ∀ s ∈ Set.Icc 0 S,
      Quad (sysRes c a n (List.replicate (n + 1) 0) (num k) 0) (sysMat c a n (num k)) (γ s) ρ Λ := fun k s hs =>
    (hQ2 k s hs).recenter (by rw [sub_self, norm_zero, zero_add]; exact hρ2')
  obtain ⟨δ, hδ, hω⟩ := Metric.uniformContinuousOn_iff.1 (isCompact_Icc.uniformContinuousOn_of_continuous hP.derivCont)
    (e * dm / 8) (by positivity)
  have hW0 : 0 < W := by linarith
  refine ⟨min (δ / (2 * W)) (ρ / (8 * D * W)), by positivity, φ, hφ, 2 * M0,
    max (((n : ℝ) + 1) * (1 + 2 * M0)) (4 * Λ * M0 ^ 2) * ((3 * φ + 4 * ε * D) * W), ?_⟩
  intro t ht htlt cfg hjf hjp hsc hdx hft hftle hxt hinit hlim hincs N hN1 hN2 hN fuel hfuel
  have htδ : t * (2 * W) < δ := by
    rw [← lt_div_iff₀ (by positivity)]; exact htlt.trans_le (min_le_left _ _)
  have htρ : t * (8 * D * W) ≤ ρ := by
    rw [← le_div_iff₀ (by positivity)]; exact (htlt.trans_le (min_le_right _ _)).le
  have htrack : AutoTrack c a d γ γ' κ (2 * M0) cfg.ftol 0 (γ 0) ((n : Int) + 1) := by
    refine ⟨by rw [sub_self, norm_zero]; positivity, fun m => ?_, Fin.last n, by rw [Fin.val_last]; omega, fun i => ?_⟩
    · rw [free_zero he hn hP h0S (by simp) (num_natAbs 0) 0 m, abs_zero]
      exact hft.le
    · rw [show ((n : Int) + 1).sign = 1 from Int.sign_eq_one_of_pos (by omega), Int.cast_one, one_mul]
      have h1 : |γ' 0 i| ≤ ‖γ' 0‖ := by
        have := norm_le_pi_norm (γ' 0) i
        rwa [Real.norm_eq_abs] at this
      have h2 : |γ' 0 i| * d (Fin.last n) ≤ ‖γ' 0‖ * D := mul_le_mul h1 (hD _) (hd _).le hγ0.le
      have h3 := mul_le_mul_of_nonneg_left h2 hκ.le
      have h4 := mul_le_mul_of_nonneg_left (hdl i) hP.start.le
      linarith
  have hcar : Carried c bars ef a a := ⟨he, hr, rfl, rfl, fun _ _ => rfl, rfl,
    fun _ _ hb => (hP.calm 0 ⟨le_rfl, hS.le⟩).alike he hn hb⟩
  have he30 : 0 < 3 * φ + 4 * ε * D := by positivity
  have hsmall : 4 * ((2 * (2 * M0 * (ε * (D / κ) + φ)) * (1 + D / dm) + 4 * M0 * (3 * φ + 4 * ε * D)) + e * dm / 8) ≤ e * dm := by
    have : 2 * (2 * M0 * (ε * (D / κ) + φ)) * (1 + D / dm) + 4 * M0 * (3 * φ + 4 * ε * D) = ε * A + φ * B := by
      rw [hAd, hBd]; ring
    rw [this]
    linarith
  have hbig : ∀ θ, 0 ≤ θ → θ ≤ W * t → Enough (((n : ℝ) + 1) * (1 + 2 * M0)) (4 * Λ * M0 ^ 2) cfg.ftol cfg.xtol (cfg.nfev - 1)
      ((3 * φ + 4 * ε * D) * θ) := by
    intro θ hθ0 hθ
    have h1 : (3 * φ + 4 * ε * D) * θ ≤ (3 * φ + 4 * ε * D) * W * t := by
      rw [mul_assoc (3 * φ + 4 * ε * D)]
      exact mul_le_mul_of_nonneg_left hθ he30.le
    refine Enough.mono ((hN1.scale rfl).enough (hN2.scale rfl) (by omega) (by positivity) (le_max_right _ _) (le_max_left _ _)
      (by positivity)) (by positivity) (by positivity) (by positivity) h1
  obtain ⟨s', recs, e1, ⟨p, e2, e3⟩, e4⟩ := auto_loop (c := c) (bars := bars) (a := a) (ef := ef) (κ := κ) (L := 2 * M0) (γ := γ) (γ' := γ')
    (S := S) hd hepos ht hsc (env := env) (fuel := fuel)
    (fun p hp => by
      have := hlim p hp
      unfold IndexOK
      omega)
    (fun s θ x j jPre q b hs hsS hθ hθW hx hb hjp => by
      have hθ0 : 0 < θ := ht.trans_le hθ
      refine auto_increment he hl hf0 hn hn1 hS hP hκ hκ2 hdm hdl hD hM0 hB hε.le hεM hT hΛ hQ hφ.le rfl rfl rfl rfl hsmall hepos hele
        hsp hA hjf (by linarith) hft hθ0 (hftle.trans (mul_le_mul_of_nonneg_left hθ hφ.le))
        (fun i => (hxt i).trans (mul_le_mul_of_nonneg_right hθ (hd i).le)) ?_ (hbig θ hθ0.le hθW) hs hsS ?_ hx hb
        (by simp [List.ofFn_succ]) hfuel hjp q
      · have := mul_le_mul_of_nonneg_left hθW (by positivity : 0 ≤ 8 * D)
        linarith
      · intro r hr hsr hrs
        have := hω r hr s hs (by
          rw [Real.dist_eq, abs_of_nonneg (by linarith)]
          have h1 : (1 + e) * θ ≤ 2 * (W * t) := mul_le_mul (by linarith) hθW hθ0.le (by norm_num)
          linarith)
        rw [dist_eq_norm] at this
        exact this.le)
    hele cfg.incs 0 t (γ 0) ((n : Int) + 1) 1 4 a le_rfl
    (by
      rw [zero_add]
      refine le_trans (mul_le_mul_of_nonneg_left (mul_le_mul_of_nonneg_right ?_ (by positivity)) (Nat.cast_nonneg _)) hincs
      linarith)
    le_rfl (le_mul_of_one_le_left ht.le hW1) htrack hcar one_ne_zero
  refine ⟨⟨x ++ [0], a, recs, s'.a⟩, ?_, ⟨p, e2, ?_⟩, ?_⟩
  · unfold pathfollow
    have hxl : (x ++ [(0 : ℝ)]).length = n + 1 := by rw [← hx]; simp
    have hsj : startJ cfg (x ++ [0]) = .ok ((n : Int) + 1) := by
      unfold startJ
      rw [if_neg (by rw [hjf]; simp), hxl]
      rfl
    simp only [hsj, py_bind_ok]
    rw [if_neg (by rw [hinit, hxl]; simp), hinit, hjp, if_pos rfl, ← hx, e1]
    rfl
  · intro m r hm
    obtain ⟨g1, g2, g3, g8, ⟨y, g4, g5⟩, g6, i, g7⟩ := e3 m r hm
    have hpm : 0 ≤ p m := by
      have : ∀ q, q ≤ m → 0 ≤ p q := by
        intro q
        induction q with
        | zero => intro _; rw [e2]
        | succ q ih =>
          intro hq
          have hlt : q < recs.length := lt_of_lt_of_le (by omega) (List.getElem?_eq_some_iff.1 hm).1.le
          exact (ih (by omega)).trans (e3 q _ (List.getElem?_eq_getElem hlt)).2.1.le
      exact this m le_rfl
    refine ⟨g1, hpm, g2, g3, g8.trans ?_, fun G hG => ?_, ⟨y, g4, fun i => ?_⟩, fun i => (g6 i).trans ?_, i, le_trans ?_ g7⟩
    · have : 0 ≤ (η - e) * (W * t) := mul_nonneg (by linarith) (by positivity)
      linarith
    · have h1 : ‖γ (p (m + 1)) i - γ (p m) i‖ ≤ G * d i * ‖p (m + 1) - p m‖ :=
        Convex.norm_image_sub_le_of_norm_hasDerivWithin_le (s := Set.Icc 0 S) (f := fun s => γ s i) (f' := fun s => γ' s i)
          (fun s hs => hasDerivWithinAt_pi.1 (hP.deriv s hs) i)
          (fun s hs => hG s hs i) (convex_Icc 0 S) ⟨hpm, g2.le.trans g3⟩ ⟨hpm.trans g2.le, g3⟩
      rw [Real.norm_eq_abs, Real.norm_eq_abs, abs_of_pos (sub_pos.2 g2)] at h1
      have h2 : (1 - 2 * e) * t * d i ≤ G * (p (m + 1) - p m) * d i := by linarith
      have h3 := le_of_mul_le_mul_right h2 (hd i)
      refine le_trans (mul_le_mul_of_nonneg_right ?_ ht.le) h3
      linarith
    · have := norm_le_pi_norm (y - γ (p (m + 1))) i
      rw [Real.norm_eq_abs] at this
      exact this.trans g5
    · exact mul_le_mul_of_nonneg_right (by linarith) (mul_nonneg (by positivity) (hd i).le)
    · exact mul_le_mul_of_nonneg_right (by linarith) (mul_nonneg ht.le (hd i).le)
  · rcases e4 with e4 | ⟨r, e4, e5⟩
    · exact Or.inl e4
    · right
      cases hxl : cfg.xlimit with
      | none => rw [hxl] at e5; cases e5
      | some p =>
        rw [hxl] at e5
        unfold limitReached at e5
        obtain ⟨v, e6, e7⟩ := py_bind_eq_ok.1 e5
        have hp := hlim p hxl
        have : p.1 - 1 = (((p.1 - 1).toNat : Nat) : Int) := by omega
        rw [this] at e6
        exact ⟨r, v, p, e4, rfl, pyGet_ok_nat.1 e6, of_decide_eq_true (Except.ok.inj e7)⟩

end

end TrussPy
