import Verif.Spec.FreePath
import Verif.Lemmas.Calm
import Verif.Lemmas.Follow
import Mathlib.Topology.Compactness.Compact
import Mathlib.Analysis.Calculus.Deriv.Comp
import Mathlib.Analysis.Calculus.Deriv.Prod
/-!
# Bounds common to all points of a regular equilibrium path
-/

namespace TrussPy

open Filter Topology

/-- Common radius for finitely many conditions. -/
theorem exists_common {m : Nat} {Q : Fin (m + 1) → ℝ → Prop} (hmono : ∀ i r r', r' ≤ r → Q i r → Q i r')
    (h : ∀ i, ∃ r > 0, Q i r) : ∃ r > 0, ∀ i, Q i r := by
  choose r hr hQ using h
  obtain ⟨i, -, hi⟩ := Finset.exists_min_image Finset.univ r ⟨0, Finset.mem_univ _⟩
  exact ⟨r i, hr i, fun q => hmono q _ _ (hi q (Finset.mem_univ q)) (hQ q)⟩

/-- The first part of `Tame`. -/
structure Near {n : Nat} (φ : (Fin n → ℝ) → Fin n → ℝ) (J : (Fin n → ℝ) → Matrix (Fin n) (Fin n) ℝ)
    (A : (Fin n → ℝ) →L[ℝ] Fin n → ℝ) (c : Fin n → ℝ) (ρ ε : ℝ) : Prop where
  diff : ∀ x y, ‖x - c‖ ≤ ρ → ‖y - c‖ ≤ ρ → ‖φ x - φ y - A (x - y)‖ ≤ ε * ‖x - y‖
  matrix : ∀ x, ‖x - c‖ ≤ ρ → ∀ v, ‖(J x).mulVec v - A v‖ ≤ ε * ‖v‖

theorem exists_near {n : Nat} {φ : (Fin n → ℝ) → Fin n → ℝ} {J : (Fin n → ℝ) → Matrix (Fin n) (Fin n) ℝ} {c : Fin n → ℝ}
    (hφ : ContDiffAt ℝ 1 φ c) (hJ : ∀ᶠ x in nhds c, HasFDerivAt φ (mulCLM (J x)) x) {ε : ℝ} (hε : 0 < ε) :
    ∃ ρ > 0, Near φ J (mulCLM (J c)) c ρ ε := by
  have h0 : HasFDerivAt φ (mulCLM (J c)) c := hJ.self_of_nhds
  have hstrict : HasStrictFDerivAt φ (mulCLM (J c)) c := by
    have := hφ.hasStrictFDerivAt (n := 1) (by simp)
    rwa [h0.fderiv] at this
  have e1 := hstrict.isLittleO.def hε
  rw [nhds_prod_eq] at e1
  have hcont : ContinuousAt (fderiv ℝ φ) c := (hφ.fderiv_right (m := 0) (by simp)).continuousAt
  have e2 : ∀ᶠ x in nhds c, ‖fderiv ℝ φ x - fderiv ℝ φ c‖ < ε := by
    have := hcont.tendsto.sub (tendsto_const_nhds (x := fderiv ℝ φ c))
    rw [sub_self] at this
    have := this.norm
    rw [norm_zero] at this
    exact this.eventually_lt tendsto_const_nhds hε
  obtain ⟨t, ht, hpq⟩ := Filter.eventually_prod_self_iff'.1 e1
  obtain ⟨r, hr, hball⟩ := Metric.eventually_nhds_iff_ball.1 ((Filter.eventually_mem_set.2 ht).and (e2.and hJ))
  have hin : ∀ x : Fin n → ℝ, ‖x - c‖ ≤ r / 2 → x ∈ Metric.ball c r := by
    intro x hx
    rw [Metric.mem_ball, dist_eq_norm]
    linarith
  refine ⟨r / 2, by linarith, ?_, ?_⟩
  · intro x y hx hy
    exact hpq x (hball x (hin x hx)).1 y (hball y (hin y hy)).1
  · intro x hx v
    obtain ⟨-, h2, h3⟩ := hball x (hin x hx)
    rw [h3.fderiv, h0.fderiv] at h2
    rw [← mulCLM_apply, ← sub_apply]
    exact ContinuousLinearMap.le_of_opNorm_le _ h2.le v

/-- The reference operator may be taken at any point nearby. -/
theorem Near.recenter {n : Nat} {φ : (Fin n → ℝ) → Fin n → ℝ} {J : (Fin n → ℝ) → Matrix (Fin n) (Fin n) ℝ}
    {A : (Fin n → ℝ) →L[ℝ] Fin n → ℝ} {x0 x1 : Fin n → ℝ} {ρ ρ' ε : ℝ} (h : Near φ J A x0 ρ ε)
    (hρ' : 0 ≤ ρ') (hr : ‖x1 - x0‖ + ρ' ≤ ρ) : Near φ J (mulCLM (J x1)) x1 ρ' (2 * ε) := by
  have hin : ∀ x, ‖x - x1‖ ≤ ρ' → ‖x - x0‖ ≤ ρ := by
    intro x hx
    calc ‖x - x0‖ = ‖(x - x1) + (x1 - x0)‖ := by congr 1; abel
      _ ≤ _ := norm_add_le _ _
      _ ≤ ρ := by linarith
  have hA : ∀ v, ‖mulCLM (J x1) v - A v‖ ≤ ε * ‖v‖ := fun v => by
    rw [mulCLM_apply]; exact h.matrix x1 (by linarith) v
  refine ⟨fun x y hx hy => ?_, fun x hx v => ?_⟩
  · calc ‖φ x - φ y - mulCLM (J x1) (x - y)‖ = ‖(φ x - φ y - A (x - y)) - (mulCLM (J x1) (x - y) - A (x - y))‖ := by
          congr 1; abel
      _ ≤ _ := norm_sub_le _ _
      _ ≤ ε * ‖x - y‖ + ε * ‖x - y‖ := add_le_add (h.diff x y (hin x hx) (hin y hy)) (hA _)
      _ = _ := by ring
  · calc ‖(J x).mulVec v - mulCLM (J x1) v‖ = ‖((J x).mulVec v - A v) - (mulCLM (J x1) v - A v)‖ := by congr 1; abel
      _ ≤ _ := norm_sub_le _ _
      _ ≤ ε * ‖v‖ + ε * ‖v‖ := add_le_add (h.matrix x (hin x hx) v) (hA v)
      _ = _ := by ring

section
variable {c : Ctx ℝ} {bars : List (Bar ℝ)} {a : Analysis ℝ} {ef : StepForces ℝ} {n : Nat} {d : Fin (n + 1) → ℝ} {S : ℝ}
  {γ γ' : ℝ → Fin (n + 1) → ℝ}

theorem FreePath.cont (hP : FreePath c bars a d S γ γ') : ContinuousOn γ (Set.Icc 0 S) :=
  fun s hs => (hP.deriv s hs).continuousWithinAt

/-- Number of a component, from one. -/
def num (k : Fin (n + 1)) : Int := ((k : Nat) : Int) + 1

theorem num_natAbs (k : Fin (n + 1)) : (num k).natAbs = k + 1 := by unfold num; omega

theorem free_zero (he : Evaluable c bars a ef) (hn : c.ndof1 = n) (hP : FreePath c bars a d S γ γ') {s : ℝ}
    (hs : s ∈ Set.Icc 0 S) {V0 : List ℝ} (hV0 : V0.length = n + 1) {j : Int} {k : Fin (n + 1)} (hj : j.natAbs = k + 1) (Vmax : ℝ)
    (m : Fin n) : sysRes c a n V0 j Vmax (γ s) m.castSucc = 0 := by
  obtain ⟨a1, h⟩ := hP.equilibrium s hs
  rw [sysRes_first he hn hV0 (V0' := List.ofFn (γ s)) (by simp) hj hj Vmax Vmax]
  exact sysRes_zero he hn hj Vmax h m

/-- The derivative of the path is in the kernel of the equilibrium rows. -/
theorem free_tangent (he : Evaluable c bars a ef) (hl : a.lpf.isSome = true)
    (hf0 : a.f0red = a.DOF1.map fun p => ef.forces.getD p 0) (hn : c.ndof1 = n) (hS : 0 < S) (hP : FreePath c bars a d S γ γ')
    {s : ℝ} (hs : s ∈ Set.Icc 0 S) (k : Fin (n + 1)) (m : Fin n) :
    (sysMat c a n (num k) (γ s)).mulVec (γ' s) m.castSucc = 0 := by
  have hV0 : (List.replicate (n + 1) (0 : ℝ)).length = n + 1 := by simp
  have h1 := sys_hasFDerivAt he hl hf0 hn hV0 (num_natAbs k) 0 (hP.calm s hs : CalmAt c bars a (γ s)).smooth
  have h2 := h1.comp_hasDerivWithinAt s (hP.deriv s hs)
  have h3 := hasDerivWithinAt_pi.1 h2 m.castSucc
  have h4 : HasDerivWithinAt (fun x => (sysRes c a n (List.replicate (n + 1) 0) (num k) 0 ∘ γ) x m.castSucc) 0 (Set.Icc 0 S) s := by
    refine (hasDerivWithinAt_const s (Set.Icc 0 S) (0 : ℝ)).congr (fun x hx => ?_) ?_
    · exact free_zero he hn hP hx hV0 (num_natAbs k) 0 m
    · exact free_zero he hn hP hs hV0 (num_natAbs k) 0 m
  have := (uniqueDiffOn_Icc hS s hs).eq_deriv _ h3 h4
  rwa [mulCLM_apply] at this

/-- The matrix is regular for every control component that moves. -/
theorem free_regular (he : Evaluable c bars a ef) (hl : a.lpf.isSome = true)
    (hf0 : a.f0red = a.DOF1.map fun p => ef.forces.getD p 0) (hn : c.ndof1 = n) (hd : ∀ i, 0 < d i) (hS : 0 < S)
    (hP : FreePath c bars a d S γ γ') {s : ℝ} (hs : s ∈ Set.Icc 0 S) {k : Fin (n + 1)} (hk : γ' s k ≠ 0) :
    IsUnit (sysMat c a n (num k) (γ s)).det := by
  obtain ⟨j, a2, K, h1, h2, hK, hreg⟩ := hP.regular s hs
  obtain ⟨k0, hk0⟩ : ∃ k0 : Fin (n + 1), j = num k0 :=
    ⟨⟨j.natAbs - 1, by omega⟩, by unfold num; simp only; omega⟩
  subst hk0
  have hmat : sysMat c a n (num k0) (γ s) = matOf (n + 1) K := by unfold sysMat; rw [hK]
  rw [← hmat] at hreg
  refine sysMat_switch he hl hf0 hn (num_natAbs k0) (num_natAbs k) (γ s) hreg
    (fun m => free_tangent he hl hf0 hn hS hP hs k0 m) (fun h0 => ?_) hk
  have hz : (sysMat c a n (num k0) (γ s)).mulVec (γ' s) = 0 := by
    funext m
    refine Fin.lastCases ?_ (fun m => ?_) m
    · rw [(sysMat_rows he hl hf0 hn (num_natAbs k0) (num_natAbs k0) (γ s)).2, h0]; rfl
    · exact free_tangent he hl hf0 hn hS hP hs k0 m
  obtain ⟨i, hi⟩ := hP.speed s hs
  have hne : γ' s ≠ 0 := by
    intro h
    rw [h, Pi.zero_apply, abs_zero] at hi
    exact absurd (hd i) (not_lt.2 hi)
  exact (isUnit_iff_ne_zero.1 hreg) (Matrix.exists_mulVec_eq_zero_iff.1 ⟨_, hne, hz⟩)

/-- The matrices for control components that move are bounded below. -/
theorem free_below (he : Evaluable c bars a ef) (hl : a.lpf.isSome = true)
    (hf0 : a.f0red = a.DOF1.map fun p => ef.forces.getD p 0) (hn : c.ndof1 = n) (hd : ∀ i, 0 < d i) (hS : 0 < S)
    (hP : FreePath c bars a d S γ γ') {κ : ℝ} (hκ : 0 < κ) :
    ∃ M0 > 0, ∀ s ∈ Set.Icc 0 S, ∀ k, κ * d k ≤ |γ' s k| →
      ∀ v, ‖v‖ ≤ M0 * ‖(sysMat c a n (num k) (γ s)).mulVec v‖ := by
  have hone : ∀ k : Fin (n + 1), ∃ r > 0, ∀ s ∈ Set.Icc 0 S, κ * d k ≤ |γ' s k| →
      ∀ v, r * ‖v‖ ≤ ‖(sysMat c a n (num k) (γ s)).mulVec v‖ := by
    intro k
    refine IsCompact.induction_on (s := Set.Icc 0 S) (p := fun T => ∃ r > 0, ∀ s ∈ T, κ * d k ≤ |γ' s k| →
      ∀ v, r * ‖v‖ ≤ ‖(sysMat c a n (num k) (γ s)).mulVec v‖) isCompact_Icc ?_ ?_ ?_ ?_
    · exact ⟨1, one_pos, fun s hs => absurd hs (Set.notMem_empty s)⟩
    · rintro T T' hT ⟨r, hr, h⟩
      exact ⟨r, hr, fun s hs => h s (hT hs)⟩
    · rintro T T' ⟨r, hr, h⟩ ⟨r', hr', h'⟩
      refine ⟨min r r', lt_min hr hr', ?_⟩
      rintro s (hs | hs) hk v
      · exact (mul_le_mul_of_nonneg_right (min_le_left _ _) (norm_nonneg v)).trans (h s hs hk v)
      · exact (mul_le_mul_of_nonneg_right (min_le_right _ _) (norm_nonneg v)).trans (h' s hs hk v)
    · intro s hs
      have hck : ContinuousOn (fun r => |γ' r k|) (Set.Icc 0 S) := ((continuous_apply k).comp_continuousOn hP.derivCont).abs
      rcases lt_or_ge |γ' s k| (κ * d k) with hlt | hge
      · refine ⟨{r | |γ' r k| < κ * d k}, ?_, 1, one_pos, fun r hr hk => absurd hr (not_lt.2 hk)⟩
        exact (hck s hs).tendsto.eventually_lt tendsto_const_nhds hlt
      · have hk : γ' s k ≠ 0 := by
          intro h0
          rw [h0, abs_zero] at hge
          exact absurd (mul_pos hκ (hd k)) (not_lt.2 hge)
        obtain ⟨ρ, ε, M, hρ, ht⟩ := sys_tame he hl hf0 hn (V0 := List.replicate (n + 1) 0) (by simp) (num_natAbs k) 0
          (hP.calm s hs : CalmAt c bars a (γ s)).smooth (free_regular he hl hf0 hn hd hS hP hs hk)
        have hM := ht.pos
        refine ⟨{r | ‖γ r - γ s‖ < ρ}, ?_, 1 / (2 * M), by positivity, fun r hr _ v => ?_⟩
        · have h1 : Tendsto (fun r => ‖γ r - γ s‖) (𝓝[Set.Icc 0 S] s) (𝓝 ‖γ s - γ s‖) :=
            ((hP.cont s hs).tendsto.sub tendsto_const_nhds).norm
          rw [sub_self, norm_zero] at h1
          exact h1.eventually_lt tendsto_const_nhds hρ
        · have hr : ‖γ r - γ s‖ < ρ := hr
          have := ht.belowJ hr.le v
          rw [one_div, inv_mul_le_iff₀ (by positivity)]
          exact this
  obtain ⟨r, hr, h⟩ := exists_common (Q := fun k r => ∀ s ∈ Set.Icc 0 S, κ * d k ≤ |γ' s k| →
      ∀ v, r * ‖v‖ ≤ ‖(sysMat c a n (num k) (γ s)).mulVec v‖)
    (fun k r r' hrr h s hs hk v => (mul_le_mul_of_nonneg_right hrr (norm_nonneg v)).trans (h s hs hk v)) hone
  refine ⟨1 / r, by positivity, fun s hs k hk v => ?_⟩
  rw [one_div, le_inv_mul_iff₀ hr]
  exact h k s hs hk v

/-- Around all points of the path the system has a second order bound, for every control component. -/
theorem free_quad (he : Evaluable c bars a ef) (hl : a.lpf.isSome = true)
    (hf0 : a.f0red = a.DOF1.map fun p => ef.forces.getD p 0) (hn : c.ndof1 = n)
    (hP : FreePath c bars a d S γ γ') {V0 : List ℝ} (hV0 : V0.length = n + 1) :
    ∃ ρ > 0, ∃ Λ ≥ 0, ∀ k : Fin (n + 1), ∀ s ∈ Set.Icc 0 S, Quad (sysRes c a n V0 (num k) 0) (sysMat c a n (num k)) (γ s) ρ Λ := by
  choose ρ hρ Λ hΛ h using fun k : Fin (n + 1) => path_quad he hl hf0 hn (num_natAbs k) hP.cont hP.calm hV0
  obtain ⟨i, -, hi⟩ := Finset.exists_min_image Finset.univ ρ ⟨0, Finset.mem_univ _⟩
  obtain ⟨q, -, hq⟩ := Finset.exists_max_image Finset.univ Λ ⟨0, Finset.mem_univ _⟩
  exact ⟨ρ i, hρ i, Λ q, hΛ q, fun k s hs => ((h k s hs).recenter (by
    rw [sub_self, norm_zero, zero_add]; exact hi k (Finset.mem_univ k))).mono (hq k (Finset.mem_univ k))⟩

/-- Around all points of the path the system is close to linear, for every control component. -/
theorem free_near (he : Evaluable c bars a ef) (hl : a.lpf.isSome = true)
    (hf0 : a.f0red = a.DOF1.map fun p => ef.forces.getD p 0) (hn : c.ndof1 = n)
    (hP : FreePath c bars a d S γ γ') {V0 : List ℝ} (hV0 : V0.length = n + 1) {ε : ℝ} (hε : 0 < ε) :
    ∃ ρ > 0, ∀ k : Fin (n + 1), ∀ s ∈ Set.Icc 0 S,
      Near (sysRes c a n V0 (num k) 0) (sysMat c a n (num k)) (mulCLM (sysMat c a n (num k) (γ s))) (γ s) ρ ε ∧
      ∀ y, ‖y - γ s‖ ≤ ρ → CalmAt c bars a y := by
  have hmono : ∀ (k : Fin (n + 1)) (s ρ ρ' : ℝ), ρ' ≤ ρ →
      (Near (sysRes c a n V0 (num k) 0) (sysMat c a n (num k)) (mulCLM (sysMat c a n (num k) (γ s))) (γ s) ρ ε ∧
        ∀ y, ‖y - γ s‖ ≤ ρ → CalmAt c bars a y) →
      (Near (sysRes c a n V0 (num k) 0) (sysMat c a n (num k)) (mulCLM (sysMat c a n (num k) (γ s))) (γ s) ρ' ε ∧
        ∀ y, ‖y - γ s‖ ≤ ρ' → CalmAt c bars a y) := fun k s ρ ρ' hρ h =>
    ⟨⟨fun x y hx hy => h.1.diff x y (hx.trans hρ) (hy.trans hρ), fun x hx => h.1.matrix x (hx.trans hρ)⟩,
      fun y hy => h.2 y (hy.trans hρ)⟩
  refine exists_common (fun k ρ ρ' hρ h s hs => hmono k s ρ ρ' hρ (h s hs)) fun k => ?_
  refine IsCompact.induction_on (s := Set.Icc 0 S) (p := fun T => ∃ ρ > 0, ∀ s ∈ T,
      Near (sysRes c a n V0 (num k) 0) (sysMat c a n (num k)) (mulCLM (sysMat c a n (num k) (γ s))) (γ s) ρ ε ∧
      ∀ y, ‖y - γ s‖ ≤ ρ → CalmAt c bars a y) isCompact_Icc ?_ ?_ ?_ ?_
  · exact ⟨1, one_pos, fun s hs => absurd hs (Set.notMem_empty s)⟩
  · rintro T T' hT ⟨r, hr, h⟩
    exact ⟨r, hr, fun s hs => h s (hT hs)⟩
  · rintro T T' ⟨r, hr, h⟩ ⟨r', hr', h'⟩
    refine ⟨min r r', lt_min hr hr', ?_⟩
    rintro s (hs | hs)
    · exact hmono k s _ _ (min_le_left _ _) (h s hs)
    · exact hmono k s _ _ (min_le_right _ _) (h' s hs)
  · intro s hs
    obtain ⟨ρ, hρ, hN⟩ := exists_near (sys_contDiff he hn hV0 (num_natAbs k) 0 (hP.calm s hs : CalmAt c bars a (γ s)).smooth)
      ((calmAt_eventually he hn (hP.calm s hs)).mono fun y hy => sys_hasFDerivAt he hl hf0 hn hV0 (num_natAbs k) 0 hy.smooth)
      (half_pos hε)
    obtain ⟨r, hr, hball⟩ := Metric.eventually_nhds_iff.1 (calmAt_eventually he hn (hP.calm s hs))
    have hq : 0 < min ρ r / 4 := by positivity
    refine ⟨{s' | ‖γ s' - γ s‖ < min ρ r / 4}, ?_, min ρ r / 4, hq, ?_⟩
    · have h1 : Tendsto (fun s' => ‖γ s' - γ s‖) (𝓝[Set.Icc 0 S] s) (𝓝 ‖γ s - γ s‖) :=
        ((hP.cont s hs).tendsto.sub tendsto_const_nhds).norm
      rw [sub_self, norm_zero] at h1
      exact h1.eventually_lt tendsto_const_nhds hq
    · intro s' hs'
      have hs' : ‖γ s' - γ s‖ < min ρ r / 4 := hs'
      have h1 := min_le_left ρ r
      have h2 := min_le_right ρ r
      refine ⟨?_, fun y hy => hball ?_⟩
      · have := hN.recenter hq.le (x1 := γ s') (by linarith)
        rwa [mul_div_cancel₀ _ (two_ne_zero' ℝ)] at this
      · rw [dist_eq_norm]
        calc ‖y - γ s‖ = ‖(y - γ s') + (γ s' - γ s)‖ := by congr 1; abel
          _ ≤ _ := norm_add_le _ _
          _ < r := by linarith

end

end TrussPy
