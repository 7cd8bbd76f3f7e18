import Verif.Lemmas.AutoStep
/-!
# Increments with free choice of the control component
-/

namespace TrussPy

open Filter Topology

section
variable {c : Ctx ℝ} {bars : List (Bar ℝ)} {a b : Analysis ℝ} {ef : StepForces ℝ} {n : Nat}

theorem sysRes_sign (he : Evaluable c bars a ef) (hn : c.ndof1 = n) {V0 : List ℝ} (hV0 : V0.length = n + 1) {j : Int}
    {k : Fin (n + 1)} (hj : j.natAbs = k + 1) (Vmax : ℝ) : sysRes c a n V0 j Vmax = sysRes c a n V0 (num k) Vmax := by
  funext y m
  refine Fin.lastCases ?_ (fun m => ?_) m
  · rw [sysRes_last he hn hV0 hj, sysRes_last he hn hV0 (num_natAbs k)]
  · exact sysRes_first he hn hV0 hV0 hj (num_natAbs k) Vmax Vmax y m

theorem sysMat_sign (he : Evaluable c bars a ef) (hl : a.lpf.isSome = true)
    (hf0 : a.f0red = a.DOF1.map fun p => ef.forces.getD p 0) (hn : c.ndof1 = n) {j : Int}
    {k : Fin (n + 1)} (hj : j.natAbs = k + 1) (x v : Fin (n + 1) → ℝ) :
    (sysMat c a n j x).mulVec v = (sysMat c a n (num k) x).mulVec v := by
  obtain ⟨r1, r2⟩ := sysMat_rows he hl hf0 hn hj (num_natAbs k) x
  obtain ⟨-, r3⟩ := sysMat_rows he hl hf0 hn (num_natAbs k) hj x
  funext m
  refine Fin.lastCases ?_ (fun m => ?_) m
  · rw [r2, r3]
  · show dotProduct (sysMat c a n j x m.castSucc) v = dotProduct (sysMat c a n (num k) x m.castSucc) v
    rw [r1 m]

/-- Image of a vector under the first rows does not depend on the control component. -/
theorem sysMat_first (he : Evaluable c bars a ef) (hl : a.lpf.isSome = true)
    (hf0 : a.f0red = a.DOF1.map fun p => ef.forces.getD p 0) (hn : c.ndof1 = n) (k k' : Fin (n + 1)) (x v : Fin (n + 1) → ℝ)
    (m : Fin n) : (sysMat c a n (num k) x).mulVec v m.castSucc = (sysMat c a n (num k') x).mulVec v m.castSucc := by
  show dotProduct (sysMat c a n (num k) x m.castSucc) v = dotProduct (sysMat c a n (num k') x m.castSucc) v
  rw [(sysMat_rows he hl hf0 hn (num_natAbs k) (num_natAbs k') x).1 m]

/-- The system of a later state is tame around a point of the path. -/
theorem carried_tame (hb : Carried c bars ef a b) (he : Evaluable c bars a ef) (hl : a.lpf.isSome = true)
    (hf0 : a.f0red = a.DOF1.map fun p => ef.forces.getD p 0) (hn : c.ndof1 = n)
    {V0 V0' : List ℝ} (hV0 : V0.length = n + 1) (hV0' : V0'.length = n + 1) {j : Int} {k : Fin (n + 1)} (hj : j.natAbs = k + 1)
    (Vmax : ℝ) {z : Fin (n + 1) → ℝ} {ρ ε M : ℝ}
    (hN : Near (sysRes c a n V0 (num k) 0) (sysMat c a n (num k)) (mulCLM (sysMat c a n (num k) z)) z ρ ε)
    (hsm : ∀ y, ‖y - z‖ ≤ ρ → CalmAt c bars a y) (hM : 0 < M) (hε : 0 ≤ ε) (hMε : M * ε ≤ 1 / 8)
    (hbel : ∀ v, ‖v‖ ≤ M * ‖(sysMat c a n (num k) z).mulVec v‖) :
    Tame (sysRes c b n V0' j Vmax) (sysMat c b n j) (mulCLM (sysMat c a n (num k) z)) z ρ ε M := by
  have hres : sysRes c b n V0' j Vmax = sysRes c a n V0 (num k) Vmax := by
    rw [hb.sysRes he hn hV0' hV0 hj Vmax, sysRes_sign he hn hV0 hj]
  refine ⟨fun x y hx hy => ?_, fun x hx v => ?_, fun v => by rw [mulCLM_apply]; exact hbel v, hM, hε, hMε⟩
  · rw [hres, sysRes_shift he hn hV0 (num_natAbs k) Vmax 0]
    exact hN.diff x y hx hy
  · rw [hb.sysMat he hl hf0 hn hj (hsm x hx), sysMat_sign he hl hf0 hn hj]
    exact hN.matrix x hx v

theorem carried_quad (hb : Carried c bars ef a b) (he : Evaluable c bars a ef) (hl : a.lpf.isSome = true)
    (hf0 : a.f0red = a.DOF1.map fun p => ef.forces.getD p 0) (hn : c.ndof1 = n)
    {V0 V0' : List ℝ} (hV0 : V0.length = n + 1) (hV0' : V0'.length = n + 1) {j : Int} {k : Fin (n + 1)} (hj : j.natAbs = k + 1)
    (Vmax : ℝ) {z : Fin (n + 1) → ℝ} {ρ Λ : ℝ} (hq : Quad (sysRes c a n V0 (num k) 0) (sysMat c a n (num k)) z ρ Λ)
    (hsm : ∀ y, ‖y - z‖ ≤ ρ → CalmAt c bars a y) :
    Quad (sysRes c b n V0' j Vmax) (sysMat c b n j) z ρ Λ := by
  have hres : sysRes c b n V0' j Vmax = sysRes c a n V0 (num k) Vmax := by
    rw [hb.sysRes he hn hV0' hV0 hj Vmax, sysRes_sign he hn hV0 hj]
  intro x y hx hy
  rw [hres, sysRes_shift he hn hV0 (num_natAbs k) Vmax 0, hb.sysMat he hl hf0 hn hj (hsm x hx), sysMat_sign he hl hf0 hn hj]
  exact hq x y hx hy

/-- `x` is a numerical solution belonging to the parameter `s` of the path, and `j` a control component that moves at a rate
comparable to that of all others, in the direction of its sign. -/
structure AutoTrack (c : Ctx ℝ) (a : Analysis ℝ) (d : Fin (n + 1) → ℝ) (γ γ' : ℝ → Fin (n + 1) → ℝ) (κ L f s : ℝ)
    (x : Fin (n + 1) → ℝ) (j : Int) : Prop where
  close : ‖x - γ s‖ ≤ L * f
  residual : ∀ m : Fin n, |sysRes c a n (List.replicate (n + 1) 0) (num (0 : Fin (n + 1))) 0 x m.castSucc| ≤ f
  comp : ∃ k : Fin (n + 1), j.natAbs = k + 1 ∧ ∀ i, κ * |γ' s i| * d k ≤ (j.sign : ℝ) * γ' s k * d i

variable {d : Fin (n + 1) → ℝ} {S : ℝ} {γ γ' : ℝ → Fin (n + 1) → ℝ}

theorem abs_sign_one {j : Int} (h : j ≠ 0) : |((j.sign : Int) : ℝ)| = 1 := by
  rw [← Int.cast_abs, Int.abs_sign_of_ne_zero h]
  simp

theorem stretch_up {e u : ℝ} (h0 : 0 ≤ e) (h1 : e ≤ 1 / 4) (hu : u ≤ 1 + e) : u * (1 + e / 4) ≤ 1 + 2 * e := by nlinarith

theorem stretch_down {e u : ℝ} (h0 : 0 ≤ e) (h1 : e ≤ 1 / 4) (hu : 1 - e ≤ u) : 1 - 2 * e ≤ u * (1 - e / 4) := by nlinarith

/-- `l'` is the step width after a successful pass with the step width `l`. -/
def WidthNext (cfg : PFCfg ℝ) (dxmax0 l l' : List ℝ) : Prop :=
  ∃ (rc : RCtx ℝ) (st : RState ℝ) (j : Int) (nr : NewtonOut ℝ) (dc : DxOut ℝ), rc.dxmax0 = dxmax0 ∧ st.dxmax = l ∧
    nr.success = true ∧ 1 ≤ nr.n ∧ nr.n ≤ cfg.nfev - st.nPre ∧ nextWidth cfg rc st j nr = .ok dc ∧ l' = dc.dxmax

set_option maxHeartbeats 2000000 in
theorem auto_increment (he : Evaluable c bars a ef) (hl : a.lpf.isSome = true)
    (hf0 : a.f0red = a.DOF1.map fun p => ef.forces.getD p 0) (hn : c.ndof1 = n)
    (hn1 : 1 ≤ n) (hS : 0 < S) (hP : FreePath c bars a d S γ γ') {κ dm D M0 ε ρ φ ω e e1 e2 e3 e4 t : ℝ} (hκ : 0 < κ) (hκ2 : κ ≤ 1 / 2)
    (hdm : 0 < dm) (hdl : ∀ i, dm ≤ d i) (hD : ∀ i, d i ≤ D) (hM0 : 0 < M0)
    (hB : ∀ s ∈ Set.Icc 0 S, ∀ k, κ * d k ≤ |γ' s k| → ∀ v, ‖v‖ ≤ M0 * ‖(sysMat c a n (num k) (γ s)).mulVec v‖)
    (hε : 0 ≤ ε) (hMε : M0 * ε ≤ 1 / 8)
    (hT : ∀ k : Fin (n + 1), ∀ s ∈ Set.Icc 0 S,
      Near (sysRes c a n (List.replicate (n + 1) 0) (num k) 0) (sysMat c a n (num k)) (mulCLM (sysMat c a n (num k) (γ s)))
        (γ s) ρ ε ∧ ∀ y, ‖y - γ s‖ ≤ ρ → CalmAt c bars a y) {Λ : ℝ} (hΛ : 0 ≤ Λ)
    (hQ : ∀ k : Fin (n + 1), ∀ s ∈ Set.Icc 0 S,
      Quad (sysRes c a n (List.replicate (n + 1) 0) (num k) 0) (sysMat c a n (num k)) (γ s) ρ Λ)
    (hφ : 0 ≤ φ) (he1 : e1 = 2 * M0 * (ε * (D / κ) + φ)) (he2 : e2 = 2 * e1 * (1 + D / dm)) (he3 : e3 = 3 * φ + 4 * ε * D)
    (he4 : e4 = e2 + 4 * M0 * e3) (hsmall : 4 * (e4 + ω) ≤ e * dm) (hepos : 0 < e) (hele : e ≤ 1 / 4)
    {env : Env ℝ} (hsp : SolvesRegular env.spsolve (n + 1)) (hA : ArgMax env) {cfg : PFCfg ℝ} (hjf : cfg.jFixed = false)
    (hdx : 1 + e ≤ cfg.dxtol) (hft : 0 < cfg.ftol) (ht : 0 < t) (hftt : cfg.ftol ≤ φ * t) (hxtol : ∀ i, cfg.xtol ≤ t * d i)
    (hρ : 8 * D * t ≤ ρ)
    (hN : Enough (((n : ℝ) + 1) * (1 + 2 * M0)) (4 * Λ * M0 ^ 2) cfg.ftol cfg.xtol (cfg.nfev - 1) (e3 * t))
    {s : ℝ} (hs : s ∈ Set.Icc 0 S) (hend : s + (1 + e) * t ≤ S)
    (hω : ∀ r ∈ Set.Icc 0 S, s ≤ r → r ≤ s + (1 + e) * t → ‖γ' r - γ' s‖ ≤ ω)
    {x : Fin (n + 1) → ℝ} {j : Int} (hx : AutoTrack c a d γ γ' κ (2 * M0) cfg.ftol s x j) (hb : Carried c bars ef a b)
    {dxmax0 : List ℝ} (hdx0 : dxmax0 ≠ []) {fuel : Nat} (hfuel : 1 ≤ fuel) {jPre : Int} (hjPre : jPre ≠ 0) (q : Int) :
    ∃ s', increment env (modelProblem c) cfg dxmax0 fuel ⟨List.ofFn x, List.ofFn fun i => t * d i, j, jPre, q, b⟩ =
        .ok (s', .accepted) ∧ s'.jPre ≠ 0 ∧ Carried c bars ef a s'.a ∧
      WidthNext cfg dxmax0 (List.ofFn fun i => t * d i) s'.dxmax ∧
      ∃ (y : Fin (n + 1) → ℝ) (p : ℝ), s'.x = List.ofFn y ∧ p ∈ Set.Icc 0 S ∧ s < p ∧ p ≤ s + (1 + e) * t ∧
        AutoTrack c a d γ γ' κ (2 * M0) cfg.ftol p y s'.j ∧ (∃ i, |y i - x i| = t * d i) ∧
        (∀ i, |γ p i - γ s i| ≤ (1 + 2 * e) * (t * d i)) ∧ ∃ i, (1 - 2 * e) * (t * d i) ≤ |γ p i - γ s i| := by
  set V0 : List ℝ := List.replicate (n + 1) 0 with hV0d
  have hV0 : V0.length = n + 1 := by simp [hV0d]
  have hxl : (List.ofFn x).length = n + 1 := by simp
  have hblpf : b.lpf.isSome = true := hb.ready.base.lpf
  have hbf0 : b.f0red = b.DOF1.map fun p => ef.forces.getD p 0 := by rw [hb.f0red, hb.dof1]; exact hf0
  have hd : ∀ i, 0 < d i := fun i => hdm.trans_le (hdl i)
  have hD0 : 0 < D := (hd 0).trans_le (hD 0)
  have hdmD : dm ≤ D := (hdl 0).trans (hD 0)
  -- small numbers
  have he10 : 0 ≤ e1 := by rw [he1]; positivity
  have he20 : 0 ≤ e2 := by rw [he2]; positivity
  have he30 : 0 ≤ e3 := by rw [he3]; positivity
  have hω0 : 0 ≤ ω := (norm_nonneg _).trans (hω s hs le_rfl (by
    have : 0 ≤ (1 + e) * t := by positivity
    linarith))
  have hM3 : 0 ≤ 4 * M0 * e3 := by positivity
  have he12 : 2 * e1 ≤ e2 := by
    have : 0 ≤ 2 * e1 * (D / dm) := by positivity
    rw [he2]; linarith
  have hφ1 : 2 * M0 * φ ≤ e1 := by
    have : 0 ≤ 2 * M0 * (ε * (D / κ)) := by positivity
    rw [he1]; linarith
  have hedm : e * dm ≤ 1 / 4 * dm := mul_le_mul_of_nonneg_right hele hdm.le
  have he4dm : e4 + ω ≤ dm / 16 := by linarith
  -- the tangent, scaled to the step widths
  obtain ⟨p0, -, hp0⟩ := Finset.exists_max_image Finset.univ (fun i => |γ' s i| / d i) ⟨0, Finset.mem_univ _⟩
  set Nn := |γ' s p0| / d p0 with hNn
  have hNi : ∀ i, |γ' s i| ≤ Nn * d i := fun i => by
    have := hp0 i (Finset.mem_univ i)
    rwa [div_le_iff₀ (hd i)] at this
  have hN1' : 1 ≤ Nn := by
    obtain ⟨i, hi⟩ := hP.speed s hs
    have h1 := hi.trans (hNi i)
    by_contra hlt
    have := mul_lt_mul_of_pos_right (not_le.1 hlt) (hd i)
    linarith
  have hN0 : 0 < Nn := by linarith
  set g : Fin (n + 1) → ℝ := fun i => γ' s i / Nn with hg
  have hgN : γ' s = Nn • g := by
    funext i
    rw [Pi.smul_apply, smul_eq_mul, hg]
    simp only
    rw [mul_div_cancel₀ _ hN0.ne']
  have hgle : ∀ i, |g i| ≤ d i := fun i => by
    simp only [hg]
    rw [abs_div, abs_of_pos hN0, div_le_iff₀ hN0, mul_comm]
    exact hNi i
  have hgp : |g p0| = d p0 := by
    simp only [hg]
    rw [abs_div, abs_of_pos hN0, hNn]
    have h1 : |γ' s p0| ≠ 0 := by
      intro h0
      rw [h0, zero_div] at hNn
      linarith
    field_simp
  have hgn : ‖g‖ ≤ D := (pi_norm_le_iff_of_nonneg hD0.le).2 fun i => by
    rw [Real.norm_eq_abs]; exact (hgle i).trans (hD i)
  have hgker : ∀ (k : Fin (n + 1)) (m : Fin n), (sysMat c a n (num k) (γ s)).mulVec g m.castSucc = 0 := by
    intro k m
    have h1 := free_tangent he hl hf0 hn hS hP hs k m
    rw [hgN, Matrix.mulVec_smul, Pi.smul_apply, smul_eq_mul] at h1
    exact (mul_eq_zero.1 h1).resolve_left hN0.ne'
  -- control component of the predictor
  obtain ⟨k, hjk, hcomp⟩ := hx.comp
  set σ : ℝ := ((j.sign : Int) : ℝ) with hσ
  have hσ1 : |σ| = 1 := abs_sign_one (by omega)
  have hσσ : σ * σ = 1 := by rw [← abs_mul_abs_self, hσ1, one_mul]
  have hκg : κ * d k ≤ σ * g k := by
    have h1 := hcomp p0
    have h2 : |γ' s p0| = Nn * d p0 := by rw [hNn, div_mul_cancel₀ _ (hd p0).ne']
    rw [h2, hgN, Pi.smul_apply, smul_eq_mul] at h1
    have h3 : (κ * d k) * (Nn * d p0) ≤ (σ * g k) * (Nn * d p0) := by linarith
    exact le_of_mul_le_mul_right h3 (mul_pos hN0 (hd p0))
  have hgk : 0 < σ * g k := (mul_pos hκ (hd k)).trans_le hκg
  have helig : κ * d k ≤ |γ' s k| := by
    have h1 : |γ' s k| = Nn * |g k| := by rw [hgN, Pi.smul_apply, smul_eq_mul, abs_mul, abs_of_pos hN0]
    have h2 : σ * g k ≤ |g k| := by
      have := le_abs_self (σ * g k)
      rwa [abs_mul, hσ1, one_mul] at this
    rw [h1]
    exact (hκg.trans h2).trans (le_mul_of_one_le_left (abs_nonneg _) hN1')
  set cc := d k / (σ * g k) with hcc
  have hcc1 : 1 ≤ cc := by
    rw [hcc, le_div_iff₀ hgk, one_mul]
    have := le_abs_self (σ * g k)
    rw [abs_mul, hσ1, one_mul] at this
    exact this.trans (hgle k)
  have hccκ : cc ≤ 1 / κ := by
    rw [hcc, div_le_div_iff₀ hgk hκ]
    linarith
  have hccg : cc * g k = d k * σ := by
    have hgk' : g k ≠ 0 := fun h => by rw [h, mul_zero] at hgk; exact lt_irrefl _ hgk
    have hσ' : σ ≠ 0 := fun h => by rw [h, zero_mul] at hgk; exact lt_irrefl _ hgk
    rw [hcc]
    field_simp
    linear_combination (-(d k)) * hσσ
  -- distances
  have hxs : ‖x - γ s‖ ≤ e1 * t := by
    refine hx.close.trans ?_
    have h1 : 2 * M0 * cfg.ftol ≤ 2 * M0 * (φ * t) := mul_le_mul_of_nonneg_left hftt (by positivity)
    have h2 : 2 * M0 * φ * t ≤ e1 * t := mul_le_mul_of_nonneg_right hφ1 ht.le
    linarith
  have he1D : e1 * t ≤ D * t := mul_le_mul_of_nonneg_right (by linarith) ht.le
  have hDt : 0 < D * t := mul_pos hD0 ht
  have hxρ : ‖x - γ s‖ ≤ ρ := by linarith
  have hfirst : ∀ {j' : Int} {k' : Fin (n + 1)}, j'.natAbs = k' + 1 → ∀ (Vmax : ℝ) (y : Fin (n + 1) → ℝ) (m : Fin n),
      sysRes c b n (List.ofFn x) j' Vmax y m.castSucc = sysRes c a n V0 (num (0 : Fin (n + 1))) 0 y m.castSucc := by
    intro j' k' hj' Vmax y m
    rw [hb.sysRes he hn hxl hV0 hj' Vmax]
    exact sysRes_first he hn hV0 hV0 hj' (num_natAbs 0) Vmax 0 y m
  have hlast : ∀ {j' : Int} {k' : Fin (n + 1)}, j'.natAbs = k' + 1 → ∀ (Vmax : ℝ) (y : Fin (n + 1) → ℝ),
      sysRes c b n (List.ofFn x) j' Vmax y (Fin.last n) = y k' - Vmax := by
    intro j' k' hj' Vmax y
    rw [hb.sysRes he hn hxl hV0 hj' Vmax]
    exact sysRes_last he hn hV0 hj' Vmax y
  -- predictor
  set Vp := x k + t * d k * σ with hVp
  have htp : Tame (sysRes c b n (List.ofFn x) j Vp) (sysMat c b n j) (mulCLM (sysMat c a n (num k) (γ s))) (γ s) ρ ε M0 :=
    carried_tame hb he hl hf0 hn hV0 hxl hjk Vp (hT k s hs).1 (hT k s hs).2 hM0 hε hMε (hB s hs k helig)
  obtain ⟨a', o, dd, q1, q2, q3, q4, q5, q6⟩ := newton_one (model_computes hb.eval hblpf hbf0 hn hxl hjk Vp) hsp
    (Trial.refl b) (htp.regular hxρ) cfg.ftol cfg.xtol
  set τ : Fin (n + 1) → ℝ := fun i => dd i / t with hτ
  have hddτ : dd = t • τ := by
    funext i
    rw [Pi.smul_apply, smul_eq_mul, hτ]
    simp only
    rw [mul_div_cancel₀ _ ht.ne']
  have hddk : dd k = t * d k * σ := by
    have h1 := congrFun q5 (Fin.last n)
    rw [(sysMat_rows hb.eval hblpf hbf0 hn hjk hjk x).2 dd, Pi.neg_apply, hlast hjk] at h1
    rw [h1, hVp]
    ring
  have hrow : ∀ m : Fin n, (sysMat c b n j x).mulVec dd m.castSucc = -sysRes c a n V0 (num (0 : Fin (n + 1))) 0 x m.castSucc := fun m => by
    rw [q5, Pi.neg_apply, hfirst hjk]
  have hτg : ‖τ - cc • g‖ ≤ e1 := by
    have h1 : ‖(sysMat c b n j x).mulVec dd - mulCLM (sysMat c a n (num k) (γ s)) ((t * cc) • g)‖ ≤ cfg.ftol := by
      refine (pi_norm_le_iff_of_nonneg hft.le).2 fun m => ?_
      rw [map_smul, mulCLM_apply]
      refine Fin.lastCases ?_ (fun m => ?_) m
      · rw [Pi.sub_apply, (sysMat_rows hb.eval hblpf hbf0 hn hjk hjk x).2 dd, Pi.smul_apply,
          (sysMat_rows he hl hf0 hn (num_natAbs k) (num_natAbs k) (γ s)).2, smul_eq_mul, mul_assoc, hccg, hddk, ← mul_assoc, sub_self,
          norm_zero]
        exact hft.le
      · rw [Pi.sub_apply, hrow, Pi.smul_apply, hgker, smul_zero, sub_zero, norm_neg, Real.norm_eq_abs]
        exact hx.residual m
    have h2 := htp.predict hxρ h1
    have h3 : dd - (t * cc) • g = t • (τ - cc • g) := by
      rw [smul_sub, smul_smul, ← hddτ]
    rw [h3, norm_smul, norm_smul, Real.norm_eq_abs, Real.norm_eq_abs, abs_of_pos ht, abs_of_pos (by positivity : 0 < t * cc)] at h2
    have h4 : t * cc * ‖g‖ ≤ t * (D / κ) := by
      rw [mul_assoc]
      refine mul_le_mul_of_nonneg_left ?_ ht.le
      calc cc * ‖g‖ ≤ 1 / κ * D := mul_le_mul hccκ hgn (norm_nonneg _) (by positivity)
        _ = D / κ := by ring
    have h5 : 2 * M0 * (ε * (t * cc * ‖g‖) + cfg.ftol) ≤ 2 * M0 * (ε * (t * (D / κ)) + φ * t) := by gcongr
    have h6 : 2 * M0 * (ε * (t * (D / κ)) + φ * t) = t * e1 := by rw [he1]; ring
    exact le_of_mul_le_mul_left (h2.trans (h5.trans h6.le)) ht
  obtain ⟨i0, hmax, hbig⟩ := maxComp_ofFn hA fun i => τ i / d i
  obtain ⟨hv34, hwg⟩ := scale_dir hdm hdl hD hgle hgp hcc1 hτg (by linarith) hbig
  rw [← he2] at hwg
  have hr0 : τ i0 / d i0 ≠ 0 := by
    intro h0
    rw [h0, abs_zero] at hv34
    linarith
  set v := τ i0 / d i0 with hv
  have hvpos : 0 < |v| := abs_pos.2 hr0
  obtain ⟨j1, hj1, hj1a, hj1s⟩ := signedIdx_pos (i := ((i0 : Nat) : Int) + 1) hr0 (by omega)
  have hj1k : j1.natAbs = i0 + 1 := by rw [hj1a]; omega
  set σ1 : ℝ := ((j1.sign : Int) : ℝ) with hσ1'
  have hσ1s : σ1 * |v| = v := hj1s
  have hσ11 : |σ1| = 1 := abs_sign_one (by omega)
  have hσσ1 : σ1 * σ1 = 1 := by rw [← abs_mul_abs_self, hσ11, one_mul]
  set w : Fin (n + 1) → ℝ := |v|⁻¹ • τ with hw
  have hwi0 : w i0 = d i0 * σ1 := by
    have hτi0 : τ i0 = v * d i0 := by rw [hv, div_mul_cancel₀ _ (hd i0).ne']
    rw [hw, Pi.smul_apply, smul_eq_mul, hτi0, inv_mul_eq_iff_eq_mul₀ hvpos.ne']
    linear_combination (-(d i0)) * hσ1s
  have hgi0 : d i0 - e2 ≤ σ1 * g i0 := by
    have h1 := (norm_le_pi_norm (w - g) i0).trans hwg
    rw [Real.norm_eq_abs, Pi.sub_apply, hwi0] at h1
    have h2 : |σ1 * (d i0 * σ1 - g i0)| ≤ e2 := by rw [abs_mul, hσ11, one_mul]; exact h1
    have h3 := (abs_le.1 h2).2
    have h4 : σ1 * (d i0 * σ1 - g i0) = d i0 - σ1 * g i0 := by linear_combination d i0 * hσσ1
    linarith
  have helig1 : κ * d i0 ≤ |γ' s i0| := by
    have h1 : |γ' s i0| = Nn * |g i0| := by rw [hgN, Pi.smul_apply, smul_eq_mul, abs_mul, abs_of_pos hN0]
    have h2 : σ1 * g i0 ≤ |g i0| := by
      have := le_abs_self (σ1 * g i0)
      rwa [abs_mul, hσ11, one_mul] at this
    have h3 : κ * d i0 ≤ 1 / 2 * d i0 := mul_le_mul_of_nonneg_right hκ2 (hd i0).le
    have h4 := hdl i0
    rw [h1]
    refine le_trans ?_ (le_mul_of_one_le_left (abs_nonneg _) hN1')
    linarith
  have hpre : predictor env (modelProblem c) cfg ⟨List.ofFn x, List.ofFn fun i => t * d i, j, jPre, q, b⟩ =
      .ok ⟨false, 1, j1, j1, List.ofFn dd, v, a'⟩ := by
    have hsucc : o.success = false := by
      by_contra hne
      have h1 := q6 (by simpa using hne)
      have h2 := norm_le_vnorm dd
      have h3 := norm_le_pi_norm dd k
      rw [hddk, Real.norm_eq_abs, abs_mul, abs_mul, hσ1, abs_of_pos ht, abs_of_pos (hd k), mul_one] at h3
      have h4 := hxtol k
      linarith
    have hDx : vsub o.x (List.ofFn x) = List.ofFn dd := by
      rw [q3, vsub_ofFn, add_sub_cancel_left]
    have hdiv : vdiv (List.ofFn dd) (List.ofFn fun i => t * d i) = List.ofFn fun i => τ i / d i := by
      rw [vdiv_ofFn]
      congr 1
      funext i
      rw [hddτ, Pi.smul_apply, smul_eq_mul, mul_div_mul_left _ _ ht.ne']
    unfold predictor
    rw [if_pos ⟨hjPre, hjf⟩]
    simp only [target_ofFn x (fun i => t * d i) hjk, py_bind_ok]
    have q1' : newton (extF (modelProblem c) (List.ofFn x) j (x k + t * d k * Flt.ofInt j.sign) false)
        (extDf (modelProblem c) j) env.spsolve b (List.ofFn x) 1 cfg.ftol cfg.xtol = .ok (a', o) := q1
    rw [q1']
    simp only [py_bind_ok, hDx, hdiv, hmax, hj1, hsucc, q4, ite_self]
    rfl
  -- Newton iteration
  set Vmax := x i0 + t * d i0 * σ1 with hVmax
  have htn : Tame (sysRes c b n (List.ofFn x) j1 Vmax) (sysMat c b n j1) (mulCLM (sysMat c a n (num i0) (γ s))) (γ s) ρ ε M0 :=
    carried_tame hb he hl hf0 hn hV0 hxl hj1k Vmax (hT i0 s hs).1 (hT i0 s hs).2 hM0 hε hMε (hB s hs i0 helig1)
  have hwn : ‖w‖ ≤ 2 * D := by
    calc ‖w‖ = ‖(w - g) + g‖ := by congr 1; abel
      _ ≤ _ := norm_add_le _ _
      _ ≤ 2 * D := by linarith
  have htw : ‖t • w‖ ≤ 2 * D * t := by
    rw [norm_smul, Real.norm_eq_abs, abs_of_pos ht]
    have := mul_le_mul_of_nonneg_left hwn ht.le
    linarith
  have hxw : ‖x + t • w - γ s‖ ≤ 3 * D * t := by
    calc ‖x + t • w - γ s‖ = ‖(x - γ s) + t • w‖ := by congr 1; abel
      _ ≤ _ := norm_add_le _ _
      _ ≤ _ := by linarith
  have hφw : ‖sysRes c b n (List.ofFn x) j1 Vmax (x + t • w)‖ ≤ e3 * t := by
    have h1 := htn.diff (x + t • w) x (by linarith) hxρ
    rw [add_sub_cancel_left] at h1
    have h2 := htn.matrix x hxρ (t • w)
    refine (pi_norm_le_iff_of_nonneg (by positivity)).2 fun m => ?_
    refine Fin.lastCases ?_ (fun m => ?_) m
    · rw [hlast hj1k, hVmax, Pi.add_apply, Pi.smul_apply, smul_eq_mul, hwi0]
      have : x i0 + t * (d i0 * σ1) - (x i0 + t * d i0 * σ1) = 0 := by ring
      rw [this, norm_zero]
      positivity
    · have h3 := (norm_le_pi_norm _ m.castSucc).trans h1
      have h4 := (norm_le_pi_norm _ m.castSucc).trans h2
      have h5 : (sysMat c b n j1 x).mulVec (t • w) m.castSucc = -(|v|⁻¹ * sysRes c a n V0 (num (0 : Fin (n + 1))) 0 x m.castSucc) := by
        have h6 : t • w = |v|⁻¹ • dd := by rw [hw, smul_comm, hddτ]
        have h7 : (sysMat c b n j1 x).mulVec dd m.castSucc = (sysMat c b n j x).mulVec dd m.castSucc := by
          show dotProduct (sysMat c b n j1 x m.castSucc) dd = dotProduct (sysMat c b n j x m.castSucc) dd
          rw [(sysMat_rows hb.eval hblpf hbf0 hn hj1k hjk x).1 m]
        rw [h6, Matrix.mulVec_smul, Pi.smul_apply, smul_eq_mul, h7, hrow]
        ring
      rw [Real.norm_eq_abs] at h3 h4 ⊢
      rw [Pi.sub_apply, h5] at h4
      rw [Pi.sub_apply, Pi.sub_apply, hfirst hj1k Vmax x m] at h3
      have h8 := hx.residual m
      generalize sysRes c b n (List.ofFn x) j1 Vmax (x + t • w) m.castSucc = r at h3 ⊢
      generalize sysRes c a n V0 (num (0 : Fin (n + 1))) 0 x m.castSucc = r0 at h3 h4 h8
      generalize (mulCLM (sysMat c a n (num i0) (γ s))) (t • w) m.castSucc = r1 at h3 h4
      have h9 : ε * ‖t • w‖ ≤ ε * (2 * D * t) := mul_le_mul_of_nonneg_left htw hε
      have h10 : |(|v|⁻¹ * r0)| ≤ 2 * cfg.ftol := by
        rw [abs_mul, abs_inv, abs_abs]
        refine mul_le_mul ?_ h8 (abs_nonneg _) (by norm_num)
        rw [inv_le_comm₀ hvpos (by norm_num)]
        norm_num
        linarith
      have h11 : |r| ≤ |r - r0 - r1| + |r0| + |(-(|v|⁻¹ * r0) - r1)| + |(|v|⁻¹ * r0)| := by
        have : r = (r - r0 - r1) + r0 + -(-(|v|⁻¹ * r0) - r1) + -(|v|⁻¹ * r0) := by ring
        calc |r| = |(r - r0 - r1) + r0 + -(-(|v|⁻¹ * r0) - r1) + -(|v|⁻¹ * r0)| := congrArg _ this
          _ ≤ |(r - r0 - r1) + r0 + -(-(|v|⁻¹ * r0) - r1)| + |-(|v|⁻¹ * r0)| := abs_add_le _ _
          _ ≤ (|(r - r0 - r1) + r0| + |-(-(|v|⁻¹ * r0) - r1)|) + |-(|v|⁻¹ * r0)| := by gcongr; exact abs_add_le _ _
          _ ≤ ((|r - r0 - r1| + |r0|) + |-(-(|v|⁻¹ * r0) - r1)|) + |-(|v|⁻¹ * r0)| := by gcongr; exact abs_add_le _ _
          _ = _ := by rw [abs_neg, abs_neg]
      rw [he3]
      linarith
  have hMφ : 4 * M0 * ‖sysRes c b n (List.ofFn x) j1 Vmax (x + t • w)‖ ≤ 4 * M0 * e3 * t := by
    rw [mul_assoc (4 * M0)]
    exact mul_le_mul_of_nonneg_left hφw (by positivity)
  have h3D : 4 * M0 * e3 * t ≤ D * t := mul_le_mul_of_nonneg_right (by linarith) ht.le
  have hstart : ‖x + t • w - γ s‖ + 4 * M0 * ‖sysRes c b n (List.ofFn x) j1 Vmax (x + t • w)‖ ≤ ρ := by linarith
  obtain ⟨a3, o3, y, g1, g2, g3, g4, g5, g6, g7⟩ := newton_quick (model_computes hb.eval hblpf hbf0 hn hxl hj1k Vmax) hsp htn
    le_rfl hΛ (carried_quad hb he hl hf0 hn hV0 hxl hj1k Vmax (hQ i0 s hs) (hT i0 s hs).2) (nfev := cfg.nfev - 1)
    (by push_cast; exact hN) q2 hstart hφw
  have hst : (if (0 : Int) = 0 ∧ j1 ≠ 0 ∧ cfg.jFixed = false then
      vadd (List.ofFn x) ((List.ofFn dd).map fun u => u / Flt.abs v) else List.ofFn x) = List.ofFn (x + t • w) := by
    rw [if_pos ⟨rfl, by omega, hjf⟩, List.map_ofFn, vadd_ofFn]
    congr 1
    funext i
    simp only [Pi.add_apply, Function.comp, Pi.smul_apply, smul_eq_mul, hw, hddτ]
    show x i + t * τ i / |v| = _
    ring
  have hyi0 : y i0 = Vmax := control_exact hb.eval hblpf hbf0 hn hxl hj1k g7
  -- the step is close to the tangent
  have hyg : ‖y - x - t • g‖ ≤ e4 * t := by
    have h1 : y - x - t • g = (y - (x + t • w)) + t • (w - g) := by rw [smul_sub]; abel
    rw [h1]
    refine (norm_add_le _ _).trans ?_
    rw [norm_smul, Real.norm_eq_abs, abs_of_pos ht, he4]
    have := mul_le_mul_of_nonneg_left hwg ht.le
    linarith
  have hygi : ∀ i, |y i - x i - t * g i| ≤ e4 * t := fun i => by
    have := (norm_le_pi_norm _ i).trans hyg
    rwa [Real.norm_eq_abs] at this
  have hvalid : ∀ i, |(y - x) i / (t * d i)| ≤ cfg.dxtol := by
    intro i
    have h0 : 0 < t * d i := mul_pos ht (hd i)
    rw [abs_div, abs_of_pos h0, div_le_iff₀ h0, Pi.sub_apply]
    have h1 := hygi i
    have h2 := abs_add_le (y i - x i - t * g i) (t * g i)
    rw [sub_add_cancel, abs_mul t, abs_of_pos ht] at h2
    have h3 := mul_le_mul_of_nonneg_left (hgle i) ht.le
    have h4 : (1 + e) * (t * d i) ≤ cfg.dxtol * (t * d i) := mul_le_mul_of_nonneg_right hdx h0.le
    have h5 : e4 * t ≤ e * (t * d i) := by
      have h6 : e * dm ≤ e * d i := mul_le_mul_of_nonneg_left (hdl i) hepos.le
      have h7 : e4 ≤ e * d i := by linarith
      have := mul_le_mul_of_nonneg_right h7 ht.le
      linarith
    linarith
  obtain ⟨st', hat, hy, ⟨i1, hbig1, hnext⟩, dc, hdc, hdcx⟩ := attempt_accepts_full hb.eval hn hn1 hA (cfg := cfg)
    (rc := ⟨List.ofFn x, dxmax0, j1, List.ofFn dd, v⟩) (st := ⟨List.ofFn x, 0, 1, List.ofFn fun i => t * d i, j1, q, a'⟩)
    (x := x) (y := y) (d := fun i => t * d i) rfl rfl hdx0 hj1k hst g1 g2 g3 g4 (Or.inr ⟨hjf, hvalid⟩)
  obtain ⟨s', hs1, hs2, hs3, hs4, hs5⟩ := increment_accepts_full hpre rfl hat hy hfuel
  have hinc := increment_ok hs1
  -- parameter of the new point
  obtain ⟨u, hu1, hu2, hpI, hpγ, hplin, hpder⟩ := next_param hP.deriv (xi := x i0) (e5 := e1) hs ht hN1' hgN hσ11 hgi0 (hgle i0)
    (by
      have := (norm_le_pi_norm _ i0).trans hxs
      rwa [Real.norm_eq_abs] at this) hepos.le (by linarith) hend hω
    (by
      have := mul_le_mul_of_nonneg_left (hdl i0) hepos.le
      linarith) he20
  set p := s + u * t / Nn with hp
  have hu0 : 0 < u := by linarith
  have hsp' : s < p := by
    have : 0 < u * t / Nn := by positivity
    linarith
  have hpt : p ≤ s + (1 + e) * t := by
    have h1 : u * t / Nn ≤ u * t := div_le_self (by positivity) hN1'
    have h2 : u * t ≤ (1 + e) * t := mul_le_mul_of_nonneg_right hu2 ht.le
    linarith
  have hplini : ∀ i, |γ p i - γ s i - u * t * g i| ≤ ω * (u * t) := fun i => by
    have := (norm_le_pi_norm _ i).trans hplin
    rwa [Real.norm_eq_abs] at this
  have hderi : ∀ i, |γ' p i - Nn * g i| ≤ ω := fun i => by
    have := (norm_le_pi_norm _ i).trans hpder
    rw [Real.norm_eq_abs, Pi.sub_apply, hgN, Pi.smul_apply, smul_eq_mul] at this
    exact this
  -- the new point is close to the path
  have helig2 : κ * d i0 ≤ |γ' p i0| := by
    have h1 := (abs_le.1 (hderi i0))
    have h2 : |σ1 * (γ' p i0 - Nn * g i0)| ≤ ω := by rw [abs_mul, hσ11, one_mul]; exact hderi i0
    have h3 := (abs_le.1 h2).1
    have h4 : σ1 * γ' p i0 ≤ |γ' p i0| := by
      have := le_abs_self (σ1 * γ' p i0)
      rwa [abs_mul, hσ11, one_mul] at this
    have h5 : κ * d i0 ≤ 1 / 2 * d i0 := mul_le_mul_of_nonneg_right hκ2 (hd i0).le
    have h6 := hdl i0
    have h7 : d i0 - e2 ≤ Nn * (σ1 * g i0) :=
      hgi0.trans (le_mul_of_one_le_left (le_trans (by linarith) hgi0) hN1')
    linarith
  have hte : Tame (sysRes c b n (List.ofFn x) j1 Vmax) (sysMat c b n j1) (mulCLM (sysMat c a n (num i0) (γ p))) (γ p) ρ ε M0 :=
    carried_tame hb he hl hf0 hn hV0 hxl hj1k Vmax (hT i0 p hpI).1 (hT i0 p hpI).2 hM0 hε hMε (hB p hpI i0 helig2)
  have hzero : sysRes c b n (List.ofFn x) j1 Vmax (γ p) = 0 := by
    funext m
    refine Fin.lastCases ?_ (fun m => ?_) m
    · rw [hlast hj1k, hpγ, hVmax, sub_self]; rfl
    · rw [hfirst hj1k, free_zero he hn hP hpI hV0 (num_natAbs 0) 0 m]; rfl
  have hφy : ‖sysRes c b n (List.ofFn x) j1 Vmax y‖ ≤ cfg.ftol := ((norm_le_vnorm _).trans_lt g6).le
  have hyp : ‖y - γ p‖ ≤ ρ := by
    have h1 : y - γ p = (y - x - t • g) + (x - γ s) + ((1 - u) * t) • g - (γ p - γ s - (u * t) • g) := by
      rw [sub_mul, one_mul, sub_smul]; abel
    have h2 : ‖((1 - u) * t) • g‖ ≤ D * t := by
      rw [norm_smul, Real.norm_eq_abs, abs_mul, abs_of_pos ht]
      have h3 : |1 - u| ≤ 1 := by rw [abs_le]; constructor <;> linarith
      calc |1 - u| * t * ‖g‖ ≤ 1 * t * D := by gcongr
        _ = D * t := by ring
    have h4 : e4 * t ≤ D * t := mul_le_mul_of_nonneg_right (by linarith) ht.le
    have h5 : ω * (u * t) ≤ 2 * D * t := by
      have : ω * u ≤ 2 * D := by
        have := mul_le_mul (by linarith : ω ≤ D) (by linarith : u ≤ 2) hu0.le hD0.le
        linarith
      calc ω * (u * t) = ω * u * t := by ring
        _ ≤ _ := mul_le_mul_of_nonneg_right this ht.le
    calc ‖y - γ p‖ = ‖(y - x - t • g) + (x - γ s) + ((1 - u) * t) • g - (γ p - γ s - (u * t) • g)‖ := congrArg _ h1
      _ ≤ ‖(y - x - t • g) + (x - γ s) + ((1 - u) * t) • g‖ + ‖γ p - γ s - (u * t) • g‖ := norm_sub_le _ _
      _ ≤ (‖(y - x - t • g) + (x - γ s)‖ + ‖((1 - u) * t) • g‖) + ‖γ p - γ s - (u * t) • g‖ := by
        gcongr; exact norm_add_le _ _
      _ ≤ ((‖y - x - t • g‖ + ‖x - γ s‖) + ‖((1 - u) * t) • g‖) + ‖γ p - γ s - (u * t) • g‖ := by
        gcongr; exact norm_add_le _ _
      _ ≤ ρ := by linarith
  have hρ0 : 0 ≤ ρ := by linarith
  -- the next control component
  have hone : |(y - x) i0 / (t * d i0)| = 1 := by
    rw [Pi.sub_apply, hyi0, hVmax, add_sub_cancel_left, mul_div_right_comm, div_self (mul_pos ht (hd i0)).ne', one_mul, hσ11]
  have hi1 : 1 ≤ |(y - x) i1 / (t * d i1)| := by rw [← hone]; exact hbig1 i0
  have hr1 : (y - x) i1 / (t * d i1) ≠ 0 := by
    intro h0
    rw [h0, abs_zero] at hi1
    linarith
  obtain ⟨j2, hj2, hj2a, hj2s⟩ := signedIdx_pos (i := ((i1 : Nat) : Int) + 1) hr1 (by omega)
  have hj2' : s'.j = j2 := by
    rw [hs3]
    unfold nextJ at hnext
    rw [if_neg (by rw [hjf]; simp), hj2] at hnext
    exact (Except.ok.inj hnext).symm
  have hj2k : j2.natAbs = i1 + 1 := by rw [hj2a]; omega
  set σ2 : ℝ := ((j2.sign : Int) : ℝ) with hσ2
  have hσ21 : |σ2| = 1 := abs_sign_one (by omega)
  have hσσ2 : σ2 * σ2 = 1 := by rw [← abs_mul_abs_self, hσ21, one_mul]
  have hstep : t * d i1 ≤ σ2 * (y i1 - x i1) := by
    have h1 : σ2 * |(y - x) i1 / (t * d i1)| = (y - x) i1 / (t * d i1) := hj2s
    have h2 : σ2 * ((y - x) i1 / (t * d i1)) = |(y - x) i1 / (t * d i1)| := by
      rw [← h1, ← mul_assoc, hσσ2, one_mul, abs_mul, hσ21, one_mul, abs_abs]
    have h0 : 0 < t * d i1 := mul_pos ht (hd i1)
    rw [← h2, ← mul_div_assoc, le_div_iff₀ h0, one_mul, Pi.sub_apply] at hi1
    exact hi1
  have hg2 : d i1 - e4 ≤ σ2 * g i1 := by
    have h1 : |σ2 * (y i1 - x i1 - t * g i1)| ≤ e4 * t := by rw [abs_mul, hσ21, one_mul]; exact hygi i1
    have h2 := (abs_le.1 h1).2
    have h3 : t * (d i1 - e4) ≤ t * (σ2 * g i1) := by linarith
    exact le_of_mul_le_mul_left h3 ht
  refine ⟨s', hs1, by rw [hs5]; show j1 ≠ 0; omega, hb.next hn hinc rfl (by simp) hs2 ((hT i0 p hpI).2 y hyp),
    ⟨_, _, _, _, dc, rfl, rfl, g3, (newton_last g1).1, (newton_last g1).2.1, hdc, by rw [hs4, hdcx]⟩, y, p, hs2, hpI, hsp', hpt,
    ⟨hte.near_zero hρ0 hzero hyp hφy, fun m => ?_, i1, by rw [hj2']; exact hj2k, fun i => ?_⟩, ⟨i0, ?_⟩, fun i => ?_, p0, ?_⟩
  · rw [← hfirst hj1k Vmax]
    have := norm_le_pi_norm (sysRes c b n (List.ofFn x) j1 Vmax y) m.castSucc
    rw [Real.norm_eq_abs] at this
    exact this.trans hφy
  · rw [hj2']
    have h1 : |γ' p i| ≤ Nn * d i + ω := by
      have h2 := abs_add_le (γ' p i - Nn * g i) (Nn * g i)
      rw [sub_add_cancel, abs_mul, abs_of_pos hN0] at h2
      have := mul_le_mul_of_nonneg_left (hgle i) hN0.le
      linarith [hderi i]
    have h2 : |σ2 * (γ' p i1 - Nn * g i1)| ≤ ω := by rw [abs_mul, hσ21, one_mul]; exact hderi i1
    have h3 := (abs_le.1 h2).1
    have h4 : Nn * (d i1 - e4) - ω ≤ σ2 * γ' p i1 := by
      have := mul_le_mul_of_nonneg_left hg2 hN0.le
      linarith
    have h5 : κ * |γ' p i| * d i1 ≤ 1 / 2 * (Nn * d i + ω) * d i1 := by
      have : κ * |γ' p i| ≤ 1 / 2 * (Nn * d i + ω) := mul_le_mul hκ2 h1 (abs_nonneg _) (by norm_num)
      exact mul_le_mul_of_nonneg_right this (hd i1).le
    have h6 : (Nn * (d i1 - e4) - ω) * d i ≤ σ2 * γ' p i1 * d i := mul_le_mul_of_nonneg_right h4 (hd i).le
    refine h5.trans (le_trans ?_ h6)
    have h7 : ω ≤ d i / 16 := by linarith [hdl i]
    have h8 : e4 + ω ≤ d i1 / 16 := by linarith [hdl i1]
    have h9 : ω * d i1 ≤ d i / 16 * d i1 := mul_le_mul_of_nonneg_right h7 (hd i1).le
    have h10 : (e4 + ω) * (Nn * d i) ≤ d i1 / 16 * (Nn * d i) := mul_le_mul_of_nonneg_right h8 (by have := hd i; positivity)
    have h11 : ω * d i ≤ ω * (Nn * d i) := by
      exact mul_le_mul_of_nonneg_left (le_mul_of_one_le_left (hd i).le hN1') hω0
    have h12 : d i * d i1 ≤ Nn * (d i * d i1) := le_mul_of_one_le_left (mul_pos (hd i) (hd i1)).le hN1'
    have h13 : 0 < Nn * (d i * d i1) := mul_pos hN0 (mul_pos (hd i) (hd i1))
    linarith
  · rw [hyi0, hVmax, add_sub_cancel_left, abs_mul, hσ11, mul_one, abs_of_pos (mul_pos ht (hd i0))]
  · have h1 := abs_add_le (γ p i - γ s i - u * t * g i) (u * t * g i)
    rw [sub_add_cancel, abs_mul (u * t), abs_of_pos (mul_pos hu0 ht)] at h1
    have h2 := mul_le_mul_of_nonneg_left (hgle i) (mul_pos hu0 ht).le
    have h3 : ω ≤ e / 4 * d i := by
      have := mul_le_mul_of_nonneg_left (hdl i) hepos.le
      linarith
    have h4 : ω * (u * t) ≤ e / 4 * d i * (u * t) := mul_le_mul_of_nonneg_right h3 (mul_pos hu0 ht).le
    have h5 : u * (1 + e / 4) ≤ 1 + 2 * e := stretch_up hepos.le hele hu2
    have h6 : u * (1 + e / 4) * (t * d i) ≤ (1 + 2 * e) * (t * d i) := mul_le_mul_of_nonneg_right h5 (mul_pos ht (hd i)).le
    have := hplini i
    linarith
  · have h1 := abs_sub_abs_le_abs_sub (u * t * g p0) (γ p p0 - γ s p0)
    rw [abs_mul (u * t), abs_of_pos (mul_pos hu0 ht), hgp, abs_sub_comm (u * t * g p0)] at h1
    have h3 : ω ≤ e / 4 * d p0 := by
      have := mul_le_mul_of_nonneg_left (hdl p0) hepos.le
      linarith
    have h4 : ω * (u * t) ≤ e / 4 * d p0 * (u * t) := mul_le_mul_of_nonneg_right h3 (mul_pos hu0 ht).le
    have h5 : 1 - 2 * e ≤ u * (1 - e / 4) := stretch_down hepos.le hele hu1
    have h6 : (1 - 2 * e) * (t * d p0) ≤ u * (1 - e / 4) * (t * d p0) := mul_le_mul_of_nonneg_right h5 (mul_pos ht (hd p0)).le
    have := hplini p0
    linarith

end

end TrussPy
