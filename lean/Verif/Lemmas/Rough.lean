import Verif.Lemmas.Follow
/-!
# Increments along a curve on which the equilibrium equations hold only approximately
-/

set_option linter.unusedSectionVars false

namespace TrussPy

/-- Near a point with small residual the residual bounds the distance. -/
theorem Tame.near_small {n : Nat} {φ : (Fin n → ℝ) → Fin n → ℝ} {J : (Fin n → ℝ) → Matrix (Fin n) (Fin n) ℝ}
    {A : (Fin n → ℝ) →L[ℝ] Fin n → ℝ} {z y : Fin n → ℝ} {ρ ε M f η : ℝ} (h : Tame φ J A z ρ ε M) (hρ : 0 ≤ ρ) (hz : ‖φ z‖ ≤ η)
    (hy : ‖y - z‖ ≤ ρ) (hf : ‖φ y‖ ≤ f) : ‖y - z‖ ≤ 2 * M * (f + η) := by
  have h1 : Tame (fun x => φ x - φ z) J A z ρ ε M := h.shift fun x y => by simp
  refine h1.near_zero hρ (by simp) hy ?_
  exact (norm_sub_le _ _).trans (add_le_add hf hz)

section
variable {c : Ctx ℝ} {bars : List (Bar ℝ)} {a b : Analysis ℝ} {ef : StepForces ℝ}

/-- `x` is a numerical solution within `R` of the point of the curve with parameter `s`. -/
structure Nearby (c : Ctx ℝ) (a : Analysis ℝ) {n : Nat} (j : Int) (k : Fin (n + 1)) (γ : ℝ → Fin (n + 1) → ℝ) (R f s : ℝ)
    (x : Fin (n + 1) → ℝ) : Prop where
  close : ‖x - γ s‖ ≤ R
  control : x k = γ s k
  residual : ∀ m : Fin n, |sysRes c a n (List.replicate (n + 1) 0) j 0 x m.castSucc| ≤ f

theorem rough_increment (he : Evaluable c bars a ef) (hl : a.lpf.isSome = true)
    (hf0 : a.f0red = a.DOF1.map fun p => ef.forces.getD p 0) {n : Nat} (hn : c.ndof1 = n)
    (hn1 : 1 ≤ n) {j : Int} {k : Fin (n + 1)} (hj : j.natAbs = k + 1) {S : ℝ} {γ : ℝ → Fin (n + 1) → ℝ}
    (hctl : ∀ s ∈ Set.Icc 0 S, γ s k = γ 0 k + s * (j.sign : ℝ)) {η : ℝ} (hη0 : 0 ≤ η)
    (hη : ∀ s ∈ Set.Icc 0 S, ∀ m : Fin n, |sysRes c a n (List.replicate (n + 1) 0) j 0 (γ s) m.castSucc| ≤ η)
    {ρ M0 : ℝ} (hρ : 0 < ρ) (hM0 : 0 < M0)
    (hT : ∀ s ∈ Set.Icc 0 S, ∃ A ε M, M ≤ M0 ∧
      Tame (sysRes c a n (List.replicate (n + 1) 0) j 0) (sysMat c a n j) A (γ s) ρ ε M ∧
      ∀ y, ‖y - γ s‖ ≤ ρ → CalmAt c bars a y) {Λ : ℝ} (hΛ : 0 ≤ Λ)
    (hQ : ∀ s ∈ Set.Icc 0 S, Quad (sysRes c a n (List.replicate (n + 1) 0) j 0) (sysMat c a n j) (γ s) ρ Λ)
    {env : Env ℝ} (hsp : SolvesRegular env.spsolve (n + 1)) (hA : ArgMax env) {cfg : PFCfg ℝ} (hjf : cfg.jFixed = true)
    (hsc : cfg.stepcontrol = false) (hdx : 1 ≤ cfg.dxtol) (hft : 0 < cfg.ftol) {d : Fin (n + 1) → ℝ} {h : ℝ} (hd : d k = h)
    (hh : 0 < h) {R : ℝ} (hR : 2 * M0 * (cfg.ftol + η) ≤ R) (hsmall : R + 4 * M0 * (h + cfg.ftol) ≤ ρ / 2)
    (hN : Enough (((n : ℝ) + 1) * (1 + 2 * M0)) (4 * Λ * M0 ^ 2) cfg.ftol cfg.xtol cfg.nfev (h + cfg.ftol))
    {s : ℝ} (hs : s ∈ Set.Icc 0 S) (hs' : s + h ∈ Set.Icc 0 S) (hω : ‖γ s - γ (s + h)‖ ≤ ρ / 2) {x : Fin (n + 1) → ℝ}
    (hx : Nearby c a j k γ R cfg.ftol s x) (hb : Carried c bars ef a b) {dxmax0 : List ℝ} (hdx0 : dxmax0 ≠ [])
    {fuel : Nat} (hfuel : 1 ≤ fuel) (jPre q : Int) :
    ∃ s', increment env (modelProblem c) cfg dxmax0 fuel ⟨List.ofFn x, List.ofFn d, j, jPre, q, b⟩ = .ok (s', .accepted) ∧
      s'.dxmax = List.ofFn d ∧ s'.j = j ∧ Carried c bars ef a s'.a ∧
      ∃ y, s'.x = List.ofFn y ∧ Nearby c a j k γ R cfg.ftol (s + h) y := by
  set V0 : List ℝ := List.replicate (n + 1) 0 with hV0d
  have hV0 : V0.length = n + 1 := by simp [hV0d]
  have hxl : (List.ofFn x).length = n + 1 := by simp
  have hblpf : b.lpf.isSome = true := hb.ready.base.lpf
  have hbf0 : b.f0red = b.DOF1.map fun p => ef.forces.getD p 0 := by rw [hb.f0red, hb.dof1]; exact hf0
  set σ : ℝ := (j.sign : ℝ) with hσ
  have hσ1 : |σ| = 1 := by
    rw [hσ, ← Int.cast_abs, Int.abs_sign_of_ne_zero (by omega)]
    simp
  set Vmax := x k + d k * Flt.ofInt j.sign with hVmax
  have hVγ : Vmax = γ (s + h) k := by
    rw [hVmax, hd, hx.control, hctl s hs, hctl _ hs']
    show γ 0 k + s * σ + h * σ = γ 0 k + (s + h) * σ
    ring
  obtain ⟨A, ε, M, hMM, ht, hsm⟩ := hT (s + h) hs'
  have hM := ht.pos
  have hres : sysRes c b n (List.ofFn x) j Vmax = sysRes c a n V0 j Vmax := hb.sysRes he hn hxl hV0 hj Vmax
  have htame : Tame (sysRes c b n (List.ofFn x) j Vmax) (sysMat c b n j) A (γ (s + h)) ρ ε M := by
    have h1 : Tame (sysRes c a n V0 j Vmax) (sysMat c a n j) A (γ (s + h)) ρ ε M :=
      ht.shift fun p q => sysRes_shift he hn hV0 hj Vmax 0 p q
    rw [hres]
    exact ⟨h1.diff, fun y hy v => by rw [hb.sysMat he hl hf0 hn hj (hsm y hy)]; exact h1.matrix y hy v, h1.below, h1.pos,
      h1.eps, h1.small⟩
  have hfirst : ∀ (y : Fin (n + 1) → ℝ) (m : Fin n), sysRes c b n (List.ofFn x) j Vmax y m.castSucc =
      sysRes c a n V0 j 0 y m.castSucc := fun y m => by rw [hres]; exact sysRes_first he hn hV0 hV0 hj hj Vmax 0 y m
  have hlast : ∀ y : Fin (n + 1) → ℝ, sysRes c b n (List.ofFn x) j Vmax y (Fin.last n) = y k - Vmax := fun y => by
    rw [hres]; exact sysRes_last he hn hV0 hj Vmax y
  have hzero : ‖sysRes c b n (List.ofFn x) j Vmax (γ (s + h))‖ ≤ η := by
    refine (pi_norm_le_iff_of_nonneg hη0).2 fun m => ?_
    refine Fin.lastCases ?_ (fun m => ?_) m
    · rw [hlast, hVγ, sub_self, norm_zero]; exact hη0
    · rw [hfirst, Real.norm_eq_abs]; exact hη _ hs' m
  have hφ : ‖sysRes c b n (List.ofFn x) j Vmax x‖ ≤ h + cfg.ftol := by
    refine (pi_norm_le_iff_of_nonneg (by positivity)).2 fun m => ?_
    refine Fin.lastCases ?_ (fun m => ?_) m
    · rw [hlast, hVmax, hd, Real.norm_eq_abs, sub_add_cancel_left, abs_neg, abs_mul]
      show |h| * |σ| ≤ _
      rw [hσ1, abs_of_pos hh]
      linarith
    · rw [hfirst, Real.norm_eq_abs]
      have := hx.residual m
      linarith
  have hMφ : M * ‖sysRes c b n (List.ofFn x) j Vmax x‖ ≤ M0 * (h + cfg.ftol) :=
    mul_le_mul hMM hφ (norm_nonneg _) hM0.le
  have hxz : ‖x - γ (s + h)‖ ≤ R + ρ / 2 := by
    calc ‖x - γ (s + h)‖ = ‖(x - γ s) + (γ s - γ (s + h))‖ := by congr 1; abel
      _ ≤ _ := norm_add_le _ _
      _ ≤ _ := add_le_add hx.close hω
  have hstart : ‖x - γ (s + h)‖ + 4 * M * ‖sysRes c b n (List.ofFn x) j Vmax x‖ ≤ ρ := by linarith
  have hquad : Quad (sysRes c b n (List.ofFn x) j Vmax) (sysMat c b n j) (γ (s + h)) ρ Λ := by
    intro p q hp hq
    rw [hres, sysRes_shift he hn hV0 hj Vmax 0, hb.sysMat he hl hf0 hn hj (hsm p hp)]
    exact hQ (s + h) hs' p q hp hq
  obtain ⟨a3, o, y, g1, g2, g3, g4, g5, g6, g7⟩ := newton_quick (model_computes hb.eval hblpf hbf0 hn hxl hj Vmax) hsp htame
    hMM hΛ hquad (nfev := cfg.nfev - 0) (by rw [sub_zero]; push_cast; exact hN) (Trial.refl b) hstart hφ
  have hyk : y k = Vmax := control_exact hb.eval hblpf hbf0 hn hxl hj g7
  have hyρ : ‖y - γ (s + h)‖ ≤ ρ := by
    calc ‖y - γ (s + h)‖ = ‖(y - x) + (x - γ (s + h))‖ := by congr 1; abel
      _ ≤ _ := norm_add_le _ _
      _ ≤ _ := by linarith
  have hφy : ‖sysRes c b n (List.ofFn x) j Vmax y‖ ≤ cfg.ftol := ((norm_le_vnorm _).trans_lt g6).le
  have hpre : predictor env (modelProblem c) cfg ⟨List.ofFn x, List.ofFn d, j, jPre, q, b⟩ =
      .ok ⟨false, 0, j, jPre, [], 0, b⟩ := by
    unfold predictor
    rw [if_neg (by rw [hjf]; simp)]
    rfl
  have hst : (if (0 : Int) = 0 ∧ jPre ≠ 0 ∧ cfg.jFixed = false then
      vadd (List.ofFn x) (([] : List ℝ).map fun u => u / Flt.abs (0 : ℝ)) else List.ofFn x) = List.ofFn x := by
    rw [if_neg (by rw [hjf]; simp)]
  obtain ⟨st', hat, hy⟩ := attempt_accepts hb.eval hn hn1 hA (cfg := cfg)
    (rc := ⟨List.ofFn x, dxmax0, jPre, [], 0⟩) (st := ⟨List.ofFn x, 0, 0, List.ofFn d, j, q, b⟩)
    (x := x) (y := y) (d := d) rfl rfl hdx0 hj hst g1 g2 g3 g4
    (Or.inl ⟨hjf, by
      rw [Pi.sub_apply, hyk, hVmax, add_sub_cancel_left, hd, mul_div_right_comm, div_self hh.ne', one_mul]
      show |σ| ≤ _
      rw [hσ1]
      exact hdx⟩)
  obtain ⟨s', hs1, hs2⟩ := increment_accepts hpre rfl hat hy hfuel
  have hinc := increment_ok hs1
  refine ⟨s', hs1, hinc.dxmax_fixed hsc, hinc.j_fixed hjf, hb.next hn hinc rfl (by simp) hs2 (hsm y hyρ), y, hs2, ?_, ?_, ?_⟩
  · have := htame.near_small hρ.le hzero hyρ hφy
    refine this.trans (le_trans ?_ hR)
    gcongr
  · rw [hyk, hVγ]
  · intro m
    rw [← hfirst]
    have := norm_le_pi_norm (sysRes c b n (List.ofFn x) j Vmax y) m.castSucc
    rw [Real.norm_eq_abs] at this
    exact this.trans hφy

/-- The increment loop along the curve. -/
theorem rough_loop (he : Evaluable c bars a ef) (hl : a.lpf.isSome = true)
    (hf0 : a.f0red = a.DOF1.map fun p => ef.forces.getD p 0) {n : Nat} (hn : c.ndof1 = n)
    (hn1 : 1 ≤ n) {j : Int} {k : Fin (n + 1)} (hj : j.natAbs = k + 1) {S : ℝ} {γ : ℝ → Fin (n + 1) → ℝ}
    (hctl : ∀ s ∈ Set.Icc 0 S, γ s k = γ 0 k + s * (j.sign : ℝ)) {η : ℝ} (hη0 : 0 ≤ η)
    (hη : ∀ s ∈ Set.Icc 0 S, ∀ m : Fin n, |sysRes c a n (List.replicate (n + 1) 0) j 0 (γ s) m.castSucc| ≤ η)
    {ρ M0 : ℝ} (hρ : 0 < ρ) (hM0 : 0 < M0)
    (hT : ∀ s ∈ Set.Icc 0 S, ∃ A ε M, M ≤ M0 ∧
      Tame (sysRes c a n (List.replicate (n + 1) 0) j 0) (sysMat c a n j) A (γ s) ρ ε M ∧
      ∀ y, ‖y - γ s‖ ≤ ρ → CalmAt c bars a y) {Λ : ℝ} (hΛ : 0 ≤ Λ)
    (hQ : ∀ s ∈ Set.Icc 0 S, Quad (sysRes c a n (List.replicate (n + 1) 0) j 0) (sysMat c a n j) (γ s) ρ Λ)
    {env : Env ℝ} (hsp : SolvesRegular env.spsolve (n + 1)) (hA : ArgMax env) {cfg : PFCfg ℝ} (hjf : cfg.jFixed = true)
    (hsc : cfg.stepcontrol = false) (hdx : 1 ≤ cfg.dxtol) (hft : 0 < cfg.ftol) {d : Fin (n + 1) → ℝ} {h : ℝ} (hd : d k = h)
    (hh : 0 < h) {R : ℝ} (hR : 2 * M0 * (cfg.ftol + η) ≤ R) (hsmall : R + 4 * M0 * (h + cfg.ftol) ≤ ρ / 2)
    (hN : Enough (((n : ℝ) + 1) * (1 + 2 * M0)) (4 * Λ * M0 ^ 2) cfg.ftol cfg.xtol cfg.nfev (h + cfg.ftol))
    (hω : ∀ s ∈ Set.Icc 0 S, s + h ∈ Set.Icc 0 S → ‖γ s - γ (s + h)‖ ≤ ρ / 2)
    (hlim : ∀ p, cfg.xlimit = some p → IndexOK (n + 1) p.1) {dxmax0 : List ℝ} (hdx0 : dxmax0 ≠ []) {fuel : Nat} (hfuel : 1 ≤ fuel) :
    ∀ (i : Nat) (s : ℝ) (x : Fin (n + 1) → ℝ) (b : Analysis ℝ) (jPre q : Int), 0 ≤ s → s + i * h ≤ S →
      Nearby c a j k γ R cfg.ftol s x → Carried c bars ef a b →
      ∃ s' recs, incrLoop env (modelProblem c) cfg dxmax0 fuel i ⟨List.ofFn x, List.ofFn d, j, jPre, q, b⟩ = .ok (s', recs) ∧
        (∀ (m : Nat) (r : Rec ℝ), recs[m]? = some r → r.out = .accepted ∧ Carried c bars ef a r.a ∧
          ∃ y, r.x = List.ofFn y ∧ Nearby c a j k γ R cfg.ftol (s + (m + 1) * h) y) ∧
        (recs.length = i ∨ ∃ r, recs.getLast? = some r ∧ limitReached r.x cfg.xlimit = .ok true) := by
  intro i
  induction i with
  | zero =>
    intro s x b jPre q _ _ _ _
    exact ⟨_, [], rfl, fun m r hm => by simp at hm, Or.inl rfl⟩
  | succ i ih =>
    intro s x b jPre q hs0 hsS hx hb
    push_cast at hsS
    have hih : 0 ≤ i * h := by positivity
    have hs : s ∈ Set.Icc 0 S := ⟨hs0, by linarith⟩
    have hs' : s + h ∈ Set.Icc 0 S := ⟨by linarith, by linarith⟩
    obtain ⟨s1, e1, e2, e3, e4, y, e5, e6⟩ := rough_increment he hl hf0 hn hn1 hj hctl hη0 hη hρ hM0 hT hΛ hQ hsp hA hjf hsc hdx hft
      hd hh hR hsmall hN hs hs' (hω s hs hs') hx hb hdx0 hfuel jPre q
    obtain ⟨lim, hlm⟩ := limitReached_total (x := s1.x) (l := cfg.xlimit) (by rw [e5]; simpa using hlim)
    have hone : ∀ (m : Nat) (r : Rec ℝ), [(⟨s1.x, s1.a, .accepted⟩ : Rec ℝ)][m]? = some r → r.out = .accepted ∧
          Carried c bars ef a r.a ∧ ∃ y, r.x = List.ofFn y ∧ Nearby c a j k γ R cfg.ftol (s + (m + 1) * h) y := by
      intro m r hm
      cases m with
      | zero =>
        cases hm
        exact ⟨rfl, e4, y, e5, by rw [Nat.cast_zero, zero_add, one_mul]; exact e6⟩
      | succ m => simp at hm
    cases lim with
    | true =>
      refine ⟨s1, [⟨s1.x, s1.a, .accepted⟩], ?_, hone, Or.inr ⟨_, rfl, hlm⟩⟩
      unfold incrLoop
      simp only [e1, py_bind_ok, Outcome.isStop, hlm, if_true]
      rfl
    | false =>
      obtain ⟨sx, sd, sj, sp, sb, sa⟩ := s1
      simp only at e2 e3 e4 e5 hone hlm
      subst e2 e3 e5
      obtain ⟨s2, recs, g1, g2, g3⟩ := ih (s + h) y sa sp sb (by linarith) (by linarith) e6 e4
      refine ⟨s2, ⟨List.ofFn y, sa, .accepted⟩ :: recs, ?_, ?_, ?_⟩
      · rw [incrLoop]
        simp only [e1, py_bind_ok, Outcome.isStop, hlm, g1]
        rfl
      · intro m r hm
        cases m with
        | zero => exact hone 0 r hm
        | succ m =>
          obtain ⟨p1, p0, y', p2, p3⟩ := g2 m r (by simpa using hm)
          refine ⟨p1, p0, y', p2, ?_⟩
          have : s + ((m + 1 : Nat) + 1) * h = s + h + (m + 1) * h := by push_cast; ring
          rw [this]
          exact p3
      · rcases g3 with g3 | ⟨r, g3, g4⟩
        · left; simp [g3]
        · right
          refine ⟨r, ?_, g4⟩
          rw [List.getLast?_cons, g3]
          rfl

/-- Path following along the curve, from a point near its start. -/
theorem rough_pathfollow (he : Evaluable c bars a ef) (hl : a.lpf.isSome = true)
    (hf0 : a.f0red = a.DOF1.map fun p => ef.forces.getD p 0) {n : Nat} (hn : c.ndof1 = n)
    (hn1 : 1 ≤ n) {j : Int} {k : Fin (n + 1)} (hj : j.natAbs = k + 1) {S : ℝ} {γ : ℝ → Fin (n + 1) → ℝ}
    (hctl : ∀ s ∈ Set.Icc 0 S, γ s k = γ 0 k + s * (j.sign : ℝ)) {η : ℝ} (hη0 : 0 ≤ η)
    (hη : ∀ s ∈ Set.Icc 0 S, ∀ m : Fin n, |sysRes c a n (List.replicate (n + 1) 0) j 0 (γ s) m.castSucc| ≤ η)
    {ρ M0 : ℝ} (hρ : 0 < ρ) (hM0 : 0 < M0)
    (hT : ∀ s ∈ Set.Icc 0 S, ∃ A ε M, M ≤ M0 ∧
      Tame (sysRes c a n (List.replicate (n + 1) 0) j 0) (sysMat c a n j) A (γ s) ρ ε M ∧
      ∀ y, ‖y - γ s‖ ≤ ρ → CalmAt c bars a y) {Λ : ℝ} (hΛ : 0 ≤ Λ)
    (hQ : ∀ s ∈ Set.Icc 0 S, Quad (sysRes c a n (List.replicate (n + 1) 0) j 0) (sysMat c a n j) (γ s) ρ Λ)
    {env : Env ℝ} (hsp : SolvesRegular env.spsolve (n + 1)) (hA : ArgMax env) {cfg : PFCfg ℝ} (hjf : cfg.jFixed = true)
    (hcj : cfg.j = some j) (hsc : cfg.stepcontrol = false) (hdx : 1 ≤ cfg.dxtol) (hft : 0 < cfg.ftol) {h : ℝ}
    (hh : 0 < h) {R : ℝ} (hR : 2 * M0 * (cfg.ftol + η) ≤ R) (hsmall : R + 4 * M0 * (h + cfg.ftol) ≤ ρ / 2)
    (hN : Enough (((n : ℝ) + 1) * (1 + 2 * M0)) (4 * Λ * M0 ^ 2) cfg.ftol cfg.xtol cfg.nfev (h + cfg.ftol))
    (hω : ∀ s ∈ Set.Icc 0 S, s + h ∈ Set.Icc 0 S → ‖γ s - γ (s + h)‖ ≤ ρ / 2)
    (hlim : ∀ p, cfg.xlimit = some p → 1 ≤ p.1 ∧ p.1 ≤ n + 1) {fuel : Nat} (hfuel : 1 ≤ fuel) {x : List ℝ}
    {x0 : Fin (n + 1) → ℝ} (hx : List.ofFn x0 = x ++ [0]) (hlen : (initDxmax (x ++ [0]) cfg.dxmax).length = n + 1)
    (hdk : (initDxmax (x ++ [0]) cfg.dxmax)[(k : Nat)]? = some h) (hinc : cfg.incs * h ≤ S)
    (hstart : Nearby c a j k γ R cfg.ftol 0 x0) (hb : Carried c bars ef a b) :
    ∃ o, pathfollow env (modelProblem c) cfg fuel x b = .ok o ∧
      (∀ (m : Nat) (r : Rec ℝ), o.recs[m]? = some r → r.out = .accepted ∧ Carried c bars ef a r.a ∧
        ∃ y : Fin (n + 1) → ℝ, r.x = List.ofFn y ∧ Nearby c a j k γ R cfg.ftol ((m + 1) * h) y) ∧
      (o.recs.length = cfg.incs ∨ ∃ r v p, o.recs.getLast? = some r ∧ cfg.xlimit = some p ∧
        r.x[(p.1 - 1).toNat]? = some v ∧ p.2 < |v|) := by
  obtain ⟨d, hd⟩ := exists_ofFn hlen
  have hdk' : d k = h := by
    rw [hd, List.getElem?_ofFn, dif_pos k.isLt] at hdk
    exact Option.some.inj hdk
  obtain ⟨s', recs, e1, e2, e3⟩ := rough_loop he hl hf0 hn hn1 hj hctl hη0 hη hρ hM0 hT hΛ hQ hsp hA hjf hsc hdx hft hdk' hh
    hR hsmall hN hω
    (fun p hp => by
      have := hlim p hp
      unfold IndexOK
      omega)
    (dxmax0 := List.ofFn d) (by simp [List.ofFn_succ]) hfuel cfg.incs 0 x0 b (if cfg.jPre then 1 else 0) 4 le_rfl
    (by rw [zero_add]; exact hinc) hstart hb
  refine ⟨⟨x ++ [0], b, recs, s'.a⟩, ?_, ?_, ?_⟩
  · unfold pathfollow
    have hsj : startJ cfg (x ++ [0]) = .ok j := by
      unfold startJ
      rw [if_pos hjf, hcj]
    have hxl : (x ++ [(0 : ℝ)]).length = n + 1 := by rw [← hx]; simp
    simp only [hsj, py_bind_ok]
    rw [if_neg (by rw [hlen, hxl]; simp), hd, ← hx, e1]
    rfl
  · intro m r hm
    obtain ⟨p1, p0, y, p2, p3⟩ := e2 m r hm
    rw [zero_add] at p3
    exact ⟨p1, p0, y, p2, p3⟩
  · rcases e3 with e3 | ⟨r, e3, e4⟩
    · exact Or.inl e3
    · right
      cases hxl : cfg.xlimit with
      | none => rw [hxl] at e4; cases e4
      | some p =>
        rw [hxl] at e4
        unfold limitReached at e4
        obtain ⟨v, e5, e6⟩ := py_bind_eq_ok.1 e4
        have hp := hlim p hxl
        have : p.1 - 1 = (((p.1 - 1).toNat : Nat) : Int) := by omega
        rw [this] at e5
        exact ⟨r, v, p, e3, rfl, pyGet_ok_nat.1 e5, of_decide_eq_true (Except.ok.inj e6)⟩

end

end TrussPy
