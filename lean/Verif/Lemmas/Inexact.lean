import Verif.Spec.Inexact
import Verif.Lemmas.Follow
/-!
# Newton iterations and path following with an inexact linear solver
-/

set_option linter.unusedSectionVars false

namespace TrussPy

theorem SolvesRegular.within {sp : List (List ℝ) → List ℝ → Py (List ℝ)} {n : Nat} (h : SolvesRegular sp n) {θ : ℝ} (hθ : 0 ≤ θ) :
    SolvesWithin sp n θ := by
  intro K b h1 h2 h3 h4
  obtain ⟨dx, e1, e2, e3⟩ := h K b h1 h2 h3 h4
  refine ⟨dx, e1, e2, fun r hr e he => ?_⟩
  rw [e3, List.zipWith_self] at he
  obtain ⟨v, hv, rfl⟩ := List.mem_map.1 he
  rw [sub_self, abs_zero]
  exact mul_nonneg hθ ((abs_nonneg v).trans (hr v hv))

/-- The solution of one Newton system, as vectors. -/
theorem SolvesWithin.step {sp : List (List ℝ) → List ℝ → Py (List ℝ)} {n : Nat} {θ : ℝ} (hsp : SolvesWithin sp n θ) (hθ : 0 ≤ θ)
    {K : List (List ℝ)} {J : Matrix (Fin n) (Fin n) ℝ} (h1 : K.length = n) (h2 : ∀ row ∈ K, row.length = n) (h3 : matOf n K = J)
    (hJ : IsUnit J.det) (v : Fin n → ℝ) :
    ∃ d : Fin n → ℝ, sp K ((List.ofFn v).map fun t => -t) = .ok (List.ofFn d) ∧ ‖J.mulVec d + v‖ ≤ θ * ‖v‖ := by
  obtain ⟨dx, e1, e2, e3⟩ := hsp K ((List.ofFn v).map fun t => -t) h1 h2 (by rw [h3]; exact hJ) (by simp)
  obtain ⟨d, rfl⟩ := exists_ofFn e2
  refine ⟨d, e1, (pi_norm_le_iff_of_nonneg (by positivity)).2 fun i => ?_⟩
  have := e3 ‖v‖ (by
    intro t ht
    rw [List.map_ofFn] at ht
    obtain ⟨q, rfl⟩ := (List.mem_ofFn' _ _).1 ht
    have := norm_le_pi_norm v q
    rw [Real.norm_eq_abs] at this
    show |-(v q)| ≤ _
    rwa [abs_neg]) (J.mulVec d i + v i) (by
    rw [matVec_ofFn h1 h2, h3, List.map_ofFn]
    refine List.mem_iff_getElem.2 ⟨i, by simp, ?_⟩
    simp [List.getElem_zipWith])
  rw [Real.norm_eq_abs]
  exact this

/-- One inexact Newton step. -/
theorem Tame.inexact {n : Nat} {φ : (Fin n → ℝ) → Fin n → ℝ} {J : (Fin n → ℝ) → Matrix (Fin n) (Fin n) ℝ}
    {A : (Fin n → ℝ) →L[ℝ] Fin n → ℝ} {c : Fin n → ℝ} {ρ ε M : ℝ} (h : Tame φ J A c ρ ε M) {x dx : Fin n → ℝ}
    (hx : ‖x - c‖ + 10 * M * ‖φ x‖ ≤ ρ) {θ : ℝ} (hθ : θ ≤ 1 / 8) (hdx : ‖(J x).mulVec dx + φ x‖ ≤ θ * ‖φ x‖) :
    ‖dx‖ ≤ 9 / 4 * M * ‖φ x‖ ∧ ‖φ (x + dx)‖ ≤ 3 / 4 * ‖φ x‖ ∧ ‖x + dx - c‖ + 10 * M * ‖φ (x + dx)‖ ≤ ρ := by
  have hφ := norm_nonneg (φ x)
  have hM := h.pos
  have hMφ : 0 ≤ M * ‖φ x‖ := by positivity
  have hθφ : θ * ‖φ x‖ ≤ 1 / 8 * ‖φ x‖ := mul_le_mul_of_nonneg_right hθ hφ
  have hx0 : ‖x - c‖ ≤ ρ := by nlinarith
  have hJd : ‖(J x).mulVec dx‖ ≤ 9 / 8 * ‖φ x‖ := by
    calc ‖(J x).mulVec dx‖ = ‖((J x).mulVec dx + φ x) - φ x‖ := by congr 1; abel
      _ ≤ _ := norm_sub_le _ _
      _ ≤ _ := by linarith
  have h1 : ‖dx‖ ≤ 9 / 4 * M * ‖φ x‖ := by
    have h0 := h.belowJ hx0 dx
    have : M * ‖(J x).mulVec dx‖ ≤ M * (9 / 8 * ‖φ x‖) := mul_le_mul_of_nonneg_left hJd hM.le
    linarith
  have hd : ‖x + dx - c‖ ≤ ‖x - c‖ + ‖dx‖ := by
    calc ‖x + dx - c‖ = ‖(x - c) + dx‖ := by congr 1; abel
      _ ≤ _ := norm_add_le _ _
  have h2 := h.diff (x + dx) x (by linarith) hx0
  have h3 := h.matrix x hx0 dx
  rw [add_sub_cancel_left] at h2
  have h4 : ‖φ (x + dx)‖ ≤ 2 * (ε * ‖dx‖) + 1 / 8 * ‖φ x‖ := by
    calc ‖φ (x + dx)‖ = ‖((φ (x + dx) - φ x - A dx) - ((J x).mulVec dx - A dx)) + ((J x).mulVec dx + φ x)‖ := by congr 1; abel
      _ ≤ _ := norm_add_le _ _
      _ ≤ (‖φ (x + dx) - φ x - A dx‖ + ‖(J x).mulVec dx - A dx‖) + ‖(J x).mulVec dx + φ x‖ :=
        add_le_add (norm_sub_le _ _) le_rfl
      _ ≤ _ := by linarith
  have h5 : ε * ‖dx‖ ≤ ε * (9 / 4 * M * ‖φ x‖) := mul_le_mul_of_nonneg_left h1 h.eps
  have h6 : M * ε * ‖φ x‖ ≤ 1 / 8 * ‖φ x‖ := mul_le_mul_of_nonneg_right h.small hφ
  have h7 : ‖φ (x + dx)‖ ≤ 3 / 4 * ‖φ x‖ := by
    have : ε * (9 / 4 * M * ‖φ x‖) = 9 / 4 * (M * ε * ‖φ x‖) := by ring
    linarith
  refine ⟨h1, h7, ?_⟩
  have : M * ‖φ (x + dx)‖ ≤ M * (3 / 4 * ‖φ x‖) := mul_le_mul_of_nonneg_left h7 hM.le
  linarith

theorem newtonLoop_inexact {S : Type} {n : Nat} {I : S → Prop} {f : S → List ℝ → Py (S × List ℝ)}
    {df : S → List ℝ → Py (S × List (List ℝ))} {sp : List (List ℝ) → List ℝ → Py (List ℝ)}
    {φ : (Fin n → ℝ) → Fin n → ℝ} {J : (Fin n → ℝ) → Matrix (Fin n) (Fin n) ℝ} (hC : Computes n I f df φ J) {θ : ℝ}
    (hθ0 : 0 ≤ θ) (hθ : θ ≤ 1 / 8) (hsp : SolvesWithin sp n θ) {A : (Fin n → ℝ) →L[ℝ] Fin n → ℝ} {c : Fin n → ℝ} {ρ ε M : ℝ}
    (h : Tame φ J A c ρ ε M) {ftol xtol : ℝ} : ∀ (k : Nat) (m : Int) (s : S) (x : Fin n → ℝ), I s →
      ‖x - c‖ + 10 * M * ‖φ x‖ ≤ ρ → n * ‖φ x‖ * (3 / 4) ^ (k + 1) < ftol → n * (9 / 4 * M * ‖φ x‖) * (3 / 4) ^ k < xtol →
      ∃ s' o y, newtonLoop f df sp ftol xtol (k + 1) m s (List.ofFn x) = .ok (s', o) ∧ I s' ∧ o.success = true ∧
        o.x = List.ofFn y ∧ ‖y - x‖ ≤ 10 * M * ‖φ x‖ ∧ Flt.vnorm (List.ofFn (φ y)) < ftol := by
  intro k
  induction k with
  | zero =>
    intro m s x hI hx hf hxt
    have hx0 : ‖x - c‖ ≤ ρ := by nlinarith [norm_nonneg (φ x), h.pos, mul_nonneg h.pos.le (norm_nonneg (φ x))]
    obtain ⟨s1, K, e1, i1, l1, l2, l3⟩ := hC.matrix s x hI
    obtain ⟨s2, e2, i2⟩ := hC.value s1 x i1
    obtain ⟨d, e3, hdx⟩ := hsp.step hθ0 l1 l2 l3 (h.regular hx0) (φ x)
    obtain ⟨p1, p2, p3⟩ := h.inexact hx hθ hdx
    obtain ⟨s3, e5, i3⟩ := hC.value s2 (x + d) i2
    have c1 : Flt.vnorm (List.ofFn (φ (x + d))) < ftol := by
      refine (vnorm_ofFn_le _).trans_lt ?_
      have : (n : ℝ) * ‖φ (x + d)‖ ≤ n * (3 / 4 * ‖φ x‖) := mul_le_mul_of_nonneg_left p2 (by positivity)
      norm_num at hf
      linarith
    have c2 : Flt.vnorm (List.ofFn d) < xtol := by
      refine (vnorm_ofFn_le _).trans_lt ?_
      have : (n : ℝ) * ‖d‖ ≤ n * (9 / 4 * M * ‖φ x‖) := mul_le_mul_of_nonneg_left p1 (by positivity)
      norm_num at hxt
      linarith
    have hc : (Flt.lt (Flt.vnorm (List.ofFn (φ (x + d)))) ftol && Flt.lt (Flt.vnorm (List.ofFn d)) xtol) = true := by
      rw [Bool.and_eq_true]
      exact ⟨decide_eq_true c1, decide_eq_true c2⟩
    refine ⟨s3, ⟨List.ofFn (x + d), true, m + 1, Flt.vnorm (List.ofFn (φ (x + d))), Flt.vnorm (List.ofFn d)⟩, x + d, ?_, i3, rfl, rfl, ?_, c1⟩
    · rw [newtonLoop]
      simp only [e1, py_bind_ok, e2, e3, List.length_ofFn, ne_eq, not_true_eq_false, if_false, vadd_ofFn, e5, hc, if_true]
      rfl
    · rw [add_sub_cancel_left]
      have : 0 ≤ M * ‖φ x‖ := mul_nonneg h.pos.le (norm_nonneg _)
      linarith
  | succ k ih =>
    intro m s x hI hx hf hxt
    have hx0 : ‖x - c‖ ≤ ρ := by nlinarith [norm_nonneg (φ x), h.pos, mul_nonneg h.pos.le (norm_nonneg (φ x))]
    obtain ⟨s1, K, e1, i1, l1, l2, l3⟩ := hC.matrix s x hI
    obtain ⟨s2, e2, i2⟩ := hC.value s1 x i1
    obtain ⟨d, e3, hdx⟩ := hsp.step hθ0 l1 l2 l3 (h.regular hx0) (φ x)
    obtain ⟨p1, p2, p3⟩ := h.inexact hx hθ hdx
    obtain ⟨s3, e5, i3⟩ := hC.value s2 (x + d) i2
    have hMx : 0 ≤ M * ‖φ x‖ := mul_nonneg h.pos.le (norm_nonneg _)
    have hrun : newtonLoop f df sp ftol xtol (k + 1 + 1) m s (List.ofFn x) =
        if (Flt.lt (Flt.vnorm (List.ofFn (φ (x + d)))) ftol && Flt.lt (Flt.vnorm (List.ofFn d)) xtol) = true then
          .ok (s3, ⟨List.ofFn (x + d), true, m + 1, Flt.vnorm (List.ofFn (φ (x + d))), Flt.vnorm (List.ofFn d)⟩)
        else newtonLoop f df sp ftol xtol (k + 1) (m + 1) s3 (List.ofFn (x + d)) := by
      rw [newtonLoop]
      simp only [e1, py_bind_ok, e2, e3, List.length_ofFn, ne_eq, not_true_eq_false, if_false, vadd_ofFn, e5]
      rfl
    rw [hrun]
    by_cases hc : (Flt.lt (Flt.vnorm (List.ofFn (φ (x + d)))) ftol && Flt.lt (Flt.vnorm (List.ofFn d)) xtol) = true
    · rw [if_pos hc]
      refine ⟨s3, _, x + d, rfl, i3, rfl, rfl, ?_, of_decide_eq_true (Bool.and_eq_true _ _ ▸ hc).1⟩
      rw [add_sub_cancel_left]
      linarith
    · rw [if_neg hc]
      have hq : (0 : ℝ) ≤ (3 / 4) ^ k := by positivity
      have q1 : (n : ℝ) * ‖φ (x + d)‖ * (3 / 4) ^ (k + 1) ≤ n * ‖φ x‖ * (3 / 4) ^ (k + 1 + 1) := by
        have h1 : (n : ℝ) * ‖φ (x + d)‖ ≤ n * (3 / 4 * ‖φ x‖) := mul_le_mul_of_nonneg_left p2 (by positivity)
        have h2 := mul_le_mul_of_nonneg_right h1 (by positivity : (0 : ℝ) ≤ (3 / 4) ^ (k + 1))
        calc _ ≤ _ := h2
          _ = _ := by ring
      have q2 : (n : ℝ) * (9 / 4 * M * ‖φ (x + d)‖) * (3 / 4) ^ k ≤ n * (9 / 4 * M * ‖φ x‖) * (3 / 4) ^ (k + 1) := by
        have h0 : M * ‖φ (x + d)‖ ≤ M * (3 / 4 * ‖φ x‖) := mul_le_mul_of_nonneg_left p2 h.pos.le
        have h1 : (n : ℝ) * (9 / 4 * M * ‖φ (x + d)‖) ≤ n * (9 / 4 * (M * (3 / 4 * ‖φ x‖))) :=
          mul_le_mul_of_nonneg_left (by linarith) (by positivity)
        have h2 := mul_le_mul_of_nonneg_right h1 hq
        calc _ ≤ _ := h2
          _ = _ := by ring
      have q3 : M * ‖φ (x + d)‖ ≤ M * (3 / 4 * ‖φ x‖) := mul_le_mul_of_nonneg_left p2 h.pos.le
      obtain ⟨s', o, y, r1, r2, r3, r4, r5, r6⟩ := ih (m + 1) s3 (x + d) i3 p3 (q1.trans_lt hf) (q2.trans_lt hxt)
      refine ⟨s', o, y, r1, r2, r3, r4, ?_, r6⟩
      calc ‖y - x‖ = ‖(y - (x + d)) + d‖ := by congr 1; abel
        _ ≤ ‖y - (x + d)‖ + ‖d‖ := norm_add_le _ _
        _ ≤ _ := by linarith

/-- The same for `newton`, with a bound on the number of iterations. -/
theorem newton_inexact {S : Type} {n : Nat} {I : S → Prop} {f : S → List ℝ → Py (S × List ℝ)}
    {df : S → List ℝ → Py (S × List (List ℝ))} {sp : List (List ℝ) → List ℝ → Py (List ℝ)}
    {φ : (Fin n → ℝ) → Fin n → ℝ} {J : (Fin n → ℝ) → Matrix (Fin n) (Fin n) ℝ} (hC : Computes n I f df φ J) {θ : ℝ}
    (hθ0 : 0 ≤ θ) (hθ : θ ≤ 1 / 8) (hsp : SolvesWithin sp n θ) {A : (Fin n → ℝ) →L[ℝ] Fin n → ℝ} {c : Fin n → ℝ} {ρ ε M : ℝ}
    (h : Tame φ J A c ρ ε M) {ftol xtol : ℝ} {N : Nat} {nfev : Int} (hN : (N : Int) + 1 ≤ nfev) {s : S} {x : Fin n → ℝ} (hI : I s)
    (hx : ‖x - c‖ + 10 * M * ‖φ x‖ ≤ ρ) (hf : n * ((1 + 3 * M) * ‖φ x‖) * (3 / 4) ^ N < ftol)
    (hxt : n * ((1 + 3 * M) * ‖φ x‖) * (3 / 4) ^ N < xtol) :
      ∃ s' o y, newton f df sp s (List.ofFn x) nfev ftol xtol = .ok (s', o) ∧ I s' ∧ o.success = true ∧
        o.x = List.ofFn y ∧ ‖y - x‖ ≤ 10 * M * ‖φ x‖ ∧ Flt.vnorm (List.ofFn (φ y)) < ftol := by
  obtain ⟨k, hk⟩ : ∃ k : Nat, nfev.toNat = k + 1 := ⟨nfev.toNat - 1, by omega⟩
  have hNk : N ≤ k := by omega
  have hM := h.pos
  have hpow : (3 / 4 : ℝ) ^ k ≤ (3 / 4) ^ N := pow_le_pow_of_le_one (by norm_num) (by norm_num) hNk
  have hpow1 : (3 / 4 : ℝ) ^ (k + 1) ≤ (3 / 4) ^ N := pow_le_pow_of_le_one (by norm_num) (by norm_num) (by omega)
  unfold newton
  rw [hk]
  refine newtonLoop_inexact hC hθ0 hθ hsp h k 0 s x hI hx (lt_of_le_of_lt ?_ hf) (lt_of_le_of_lt ?_ hxt)
  · refine mul_le_mul ?_ hpow1 (by positivity) (by positivity)
    refine mul_le_mul_of_nonneg_left ?_ (by positivity)
    nlinarith [norm_nonneg (φ x), mul_nonneg hM.le (norm_nonneg (φ x))]
  · refine mul_le_mul ?_ hpow (by positivity) (by positivity)
    refine mul_le_mul_of_nonneg_left ?_ (by positivity)
    nlinarith [norm_nonneg (φ x), mul_nonneg hM.le (norm_nonneg (φ x))]

section
variable {c : Ctx ℝ} {bars : List (Bar ℝ)} {a b : Analysis ℝ} {ef : StepForces ℝ}

/-- `x` is a numerical solution belonging to the parameter `s` of the path; the control component has an error too. -/
structure NearTrack (c : Ctx ℝ) (a : Analysis ℝ) {n : Nat} (j : Int) (k : Fin (n + 1)) (γ : ℝ → Fin (n + 1) → ℝ) (L f s : ℝ)
    (x : Fin (n + 1) → ℝ) : Prop where
  close : ‖x - γ s‖ ≤ L * f
  control : |x k - γ s k| ≤ f
  residual : ∀ m : Fin n, |sysRes c a n (List.replicate (n + 1) 0) j 0 x m.castSucc| ≤ f

theorem inexact_increment (he : Evaluable c bars a ef) (hl : a.lpf.isSome = true)
    (hf0 : a.f0red = a.DOF1.map fun p => ef.forces.getD p 0) {n : Nat} (hn : c.ndof1 = n)
    (hn1 : 1 ≤ n) {j : Int} {k : Fin (n + 1)} (hj : j.natAbs = k + 1) {S : ℝ} {γ : ℝ → Fin (n + 1) → ℝ}
    (hP : EquilPath c bars a j k S γ) {ρ M0 : ℝ} (hρ : 0 < ρ) (hM0 : 0 < M0)
    (hT : ∀ s ∈ Set.Icc 0 S, ∃ A ε M, M ≤ M0 ∧
      Tame (sysRes c a n (List.replicate (n + 1) 0) j 0) (sysMat c a n j) A (γ s) ρ ε M ∧
      ∀ y, ‖y - γ s‖ ≤ ρ → CalmAt c bars a y)
    {env : Env ℝ} {θ : ℝ} (hθ0 : 0 ≤ θ) (hθ : θ ≤ 1 / 8) (hsp : SolvesWithin env.spsolve (n + 1) θ) (hA : ArgMax env)
    {cfg : PFCfg ℝ} (hjf : cfg.jFixed = true)
    (hsc : cfg.stepcontrol = false) (hft : 0 < cfg.ftol) {d : Fin (n + 1) → ℝ} {h : ℝ} (hd : d k = h)
    (hh : 0 < h) (hfh : cfg.ftol ≤ h) (hdx : h + cfg.ftol ≤ cfg.dxtol * h) (hsmall : 12 * M0 * cfg.ftol + 10 * M0 * h ≤ ρ / 2) {N : Nat}
    (hN1 : ((n : ℝ) + 1) * (1 + 3 * M0) * (h + cfg.ftol) * (3 / 4) ^ N < cfg.ftol)
    (hN2 : ((n : ℝ) + 1) * (1 + 3 * M0) * (h + cfg.ftol) * (3 / 4) ^ N < cfg.xtol) (hN : (N : Int) + 1 ≤ cfg.nfev)
    {s : ℝ} (hs : s ∈ Set.Icc 0 S) (hs' : s + h + cfg.ftol ≤ S)
    (hω : ∀ t ∈ Set.Icc 0 S, |t - s| ≤ h + cfg.ftol → ‖γ s - γ t‖ ≤ ρ / 2) {x : Fin (n + 1) → ℝ}
    (hx : NearTrack c a j k γ (2 * M0) cfg.ftol s x) (hb : Carried c bars ef a b) {dxmax0 : List ℝ} (hdx0 : dxmax0 ≠ [])
    {fuel : Nat} (hfuel : 1 ≤ fuel) (jPre q : Int) :
    ∃ s', increment env (modelProblem c) cfg dxmax0 fuel ⟨List.ofFn x, List.ofFn d, j, jPre, q, b⟩ = .ok (s', .accepted) ∧
      s'.dxmax = List.ofFn d ∧ s'.j = j ∧ Carried c bars ef a s'.a ∧
      ∃ y t, s'.x = List.ofFn y ∧ t ∈ Set.Icc 0 S ∧ |t - (s + h)| ≤ cfg.ftol ∧ NearTrack c a j k γ (2 * M0) cfg.ftol t y := by
  set V0 : List ℝ := List.replicate (n + 1) 0 with hV0d
  have hV0 : V0.length = n + 1 := by simp [hV0d]
  have hxl : (List.ofFn x).length = n + 1 := by simp
  have hblpf : b.lpf.isSome = true := hb.ready.base.lpf
  have hbf0 : b.f0red = b.DOF1.map fun p => ef.forces.getD p 0 := by rw [hb.f0red, hb.dof1]; exact hf0
  set σ : ℝ := (j.sign : ℝ) with hσ
  have hσ1 : |σ| = 1 := by
    rw [hσ, ← Int.cast_abs, Int.abs_sign_of_ne_zero (by omega)]
    simp
  have hσσ : σ * σ = 1 := by rw [← abs_mul_abs_self, hσ1, one_mul]
  set Vmax := x k + d k * Flt.ofInt j.sign with hVmax
  -- the parameter aimed at
  set t : ℝ := s + h + (x k - γ s k) * σ with htd
  have htd' : |t - (s + h)| ≤ cfg.ftol := by
    rw [htd, add_sub_cancel_left, abs_mul, hσ1, mul_one]
    exact hx.control
  have hab := abs_le.1 htd'
  have ht0 : t ∈ Set.Icc 0 S := ⟨by have := hs.1; linarith, by linarith⟩
  have hts : |t - s| ≤ h + cfg.ftol := by
    rw [abs_le]
    constructor <;> linarith
  have hVγ : Vmax = γ t k := by
    rw [hVmax, hd, hP.control t ht0]
    have h1 := hP.control s hs
    show x k + h * σ = γ 0 k + t * σ
    have h2 : γ s k = γ 0 k + s * σ := h1
    have h3 : t * σ = s * σ + h * σ + (x k - γ s k) * (σ * σ) := by rw [htd]; ring
    rw [h3, hσσ]
    linarith
  obtain ⟨A, ε, M, hMM, ht, hsm⟩ := hT t ht0
  have hM := ht.pos
  have hres : sysRes c b n (List.ofFn x) j Vmax = sysRes c a n V0 j Vmax := hb.sysRes he hn hxl hV0 hj Vmax
  have htame : Tame (sysRes c b n (List.ofFn x) j Vmax) (sysMat c b n j) A (γ t) ρ ε M := by
    have h1 : Tame (sysRes c a n V0 j Vmax) (sysMat c a n j) A (γ t) ρ ε M :=
      ht.shift fun p q => sysRes_shift he hn hV0 hj Vmax 0 p q
    rw [hres]
    exact ⟨h1.diff, fun y hy v => by rw [hb.sysMat he hl hf0 hn hj (hsm y hy)]; exact h1.matrix y hy v, h1.below, h1.pos,
      h1.eps, h1.small⟩
  have hfirst : ∀ (y : Fin (n + 1) → ℝ) (m : Fin n), sysRes c b n (List.ofFn x) j Vmax y m.castSucc =
      sysRes c a n V0 j 0 y m.castSucc := fun y m => by rw [hres]; exact sysRes_first he hn hV0 hV0 hj hj Vmax 0 y m
  have hlast : ∀ y : Fin (n + 1) → ℝ, sysRes c b n (List.ofFn x) j Vmax y (Fin.last n) = y k - Vmax := fun y => by
    rw [hres]; exact sysRes_last he hn hV0 hj Vmax y
  have hzero : sysRes c b n (List.ofFn x) j Vmax (γ t) = 0 := by
    funext m
    refine Fin.lastCases ?_ (fun m => ?_) m
    · rw [hlast, hVγ, sub_self]; rfl
    · rw [hfirst, path_zero he hn hj hP ht0 hV0 0 m]; rfl
  have hφ : ‖sysRes c b n (List.ofFn x) j Vmax x‖ ≤ h + cfg.ftol := by
    refine (pi_norm_le_iff_of_nonneg (by positivity)).2 fun m => ?_
    refine Fin.lastCases ?_ (fun m => ?_) m
    · rw [hlast, hVmax, hd, Real.norm_eq_abs, sub_add_cancel_left, abs_neg, abs_mul]
      show |h| * |σ| ≤ _
      rw [hσ1, abs_of_pos hh]
      linarith
    · rw [hfirst, Real.norm_eq_abs]
      have := hx.residual m
      linarith
  have hMφ : M * ‖sysRes c b n (List.ofFn x) j Vmax x‖ ≤ M0 * (h + cfg.ftol) :=
    mul_le_mul hMM hφ (norm_nonneg _) hM0.le
  have hxz : ‖x - γ t‖ ≤ 2 * M0 * cfg.ftol + ρ / 2 := by
    calc ‖x - γ t‖ = ‖(x - γ s) + (γ s - γ t)‖ := by congr 1; abel
      _ ≤ _ := norm_add_le _ _
      _ ≤ _ := add_le_add hx.close (hω t ht0 hts)
  have hstart : ‖x - γ t‖ + 10 * M * ‖sysRes c b n (List.ofFn x) j Vmax x‖ ≤ ρ := by linarith
  have hit : ((n + 1 : Nat) : ℝ) * ((1 + 3 * M) * ‖sysRes c b n (List.ofFn x) j Vmax x‖) * (3 / 4) ^ N ≤
      ((n : ℝ) + 1) * (1 + 3 * M0) * (h + cfg.ftol) * (3 / 4) ^ N := by
    push_cast
    refine mul_le_mul_of_nonneg_right ?_ (by positivity)
    rw [mul_assoc]
    refine mul_le_mul_of_nonneg_left ?_ (by positivity)
    linarith
  obtain ⟨a3, o, y, g1, g2, g3, g4, g5, g6⟩ := newton_inexact (model_computes hb.eval hblpf hbf0 hn hxl hj Vmax) hθ0 hθ hsp htame
    (N := N) (nfev := cfg.nfev - 0) (by omega) (Trial.refl b) hstart (hit.trans_lt hN1) (hit.trans_lt hN2)
  have hφy : ‖sysRes c b n (List.ofFn x) j Vmax y‖ ≤ cfg.ftol := ((norm_le_vnorm _).trans_lt g6).le
  have hyk : |y k - Vmax| ≤ cfg.ftol := by
    have := norm_le_pi_norm (sysRes c b n (List.ofFn x) j Vmax y) (Fin.last n)
    rw [hlast, Real.norm_eq_abs] at this
    exact this.trans hφy
  have hyρ : ‖y - γ t‖ ≤ ρ := by
    calc ‖y - γ t‖ = ‖(y - x) + (x - γ t)‖ := by congr 1; abel
      _ ≤ _ := norm_add_le _ _
      _ ≤ _ := by linarith
  have hpre : predictor env (modelProblem c) cfg ⟨List.ofFn x, List.ofFn d, j, jPre, q, b⟩ =
      .ok ⟨false, 0, j, jPre, [], 0, b⟩ := by
    unfold predictor
    rw [if_neg (by rw [hjf]; simp)]
    rfl
  have hst : (if (0 : Int) = 0 ∧ jPre ≠ 0 ∧ cfg.jFixed = false then
      vadd (List.ofFn x) (([] : List ℝ).map fun u => u / Flt.abs (0 : ℝ)) else List.ofFn x) = List.ofFn x := by
    rw [if_neg (by rw [hjf]; simp)]
  obtain ⟨st', hat, hy⟩ := attempt_accepts hb.eval hn hn1 hA (cfg := cfg)
    (rc := ⟨List.ofFn x, dxmax0, jPre, [], 0⟩) (st := ⟨List.ofFn x, 0, 0, List.ofFn d, j, q, b⟩)
    (x := x) (y := y) (d := d) rfl rfl hdx0 hj hst g1 g2 g3 g4
    (Or.inl ⟨hjf, by
      have hyx : |y k - x k| ≤ h + cfg.ftol := by
        calc |y k - x k| = |(y k - Vmax) + h * σ| := by
              congr 1
              rw [hVmax, hd]
              show _ = y k - (x k + h * σ) + h * σ
              ring
          _ ≤ |y k - Vmax| + |h * σ| := abs_add_le _ _
          _ ≤ _ := by rw [abs_mul, hσ1, abs_of_pos hh]; linarith
      rw [Pi.sub_apply, hd, abs_div, abs_of_pos hh, div_le_iff₀ hh]
      exact hyx.trans hdx⟩)
  obtain ⟨s', hs1, hs2⟩ := increment_accepts hpre rfl hat hy hfuel
  have hinc := increment_ok hs1
  refine ⟨s', hs1, hinc.dxmax_fixed hsc, hinc.j_fixed hjf, hb.next hn hinc rfl (by simp) hs2 (hsm y hyρ), y, t, hs2, ht0, htd',
    ?_, ?_, ?_⟩
  · have := htame.near_zero hρ.le hzero hyρ hφy
    refine this.trans ?_
    gcongr
  · rw [← hVγ]
    exact hyk
  · intro m
    rw [← hfirst]
    have := norm_le_pi_norm (sysRes c b n (List.ofFn x) j Vmax y) m.castSucc
    rw [Real.norm_eq_abs] at this
    exact this.trans hφy

/-- The increment loop along the path. -/
theorem inexact_loop (he : Evaluable c bars a ef) (hl : a.lpf.isSome = true)
    (hf0 : a.f0red = a.DOF1.map fun p => ef.forces.getD p 0) {n : Nat} (hn : c.ndof1 = n)
    (hn1 : 1 ≤ n) {j : Int} {k : Fin (n + 1)} (hj : j.natAbs = k + 1) {S : ℝ} {γ : ℝ → Fin (n + 1) → ℝ}
    (hP : EquilPath c bars a j k S γ) {ρ M0 : ℝ} (hρ : 0 < ρ) (hM0 : 0 < M0)
    (hT : ∀ s ∈ Set.Icc 0 S, ∃ A ε M, M ≤ M0 ∧
      Tame (sysRes c a n (List.replicate (n + 1) 0) j 0) (sysMat c a n j) A (γ s) ρ ε M ∧
      ∀ y, ‖y - γ s‖ ≤ ρ → CalmAt c bars a y)
    {env : Env ℝ} {θ : ℝ} (hθ0 : 0 ≤ θ) (hθ : θ ≤ 1 / 8) (hsp : SolvesWithin env.spsolve (n + 1) θ) (hA : ArgMax env)
    {cfg : PFCfg ℝ} (hjf : cfg.jFixed = true)
    (hsc : cfg.stepcontrol = false) (hft : 0 < cfg.ftol) {d : Fin (n + 1) → ℝ} {h : ℝ} (hd : d k = h)
    (hh : 0 < h) (hfh : cfg.ftol ≤ h) (hdx : h + cfg.ftol ≤ cfg.dxtol * h) (hsmall : 12 * M0 * cfg.ftol + 10 * M0 * h ≤ ρ / 2) {N : Nat}
    (hN1 : ((n : ℝ) + 1) * (1 + 3 * M0) * (h + cfg.ftol) * (3 / 4) ^ N < cfg.ftol)
    (hN2 : ((n : ℝ) + 1) * (1 + 3 * M0) * (h + cfg.ftol) * (3 / 4) ^ N < cfg.xtol) (hN : (N : Int) + 1 ≤ cfg.nfev)
    (hω : ∀ s ∈ Set.Icc 0 S, ∀ t ∈ Set.Icc 0 S, |t - s| ≤ h + cfg.ftol → ‖γ s - γ t‖ ≤ ρ / 2)
    (hlim : ∀ p, cfg.xlimit = some p → IndexOK (n + 1) p.1) {dxmax0 : List ℝ} (hdx0 : dxmax0 ≠ []) {fuel : Nat} (hfuel : 1 ≤ fuel) :
    ∀ (i : Nat) (s : ℝ) (x : Fin (n + 1) → ℝ) (b : Analysis ℝ) (jPre q : Int), 0 ≤ s → s + i * (h + cfg.ftol) ≤ S →
      NearTrack c a j k γ (2 * M0) cfg.ftol s x → Carried c bars ef a b →
      ∃ s' recs, incrLoop env (modelProblem c) cfg dxmax0 fuel i ⟨List.ofFn x, List.ofFn d, j, jPre, q, b⟩ = .ok (s', recs) ∧
        (∀ (m : Nat) r, recs[m]? = some r → r.out = .accepted ∧
          ∃ y t, r.x = List.ofFn y ∧ t ∈ Set.Icc 0 S ∧ |t - (s + (m + 1) * h)| ≤ (m + 1) * cfg.ftol ∧
            NearTrack c a j k γ (2 * M0) cfg.ftol t y) ∧
        (recs.length = i ∨ ∃ r, recs.getLast? = some r ∧ limitReached r.x cfg.xlimit = .ok true) := by
  intro i
  induction i with
  | zero =>
    intro s x b jPre q _ _ _ _
    exact ⟨_, [], rfl, fun m r hm => by simp at hm, Or.inl rfl⟩
  | succ i ih =>
    intro s x b jPre q hs0 hsS hx hb
    push_cast at hsS
    have hih : 0 ≤ i * (h + cfg.ftol) := by positivity
    have hs : s ∈ Set.Icc 0 S := ⟨hs0, by linarith⟩
    obtain ⟨s1, e1, e2, e3, e4, y, t, e5, et1, et2, e6⟩ := inexact_increment he hl hf0 hn hn1 hj hP hρ hM0 hT hθ0 hθ hsp hA hjf hsc
      hft hd hh hfh hdx hsmall hN1 hN2 hN hs (by linarith) (hω s hs) hx hb hdx0 hfuel jPre q
    obtain ⟨lim, hlm⟩ := limitReached_total (x := s1.x) (l := cfg.xlimit) (by rw [e5]; simpa using hlim)
    have hone : ∀ m : Nat, ∀ r, [(⟨s1.x, s1.a, .accepted⟩ : Rec ℝ)][m]? = some r → r.out = .accepted ∧
          ∃ y t, r.x = List.ofFn y ∧ t ∈ Set.Icc 0 S ∧ |t - (s + (m + 1) * h)| ≤ (m + 1) * cfg.ftol ∧
            NearTrack c a j k γ (2 * M0) cfg.ftol t y := by
      intro m r hm
      cases m with
      | zero =>
        cases hm
        exact ⟨rfl, y, t, e5, et1, by rw [Nat.cast_zero, zero_add, one_mul, one_mul]; exact et2, e6⟩
      | succ m => simp at hm
    cases lim with
    | true =>
      refine ⟨s1, [⟨s1.x, s1.a, .accepted⟩], ?_, hone, Or.inr ⟨_, rfl, hlm⟩⟩
      unfold incrLoop
      simp only [e1, py_bind_ok, Outcome.isStop, hlm, if_true]
      rfl
    | false =>
      obtain ⟨sx, sd, sj, sp, sb, sa⟩ := s1
      simp only at e2 e3 e4 e5 hone hlm
      subst e2 e3 e5
      have hab := abs_le.1 et2
      obtain ⟨s2, recs, g1, g2, g3⟩ := ih t y sa sp sb et1.1 (by linarith) e6 e4
      refine ⟨s2, ⟨List.ofFn y, sa, .accepted⟩ :: recs, ?_, ?_, ?_⟩
      · rw [incrLoop]
        simp only [e1, py_bind_ok, Outcome.isStop, hlm, g1]
        rfl
      · intro m r hm
        cases m with
        | zero => exact hone 0 r hm
        | succ m =>
          obtain ⟨p1, y', t', p2, p3, p4, p5⟩ := g2 m r (by simpa using hm)
          refine ⟨p1, y', t', p2, p3, ?_, p5⟩
          have hab' := abs_le.1 p4
          push_cast
          rw [abs_le]
          constructor <;> linarith
      · rcases g3 with g3 | ⟨r, g3, g4⟩
        · left; simp [g3]
        · right
          refine ⟨r, ?_, g4⟩
          rw [List.getLast?_cons, g3]
          rfl

end

end TrussPy
