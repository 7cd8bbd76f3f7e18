import Verif.Lemmas.SmallStep
import Verif.ExamplesExact
/-!
# Property C70: the Newton iteration converges near a regular solution
-/

set_option linter.unusedSectionVars false

namespace TrussPy

/-- **C70.** Let `f`, `df` return the values of a function `φ` and of its derivative, let `z` be a zero of `φ` with
regular derivative, and let the linear solver solve regular systems exactly.  Then there are a radius `r > 0` and
constants `L`, `C` such that `newton`, started anywhere within `r` of `z`, reports success as soon as it is allowed
`k + 1` iterations with `C < ftol * 2^k` and `C < xtol * 2^k`, and the vector it returns is within `L * ftol` of `z`. -/
theorem C70_newton_converges {S : Type} {n : Nat} {I : S → Prop} {f : S → List ℝ → Py (S × List ℝ)}
    {df : S → List ℝ → Py (S × List (List ℝ))} {sp : List (List ℝ) → List ℝ → Py (List ℝ)}
    {φ : (Fin n → ℝ) → Fin n → ℝ} {J : (Fin n → ℝ) → Matrix (Fin n) (Fin n) ℝ} (hC : Computes n I f df φ J)
    (hsp : SolvesRegular sp n) {z : Fin n → ℝ} (hz : φ z = 0) (hφ : ContDiffAt ℝ 1 φ z)
    (hJ : ∀ᶠ x in nhds z, HasFDerivAt φ (LinearMap.toContinuousLinearMap (Matrix.toLin' (J x))) x)
    (hreg : IsUnit (J z).det) :
    ∃ r > 0, ∃ L C : ℝ, ∀ (ftol xtol : ℝ) (k : Nat), C < ftol * 2 ^ k → C < xtol * 2 ^ k →
      ∀ (nfev : Int), (k : Int) + 1 ≤ nfev → ∀ (s : S) (x : Fin n → ℝ), I s → (∀ i, |x i - z i| ≤ r) →
        ∃ s' o y, newton f df sp s (List.ofFn x) nfev ftol xtol = .ok (s', o) ∧ I s' ∧ o.success = true ∧
          o.x = List.ofFn y ∧ ∀ i, |y i - z i| ≤ L * ftol := by
  obtain ⟨ρ, ε, M, hρ, ht⟩ := exists_tame hφ hJ hreg
  set A := mulCLM (J z)
  have hM := ht.pos
  have hB0 : 0 ≤ ‖A‖ + ε := add_nonneg (norm_nonneg _) ht.eps
  have hden : 0 < 1 + 4 * M * (‖A‖ + ε) := by positivity
  refine ⟨ρ / (1 + 4 * M * (‖A‖ + ε)), by positivity, 2 * M,
    n * ((1 + 2 * M) * ((‖A‖ + ε) * (ρ / (1 + 4 * M * (‖A‖ + ε))))), ?_⟩
  intro ftol xtol k hf hxt nfev hk s x hI hx
  set r := ρ / (1 + 4 * M * (‖A‖ + ε)) with hr
  have hr0 : 0 < r := by positivity
  have hrρ : r * (1 + 4 * M * (‖A‖ + ε)) = ρ := div_mul_cancel₀ _ hden.ne'
  have hxz : ‖x - z‖ ≤ r := (pi_norm_le_iff_of_nonneg hr0.le).2 fun i => hx i
  have hrle : r ≤ ρ := by
    have : 0 ≤ r * (4 * M * (‖A‖ + ε)) := by positivity
    linarith
  have hzz : ‖z - z‖ ≤ ρ := by rw [sub_self, norm_zero]; exact hρ.le
  have hφx : ‖φ x‖ ≤ (‖A‖ + ε) * ‖x - z‖ := by
    have h1 := ht.diff x z (hxz.trans hrle) hzz
    rw [hz, sub_zero] at h1
    calc ‖φ x‖ = ‖(φ x - A (x - z)) + A (x - z)‖ := by congr 1; abel
      _ ≤ ‖φ x - A (x - z)‖ + ‖A (x - z)‖ := norm_add_le _ _
      _ ≤ ε * ‖x - z‖ + ‖A‖ * ‖x - z‖ := add_le_add h1 (A.le_opNorm _)
      _ = _ := by ring
  have hφr : ‖φ x‖ ≤ (‖A‖ + ε) * r := hφx.trans (mul_le_mul_of_nonneg_left hxz hB0)
  have hstart : ‖x - z‖ + 4 * M * ‖φ x‖ ≤ ρ := by
    have : 4 * M * ‖φ x‖ ≤ 4 * M * ((‖A‖ + ε) * r) := mul_le_mul_of_nonneg_left hφr (by positivity)
    linarith
  have hle : (n : ℝ) * ((1 + 2 * M) * ‖φ x‖) ≤ n * ((1 + 2 * M) * ((‖A‖ + ε) * r)) := by gcongr
  obtain ⟨s', o, y, h1, h2, h3, h4, h5, h6, -⟩ := newton_converges hC hsp ht hk hI hstart (hle.trans_lt hf) (hle.trans_lt hxt)
  refine ⟨s', o, y, h1, h2, h3, h4, fun i => ?_⟩
  have hyz : ‖y - z‖ ≤ ρ := by
    calc ‖y - z‖ = ‖(y - x) + (x - z)‖ := by congr 1; abel
      _ ≤ _ := norm_add_le _ _
      _ ≤ ρ := by linarith
  have h7 := ht.diff y z hyz hzz
  rw [hz, sub_zero] at h7
  have h8 : ‖A (y - z)‖ ≤ ‖φ y‖ + ε * ‖y - z‖ := by
    calc ‖A (y - z)‖ = ‖φ y - (φ y - A (y - z))‖ := by congr 1; abel
      _ ≤ ‖φ y‖ + ‖φ y - A (y - z)‖ := norm_sub_le _ _
      _ ≤ _ := by linarith
  have h9 := ht.below (y - z)
  have h10 : M * ‖A (y - z)‖ ≤ M * (‖φ y‖ + ε * ‖y - z‖) := mul_le_mul_of_nonneg_left h8 hM.le
  have h11 : M * ε * ‖y - z‖ ≤ 1 / 8 * ‖y - z‖ := mul_le_mul_of_nonneg_right ht.small (norm_nonneg _)
  have h12 : ‖φ y‖ < ftol := (norm_le_vnorm _).trans_lt h6
  have h13 : M * ‖φ y‖ ≤ M * ftol := mul_le_mul_of_nonneg_left h12.le hM.le
  have h14 : |y i - z i| ≤ ‖y - z‖ := by
    have := norm_le_pi_norm (y - z) i
    rwa [Pi.sub_apply, Real.norm_eq_abs] at this
  have h15 : 0 ≤ M * ftol := (mul_nonneg hM.le (norm_nonneg _)).trans h13
  linarith

/-- **C70 for the truss.** The same for the equations the path-following solver hands to `newton`: from the state `a` of a
truss, near a vector `z` which solves the equilibrium equations together with the control equation, where all bars have a
length and no bar is just at its yield limit, and where the extended stiffness matrix is regular. -/
theorem C70_truss_newton_converges {c : Ctx ℝ} {bars : List (Bar ℝ)} {a : Analysis ℝ} {ef : StepForces ℝ}
    (he : Evaluable c bars a ef) (hl : a.lpf.isSome = true) (hf0 : a.f0red = a.DOF1.map fun p => ef.forces.getD p 0)
    {n : Nat} (hn : c.ndof1 = n) {V0 : List ℝ} (hV0 : V0.length = n + 1) {j : Int} (hj : 1 ≤ j.natAbs ∧ j.natAbs ≤ n + 1)
    (Vmax : ℝ) {z : Fin (n + 1) → ℝ} (hs : SmoothAt c bars a z)
    {a1 : Analysis ℝ} (hz : extF (modelProblem c) V0 j Vmax false a (List.ofFn z) = .ok (a1, List.replicate (n + 1) 0))
    {a2 : Analysis ℝ} {K : List (List ℝ)} (hK : extDf (modelProblem c) j a (List.ofFn z) = .ok (a2, K))
    (hreg : IsUnit (Matrix.det (matOf (n + 1) K))) {env : Env ℝ} (hsp : SolvesRegular env.spsolve (n + 1)) :
    ∃ r > 0, ∃ L C : ℝ, ∀ (ftol xtol : ℝ) (k : Nat), C < ftol * 2 ^ k → C < xtol * 2 ^ k →
      ∀ (nfev : Int), (k : Int) + 1 ≤ nfev → ∀ (x : Fin (n + 1) → ℝ), (∀ i, |x i - z i| ≤ r) →
        ∃ a' o y, newton (extF (modelProblem c) V0 j Vmax false) (extDf (modelProblem c) j) env.spsolve a (List.ofFn x)
            nfev ftol xtol = .ok (a', o) ∧ o.success = true ∧ o.x = List.ofFn y ∧ ∀ i, |y i - z i| ≤ L * ftol := by
  have hjk : j.natAbs = ((⟨j.natAbs - 1, by omega⟩ : Fin (n + 1)) : Nat) + 1 := by show _ = j.natAbs - 1 + 1; omega
  have hz0 : sysRes c a n V0 j Vmax z = 0 := by
    funext m
    unfold sysRes vecFun
    simp only [hz]
    rw [List.getD_eq_getElem?_getD, List.getElem?_replicate, if_pos m.isLt]
    rfl
  have hmat : sysMat c a n j z = matOf (n + 1) K := by unfold sysMat; rw [hK]
  obtain ⟨r, hr, L, C, h⟩ := C70_newton_converges (model_computes he hl hf0 hn hV0 hjk Vmax) hsp hz0
    (sys_contDiff he hn hV0 hjk Vmax hs)
    (by
      filter_upwards [smoothAt_eventually he hn hs] with y hy
      exact sys_hasFDerivAt he hl hf0 hn hV0 hjk Vmax hy)
    (by rw [hmat]; exact hreg)
  refine ⟨r, hr, L, C, fun ftol xtol k h1 h2 nfev h3 x hx => ?_⟩
  obtain ⟨s', o, y, g1, -, g2, g3, g4⟩ := h ftol xtol k h1 h2 nfev h3 a x (Trial.refl a) hx
  exact ⟨s', o, y, g1, g2, g3, g4⟩

/-! ## The hypotheses are met -/

/-- The equation `v² = 2`, as functions on lists. -/
def rootF (s : Unit) (V : List ℝ) : Py (Unit × List ℝ) := .ok (s, V.map fun v => v * v - 2)

/-- Its derivative. -/
def rootDf (s : Unit) (V : List ℝ) : Py (Unit × List (List ℝ)) := .ok (s, V.map fun v => [2 * v])

/-- `newton` finds the square root of 2 from a neighbourhood, to any accuracy. -/
example : ∃ r > 0, ∃ L C : ℝ, ∀ (ftol xtol : ℝ) (k : Nat), C < ftol * 2 ^ k → C < xtol * 2 ^ k →
      ∀ (nfev : Int), (k : Int) + 1 ≤ nfev → ∀ (s : Unit) (x : Fin 1 → ℝ), True → (∀ i, |x i - (fun _ => √2) i| ≤ r) →
        ∃ s' o, ∃ y : Fin 1 → ℝ, newton rootF rootDf exactEnv.spsolve s (List.ofFn x) nfev ftol xtol = .ok (s', o) ∧ True ∧ o.success = true ∧
          o.x = List.ofFn y ∧ ∀ i, |y i - (fun _ => √2) i| ≤ L * ftol := by
  have hder : ∀ x : Fin 1 → ℝ, HasFDerivAt (fun (x : Fin 1 → ℝ) (i : Fin 1) => x i * x i - 2)
      (LinearMap.toContinuousLinearMap (Matrix.toLin' (Matrix.of fun (_ _ : Fin 1) => 2 * x 0))) x := by
    intro x
    rw [hasFDerivAt_pi']
    intro i
    have hp : HasFDerivAt (fun x : Fin 1 → ℝ => x i) (ContinuousLinearMap.proj (R := ℝ) (φ := fun _ => ℝ) i) x :=
      (ContinuousLinearMap.proj (R := ℝ) (φ := fun _ : Fin 1 => ℝ) i).hasFDerivAt
    refine ((hp.mul hp).sub_const 2).congr_fderiv ?_
    ext1 v
    show x i * v i + x i * v i = (Matrix.toLin' (Matrix.of fun (_ _ : Fin 1) => 2 * x 0)) v i
    rw [Matrix.toLin'_apply]
    simp only [Matrix.mulVec, dotProduct, Matrix.of_apply, Finset.univ_unique, Finset.sum_singleton]
    rw [Subsingleton.elim i 0]
    show _ = 2 * x 0 * v 0
    ring
  refine C70_newton_converges (I := fun _ => True) (φ := fun x i => x i * x i - 2)
    (J := fun x => Matrix.of fun _ _ => 2 * x 0) ⟨fun s x _ => ?_, fun s x _ => ?_⟩ (exactEnv_solves 1) (z := fun _ => √2) ?_ ?_
    (Filter.Eventually.of_forall hder) ?_
  · exact ⟨s, by unfold rootF; rw [List.map_ofFn]; rfl, trivial⟩
  · refine ⟨s, [[2 * x 0]], ?_, trivial, rfl, by simp, ?_⟩
    · unfold rootDf
      simp [List.ofFn_succ]
    · ext i j
      rw [Subsingleton.elim i 0, Subsingleton.elim j 0]
      rfl
  · funext i
    show √2 * √2 - 2 = (0 : ℝ)
    rw [Real.mul_self_sqrt (by norm_num)]
    ring
  · fun_prop
  · rw [Matrix.det_fin_one]
    simp

/-- The bar, controlling the load factor: Newton finds the elongation 1/4 for the load factor 1/4. -/
example : ∃ r > 0, ∃ L C : ℝ, ∀ (ftol xtol : ℝ) (k : Nat), C < ftol * 2 ^ k → C < xtol * 2 ^ k →
      ∀ (nfev : Int), (k : Int) + 1 ≤ nfev → ∀ (x : Fin 2 → ℝ), (∀ i, |x i - ![1/4, 1/4] i| ≤ r) →
        ∃ a' o y, newton (extF (modelProblem sbCtx) [0, 0] 2 (1/4) false) (extDf (modelProblem sbCtx) 2) exactEnv.spsolve
            sbA (List.ofFn x) nfev ftol xtol = .ok (a', o) ∧ o.success = true ∧ o.x = List.ofFn y ∧
          ∀ i, |y i - ![1/4, 1/4] i| ≤ L * ftol := by
  obtain ⟨a2, K, hK, hreg⟩ := sbMatrix (u := 1/4) (by norm_num) (1/4)
  obtain ⟨a1, h1⟩ := sbEquilibrium (u := 1/4) (by norm_num) (V0 := List.ofFn ![1/4, 1/4]) (by simp)
  obtain ⟨U, hU⟩ := exists_disp sbEvaluable (n := 1) rfl
  obtain ⟨a', h2⟩ := extF_closed sbEvaluable (n := 1) rfl (V0 := [0, 0]) rfl (j := 2) (k := 1) rfl (1/4) false ![1/4, 1/4] (hU _)
  have h3 : closedRes sbCtx [sbBar] ⟨[0, 0, 0, 1, 0, 0], [0, 0, 0, 0, 0, 0]⟩ sbA (n := 1) 1 (1/4) (U ![1/4, 1/4]) ![1/4, 1/4] = 0 := by
    rw [← sysRes_closed sbEvaluable (n := 1) rfl (V0 := [0, 0]) rfl (j := 2) (k := 1) rfl (1/4) ![1/4, 1/4] (hU _)]
    funext m
    refine Fin.lastCases ?_ (fun m => ?_) m
    · rw [sysRes_last sbEvaluable (n := 1) rfl (V0 := [0, 0]) rfl (j := 2) (k := 1) rfl]
      simp
    · rw [sysRes_first sbEvaluable (n := 1) rfl (V0 := [0, 0]) (V0' := List.ofFn ![1/4, 1/4]) rfl (by simp) (j := 2) (k := 1)
        (j' := 2) (k' := 1) rfl rfl (1/4) (1/4), sysRes_zero sbEvaluable (n := 1) rfl (j := 2) (k := 1) rfl (1/4) h1 m]
      rfl
  rw [h3] at h2
  exact C70_truss_newton_converges sbEvaluable rfl rfl (n := 1) rfl rfl ⟨by decide, by decide⟩ (1/4) (sbSmooth (by norm_num) _)
    (a1 := a') (by rw [h2]; simp [List.ofFn_succ, List.replicate]) hK hreg (exactEnv_solves 2)

end TrussPy
