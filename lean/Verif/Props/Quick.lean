import Verif.Lemmas.Quick
import Verif.Props.Converge
import Verif.Props.Stages
import Verif.Props.TwoBarFree
/-!
# Property C116: the number of correct digits doubles in every iteration, so that few iterations suffice
-/

set_option linter.unusedSectionVars false

namespace TrussPy

/-- **C116.** Let `f`, `df` return the values of a twice continuously differentiable function `φ` and of its derivative, let `z` be
a zero of `φ` with regular derivative, and let the linear solver be exact.  Then there are `r > 0` and `L` such that `newton`,
started anywhere within `r` of `z`, reports success as soon as it is allowed `k + 1` iterations with `2^(-2^k)` below both
tolerances, and returns a vector within `L * ftol` of `z`. -/
theorem C116_newton_quadratic {S : Type} {n : Nat} {I : S → Prop} {f : S → List ℝ → Py (S × List ℝ)}
    {df : S → List ℝ → Py (S × List (List ℝ))} {sp : List (List ℝ) → List ℝ → Py (List ℝ)}
    {φ : (Fin n → ℝ) → Fin n → ℝ} {J : (Fin n → ℝ) → Matrix (Fin n) (Fin n) ℝ} (hC : Computes n I f df φ J)
    (hsp : SolvesRegular sp n) {z : Fin n → ℝ} (hz : φ z = 0) (hφ : ContDiffAt ℝ 2 φ z)
    (hJ : ∀ᶠ x in nhds z, HasFDerivAt φ (LinearMap.toContinuousLinearMap (Matrix.toLin' (J x))) x)
    (hreg : IsUnit (J z).det) :
    ∃ r > 0, ∃ L : ℝ, ∀ (ftol xtol : ℝ) (k : Nat), (1 / 2) ^ 2 ^ k < ftol → (1 / 2) ^ 2 ^ k < xtol →
      ∀ (nfev : Int), (k : Int) + 1 ≤ nfev → ∀ (s : S) (x : Fin n → ℝ), I s → (∀ i, |x i - z i| ≤ r) →
        ∃ s' o y, newton f df sp s (List.ofFn x) nfev ftol xtol = .ok (s', o) ∧ I s' ∧ o.success = true ∧
          o.x = List.ofFn y ∧ ∀ i, |y i - z i| ≤ L * ftol := by
  obtain ⟨ρ1, ε, M, hρ1, ht1⟩ := exists_tame (hφ.of_le (by norm_num)) hJ hreg
  obtain ⟨ρ2, hρ2, Λ, hΛ, hq2⟩ := exists_quad hφ hJ
  set A := mulCLM (J z)
  obtain ⟨ρ, hρ, ht, hq⟩ : ∃ ρ > 0, Tame φ J A z ρ ε M ∧ Quad φ J z ρ Λ :=
    ⟨min ρ1 ρ2, lt_min hρ1 hρ2, ht1.recenter (by rw [sub_self, norm_zero, zero_add]; exact min_le_left _ _),
      hq2.recenter (by rw [sub_self, norm_zero, zero_add]; exact min_le_right _ _)⟩
  have hM := ht.pos
  have hB0 : 0 ≤ ‖A‖ + ε := add_nonneg (norm_nonneg _) ht.eps
  set C := max ((n : ℝ) * (1 + 2 * M)) (4 * Λ * M ^ 2) with hCd
  have hC0 : 0 ≤ C := le_trans (by positivity) (le_max_left _ _)
  obtain ⟨r, hr0, hrρ, hrC⟩ : ∃ r > 0, r * (1 + 4 * M * (‖A‖ + ε)) ≤ ρ ∧ C * ((‖A‖ + ε) * r) ≤ 1 / 2 := by
    refine ⟨min (ρ / (1 + 4 * M * (‖A‖ + ε))) (1 / 2 / (C * (‖A‖ + ε) + 1)), by positivity, ?_, ?_⟩
    · rw [← le_div_iff₀ (by positivity)]
      exact min_le_left _ _
    · have h1 : min (ρ / (1 + 4 * M * (‖A‖ + ε))) (1 / 2 / (C * (‖A‖ + ε) + 1)) * (C * (‖A‖ + ε) + 1) ≤ 1 / 2 := by
        rw [← le_div_iff₀ (by positivity)]
        exact min_le_right _ _
      have h2 : 0 ≤ min (ρ / (1 + 4 * M * (‖A‖ + ε))) (1 / 2 / (C * (‖A‖ + ε) + 1)) := by positivity
      linarith
  refine ⟨r, hr0, 2 * M, ?_⟩
  intro ftol xtol k hf hxt nfev hk s x hI hx
  have hxz : ‖x - z‖ ≤ r := (pi_norm_le_iff_of_nonneg hr0.le).2 fun i => hx i
  have hrle : r ≤ ρ := by
    have : 0 ≤ r * (4 * M * (‖A‖ + ε)) := by positivity
    linarith
  have hzz : ‖z - z‖ ≤ ρ := by rw [sub_self, norm_zero]; exact hρ.le
  have hφx : ‖φ x‖ ≤ (‖A‖ + ε) * ‖x - z‖ := by
    have h1 := ht.diff x z (hxz.trans hrle) hzz
    rw [hz, sub_zero] at h1
    calc ‖φ x‖ = ‖(φ x - A (x - z)) + A (x - z)‖ := by congr 1; abel
      _ ≤ ‖φ x - A (x - z)‖ + ‖A (x - z)‖ := norm_add_le _ _
      _ ≤ ε * ‖x - z‖ + ‖A‖ * ‖x - z‖ := add_le_add h1 (A.le_opNorm _)
      _ = _ := by ring
  have hφr : ‖φ x‖ ≤ (‖A‖ + ε) * r := hφx.trans (mul_le_mul_of_nonneg_left hxz hB0)
  have hstart : ‖x - z‖ + 4 * M * ‖φ x‖ ≤ ρ := by
    have : 4 * M * ‖φ x‖ ≤ 4 * M * ((‖A‖ + ε) * r) := mul_le_mul_of_nonneg_left hφr (by positivity)
    linarith
  have hshr : ∀ tol : ℝ, (1 / 2) ^ 2 ^ k < tol → Shrinks C ((‖A‖ + ε) * r) tol k := fun tol htol =>
    Or.inr ((pow_le_pow_left₀ (by positivity) hrC _).trans_lt htol)
  obtain ⟨s', o, y, h1, h2, h3, h4, h5, h6, -⟩ := newton_quick hC hsp ht le_rfl hΛ hq
    ((hshr ftol hf).enough (hshr xtol hxt) hk (by positivity) (le_max_right _ _) (le_max_left _ _) (by positivity)) hI hstart hφr
  refine ⟨s', o, y, h1, h2, h3, h4, fun i => ?_⟩
  have hyz : ‖y - z‖ ≤ ρ := by
    calc ‖y - z‖ = ‖(y - x) + (x - z)‖ := by congr 1; abel
      _ ≤ _ := norm_add_le _ _
      _ ≤ ρ := by linarith
  have h7 := ht.diff y z hyz hzz
  rw [hz, sub_zero] at h7
  have h8 : ‖A (y - z)‖ ≤ ‖φ y‖ + ε * ‖y - z‖ := by
    calc ‖A (y - z)‖ = ‖φ y - (φ y - A (y - z))‖ := by congr 1; abel
      _ ≤ ‖φ y‖ + ‖φ y - A (y - z)‖ := norm_sub_le _ _
      _ ≤ _ := by linarith
  have h9 := ht.below (y - z)
  have h10 : M * ‖A (y - z)‖ ≤ M * (‖φ y‖ + ε * ‖y - z‖) := mul_le_mul_of_nonneg_left h8 hM.le
  have h11 : M * ε * ‖y - z‖ ≤ 1 / 8 * ‖y - z‖ := mul_le_mul_of_nonneg_right ht.small (norm_nonneg _)
  have h12 : ‖φ y‖ < ftol := (norm_le_vnorm _).trans_lt h6
  have h13 : M * ‖φ y‖ ≤ M * ftol := mul_le_mul_of_nonneg_left h12.le hM.le
  have h14 : |y i - z i| ≤ ‖y - z‖ := by
    have := norm_le_pi_norm (y - z) i
    rwa [Pi.sub_apply, Real.norm_eq_abs] at this
  have h15 : 0 ≤ M * ftol := (mul_nonneg hM.le (norm_nonneg _)).trans h13
  linarith

/-- **C116 for the truss.** The same for the equations the path-following solver hands to `newton`, near a vector `z` which solves
them, where all bars have a length and no bar is just at its yield limit, and where the extended stiffness matrix is regular. -/
theorem C116_truss_newton_quadratic {c : Ctx ℝ} {bars : List (Bar ℝ)} {a : Analysis ℝ} {ef : StepForces ℝ}
    (he : Evaluable c bars a ef) (hl : a.lpf.isSome = true) (hf0 : a.f0red = a.DOF1.map fun p => ef.forces.getD p 0)
    {n : Nat} (hn : c.ndof1 = n) {V0 : List ℝ} (hV0 : V0.length = n + 1) {j : Int} (hj : 1 ≤ j.natAbs ∧ j.natAbs ≤ n + 1)
    (Vmax : ℝ) {z : Fin (n + 1) → ℝ} (hs : SmoothAt c bars a z)
    {a1 : Analysis ℝ} (hz : extF (modelProblem c) V0 j Vmax false a (List.ofFn z) = .ok (a1, List.replicate (n + 1) 0))
    {a2 : Analysis ℝ} {K : List (List ℝ)} (hK : extDf (modelProblem c) j a (List.ofFn z) = .ok (a2, K))
    (hreg : IsUnit (Matrix.det (matOf (n + 1) K))) {env : Env ℝ} (hsp : SolvesRegular env.spsolve (n + 1)) :
    ∃ r > 0, ∃ L : ℝ, ∀ (ftol xtol : ℝ) (k : Nat), (1 / 2) ^ 2 ^ k < ftol → (1 / 2) ^ 2 ^ k < xtol →
      ∀ (nfev : Int), (k : Int) + 1 ≤ nfev → ∀ (x : Fin (n + 1) → ℝ), (∀ i, |x i - z i| ≤ r) →
        ∃ a' o y, newton (extF (modelProblem c) V0 j Vmax false) (extDf (modelProblem c) j) env.spsolve a (List.ofFn x)
            nfev ftol xtol = .ok (a', o) ∧ o.success = true ∧ o.x = List.ofFn y ∧ ∀ i, |y i - z i| ≤ L * ftol := by
  have hjk : j.natAbs = ((⟨j.natAbs - 1, by omega⟩ : Fin (n + 1)) : Nat) + 1 := by show _ = j.natAbs - 1 + 1; omega
  have hz0 : sysRes c a n V0 j Vmax z = 0 := by
    funext m
    unfold sysRes vecFun
    simp only [hz]
    rw [List.getD_eq_getElem?_getD, List.getElem?_replicate, if_pos m.isLt]
    rfl
  have hmat : sysMat c a n j z = matOf (n + 1) K := by unfold sysMat; rw [hK]
  obtain ⟨r, hr, L, h⟩ := C116_newton_quadratic (model_computes he hl hf0 hn hV0 hjk Vmax) hsp hz0
    (sys_contDiff2 he hn hV0 hjk Vmax hs)
    (by
      filter_upwards [smoothAt_eventually he hn hs] with y hy
      exact sys_hasFDerivAt he hl hf0 hn hV0 hjk Vmax hy)
    (by rw [hmat]; exact hreg)
  refine ⟨r, hr, L, fun ftol xtol k h1 h2 nfev h3 x hx => ?_⟩
  obtain ⟨s', o, y, g1, -, g2, g3, g4⟩ := h ftol xtol k h1 h2 nfev h3 a x (Trial.refl a) hx
  exact ⟨s', o, y, g1, g2, g3, g4⟩

theorem EnoughIterations.digits {s : Settings ℝ} {C h : ℝ} (hh : 0 < h) (h1 : h ≤ 1 / (4 * (|C| + 1)))
    (h2 : (10 : ℝ) ^ (-s.ftol) ≤ 1 / (4 * (|C| + 1))) (hd : DigitsAllowed s 1) : EnoughIterations s C h := by
  obtain ⟨N, d1, d2, d3⟩ := hd
  have hf : (0 : ℝ) < 10 ^ (-s.ftol) := by positivity
  have hC : |C * (h + (10 : ℝ) ^ (-s.ftol))| ≤ 1 / 2 := by
    rw [abs_mul, abs_of_pos (by positivity : 0 < h + (10 : ℝ) ^ (-s.ftol))]
    rw [le_div_iff₀ (by positivity)] at h1 h2
    linarith
  exact ⟨N, shrinks_digits hC d1, shrinks_digits hC d2, d3⟩

theorem IterationsFor.digits {s : Settings ℝ} {C t : ℝ} (ht : 0 < t) (h1 : t ≤ 1 / (2 * (|C| + 1))) (hd : DigitsAllowed s 2) :
    IterationsFor s C t := by
  obtain ⟨N, d1, d2, d3⟩ := hd
  have hC : |C * t| ≤ 1 / 2 := by
    rw [abs_mul, abs_of_pos ht]
    rw [le_div_iff₀ (by positivity)] at h1
    linarith
  exact ⟨N, shrinks_digits hC d1, shrinks_digits hC d2, d3⟩

/-- **C116 for runs with fixed control component.** In C101 the number of iterations needed depends only on the number of digits
of the tolerances: there are `h0`, `f0`, `L` such that for every step width below `h0`, every tolerance of at most `f0` and every
number of iterations with which the digits can be reached by squaring, `build` and `run` return and follow the path. -/
theorem C116_run_iterations {u : UserInput ℝ} {es : List (Elem ℝ)} {nsteps : Nat} (hv : ValidInput u es nsteps) (hns : 1 ≤ nsteps)
    (hus : UsualPlastic es) {P : List (Int × Fin 3)} (hP : FreeList u P) {j : Int} (hj1 : 1 ≤ j.natAbs)
    (hj2 : j.natAbs ≤ P.length + 1) {S : ℝ} (hS : 0 ≤ S) {U : ℝ → Int → V3 ℝ} {l : ℝ → ℝ} (ht : Trail u es P j S U l)
    {env : Env ℝ} (hsp : SolvesRegular env.spsolve (P.length + 1)) (hA : ArgMax env) (nst : Nat) :
    ∃ h0 > 0, ∃ f0 > 0, ∃ L : ℝ, ∀ (argsort : List Int → List Nat), IsArgsort argsort → ∀ m : Model ℝ,
      Entered u m → EnteredElems es m → m.settings.ndim = 3 → m.settings.nstatev = nst → m.settings.nsteps = 1 →
      m.settings.log ≤ 1 →
      ∀ h, 0 < h → h < h0 → FixedControl m.settings P.length j h → (10 : ℝ) ^ (-m.settings.ftol) ≤ f0 →
      ∀ K xl, m.settings.incs.ofStep 0 = some K → m.settings.xlimit.ofStep 0 = some xl → 1 ≤ xl.1 → xl.1 ≤ P.length + 1 →
      K * h ≤ S → DigitsAllowed m.settings 1 → ∀ fuel, 1 ≤ fuel →
      ∃ m1 m2 nt res q, m.build argsort = .ok m1 ∧ m1.run env fuel = .ok m2 ∧ m1.nodes = some nt ∧ m2.results = some res ∧
        FollowsTrail nt.labels res.R j h (L * (10 : ℝ) ^ (-m.settings.ftol)) U l K xl q ∧ res.R.length = q + 1 := by
  obtain ⟨h0, hh0, f0, hf0, L, C, key⟩ := C101_single_step_run hv hns hus hP hj1 hj2 hS ht hsp hA nst
  refine ⟨min h0 (1 / (4 * (|C| + 1))), by positivity, min f0 (1 / (4 * (|C| + 1))), by positivity, L, ?_⟩
  intro as has m hu he hdim hn hs1 hlog h hh hlt hfix hf K xl hK hxl hx1 hx2 hKS hd fuel hfuel
  exact key as has m hu he hdim hn hs1 hlog h hh (hlt.trans_le (min_le_left _ _)) hfix (hf.trans (min_le_left _ _)) K xl hK hxl hx1
    hx2 hKS (.digits hh (hlt.trans_le (min_le_right _ _)).le (hf.trans (min_le_right _ _)) hd) fuel hfuel

/-- **C116 for runs with several steps.** The same for C106. -/
theorem C116_stages_iterations {u : UserInput ℝ} {es : List (Elem ℝ)} {ns : Nat} (hv : ValidInput u es ns) (hns : 1 ≤ ns)
    (hus : UsualPlastic es) {P : List (Int × Fin 3)} (hP : FreeList u P) {j : Int} (hj1 : 1 ≤ j.natAbs)
    (hj2 : j.natAbs ≤ P.length + 1) {T : Nat → ℝ} {U : Nat → ℝ → Int → V3 ℝ} {l : Nat → ℝ → ℝ} (ht : Stages u es P j ns T U l)
    {env : Env ℝ} (hsp : SolvesRegular env.spsolve (P.length + 1)) (hA : ArgMax env) (nst : Nat) :
    ∃ h0 > 0, ∃ f0 > 0, ∃ L : ℝ, ∀ (argsort : List Int → List Nat), IsArgsort argsort → ∀ m : Model ℝ,
      Entered u m → EnteredElems es m → m.settings.ndim = 3 → m.settings.nstatev = nst → m.settings.nsteps = ns →
      m.settings.log ≤ 1 →
      ∀ h, 0 < h → h < h0 → FixedControl m.settings P.length j h → (10 : ℝ) ^ (-m.settings.ftol) ≤ f0 →
      ∀ (K : Nat → Nat) (xl : Nat → Int × ℝ),
      (∀ k < ns, m.settings.incs.ofStep k = some (K k) ∧ m.settings.xlimit.ofStep k = some (xl k) ∧ K k * h = T k ∧
        1 ≤ (xl k).1 ∧ (xl k).1 ≤ P.length + 1 ∧ ∀ t ∈ Set.Icc 0 (T k),
          |component P (U k t) (l k t) ((xl k).1 - 1).toNat| + L * (10 : ℝ) ^ (-m.settings.ftol) ≤ (xl k).2) →
      DigitsAllowed m.settings 1 → ∀ fuel, 1 ≤ fuel →
      ∃ m1 m2 nt res, m.build argsort = .ok m1 ∧ m1.run env fuel = .ok m2 ∧ m1.nodes = some nt ∧ m2.results = some res ∧
        FollowsStages P nt.labels res.R j h (L * (10 : ℝ) ^ (-m.settings.ftol)) U l ns K := by
  obtain ⟨h0, hh0, f0, hf0, L, C, key⟩ := C106_run_follows_stages hv hns hus hP hj1 hj2 ht hsp hA nst
  refine ⟨min h0 (1 / (4 * (|C| + 1))), by positivity, min f0 (1 / (4 * (|C| + 1))), by positivity, L, ?_⟩
  intro as has m hu he hdim hn hs1 hlog h hh hlt hfix hf K xl hK hd fuel hfuel
  exact key as has m hu he hdim hn hs1 hlog h hh (hlt.trans_le (min_le_left _ _)) hfix (hf.trans (min_le_left _ _)) K xl hK
    (.digits hh (hlt.trans_le (min_le_right _ _)).le (hf.trans (min_le_right _ _)) hd) fuel hfuel

/-- **C116 in the default mode.** The same for C103, where one iteration is used by the predictor. -/
theorem C116_default_iterations {u : UserInput ℝ} {es : List (Elem ℝ)} {nsteps : Nat} (hv : ValidInput u es nsteps)
    (hns : 1 ≤ nsteps) (hus : UsualPlastic es) {P : List (Int × Fin 3)} (hP : FreeList u P) {du dl S : ℝ} (hdu : 0 < du)
    (hdl : 0 < dl) (hS : 0 < S) {U U' : ℝ → Int → V3 ℝ} {l l' : ℝ → ℝ} (ht : FreeTrail u es du dl S U U' l l')
    {env : Env ℝ} (hsp : SolvesRegular env.spsolve (P.length + 1)) (hA : ArgMax env) {η W : ℝ} (hη : 0 < η) (hW : 1 ≤ W) (nst : Nat) :
    ∃ t0 > 0, ∃ φ0 > 0, ∃ L : ℝ, ∀ (argsort : List Int → List Nat), IsArgsort argsort → ∀ m : Model ℝ,
      Entered u m → EnteredElems es m → m.settings.ndim = 3 → m.settings.nstatev = nst → m.settings.nsteps = 1 →
      m.settings.log ≤ 1 →
      ∀ t, 0 < t → t < t0 → FreeControl m.settings du dl η W t → (10 : ℝ) ^ (-m.settings.ftol) ≤ φ0 * t →
      ∀ K xl, m.settings.incs.ofStep 0 = some K → m.settings.xlimit.ofStep 0 = some xl → 1 ≤ xl.1 → xl.1 ≤ P.length + 1 →
      K * ((1 + η) * (W * t)) ≤ S → DigitsAllowed m.settings 2 → ∀ fuel, 1 ≤ fuel →
      ∃ m1 m2 nt res q p, m.build argsort = .ok m1 ∧ m1.run env fuel = .ok m2 ∧ m1.nodes = some nt ∧ m2.results = some res ∧
        FollowsFree u P nt.labels res.R du dl S U U' l l' ((1 - η) * t) ((1 + η) * (W * t)) (L * (10 : ℝ) ^ (-m.settings.ftol)) K xl q p ∧
        res.R.length = q + 1 := by
  obtain ⟨t0, ht0, φ0, hφ0, L, C, key⟩ := C103_single_step_run hv hns hus hP hdu hdl hS ht hsp hA hη hW nst
  refine ⟨min t0 (1 / (2 * (|C| + 1))), by positivity, φ0, hφ0, L, ?_⟩
  intro as has m hu he hdim hn hs1 hlog t htp htlt hfc hf K xl hK hxl hx1 hx2 hKS hd fuel hfuel
  exact key as has m hu he hdim hn hs1 hlog t htp (htlt.trans_le (min_le_left _ _)) hfc hf K xl hK hxl hx1 hx2 hKS
    (.digits htp (htlt.trans_le (min_le_right _ _)).le hd) fuel hfuel

/-! ## The hypotheses are met -/

/-- The iterations set by the program (8), and its tolerances (8 digits), meet the requirement on the digits in both modes. -/
example (s : Settings ℝ) (h1 : s.ftol = 8) (h2 : s.xtol = 8) (h3 : s.nfev = 8) : DigitsAllowed s 1 ∧ DigitsAllowed s 2 :=
  ⟨⟨5, by rw [h1]; norm_num, by rw [h2]; norm_num, by rw [h3]; norm_num⟩,
    ⟨5, by rw [h1]; norm_num, by rw [h2]; norm_num, by rw [h3]; norm_num⟩⟩

/-- `newton` finds the square root of 2 from a neighbourhood to 38 digits in 8 iterations. -/
example : ∃ r > 0, ∃ L : ℝ, ∀ x : Fin 1 → ℝ, (∀ i, |x i - √2| ≤ r) →
    ∃ s' o, ∃ y : Fin 1 → ℝ, newton rootF rootDf exactEnv.spsolve () (List.ofFn x) 8 (10 ^ (-38 : Int)) (10 ^ (-38 : Int)) = .ok (s', o) ∧
      o.success = true ∧ o.x = List.ofFn y ∧ ∀ i, |y i - √2| ≤ L * 10 ^ (-38 : Int) := by
  have hder : ∀ x : Fin 1 → ℝ, HasFDerivAt (fun (x : Fin 1 → ℝ) (i : Fin 1) => x i * x i - 2)
      (LinearMap.toContinuousLinearMap (Matrix.toLin' (Matrix.of fun (_ _ : Fin 1) => 2 * x 0))) x := by
    intro x
    rw [hasFDerivAt_pi']
    intro i
    have hp : HasFDerivAt (fun x : Fin 1 → ℝ => x i) (ContinuousLinearMap.proj (R := ℝ) (φ := fun _ => ℝ) i) x :=
      (ContinuousLinearMap.proj (R := ℝ) (φ := fun _ : Fin 1 => ℝ) i).hasFDerivAt
    refine ((hp.mul hp).sub_const 2).congr_fderiv ?_
    ext1 v
    show x i * v i + x i * v i = (Matrix.toLin' (Matrix.of fun (_ _ : Fin 1) => 2 * x 0)) v i
    rw [Matrix.toLin'_apply]
    simp only [Matrix.mulVec, dotProduct, Matrix.of_apply, Finset.univ_unique, Finset.sum_singleton]
    rw [Subsingleton.elim i 0]
    show _ = 2 * x 0 * v 0
    ring
  have hcalc : (1 / 2 : ℝ) ^ 2 ^ 7 < 10 ^ (-38 : Int) := by rw [zpow_neg]; norm_num
  obtain ⟨r, hr, L, h⟩ := C116_newton_quadratic (I := fun _ => True) (f := rootF) (df := rootDf) (φ := fun x i => x i * x i - 2)
    (J := fun x => Matrix.of fun _ _ => 2 * x 0) ⟨fun s x _ => ⟨s, by unfold rootF; rw [List.map_ofFn]; rfl, trivial⟩, fun s x _ => by
      refine ⟨s, [[2 * x 0]], ?_, trivial, rfl, by simp, ?_⟩
      · unfold rootDf
        simp [List.ofFn_succ]
      · ext i j
        rw [Subsingleton.elim i 0, Subsingleton.elim j 0]
        rfl⟩ (exactEnv_solves 1) (z := fun _ => √2) (by
      funext i
      show √2 * √2 - 2 = (0 : ℝ)
      rw [Real.mul_self_sqrt (by norm_num)]
      ring) (by fun_prop) (Filter.Eventually.of_forall hder) (by rw [Matrix.det_fin_one]; simp)
  refine ⟨r, hr, L, fun x hx => ?_⟩
  obtain ⟨s', o, y, g1, -, g2, g3, g4⟩ := h _ _ 7 hcalc hcalc 8 (by norm_num) () x trivial hx
  exact ⟨s', o, y, g1, g2, g3, g4⟩

/-- The number of iterations needed grows like the logarithm of the number of digits. -/
theorem exists_iterations {k : Nat} (hk : 1 ≤ k) : ∃ N, 10 * k ≤ 3 * 2 ^ N ∧ 3 * 2 ^ N < 20 * k := by
  have hex : ∃ N, 10 * k ≤ 3 * 2 ^ N := ⟨10 * k, by have := Nat.lt_two_pow_self (n := 10 * k); omega⟩
  refine ⟨Nat.find hex, Nat.find_spec hex, ?_⟩
  have hmin : ∀ m, m < Nat.find hex → ¬ 10 * k ≤ 3 * 2 ^ m := fun m => Nat.find_min hex
  generalize Nat.find hex = N at hmin
  cases N with
  | zero => omega
  | succ N =>
    have := hmin N (by omega)
    rw [pow_succ]
    omega

/-- A small step width and a tolerance for the examples. -/
theorem exists_small {h0 f0 T : ℝ} (hh0 : 0 < h0) (hf0 : 0 < f0) (hT : 0 < T) :
    ∃ (M : Nat) (h : ℝ) (k N : Nat), 0 < h ∧ h < h0 ∧ ((M : ℝ) + 1) * h = T ∧ 1 ≤ k ∧ (10 : ℝ) ^ (-(k : Int)) ≤ f0 ∧
      10 * (k : Int) ≤ 3 * 2 ^ N ∧ 3 * 2 ^ N < 20 * k := by
  obtain ⟨M, hM⟩ := exists_nat_gt (T / h0)
  rw [div_lt_iff₀ hh0] at hM
  have hM1 : (0 : ℝ) < M + 1 := by positivity
  obtain ⟨k, hk⟩ := exists_pow_lt_of_lt_one hf0 (show (10 : ℝ)⁻¹ < 1 by norm_num)
  obtain ⟨N, h1, h2⟩ := exists_iterations (k := k + 1) (by omega)
  refine ⟨M, T / (M + 1), k + 1, N, by positivity, ?_, by field_simp, by omega, ?_, by exact_mod_cast h1, h2⟩
  · rw [div_lt_iff₀ hM1]
    linarith
  · refine le_trans (le_trans ?_ hk.le) le_rfl
    rw [zpow_neg, zpow_natCast, ← inv_pow]
    exact pow_le_pow_of_le_one (by norm_num) (by norm_num) (by omega)

/-- The two-bar truss is pushed down by three quarters of the way to its turned-over position, with a number of iterations about
the binary logarithm of the number of digits. -/
example {w H E A : ℝ} (hw : 0 < w) (hH : 0 < H) (argsort : List Int → List Nat) (has : IsArgsort argsort) :
    ∃ s m1 m2 nt res h tol, ∃ K : Nat, (tbModel w H E A s).build argsort = .ok m1 ∧ m1.run exactEnv 1 = .ok m2 ∧ m1.nodes = some nt ∧
      m2.results = some res ∧ K * h = 3 / 2 * H ∧ 2 ^ s.nfev.toNat ≤ 14 * s.ftol ∧
      ∃ q, FollowsTrail nt.labels res.R (-1) h tol tbMove (vmLoad w H E A) K (1, 2 * H) q := by
  obtain ⟨h0, hh0, f0, hf0, L, G⟩ := C116_run_iterations (tbValid w H E A) (le_refl _) (tbUsual E A) (tbFree w H) (j := -1)
    (by decide) (by decide) (S := 3 / 2 * H) (by positivity) (tbTrail (E := E) (A := A) hw _) (exactEnv_solves 2) exactEnv_argmax
    rbSettings.nstatev
  obtain ⟨M, h, k, N, hh, hlt, hM, hk1, hk, hN, hN'⟩ := exists_small hh0 hf0 (T := 3 / 2 * H) (by positivity)
  set s : Settings ℝ := { rbSettings with
      j0 := some (-1), du := h, incs := .const (M + 1), xlimit := .const 1 (2 * H), xtol := k, ftol := k, nfev := N + 1, nsteps := 1 }
  obtain ⟨m1, m2, nt, res, q, g1, g2, g3, g4, g5, g6⟩ := G argsort has (tbModel w H E A s)
    (tbEntered w H E A s) (tbEnteredElems w H E A s) rfl rfl rfl (by show (0 : Int) ≤ 1; decide) h hh hlt
    ⟨rfl, rfl, rfl, by show (1 : ℝ) ≤ 101 / 100; norm_num, if_pos (by decide)⟩ hk (M + 1) (1, 2 * H) rfl rfl (le_refl _) (by simp)
    (by push_cast; rw [hM]) ⟨N, hN, hN, le_rfl⟩ 1 le_rfl
  refine ⟨s, m1, m2, nt, res, h, _, M + 1, g1, g2, g3, g4, by push_cast; exact hM, ?_, q, g5⟩
  show (2 : Int) ^ (((N : Int) + 1).toNat) ≤ 14 * (k : Int)
  rw [show ((N : Int) + 1).toNat = N + 1 by omega, pow_succ]
  have : 3 * 2 ^ N < 20 * (k : Int) := by exact_mod_cast hN'
  omega

/-- Pushed down in two steps. -/
example {w H E A : ℝ} (hw : 0 < w) (hH : 0 < H) (argsort : List Int → List Nat) (has : IsArgsort argsort) :
    ∃ s m1 m2 nt res h tol, ∃ K : Nat → Nat, (tb2Model w H E A s).build argsort = .ok m1 ∧ m1.run exactEnv 1 = .ok m2 ∧
      m1.nodes = some nt ∧ m2.results = some res ∧ K 1 * h = 3 / 4 * H ∧ 2 ^ s.nfev.toNat ≤ 14 * s.ftol ∧
      FollowsStages [(2, 2)] nt.labels res.R (-1) h tol (tb2Move (3 / 4 * H)) (tb2Load w H E A (3 / 4 * H)) 2 K := by
  have hTpos : 0 < 3 / 4 * H := by positivity
  set T := 3 / 4 * H with hTd
  obtain ⟨h0, hh0, f0, hf0, L, G⟩ := C116_stages_iterations (tb2Valid w H E A) (by norm_num) (tbUsual E A)
    (P := [(2, 2)]) ⟨(tbFree w H).order, (tbFree w H).mem⟩ (j := -1) (by decide) (by decide) (tb2Stages (E := E) (A := A) hw hTpos)
    (exactEnv_solves 2) exactEnv_argmax rbSettings.nstatev
  obtain ⟨M, h, k, N, hh, hlt, hM, hk1, hk, hN, hN'⟩ := exists_small hh0 (show 0 < min f0 (H / (4 * (|L| + 1))) by positivity) hTpos
  have hfpos : (0 : ℝ) < (10 : ℝ) ^ (-(k : Int)) := by positivity
  have hfH : L * (10 : ℝ) ^ (-(k : Int)) ≤ H / 4 := by
    have h1 : (10 : ℝ) ^ (-(k : Int)) * (4 * (|L| + 1)) ≤ H := by
      rw [← le_div_iff₀ (by positivity)]
      exact hk.trans (min_le_right _ _)
    have h2 := mul_le_mul_of_nonneg_right (le_abs_self L) hfpos.le
    linarith
  set s : Settings ℝ := { rbSettings with
      j0 := some (-1), du := h, incs := .const (M + 1), xlimit := .const 1 (2 * H), xtol := k, ftol := k, nfev := N + 1, nsteps := 2 }
  obtain ⟨m1, m2, nt, res, g1, g2, g3, g4, g5⟩ := G argsort has (tb2Model w H E A s) (tb2Entered w H E A s) (tbEnteredElems w H E A s)
    rfl rfl rfl (by show (0 : Int) ≤ 1; decide) h hh hlt ⟨rfl, rfl, rfl, by show (1 : ℝ) ≤ 101 / 100; norm_num, if_pos (by decide)⟩
    (hk.trans (min_le_left _ _)) (fun _ => M + 1) (fun _ => (1, 2 * H)) (by
      intro q hq
      refine ⟨rfl, rfl, by push_cast; exact hM, le_refl _, by simp, ?_⟩
      rintro t ⟨ht0, ht1⟩
      show |component [(2, 2)] (tb2Move T q t) (tb2Load w H E A T q t) 0| + L * (10 : ℝ) ^ (-(k : Int)) ≤ 2 * H
      have hc : component [(2, 2)] (tb2Move T q t) (tb2Load w H E A T q t) 0 = -(q * T + t) := by
        simp [component, tb2Move, tbMove]
      have hq1 : (q : ℝ) * T ≤ 1 * T := mul_le_mul_of_nonneg_right (by exact_mod_cast (by omega : q ≤ 1)) hTpos.le
      rw [hc, abs_neg, abs_of_nonneg (by positivity)]
      linarith)
    ⟨N, hN, hN, le_rfl⟩ 1 le_rfl
  refine ⟨s, m1, m2, nt, res, h, _, _, g1, g2, g3, g4, by push_cast; exact hM, ?_, g5⟩
  show (2 : Int) ^ (((N : Int) + 1).toNat) ≤ 14 * (k : Int)
  rw [show ((N : Int) + 1).toNat = N + 1 by omega, pow_succ]
  have : 3 * 2 ^ N < 20 * (k : Int) := by exact_mod_cast hN'
  omega

/-- The two-bar truss in the default mode. -/
example {w H E A dl : ℝ} (hw : 0 < w) (hH : 0 < H) (hE : 0 < E) (hA : 0 < A) (hdl : 0 < dl) (argsort : List Int → List Nat)
    (has : IsArgsort argsort) :
    ∃ s m1 m2 nt res t tol q, ∃ (K : Nat) (p : Nat → ℝ), s.jFixed = false ∧ (tbModel w H E A s).build argsort = .ok m1 ∧
      m1.run exactEnv 1 = .ok m2 ∧ m1.nodes = some nt ∧ m2.results = some res ∧ K * t = 2 * H ∧ 2 ^ s.nfev.toNat ≤ 28 * s.ftol ∧
      FollowsFree (tbInput w H) [(2, 2)] nt.labels res.R 1 dl (4 * H) tbMove (fun _ => tbMove 1) (vmLoad w H E A) (vmSlope w H E A)
        ((1 - 1 / 4) * t) ((1 + 1 / 4) * (1 * t)) tol K (1, 6 * H) q p := by
  obtain ⟨t0, ht0, φ0, hφ0, L, G⟩ := C116_default_iterations (tbValid w H E A) (le_refl _) (tbUsual E A) (tbFree w H)
    one_pos hdl (S := 4 * H) (by positivity) (tbFreeTrail hw hH hE hA dl _) (exactEnv_solves 2) exactEnv_argmax (η := 1 / 4) (W := 1)
    (by norm_num) le_rfl rbSettings.nstatev
  obtain ⟨M, t, -, -, htp, htlt, hM, -⟩ := exists_small ht0 one_pos (T := 2 * H) (by positivity)
  obtain ⟨-, -, k, N, -, -, -, hk1, hk, hN, hN'⟩ := exists_small one_pos (show 0 < min (φ0 * t) (min t (t * dl)) by positivity) one_pos
  have hf1 := hk.trans (min_le_left _ _)
  have hf2 := (hk.trans (min_le_right _ _)).trans (min_le_left _ _)
  have hf3 := (hk.trans (min_le_right _ _)).trans (min_le_right _ _)
  set s : Settings ℝ := { rbSettings with
      jFixed := false, j0 := none, du := t, dlpf := t * dl, incs := .const (M + 1), xlimit := .const 1 (6 * H), xtol := k, ftol := k,
      nfev := N + 2, nsteps := 1, dxtol := 5 / 4 }
  obtain ⟨m1, m2, nt, res, q, p, g1, g2, g3, g4, g5, g6⟩ := G argsort has (tbModel w H E A s)
    (tbEntered w H E A s) (tbEnteredElems w H E A s) rfl rfl rfl (by show (0 : Int) ≤ 1; decide) t htp htlt
    ⟨rfl, rfl, (mul_one t).symm, rfl, by show (1 : ℝ) + 1 / 4 ≤ 5 / 4; norm_num, (fun h => by cases h), by rw [mul_one]; exact hf2, hf3⟩
    hf1 (M + 1) (1, 6 * H) rfl rfl le_rfl (by simp) (by push_cast; linarith) ⟨N, hN, hN, le_rfl⟩ 1 le_rfl
  refine ⟨s, m1, m2, nt, res, t, _, q, M + 1, p, rfl, g1, g2, g3, g4, by push_cast; exact hM, ?_, g5⟩
  show (2 : Int) ^ (((N : Int) + 2).toNat) ≤ 28 * (k : Int)
  rw [show ((N : Int) + 2).toNat = N + 2 by omega, pow_succ, pow_succ]
  have : 3 * 2 ^ N < 20 * (k : Int) := by exact_mod_cast hN'
  omega

/-- The bar, controlling the load factor: `newton` finds the elongation 1/4 for the load factor 1/4 to 38 digits in 8 iterations. -/
example : ∃ r > 0, ∃ L : ℝ, ∀ x : Fin 2 → ℝ, (∀ i, |x i - ![1/4, 1/4] i| ≤ r) →
    ∃ a' o y, newton (extF (modelProblem sbCtx) [0, 0] 2 (1/4) false) (extDf (modelProblem sbCtx) 2) exactEnv.spsolve
        sbA (List.ofFn x) 8 (10 ^ (-38 : Int)) (10 ^ (-38 : Int)) = .ok (a', o) ∧ o.success = true ∧ o.x = List.ofFn y ∧
      ∀ i, |y i - ![1/4, 1/4] i| ≤ L * 10 ^ (-38 : Int) := by
  obtain ⟨a2, K, hK, hreg⟩ := sbMatrix (u := 1/4) (by norm_num) (1/4)
  obtain ⟨a1, h1⟩ := sbEquilibrium (u := 1/4) (by norm_num) (V0 := List.ofFn ![1/4, 1/4]) (by simp)
  obtain ⟨U, hU⟩ := exists_disp sbEvaluable (n := 1) rfl
  obtain ⟨a', h2⟩ := extF_closed sbEvaluable (n := 1) rfl (V0 := [0, 0]) rfl (j := 2) (k := 1) rfl (1/4) false ![1/4, 1/4] (hU _)
  have h3 : closedRes sbCtx [sbBar] ⟨[0, 0, 0, 1, 0, 0], [0, 0, 0, 0, 0, 0]⟩ sbA (n := 1) 1 (1/4) (U ![1/4, 1/4]) ![1/4, 1/4] = 0 := by
    rw [← sysRes_closed sbEvaluable (n := 1) rfl (V0 := [0, 0]) rfl (j := 2) (k := 1) rfl (1/4) ![1/4, 1/4] (hU _)]
    funext m
    refine Fin.lastCases ?_ (fun m => ?_) m
    · rw [sysRes_last sbEvaluable (n := 1) rfl (V0 := [0, 0]) rfl (j := 2) (k := 1) rfl]
      simp
    · rw [sysRes_first sbEvaluable (n := 1) rfl (V0 := [0, 0]) (V0' := List.ofFn ![1/4, 1/4]) rfl (by simp) (j := 2) (k := 1)
        (j' := 2) (k' := 1) rfl rfl (1/4) (1/4), sysRes_zero sbEvaluable (n := 1) rfl (j := 2) (k := 1) rfl (1/4) h1 m]
      rfl
  rw [h3] at h2
  obtain ⟨r, hr, L, h⟩ := C116_truss_newton_quadratic sbEvaluable rfl rfl (n := 1) rfl rfl ⟨by decide, by decide⟩ (1/4)
    (sbSmooth (by norm_num) _) (a1 := a') (by rw [h2]; simp [List.ofFn_succ, List.replicate]) hK hreg (exactEnv_solves 2)
  have hcalc : (1 / 2 : ℝ) ^ 2 ^ 7 < 10 ^ (-38 : Int) := by rw [zpow_neg]; norm_num
  exact ⟨r, hr, L, fun x hx => h _ _ 7 hcalc hcalc 8 (by norm_num) x hx⟩

end TrussPy
