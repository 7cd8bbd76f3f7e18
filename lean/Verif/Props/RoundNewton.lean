import Verif.Lemmas.RoundNewton
import Verif.Lemmas.Close
import Verif.ExamplesFix
import Verif.Props.Converge
/-!
# Property C109: the Newton iteration in rounded arithmetic
-/

set_option linter.unusedSectionVars false

namespace TrussPy

/-- **C109.** Let `z` be a zero of `φ` with regular derivative.  There are radii `ρ`, `r`, a bound `η0` on the errors and constants `κ`, `L`, `C` such that the
following holds for every number format with rounding error `δ`, for all functions `f`, `df` that return the values of `φ` and of its derivative near `z`
up to `η ≤ η0`, and for every linear solver with relative error up to `1/32` and absolute error up to `η` on systems with numbers and condition up to `κ`:
`newton`, started within `r` of `z`, reports success as soon as it is allowed `k + 1` iterations with `C ((3/4)^k + η)` below both
tolerances, and what it returns stands for a vector within `L * ftol` of `z`. -/
theorem C109_newton_rounded {n : Nat} {φ : (Fin n → ℝ) → Fin n → ℝ} {J : (Fin n → ℝ) → Matrix (Fin n) (Fin n) ℝ}
    {z : Fin n → ℝ} (hz : φ z = 0) (hφ : ContDiffAt ℝ 1 φ z)
    (hJ : ∀ᶠ x in nhds z, HasFDerivAt φ (LinearMap.toContinuousLinearMap (Matrix.toLin' (J x))) x)
    (hreg : IsUnit (J z).det) :
    ∃ ρ > 0, ∃ r > 0, ∃ η0 > 0, ∃ κ L C : ℝ, 0 ≤ κ ∧ ∀ (F : Type) [Zero F] [One F] [Add F] [Sub F] [Mul F] [Div F] [Neg F] [Flt F]
      (val : F → ℝ) (δ η θ τ : ℝ), Rounds val δ → C * δ ≤ η → η ≤ η0 → 0 ≤ θ → θ ≤ 1 / 32 → 0 ≤ τ → τ ≤ η →
      ∀ (S : Type) (I : S → Prop) (f : S → List F → Py (S × List F)) (df : S → List F → Py (S × List (List F)))
        (sp : List (List F) → List F → Py (List F)),
      ComputesNear val n I (fun x => ∀ i, |x i - z i| ≤ ρ) f df φ J η → SolvesNear val sp n κ θ τ →
      ∀ (ftol xtol : F), |val ftol| ≤ 1 / δ → |val xtol| ≤ 1 / δ →
      ∀ k : Nat, C * ((3 / 4) ^ k + η) < val ftol → C * ((3 / 4) ^ k + η) < val xtol →
      ∀ nfev : Int, (k : Int) + 1 ≤ nfev → ∀ (s : S) (x : Fin n → F), I s → (∀ i, |val (x i) - z i| ≤ r) →
        ∃ s' o y, newton f df sp s (List.ofFn x) nfev ftol xtol = .ok (s', o) ∧ I s' ∧ o.success = true ∧
          o.x = List.ofFn y ∧ ∀ i, |val (y i) - z i| ≤ L * val ftol := by
  obtain ⟨ρ, ε, M, hρ, ht⟩ := exists_tame hφ hJ hreg
  set A := mulCLM (J z)
  have hM := ht.pos
  set B := ‖A‖ + ε with hBd
  have hB0 : 0 ≤ B := add_nonneg (norm_nonneg _) ht.eps
  have hεB : ε ≤ B := by have := norm_nonneg A; linarith
  have hAB : ∀ v, ‖A v‖ ≤ B * ‖v‖ := fun v => (A.le_opNorm v).trans (mul_le_mul_of_nonneg_right (by have := ht.eps; linarith) (norm_nonneg _))
  have hQ0 : 0 ≤ ‖z‖ + ρ := by positivity
  obtain ⟨η0, hη0, κ, R, hR0, hfine⟩ := fine_of_small n hM hB0 hQ0 hρ
  set α := ρ / (10 * M) with hα
  have hα0 : 0 < α := by positivity
  have hr0 : 0 < min ρ (α / (B + 1)) := by positivity
  have hn0 : (0 : ℝ) ≤ n := Nat.cast_nonneg n
  set E := (8 * n * (5 + 4 * B) + 2 * n + 1) + (2 * n * (9 * M * (5 + 4 * B) + 5 * M) + 1) with hE
  have hE0 : 1 ≤ E := by
    have : 0 ≤ 8 * (n : ℝ) * (5 + 4 * B) + 2 * n + (2 * n * (9 * M * (5 + 4 * B) + 5 * M) + 1) := by positivity
    linarith
  have hnM : 0 ≤ 2 * (n : ℝ) * (1 + 9 / 4 * M) := by positivity
  set D := 2 * n * (1 + 9 / 4 * M) + E with hD
  have hD1 : 1 ≤ D := by linarith
  refine ⟨ρ, hρ, min ρ (α / (B + 1)), hr0, η0, hη0, max κ 0, 10 * M, R + D * (α + 1), le_max_right _ _, ?_⟩
  intro F _ _ _ _ _ _ _ _ val δ η θ τ hR hδη hηη hθ0 hθ hτ0 hτ S I f df sp hC hsp ftol xtol hft hxt k hkf hkx nfev hnf s x hI hx
  have hδ := hR.pos
  have hDα : 0 ≤ D * (α + 1) := by positivity
  have hF := hfine δ η θ τ hδ (le_trans (mul_le_mul_of_nonneg_right (by linarith) hδ.le) hδη) hηη hθ0 hθ hτ0 hτ
  have hη := hF.eta0
  have hxz : ‖(fun i => val (x i)) - z‖ ≤ min ρ (α / (B + 1)) := (pi_norm_le_iff_of_nonneg hr0.le).2 fun i => hx i
  have hxρ := hxz.trans (min_le_left _ _)
  have hzz : ‖z - z‖ ≤ ρ := by rw [sub_self, norm_zero]; exact hρ.le
  have hφα : ‖φ fun i => val (x i)‖ ≤ α := by
    have h1 := ht.diff (fun i => val (x i)) z hxρ hzz
    rw [hz, sub_zero] at h1
    have h2 : ‖φ fun i => val (x i)‖ ≤ B * ‖(fun i => val (x i)) - z‖ := by
      calc ‖φ fun i => val (x i)‖ = ‖((φ fun i => val (x i)) - A ((fun i => val (x i)) - z)) + A ((fun i => val (x i)) - z)‖ := by congr 1; abel
        _ ≤ _ := norm_add_le _ _
        _ ≤ ε * ‖(fun i => val (x i)) - z‖ + ‖A‖ * ‖(fun i => val (x i)) - z‖ := add_le_add h1 (A.le_opNorm _)
        _ = _ := by rw [hBd]; ring
    have h3 := hxz.trans (min_le_right _ _)
    have h4 : (B + 1) * (α / (B + 1)) = α := mul_div_cancel₀ _ (by linarith)
    have h5 : B * ‖(fun i => val (x i)) - z‖ ≤ (B + 1) * (α / (B + 1)) := mul_le_mul (by linarith) h3 (norm_nonneg _) (by linarith)
    linarith
  have hC' : ComputesNear val n I (fun x => ‖x - z‖ ≤ ρ) f df φ J η := by
    have hD : ∀ x : Fin n → ℝ, ‖x - z‖ ≤ ρ → ∀ i, |x i - z i| ≤ ρ := fun x hx i => (norm_le_pi_norm (x - z) i).trans hx
    exact ⟨fun s x hI hx => hC.value s x hI (hD _ hx), fun s x hI hx => hC.matrix s x hI (hD _ hx)⟩
  have hsp' : SolvesNear val sp n κ θ τ := by
    have hκ : κ = max κ 0 := by
      rw [max_eq_left]
      have := hF.kappa2
      linarith
    rw [hκ]
    exact hsp
  have hpow : (0 : ℝ) ≤ (3 / 4) ^ k := by positivity
  have hN : ∀ t : ℝ, (R + D * (α + 1)) * ((3 / 4) ^ k + η) < t → D * α * (3 / 4) ^ k + D * η < t := by
    intro t ht
    refine lt_of_le_of_lt ?_ ht
    have h1 : 0 ≤ R * ((3 / 4) ^ k + η) := by positivity
    have h2 : 0 ≤ D * (3 / 4) ^ k := by positivity
    have h3 : 0 ≤ D * α * η := by positivity
    linarith
  obtain ⟨s', o, y, g1, g2, g3, g4, g5, g6⟩ := newton_rounded hR hC' hsp' ht hAB hεB hF le_rfl hρ.le hz hft hxt hnf (p := α) (C := D) hI hxρ hφα hφα
    (by linarith) (by linarith) (hN _ hkf) (hN _ hkx)
  refine ⟨s', o, y, g1, g2, g3, g4, fun i => ?_⟩
  have h1 := ht.near_zero hρ.le hz g5 g6
  have h2 := norm_le_pi_norm ((fun i => val (y i)) - z) i
  rw [Pi.sub_apply, Real.norm_eq_abs] at h2
  have h3 : η ≤ val ftol := by
    have h3 := hN _ hkf
    have h4 : 0 ≤ D * α * (3 / 4) ^ k := by positivity
    have h5 : η ≤ D * η := le_mul_of_one_le_left hη hD1
    linarith
  have h4 : M * (2 * val ftol + 3 * η) ≤ M * (5 * val ftol) := mul_le_mul_of_nonneg_left (by linarith) hM.le
  linarith

/-! ## The hypotheses are met -/

/-- The equation `v² = 2` in fixed-point arithmetic, as functions on lists. -/
noncomputable def fixRootF {p : Nat} (s : Unit) (V : List (Fix p)) : Py (Unit × List (Fix p)) := .ok (s, V.map fun v => v * v - (1 + 1))

/-- Its derivative. -/
noncomputable def fixRootDf {p : Nat} (s : Unit) (V : List (Fix p)) : Py (Unit × List (List (Fix p))) := .ok (s, V.map fun v => [(1 + 1) * v])

theorem root_hasFDeriv (x : Fin 1 → ℝ) : HasFDerivAt (fun (x : Fin 1 → ℝ) (i : Fin 1) => x i * x i - 2)
    (LinearMap.toContinuousLinearMap (Matrix.toLin' (Matrix.of fun (_ _ : Fin 1) => 2 * x 0))) x := by
  rw [hasFDerivAt_pi']
  intro i
  have hp : HasFDerivAt (fun x : Fin 1 → ℝ => x i) (ContinuousLinearMap.proj (R := ℝ) (φ := fun _ => ℝ) i) x :=
    (ContinuousLinearMap.proj (R := ℝ) (φ := fun _ : Fin 1 => ℝ) i).hasFDerivAt
  refine ((hp.mul hp).sub_const 2).congr_fderiv ?_
  ext1 v
  show x i * v i + x i * v i = (Matrix.toLin' (Matrix.of fun (_ _ : Fin 1) => 2 * x 0)) v i
  rw [Matrix.toLin'_apply]
  simp only [Matrix.mulVec, dotProduct, Matrix.of_apply, Finset.univ_unique, Finset.sum_singleton]
  rw [Subsingleton.elim i 0]
  show _ = 2 * x 0 * v 0
  ring

/-- With enough binary places, `newton` in fixed-point arithmetic finds the square root of 2 to any accuracy. -/
example (tol : ℝ) (htol : 0 < tol) : ∃ p0 : Nat, ∀ p, p0 ≤ p → ∃ (x ftol y : Fix p) (nfev : Int) (o : NewtonOut (Fix p)),
    newton fixRootF fixRootDf Fix.solve () [x] nfev ftol ftol = .ok ((), o) ∧ o.success = true ∧ o.x = [y] ∧ |Fix.val y - √2| ≤ tol := by
  obtain ⟨ρ, hρ, r, hr, η0, hη0, κ, L, C, hκ, H⟩ := C109_newton_rounded (n := 1) (φ := fun x i => x i * x i - 2)
    (J := fun x => Matrix.of fun _ _ => 2 * x 0) (z := fun _ => √2)
    (by funext i; show √2 * √2 - 2 = (0 : ℝ); rw [Real.mul_self_sqrt (by norm_num)]; ring) (by fun_prop)
    (Filter.Eventually.of_forall root_hasFDeriv) (by rw [Matrix.det_fin_one]; simp)
  set C0 := 4 + ρ with hC0d
  have hC0 : 1 ≤ C0 := by linarith
  set Λ := lev C0 3 + |C| + κ + 1 with hΛ
  have hl3 := lev_ge hC0 3
  have hΛ1 : 1 ≤ Λ := by have := abs_nonneg C; linarith
  set T := min 1 (tol / (|L| + 1)) / 2 with hT
  have hT0 : 0 < T := by positivity
  have hT1 : T ≤ 1 / 2 := by have := min_le_left 1 (tol / (|L| + 1)); linarith
  have hTL : (|L| + 1) * (2 * T) ≤ tol := by
    have h1 : 2 * T ≤ tol / (|L| + 1) := by have := min_le_right 1 (tol / (|L| + 1)); linarith
    rw [le_div_iff₀ (by positivity)] at h1
    linarith
  set σ := min (min (η0 / Λ) (T / 4 / (|C| * Λ + 1))) (min (min (T / 4) r) (1 / Λ)) with hσ
  have hσ0 : 0 < σ := by positivity
  obtain ⟨p0, hp0⟩ := exists_pow_lt_of_lt_one hσ0 (by norm_num : (1 / 2 : ℝ) < 1)
  obtain ⟨k, hk⟩ := exists_pow_lt_of_lt_one (show 0 < T / 4 / (|C| + 1) by positivity) (by norm_num : (3 / 4 : ℝ) < 1)
  refine ⟨p0, fun p hp => ?_⟩
  have hδ0 : (0 : ℝ) < 1 / 2 ^ p := by positivity
  have hδσ : (1 : ℝ) / 2 ^ p ≤ σ := by
    have h1 : ((1 : ℝ) / 2) ^ p ≤ (1 / 2) ^ p0 := pow_le_pow_of_le_one (by norm_num) (by norm_num) hp
    rw [div_pow, one_pow] at h1
    exact h1.trans hp0.le
  have d1 : Λ * (1 / 2 ^ p) ≤ η0 := by
    have := hδσ.trans ((min_le_left _ _).trans (min_le_left _ _))
    rw [le_div_iff₀ (by linarith)] at this
    linarith
  have d2 : |C| * (Λ * (1 / 2 ^ p)) ≤ T / 4 := by
    have := hδσ.trans ((min_le_left _ _).trans (min_le_right _ _))
    rw [le_div_iff₀ (by positivity)] at this
    linarith
  have d3 : (1 : ℝ) / 2 ^ p ≤ T / 4 := hδσ.trans ((min_le_right _ _).trans ((min_le_left _ _).trans (min_le_left _ _)))
  have d4 : (1 : ℝ) / 2 ^ p ≤ r := hδσ.trans ((min_le_right _ _).trans ((min_le_left _ _).trans (min_le_right _ _)))
  have d5 : 1 / 2 ^ p * Λ ≤ 1 := by
    have := hδσ.trans ((min_le_right _ _).trans (min_le_right _ _))
    rwa [le_div_iff₀ (by linarith)] at this
  have hR := Fix.rounds p
  generalize hδd : (1 : ℝ) / 2 ^ p = δ at *
  have hft := abs_le.1 ((Fix.round_le (p := p) T).trans_eq hδd)
  have hlev : ∀ m, m ≤ 3 → δ * lev C0 m ≤ 1 := by
    intro m hm
    have h1 : lev C0 m ≤ Λ := (lev_mono hC0 hm).trans (by have := abs_nonneg C; linarith)
    exact (mul_le_mul_of_nonneg_left h1 hδ0.le).trans d5
  have hbig : (1 : ℝ) ≤ 1 / δ := by
    rw [le_div_iff₀ hδ0]
    linarith
  have htk : C * ((3 / 4) ^ k + Λ * δ) < Fix.val (Fix.round T : Fix p) := by
    have h1 : C * ((3 / 4) ^ k + Λ * δ) ≤ |C| * ((3 / 4) ^ k + Λ * δ) := mul_le_mul_of_nonneg_right (le_abs_self C) (by positivity)
    rw [lt_div_iff₀ (by positivity)] at hk
    have h2 : (0 : ℝ) < (3 / 4) ^ k := by positivity
    have := hft.1
    linarith
  have hs2 : √2 ≤ 2 := by
    rw [Real.sqrt_le_left (by norm_num)]
    norm_num
  have hvb : ∀ v : Fix p, |Fix.val v - √2| ≤ ρ → Close Fix.val δ (lev C0 0) v (Fix.val v) := by
    intro v hv
    refine close_self hδ0.le ?_
    have h1 := abs_add_le (Fix.val v - √2) √2
    rw [sub_add_cancel, abs_of_nonneg (Real.sqrt_nonneg 2)] at h1
    show _ ≤ C0
    linarith
  have htwo : Close Fix.val δ (lev C0 1) ((1 : Fix p) + 1) 2 := by
    have h1 := close_one hR hC0 (hlev 1 (by omega))
    have := h1.add hR hC0 (hlev 1 (by omega)) h1
    rwa [show (1 : ℝ) + 1 = 2 by norm_num] at this
  have hfin : ∀ {x : Fix p} {t : ℝ}, Close Fix.val δ (lev C0 2) x t → |Fix.val x - t| ≤ Λ * δ := by
    intro x t h
    refine h.err.trans (mul_le_mul_of_nonneg_right ?_ hδ0.le)
    exact (lev_mono hC0 (by omega : 2 ≤ 3)).trans (by have := abs_nonneg C; linarith)
  obtain ⟨s', o, y, h1, -, h2, h3, h4⟩ := H (Fix p) Fix.val δ (Λ * δ) 0 (1 * κ * δ) hR
    (mul_le_mul_of_nonneg_right (by have := le_abs_self C; linarith) hδ0.le) d1 le_rfl (by norm_num) (by positivity)
    (mul_le_mul_of_nonneg_right (by have := abs_nonneg C; linarith) hδ0.le) Unit (fun _ => True) fixRootF fixRootDf Fix.solve
    ⟨fun s x _ hx => by
      refine ⟨s, fun i => x i * x i - (1 + 1), by unfold fixRootF; rw [List.map_ofFn]; rfl, trivial, fun i => hfin ?_⟩
      have hv := hvb (x i) (hx i)
      exact (hv.mul hR hC0 (hlev 1 (by omega)) hv).sub hR (lev_ge hC0 1) (hlev 2 (by omega)) htwo,
    fun s x _ hx => by
      refine ⟨s, [[(1 + 1) * x 0]], by unfold fixRootDf; simp [List.ofFn_succ], trivial, rfl, by simp, fun i j => ?_⟩
      rw [Subsingleton.elim i 0, Subsingleton.elim j 0]
      show |Fix.val ((1 + 1) * x 0) - 2 * Fix.val (x 0)| ≤ _
      exact hfin (htwo.mul hR (lev_ge hC0 1) (hlev 2 (by omega)) ((hvb (x 0) (hx 0)).mono hδ0.le (lev_mono hC0 (by omega))))⟩
    (by have := Fix.solve_near (p := p) 1 hκ; rw [hδd] at this; simpa using this) (Fix.round T) (Fix.round T)
    (by rw [abs_le]; constructor <;> linarith [hft.1, hft.2]) (by rw [abs_le]; constructor <;> linarith [hft.1, hft.2]) k htk htk (k + 1) le_rfl ()
    (fun _ => Fix.round √2) trivial (fun i => ((Fix.round_le (p := p) √2).trans_eq hδd).trans d4)
  refine ⟨Fix.round √2, Fix.round T, y 0, k + 1, o, ?_, h2, by rw [h3]; simp [List.ofFn_succ], (h4 0).trans ?_⟩
  · rw [← h1]
    rfl
  · have h5 : L * Fix.val (Fix.round T : Fix p) ≤ |L| * Fix.val (Fix.round T : Fix p) :=
      mul_le_mul_of_nonneg_right (le_abs_self L) (by linarith [hft.1])
    have h6 : |L| * Fix.val (Fix.round T : Fix p) ≤ |L| * (2 * T) := mul_le_mul_of_nonneg_left (by linarith [hft.2]) (abs_nonneg L)
    linarith

end TrussPy
