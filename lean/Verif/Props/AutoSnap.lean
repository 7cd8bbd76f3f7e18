import Verif.Props.Auto
import Verif.Props.Snap
import Verif.Lemmas.SnapSlope
/-!
# Property C102 for concrete trusses: one bar, and the two-bar truss through its limit points
-/

set_option linter.unusedSectionVars false

namespace TrussPy

theorem vmFree {w H E A : ℝ} (hw : 0 < w) (hH : 0 < H) (hE : 0 < E) (hA : 0 < A) (dl S : ℝ) :
    FreePath (n := 1) (vmCtx w H E A) (vmBars w H E A) vmA ![1, dl] S (fun s => ![-s, vmLoad w H E A s])
      fun s => ![-1, vmSlope w H E A s] := by
  have hp : ∀ s, EquilPath (n := 1) (vmCtx w H E A) (vmBars w H E A) vmA 1 0 0 fun r => ![-s + r * ((1 : Int).sign : ℝ),
      oneDofLoad (vmCtx w H E A) (vmBars w H E A) vmA ⟨[0, 0, 0, 0, 0, -1, 0, 0, 0], [0, 0, 0, 0, 0, 0, 0, 0, 0]⟩ 5
        (-s + r * ((1 : Int).sign : ℝ))] := fun s =>
    one_dof_path (vmEvaluable w H E A) rfl rfl (p := 5) rfl (by simp) (j := 1) rfl fun r _ => vmCalm hw H E A _ _
  have hv : ∀ s, ![-s + 0 * ((1 : Int).sign : ℝ),
      oneDofLoad (vmCtx w H E A) (vmBars w H E A) vmA ⟨[0, 0, 0, 0, 0, -1, 0, 0, 0], [0, 0, 0, 0, 0, 0, 0, 0, 0]⟩ 5
        (-s + 0 * ((1 : Int).sign : ℝ))] = ![-s, vmLoad w H E A s] := by
    intro s
    have h1 : -s + 0 * (((1 : Int).sign : Int) : ℝ) = 0 + s * (((-1 : Int).sign : Int) : ℝ) := by
      rw [show ((-1 : Int).sign : Int) = -1 from rfl]
      push_cast
      ring
    rw [h1, vmLoad_eq hw, ← h1, zero_mul, add_zero]
  have h0 : (0 : ℝ) ∈ Set.Icc (0 : ℝ) 0 := ⟨le_rfl, le_rfl⟩
  refine ⟨fun s _ => ?_, ?_, fun s _ => ⟨0, by simp⟩, ?_, fun s _ => ?_, fun s _ => vmCalm hw H E A _ _, fun s _ => ?_⟩
  · refine HasDerivAt.hasDerivWithinAt (hasDerivAt_pi.2 fun i => ?_)
    fin_cases i
    · exact (hasDerivAt_id s).neg
    · exact vmLoad_deriv hw H E A s
  · refine continuousOn_pi.2 fun i => ?_
    fin_cases i
    · exact continuousOn_const
    · exact (vmSlope_cont hw H E A).continuousOn
  · exact vmSlope_start hH hE hA
  · have := (hp s).equilibrium 0 h0
    simp only [hv] at this
    exact this
  · obtain ⟨a2, K, e1, e2⟩ := (hp s).regular 0 h0
    simp only [hv] at e1
    exact ⟨1, a2, K, le_rfl, by norm_num, e1, e2⟩

/-- **C102, two-bar truss.** In its default mode, without control by displacement being asked for, `pathfollow` follows the
two-bar truss over any distance `S` along the closed-form load curve, through the load maximum and the flat position and beyond:
the `m`-th recorded apex displacement and load factor are those of a common `p m` up to `L * ftol`, and `p m` grows. -/
theorem C102_two_bar_default_control {w H E A : ℝ} (hw : 0 < w) (hH : 0 < H) (hE : 0 < E) (hA : 0 < A) {dl S : ℝ} (hdl : 0 < dl)
    (hS : 0 < S) {env : Env ℝ} (hsp : SolvesRegular env.spsolve 2) (hAm : ArgMax env) {η W : ℝ} (hη : 0 < η) (hW1 : 1 ≤ W) :
    ∃ t0 > 0, ∃ φ0 > 0, ∃ L C : ℝ, ∀ (t : ℝ), 0 < t → t < t0 → ∀ (cfg : PFCfg ℝ), cfg.jFixed = false → cfg.jPre = true →
      (cfg.stepcontrol = true → 1 ≤ cfg.maxfac ∧ 0 ≤ cfg.increase ∧ cfg.maxfac * (1 + cfg.increase) ≤ W) →
      1 + η ≤ cfg.dxtol → 0 < cfg.ftol → cfg.ftol ≤ φ0 * t → cfg.xtol ≤ t → cfg.xtol ≤ t * dl →
      cfg.dxmax = .vec [t, t * dl] → cfg.xlimit = none → cfg.incs * ((1 + η) * (W * t)) ≤ S →
      ∀ N : Nat, Shrinks C t cfg.ftol N → Shrinks C t cfg.xtol N → (N : Int) + 2 ≤ cfg.nfev →
      ∀ fuel : Nat, 1 ≤ fuel → ∃ o, pathfollow env (modelProblem (vmCtx w H E A)) cfg fuel [0] vmA = .ok o ∧
        o.recs.length = cfg.incs ∧
        ∃ p : Nat → ℝ, p 0 = 0 ∧ ∀ (m : Nat) (r : Rec ℝ), o.recs[m]? = some r → r.out = .accepted ∧ p m < p (m + 1) ∧
          p (m + 1) ≤ p m + (1 + η) * (W * t) ∧ (1 - η) * t ≤ max 1 (4 * E * A / w / dl) * (p (m + 1) - p m) ∧
          ∃ u l, r.x = [u, l] ∧ |u + p (m + 1)| ≤ L * cfg.ftol ∧ |l - vmLoad w H E A (p (m + 1))| ≤ L * cfg.ftol := by
  obtain ⟨t0, ht0, φ0, hφ0, L, C, G⟩ := C102_follows_free_path (vmEvaluable w H E A) (vmReady w H E A) rfl
    (n := 1) rfl le_rfl (d := ![1, dl]) (by intro i; fin_cases i <;> simp [hdl]) hS (vmFree hw hH hE hA dl S) (x := [0])
    (by simp [List.ofFn_succ, vmLoad]) hsp hAm hη hW1
  refine ⟨t0, ht0, φ0, hφ0, L, C, ?_⟩
  intro t ht htlt cfg hjf hjp hsc hdx hft hftle hx1 hx2 hdm hxl hincs N hN1 hN2 hN fuel hfuel
  obtain ⟨o, g1, ⟨p, g2, g3⟩, g4⟩ := G t ht htlt cfg hjf hjp hsc hdx hft hftle
    (by intro i; fin_cases i <;> simp [hx1, hx2]) (by rw [hdm]; simp [initDxmax, List.ofFn_succ])
    (fun q hq => by rw [hxl] at hq; cases hq) hincs N hN1 hN2 hN fuel hfuel
  refine ⟨o, g1, ?_, p, g2, fun m r hm => ?_⟩
  · rcases g4 with g4 | ⟨_, _, q, -, hq, -⟩
    · exact g4
    · rw [hxl] at hq; cases hq
  · obtain ⟨k1, -, k2, -, k3, k4, ⟨y, k5, k6⟩, -⟩ := g3 m r hm
    refine ⟨k1, k2, k3, k4 _ fun s _ i => ?_, y 0, y 1, ?_, ?_, k6 1⟩
    · fin_cases i
      · simp
      · show |vmSlope w H E A s| ≤ max 1 (4 * E * A / w / dl) * dl
        refine (vmSlope_bound hw hE hA s).trans ?_
        rw [← div_le_iff₀ hdl]
        exact le_max_right _ _
    · rw [k5]; simp [List.ofFn_succ]
    · have := k6 0
      simpa using this

/-- A growing sequence with small steps meets every interval longer than the steps. -/
theorem exists_between {p : Nat → ℝ} {K : Nat} {q δ : ℝ} (h0 : p 0 ≤ q) (hK : q < p K) (hstep : ∀ m < K, p (m + 1) ≤ p m + δ) :
    ∃ m < K, q < p (m + 1) ∧ p (m + 1) ≤ q + δ := by
  induction K with
  | zero => exact absurd hK (not_lt.2 h0)
  | succ K ih =>
    by_cases h : q < p K
    · obtain ⟨m, h1, h2⟩ := ih h fun m hm => hstep m (by omega)
      exact ⟨m, by omega, h2⟩
    · exact ⟨K, by omega, hK, (hstep K (by omega)).trans (by linarith)⟩

/-! ## The hypotheses are met

For every width of the load step there are settings with which the default mode goes through the snap-through: a recorded load
factor beyond the flat position is negative. -/

example {w H E A dl : ℝ} (hw : 0 < w) (hH : 0 < H) (hE : 0 < E) (hA : 0 < A) (hdl : 0 < dl) : ∃ cfg o r u l,
    cfg.jFixed = false ∧ pathfollow exactEnv (modelProblem (vmCtx w H E A)) cfg 1 [0] vmA = .ok o ∧ r ∈ o.recs ∧ r.out = .accepted ∧
      r.x = [u, l] ∧ u < -H ∧ l < 0 := by
  set G := max 1 (4 * E * A / w / dl) with hG
  have hG1 : 1 ≤ G := le_max_left _ _
  have hG0 : 0 < G := by linarith
  obtain ⟨t0, ht0, φ0, hφ0, L, C, key⟩ := C102_two_bar_default_control hw hH hE hA hdl (S := 4 * G * H) (by positivity)
    (exactEnv_solves 2) exactEnv_argmax (η := 1 / 4) (W := 1) (by norm_num) le_rfl
  -- the load is negative between `3/2 H` and `7/4 H`
  have hneg := (C100_load_reverses hw hH hE hA).2.2.2.2.1
  obtain ⟨q, hq, hqmax⟩ := (isCompact_Icc (a := 3 / 2 * H) (b := 7 / 4 * H)).exists_isMaxOn
    ⟨3 / 2 * H, le_rfl, by linarith⟩
    (continuousOn_of_forall_continuousAt fun s _ => (vmLoad_deriv hw H E A s).continuousAt)
  have hlam := hneg q (by linarith [hq.1]) (by linarith [hq.2])
  set lam := vmLoad w H E A q with hlamd
  -- the number of increments
  obtain ⟨M, hM⟩ := exists_nat_gt (max (16 / 5 * G * H / t0) (16 * G))
  have hM1 : 16 / 5 * G * H / t0 < M := (le_max_left _ _).trans_lt hM
  have hM2 : 16 * G < M := (le_max_right _ _).trans_lt hM
  have hM0 : (0 : ℝ) < M := by linarith
  rw [div_lt_iff₀ ht0] at hM1
  set t := 16 / 5 * G * H / M with ht
  have htpos : 0 < t := by positivity
  have hMt : M * t = 16 / 5 * G * H := by rw [ht]; field_simp
  have htlt : t < t0 := by rw [ht, div_lt_iff₀ hM0]; linarith
  have htH : t < H / 5 := by
    rw [ht, div_lt_iff₀ hM0]
    nlinarith
  -- the tolerance
  set f := min (min (φ0 * t) (min t (t * dl))) (min (-lam) H / (2 * (|L| + 1))) with hf
  have hfpos : 0 < f := by
    have : 0 < min (-lam) H := lt_min (by linarith) hH
    positivity
  have hf1 : f ≤ φ0 * t := (min_le_left _ _).trans (min_le_left _ _)
  have hf2 : f ≤ t := (min_le_left _ _).trans ((min_le_right _ _).trans (min_le_left _ _))
  have hf3 : f ≤ t * dl := (min_le_left _ _).trans ((min_le_right _ _).trans (min_le_right _ _))
  have hfL : 2 * (L * f) ≤ min (-lam) H := by
    have h1 : f * (2 * (|L| + 1)) ≤ min (-lam) H := by
      rw [← le_div_iff₀ (by positivity)]
      exact min_le_right _ _
    have h2 : L * f ≤ |L| * f := mul_le_mul_of_nonneg_right (le_abs_self L) hfpos.le
    linarith
  have hfl : 2 * (L * f) ≤ -lam := hfL.trans (min_le_left _ _)
  have hfH : 2 * (L * f) ≤ H := hfL.trans (min_le_right _ _)
  obtain ⟨N, hN⟩ := pow_unbounded_of_one_lt (C * t / f) (by norm_num : (1 : ℝ) < 2)
  rw [div_lt_iff₀ hfpos, mul_comm (2 ^ N)] at hN
  obtain ⟨o, g1, g2, p, g3, g4⟩ := key t htpos htlt
    ⟨.vec [t, t * dl], none, false, true, none, M, N + 2, 1, f, f, false, 1, 1, 1, 1, 5 / 4⟩
    rfl rfl (fun h => by cases h) (by norm_num) hfpos hf1 hf2 hf3 rfl rfl (by show (M : ℝ) * _ ≤ _; nlinarith) N (.inl hN) (.inl hN) le_rfl 1 le_rfl
  have g2 : o.recs.length = M := g2
  have hrec : ∀ m < M, ∃ r, o.recs[m]? = some r := fun m hm => ⟨_, List.getElem?_eq_getElem (by omega)⟩
  -- progress
  have hprog : ∀ m ≤ M, m * (3 / 4 * t) ≤ G * p m := by
    intro m
    induction m with
    | zero => intro _; rw [g3]; simp
    | succ m ih =>
      intro hm
      obtain ⟨r, hr⟩ := hrec m (by omega)
      obtain ⟨-, -, -, k, -⟩ := g4 m r hr
      have k : (1 - 1 / 4) * t ≤ G * (p (m + 1) - p m) := k
      have := ih (by omega)
      push_cast
      linarith
  have hend : 3 / 2 * H < p M := by
    have h1 := hprog M le_rfl
    have h2 : G * (3 / 2 * H) < G * p M := by nlinarith
    exact lt_of_mul_lt_mul_left h2 hG0.le
  obtain ⟨m, hm, h1, h2⟩ := exists_between (p := p) (K := M) (q := 3 / 2 * H) (δ := 5 / 4 * t) (by rw [g3]; positivity) hend
    (fun m hm => by
      obtain ⟨r, hr⟩ := hrec m hm
      obtain ⟨-, -, k, -⟩ := g4 m r hr
      linarith)
  obtain ⟨r, hr⟩ := hrec m hm
  obtain ⟨k1, -, -, -, u, l, k2, k3, k4⟩ := g4 m r hr
  have hmax : vmLoad w H E A (p (m + 1)) ≤ lam := hqmax ⟨h1.le, by linarith⟩
  have k3 : |u + p (m + 1)| ≤ L * f := k3
  have k4 : |l - vmLoad w H E A (p (m + 1))| ≤ L * f := k4
  refine ⟨_, o, r, u, l, rfl, g1, List.mem_of_getElem? hr, k1, k2, ?_, ?_⟩
  · have := (abs_le.1 k3).2
    linarith
  · have := (abs_le.1 k4).2
    linarith

theorem sbFree (S : ℝ) : FreePath (n := 1) sbCtx [sbBar] sbA ![1, 1] S (fun s => ![s, s]) fun _ => ![1, 1] where
  deriv s _ := by
    refine HasDerivAt.hasDerivWithinAt (hasDerivAt_pi.2 fun i => ?_)
    fin_cases i <;> exact hasDerivAt_id s
  derivCont := continuousOn_const
  speed _ _ := ⟨0, by simp⟩
  start := by simp
  equilibrium s hs := sbEquilibrium hs.1 (by simp)
  calm s hs := (sbSmooth hs.1 s).calm (by intro b hb; rw [List.mem_singleton.1 hb]; rfl)
  regular s hs := by
    obtain ⟨a2, K, h1, h2⟩ := sbMatrix hs.1 s
    exact ⟨2, a2, K, by norm_num, by norm_num, h1, h2⟩

/-- One bar, with step control: the width grows up to `4 * (1 + 1/2)` times the initial one. -/
example : ∃ t0 > 0, ∃ φ0 > 0, ∃ L C : ℝ, ∀ (t : ℝ), 0 < t → t < t0 → ∀ (cfg : PFCfg ℝ), cfg.jFixed = false → cfg.jPre = true →
      (cfg.stepcontrol = true → 1 ≤ cfg.maxfac ∧ 0 ≤ cfg.increase ∧ cfg.maxfac * (1 + cfg.increase) ≤ 6) →
      1 + 1 / 10 ≤ cfg.dxtol → 0 < cfg.ftol → cfg.ftol ≤ φ0 * t → (∀ i, cfg.xtol ≤ t * (![1, 1] : Fin 2 → ℝ) i) →
      initDxmax ([0] ++ [0]) cfg.dxmax = (List.ofFn fun i : Fin 2 => t * (![1, 1] : Fin 2 → ℝ) i) →
      (∀ p, cfg.xlimit = some p → 1 ≤ p.1 ∧ p.1 ≤ (1 : Nat) + 1) → cfg.incs * ((1 + 1 / 10) * (6 * t)) ≤ 10 →
      ∀ N : Nat, Shrinks C t cfg.ftol N → Shrinks C t cfg.xtol N → (N : Int) + 2 ≤ cfg.nfev →
      ∀ fuel : Nat, 1 ≤ fuel → ∃ o, pathfollow exactEnv (modelProblem sbCtx) cfg fuel [0] sbA = .ok o ∧
        ∀ (m : Nat) (r : Rec ℝ), o.recs[m]? = some r → r.out = .accepted ∧ ∃ u l, r.x = [u, l] ∧ |u - l| ≤ L * cfg.ftol := by
  obtain ⟨t0, ht0, φ0, hφ0, L, C, G⟩ := C102_follows_free_path sbEvaluable
    ⟨⟨sbEvaluable.fits, sbEvaluable.statev, rfl, rfl, rfl⟩, ⟨_, rfl, rfl, rfl⟩, rfl⟩ rfl
    (n := 1) rfl le_rfl (d := ![1, 1])
    (by intro i; fin_cases i <;> simp) (by norm_num : (0 : ℝ) < 10) (sbFree 10) (x := [0])
    (by simp [List.ofFn_succ]) (exactEnv_solves 2) exactEnv_argmax (η := 1 / 10) (W := 6) (by norm_num) (by norm_num)
  refine ⟨t0, ht0, φ0, hφ0, 2 * L, C, ?_⟩
  intro t ht htlt cfg h1 h2 h3 h4 h5 h6 h7 h8 h9 h10 N h11 h12 h13 fuel h14
  obtain ⟨o, g1, ⟨p, -, g2⟩, -⟩ := G t ht htlt cfg h1 h2 h3 h4 h5 h6 h7 h8 h9 h10 N h11 h12 h13 fuel h14
  refine ⟨o, g1, fun m r hm => ?_⟩
  obtain ⟨k1, -, -, -, -, -, ⟨y, k2, k3⟩, -⟩ := g2 m r hm
  refine ⟨k1, y 0, y 1, by rw [k2]; simp [List.ofFn_succ], ?_⟩
  have e0 : |y 0 - p (m + 1)| ≤ L * cfg.ftol := k3 0
  have e1 : |y 1 - p (m + 1)| ≤ L * cfg.ftol := k3 1
  rw [abs_le] at *
  constructor <;> linarith [e0.1, e0.2, e1.1, e1.2]

end TrussPy
