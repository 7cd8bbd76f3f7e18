import Verif.Lemmas.Inexact
import Verif.Lemmas.TrailRun
import Verif.Props.TwoBar
import Verif.Props.Converge
/-!
# Property C105: the linear solver need not be exact
-/

set_option linter.unusedSectionVars false

namespace TrussPy

/-- **C105, Newton.** As C70, for a linear solver that leaves a residual of up to an eighth of the right-hand side: `newton`
still reports success from everywhere near a regular zero, with `k + 1` iterations if `C (3/4)^k` is below both tolerances, and
what it returns is within `L * ftol` of the zero. -/
theorem C105_newton_converges {S : Type} {n : Nat} {I : S → Prop} {f : S → List ℝ → Py (S × List ℝ)}
    {df : S → List ℝ → Py (S × List (List ℝ))} {sp : List (List ℝ) → List ℝ → Py (List ℝ)}
    {φ : (Fin n → ℝ) → Fin n → ℝ} {J : (Fin n → ℝ) → Matrix (Fin n) (Fin n) ℝ} (hC : Computes n I f df φ J)
    {θ : ℝ} (hθ0 : 0 ≤ θ) (hθ : θ ≤ 1 / 8) (hsp : SolvesWithin sp n θ) {z : Fin n → ℝ} (hz : φ z = 0) (hφ : ContDiffAt ℝ 1 φ z)
    (hJ : ∀ᶠ x in nhds z, HasFDerivAt φ (LinearMap.toContinuousLinearMap (Matrix.toLin' (J x))) x)
    (hreg : IsUnit (J z).det) :
    ∃ r > 0, ∃ L C : ℝ, ∀ (ftol xtol : ℝ) (k : Nat), C * (3 / 4) ^ k < ftol → C * (3 / 4) ^ k < xtol →
      ∀ (nfev : Int), (k : Int) + 1 ≤ nfev → ∀ (s : S) (x : Fin n → ℝ), I s → (∀ i, |x i - z i| ≤ r) →
        ∃ s' o y, newton f df sp s (List.ofFn x) nfev ftol xtol = .ok (s', o) ∧ I s' ∧ o.success = true ∧
          o.x = List.ofFn y ∧ ∀ i, |y i - z i| ≤ L * ftol := by
  obtain ⟨ρ, ε, M, hρ, ht⟩ := exists_tame hφ hJ hreg
  set A := mulCLM (J z)
  have hM := ht.pos
  have hB0 : 0 ≤ ‖A‖ + ε := add_nonneg (norm_nonneg _) ht.eps
  have hden : 0 < 1 + 10 * M * (‖A‖ + ε) := by positivity
  refine ⟨ρ / (1 + 10 * M * (‖A‖ + ε)), by positivity, 2 * M,
    n * ((1 + 3 * M) * ((‖A‖ + ε) * (ρ / (1 + 10 * M * (‖A‖ + ε))))), ?_⟩
  intro ftol xtol k hf hxt nfev hk s x hI hx
  set r := ρ / (1 + 10 * M * (‖A‖ + ε)) with hr
  have hr0 : 0 < r := by positivity
  have hrρ : r * (1 + 10 * M * (‖A‖ + ε)) = ρ := div_mul_cancel₀ _ hden.ne'
  have hxz : ‖x - z‖ ≤ r := (pi_norm_le_iff_of_nonneg hr0.le).2 fun i => hx i
  have hrle : r ≤ ρ := by
    have : 0 ≤ r * (10 * M * (‖A‖ + ε)) := by positivity
    linarith
  have hzz : ‖z - z‖ ≤ ρ := by rw [sub_self, norm_zero]; exact hρ.le
  have hφx : ‖φ x‖ ≤ (‖A‖ + ε) * ‖x - z‖ := by
    have h1 := ht.diff x z (hxz.trans hrle) hzz
    rw [hz, sub_zero] at h1
    calc ‖φ x‖ = ‖(φ x - A (x - z)) + A (x - z)‖ := by congr 1; abel
      _ ≤ ‖φ x - A (x - z)‖ + ‖A (x - z)‖ := norm_add_le _ _
      _ ≤ ε * ‖x - z‖ + ‖A‖ * ‖x - z‖ := add_le_add h1 (A.le_opNorm _)
      _ = _ := by ring
  have hφr : ‖φ x‖ ≤ (‖A‖ + ε) * r := hφx.trans (mul_le_mul_of_nonneg_left hxz hB0)
  have hstart : ‖x - z‖ + 10 * M * ‖φ x‖ ≤ ρ := by
    have : 10 * M * ‖φ x‖ ≤ 10 * M * ((‖A‖ + ε) * r) := mul_le_mul_of_nonneg_left hφr (by positivity)
    linarith
  have hle : (n : ℝ) * ((1 + 3 * M) * ‖φ x‖) * (3 / 4) ^ k ≤ n * ((1 + 3 * M) * ((‖A‖ + ε) * r)) * (3 / 4) ^ k := by gcongr
  obtain ⟨s', o, y, h1, h2, h3, h4, h5, h6⟩ := newton_inexact hC hθ0 hθ hsp ht hk hI hstart (hle.trans_lt hf) (hle.trans_lt hxt)
  refine ⟨s', o, y, h1, h2, h3, h4, fun i => ?_⟩
  have hyz : ‖y - z‖ ≤ ρ := by
    calc ‖y - z‖ = ‖(y - x) + (x - z)‖ := by congr 1; abel
      _ ≤ _ := norm_add_le _ _
      _ ≤ ρ := by linarith
  have h7 := ht.near_zero hρ.le hz hyz ((norm_le_vnorm _).trans_lt h6).le
  have h14 := norm_le_pi_norm (y - z) i
  rw [Pi.sub_apply, Real.norm_eq_abs] at h14
  exact h14.trans h7

section
variable {c : Ctx ℝ} {bars : List (Bar ℝ)} {a : Analysis ℝ} {ef : StepForces ℝ}

/-- **C105, path following.** As C99, for a linear solver that leaves a residual of up to an eighth of the right-hand side.
Every increment is accepted; the `m`-th recorded vector lies within `L * ftol` of a point of the path, whose parameter is
`m h` up to `m * ftol`. -/
theorem C105_follows_path (he : Evaluable c bars a ef) (hr : a.Ready c)
    (hf0 : a.f0red = a.DOF1.map fun p => ef.forces.getD p 0) {n : Nat} (hn : c.ndof1 = n)
    (hn1 : 1 ≤ n) {j : Int} {k : Fin (n + 1)} (hj : j.natAbs = k + 1) {S : ℝ} (hS : 0 ≤ S) {γ : ℝ → Fin (n + 1) → ℝ}
    (hP : EquilPath c bars a j k S γ) {x : List ℝ} (hx : List.ofFn (γ 0) = x ++ [0])
    {env : Env ℝ} {θ : ℝ} (hθ0 : 0 ≤ θ) (hθ : θ ≤ 1 / 8) (hsp : SolvesWithin env.spsolve (n + 1) θ) (hA : ArgMax env) :
    ∃ h0 > 0, ∃ f0 > 0, ∃ L C : ℝ, ∀ (h : ℝ), 0 < h → h < h0 → ∀ (cfg : PFCfg ℝ), cfg.jFixed = true → cfg.j = some j →
      cfg.stepcontrol = false → 0 < cfg.ftol → cfg.ftol ≤ f0 → cfg.ftol ≤ h → h + cfg.ftol ≤ cfg.dxtol * h →
      (initDxmax (x ++ [0]) cfg.dxmax).length = n + 1 → (initDxmax (x ++ [0]) cfg.dxmax)[(k : Nat)]? = some h →
      (∀ p, cfg.xlimit = some p → 1 ≤ p.1 ∧ p.1 ≤ n + 1) → cfg.incs * (h + cfg.ftol) ≤ S →
      ∀ N : Nat, C * (h + cfg.ftol) * (3 / 4) ^ N < cfg.ftol → C * (h + cfg.ftol) * (3 / 4) ^ N < cfg.xtol →
      (N : Int) + 1 ≤ cfg.nfev →
      ∀ fuel : Nat, 1 ≤ fuel → ∃ o, pathfollow env (modelProblem c) cfg fuel x a = .ok o ∧
        (∀ (m : Nat) r, o.recs[m]? = some r → r.out = .accepted ∧ ∃ (y : Fin (n + 1) → ℝ) (t : ℝ), r.x = List.ofFn y ∧
          t ∈ Set.Icc 0 S ∧ |t - (m + 1) * h| ≤ (m + 1) * cfg.ftol ∧ |y k - γ t k| ≤ cfg.ftol ∧
          ∀ i, |y i - γ t i| ≤ L * cfg.ftol) ∧
        (o.recs.length = cfg.incs ∨ ∃ r v p, o.recs.getLast? = some r ∧ cfg.xlimit = some p ∧
          r.x[(p.1 - 1).toNat]? = some v ∧ p.2 < |v|) := by
  have hl : a.lpf.isSome = true := hr.base.lpf
  obtain ⟨ρ, hρ, M0, hM0, hT⟩ := path_tame he hl hf0 hn hj hP (V0 := List.replicate (n + 1) 0) (by simp)
  -- uniform continuity of the path
  obtain ⟨δ, hδ, hω⟩ := Metric.uniformContinuousOn_iff.1 (isCompact_Icc.uniformContinuousOn_of_continuous hP.cont) (ρ / 2)
    (by positivity)
  refine ⟨min (δ / 2) (ρ / (40 * M0)), by positivity, ρ / (48 * M0), by positivity, 2 * M0, ((n : ℝ) + 1) * (1 + 3 * M0), ?_⟩
  intro h hh hlt cfg hjf hcj hsc hft hftle hfh hdx hlen hdk hlim hinc N hN1 hN2 hN fuel hfuel
  have hhδ : h < δ / 2 := hlt.trans_le (min_le_left _ _)
  have hhρ : h ≤ ρ / (40 * M0) := (hlt.trans_le (min_le_right _ _)).le
  rw [le_div_iff₀ (by positivity)] at hhρ hftle
  obtain ⟨d, hd⟩ := exists_ofFn hlen
  have hdk' : d k = h := by
    rw [hd, List.getElem?_ofFn, dif_pos k.isLt] at hdk
    exact Option.some.inj hdk
  have htrack : NearTrack c a j k γ (2 * M0) cfg.ftol 0 (γ 0) := by
    refine ⟨by rw [sub_self, norm_zero]; positivity, by rw [sub_self, abs_zero]; exact hft.le, fun m => ?_⟩
    rw [path_zero he hn hj hP ⟨le_rfl, hS⟩ (by simp) 0 m, abs_zero]
    exact hft.le
  have hcar : Carried c bars ef a a := ⟨he, hr, rfl, rfl, fun _ _ => rfl, rfl,
    fun _ _ hb => (hP.calm 0 ⟨le_rfl, hS⟩).alike he hn hb⟩
  obtain ⟨s', recs, e1, e2, e3⟩ := inexact_loop he hl hf0 hn hn1 hj hP hρ hM0 hT hθ0 hθ hsp hA hjf hsc hft hdk' hh hfh hdx
    (by linarith) hN1 hN2 hN
    (fun s hs t ht hst => by
      have := hω s hs t ht (by
        rw [dist_comm, Real.dist_eq]
        linarith)
      rw [dist_eq_norm] at this
      exact this.le)
    (fun p hp => by
      have := hlim p hp
      unfold IndexOK
      omega)
    (dxmax0 := List.ofFn d) (by simp [List.ofFn_succ]) hfuel cfg.incs 0 (γ 0) a (if cfg.jPre then 1 else 0) 4 le_rfl
    (by rw [zero_add]; exact hinc) htrack hcar
  refine ⟨⟨x ++ [0], a, recs, s'.a⟩, ?_, ?_, ?_⟩
  · unfold pathfollow
    have hsj : startJ cfg (x ++ [0]) = .ok j := by
      unfold startJ
      rw [if_pos hjf, hcj]
    have hxl : (x ++ [(0 : ℝ)]).length = n + 1 := by rw [← hx]; simp
    simp only [hsj, py_bind_ok]
    rw [if_neg (by rw [hlen, hxl]; simp), hd, ← hx, e1]
    rfl
  · intro m r hm
    obtain ⟨p1, y, t, p2, p3, p4, p5⟩ := e2 m r hm
    rw [zero_add] at p4
    refine ⟨p1, y, t, p2, p3, p4, p5.control, fun i => ?_⟩
    have := norm_le_pi_norm (y - γ t) i
    rw [Real.norm_eq_abs] at this
    exact this.trans p5.close
  · rcases e3 with e3 | ⟨r, e3, e4⟩
    · exact Or.inl e3
    · right
      cases hxl : cfg.xlimit with
      | none => rw [hxl] at e4; cases e4
      | some p =>
        rw [hxl] at e4
        unfold limitReached at e4
        obtain ⟨v, e5, e6⟩ := py_bind_eq_ok.1 e4
        have hp := hlim p hxl
        have : p.1 - 1 = (((p.1 - 1).toNat : Nat) : Int) := by omega
        rw [this] at e5
        exact ⟨r, v, p, e3, rfl, pyGet_ok_nat.1 e5, of_decide_eq_true (Except.ok.inj e6)⟩

end

/-- **C105, a run.** As C101, for a linear solver that leaves a residual of up to an eighth of the right-hand side: with a
single step, `build` and `run` return, and the results are the undeformed state and points of the path, up to `L` times the tolerance;
the parameter of the `i`-th of them is `i h`, up to `i` times the tolerance. -/
theorem C105_single_step_run {u : UserInput ℝ} {es : List (Elem ℝ)} {nsteps : Nat} (hv : ValidInput u es nsteps) (hns : 1 ≤ nsteps)
    (hus : UsualPlastic es) {P : List (Int × Fin 3)} (hP : FreeList u P) {j : Int} (hj1 : 1 ≤ j.natAbs)
    (hj2 : j.natAbs ≤ P.length + 1) {S : ℝ} (hS : 0 ≤ S) {U : ℝ → Int → V3 ℝ} {l : ℝ → ℝ} (ht : Trail u es P j S U l)
    {env : Env ℝ} {θ : ℝ} (hθ0 : 0 ≤ θ) (hθ : θ ≤ 1 / 8) (hsp : SolvesWithin env.spsolve (P.length + 1) θ) (hA : ArgMax env)
    (nst : Nat) :
    ∃ h0 > 0, ∃ f0 > 0, ∃ L C : ℝ, ∀ (argsort : List Int → List Nat), IsArgsort argsort → ∀ m : Model ℝ,
      Entered u m → EnteredElems es m → m.settings.ndim = 3 → m.settings.nstatev = nst → m.settings.nsteps = 1 →
      m.settings.log ≤ 1 →
      ∀ h, 0 < h → h < h0 → FixedControl m.settings P.length j h → (10 : ℝ) ^ (-m.settings.ftol) ≤ f0 →
      (10 : ℝ) ^ (-m.settings.ftol) ≤ h → h + (10 : ℝ) ^ (-m.settings.ftol) ≤ m.settings.dxtol * h →
      ∀ K xl, m.settings.incs.ofStep 0 = some K → m.settings.xlimit.ofStep 0 = some xl → 1 ≤ xl.1 → xl.1 ≤ P.length + 1 →
      K * (h + (10 : ℝ) ^ (-m.settings.ftol)) ≤ S → ManyIterations m.settings C h → ∀ fuel, 1 ≤ fuel →
      ∃ m1 m2 nt res q, m.build argsort = .ok m1 ∧ m1.run env fuel = .ok m2 ∧ m1.nodes = some nt ∧ m2.results = some res ∧
        FollowsRoughly nt.labels res.R h ((10 : ℝ) ^ (-m.settings.ftol)) L U l S K xl q ∧ res.R.length = q + 1 := by
  by_cases hex : ∃ (as : List Int → List Nat) (m0 : Model ℝ), IsArgsort as ∧ Entered u m0 ∧ EnteredElems es m0 ∧
      m0.settings.ndim = 3 ∧ m0.settings.nstatev = nst
  swap
  · refine ⟨1, one_pos, 1, one_pos, 0, 0, ?_⟩
    intro as has m hu he hd hn
    exact absurd ⟨as, m, has, hu, he, hd, hn⟩ hex
  obtain ⟨c, d, bars, A1, ef, hlaid, hstep, hready, hDA, hUr, hfree, hall⟩ := step_ready hv hns hus nst hex
  have hPd := hlaid.freeList hP
  have hPl : P.length = A1.DOF1.length := by rw [hPd, List.length_map, hDA]
  have hk : j.natAbs - 1 < A1.DOF1.length + 1 := by rw [← hPl]; omega
  have hjk : j.natAbs = ((⟨j.natAbs - 1, hk⟩ : Fin (A1.DOF1.length + 1)) : Nat) + 1 := by
    show j.natAbs = j.natAbs - 1 + 1
    omega
  have hpath := hstep.path hP hjk hS ht
  have hU0 := undeformed hstep hDA hUr ht.start ht.startLoad
  obtain ⟨g0, hg0, f0, hf0', L, C, key⟩ := C105_follows_path hstep.eval hready hstep.f0 (n := A1.DOF1.length)
    (by rw [hstep.eval.dofs]) hfree hjk hS hpath hU0 hθ0 hθ (by rw [← hPl]; exact hsp) hA
  refine ⟨g0, hg0, f0, hf0', L, C, ?_⟩
  rintro as has m hu he hd hn hs1 hlog h hh hlt hfix hf hfh hover K xl hK hxl hx1 hx2 hKS ⟨N, hN1, hN2, hN3⟩ fuel hfuel
  obtain ⟨m1, a, r, ft1, g1, g2, gd, g5, g7, g9, g11, g13, hset⟩ := hall as has m hu he hd hn
  have hcfg : stepCfg m1.settings K xl = stepCfg m.settings K xl := by rw [g13]; rfl
  have hw := initDxmax_width (x := A1.Ured) (n := A1.DOF1.length) (by rw [hUr, hDA]; simp) (du := m.settings.du)
    (dl := m.settings.dlpf)
  obtain ⟨o, o1, o2, o3⟩ := key h hh hlt (stepCfg m.settings K xl) hfix.fixed hfix.control hfix.plain
    (by show (0 : ℝ) < 10 ^ (-m.settings.ftol); positivity) hf hfh hover (by
      show (initDxmax (A1.Ured ++ [0]) (.vec [m.settings.du, m.settings.dlpf])).length = _
      rw [hw]
      simp) (by
      show (initDxmax (A1.Ured ++ [0]) (.vec [m.settings.du, m.settings.dlpf]))[j.natAbs - 1]? = _
      rw [hw]
      have := hfix.width
      rw [hPl] at this
      split at this
      next hle =>
        rw [List.getElem?_append_left (by rw [List.length_replicate]; omega), List.getElem?_replicate, if_pos (by omega), this]
      next hle =>
        rw [List.getElem?_append_right (by rw [List.length_replicate]; omega), List.length_replicate,
          show j.natAbs - 1 - A1.DOF1.length = 0 by omega, ← this]
        rfl) (by
      intro q hq
      have hq : some xl = some q := hq
      cases hq
      rw [← hPl]
      exact ⟨hx1, hx2⟩) hKS N hN1 hN2 hN3 fuel hfuel
  have hlen : o.recs.length ≤ K := (C38_limit_stop _ _ _ _ _ _ o o1).2.1
  rw [← hcfg] at o1
  have hPd' : P = A1.DOF1.map fun p => (dofLabel c p, comp p) := by rw [hDA]; exact hPd
  obtain ⟨m2, hrun⟩ := one_step_returns hs1 hlog g2 g5 g7 g9 g11 g13 hset hK hxl o1
  obtain ⟨res, s1, s2, s3, s4⟩ := run_shows hP g1 hrun (by omega) g2 gd hlaid g5 g7 g11 g13 hset hK hxl o1
    fun q r hr => by
      obtain ⟨r1, y, t, r2, -⟩ := o2 q r hr
      exact ⟨r1, by rw [r2, hPl]; simp⟩
  refine ⟨m1, m2, c.nodes, res, o.recs.length, g1, hrun, s1, s2, ⟨?_, hlen, ?_⟩, s3 hs1⟩
  · intro i hi
    have hir := List.getElem?_eq_getElem hi
    generalize o.recs[i] = r at hir
    obtain ⟨r1, y, t, r2, r3, r4, r5, r6⟩ := o2 i r hir
    obtain ⟨q1, q2, q3⟩ := s4 i r hir
    refine ⟨r.a, t, q1, r3, r4, q3 _ _ _ (ht.supports t r3) fun k hk => ?_⟩
    rw [hPl] at hk
    have h6 := r6 ⟨k, by omega⟩
    rw [← component_eq hPd'] at h6
    rw [r2, List.getD_eq_getElem?_getD, List.getElem?_ofFn, dif_pos (by omega)]
    exact h6
  · rcases o3 with o3 | ⟨r, v, q, o4, o5, o6, o7⟩
    · exact Or.inl o3
    · right
      have o5 : some xl = some q := o5
      cases o5
      have hpos : 0 < o.recs.length := List.length_pos_of_mem (List.mem_of_getLast? o4)
      rw [List.getLast?_eq_getElem?] at o4
      obtain ⟨q1, q2, -⟩ := s4 _ r o4
      refine ⟨hpos, r.a, v, ?_, ?_, o7⟩
      · rwa [Nat.sub_add_cancel hpos] at q1
      · rw [q2]
        exact o6

/-! ## The hypotheses are met

By a solver all of whose solutions are too large by a sixteenth. -/

/-- Solves regular systems with a relative error of one sixteenth. -/
noncomputable def sloppyEnv : Env ℝ where
  spsolve K b := .ok (List.ofFn (((17 / 16 : ℝ)) • (matOf b.length K)⁻¹.mulVec fun i => b[i]))
  argsortF := realEnv.argsortF

theorem sloppyEnv_within (n : Nat) : SolvesWithin sloppyEnv.spsolve n (1 / 16) := by
  intro K b hK hrow hdet hb
  subst hb
  refine ⟨_, rfl, by simp, fun r hr e he => ?_⟩
  rw [matVec_ofFn hK hrow, Matrix.mulVec_smul, Matrix.mulVec_mulVec, Matrix.mul_nonsing_inv _ hdet, Matrix.one_mulVec] at he
  obtain ⟨i, hi, rfl⟩ := List.mem_iff_getElem.1 he
  have hi' : i < b.length := by simpa using hi
  have h1 := hr b[i] (List.getElem_mem hi')
  rw [List.getElem_zipWith, List.getElem_ofFn]
  show |17 / 16 * b[i] - b[i]| ≤ _
  rw [show 17 / 16 * b[i] - b[i] = 1 / 16 * b[i] by ring, abs_mul, abs_of_pos (by norm_num : (0 : ℝ) < 1 / 16)]
  linarith

/-- It is not exact: of `x = 1` it makes `x = 17/16`. -/
example : sloppyEnv.spsolve [[1]] [1] = .ok [17 / 16] := by
  show Except.ok (List.ofFn ((17 / 16 : ℝ) • (matOf 1 [[1]])⁻¹.mulVec _)) = _
  have h1 : matOf 1 [[(1 : ℝ)]] = 1 := by
    ext i j
    rw [Subsingleton.elim i 0, Subsingleton.elim j 0]
    rfl
  rw [h1, inv_one, Matrix.one_mulVec]
  simp [List.ofFn_succ]

/-- `newton` finds the square root of 2 with this solver too. -/
example : ∃ r > 0, ∃ L C : ℝ, ∀ (ftol xtol : ℝ) (k : Nat), C * (3 / 4) ^ k < ftol → C * (3 / 4) ^ k < xtol →
      ∀ (nfev : Int), (k : Int) + 1 ≤ nfev → ∀ (s : Unit) (x : Fin 1 → ℝ), True → (∀ i, |x i - (fun _ => √2) i| ≤ r) →
        ∃ s' o, ∃ y : Fin 1 → ℝ, newton rootF rootDf sloppyEnv.spsolve s (List.ofFn x) nfev ftol xtol = .ok (s', o) ∧ True ∧
          o.success = true ∧ o.x = List.ofFn y ∧ ∀ i, |y i - (fun _ => √2) i| ≤ L * ftol := by
  have hder : ∀ x : Fin 1 → ℝ, HasFDerivAt (fun (x : Fin 1 → ℝ) (i : Fin 1) => x i * x i - 2)
      (LinearMap.toContinuousLinearMap (Matrix.toLin' (Matrix.of fun (_ _ : Fin 1) => 2 * x 0))) x := by
    intro x
    rw [hasFDerivAt_pi']
    intro i
    have hp : HasFDerivAt (fun x : Fin 1 → ℝ => x i) (ContinuousLinearMap.proj (R := ℝ) (φ := fun _ => ℝ) i) x :=
      (ContinuousLinearMap.proj (R := ℝ) (φ := fun _ : Fin 1 => ℝ) i).hasFDerivAt
    refine ((hp.mul hp).sub_const 2).congr_fderiv ?_
    ext1 v
    show x i * v i + x i * v i = (Matrix.toLin' (Matrix.of fun (_ _ : Fin 1) => 2 * x 0)) v i
    rw [Matrix.toLin'_apply]
    simp only [Matrix.mulVec, dotProduct, Matrix.of_apply, Finset.univ_unique, Finset.sum_singleton]
    rw [Subsingleton.elim i 0]
    show _ = 2 * x 0 * v 0
    ring
  refine C105_newton_converges (I := fun _ => True) (φ := fun x i => x i * x i - 2)
    (J := fun x => Matrix.of fun _ _ => 2 * x 0) ⟨fun s x _ => ?_, fun s x _ => ?_⟩ (by norm_num : (0 : ℝ) ≤ 1 / 16) (by norm_num)
    (sloppyEnv_within 1) (z := fun _ => √2) ?_ ?_ (Filter.Eventually.of_forall hder) ?_
  · exact ⟨s, by unfold rootF; rw [List.map_ofFn]; rfl, trivial⟩
  · refine ⟨s, [[2 * x 0]], ?_, trivial, rfl, by simp, ?_⟩
    · unfold rootDf
      simp [List.ofFn_succ]
    · ext i j
      rw [Subsingleton.elim i 0, Subsingleton.elim j 0]
      rfl
  · funext i
    show √2 * √2 - 2 = (0 : ℝ)
    rw [Real.mul_self_sqrt (by norm_num)]
    ring
  · fun_prop
  · rw [Matrix.det_fin_one]
    simp

/-- The bar under load control with this solver. -/
example : ∃ h0 > 0, ∃ f0 > 0, ∃ L C : ℝ, ∀ (h : ℝ), 0 < h → h < h0 → ∀ (cfg : PFCfg ℝ), cfg.jFixed = true → cfg.j = some 2 →
      cfg.stepcontrol = false → 0 < cfg.ftol → cfg.ftol ≤ f0 → cfg.ftol ≤ h → h + cfg.ftol ≤ cfg.dxtol * h →
      (initDxmax ([0] ++ [0]) cfg.dxmax).length = 1 + 1 → (initDxmax ([0] ++ [0]) cfg.dxmax)[((1 : Fin 2) : Nat)]? = some h →
      (∀ p, cfg.xlimit = some p → 1 ≤ p.1 ∧ p.1 ≤ (1 : Nat) + 1) → cfg.incs * (h + cfg.ftol) ≤ 10 →
      ∀ N : Nat, C * (h + cfg.ftol) * (3 / 4) ^ N < cfg.ftol → C * (h + cfg.ftol) * (3 / 4) ^ N < cfg.xtol → (N : Int) + 1 ≤ cfg.nfev →
      ∀ fuel : Nat, 1 ≤ fuel → ∃ o, pathfollow sloppyEnv (modelProblem sbCtx) cfg fuel [0] sbA = .ok o ∧
        (∀ (m : Nat) r, o.recs[m]? = some r → r.out = .accepted ∧ ∃ (y : Fin 2 → ℝ) (t : ℝ), r.x = List.ofFn y ∧
          t ∈ Set.Icc 0 10 ∧ |t - (m + 1) * h| ≤ (m + 1) * cfg.ftol ∧ |y 1 - t| ≤ cfg.ftol ∧
          ∀ i, |y i - ![t, t] i| ≤ L * cfg.ftol) ∧
        (o.recs.length = cfg.incs ∨ ∃ r v p, o.recs.getLast? = some r ∧ cfg.xlimit = some p ∧
          r.x[(p.1 - 1).toNat]? = some v ∧ p.2 < |v|) :=
  C105_follows_path sbEvaluable ⟨⟨sbEvaluable.fits, sbEvaluable.statev, rfl, rfl, rfl⟩, ⟨_, rfl, rfl, rfl⟩, rfl⟩ rfl
    (n := 1) rfl le_rfl (k := 1) rfl (by norm_num : (0 : ℝ) ≤ 10) (sbPath 10)
    (by simp [List.ofFn_succ]) (by norm_num : (0 : ℝ) ≤ 1 / 16) (by norm_num) (sloppyEnv_within 2) realEnv_argmax

/-- The two-bar truss, pushed down in `K` steps over (nearly) any distance `S`, with this solver. -/
example {w H E A : ℝ} (hw : 0 < w) {S : ℝ} (hS : 0 < S) (argsort : List Int → List Nat) (has : IsArgsort argsort) :
    ∃ (s : Settings ℝ) (L h f : ℝ) (K : Nat) (m1 m2 : Model ℝ) (nt : NodeTab ℝ) (res : Results ℝ) (q : Nat),
      (tbModel w H E A s).build argsort = .ok m1 ∧ m1.run sloppyEnv 1 = .ok m2 ∧ m1.nodes = some nt ∧ m2.results = some res ∧
      FollowsRoughly nt.labels res.R h f L tbMove (vmLoad w H E A) S K (1, 2 * S) q ∧ res.R.length = q + 1 ∧
      9 / 10 * S ≤ K * h ∧ K * f ≤ S / 10 := by
  obtain ⟨h0, hh0, f0, hf0, L, C, G⟩ := C105_single_step_run (tbValid w H E A) (le_refl _) (tbUsual E A) (tbFree w H) (j := -1)
    (by decide) (by decide) hS.le (tbTrail (E := E) (A := A) hw S) (by norm_num : (0 : ℝ) ≤ 1 / 16) (by norm_num)
    (sloppyEnv_within 2) realEnv_argmax rbSettings.nstatev
  obtain ⟨M, hM⟩ := exists_nat_gt (9 / 10 * S / h0)
  rw [div_lt_iff₀ hh0] at hM
  have hM1 : (0 : ℝ) < M + 1 := by positivity
  have hhM : ((M : ℝ) + 1) * (9 / 10 * S / (M + 1)) = 9 / 10 * S := by field_simp
  have hhpos : 0 < 9 / 10 * S / ((M : ℝ) + 1) := by positivity
  have hhlt : 9 / 10 * S / ((M : ℝ) + 1) < h0 := by
    rw [div_lt_iff₀ hM1]
    nlinarith
  generalize 9 / 10 * S / ((M : ℝ) + 1) = h at hhM hhpos hhlt
  obtain ⟨k, hk⟩ := exists_pow_lt_of_lt_one (lt_min hf0 (show 0 < h / 100 by positivity)) (show (10 : ℝ)⁻¹ < 1 by norm_num)
  have hp : (10 : ℝ)⁻¹ ^ k = (10 : ℝ) ^ (-(k : Int)) := by rw [zpow_neg, zpow_natCast, inv_pow]
  rw [hp] at hk
  have hfpos : (0 : ℝ) < (10 : ℝ) ^ (-(k : Int)) := by positivity
  have hk1 := hk.trans_le (min_le_left _ _)
  have hk2 := hk.trans_le (min_le_right _ _)
  have hMf : ((M : ℝ) + 1) * (10 : ℝ) ^ (-(k : Int)) ≤ S / 10 := by
    have := mul_le_mul_of_nonneg_left hk2.le hM1.le
    linarith
  obtain ⟨N, hN⟩ := exists_pow_lt_of_lt_one (show 0 < (10 : ℝ) ^ (-(k : Int)) / (|C * (h + (10 : ℝ) ^ (-(k : Int)))| + 1) by positivity)
    (show (3 / 4 : ℝ) < 1 by norm_num)
  rw [lt_div_iff₀ (by positivity)] at hN
  have hN' : C * (h + (10 : ℝ) ^ (-(k : Int))) * (3 / 4) ^ N < (10 : ℝ) ^ (-(k : Int)) := by
    have h1 := le_abs_self (C * (h + (10 : ℝ) ^ (-(k : Int))))
    have h2 : (0 : ℝ) ≤ (3 / 4) ^ N := by positivity
    have h3 := mul_le_mul_of_nonneg_right h1 h2
    linarith
  obtain ⟨m1, m2, nt, res, q, g1, g2, g3, g4, g5, g6⟩ := G argsort has (tbModel w H E A { rbSettings with
      j0 := some (-1), du := h, incs := .const (M + 1), xlimit := .const 1 (2 * S), xtol := k, ftol := k, nfev := N + 1, nsteps := 1 })
    (tbEntered w H E A _) (tbEnteredElems w H E A _)
    rfl rfl rfl (by show (0 : Int) ≤ 1; decide) h hhpos hhlt ⟨rfl, rfl, rfl, by show (1 : ℝ) ≤ 101 / 100; norm_num, if_pos (by decide)⟩
    hk1.le (by show (10 : ℝ) ^ (-(k : Int)) ≤ h; linarith)
    (by show h + (10 : ℝ) ^ (-(k : Int)) ≤ 101 / 100 * h; linarith) (M + 1) (1, 2 * S) rfl rfl (le_refl _) (by show (1 : Int) ≤ _; decide)
    (by push_cast; rw [mul_add, hhM]; show _ + ((M : ℝ) + 1) * (10 : ℝ) ^ (-(k : Int)) ≤ S; linarith)
    ⟨N, hN', hN', le_rfl⟩ 1 le_rfl
  refine ⟨_, L, h, (10 : ℝ) ^ (-(k : Int)), M + 1, m1, m2, nt, res, q, g1, g2, g3, g4, g5, g6, ?_, ?_⟩
  · push_cast
    exact hhM.ge
  · push_cast
    exact hMf

end TrussPy
