import Verif.Lemmas.TrailRun
import Verif.Lemmas.Compare
/-!
# Property C101: a run follows the equilibrium path of the entered structure
-/

set_option linter.unusedSectionVars false

namespace TrussPy

/-- **C101** If the entered truss has a regular equilibrium path below yield under the loads of the first step, on which component `j`
grows from zero to `S`, then every run whose control component is fixed to `j`, with a step width below `h0` and a tolerance of at
most `f0`, records in its first step the points of that path, up to `L` times the tolerance, and the component `j` exactly.  The
increments stop only because all are done or because the limit is exceeded.  `h0`, `f0`, `L`, `C` depend neither on order of the
calls and number of steps nor on limits, increments and tolerances. -/
theorem C101_run_follows_path {u : UserInput ℝ} {es : List (Elem ℝ)} {nsteps : Nat} (hv : ValidInput u es nsteps) (hns : 1 ≤ nsteps)
    (hus : UsualPlastic es) {P : List (Int × Fin 3)} (hP : FreeList u P) {j : Int} (hj1 : 1 ≤ j.natAbs)
    (hj2 : j.natAbs ≤ P.length + 1) {S : ℝ} (hS : 0 ≤ S) {U : ℝ → Int → V3 ℝ} {l : ℝ → ℝ} (ht : Trail u es P j S U l)
    {env : Env ℝ} (hsp : SolvesRegular env.spsolve (P.length + 1)) (hA : ArgMax env) (nst : Nat) :
    ∃ h0 > 0, ∃ f0 > 0, ∃ L C : ℝ, ∀ (argsort : List Int → List Nat), IsArgsort argsort → ∀ m m1 m2 : Model ℝ,
      Entered u m → EnteredElems es m → m.settings.nstatev = nst → 1 ≤ m.settings.nsteps →
      ∀ h, 0 < h → h < h0 → FixedControl m.settings P.length j h → (10 : ℝ) ^ (-m.settings.ftol) ≤ f0 →
      ∀ K xl, m.settings.incs.ofStep 0 = some K → m.settings.xlimit.ofStep 0 = some xl → 1 ≤ xl.1 → xl.1 ≤ P.length + 1 →
      K * h ≤ S → EnoughIterations m.settings C h → ∀ fuel, 1 ≤ fuel → m.build argsort = .ok m1 → m1.run env fuel = .ok m2 →
      ∃ nt res q, m1.nodes = some nt ∧ m2.results = some res ∧
        FollowsTrail nt.labels res.R j h (L * (10 : ℝ) ^ (-m.settings.ftol)) U l K xl q ∧
        (m.settings.nsteps = 1 → res.R.length = q + 1) := by
  obtain ⟨h0, hh0, f0, hf0, L, C, key⟩ := trail_ready hv hns hus hP hj1 hj2 hS ht hsp hA nst
  refine ⟨h0, hh0, f0, hf0, L, C, ?_⟩
  rintro as has m m1 m2 hu he hn hs1 h hh hlt hfix hf K xl hK hxl hx1 hx2 hKS ⟨N, hN1, hN2, hN3⟩ fuel hfuel hb hr
  have hdim : m.settings.ndim = 3 := by
    obtain ⟨s⟩ := build_steps hb
    exact s.hdim
  obtain ⟨m1', c, d, bars, a, r0, ft, A1, k1, k2, kd, kl, k3, k4, k5, k6, k7, k8, k9⟩ := key as has m hu he hdim hn
  rw [hb] at k1; cases k1
  obtain ⟨o, o1, o2, o3, o4⟩ := k9 h hh hlt hfix hf K xl hx1 hx2 hKS N hN1 hN2 hN3 fuel hfuel
  obtain ⟨res, g1, g2, g3, g4⟩ := run_shows hP hb hr hs1 k2 kd kl k3 k4 k6 k7 k8 hK hxl o1
    fun q r hr => ⟨(o2 q r hr).1, (o2 q r hr).2.1⟩
  refine ⟨c.nodes, res, o.recs.length, g1, g2, ⟨?_, o3, ?_⟩, g3⟩
  · intro i hi
    have hir := List.getElem?_eq_getElem hi
    generalize o.recs[i] = r at hir
    obtain ⟨p1, p2, p3, p4⟩ := o2 i r hir
    obtain ⟨s1, s2, s3⟩ := g4 i r hir
    have hin : ((i : ℝ) + 1) * h ∈ Set.Icc 0 S := by
      refine ⟨by positivity, le_trans ?_ hKS⟩
      refine mul_le_mul_of_nonneg_right ?_ hh.le
      have : i + 1 ≤ K := by omega
      exact_mod_cast this
    refine ⟨r.a, s1, s3 _ _ _ (ht.supports _ hin) p4, ?_⟩
    rw [s2, ← p3, List.getD_eq_getElem?_getD, List.getElem?_eq_getElem (by omega)]
    rfl
  · rcases o4 with o4 | ⟨r, v, o5, o6, o7⟩
    · exact Or.inl o4
    · right
      have hpos : 0 < o.recs.length := List.length_pos_of_mem (List.mem_of_getLast? o5)
      rw [List.getLast?_eq_getElem?] at o5
      obtain ⟨s1, s2, -⟩ := g4 _ r o5
      refine ⟨hpos, r.a, v, ?_, ?_, o7⟩
      · rwa [Nat.sub_add_cancel hpos] at s1
      · rw [s2]
        exact o6

/-- **C101, one step.** With a single step, `build` and `run` return, and the results are the undeformed state and the points of
the path. -/
theorem C101_single_step_run {u : UserInput ℝ} {es : List (Elem ℝ)} {nsteps : Nat} (hv : ValidInput u es nsteps) (hns : 1 ≤ nsteps)
    (hus : UsualPlastic es) {P : List (Int × Fin 3)} (hP : FreeList u P) {j : Int} (hj1 : 1 ≤ j.natAbs)
    (hj2 : j.natAbs ≤ P.length + 1) {S : ℝ} (hS : 0 ≤ S) {U : ℝ → Int → V3 ℝ} {l : ℝ → ℝ} (ht : Trail u es P j S U l)
    {env : Env ℝ} (hsp : SolvesRegular env.spsolve (P.length + 1)) (hA : ArgMax env) (nst : Nat) :
    ∃ h0 > 0, ∃ f0 > 0, ∃ L C : ℝ, ∀ (argsort : List Int → List Nat), IsArgsort argsort → ∀ m : Model ℝ,
      Entered u m → EnteredElems es m → m.settings.ndim = 3 → m.settings.nstatev = nst → m.settings.nsteps = 1 →
      m.settings.log ≤ 1 →
      ∀ h, 0 < h → h < h0 → FixedControl m.settings P.length j h → (10 : ℝ) ^ (-m.settings.ftol) ≤ f0 →
      ∀ K xl, m.settings.incs.ofStep 0 = some K → m.settings.xlimit.ofStep 0 = some xl → 1 ≤ xl.1 → xl.1 ≤ P.length + 1 →
      K * h ≤ S → EnoughIterations m.settings C h → ∀ fuel, 1 ≤ fuel →
      ∃ m1 m2 nt res q, m.build argsort = .ok m1 ∧ m1.run env fuel = .ok m2 ∧ m1.nodes = some nt ∧ m2.results = some res ∧
        FollowsTrail nt.labels res.R j h (L * (10 : ℝ) ^ (-m.settings.ftol)) U l K xl q ∧ res.R.length = q + 1 := by
  obtain ⟨h1, hh1, f1, hf1, L1, C1, key1⟩ := trail_ready hv hns hus hP hj1 hj2 hS ht hsp hA nst
  obtain ⟨h2, hh2, f2, hf2, L2, C2, key2⟩ := C101_run_follows_path hv hns hus hP hj1 hj2 hS ht hsp hA nst
  refine ⟨min h1 h2, lt_min hh1 hh2, min f1 f2, lt_min hf1 hf2, L2, max |C1| |C2|, ?_⟩
  rintro as has m hu he hdim hn hs1 hlog h hh hlt hfix hf K xl hK hxl hx1 hx2 hKS ⟨N, hN1, hN2, hN3⟩ fuel hfuel
  have hr0 : 0 ≤ h + (10 : ℝ) ^ (-m.settings.ftol) := by
    have : (0 : ℝ) < 10 ^ (-m.settings.ftol) := by positivity
    linarith
  have e1 := le_max_left |C1| |C2|
  have e2 := le_max_right |C1| |C2|
  obtain ⟨m1, c, d, bars, a, r0, ft, A1, k1, k2, kd, kl, k3, k4, k5, k6, k7, k8, k9⟩ := key1 as has m hu he hdim hn
  obtain ⟨o, o1, o2, o3, o4⟩ := k9 h hh (lt_of_lt_of_le hlt (min_le_left _ _)) hfix (le_trans hf (min_le_left _ _)) K xl hx1 hx2 hKS N
    (hN1.mono e1 hr0) (hN2.mono e1 hr0) hN3 fuel hfuel
  obtain ⟨m2, hrun⟩ := one_step_returns hs1 hlog k2 k3 k4 k5 k6 k7 k8 hK hxl o1
  obtain ⟨nt, res, q, p1, p2, p3, p4⟩ := key2 as has m m1 _ hu he hn hs1.ge h hh (lt_of_lt_of_le hlt (min_le_right _ _)) hfix
    (le_trans hf (min_le_right _ _)) K xl hK hxl hx1 hx2 hKS ⟨N, hN1.mono e2 hr0, hN2.mono e2 hr0, hN3⟩ fuel hfuel
    k1 hrun
  exact ⟨m1, _, nt, res, q, k1, hrun, p1, p2, p3, p4 hs1⟩

/-! The hypotheses of both theorems are met by the two-bar truss (`tbTrail` in `Props/TwoBar.lean`, where both are applied). -/

end TrussPy
