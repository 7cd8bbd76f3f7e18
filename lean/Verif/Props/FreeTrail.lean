import Verif.Lemmas.FreeTrail
/-!
# Property C103: a run in the default mode follows the equilibrium path of the entered structure
-/

set_option linter.unusedSectionVars false

namespace TrussPy

/-- **C103** If the entered truss has a regular equilibrium path below yield under the loads of the first step, on which the load
factor grows at first and later any component may turn back, then every run in the default mode, with step widths `t * du` and
`t * dl`, `t` below `t0`, and a tolerance of at most `φ0 * t`, records in its first step points of that path with growing
parameters, up to `L` times the tolerance, with steps between `1 - η` and `(1 + η) * W` times the widths.  The increments
stop only because all are done or because the limit is exceeded.  `t0`, `φ0`, `L`, `C` depend neither on order of the
calls and number of steps nor on limits, increments and tolerances. -/
theorem C103_run_follows_free_path {u : UserInput ℝ} {es : List (Elem ℝ)} {nsteps : Nat} (hv : ValidInput u es nsteps)
    (hns : 1 ≤ nsteps) (hus : UsualPlastic es) {P : List (Int × Fin 3)} (hP : FreeList u P) {du dl S : ℝ} (hdu : 0 < du)
    (hdl : 0 < dl) (hS : 0 < S) {U U' : ℝ → Int → V3 ℝ} {l l' : ℝ → ℝ} (ht : FreeTrail u es du dl S U U' l l')
    {env : Env ℝ} (hsp : SolvesRegular env.spsolve (P.length + 1)) (hA : ArgMax env) {η W : ℝ} (hη : 0 < η) (hW : 1 ≤ W) (nst : Nat) :
    ∃ t0 > 0, ∃ φ0 > 0, ∃ L C : ℝ, ∀ (argsort : List Int → List Nat), IsArgsort argsort → ∀ m m1 m2 : Model ℝ,
      Entered u m → EnteredElems es m → m.settings.nstatev = nst → 1 ≤ m.settings.nsteps →
      ∀ t, 0 < t → t < t0 → FreeControl m.settings du dl η W t → (10 : ℝ) ^ (-m.settings.ftol) ≤ φ0 * t →
      ∀ K xl, m.settings.incs.ofStep 0 = some K → m.settings.xlimit.ofStep 0 = some xl → 1 ≤ xl.1 → xl.1 ≤ P.length + 1 →
      K * ((1 + η) * (W * t)) ≤ S → IterationsFor m.settings C t → ∀ fuel, 1 ≤ fuel →
      m.build argsort = .ok m1 → m1.run env fuel = .ok m2 →
      ∃ nt res q p, m1.nodes = some nt ∧ m2.results = some res ∧
        FollowsFree u P nt.labels res.R du dl S U U' l l' ((1 - η) * t) ((1 + η) * (W * t)) (L * (10 : ℝ) ^ (-m.settings.ftol)) K xl q p ∧
        (m.settings.nsteps = 1 → res.R.length = q + 1) := by
  obtain ⟨t0, ht0, φ0, hφ0, L, C, key⟩ := free_ready hv hns hus hP hdu hdl hS ht hsp hA hη hW nst
  refine ⟨t0, ht0, φ0, hφ0, L, C, ?_⟩
  intro as has m m1 m2 hu he hn hs1 t htp htlt hfc hf K xl hK hxl hx1 hx2 hKS hN fuel hfuel hb hr
  have hdim : m.settings.ndim = 3 := by
    obtain ⟨s⟩ := build_steps hb
    exact s.hdim
  obtain ⟨m1', c, d, bars, a, r0, ft, A1, k1, k2, kd, kl, k3, k4, k5, k6, k7, k8, k9⟩ := key as has m hu he hdim hn
  rw [hb] at k1; cases k1
  obtain ⟨o, o1, ⟨p, p0, o2⟩, o3, o4⟩ := k9 t htp htlt hfc hf K xl hx1 hx2 hKS hN fuel hfuel
  obtain ⟨res, g1, g2, g3, g4⟩ := run_shows hP hb hr hs1 k2 kd kl k3 k4 k6 k7 k8 hK hxl o1
    fun q r hr => ⟨(o2 q r hr).1, (o2 q r hr).2.1⟩
  have hrec : ∀ i < o.recs.length, ∃ r : Rec ℝ, o.recs[i]? = some r := fun i hi => ⟨_, List.getElem?_eq_getElem hi⟩
  refine ⟨c.nodes, res, o.recs.length, p, g1, g2, ⟨p0, ?_, ?_, ?_, ?_, ?_, ?_, o3, ?_⟩, g3⟩
  · intro i hi
    obtain ⟨r, hir⟩ := hrec i hi
    obtain ⟨p1, p2, p3, p4, p5, p6, p7, p8, -⟩ := o2 i r hir
    obtain ⟨s1, s2, s3⟩ := g4 i r hir
    refine ⟨r.a, s1, s3 _ _ _ (ht.supports _ ⟨by linarith, p5⟩) p8, fun k hk => ⟨r.x.getD k 0, ?_, p8 k hk⟩⟩
    rw [s2, List.getD_eq_getElem?_getD, List.getElem?_eq_getElem (by omega)]
    rfl
  · intro i hi
    obtain ⟨r, hir⟩ := hrec i hi
    obtain ⟨p1, p2, p3, p4, p5, p6, -⟩ := o2 i r hir
    exact ⟨p4, p5, p6⟩
  · intro G hG i hi
    obtain ⟨r, hir⟩ := hrec i hi
    obtain ⟨p1, p2, p3, p4, p5, p6, p7, -⟩ := o2 i r hir
    exact p7 G hG
  · intro i hi
    obtain ⟨r, hir⟩ := hrec i hi
    obtain ⟨p1, p2, p3, p4, p5, p6, p7, p8, p9, -⟩ := o2 i r hir
    exact p9
  · intro i hi
    obtain ⟨r, hir⟩ := hrec i hi
    obtain ⟨p1, p2, p3, p4, p5, p6, p7, p8, p9, p10, -⟩ := o2 i r hir
    exact p10
  · intro i hi
    obtain ⟨r, hir⟩ := hrec i hi
    obtain ⟨p1, p2, p3, p4, p5, p6, p7, p8, p9, p10, p11⟩ := o2 i r hir
    exact p11
  · rcases o4 with o4 | ⟨r, v, o5, o6, o7⟩
    · exact Or.inl o4
    · right
      have hpos : 0 < o.recs.length := List.length_pos_of_mem (List.mem_of_getLast? o5)
      rw [List.getLast?_eq_getElem?] at o5
      obtain ⟨s1, s2, -⟩ := g4 _ r o5
      refine ⟨hpos, r.a, v, ?_, ?_, o7⟩
      · rwa [Nat.sub_add_cancel hpos] at s1
      · rw [s2]
        exact o6

theorem IterationsFor.mono {s : Settings ℝ} {C C' t : ℝ} (ht : 0 < t) (hC : |C| ≤ C') (h : IterationsFor s C' t) : IterationsFor s C t := by
  obtain ⟨N, h1, h2, h3⟩ := h
  exact ⟨N, h1.mono hC ht.le, h2.mono hC ht.le, h3⟩

/-- **C103, one step.** With a single step, `build` and `run` return, and the results are the undeformed state and the points of
the path. -/
theorem C103_single_step_run {u : UserInput ℝ} {es : List (Elem ℝ)} {nsteps : Nat} (hv : ValidInput u es nsteps)
    (hns : 1 ≤ nsteps) (hus : UsualPlastic es) {P : List (Int × Fin 3)} (hP : FreeList u P) {du dl S : ℝ} (hdu : 0 < du)
    (hdl : 0 < dl) (hS : 0 < S) {U U' : ℝ → Int → V3 ℝ} {l l' : ℝ → ℝ} (ht : FreeTrail u es du dl S U U' l l')
    {env : Env ℝ} (hsp : SolvesRegular env.spsolve (P.length + 1)) (hA : ArgMax env) {η W : ℝ} (hη : 0 < η) (hW : 1 ≤ W) (nst : Nat) :
    ∃ t0 > 0, ∃ φ0 > 0, ∃ L C : ℝ, ∀ (argsort : List Int → List Nat), IsArgsort argsort → ∀ m : Model ℝ,
      Entered u m → EnteredElems es m → m.settings.ndim = 3 → m.settings.nstatev = nst → m.settings.nsteps = 1 →
      m.settings.log ≤ 1 →
      ∀ t, 0 < t → t < t0 → FreeControl m.settings du dl η W t → (10 : ℝ) ^ (-m.settings.ftol) ≤ φ0 * t →
      ∀ K xl, m.settings.incs.ofStep 0 = some K → m.settings.xlimit.ofStep 0 = some xl → 1 ≤ xl.1 → xl.1 ≤ P.length + 1 →
      K * ((1 + η) * (W * t)) ≤ S → IterationsFor m.settings C t → ∀ fuel, 1 ≤ fuel →
      ∃ m1 m2 nt res q p, m.build argsort = .ok m1 ∧ m1.run env fuel = .ok m2 ∧ m1.nodes = some nt ∧ m2.results = some res ∧
        FollowsFree u P nt.labels res.R du dl S U U' l l' ((1 - η) * t) ((1 + η) * (W * t)) (L * (10 : ℝ) ^ (-m.settings.ftol)) K xl q p ∧
        res.R.length = q + 1 := by
  obtain ⟨t1, ht1, f1, hf1, L1, C1, key1⟩ := free_ready hv hns hus hP hdu hdl hS ht hsp hA hη hW nst
  obtain ⟨t2, ht2, f2, hf2, L2, C2, key2⟩ := C103_run_follows_free_path hv hns hus hP hdu hdl hS ht hsp hA hη hW nst
  refine ⟨min t1 t2, lt_min ht1 ht2, min f1 f2, lt_min hf1 hf2, L2, max |C1| |C2|, ?_⟩
  intro as has m hu he hdim hn hs1 hlog t htp htlt hfc hf K xl hK hxl hx1 hx2 hKS hN fuel hfuel
  obtain ⟨m1, c, d, bars, a, r0, ft, A1, k1, k2, kd, kl, k3, k4, k5, k6, k7, k8, k9⟩ := key1 as has m hu he hdim hn
  obtain ⟨o, o1, -⟩ := k9 t htp (lt_of_lt_of_le htlt (min_le_left _ _)) hfc
    (le_trans hf (mul_le_mul_of_nonneg_right (min_le_left _ _) htp.le)) K xl hx1 hx2 hKS (hN.mono htp (le_max_left _ _)) fuel hfuel
  obtain ⟨m2, hrun⟩ := one_step_returns hs1 hlog k2 k3 k4 k5 k6 k7 k8 hK hxl o1
  obtain ⟨nt, res, q, p, p1, p2, p3, p4⟩ := key2 as has m m1 _ hu he hn hs1.ge t htp (lt_of_lt_of_le htlt (min_le_right _ _)) hfc
    (le_trans hf (mul_le_mul_of_nonneg_right (min_le_right _ _) htp.le)) K xl hK hxl hx1 hx2 hKS (hN.mono htp (le_max_right _ _)) fuel
    hfuel k1 hrun
  exact ⟨m1, _, nt, res, q, p, k1, hrun, p1, p2, p3, p4 hs1⟩

/-! The hypotheses of both theorems are met by the two-bar truss (`tbFreeTrail` in `Props/TwoBarFree.lean`, where both are applied). -/

end TrussPy
