import Verif.Lemmas.WidthLog
import Verif.Spec.Path
import Verif.ExamplesPath
import Verif.ExamplesReal
/-!
# C85: the step width grows only after four accepted increments since the last reduction
-/

set_option linter.unusedSectionVars false

namespace TrussPy

/-- **C85.** The passes of a run with step control, in order, are a log in which every pass that reduced the step width is
followed by at least four accepted passes before another pass increases it.  The widths with which the accepted passes
were made are the recorded ones. -/
theorem C85_cautious_growth (env : Env ℝ) (P : Problem ℝ) (hP : KeepsWidth P) (cfg : PFCfg ℝ)
    (hsc : cfg.stepcontrol = true) (hc : cfg.WidthOK) (fuel : Nat) (x : List ℝ) (a : Analysis ℝ) (o : PFOut ℝ)
    (h : pathfollow env P cfg fuel x a = .ok o) (d0 : ℝ)
    (h0 : (initDxmax (x ++ [0]) cfg.dxmax)[0]? = some d0) (hd0 : 0 < d0) :
    ∃ j log, startJ cfg (x ++ [0]) = .ok j ∧
      WidthLog env P cfg (initDxmax (x ++ [0]) cfg.dxmax) fuel (pfStart cfg x a j) o.recs log ∧
      (log.filter (·.accepted)).map (fun e => some e.before) = (o.recs.filter (·.out == .accepted)).map (·.a.dVmax) ∧
      CautiousGrowth log := by
  unfold pathfollow at h
  obtain ⟨j, hj, h⟩ := py_bind_eq_ok.1 h
  simp only at h
  split at h
  · cases h
  obtain ⟨⟨s, recs⟩, h1, h⟩ := py_bind_eq_ok.1 h
  cases h
  obtain ⟨log, hlog⟩ := incrLoop_log h1
  refine ⟨j, log, hj, hlog, hlog.recorded hP, ?_⟩
  have hw : WidthInv cfg (initDxmax (x ++ [0]) cfg.dxmax) (pfStart cfg x a j).dxmax := by
    unfold WidthInv
    rw [if_pos hsc]
    exact ⟨1, by simp [Scaled, pfStart], hc.lo_lt_one, hc.one_below⟩
  have hs := hlog.safe hsc hc h0 hd0 (A := []) hw (by
    intro A1 r A2 h
    cases A1 <;> cases h)
  intro A r B e C hl hr he
  exact hs (A ++ r :: B) e C (by rw [hl]; simp) he A r B rfl hr

/-- The hypotheses are met by a run that records an accepted increment. -/
example : KeepsWidth realSpring ∧ realCfg.stepcontrol = true ∧ realCfg.WidthOK ∧
    (initDxmax ([0] ++ [0] : List ℝ) realCfg.dxmax)[0]? = some (1 / 10) ∧
    ∃ o, pathfollow realEnv realSpring realCfg 5 [0] realA = .ok o ∧ o.recs.length = 1 := by
  refine ⟨?_, rfl, ?_, rfl, ?_⟩
  · intro a V V0 w a' r h
    simp only [realSpring] at h
    split at h
    · cases h; rfl
    · cases h
  · constructor <;> norm_num [realCfg]
  · obtain ⟨o, h1, h2⟩ := realRun
    refine ⟨o, h1, ?_⟩
    simpa using congrArg List.length h2

/-- The bound is attained: the first width 1 is reduced to 1/8, five increments are made with it, and after the fifth
(four accepted before) the width grows. -/
example : (summary (pathfollow exEnv exSpring { exCfg with
      stepcontrol := true, jFixed := true, j := some 2, jPre := false, dxmax := .vec [100, 1], minfac := 1/100, nfev := 3, cycl := 10, ftol := 1/100, xtol := 1/100, incs := 6, xlimit := none } 20 [0] exSpringA)).map (·.map (·.2)) =
      .ok [(some [25/2, 1/8], .accepted), (some [25/2, 1/8], .accepted), (some [25/2, 1/8], .accepted),
        (some [25/2, 1/8], .accepted), (some [25/2, 1/8], .accepted), (some [175/12, 7/48], .accepted)] := by
  decide +kernel

end TrussPy
