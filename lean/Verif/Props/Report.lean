import Verif.Lemmas.ReportRun
import Verif.Lemmas.Frame
import Verif.Props.Path
import Verif.ExamplesRun
/-!
# C87-C90: the printed protocol

For every arithmetic, linear solver, log level, input and number of steps.
-/

set_option linter.unusedSectionVars false

namespace TrussPy

variable {F : Type} [Zero F] [One F] [Add F] [Sub F] [Mul F] [Div F] [Neg F] [Flt F]

/-! ## C87: printing does not change what is computed -/

/-- **C87** `run` with all its `print` calls returns what it would return without them, unless step control is used with
`reduce = 0`. -/
theorem C87_printing_harmless {env : Env F} (hr : env.Ranks) (fuel : Nat) (t : Times F) {m : Model F}
    (h : m.settings.stepcontrol = true → Flt.eq m.settings.reduce 0 = false) :
    (m.runP env fuel t).res = m.run env fuel := runP_res hr fuel t h

/-- The model with another log level. -/
def Model.withLog (m : Model F) (log : Int) : Model F := { m with settings := { m.settings with log := log } }

private theorem run_withLog (env : Env F) (fuel : Nat) (m : Model F) (log : Int)
    (h : ¬ (1 < m.settings.log ∧ m.settings.j0 ≠ none)) (h' : ¬ (1 < log ∧ m.settings.j0 ≠ none)) :
    (m.withLog log).run env fuel = (m.run env fuel).map (·.withLog log) := by
  unfold Model.run
  rw [if_neg h, if_neg (show ¬ (1 < (m.withLog log).settings.log ∧ (m.withLog log).settings.j0 ≠ none) from h')]
  show (match m.ctx, m.analysis, m.results, m.forces with
    | some c, some a, some res, some ft => _
    | _, _, _, _ => _) = _
  cases m.ctx <;> cases m.analysis <;> cases m.results <;> cases hf : m.forces <;> try rfl
  rename_i c a res ft
  simp only
  have e : runStep env fuel c (m.withLog log).settings ft.forces.rows = runStep env fuel c m.settings ft.forces.rows := rfl
  rw [e]
  cases dupFirst res.R with
  | error e => rfl
  | ok R =>
    simp only [py_ok_bind]
    show ((List.range m.settings.nsteps).foldlM _ _ >>= _) = _
    cases (List.range m.settings.nsteps).foldlM (runStep env fuel c m.settings ft.forces.rows)
      ({ a with Vred := a.Ured ++ [0], lpf := some 0 }, ⟨R, res.stepLpfEnd⟩) with
    | error e => rfl
    | ok p =>
      simp only [py_ok_bind]
      show Except.ok (Model.withLog { m with analysis := some p.1, results := some p.2 } log) = _
      rw [← hf]
      rfl

/-- **C87** The log level has no influence on the results: the same run with another level ends in the same way, with the
same analysis object and the same results.  Excluded are the two cases in which printing itself raises: a given control
component with a level above one, and step control with `reduce = 0`. -/
theorem C87_log_level {env : Env F} (hr : env.Ranks) (fuel : Nat) (t t' : Times F) {m : Model F} {log : Int}
    (h : m.settings.stepcontrol = true → Flt.eq m.settings.reduce 0 = false)
    (h1 : m.settings.j0 = none ∨ (m.settings.log ≤ 1 ∧ log ≤ 1)) :
    ((m.withLog log).runP env fuel t').res = ((m.runP env fuel t).res).map (·.withLog log) := by
  rw [runP_res hr fuel t' (m := m.withLog log) h, runP_res hr fuel t h]
  apply run_withLog
  · rintro ⟨a, b⟩; rcases h1 with h1 | h1
    · exact b h1
    · omega
  · rintro ⟨a, b⟩; rcases h1 with h1 | h1
    · exact b h1
    · omega

/-- **C87** The first excluded case: above level one, a given control component raises `TypeError`. -/
theorem C87_control_component (env : Env F) (fuel : Nat) (t : Times F) {m : Model F} (hl : 1 < m.settings.log) {j : Int}
    (hj : m.settings.j0 = some j) : (m.runP env fuel t).res = .error .typeError := by
  unfold Model.runP paramsP j0P
  rw [if_pos hl, hj]
  rfl

/-- **C87** The second excluded case: above level one, step control with `reduce = 0` raises `ZeroDivisionError` before
anything is computed. -/
theorem C87_zero_reduce (env : Env F) (fuel : Nat) (t : Times F) {m : Model F} (hl : 1 < m.settings.log)
    (hj : m.settings.j0 = none) (hs : m.settings.stepcontrol = true) (h0 : Flt.eq m.settings.reduce 0 = true) :
    (m.runP env fuel t).res = .error .zeroDivision := by
  unfold Model.runP paramsP j0P pyInv
  rw [if_pos hl, hj, hs, h0]
  rfl

/-- **C87** At lower levels it is raised by the first reduction of the step width: Newton's method failed, the width is
above its lower bound, and the control component is unchanged or the last cycle is reached. -/
theorem C87_zero_reduce_later {cfg : PFCfg F} {dxmax dxmax0 : List F} {j j0 z b n nfev : Int} {d d0 : F}
    (hd : pyGet dxmax 0 = .ok d) (hd0 : pyGet dxmax0 0 = .ok d0) (h0 : Flt.eq cfg.reduce 0 = true) :
    (dxmaxControlP cfg dxmax dxmax0 j j0 z false b n nfev).res = .error .zeroDivision ↔
      Flt.lt (d0 * cfg.minfac) d = true ∧ (j0 = j ∨ z + 1 = cfg.cycl) := by
  unfold dxmaxControlP
  rw [hd, hd0]
  by_cases hm : Flt.lt (d0 * cfg.minfac) d = true
  · by_cases hj : j0 = j ∨ z + 1 = cfg.cycl
    · refine ⟨fun _ => ⟨hm, hj⟩, fun _ => ?_⟩
      simp only [Pr.res_bind, Pr.res_lift, py_ok_bind, hm]
      rcases hj with hj | hj <;> simp [hj, pyInv, h0, Pr.say, Pr.res, Pr.lift] <;> rfl
    · refine ⟨fun h => ?_, fun h => absurd h.2 hj⟩
      rw [not_or] at hj
      simp [Pr.res_bind, hm, hj.1, hj.2] at h
  · refine ⟨fun h => ?_, fun h => absurd h.1 hm⟩
    rw [Bool.not_eq_true] at hm
    simp [Pr.res_bind, hm] at h


example : exEnv.Ranks := fun _ => List.perm_insertionSort _ _

/-- The bar example with log level `log`. -/
def exLogModel (log : Int) : Model ℚ := (exBarModel 1 [1]).withLog log

/-- Times used in the examples. -/
def exTimes : Times ℚ := ⟨1, 2, 3, 4⟩

/-- Build and run with printed text: the text of `run`. -/
def runText (m : Model ℚ) : List (Line ℚ) := match m.build refArgsort with
  | .ok m1 => (m1.runP exEnv 100 exTimes).text
  | .error _ => []

/-- Result of `build` and `run` with printed text. -/
def runShown (m : Model ℚ) : Py (List (Option ℚ)) := do
  let m1 ← m.build refArgsort
  showR (·.lpf) (m1.runP exEnv 100 exTimes).res

example : runShown (exLogModel 2) = runShown (exLogModel 0) ∧
    runShown (exLogModel 2) = .ok [some 0, some (1 / 4), some (1 / 2), some (1 / 4)] := by decide +kernel

/-- The bar with one Newton iteration only and an undecided test of its step: in both steps the first increment is not
converged at full width. -/
def exFailModel (log : Int) (sc : Bool) : Model ℚ :=
  let m := exBarModel 1 [1]
  { m with settings := { m.settings with
    log := log, jPre := false, nfev := 1, xtol := 0, stepcontrol := sc, dlpf := 1, du := 2 } }

/-- The same with `reduce = 0`. -/
def exZeroModel (log : Int) : Model ℚ :=
  { exFailModel log true with settings := { (exFailModel log true).settings with reduce := 0 } }

example : runShown (exZeroModel 2) = .error .zeroDivision ∧ runShown (exZeroModel 0) = .error .zeroDivision ∧
    runShown (exFailModel 0 true) = .ok [some 0, some (1 / 8), some (1 / 4), some (1 / 8)] ∧
    runText (exZeroModel 0) = [.reduceInactive] := by decide +kernel

/-! ## C88: the protocol reports what is recorded -/

private theorem reports_built {argsort : List Int → List Nat} {env : Env F} (hr : env.Ranks) {fuel : Nat} {t : Times F}
    {m m1 m2 : Model F} (hb : m.build argsort = .ok m1)
    (hs : m1.settings.stepcontrol = true → Flt.eq m1.settings.reduce 0 = false)
    (h : (m1.runP env fuel t).res = .ok m2) (hn : 0 < m1.settings.nsteps) :
    ∃ c d res r0 outs, m1.ctx = some c ∧ m1.dims = some d ∧ m2.results = some res ∧ RunCalls env fuel m1 c outs ∧
      Undeformed d r0 ∧ res.R = r0 :: (recorded outs).map (·.a) ∧
      Reports m1.settings.log outs (m1.runP env fuel t).text := by
  obtain ⟨c, d, ft, h1, h2, h3, h4, h5, h6, h7, h8, h9, h10, h11, h12⟩ := build_ready hb
  obtain ⟨c', a, res, ft', r0, rest, g1, g2, g3, g4, g5, outs, a1, R, le, g6, g7, g8, g9⟩ := runP_ok hr hs h
  rw [h1] at g1; cases g1
  rw [h10] at g2; cases g2
  rw [h11] at g3; cases g3
  rw [h3] at g4; cases g4
  simp only [List.cons.injEq] at g5
  obtain ⟨rfl, rfl⟩ := g5
  rcases g8 with ⟨e, -⟩ | ⟨-, e⟩
  · omega
  · obtain ⟨r0, hr0⟩ : ∃ r0 : Analysis F, r0 = { (Analysis.fresh d.nnodes d.nelems d.dof0 d.dof1 c.nstatev : Analysis F) with
        lpf := some 0, extForces := some ⟨ft.forces.rows.flatten, List.replicate (3 * d.nnodes) 0⟩ } := ⟨_, rfl⟩
    simp only [← hr0] at g7
    refine ⟨c, d, _, r0, outs, h1, h2, e, ?_, ?_, ?_, g9⟩
    · exact Steps.built hb h1 h2 h3 g7 g6 (by rw [hr0])
    · rw [hr0]
      constructor <;> rfl
    · obtain ⟨u0, hu⟩ := Steps.layout (X := [_]) g7
      simp only at hu
      simp only
      rw [hu, List.dropLast_concat]
      rfl

/-- **C88** The text of a run that returns reports the recorded increments (`Reports`): there is one line `final LPF` for
every result after the first one, in order and with its load factor; the increments of every step are numbered from one; a
line `write result` for every result; an error message for exactly the increments that failed, of their kind; and every step
is announced and ended. -/
theorem C88_protocol {argsort : List Int → List Nat} {env : Env F} (hr : env.Ranks) {fuel : Nat} {t : Times F}
    {m m1 m2 : Model F} (hb : m.build argsort = .ok m1)
    (hs : m1.settings.stepcontrol = true → Flt.eq m1.settings.reduce 0 = false)
    (h : (m1.runP env fuel t).res = .ok m2) (hn : 0 < m1.settings.nsteps) :
    ∃ c d res r0 outs, m1.ctx = some c ∧ m1.dims = some d ∧ m2.results = some res ∧ RunCalls env fuel m1 c outs ∧
      Undeformed d r0 ∧ res.R = r0 :: (recorded outs).map (·.a) ∧
      Reports m1.settings.log outs (m1.runP env fuel t).text := reports_built hr hb hs h hn

/-- **C88** The load factors printed are those of the results. -/
theorem C88_printed_factors {argsort : List Int → List Nat} {env : Env F} (hr : env.Ranks) {fuel : Nat} {t : Times F}
    {m m1 m2 : Model F} (hb : m.build argsort = .ok m1)
    (hs : m1.settings.stepcontrol = true → Flt.eq m1.settings.reduce 0 = false)
    (h : (m1.runP env fuel t).res = .ok m2) (hn : 0 < m1.settings.nsteps) (hl : 0 < m1.settings.log) :
    ∃ res, m2.results = some res ∧
      ((m1.runP env fuel t).text.filterMap Line.finalLpf?).map some = (res.R.drop 1).map (·.lpf) := by
  obtain ⟨c, d, res, r0, outs, h1, h2, h3, h4, h5, h6, h7⟩ := reports_built hr hb hs h hn
  refine ⟨res, h3, ?_⟩
  rw [h7.lpf, if_pos hl, h6]
  simp

private theorem modelProblem_keepsWidth (c : Ctx F) : KeepsWidth (modelProblem c) :=
  fun _ _ _ _ _ _ h => (equilibrium_frame h).1.dVmax

private theorem failure?_eq_none {o : Outcome} : o.failure? = none ↔ o = .accepted ∨ o = .predictor := by
  cases o <;> simp [Outcome.failure?]

/-- Only the last increment of a step can fail. -/
private theorem failures_last {recs : List (Rec F)} (h : ∀ k r, recs[k]? = some r → r.isError → k + 1 = recs.length) :
    recs.filterMap (·.out.failure?) = (recs.getLast?.bind (·.out.failure?)).toList := by
  induction recs with
  | nil => rfl
  | cons r rs ih =>
    cases rs with
    | nil => cases hf : r.out.failure? <;> simp [hf]
    | cons r' rs =>
      have h0 : r.out.failure? = none := by
        have := h 0 r rfl
        rw [failure?_eq_none]
        unfold Rec.isError at this
        cases ho : r.out with
        | accepted => exact .inl rfl
        | predictor => exact .inr rfl
        | error1 => have := this (.inl ho); simp at this
        | error2 => have := this (.inr ho); simp at this
      rw [List.filterMap_cons, h0]
      simp only
      rw [ih fun k q hk he => ?_]
      · rw [List.getLast?_cons_cons]
      · have := h (k + 1) q (by simpa using hk) he
        simp only [List.length_cons] at this ⊢
        omega

/-- **C88** An error message says how the last increment of a step ended: the messages of the whole text are those of the last
increments of the steps, at most one per step.  The text "Job stopped" notwithstanding, every later step is run and its
increments are recorded. -/
theorem C88_error_messages {argsort : List Int → List Nat} {env : Env F} (hr : env.Ranks) {fuel : Nat} {t : Times F}
    {m m1 m2 : Model F} (hb : m.build argsort = .ok m1)
    (hs : m1.settings.stepcontrol = true → Flt.eq m1.settings.reduce 0 = false)
    (h : (m1.runP env fuel t).res = .ok m2) (hn : 0 < m1.settings.nsteps) :
    ∃ c res r0 outs, m1.ctx = some c ∧ m2.results = some res ∧ RunCalls env fuel m1 c outs ∧
      res.R = r0 :: (recorded outs).map (·.a) ∧ outs.length = m1.settings.nsteps ∧
      (m1.runP env fuel t).text.filterMap Line.failure? =
        outs.filterMap (fun o => o.recs.getLast?.bind (·.out.failure?)) := by
  obtain ⟨c, d, res, r0, outs, h1, h2, h3, h4, h5, h6, h7⟩ := reports_built hr hb hs h hn
  refine ⟨c, res, r0, outs, h1, h3, h4, h6, h4.count, ?_⟩
  rw [h7.failures]
  unfold recorded
  rw [List.filterMap_flatMap]
  have : ∀ o ∈ outs, o.recs.filterMap (·.out.failure?) = (o.recs.getLast?.bind (·.out.failure?)).toList := by
    intro o ho
    obtain ⟨k, hk⟩ := List.getElem?_of_mem ho
    obtain ⟨incs, xl, -, -, -, hp⟩ := stepCall_iff.1 (h4.call k o hk)
    apply failures_last
    intro i r hi he
    have hlt : i < o.recs.length := (List.getElem?_eq_some_iff.1 hi).1
    obtain ⟨prev, hprev⟩ : ∃ p, o.resX[i]? = some p := by
      unfold PFOut.resX
      exact ⟨_, List.getElem?_eq_getElem (by simp; omega)⟩
    exact (C34_recorded_increments env _ (modelProblem_keepsWidth c) _ fuel _ _ o hp i prev r hprev hi).2.2 he
  clear h1 h2 h3 h4 h5 h6 h7
  induction outs with
  | nil => rfl
  | cons o os ih =>
    rw [List.flatMap_cons, this o (List.mem_cons_self ..), ih fun o' ho => this o' (List.mem_cons_of_mem _ ho),
      List.filterMap_cons]
    cases o.recs.getLast?.bind (·.out.failure?) <;> rfl

/-- **C88** If no error message is printed, every recorded increment of every step is converged within the tolerances and
bounded by the step width (`ConvergedIncrement`), or its predictor met the tolerances and the vector is that of the increment
before. -/
theorem C88_no_message {argsort : List Int → List Nat} {env : Env F} (hr : env.Ranks) {fuel : Nat} {t : Times F}
    {m m1 m2 : Model F} (hb : m.build argsort = .ok m1)
    (hs : m1.settings.stepcontrol = true → Flt.eq m1.settings.reduce 0 = false)
    (h : (m1.runP env fuel t).res = .ok m2) (hn : 0 < m1.settings.nsteps)
    (hq : .error1 ∉ (m1.runP env fuel t).text) (hq' : .error2 ∉ (m1.runP env fuel t).text) :
    ∃ c res r0 outs, m1.ctx = some c ∧ m2.results = some res ∧ RunCalls env fuel m1 c outs ∧
      res.R = r0 :: (recorded outs).map (·.a) ∧
      ∀ k o, outs[k]? = some o → ∃ cfg, StepArgs m1.settings k cfg ∧
        ∀ (i : Nat) prev r, o.resX[i]? = some prev → o.recs[i]? = some r →
          (r.out = .accepted ∧ ConvergedIncrement (modelProblem c) cfg prev r) ∨
          (r.out = .predictor ∧ r.x = prev) := by
  obtain ⟨c, d, res, r0, outs, h1, h2, h3, h4, h5, h6, h7⟩ := reports_built hr hb hs h hn
  refine ⟨c, res, r0, outs, h1, h3, h4, h6, fun k o hk => ?_⟩
  obtain ⟨cfg, p1, -, hp⟩ := h4.call k o hk
  refine ⟨cfg, p1, fun i prev r hprev hi => ?_⟩
  have hC := C34_recorded_increments env _ (modelProblem_keepsWidth c) _ fuel _ _ o hp i prev r hprev hi
  have hnil : (recorded outs).filterMap (·.out.failure?) = [] := by
    rw [← h7.failures, List.filterMap_eq_nil_iff]
    intro l hl
    cases l <;> first | rfl | exact absurd hl hq | exact absurd hl hq'
  have hmem : r ∈ recorded outs :=
    List.mem_flatMap.2 ⟨o, List.mem_of_getElem? hk, List.mem_of_getElem? hi⟩
  rcases failure?_eq_none.1 (List.filterMap_eq_nil_iff.1 hnil r hmem) with e | e
  · exact .inl ⟨e, hC.1 e⟩
  · exact .inr ⟨e, hC.2.1 e⟩

/-- **C88** `EXIT 1` is printed by a path-following call if and only if its last increment did not fail and exceeds the limit;
the other lines report its increments. -/
theorem C88_exit {verbose : Int} {env : Env F} {P : Problem F} {cfg : PFCfg F} {fuel : Nat} {x : List F}
    {a : Analysis F} {o : PFOut F} (h : (pathfollowP verbose env P cfg fuel x a).res = .ok o) :
    .exit1 ∈ (pathfollowP verbose env P cfg fuel x a).text ↔
      ∃ r, o.recs.getLast? = some r ∧ (r.out = .accepted ∨ r.out = .predictor) ∧ ExceedsLimit r.x cfg.xlimit := by
  have hT := (pathfollowP_text h).exit
  have e1 : .exit1 ∈ (pathfollowP verbose env P cfg fuel x a).text ↔
      (pathfollowP verbose env P cfg fuel x a).text.filterMap Line.exit? ≠ [] := by
    rw [ne_eq, List.filterMap_eq_nil_iff, not_forall]
    constructor
    · exact fun hm => ⟨.exit1, fun hh => by cases hh hm⟩
    · rintro ⟨l, hl⟩
      by_cases hm : l ∈ (pathfollowP verbose env P cfg fuel x a).text
      · cases l <;> first | exact hm | exact absurd (fun _ => rfl) hl
      · exact absurd (fun h => absurd h hm) hl
  rw [e1, hT]
  have e2 : ∀ o : Outcome, o.isStop = false ↔ (o = .accepted ∨ o = .predictor) := by
    intro o; cases o <;> simp [Outcome.isStop]
  simp only [e2]

/-- The complete text of the bar example. -/
example : runText (exLogModel 1) =
    [.stepHead 1, .incHead 1, .iterRow 1 0, .finalLpf (1 / 4), .incHead 2, .iterRow 1 0, .finalLpf (1 / 2), .stepEnd 1,
      .stepHead 2, .constLoad [0, 0, 0, 1 / 2, 0, 0], .initial [1 / 2, 0], .incHead 1, .iterRow 1 0, .finalLpf (1 / 4),
      .stepEnd 2] := by decide +kernel

/-- Both steps fail in their first increment; the first message does not keep the second step from being run. -/
example : runText (exFailModel 1 false) =
    [.stepHead 1, .incHead 1, .iterRow 1 0, .error2, .finalLpf 1, .stepEnd 1,
      .stepHead 2, .constLoad [0, 0, 0, 1, 0, 0], .initial [1, 0], .incHead 1, .iterRow 1 0, .error2, .finalLpf 1,
      .stepEnd 2] ∧
    runShown (exFailModel 1 false) = .ok [some 0, some 1, some 1] := by decide +kernel

/-! ## C89: log levels -/

/-- **C89** Every printed line, also of a run that raises an exception, belongs to a level of at most `log` or to those
printed at every level; lines about the step width only appear with step control, lines about earlier steps only in runs of
several steps. -/
theorem C89_levels (env : Env F) (fuel : Nat) (t : Times F) (m : Model F) (l : Line F)
    (hl : l ∈ (m.runP env fuel t).text) :
    l.Shown m.settings.log (m.settings.stepcontrol = true) (1 < m.settings.nsteps) True := runP_every env fuel t m l hl

/-- **C89** With log level 0, no step control and one step, only failures, recyclings and reached limits are printed. -/
theorem C89_quiet (env : Env F) (fuel : Nat) (t : Times F) {m : Model F} (hlog : m.settings.log ≤ 0)
    (hs : m.settings.stepcontrol = false) (hn : m.settings.nsteps ≤ 1) {l : Line F}
    (hl : l ∈ (m.runP env fuel t).text) : l = .error1 ∨ l = .error2 ∨ l = .recycling ∨ l = .exit1 := by
  obtain ⟨h1, h2, h3, h4⟩ := runP_every env fuel t m l hl
  have h2 : l.isWidth = false := by
    cases h : l.isWidth
    · rfl
    · rw [h2 h] at hs; cases hs
  have h3 : l.isCarry = false := by
    cases h : l.isCarry
    · rfl
    · have := h3 h; omega
  cases l <;> simp [Line.level, Line.isWidth, Line.isCarry, Line.isBefore] at h1 h2 h3 h4 ⊢ <;> omega

/-- Level 0 is not silent: a run of two steps prints what the second one takes over, and failures with step control all
changes of the step width. -/
example : runText (exLogModel 0) = [.constLoad [0, 0, 0, 1 / 2, 0, 0], .initial [1 / 2, 0]] ∧
    runText (exFailModel 0 true) = [.reduceInactive, .reduceBy (1 / 8), .recycling, .growInactive 1,
      .constLoad [0, 0, 0, 1 / 4, 0, 0], .initial [1 / 4, 0], .reduceInactive, .reduceBy (1 / 8), .recycling] ∧
    runText { exFailModel 0 false with settings := { (exFailModel 0 false).settings with nsteps := 1 } } = [.error2] := by
  decide +kernel

/-! ## C90: head, summary and durations -/

/-- A code fence. -/
def Line.isFence : Line F → Bool
  | .fence => true
  | _ => false

/-- **C90** The code fences of a log file, written by the creation of the model, `build` and `run` together, are balanced
if and only if the log level is above one; without a log file none is written. -/
theorem C90_fences (argsort : List Int → List Nat) (env : Env F) (fuel : Nat) (t : Times F) (m m1 : Model F) (log : Int)
    (logfile : Bool) :
    ((initText log logfile ++ (m.buildP argsort).text ++ (m1.runP env fuel t).text).countP Line.isFence) =
      if logfile then (if 1 < log then 2 else 1) else 0 := by
  have h1 : (m1.runP env fuel t).text.countP Line.isFence = 0 := by
    rw [List.countP_eq_zero]
    intro l hl
    have := (runP_every env fuel t m1 l hl).own
    cases l <;> first | (simp [Line.isFence]; done) | cases this
  have h2 : (m.buildP argsort).text.countP Line.isFence = 0 := by
    rw [List.countP_eq_zero]
    unfold Model.buildP
    intro l hl
    cases hb : m.build argsort with
    | error e => rw [hb] at hl; cases hl
    | ok m' =>
      rw [hb] at hl
      simp only [Pr.text_bind, Pr.res_lift, Pr.text_lift, List.nil_append] at hl
      cases hd : m'.dims with
      | none => rw [hd] at hl; cases hl
      | some d =>
        rw [hd] at hl
        simp only [Pr.text_bind] at hl
        by_cases h : 1 < m'.settings.log
        · simp [h] at hl
          subst hl
          simp [Line.isFence]
        · simp [h] at hl
  rw [List.countP_append, List.countP_append, h1, h2]
  unfold initText
  by_cases h : 1 < log <;> cases logfile <;> simp [h, List.countP_cons, Line.isFence]

/-- **C90** `build` prints at most its summary, above level one, with the numbers of the built model; printing does not
change what it does. -/
theorem C90_summary (argsort : List Int → List Nat) {m m1 : Model F} (hb : m.build argsort = .ok m1) :
    (m.buildP argsort).res = .ok m1 ∧ ∃ d, m1.dims = some d ∧
      (m.buildP argsort).text = if 1 < m1.settings.log then
        [.summary m1.settings.ndim d.nnodes d.nelems d.ndof d.dof1 d.dof0] else [] := by
  obtain ⟨c, d, ft, h1, h2, -⟩ := build_ready hb
  unfold Model.buildP
  rw [hb]
  simp only [Pr.text_bind, Pr.res_bind, Pr.res_lift, Pr.text_lift, List.nil_append, py_ok_bind, h2]
  simp

/-- **C90** A run that returns prints the durations above level one, once each: under the label `cpu time` the differences of
`time.perf_counter` (elapsed time) and under the label `wall time` those of `time.process_time` (processor time). -/
theorem C90_durations {env : Env F} {fuel : Nat} {t : Times F} {m m' : Model F} (h : (m.runP env fuel t).res = .ok m') :
    (m.runP env fuel t).text.filterMap Line.duration? = if 1 < m.settings.log then
      [(true, false, t.perfBuild), (false, false, t.processBuild), (true, true, t.perfRun), (false, true, t.processRun)]
      else [] := runP_durations h

/-- At level 1 the log file begins with a single code fence. -/
example : (initText 1 true : List (Line ℚ)) = [.fence] ∧
    (initText 2 true : List (Line ℚ)) = [.fence, .banner, .fence] ∧
    ((exLogModel 2).buildP refArgsort).text = [.summary 3 2 1 6 [3] [0, 1, 2, 4, 5]] ∧
    (runText (exLogModel 2)).filterMap Line.duration? =
      [(true, false, 1), (false, false, 2), (true, true, 3), (false, true, 4)] := by decide +kernel

/-! ## C91: messages about the step width -/

/-- The factor of a line about a reduction. -/
def Line.reduceBy? : Line F → Option F
  | .reduceBy v => some v
  | _ => none

/-- The factor of a line about an increase. -/
def Line.growBy? : Line F → Option F
  | .growBy v => some v
  | _ => none

/-- **C91** Messages and step width: a message about a reduction by `v` is printed exactly if the width was divided by
`reduce`, with `v = 1 / reduce`; a message about an increase by `v` exactly if the width was multiplied by `v`; without such
messages the width is unchanged, or it was set to `maxfac` times the initial one, about which nothing is printed. -/
theorem C91_width_messages {cfg : PFCfg F} {dxmax dxmax0 : List F} {j j0 z b n nfev : Int} {ok : Bool} {o : DxOut F}
    (h : (dxmaxControlP cfg dxmax dxmax0 j j0 z ok b n nfev).res = .ok o) :
    let text := (dxmaxControlP cfg dxmax dxmax0 j j0 z ok b n nfev).text
    (ok = false ∧ o.changed = true ∧ text.filterMap Line.reduceBy? = [1 / cfg.reduce] ∧ text.filterMap Line.growBy? = [] ∧
      o.dxmax = dxmax.map (fun v => v / cfg.reduce)) ∨
    (∃ v, ok = true ∧ o.changed = true ∧ text.filterMap Line.reduceBy? = [] ∧ text.filterMap Line.growBy? = [v] ∧
      o.dxmax = dxmax.map fun w => w * v) ∨
    (o.changed = false ∧ text.filterMap Line.reduceBy? = [] ∧ text.filterMap Line.growBy? = [] ∧ o.dxmax = dxmax) ∨
    (ok = true ∧ o.changed = true ∧ text = [] ∧ o.dxmax = dxmax0.map fun v => v * cfg.maxfac) := by
  unfold dxmaxControlP at h ⊢
  obtain ⟨d, h1, h, t1⟩ := Pr.bind_ok h
  obtain ⟨d0, h2, h, t2⟩ := Pr.bind_ok h
  simp only [t1, t2, Pr.text_lift, List.nil_append]
  clear t1 t2
  cases ok with
  | false =>
    simp only [Bool.not_false, if_true] at h ⊢
    by_cases hm : Flt.lt (d0 * cfg.minfac) d = true
    · simp only [hm, if_true] at h ⊢
      obtain ⟨_, h3, h, t3⟩ := Pr.bind_ok h
      simp only [t3, Pr.text_say]
      clear t3
      by_cases hj : (decide (j0 = j) || decide (z + 1 = cfg.cycl)) = true
      · simp only [hj, if_true] at h ⊢
        obtain ⟨v, h4, h, t4⟩ := Pr.bind_ok h
        obtain ⟨_, h5, h, t5⟩ := Pr.bind_ok h
        simp only [t4, t5, Pr.text_lift, Pr.text_say, Pr.text_pure, List.append_nil, List.nil_append]
        cases h
        have hv : v = 1 / cfg.reduce := by
          have h4 : pyInv cfg.reduce = .ok v := h4
          unfold pyInv at h4
          split at h4
          · cases h4
          · exact (Except.ok.inj h4).symm
        refine .inl ⟨trivial, rfl, ?_, ?_, rfl⟩
        · rw [hv]; split <;> rfl
        · split <;> rfl
      · simp only [hj] at h ⊢
        cases h
        refine .inr (.inr (.inl ⟨rfl, ?_, ?_, rfl⟩)) <;> split <;> rfl
    · rw [Bool.not_eq_true] at hm
      simp only [hm] at h ⊢
      cases h
      exact .inr (.inr (.inl ⟨rfl, rfl, rfl, rfl⟩))
  | true =>
    simp only [Bool.not_true] at h ⊢
    by_cases hm : Flt.lt d (d0 * cfg.maxfac) = true
    · simp only [hm, if_true] at h ⊢
      by_cases hj : j0 = j
      · simp only [hj, if_true] at h ⊢
        by_cases hz : 0 < z
        · simp only [hz, if_true] at h ⊢
          cases h
          exact .inr (.inr (.inl ⟨rfl, rfl, rfl, rfl⟩))
        · simp only [hz, if_false] at h ⊢
          by_cases hb : b ≤ 3
          · simp only [hb, if_true] at h ⊢
            cases h
            exact .inr (.inr (.inl ⟨rfl, rfl, rfl, rfl⟩))
          · simp only [hb, if_false] at h ⊢
            cases h
            exact .inr (.inl ⟨_, trivial, rfl, rfl, rfl, rfl⟩)
      · simp only [hj, if_false] at h ⊢
        cases h
        exact .inr (.inr (.inl ⟨rfl, rfl, rfl, rfl⟩))
    · rw [Bool.not_eq_true] at hm
      simp only [hm] at h ⊢
      by_cases hj : j = j0
      · simp only [hj, if_true] at h ⊢
        cases h
        exact .inr (.inr (.inr ⟨trivial, rfl, rfl, rfl⟩))
      · simp only [hj, if_false] at h ⊢
        cases h
        exact .inr (.inr (.inl ⟨rfl, rfl, rfl, rfl⟩))

/-- **C91** The message "(inactive) due to recycle" is printed for every failed Newton run above the lower bound of the width
that is not the last cycle, also if the width is reduced. -/
theorem C91_inactive_message {cfg : PFCfg F} {dxmax dxmax0 : List F} {j j0 z b n nfev : Int} {ok : Bool} {d d0 : F}
    (hd : pyGet dxmax 0 = .ok d) (hd0 : pyGet dxmax0 0 = .ok d0) :
    .reduceInactive ∈ (dxmaxControlP cfg dxmax dxmax0 j j0 z ok b n nfev).text ↔
      ok = false ∧ Flt.lt (d0 * cfg.minfac) d = true ∧ z + 1 ≠ cfg.cycl := by
  unfold dxmaxControlP
  rw [hd, hd0]
  simp only [Pr.text_bind, Pr.res_lift, Pr.text_lift, List.nil_append]
  cases ok with
  | false =>
    by_cases hm : Flt.lt (d0 * cfg.minfac) d = true
    · by_cases hz : z + 1 = cfg.cycl
      · cases hv : pyInv cfg.reduce <;> simp [hm, hz, Pr.text_bind]
      · by_cases hj : j0 = j
        · cases hv : pyInv cfg.reduce <;> simp [hm, hz, hj, Pr.text_bind]
        · simp [hm, hz, hj, Pr.text_bind]
    · rw [Bool.not_eq_true] at hm
      simp [hm]
  | true =>
    simp only [Bool.not_true]
    by_cases hj : j0 = j
    · subst hj
      by_cases hm : Flt.lt d (d0 * cfg.maxfac) = true <;> by_cases hz : 0 < z <;> by_cases hb : b ≤ 3 <;>
        simp [hm, hz, hb, Pr.text_bind]
    · have hj' : j ≠ j0 := fun h => hj h.symm
      by_cases hm : Flt.lt d (d0 * cfg.maxfac) = true <;> simp [hm, hj, hj']

/-- Reduction (announced as inactive and as active), increase, and the silent return to the greatest width. -/
example :
    let f := fun (d : List ℚ) ok => dxmaxControlP exCfg d [1, 2] 1 1 0 ok 4 4 8
    ((f [1, 2] false).text, (f [1, 2] false).res.map (·.dxmax)) = ([.reduceInactive, .reduceBy (1 / 8)], .ok [1 / 8, 1 / 4]) ∧
    ((f [1, 2] true).text, (f [1, 2] true).res.map (·.dxmax)) = ([.growBy (5 / 4)], .ok [5 / 4, 5 / 2]) ∧
    ((f [11, 22] true).text, (f [11, 22] true).res.map (·.dxmax)) = ([], .ok [10, 20]) := by decide +kernel

end TrussPy
