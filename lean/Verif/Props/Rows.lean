import Verif.Lemmas.Rows
import Verif.Props.Report
/-!
# C98: the printed protocol is complete and true

For every arithmetic, linear solver, log level, input and number of steps.
-/

set_option linter.unusedSectionVars false

namespace TrussPy

variable {F : Type} [Zero F] [One F] [Add F] [Sub F] [Mul F] [Div F] [Neg F] [Flt F]

/-- **C98** The rows of the Newton solver: every iteration solves the system with the Jacobian and the residual of the
vector before it (`Iterates`); there is one row for each, numbered from one, with the norm of the residual after it; the
solver ends at the first iteration that meets both tolerances, and without success only after all of its `nfev`
iterations. -/
theorem C98_iteration_rows {S : Type} {verbose : Int} {f : S → List F → Py (S × List F)}
    {df : S → List F → Py (S × List (List F))} {sp : List (List F) → List F → Py (List F)} {s s' : S} {x : List F}
    {nfev : Int} {ftol xtol : F} {out : NewtonOut F}
    (h : (newtonP verbose f df sp s x nfev ftol xtol).res = .ok (s', out)) :
    ∃ (its : List (Iter F)) (i : Iter F), Iterates f df sp s x (its ++ [i]) s' ∧ out.x = i.x ∧
      out.fnorm = Flt.vnorm i.fx ∧ out.xnorm = Flt.vnorm i.dx ∧ out.n = its.length + 1 ∧ its.length + 1 ≤ nfev ∧
      (∀ i ∈ its, i.converged ftol xtol = false) ∧ out.success = i.converged ftol xtol ∧
      (out.success = false → its.length + 1 = nfev) ∧
      (newtonP verbose f df sp s x nfev ftol xtol).text =
        if 0 < verbose then iterRows ((its ++ [i]).map fun i => Flt.vnorm i.fx) else [] := by
  unfold newtonP at h ⊢
  obtain ⟨its, i, h1, h2, h3, h4, h5, h6, h7, h8, h9, h10⟩ := newtonLoopP_rows _ _ h
  refine ⟨its, i, h1, h2, h3, h4, by omega, by omega, h7, h8, fun hs => ?_, ?_⟩
  · have := h9 hs; omega
  · rw [h10, iterRows_eq]

/-- **C98** The whole text of a run that returns: the summary of the parameters, for every step its head, what it takes over
from the steps before, its increments, the list of results and its end, and at last the durations; nothing else.  For every
recorded increment there is a table, and what it says is true (`StepReport.IsTrue`, `IncTable`, `Cycle.IsTrue`). -/
theorem C98_complete_text {argsort : List Int → List Nat} {env : Env F} (he : env.Sorts) {fuel : Nat} {t : Times F}
    {m m1 m2 : Model F} (hb : m.build argsort = .ok m1)
    (hs : m1.settings.stepcontrol = true → Flt.eq m1.settings.reduce 0 = false)
    (h : (m1.runP env fuel t).res = .ok m2) (hn : 0 < m1.settings.nsteps) :
    ∃ c d res r0 outs, ∃ ps : List (StepReport F), m1.ctx = some c ∧ m1.dims = some d ∧ m2.results = some res ∧ RunCalls env fuel m1 c outs ∧
      Undeformed d r0 ∧ res.R = r0 :: (recorded outs).map (·.a) ∧ ps.length = outs.length ∧
      (∀ k o p, outs[k]? = some o → ps[k]? = some p → StepReport.IsTrue m1.settings.log c m1.settings k o p) ∧
      (m1.runP env fuel t).text = paramText m1.settings ++ (ps.mapIdx fun k p => p.text m1.settings.log k).flatten ++
        durationText m1.settings.log t := by
  obtain ⟨c, d, ft, h1, h2, h3, h4, h5, h6, h7, h8, h9, h10, h11, h12⟩ := build_ready hb
  obtain ⟨c', a, res, ft', r0, rest, g1, g2, g3, g4, g5, outs, ps, a1, R, le, g6, g7, g8, g9, g10⟩ := runP_full he hs h
  rw [h1] at g1; cases g1
  rw [h10] at g2; cases g2
  rw [h11] at g3; cases g3
  rw [h3] at g4; cases g4
  simp only [List.cons.injEq] at g5
  obtain ⟨rfl, rfl⟩ := g5
  obtain ⟨r0, hr0⟩ : ∃ r0 : Analysis F, r0 = { (Analysis.fresh d.nnodes d.nelems d.dof0 d.dof1 c.nstatev : Analysis F) with
      lpf := some 0, extForces := some ⟨ft.forces.rows.flatten, List.replicate (3 * d.nnodes) 0⟩ } := ⟨_, rfl⟩
  simp only [← hr0] at g7
  refine ⟨c, d, _, r0, outs, ps, h1, h2, g8 hn, ?_, ?_, ?_, g9.1, g9.2, ?_⟩
  · exact Steps.built hb h1 h2 h3 g7 g6 (by rw [hr0])
  · rw [hr0]
    constructor <;> rfl
  · obtain ⟨u0, hu⟩ := Steps.layout (X := [_]) g7
    simp only at hu
    simp only
    rw [hu, List.dropLast_concat]
    rfl
  · rw [g10, stepsText_eq]
    congr 4
    funext i p
    rw [Nat.zero_add]

/-- Norm shown in the totals of a cycle. -/
def Line.total? : Line F → Option F
  | .totalRow _ _ _ f _ _ _ _ _ _ => some f
  | _ => none

private theorem Cycle.totals {log : Int} (hl : 1 < log) (c : Cycle F) (hw : ∀ l ∈ c.messages, l.isWidth = true) :
    (c.text log).filterMap Line.total? = [c.norms.getLast?.getD 0] := by
  unfold Cycle.text
  have h1 : (iterRows c.norms).filterMap Line.total? = [] := by
    rw [List.filterMap_eq_nil_iff]
    intro l hl
    unfold iterRows at hl
    rw [List.mem_mapIdx] at hl
    obtain ⟨_, _, rfl⟩ := hl
    rfl
  have h2 : c.messages.filterMap Line.total? = [] := by
    rw [List.filterMap_eq_nil_iff]
    intro l hl
    have := hw l hl
    cases l <;> first | rfl | cases this
  have h3 : (cycleEnd c.out : List (Line F)).filterMap Line.total? = [] := by
    unfold cycleEnd; split <;> rfl
  rw [if_pos hl, if_pos (by omega), if_pos hl]
  simp only [List.filterMap_append, h1, h2, h3, List.append_nil]
  simp [Line.total?]

/-- **C98** Read off from the tables: an increment whose last cycle was accepted shows in its last totals a norm below the
tolerance. -/
theorem C98_accepted_norm {log : Int} (hl : 1 < log) {P : Problem F} {cfg : PFCfg F} {prev : List F} {r : Rec F}
    {b : List (Line F)} (h : IncTable log P cfg prev r b) (ha : r.out = .accepted) :
    ∃ f, (b.filterMap Line.total?).getLast? = some f ∧ Flt.lt f cfg.ftol = true := by
  obtain ⟨pre, w, cs, h1, h2, -, h4, -, -, h7⟩ := h.text
  rw [if_neg (by rw [ha]; simp)] at h7
  obtain ⟨c, k1, k2, k3⟩ := h7
  obtain ⟨cs', rfl⟩ : ∃ cs', cs = cs' ++ [c] := by
    obtain ⟨_, k⟩ := List.getLast?_eq_some_iff.1 k1
    exact ⟨_, k⟩
  have hc := h4 c (by simp)
  obtain ⟨f, e1, e2⟩ := hc.accepted (by rw [k2, ha])
  refine ⟨f, ?_, e2⟩
  rw [h1, List.flatMap_append, List.flatMap_singleton, List.filterMap_append, List.filterMap_append,
    List.filterMap_append, Cycle.totals hl c fun l hl => (hc.width l hl).1, e1]
  simp [List.getLast?_append]

example : exEnv.Sorts := by
  refine ⟨fun _ => List.perm_insertionSort _ _, fun l => ?_⟩
  have h : ((List.range l.length).insertionSort fun i j => l.getD i 0 ≤ l.getD j 0).Pairwise
      fun i j => l.getD i 0 ≤ l.getD j 0 := List.pairwise_insertionSort _ _
  refine h.imp fun {i j} hij u v hu hv => ?_
  rw [List.getD_eq_getElem?_getD, List.getD_eq_getElem?_getD, hu, hv] at hij
  show decide (v < u) = false
  rw [decide_eq_false_iff_not, not_lt]
  exact hij

/-- Two increments and a second step with one more: text with predictors. -/
example : runText (exLogModel 2) =
    paramText (exLogModel 2).settings ++
    [.stepHead 1, .stepNotes,
      .incHead 1, .tableHead, .preRow 1 0 2 0 2 1, .tableHead, .iterRow 1 0, .totalRow 1 2 2 0 2 1 1 (1 / 2) 0 0,
      .finalLpf (1 / 4),
      .incHead 2, .tableHead, .preRow 1 0 2 0 2 1, .tableHead, .iterRow 1 0, .totalRow 1 2 2 0 2 1 1 (1 / 2) 0 0,
      .finalLpf (1 / 2), .resultHead 1, .writeResult 1 2 (1 / 4), .writeResult 2 2 (1 / 2), .stepEnd 1,
      .stepHead 2, .stepNotes, .constLoad [0, 0, 0, 1 / 2, 0, 0], .initial [1 / 2, 0],
      .incHead 1, .tableHead, .preRow 1 0 2 0 2 1, .tableHead, .iterRow 1 0, .totalRow 1 2 2 0 2 1 1 1 0 0,
      .finalLpf (1 / 4), .resultHead 2, .writeResult 1 1 (1 / 4), .stepEnd 2] ++
    durationText 2 exTimes := by decide +kernel

/-- Recycling: the first step with a rejected cycle, repeated with a smaller width. -/
example : ((runText (exFailModel 2 true)).drop 20).take 23 =
    [.incHead 1, .tableHead, .tableHead, .iterRow 1 0, .totalRow 1 1 2 0 2 1 1 (1 / 2) 0 0, .reduceInactive,
      .reduceBy (1 / 8), .recycling, .tableHead, .iterRow 1 0, .totalRow 2 1 2 0 2 1 1 (1 / 2) 0 0, .finalLpf (1 / 8),
      .incHead 2, .tableHead, .tableHead, .iterRow 1 0, .totalRow 1 1 2 0 2 1 1 (1 / 2) 0 0, .growInactive 1,
      .finalLpf (1 / 4), .resultHead 1, .writeResult 1 2 (1 / 8), .writeResult 2 2 (1 / 4), .stepEnd 1] := by decide +kernel

/-- Number shown in the totals of a cycle. -/
def Line.cycle? : Line F → Option Int
  | .totalRow z _ _ _ _ _ _ _ _ _ => some z
  | _ => none

/-- The bar with step control, at most two cycles and a width that is much too big. -/
def exCycleModel : Model ℚ :=
  let m := exFailModel 2 true
  { m with settings := { m.settings with cycl := 2, xtol := 1, du := 100, dlpf := 100, maxfac := 1 } }

/-- **C98** The number of a cycle is not unique: with step control the last cycle that is allowed is repeated under the same
number as long as the width can be reduced (here: two cycles are allowed, eight are made for the first increment). -/
theorem C98_repeated_cycle_number :
    ((runText exCycleModel).takeWhile fun l => l.finalLpf?.isNone).filterMap Line.cycle? = [1, 2, 2, 2, 2, 2, 2, 2] := by
  decide +kernel

/-- The hypotheses of the theorem about the complete text are met. -/
example : ∃ m1 m2, (exLogModel 2).build refArgsort = .ok m1 ∧ (m1.runP exEnv 100 exTimes).res = .ok m2 ∧
    0 < m1.settings.nsteps ∧ m1.settings.stepcontrol = false := by
  have h : (match (exLogModel 2).build refArgsort with
      | .ok m1 => match (m1.runP exEnv 100 exTimes).res with
        | .ok _ => decide (0 < m1.settings.nsteps) && !m1.settings.stepcontrol
        | .error _ => false
      | .error _ => false) = true := by decide +kernel
  split at h
  · next m1 hb =>
    split at h
    · next m2 hr =>
      rw [Bool.and_eq_true, decide_eq_true_eq, Bool.not_eq_true'] at h
      exact ⟨m1, m2, hb, hr, h.1, h.2⟩
    · cases h
  · cases h

end TrussPy
