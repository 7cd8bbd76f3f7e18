import Verif.Lemmas.Interrupted
import Verif.Lemmas.Rebuild
import Verif.Props.Input
import Verif.ExamplesRun
/-!
# C118: what a run that raised leaves behind

In an interactive session `run` may raise (no solution, a setting that does not fit), and the user catches the exception
and goes on.  The carrier `F` is arbitrary; `left`, the analysis object after the interruption, is arbitrary too.
-/

set_option linter.unusedSectionVars false

namespace TrussPy

variable {F : Type} [Zero F] [One F] [Add F] [Sub F] [Mul F] [Div F] [Neg F] [Flt F]

/-- The model with another number of steps. -/
def Model.withSteps (m : Model F) (n : Nat) : Model F := { m with settings := { m.settings with nsteps := n } }

/-- **C118** (same outcome) `run` with its state left behind returns and raises what `Model.run` does. -/
theorem C118_same_outcome (env : Env F) (fuel : Nat) (left : Analysis F) (m : Model F) :
    asPy (m.runC env fuel left) = m.run env fuel := runC_agrees env fuel left m

/-- **C118** (completed steps are kept) `run` raised on a built model, and not because of the log.  Then there is a number
`k` of completed steps: with more than `k` steps the analysis always raises this exception.  If `k = 0` the results
show the undeformed state, twice.  Otherwise an analysis of `k` steps would have returned, and its results and load
factors at the ends of the steps are all there - followed by a copy of the last one, on which the next step would have
been based. -/
theorem C118_completed_steps_kept {as : List Int → List Nat} {env : Env F} {fuel : Nat} {left : Analysis F}
    {m m1 m2 : Model F} {e : Err} (hb : m.build as = .ok m1) (hl : 1 < m1.settings.log → m1.settings.j0 = none)
    (h : m1.runC env fuel left = (m2, .error e)) :
    ∃ k res, k < m1.settings.nsteps ∧ m2.results = some res ∧ (∀ n, k < n → (m1.withSteps n).run env fuel = .error e) ∧
      (k = 0 → res.stepLpfEnd = [] ∧ ∃ r0, m1.results = some ⟨[r0], []⟩ ∧ res.R = [r0, r0]) ∧
      (0 < k → ∃ m3 res3 x, (m1.withSteps k).run env fuel = .ok m3 ∧ m3.results = some res3 ∧
        res.stepLpfEnd = res3.stepLpfEnd ∧ res3.R.getLast? = some x ∧ res.R = res3.R ++ [{ x with U0 := x.U }]) := by
  obtain ⟨s⟩ := build_steps hb
  have hl' : ¬ (1 < m1.settings.log ∧ m1.settings.j0 ≠ none) := fun ⟨a, b⟩ => b (hl a)
  obtain ⟨c, a, ft, r0, g1, g2, g3, g4⟩ : ∃ c a ft r0, m1.ctx = some c ∧ m1.analysis = some a ∧
      m1.results = some ⟨[r0], []⟩ ∧ m1.forces = some ft := by
    rw [s.hm']
    refine ⟨⟨s.nt, s.et, s.nt0.labels.length, s.dof1.length, if s.et.mtype.contains 2 then 2 else m.settings.nstatev⟩,
      _, s.ft, _, ?_, rfl, rfl, rfl⟩
    simp only [Model.ctx, s.he]
    rfl
  unfold Model.runC at h
  rw [if_neg hl', g1, g2, g3, g4] at h
  simp only [dupFirst] at h
  generalize hst : stepsC env fuel c m1.settings ft.forces.rows (List.range m1.settings.nsteps)
        { a with Vred := a.Ured ++ [0], lpf := some 0 } ⟨[r0, r0], []⟩ = st at h
  obtain ⟨res, r⟩ := st
  cases r with
  | ok a' => cases h
  | error e' =>
  cases h
  obtain ⟨-, pre, k, post, a1, j1, j2, j3⟩ := stepsC_ok.2 hst
  have hk : k < m1.settings.nsteps ∧ pre = List.range k := by
    have hlen := congrArg List.length j1
    simp only [List.length_range, List.length_append, List.length_cons] at hlen
    have e1 : (List.range m1.settings.nsteps)[pre.length]? = some k := by
      rw [j1, List.getElem?_append_right (Nat.le_refl _), Nat.sub_self]
      rfl
    rw [List.getElem?_range (by omega)] at e1
    cases e1
    refine ⟨by omega, ?_⟩
    have e2 := congrArg (List.take pre.length) j1
    rw [List.take_left', List.take_range] at e2
    · rw [Nat.min_eq_left (by omega)] at e2
      exact e2.symm
    · rfl
  obtain ⟨hk, rfl⟩ := hk
  have hd : Doubled ([r0, r0] : List (Analysis F)) := ⟨[], r0, r0, rfl, .inl rfl⟩
  have hrun : ∀ n, (m1.withSteps n).run env fuel = ((List.range n).foldlM
      (runStep env fuel c { m1.settings with nsteps := n } ft.forces.rows)
      ({ a with Vred := a.Ured ++ [0], lpf := some 0 }, ⟨[r0, r0], []⟩) >>= fun p =>
      pure { m1.withSteps n with analysis := some p.1, results := some p.2 }) := fun n =>
    run_parts (m := m1.withSteps n) hl' g1 g2 g3 g4 rfl
  refine ⟨k, res, hk, rfl, ?_, ?_, ?_⟩
  · intro n hn
    rw [hrun]
    have hsplit : List.range n = List.range k ++ k :: (List.range' (k + 1) (n - k - 1)) := by
      rw [List.range_eq_range', List.range_eq_range', show n = k + (n - k) by omega, ← List.range'_append_1]
      congr 1
      rw [show k + (n - k) - k - 1 = n - k - 1 by omega, show n - k = (n - k - 1) + 1 by omega, List.range'_succ]
      simp
    have h1 := (fold_nsteps (env := env) (fuel := fuel) (c := c) (s := m1.settings) (rows := ft.forces.rows)
      (n := n) (n' := m1.settings.nsteps) ({ a with Vred := a.Ured ++ [0], lpf := some 0 }, ⟨[r0, r0], []⟩) k hn hk).trans j2
    rw [hsplit, List.foldlM_append, h1, py_bind_ok, List.foldlM_cons, runStep_error j3 n]
    rfl
  · intro h0
    subst h0
    cases j2
    exact ⟨rfl, r0, g3, rfl⟩
  · intro h0
    obtain ⟨k, rfl⟩ : ∃ j, k = j + 1 := ⟨k - 1, by omega⟩
    obtain ⟨a2, X, x, q1, q2⟩ := fold_shorter (res := ⟨[r0, r0], []⟩) hd hk j2
    refine ⟨{ m1.withSteps (k + 1) with analysis := some a2, results := some ⟨X ++ [x], res.stepLpfEnd⟩ },
      ⟨X ++ [x], res.stepLpfEnd⟩, x, ?_, rfl, rfl, List.getLast?_concat, q2⟩
    rw [hrun, q1]
    rfl

/-- **C118** (log) If `run` raised because of the log (`log` above 1 with a control component chosen), nothing has
changed. -/
theorem C118_log_changes_nothing {env : Env F} {fuel : Nat} {left : Analysis F} {m : Model F} (hl : 1 < m.settings.log)
    (hj : m.settings.j0 ≠ none) : m.runC env fuel left = (m, .error .typeError) := by
  unfold Model.runC
  rw [if_pos ⟨hl, hj⟩]

/-- **C118** (the model is kept) Whatever `run` does, it leaves the tables, the dimensions and the settings alone. -/
theorem C118_model_kept (env : Env F) (fuel : Nat) (left : Analysis F) (m : Model F) :
    (m.runC env fuel left).1.nodes = m.nodes ∧ (m.runC env fuel left).1.elems = m.elems ∧
    (m.runC env fuel left).1.bounds = m.bounds ∧ (m.runC env fuel left).1.forces = m.forces ∧
    (m.runC env fuel left).1.settings = m.settings ∧ (m.runC env fuel left).1.dims = m.dims := by
  unfold Model.runC
  split
  · exact ⟨rfl, rfl, rfl, rfl, rfl, rfl⟩
  split
  · simp only
    split
    · exact ⟨rfl, rfl, rfl, rfl, rfl, rfl⟩
    · split <;> exact ⟨rfl, rfl, rfl, rfl, rfl, rfl⟩
  · exact ⟨rfl, rfl, rfl, rfl, rfl, rfl⟩

/-- **C118** (correct the settings and go on) A model was built and run, the run returned or raised.  The user then changes
settings (anything except the dimension and the number of internal variables) and builds again.  The model obtained is
the one obtained by building with those settings from the start: the interrupted run has left no trace. -/
theorem C118_build_again {as : List Int → List Nat} (has : IsArgsort as) {u : UserInput F} {m m1 : Model F}
    (hu : Entered u m) (hnd : (u.nodes.map (·.label)).Nodup) (h2 : 2 ≤ u.nodes.length) (hb : m.build as = .ok m1)
    (env : Env F) (fuel : Nat) (left : Analysis F) {s : Settings F} (hs1 : s.ndim = m1.settings.ndim)
    (hs2 : s.nstatev = m1.settings.nstatev) :
    ∃ m3, ({ (m1.runC env fuel left).1 with settings := s } : Model F).build as = .ok m3 ∧
      ({ m with settings := s } : Model F).build as = .ok m3 ∧ m3.settings = s := by
  obtain ⟨k1, k2, k3, k4, -, -⟩ := C118_model_kept env fuel left m1
  generalize (m1.runC env fuel left).1 = mr at k1 k2 k3 k4
  have key : ∀ {p q : Model F}, p.build as = .ok q → ∀ {s : Settings F}, s.ndim = q.settings.ndim →
      s.nstatev = q.settings.nstatev → ({ p with settings := s } : Model F).build as = .ok { q with settings := s } := by
    intro p q hpq s e1 e2
    obtain ⟨nt0, et, nt, bt, ft, dof0, dof1, t1, t2, t3, t4, t5, t6, t7, t8, t9, t10, hm'⟩ := (build_steps hpq).some
    subst hm'
    have e3 : (if et.mtype.contains 2 then 2 else s.nstatev) = s.nstatev := by
      rw [e2]
      simp only
      split <;> rfl
    apply build_of_steps
    refine ⟨nt0, et, nt, bt, ft, dof0, dof1, t1, t2, e1.trans t3, t4, t5, t6, t7, t8, t9, t10, ?_⟩
    simp only at e2
    simp only [← e2, e3]
  have hfull : ({ mr with settings := s } : Model F).build as = ({ m1 with settings := s } : Model F).build as := by
    unfold Model.build
    simp only [k1, k2, k3, k4]
  refine ⟨{ m1 with settings := s }, ?_, key hb hs1 hs2, rfl⟩
  rw [hfull]
  exact key (C07_build_idempotent_partial has hu hnd h2 hb) hs1 hs2

/-- A bar with two steps, but increments given for the first one only. -/
def exShortIncs : Model ℚ := { exBarModel 1 [1] with settings := { (exBarModel 1 [1]).settings with incs := .tuple [2] } }

/-- What a call of `run` on the built model leaves: step, displacement and load factor of every result, and the load
factors at the ends of the steps. -/
def showLeft (m : Model ℚ) : Py (List (Nat × ℚ × Option ℚ) × List ℚ × Option Err) := do
  let m1 ← m.build refArgsort
  let r := m1.runC exEnv 100 (Analysis.fresh 0 0 [] [] 0)
  let some res := r.1.results | .error .attributeError
  return (res.R.map fun a => (a.step, a.U.getD 3 9, a.lpf), res.stepLpfEnd,
    match r.2 with | .error e => some e | .ok _ => none)

/-- The second step raises an `IndexError`; both increments of the first step are there, the last one twice. -/
example : showLeft exShortIncs = .ok ([(1, 0, some 0), (1, 1 / 4, some (1 / 4)), (1, 1 / 2, some (1 / 2)),
    (1, 1 / 2, some (1 / 2))], [1 / 2], some .indexError) := by decide +kernel

/-- No step at all is completed if no increments are given: the undeformed state twice. -/
example : showLeft { exShortIncs with settings := { exShortIncs.settings with incs := .tuple [] } } =
    .ok ([(1, 0, some 0), (1, 0, some 0)], [], some .indexError) := by decide +kernel

/-- The hypotheses of `C118_completed_steps_kept` hold for this model. -/
example : ∃ m1 m2 : Model ℚ, exShortIncs.build refArgsort = .ok m1 ∧ (1 < m1.settings.log → m1.settings.j0 = none) ∧
    m1.runC exEnv 100 (Analysis.fresh 0 0 [] [] 0) = (m2, .error .indexError) := by
  have h : (match exShortIncs.build refArgsort with
    | .ok m1 => m1.settings.j0 == none && (match m1.runC exEnv 100 (Analysis.fresh 0 0 [] [] 0) with
      | (_, .error .indexError) => true | _ => false)
    | .error _ => false) = true := by decide +kernel
  cases h1 : exShortIncs.build refArgsort with
  | error e => rw [h1] at h; cases h
  | ok m1 =>
    rw [h1] at h
    simp only [Bool.and_eq_true, beq_iff_eq] at h
    rcases h2 : m1.runC exEnv 100 (Analysis.fresh 0 0 [] [] 0) with ⟨m2, r⟩
    rw [h2] at h
    refine ⟨m1, m2, rfl, fun _ => h.1, h2.trans ?_⟩
    split at h
    · next heq => rw [(Prod.mk.inj heq).2]
    · exact absurd h.2 (by simp)

/-- The input of the bar. -/
def exShortIncsInput : UserInput ℚ :=
  ⟨[⟨1, [0, 0, 0]⟩, ⟨2, [1, 0, 0]⟩], [⟨1, [0, 0, 0]⟩, ⟨2, [1, 0, 0]⟩], [⟨2, [1, 0, 0, 2, 0, 0]⟩]⟩

/-- The hypotheses of `C118_build_again` hold: the user adds the missing number of increments. -/
example : Entered exShortIncsInput exShortIncs ∧ (exShortIncsInput.nodes.map (·.label)).Nodup ∧
    2 ≤ exShortIncsInput.nodes.length ∧ (exBarModel 1 [1]).settings.ndim = exShortIncs.settings.ndim ∧
    (exBarModel 1 [1]).settings.nstatev = exShortIncs.settings.nstatev := by
  unfold Entered
  decide +kernel

/-- Afterwards the analysis returns the results of both steps. -/
example : (do
    let m1 ← exShortIncs.build refArgsort
    let m2 ← ({ (m1.runC exEnv 100 (Analysis.fresh 0 0 [] [] 0)).1 with
      settings := (exBarModel 1 [1]).settings } : Model ℚ).build refArgsort
    showR (fun a => (a.step, a.U.getD 3 9, a.lpf)) (m2.run exEnv 100)) =
    .ok [(1, 0, some 0), (1, 1 / 4, some (1 / 4)), (1, 1 / 2, some (1 / 2)), (2, 1, some (1 / 4))] := by decide +kernel

end TrussPy
