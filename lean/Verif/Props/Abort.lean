import Verif.Props.Run
import Verif.Spec.Path
/-!
# C68, C69: aborted steps, the first result
-/

set_option linter.unusedSectionVars false

namespace TrussPy

variable {F : Type} [Zero F] [One F] [Add F] [Sub F] [Mul F] [Div F] [Neg F] [Flt F]

/-! ## C68 -/

theorem Path.errorLast {env : Env F} {P : Problem F} {cfg : PFCfg F} {d0 : List F} {k : Nat} {s s' : PState F}
    {recs : List (Rec F)} (h : Path env P cfg d0 k s recs s') :
    ∀ i r, recs[i]? = some r → r.isError → i + 1 = recs.length := by
  induction h with
  | nil => intro i r hi; simp at hi
  | stop _ _ =>
    intro i r hi _
    have := (List.getElem?_eq_some_iff.1 hi).1
    simpa using this
  | limit _ _ _ =>
    intro i r hi _
    have := (List.getElem?_eq_some_iff.1 hi).1
    simpa using this
  | cons _ hs _ _ ih =>
    intro i r hi he
    cases i with
    | zero =>
      simp only [List.getElem?_cons_zero, Option.some.injEq] at hi
      subst hi
      rcases he with he | he <;> simp only at he <;> rw [he] at hs <;> cases hs
    | succ i =>
      simp only [List.getElem?_cons_succ] at hi
      simpa using ih i r hi he

/-- **C68** What an error of the solver (`ERROR 1`, `ERROR 2`) does: it ends its step, its iterate is the last result of
that step, and the analysis goes on with the next step; every step of a returning run is carried out.
This is what remains of the claim; that an error ends the whole analysis is refuted by
`C68_run_continues_counterexample`. -/
theorem C68_error_ends_step_partial {argsort : List Int → List Nat} {env : Env F} {fuel : Nat} {m m1 m2 : Model F}
    (hb : m.build argsort = .ok m1) (hr : m1.run env fuel = .ok m2) :
    ∃ c, ∃ outs : List (PFOut F), m1.ctx = some c ∧ RunCalls env fuel m1 c outs ∧ outs.length = m1.settings.nsteps ∧
      ∀ (k : Nat) (o : PFOut F), outs[k]? = some o → ∀ i r, o.recs[i]? = some r → r.isError → i + 1 = o.recs.length := by
  obtain ⟨c, d, r0, outs, h1, h2, h3, h4, h5, h6, h7, h8, h9, -⟩ := run_summary hb hr
  refine ⟨c, outs, h1, h9, h9.count, fun k o hk => ?_⟩
  obtain ⟨incs, xl, -, -, -, hp⟩ := stepCall_iff.1 (h9.call k o hk)
  obtain ⟨-, -, j, s', -, -, -, hpath⟩ := pathfollow_ok hp
  exact hpath.errorLast

/-- A yielding bar, load control, one Newton iteration allowed. -/
def exAbortModel : Model ℚ := { exBarModel 2 [1, 1 / 2, 1 / 4] with
  settings := { (exBarModel 1 [1]).settings with
    nsteps := 2, incs := .const 2, dlpf := 1, nfev := 1, j0 := some 2, jFixed := true } }

/-- The first step ends with its first increment by an error: the free end carries an unbalanced force of 1/2 (shown:
step, load factor, residual).  Nevertheless the second step is carried out and recorded. -/
theorem C68_run_continues_counterexample : showR (fun a => (a.step, a.lpf, a.g.getD 3 9)) (buildRun 1 exAbortModel) =
    .ok [(1, some 0, 0), (1, some 1, 1 / 2), (2, some 1, 0)] := by decide +kernel

/-- With more iterations allowed the same model records two balanced increments per step. -/
example : showR (fun a => (a.step, a.lpf, a.g.getD 3 9))
    (buildRun 1 { exAbortModel with settings := { exAbortModel.settings with nfev := 8 } }) =
    .ok [(1, some 0, 0), (1, some 1, 0), (1, some 2, 0), (2, some 1, 0), (2, some 2, 0)] := by decide +kernel

/-- The hypotheses of `C68_error_ends_step_partial` hold for this model. -/
example : ∃ m1 m2 : Model ℚ, exAbortModel.build refArgsort = .ok m1 ∧ m1.run exEnv 100 = .ok m2 ∧
    m1.settings.nsteps = 2 := by
  have h : (match exAbortModel.build refArgsort with
    | .ok m1 => (m1.run exEnv 100).toBool && m1.settings.nsteps == 2
    | .error _ => false) = true := by decide +kernel
  cases h1 : exAbortModel.build refArgsort with
  | error e => rw [h1] at h; cases h
  | ok m1 =>
    rw [h1] at h
    simp only [Bool.and_eq_true, beq_iff_eq] at h
    cases h2 : m1.run exEnv 100 with
    | error e => rw [h2] at h; cases h.1
    | ok m2 => exact ⟨m1, m2, rfl, h2, h.2⟩

/-! ## C69 -/

/-- **C69** The first result of every run shows no displacement, force and stress at load factor 0.
This is what remains of the claim; the stretch is wrong, see `C69_stretch_counterexample`. -/
theorem C69_first_result_partial {argsort : List Int → List Nat} {env : Env F} {fuel : Nat} {m m1 m2 : Model F}
    (hb : m.build argsort = .ok m1) (hr : m1.run env fuel = .ok m2) :
    ∃ d res r0, m1.dims = some d ∧ m2.results = some res ∧ res.R.head? = some r0 ∧ Undeformed d r0 :=
  C41_first_result hb hr

/-- **C69** In the first result of every run the stretch of every element is 0 (the undeformed stretch is 1). -/
theorem C69_stretch_counterexample {argsort : List Int → List Nat} {env : Env F} {fuel : Nat} {m m1 m2 : Model F}
    (hb : m.build argsort = .ok m1) (hr : m1.run env fuel = .ok m2) :
    ∃ d res r0, m1.dims = some d ∧ m2.results = some res ∧ res.R.head? = some r0 ∧
      r0.stretch = List.replicate d.nelems 0 := by
  obtain ⟨c, d, ft, r0, outs, a1, R, le, h1, h2, h3, h4, h5, h6, h7, h8, h9, h10, h11, h12⟩ := build_run hb hr
  obtain ⟨c', d', ft', k1, k2, k3, k4, k5, k6, k7, k8, k9, k10, k11, k12⟩ := build_ready hb
  obtain ⟨c2, a, res, ft2, q0, rest, g1, g2, g3, g4, g5, -, -, -, -, -, -, -, outs2, a2, R2, le2, g6, g7, g8⟩ := run_ok hr
  rw [h2] at k2; cases k2
  rw [k11] at g3; cases g3
  simp only [List.cons.injEq] at g5
  obtain ⟨rfl, rfl⟩ := g5
  rcases g8 with ⟨e, e2, -⟩ | ⟨e, e2, -⟩
  · rw [e] at g6
    rw [List.length_eq_zero_iff] at g6
    subst g6
    generalize hq : ([] : List (PFOut F)) = q at g7
    cases g7 with
    | nil => exact ⟨d, _, _, h2, e2, rfl, rfl⟩
    | snoc => simp at hq
  · obtain ⟨u0, hu⟩ := Steps.layout (X := [_]) g7
    simp only at hu
    refine ⟨d, _, { (Analysis.fresh d.nnodes d.nelems d.dof0 d.dof1 c'.nstatev : Analysis F) with
        lpf := some 0, extForces := some ⟨ft'.forces.rows.flatten, List.replicate (3 * d.nnodes) 0⟩ }, h2, e2, ?_, rfl⟩
    rw [hu, List.dropLast_concat]
    rfl

/-- The bar of the examples: recorded stretches 0, 5/4, 3/2, 2 at displacements 0, 1/4, 1/2, 1 of its free end. -/
example : showR (fun a => (a.U.getD 3 9, a.stretch)) (buildRun 1 (exBarModel 1 [1])) =
    .ok [(0, [0]), (1 / 4, [5 / 4]), (1 / 2, [3 / 2]), (1, [2])] := by decide +kernel

end TrussPy
