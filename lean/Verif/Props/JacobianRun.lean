import Verif.Spec.InStep
import Verif.Lemmas.Keep
import Verif.Lemmas.Total
import Verif.Props.Jacobian
import Verif.Lemmas.CongruentBuild
import Verif.ExamplesValid
/-!
# C27: the matrices of the solver in the steps of a run
-/

set_option linter.unusedSectionVars false

namespace TrussPy

section
variable {F : Type} [Zero F] [One F] [Add F] [Sub F] [Mul F] [Div F] [Neg F] [Flt F]

theorem InStep.ready {c : Ctx F} {bars : List (Bar F)} (hB : c.Bars bars) (hC : ∀ b ∈ bars, b.Complete c.nstatev) {a1 a : Analysis F}
    (h1 : a1.Ready c) (h : InStep c a1 a) :
    a.Ready c ∧ a.extForces = a1.extForces ∧ a.f0red = a1.f0red ∧ a.DOF1 = a1.DOF1 := by
  have hP := modelProblem_runs hB hC
  induction h with
  | start => exact ⟨h1, rfl, rfl, rfl⟩
  | @equilibrium a a' V V0 w g _ hV hV0 he ih =>
    obtain ⟨i1, i2, i3, i4⟩ := ih
    obtain ⟨a2, r, e1, e2, -⟩ := hP.g a V V0 w i1 hV hV0
    have e1 : TrussPy.equilibrium c a V V0 .G w = .ok (a2, r) := e1
    rw [he] at e1
    cases e1
    have f := (equilibrium_frame he).1
    exact ⟨e2, by rw [f.ext, i2], by rw [f.f0red, i3], by rw [f.dof1, i4]⟩
  | @stiffness a a' U K _ hU he ih =>
    obtain ⟨i1, i2, i3, i4⟩ := ih
    obtain ⟨a2, r, e1, e2, -⟩ := hP.dgdx a U i1 hU
    have e1 : TrussPy.stiffness c a U = .ok (a2, r) := e1
    rw [he] at e1
    cases e1
    have f := stiffness_frame he
    exact ⟨e2, by rw [f.ext, i2], by rw [f.f0red, i3], by rw [f.dof1, i4]⟩
  | book j K dV _ ih =>
    obtain ⟨i1, i2, i3, i4⟩ := ih
    exact ⟨hP.book _ j K dV i1, i2, i3, i4⟩
  | save V u l _ hu ih =>
    obtain ⟨i1, i2, i3, i4⟩ := ih
    exact ⟨hP.save _ V u l i1 hu, i2, i3, i4⟩

theorem inStep_keeps (env : Env F) (c : Ctx F) (a1 : Analysis F) :
    (modelProblem c).Keeps env.spsolve (InStep c a1) (fun V => V.length = c.ndof1 + 1) where
  g a V V0 w a' r ha hV hV0 h := ha.equilibrium hV hV0 h
  dgdx a V a' K ha hV h := ha.stiffness (by simp [hV]) h
  book a j K dV ha := ha.book j K dV
  save a V l ha hV _ := ha.save _ _ _ (by simp [hV])
  step a V V0 j Vmax a1 J a2 fx dx _ hV _ _ _ _ hd := by
    unfold vadd
    rw [List.length_zipWith, hd, Nat.min_self]
    exact hV
  shrink x y k hx hy := by
    unfold vadd vsub
    simp only [List.length_zipWith, List.length_map, hx, hy, Nat.min_self]

/-- **C27** The analysis objects recorded in a step and the last one arise from that at its start in the way described by
`InStep`; in particular the loads and the column `f0red` of the matrix stay those of the step. -/
theorem C27_states_of_step {env : Env F} {c : Ctx F} {cfg : PFCfg F} {fuel : Nat} {a1 : Analysis F} {o : PFOut F}
    (hU : a1.Ured.length = c.ndof1) (h : pathfollow env (modelProblem c) cfg fuel a1.Ured a1 = .ok o) :
    InStep c a1 o.final ∧ ∀ r ∈ o.recs, InStep c a1 r.a ∧ r.x.length = c.ndof1 + 1 :=
  pathfollow_kept (inStep_keeps env c a1) .start (by simp [hU]) h

/-- **C27** Between two steps the analysis object is as at the start of a run, apart from its values: the next step can be set up,
and again all matrices are exact. -/
theorem C27_next_step {env : Env F} {fuel : Nat} {c : Ctx F} {bars : List (Bar F)} (hB : c.Bars bars)
    (hC : ∀ b ∈ bars, b.Complete c.nstatev) {s : Settings F} {rows : List (List F)} {w k : Nat} {st st' : Analysis F × Results F}
    (ha : st.1.Base c) (hr : rows.length = c.nnodes) (hw : ∀ r ∈ rows, r.length = w) (hk : 3 * (k + 1) ≤ w)
    (hl : k ≤ st.2.stepLpfEnd.length) (h : runStep env fuel c s rows st k = .ok st') :
    st'.1.Base c ∧ st'.2.stepLpfEnd.length = st.2.stepLpfEnd.length + 1 := by
  obtain ⟨a1, s1, s2⟩ := setStep_total (le := st.2.stepLpfEnd) ha hr hw hk hl
  obtain ⟨a, res⟩ := st
  unfold runStep at h
  simp only at h s1
  obtain ⟨incs, -, h⟩ := py_bind_eq_ok.1 h
  obtain ⟨xl, -, h⟩ := py_bind_eq_ok.1 h
  rw [s1, py_bind_ok] at h
  obtain ⟨o, h1, h⟩ := py_bind_eq_ok.1 h
  obtain ⟨R, -, h⟩ := py_bind_eq_ok.1 h
  obtain ⟨l, -, h⟩ := py_bind_eq_ok.1 h
  have hf := (InStep.ready hB hC s2 (C27_states_of_step s2.base.Ured h1).1).1.base
  split at h
  · cases h
    refine ⟨⟨⟨hf.fits.U, hf.fits.U0, hf.fits.r, hf.fits.K, hf.fits.Krow, hf.fits.stretch, hf.fits.force, hf.fits.stress,
      hf.fits.statev, hf.fits.dof, hf.fits.dofNodup⟩, hf.statev, hf.dofs, rfl, hf.Ured⟩, by simp⟩
  · cases h
    exact ⟨hf, by simp⟩

end

/-- **C27** In a step of a run.  Let `a1` be the analysis object with the loads of step `k` set up by the model (`setStep`), and `a`
any one that arises from it within the step.  The matrix `dfdx` computed from `a` at any `V` is the Fréchet derivative of the extended
residual `f`, if no bar has collapsed there and no plastic bar is exactly at yield. -/
theorem C27_step_jacobian {c : Ctx ℝ} {bars : List (Bar ℝ)} (hB : c.Bars bars) (hC : ∀ b ∈ bars, b.Complete c.nstatev)
    {rows : List (List ℝ)} {le : List ℝ} {w k : Nat} {a0 a1 a : Analysis ℝ} (ha : a0.Base c) (hr : rows.length = c.nnodes)
    (hw : ∀ r ∈ rows, r.length = w) (hk : 3 * (k + 1) ≤ w) (hl : k ≤ le.length) (hset : setStep rows le k a0 = .ok a1)
    (hin : InStep c a1 a) {n : Nat} (hn : c.ndof1 = n) {V0 : List ℝ} (hV0 : V0.length = n + 1) (V : Fin (n + 1) → ℝ) (j : Int)
    (Vmax : ℝ) (wr : Bool) {a' : Analysis ℝ} {K : List (List ℝ)} (hK : extDf (modelProblem c) j a (List.ofFn V) = .ok (a', K))
    (hs : ∀ (k : Nat) (b : Bar ℝ), bars[k]? = some b → b.Smooth a'.U (stateRow c a.statev k)) :
    HasFDerivAt (vecFun (n := n + 1) fun V => extF (modelProblem c) V0 j Vmax wr a V)
      (LinearMap.toContinuousLinearMap (Matrix.toLin' (matOf (n + 1) K))) V := by
  obtain ⟨a1', s1, s2⟩ := setStep_total (le := le) ha hr hw hk hl
  rw [hset] at s1
  cases s1
  obtain ⟨r1, r2, r3, r4⟩ := InStep.ready hB hC s2 hin
  unfold setStep at hset
  obtain ⟨fc, -, hset⟩ := py_bind_eq_ok.1 hset
  obtain ⟨f0, q2, hset⟩ := py_bind_eq_ok.1 hset
  obtain ⟨ef, e1, e2, e3⟩ := r1.ext
  have hx : some (⟨(stepSlice rows k).flatten, fc⟩ : StepForces ℝ) = a1.extForces := by cases hset; rfl
  have hf : a1.f0red = f0 := by cases hset; rfl
  have hd : a1.DOF1 = a0.DOF1 := by cases hset; rfl
  rw [e1, ← hx] at r2
  cases r2
  refine C27_extended_jacobian ⟨hB, r1.base.fits, hC, r1.base.statev, e1, e2, e3, r1.base.dofs⟩ ?_ hn hV0 V j Vmax wr hK hs
  rw [r3, hf, r4, hd]
  have := npTake_eq_map (0 : ℝ) (npTake_ok_lt q2)
  rw [q2] at this
  rw [Except.ok.inj this]

/-- The hypotheses hold for every valid input, here for the bar of the examples: the loads of the first step are set up, and after an
evaluation of the stiffness matrix of the undeformed bar the analysis object is still one of this step. -/
example : ∃ (c : Ctx ℝ) (bars : List (Bar ℝ)) (rows : List (List ℝ)) (w : Nat) (a0 a1 a : Analysis ℝ) (K : List (List ℝ)),
    c.Bars bars ∧ (∀ b ∈ bars, b.Complete c.nstatev) ∧ a0.Base c ∧ rows.length = c.nnodes ∧ (∀ r ∈ rows, r.length = w) ∧
    3 * (0 + 1) ≤ w ∧ setStep rows [] 0 a0 = .ok a1 ∧ stiffness c a1 (List.replicate c.ndof1 0) = .ok (a, K) ∧ InStep c a1 a := by
  obtain ⟨m1, labels, c, bars, dof0, dof1, ft, -, B⟩ := rbValid.builtAs refArgsort_isArgsort rbEntered rbEnteredElems rfl
  obtain ⟨a1, s1, s2⟩ := setStep_total (le := []) (k := 0) B.base (rows := ft.forces.rows) (w := loadWidth rbInput.forces)
    (by rw [B.rows, List.length_map, B.isBars.nnodes, B.isLabels]) B.width (by decide) (by simp)
  obtain ⟨a, K, e, -⟩ := (modelProblem_runs B.isBars B.complete).dgdx a1 (List.replicate c.ndof1 0) s2 (by simp)
  exact ⟨c, bars, ft.forces.rows, _, _, a1, a, K, B.isBars, B.complete, B.base,
    by rw [B.rows, List.length_map, B.isBars.nnodes, B.isLabels], B.width, by decide, s1, e, .stiffness .start (by simp) e⟩

end TrussPy
