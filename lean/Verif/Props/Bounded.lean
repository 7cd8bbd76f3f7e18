import Verif.Lemmas.Bounded
import Verif.Props.PathReal
import Verif.ExamplesAccept
import Verif.Props.TwoBarFree
/-!
# What the settings say about two results in a row (C124)
-/

set_option linter.unusedSectionVars false

namespace TrussPy

/-- **C124.** Any two results of a run in a row, real arithmetic, every linear solver, any structure, any number of steps.  An
increment with a Newton solution notes step widths which are one multiple of the settings `du` and `dlpf` and obey the limits of the
step control.  If it was accepted, displacements and load factor move by at most `dxtol` times these widths and the control component
by its width, up to the tolerance; the load factor of the first result of a step counts from zero. -/
theorem C124_results_obey_settings {argsort : List Int → List Nat} {env : Env ℝ} {fuel : Nat} {m m1 m2 : Model ℝ}
    (hb : m.build argsort = .ok m1) (hr : m1.run env fuel = .ok m2) (hn : 0 < m1.settings.nsteps) (hdu : 0 < m1.settings.du)
    (hdl : 0 < m1.settings.dlpf) (hsc : m1.settings.stepcontrol = true → m1.settings.Controlled) :
    ∃ c d res r0 outs, m1.ctx = some c ∧ m1.dims = some d ∧ m2.results = some res ∧ RunCalls env fuel m1 c outs ∧
      res.R = r0 :: (recorded outs).map (·.a) ∧
      ∀ (k : Nat) (p : Analysis ℝ) (r : Rec ℝ), res.R[k]? = some p → (recorded outs)[k]? = some r → r.out ≠ .predictor →
        ∃ f, 0 < f ∧ WidthsOf m1.settings d.dof1.length f r.a ∧ (r.out = .accepted → MovesBy m1.settings f p r.a) := by
  obtain ⟨c, d, ft, r0, outs, a1, R, le, h1, h2, h3, h4, h5, h6, h7, h8, h9, h10, h11, h12⟩ := build_run hb hr
  rcases h12 with ⟨e, -⟩ | ⟨-, e1, e2⟩
  · omega
  refine ⟨c, d, ⟨R.dropLast, le⟩, r0, outs, h1, h2, e1, h11.built hb h1 h2 h3 h10 h7.lpf, e2, ?_⟩
  intro k p r hp hrk hpre
  have hp : R.dropLast[k]? = some p := hp
  rw [e2] at hp
  have hcar : Carry r0 { (Analysis.fresh d.nnodes d.nelems d.dof0 d.dof1 c.nstatev : Analysis ℝ) with
      Vred := List.replicate d.dof1.length 0 ++ [0], lpf := some 0 } := h8.trans (by constructor <;> rfl)
  obtain ⟨n, o, i, l0, q1, q2, q3, q4, q5, -⟩ := h11.position hcar h7.lpf hp hrk
  obtain ⟨incs, xl, -, -, -, hpf⟩ := stepCall_iff.1 (h11.calls n o q1)
  have hI := fresh_inv h5 h9
  have hinc := h11.pairs (hI.carry (by constructor <;> rfl)) hcar (hI.carry h8.symm) hp hrk
  have hru : r.a.Ured.length = d.dof1.length := by rw [hinc.next.red, h5]
  have hpu : p.Ured.length = d.dof1.length := by rw [hinc.prev.red, h5]
  obtain ⟨l, r1, r2, -⟩ := record_vector hpf q2
  have hlenU : o.startA.Ured.length = d.dof1.length := by
    have := record_length hpf i r q2
    rw [r2] at this
    simp at this
    omega
  have hW : (stepCfg m1.settings incs xl).stepcontrol = true → (stepCfg m1.settings incs xl).WidthOK := by
    intro h
    have := hsc h
    exact ⟨this.2, this.3, this.4, this.5, this.6⟩
  have hwid : initDxmax (o.startA.Ured ++ [0]) (stepCfg m1.settings incs xl).dxmax =
      List.replicate d.dof1.length m1.settings.du ++ [m1.settings.dlpf] := by
    simp [initDxmax, stepCfg, hlenU]
  obtain ⟨d0, hd0, hd0p⟩ : ∃ d0, (initDxmax (o.startA.Ured ++ [0]) (stepCfg m1.settings incs xl).dxmax)[0]? = some d0 ∧ 0 < d0 := by
    rw [hwid]
    cases d.dof1.length with
    | zero => exact ⟨_, rfl, hdl⟩
    | succ n => exact ⟨_, rfl, hdu⟩
  have hkw : KeepsWidth (modelProblem c) := fun _ _ _ _ _ _ h => (equilibrium_frame h).1.dVmax
  have hkc : KeepsControl (modelProblem c) := fun _ _ _ _ _ _ h => (equilibrium_frame h).1.j
  obtain ⟨f, f1, f2, f3⟩ := C37_step_width env (modelProblem c) hkw _ hW fuel _ _ o hpf d0 hd0 hd0p r (List.mem_of_getElem? q2) hpre
  rw [hwid, List.map_append, List.map_replicate, List.map_singleton] at f1
  have hfpos : 0 < f := by
    cases hs : m1.settings.stepcontrol with
    | false => rw [f2 hs]; exact one_pos
    | true =>
      have hc := hsc hs
      exact lt_trans (div_pos hc.minfac_pos (lt_trans one_pos hc.reduce_gt)) (f3 hs).1
  refine ⟨f, hfpos, ⟨f1, f2, fun h => (f3 h).1, fun h => (f3 h).2.1⟩, ?_⟩
  intro hacc
  obtain ⟨-, dV, v1, v2⟩ := C34_exact env (modelProblem c) hkw _ fuel _ _ o hpf i _ r q4 q2 hacc
  obtain ⟨dV', u, v, w, w1, w2, w3, w4, w5⟩ := C35_control_component env (modelProblem c) hkw hkc _ fuel _ _ o hpf i _ r q4 q2 hacc
  rw [f1] at v1
  cases v1
  refine ⟨?_, ?_, ⟨l, l0, dV', u, v, w, r1, q5, w1, by rw [← r2]; exact w2, w3, w4, w5⟩⟩
  · intro hj i u v hu hv
    have hi := (List.getElem?_eq_some_iff.1 hu).1
    have hi' := (List.getElem?_eq_some_iff.1 hv).1
    refine v2 hj i u v _ ?_ ?_ ?_ (mul_pos hfpos hdu)
    · rw [r2, List.getElem?_append, if_pos hi, hu]
    · rw [List.getElem?_append, if_pos hi', hv]
    · rw [List.getElem?_append, if_pos (by simp; omega), List.getElem?_replicate, if_pos (by omega)]
  · intro hj l' l0' hl hl0
    rw [r1] at hl; cases hl
    rw [q5] at hl0; cases hl0
    refine v2 hj d.dof1.length l l0 _ ?_ ?_ ?_ (mul_pos hfpos hdl)
    · rw [r2, ← hru]; simp
    · rw [← hpu]; simp
    · simp

/-- **C124.** With free choice of the control component, an exact linear solver and step widths which are not small against the
tolerances, some component really moves by its step width, forward or backward, in every accepted increment: `w` is a multiple of `du`
or, for the last component, of `dlpf`, as `C124_results_obey_settings` says. -/
theorem C124_some_component_moves {argsort : List Int → List Nat} {env : Env ℝ} (hA : ArgMax env) (hE : ExactSolver env) {fuel : Nat}
    {m m1 m2 : Model ℝ} (hb : m.build argsort = .ok m1) (hr : m1.run env fuel = .ok m2) (hn : 0 < m1.settings.nsteps)
    (hdu : 0 < m1.settings.du) (hdl : 0 < m1.settings.dlpf) (hsc : m1.settings.stepcontrol = true → m1.settings.Controlled)
    (hj : m1.settings.jFixed = false)
    (htol : ∀ w, w = m1.settings.du ∨ w = m1.settings.dlpf → (10 : ℝ) ^ (-m1.settings.ftol) + (10 : ℝ) ^ (-m1.settings.xtol) ≤
      (if m1.settings.stepcontrol then m1.settings.minfac / m1.settings.reduce else 1) * w) :
    ∃ c res r0 outs, m1.ctx = some c ∧ m2.results = some res ∧ RunCalls env fuel m1 c outs ∧
      res.R = r0 :: (recorded outs).map (·.a) ∧
      ∀ (k : Nat) (p : Analysis ℝ) (r : Rec ℝ), res.R[k]? = some p → (recorded outs)[k]? = some r → r.out = .accepted →
        ∃ (l l0 : ℝ) (dV : List ℝ) (i : Nat) (u v w : ℝ), r.a.lpf = some l ∧ factorFrom p r.a.step = some l0 ∧
          r.a.dVmax = some dV ∧ (r.a.Ured ++ [l])[i]? = some u ∧ (p.Ured ++ [l0])[i]? = some v ∧ dV[i]? = some w ∧
          (|(u - v) - w| < (10 : ℝ) ^ (-m1.settings.ftol) ∨ |(u - v) + w| < (10 : ℝ) ^ (-m1.settings.ftol)) := by
  obtain ⟨c, d, ft, r0, outs, a1, R, le, h1, h2, h3, h4, h5, h6, h7, h8, h9, h10, h11, h12⟩ := build_run hb hr
  rcases h12 with ⟨e, -⟩ | ⟨-, e1, e2⟩
  · omega
  refine ⟨c, ⟨R.dropLast, le⟩, r0, outs, h1, e1, h11.built hb h1 h2 h3 h10 h7.lpf, e2, ?_⟩
  intro k p r hp hrk hacc
  have hp : R.dropLast[k]? = some p := hp
  rw [e2] at hp
  have hcar : Carry r0 { (Analysis.fresh d.nnodes d.nelems d.dof0 d.dof1 c.nstatev : Analysis ℝ) with
      Vred := List.replicate d.dof1.length 0 ++ [0], lpf := some 0 } := h8.trans (by constructor <;> rfl)
  obtain ⟨n, o, i, l0, q1, q2, q3, q4, q5, -⟩ := h11.position hcar h7.lpf hp hrk
  obtain ⟨incs, xl, -, -, -, hpf⟩ := stepCall_iff.1 (h11.calls n o q1)
  obtain ⟨l, r1, r2, -⟩ := record_vector hpf q2
  have hW : (stepCfg m1.settings incs xl).stepcontrol = true → (stepCfg m1.settings incs xl).WidthOK := by
    intro h
    have := hsc h
    exact ⟨this.2, this.3, this.4, this.5, this.6⟩
  have hkw : KeepsWidth (modelProblem c) := fun _ _ _ _ _ _ h => (equilibrium_frame h).1.dVmax
  have hkc : KeepsControl (modelProblem c) := fun _ _ _ _ _ _ h => (equilibrium_frame h).1.j
  have hw : ∀ w ∈ initDxmax (o.startA.Ured ++ [0]) (stepCfg m1.settings incs xl).dxmax,
      0 < w ∧ (stepCfg m1.settings incs xl).ftol + (stepCfg m1.settings incs xl).xtol ≤
        (if (stepCfg m1.settings incs xl).stepcontrol then (stepCfg m1.settings incs xl).minfac / (stepCfg m1.settings incs xl).reduce
          else 1) * w := by
    intro w hw
    have hm : w = m1.settings.du ∨ w = m1.settings.dlpf := by
      simp only [initDxmax, stepCfg, List.mem_append, List.mem_replicate, List.mem_singleton] at hw
      rcases hw with hw | hw
      · exact .inl hw.2
      · exact .inr hw
    refine ⟨by rcases hm with rfl | rfl <;> assumption, htol w hm⟩
  obtain ⟨t, dV, u, v, w, w1, w2, w3, w4, w5⟩ := C35_plus_minus env hA hE (modelProblem c) hkw hkc _ hj hW
    (show (0 : ℝ) < (10 : ℝ) ^ (-m1.settings.ftol) by positivity) (show (0 : ℝ) < (10 : ℝ) ^ (-m1.settings.xtol) by positivity)
    fuel _ _ o hw hpf i _ r q4 q2 hacc
  exact ⟨l, l0, dV, t, u, v, w, r1, q5, w1, by rw [← r2]; exact w2, w3, w4, w5⟩

section
variable {F : Type} [Zero F] [One F] [Add F] [Sub F] [Mul F] [Div F] [Neg F] [Flt F]

/-- **C124.** The results of one step, every arithmetic and linear solver: there are at most as many as the setting says for this
step, and as soon as the limited component of a result is beyond the limit of its step no other result of this step follows. -/
theorem C124_limit_and_increments {argsort : List Int → List Nat} {env : Env F} {fuel : Nat} {m m1 m2 : Model F}
    (hb : m.build argsort = .ok m1) (hr : m1.run env fuel = .ok m2) (hn : 0 < m1.settings.nsteps) :
    ∃ res, m2.results = some res ∧
      (∀ n incs, n < m1.settings.nsteps → m1.settings.incs.ofStep n = some incs →
        res.R.tail.countP (fun r => r.step = n + 1) ≤ incs) ∧
      ∀ (k n : Nat) (p r : Analysis F) (i : Int) (lim v : F), res.R[k + 1]? = some p → res.R[k + 2]? = some r → p.step = n + 1 →
        r.step = n + 1 → m1.settings.xlimit.ofStep n = some (i, lim) → pyGet p.Vred (i - 1) = .ok v →
        Flt.lt lim (Flt.abs v) = false := by
  obtain ⟨c, d, ft, r0, outs, a1, R, le, h1, h2, h3, h4, h5, h6, h7, h8, h9, h10, h11, h12⟩ := build_run hb hr
  rcases h12 with ⟨e, -⟩ | ⟨-, e1, e2⟩
  · omega
  refine ⟨⟨R.dropLast, le⟩, e1, ?_, ?_⟩
  · intro n incs hlt hi
    show R.dropLast.tail.countP _ ≤ _
    rw [e2, List.tail_cons, h11.count n]
    have hl : n < outs.length := by omega
    rw [List.getElem?_eq_getElem hl]
    obtain ⟨cfg, ⟨incs', xl, j1, j2, j3⟩, -, hpf⟩ := h11.calls n _ (List.getElem?_eq_getElem hl)
    rw [hi] at j1; cases j1
    have := (C38_limit_stop _ _ _ _ _ _ _ hpf).2.1
    rw [j3.increments] at this
    exact this
  · intro k n p r i lim v hp hq hps hqs hx hv
    have hp : R.dropLast[k + 1]? = some p := hp
    have hq : R.dropLast[k + 2]? = some r := hq
    rw [e2] at hp hq
    rw [List.getElem?_cons_succ, List.getElem?_map] at hq
    cases hrk : (recorded outs)[k + 1]? with
    | none => rw [hrk] at hq; cases hq
    | some rr =>
      rw [hrk] at hq
      cases hq
      have hcar : Carry r0 { (Analysis.fresh d.nnodes d.nelems d.dof0 d.dof1 c.nstatev : Analysis F) with
          Vred := List.replicate d.dof1.length 0 ++ [0], lpf := some 0 } := h8.trans (by constructor <;> rfl)
      obtain ⟨n', o, t, l0, q1, q2, q3, -, -, q6⟩ := h11.position hcar h7.lpf hp hrk
      obtain ⟨t', q, rfl, g1, rfl⟩ := q6 (hps.trans hqs.symm) (by omega)
      have hqs : rr.a.step = n + 1 := hqs
      obtain rfl : n' = n := by omega
      obtain ⟨cfg, ⟨incs', xl, j1, j2, j3⟩, -, hpf⟩ := h11.calls n' o q1
      rw [hx] at j2; cases j2
      cases hlt : Flt.lt lim (Flt.abs v) with
      | false => rfl
      | true =>
        exfalso
        obtain ⟨l, -, -, hV⟩ := record_vector hpf g1
        rw [hV] at hv
        have := (C38_limit_stop _ _ _ _ _ _ _ hpf).1 t' q g1 ⟨i, lim, v, j3.limit, hv, hlt⟩
        have := (List.getElem?_eq_some_iff.1 q2).1
        omega

end

/-! ## Examples -/

/-- The bar of `ExamplesValid`: its only increment is accepted, with the step widths of the settings; the fixed control component 1
moves by 1/4. -/
example : ∃ (m1 m2 : Model ℝ) (r : Rec ℝ) (d : Dims), rbModel.build refArgsort = .ok m1 ∧ m1.run rbEnv 4 = .ok m2 ∧ m1.dims = some d ∧
    0 < m1.settings.nsteps ∧ 0 < m1.settings.du ∧ 0 < m1.settings.dlpf ∧ m1.settings.stepcontrol = false ∧
    r.out = .accepted ∧ r.x = [1 / 4, 1 / 4] ∧ WidthsOf m1.settings d.dof1.length 1 r.a ∧
    ∃ res p, m2.results = some res ∧ res.R = [p, r.a] ∧ MovesBy m1.settings 1 p r.a := by
  obtain ⟨m1, m2, hb, hr⟩ := rbRuns
  obtain ⟨_, _, _, _, _, _, h1, -, -, -, -, -, -, -, -, -, -, -, n, hs⟩ :=
    rbValid.built refArgsort_isArgsort rbEntered rbEnteredElems rfl
  rw [hb] at h1; cases h1
  have hn : 0 < m1.settings.nsteps := by rw [hs]; exact Nat.one_pos
  have hdu : 0 < m1.settings.du := by rw [hs]; show (0 : ℝ) < 1 / 4; norm_num
  have hdl : 0 < m1.settings.dlpf := by rw [hs]; show (0 : ℝ) < 1 / 4; norm_num
  have hc : m1.settings.stepcontrol = false := by rw [hs]; rfl
  obtain ⟨c, d, res, r0, outs, e1, e2, e3, e4, e5, e6⟩ := C124_results_obey_settings hb hr hn hdu hdl (by rw [hc]; intro h; cases h)
  obtain ⟨r, k1, k2, k3⟩ := rbAccepted hb e1 e4
  obtain ⟨f, -, f1, f2⟩ := e6 0 r0 r (by rw [e5]; rfl) (by rw [k1]; rfl) (by rw [k2]; simp)
  obtain rfl : f = 1 := f1.plain hc
  exact ⟨m1, m2, r, d, hb, hr, e2, hn, hdu, hdl, hc, k2, k3, f1, res, r0, e3, by rw [e5, k1]; rfl, f2 k2⟩

/-- Two steps with up to three and one increments: the first ends with its first increment, which is beyond the limit 1/5 of the
displacement. -/
example : showR (fun a => (a.step, a.Vred)) (buildRun 1 { exBarModel 1 [1] with settings := { (exBarModel 1 [1]).settings with
      incs := .tuple [3, 1], xlimit := .tuple [(1, 1 / 5), (2, 4)] } }) =
    .ok [(1, []), (1, [1 / 4, 1 / 4]), (2, [3 / 4, 1 / 4])] := by
  decide +kernel

open Classical in
/-- Solves regular systems by the inverse matrix and raises for all others. -/
noncomputable def strictEnv : Env ℝ where
  spsolve K b := if matVec K (List.ofFn ((matOf b.length K)⁻¹.mulVec fun i => b[i])) = b then
    .ok (List.ofFn ((matOf b.length K)⁻¹.mulVec fun i => b[i])) else .error .valueError
  argsortF := exactEnv.argsortF

theorem strictEnv_exact : ExactSolver strictEnv := by
  intro K b dx h
  simp only [strictEnv] at h
  split at h
  · next e => cases h; exact e
  · cases h

theorem strictEnv_solves (n : Nat) : SolvesRegular strictEnv.spsolve n := by
  intro K b hK hrow hdet hb
  obtain ⟨dx, h1, h2, h3⟩ := exactEnv_solves n K b hK hrow hdet hb
  refine ⟨dx, ?_, h2, h3⟩
  simp only [exactEnv, Except.ok.injEq] at h1
  simp only [strictEnv]
  rw [h1, if_pos h3]

/-- The hypotheses of `C124_some_component_moves`: a two-bar truss in the default mode, with a run that records at least one increment. -/
example (argsort : List Int → List Nat) (has : IsArgsort argsort) : ∃ s m1 m2 res, (tbModel 1 1 1 1 s).build argsort = .ok m1 ∧
    m1.run strictEnv 1 = .ok m2 ∧ m2.results = some res ∧ 2 ≤ res.R.length ∧ ExactSolver strictEnv ∧ ArgMax strictEnv ∧
    0 < m1.settings.nsteps ∧ 0 < m1.settings.du ∧ 0 < m1.settings.dlpf ∧ m1.settings.stepcontrol = false ∧
    m1.settings.jFixed = false ∧ ∀ w, w = m1.settings.du ∨ w = m1.settings.dlpf →
      (10 : ℝ) ^ (-m1.settings.ftol) + (10 : ℝ) ^ (-m1.settings.xtol) ≤
        (if m1.settings.stepcontrol then m1.settings.minfac / m1.settings.reduce else 1) * w := by
  obtain ⟨t0, ht0, φ0, hφ0, L, C, key⟩ := C103_two_bar_default_run (w := 1) (H := 1) (E := 1) (A := 1) one_pos one_pos one_pos one_pos
    (dl := 1) (S := 4) one_pos (by norm_num) (strictEnv_solves 2) exactEnv_argmax (env := strictEnv) (η := 1 / 4) (W := 1)
    (by norm_num) le_rfl rbSettings.nstatev
  obtain ⟨t, htp, htlt, ht1⟩ : ∃ t, 0 < t ∧ t < t0 ∧ t ≤ 1 := by
    refine ⟨min (t0 / 2) 1, lt_min (by linarith) one_pos, ?_, min_le_right _ _⟩
    exact (min_le_left _ _).trans_lt (by linarith)
  obtain ⟨k, hk⟩ := exists_pow_lt_of_lt_one (show 0 < min (φ0 * t) (t / 2) by positivity) (show (10 : ℝ)⁻¹ < 1 by norm_num)
  have hp10 : (10 : ℝ)⁻¹ ^ k = (10 : ℝ) ^ (-(k : Int)) := by rw [zpow_neg, zpow_natCast, inv_pow]
  rw [hp10] at hk
  have hfpos : (0 : ℝ) < (10 : ℝ) ^ (-(k : Int)) := by positivity
  have hf1 : (10 : ℝ) ^ (-(k : Int)) ≤ φ0 * t := hk.le.trans (min_le_left _ _)
  have hf2 : (10 : ℝ) ^ (-(k : Int)) ≤ t / 2 := hk.le.trans (min_le_right _ _)
  obtain ⟨N, hN⟩ := pow_unbounded_of_one_lt (C * t / (10 : ℝ) ^ (-(k : Int))) (by norm_num : (1 : ℝ) < 2)
  rw [div_lt_iff₀ hfpos, mul_comm (2 ^ N)] at hN
  obtain ⟨m1, m2, nt, res, p, g1, g2, g3, g4, g5, g6, g7, g8⟩ := key argsort has { rbSettings with
      jFixed := false, j0 := none, du := t, dlpf := t, incs := .const 1, xlimit := .const 1 6, xtol := k, ftol := k,
      nfev := N + 2, nsteps := 1, dxtol := 5 / 4 }
    rfl rfl rfl (by show (0 : Int) ≤ 1; decide) t htp htlt
    ⟨rfl, rfl, (mul_one t).symm, (mul_one t).symm, by norm_num, (fun h => by cases h),
      (show (10 : ℝ) ^ (-(k : Int)) ≤ _ by linarith), (show (10 : ℝ) ^ (-(k : Int)) ≤ _ by linarith)⟩
    hf1 1 (1, 6) rfl rfl le_rfl one_le_two (by push_cast; linarith) ⟨N, .inl hN, .inl hN, le_rfl⟩ 1 le_rfl
  have hs : ∃ n, m1.settings = { rbSettings with
      jFixed := false, j0 := none, du := t, dlpf := t, incs := .const 1, xlimit := .const 1 6, xtol := k, ftol := k,
      nfev := N + 2, nsteps := 1, dxtol := 5 / 4, nstatev := n } := by
    obtain ⟨st⟩ := build_steps g1
    exact ⟨_, congrArg Model.settings st.hm'⟩
  obtain ⟨n, hs⟩ := hs
  refine ⟨_, m1, m2, res, g1, g2, g4, by rcases g8 with g8 | g8 <;> omega, strictEnv_exact, exactEnv_argmax, ?_⟩
  rw [hs]
  refine ⟨Nat.one_pos, htp, htp, rfl, rfl, ?_⟩
  intro w hw
  obtain rfl : w = t := by rcases hw with h | h <;> exact h
  show (10 : ℝ) ^ (-(k : Int)) + (10 : ℝ) ^ (-(k : Int)) ≤ 1 * w
  linarith

end TrussPy
