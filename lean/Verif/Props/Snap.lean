import Verif.Spec.Snap
import Verif.Lemmas.Snap
import Verif.Props.Follow
/-!
# Property C100: trusses with one degree of freedom, snap-through
-/

set_option linter.unusedSectionVars false

namespace TrussPy

/-- The bars of the two-bar truss. -/
def vmBars (w H E A : ℝ) : List (Bar ℝ) :=
  [⟨0, 1, ![-w, 0, 0], ![0, 0, H], [E], [A], .el⟩, ⟨1, 2, ![0, 0, H], ![w, 0, 0], [E], [A], .el⟩]

theorem vmEvaluable (w H E A : ℝ) : Evaluable (vmCtx w H E A) (vmBars w H E A) vmA
    ⟨[0, 0, 0, 0, 0, -1, 0, 0, 0], [0, 0, 0, 0, 0, 0, 0, 0, 0]⟩ where
  tables :=
    { nodes := by simp [vmCtx]
      elems := by simp [vmCtx]
      length := rfl
      nnodes := rfl
      bar := by
        intro k b hb
        match k with
        | 0 =>
          cases hb
          exact ⟨⟨1, 2, rfl, rfl, rfl⟩, rfl, by simp [CoordRow, vmCtx], rfl, rfl, Or.inl ⟨rfl, rfl⟩, by simp⟩
        | 1 =>
          cases hb
          exact ⟨⟨2, 3, rfl, rfl, rfl⟩, rfl, by simp [CoordRow, vmCtx], rfl, rfl, Or.inl ⟨rfl, rfl⟩, by simp⟩
        | k + 2 => cases hb }
  fits :=
    { U := rfl
      U0 := rfl
      r := rfl
      K := rfl
      Krow := by
        intro row hrow
        rw [List.eq_of_mem_replicate hrow]
        rfl
      stretch := rfl
      force := rfl
      stress := rfl
      statev := fun h => absurd h (by decide : ¬ 0 < 0)
      dof := by simp [vmA, vmCtx, Analysis.fresh]
      dofNodup := by decide }
  complete := by
    intro b hb
    simp only [vmBars, List.mem_cons, List.not_mem_nil, or_false] at hb
    rcases hb with rfl | rfl
    · exact ⟨by simp, by simp, fun h => by cases h⟩
    · exact ⟨by simp, by simp, fun h => by cases h⟩
  statev := by
    intro sv h
    cases h
  ext := rfl
  forces := rfl
  forcesConst := rfl
  dofs := rfl

theorem vmReady (w H E A : ℝ) : vmA.Ready (vmCtx w H E A) where
  base := ⟨(vmEvaluable w H E A).fits, (vmEvaluable w H E A).statev, rfl, rfl, rfl⟩
  ext := ⟨_, rfl, rfl, rfl⟩
  f0 := rfl

theorem vmAxis1 (w H E A u : ℝ) : Bar.axis ⟨0, 1, ![-w, 0, 0], ![0, 0, H], [E], [A], .el⟩ [0, 0, 0, 0, 0, u, 0, 0, 0] =
    ![w, 0, H + u] := by
  funext i
  fin_cases i <;> simp [Bar.axis, row3]

theorem vmAxis2 (w H E A u : ℝ) : Bar.axis ⟨1, 2, ![0, 0, H], ![w, 0, 0], [E], [A], .el⟩ [0, 0, 0, 0, 0, u, 0, 0, 0] =
    ![w, 0, -(H + u)] := by
  funext i
  fin_cases i <;> simp [Bar.axis, row3]

theorem vmLen (w h : ℝ) : len ![w, 0, h] = √(w ^ 2 + h ^ 2) := by
  unfold len
  congr 1
  simp

theorem vmDisp (u : ℝ) : vmA.U.set 5 u = [0, 0, 0, 0, 0, u, 0, 0, 0] := rfl

theorem vmForce (w H E A u : ℝ) : forceFn (vmCtx w H E A) vmA.statev (vmBars w H E A) (vmA.U.set 5 u) 1 2 =
    2 * (E * (√(w ^ 2 + (H + u) ^ 2) / √(w ^ 2 + H ^ 2) - 1) * A * ((H + u) / √(w ^ 2 + (H + u) ^ 2))) := by
  have hr1 : Bar.ref (⟨0, 1, ![-w, 0, 0], ![0, 0, H], [E], [A], .el⟩ : Bar ℝ) = ![w, 0, H] := by
    funext i
    fin_cases i <;> simp [Bar.ref]
  have hr2 : Bar.ref (⟨1, 2, ![0, 0, H], ![w, 0, 0], [E], [A], .el⟩ : Bar ℝ) = ![w, 0, -H] := by
    funext i
    fin_cases i <;> simp [Bar.ref]
  rw [vmDisp]
  unfold forceFn vmBars
  simp only [List.zipIdx_cons, List.zipIdx_nil, List.map_cons, List.map_nil, List.sum_cons, List.sum_nil, add_zero]
  unfold Bar.stretch Bar.dir
  rw [vmAxis1, vmAxis2, hr1, hr2, vmLen, vmLen, vmLen, vmLen, neg_sq, neg_sq]
  have e1 : ∀ (b : Bar ℝ) (row : Option (List ℝ)) (e : ℝ), b.law = .el → b.mat = [E] → b.stressAt row e = E * e := by
    intro b row e h1 h2
    unfold Bar.stressAt
    rw [h1, h2]
    rfl
  rw [e1 _ _ _ rfl rfl, e1 _ _ _ rfl rfl]
  simp [Bar.sgn]
  ring

theorem vmLoad_eq {w : ℝ} (hw : 0 < w) (H E A s : ℝ) : oneDofLoad (vmCtx w H E A) (vmBars w H E A) vmA
    ⟨[0, 0, 0, 0, 0, -1, 0, 0, 0], [0, 0, 0, 0, 0, 0, 0, 0, 0]⟩ 5 (0 + s * ((-1 : Int).sign : ℝ)) = vmLoad w H E A s := by
  unfold oneDofLoad
  rw [show (5 / 3 : Nat) = 1 from rfl, show comp 5 = 2 from rfl, vmForce]
  have hs : (0 + s * (((-1 : Int).sign : Int) : ℝ)) = -s := by
    rw [show ((-1 : Int).sign : Int) = -1 from rfl]
    push_cast
    ring
  rw [hs]
  have hl : √(w ^ 2 + (H + -s) ^ 2) ≠ 0 := (Real.sqrt_pos.2 (by positivity)).ne'
  have hL : √(w ^ 2 + H ^ 2) ≠ 0 := (Real.sqrt_pos.2 (by positivity)).ne'
  unfold vmLoad
  rw [← sub_eq_add_neg] at hl ⊢
  simp only [List.getD_cons_succ, List.getD_cons_zero]
  field_simp
  ring

theorem vmCalm {w : ℝ} (hw : 0 < w) (H E A u l : ℝ) : CalmAt (n := 1) (vmCtx w H E A) (vmBars w H E A) vmA ![u, l] := by
  intro U hU k b hb
  rw [castSucc_one] at hU
  have hU : Except.ok (vmA.U.set 5 u) = Except.ok U := (scatter_one u).symm.trans hU
  rw [vmDisp] at hU
  cases hU
  have hpos : ∀ h : ℝ, √(w ^ 2 + h ^ 2) ≠ 0 := fun h => (Real.sqrt_pos.2 (by positivity)).ne'
  match k with
  | 0 =>
    cases hb
    exact ⟨by rw [vmAxis1, vmLen]; exact hpos _, fun h => by cases h⟩
  | 1 =>
    cases hb
    exact ⟨by rw [vmAxis2, vmLen]; exact hpos _, fun h => by cases h⟩
  | k + 2 => cases hb

/-- **C100, one degree of freedom.** A truss with a single degree of freedom, loaded in its direction and controlled
by its displacement, is followed over any distance over which no bar loses its length or yields - also past limit points of the load, since
the extended matrix cannot become singular.  The recorded load factors are those of statics, `(F(u) - f_const) / f`, up to
`L * ftol`, and the recorded displacements are exactly the multiples of the step width. -/
theorem C100_one_dof_followed {c : Ctx ℝ} {bars : List (Bar ℝ)} {a : Analysis ℝ} {ef : StepForces ℝ}
    (he : Evaluable c bars a ef) (hr : a.Ready c) (hf0 : a.f0red = a.DOF1.map fun p => ef.forces.getD p 0)
    {p : Nat} (hp : a.DOF1 = [p]) (hf : ef.forces.getD p 0 ≠ 0) {j : Int} (hj : j.natAbs = 1)
    {u0 S : ℝ} (hS : 0 ≤ S) (hs : ∀ s ∈ Set.Icc 0 S, CalmAt (n := 1) c bars a ![u0 + s * (j.sign : ℝ), 0])
    (h00 : oneDofLoad c bars a ef p u0 = 0) {env : Env ℝ} (hsp : SolvesRegular env.spsolve 2) (hA : ArgMax env) :
    ∃ h0 > 0, ∃ f0 > 0, ∃ L C : ℝ, ∀ (h : ℝ), 0 < h → h < h0 → ∀ (cfg : PFCfg ℝ), cfg.jFixed = true → cfg.j = some j →
      cfg.stepcontrol = false → 1 ≤ cfg.dxtol → 0 < cfg.ftol → cfg.ftol ≤ f0 → (∃ dl, cfg.dxmax = .vec [h, dl]) →
      (∀ q, cfg.xlimit = some q → q.1 = 1 ∨ q.1 = 2) → cfg.incs * h ≤ S →
      ∀ N : Nat, Shrinks C (h + cfg.ftol) cfg.ftol N → Shrinks C (h + cfg.ftol) cfg.xtol N → (N : Int) + 1 ≤ cfg.nfev →
      ∀ fuel : Nat, 1 ≤ fuel → ∃ o, pathfollow env (modelProblem c) cfg fuel [u0] a = .ok o ∧
        (∀ (m : Nat) r, o.recs[m]? = some r → r.out = .accepted ∧ ∃ l, r.x = [u0 + (m + 1) * h * (j.sign : ℝ), l] ∧
          |l - oneDofLoad c bars a ef p (u0 + (m + 1) * h * (j.sign : ℝ))| ≤ L * cfg.ftol) ∧
        (o.recs.length = cfg.incs ∨ ∃ r v q, o.recs.getLast? = some r ∧ cfg.xlimit = some q ∧
          r.x[(q.1 - 1).toNat]? = some v ∧ q.2 < |v|) := by
  have hn : c.ndof1 = 1 := by rw [← he.dofs, hp]; rfl
  have hP := one_dof_path he hr.base.lpf hf0 hp hf hj hs
  obtain ⟨h0, hh0, f0, hf0', L, C, H⟩ := C99_follows_path he hr hf0 hn le_rfl (k := 0) (by simpa using hj) hS hP (x := [u0])
    (by simp [List.ofFn_succ, h00]) hsp hA
  refine ⟨h0, hh0, f0, hf0', L, C, ?_⟩
  rintro h hh hlt cfg hjf hcj hsc hdx hft hftle ⟨dl, hdm⟩ hlim hinc N hN1 hN2 hN fuel hfuel
  obtain ⟨o, g1, g2, g3⟩ := H h hh hlt cfg hjf hcj hsc hdx hft hftle (by rw [hdm]; rfl) (by rw [hdm]; rfl)
    (fun q hq => by rcases hlim q hq with h | h <;> omega) hinc N hN1 hN2 hN fuel hfuel
  refine ⟨o, g1, fun m r hm => ?_, g3⟩
  obtain ⟨k1, y, k2, k3, k4⟩ := g2 m r hm
  refine ⟨k1, y 1, ?_, k4 1⟩
  have k3 : y 0 = u0 + (m + 1) * h * (j.sign : ℝ) := k3
  rw [k2, ← k3]
  simp [List.ofFn_succ]

/-- **C100, snap-through.** The two-bar truss of any width, height, modulus and area, controlled by the displacement of the
apex downwards over any distance `S`: `pathfollow` follows the closed-form curve `vmLoad` through the load maximum, the
flat position and beyond. -/
theorem C100_snap_through {w H E A : ℝ} (hw : 0 < w) {S : ℝ} (hS : 0 ≤ S) {env : Env ℝ} (hsp : SolvesRegular env.spsolve 2)
    (hA : ArgMax env) :
    ∃ h0 > 0, ∃ f0 > 0, ∃ L C : ℝ, ∀ (h : ℝ), 0 < h → h < h0 → ∀ (cfg : PFCfg ℝ), cfg.jFixed = true → cfg.j = some (-1) →
      cfg.stepcontrol = false → 1 ≤ cfg.dxtol → 0 < cfg.ftol → cfg.ftol ≤ f0 → (∃ dl, cfg.dxmax = .vec [h, dl]) →
      cfg.xlimit = none → cfg.incs * h ≤ S →
      ∀ N : Nat, Shrinks C (h + cfg.ftol) cfg.ftol N → Shrinks C (h + cfg.ftol) cfg.xtol N → (N : Int) + 1 ≤ cfg.nfev →
      ∀ fuel : Nat, 1 ≤ fuel → ∃ o, pathfollow env (modelProblem (vmCtx w H E A)) cfg fuel [0] vmA = .ok o ∧
        o.recs.length = cfg.incs ∧ ∀ (m : Nat) r, o.recs[m]? = some r → r.out = .accepted ∧
          ∃ l, r.x = [-((m + 1) * h), l] ∧ |l - vmLoad w H E A ((m + 1) * h)| ≤ L * cfg.ftol := by
  have hsg : (((-1 : Int).sign : Int) : ℝ) = -1 := by
    rw [show ((-1 : Int).sign : Int) = -1 from rfl]
    push_cast
    rfl
  obtain ⟨h0, hh0, f0, hf0, L, C, G⟩ := C100_one_dof_followed (vmEvaluable w H E A) (vmReady w H E A) rfl
    (p := 5) rfl (by simp) (j := -1) rfl (u0 := 0) hS (fun s _ => vmCalm hw H E A _ _)
    (by
      have := vmLoad_eq hw H E A 0
      rw [zero_mul, zero_add] at this
      rw [this]
      unfold vmLoad
      simp) hsp hA
  refine ⟨h0, hh0, f0, hf0, L, C, ?_⟩
  intro h hh hlt cfg hjf hcj hsc hdx hft hftle hdm hxl hinc N hN1 hN2 hN fuel hfuel
  obtain ⟨o, g1, g2, g3⟩ := G h hh hlt cfg hjf hcj hsc hdx hft hftle hdm (fun q hq => by rw [hxl] at hq; cases hq) hinc N hN1 hN2 hN
    fuel hfuel
  refine ⟨o, g1, ?_, fun m r hm => ?_⟩
  · rcases g3 with g3 | ⟨_, _, q, -, hq, -⟩
    · exact g3
    · rw [hxl] at hq; cases hq
  · obtain ⟨k1, l, k2, k3⟩ := g2 m r hm
    rw [vmLoad_eq hw] at k3
    refine ⟨k1, l, ?_, k3⟩
    rw [k2, hsg]
    congr 1
    ring

/-- **C100, the curve.** The load is positive until the truss is flat, zero there, negative until it is turned over, and zero
there; afterwards it grows again.  So the load factor is not a parameter of this path. -/
theorem C100_load_reverses {w H E A : ℝ} (hw : 0 < w) (hH : 0 < H) (hE : 0 < E) (hA : 0 < A) :
    vmLoad w H E A 0 = 0 ∧ vmLoad w H E A H = 0 ∧ vmLoad w H E A (2 * H) = 0 ∧
      (∀ s, 0 < s → s < H → 0 < vmLoad w H E A s) ∧ (∀ s, H < s → s < 2 * H → vmLoad w H E A s < 0) ∧
      ∀ s, 2 * H < s → 0 < vmLoad w H E A s := by
  have hpos : ∀ h : ℝ, 0 < √(w ^ 2 + h ^ 2) := fun h => Real.sqrt_pos.2 (by positivity)
  have hlt : ∀ s, |H - s| < H → 0 < 1 / √(w ^ 2 + (H - s) ^ 2) - 1 / √(w ^ 2 + H ^ 2) := by
    intro s hs
    rw [sub_pos]
    refine one_div_lt_one_div_of_lt (hpos _) (Real.sqrt_lt_sqrt (by positivity) ?_)
    have : (H - s) ^ 2 < H ^ 2 := by rw [sq_lt_sq, abs_of_pos hH]; exact hs
    linarith
  have hgt : ∀ s, H < |H - s| → 1 / √(w ^ 2 + (H - s) ^ 2) - 1 / √(w ^ 2 + H ^ 2) < 0 := by
    intro s hs
    rw [sub_neg]
    refine one_div_lt_one_div_of_lt (hpos _) (Real.sqrt_lt_sqrt (by positivity) ?_)
    have : H ^ 2 < (H - s) ^ 2 := by rw [sq_lt_sq, abs_of_pos hH]; exact hs
    linarith
  have hEA : 0 < 2 * E * A := by positivity
  refine ⟨by simp [vmLoad], by simp [vmLoad], ?_, ?_, ?_, ?_⟩
  · unfold vmLoad
    rw [show (H - 2 * H) ^ 2 = H ^ 2 by ring]
    simp
  · intro s h1 h2
    exact mul_pos (mul_pos hEA (by linarith)) (hlt s (by rw [abs_of_pos (by linarith)]; linarith))
  · intro s h1 h2
    exact mul_neg_of_neg_of_pos (mul_neg_of_pos_of_neg hEA (by linarith)) (hlt s (by rw [abs_of_neg (by linarith)]; linarith))
  · intro s h1
    exact mul_pos_of_neg_of_neg (mul_neg_of_pos_of_neg hEA (by linarith)) (hgt s (by rw [abs_of_neg (by linarith)]; linarith))

/-! ## The hypotheses are met

There are settings with which the two-bar truss is pushed to three quarters of the way to its turned-over position, and the
load factor recorded there is negative: the solver went through the snap-through. -/

example {w H E A : ℝ} (hw : 0 < w) (hH : 0 < H) (hE : 0 < E) (hA : 0 < A) : ∃ cfg o r l,
    pathfollow exactEnv (modelProblem (vmCtx w H E A)) cfg 1 [0] vmA = .ok o ∧ r ∈ o.recs ∧ r.out = .accepted ∧
      r.x = [-(3 / 2 * H), l] ∧ l < 0 := by
  obtain ⟨h0, hh0, f0, hf0, L, C, G⟩ := C100_snap_through (H := H) (E := E) (A := A) hw (S := 3 / 2 * H) (by positivity)
    (exactEnv_solves 2) exactEnv_argmax
  have hneg := (C100_load_reverses hw hH hE hA).2.2.2.2.1 (3 / 2 * H) (by linarith) (by linarith)
  set lam := vmLoad w H E A (3 / 2 * H) with hlam
  obtain ⟨M, hM⟩ := exists_nat_gt (3 / 2 * H / h0)
  rw [div_lt_iff₀ hh0] at hM
  set h := 3 / 2 * H / (M + 1) with hh
  have hM1 : (0 : ℝ) < M + 1 := by positivity
  have hhM : (M + 1) * h = 3 / 2 * H := by rw [hh]; field_simp
  have hhpos : 0 < h := by positivity
  have hhlt : h < h0 := by
    rw [hh, div_lt_iff₀ hM1]
    nlinarith
  set f := min f0 (-lam / (2 * (|L| + 1))) with hf
  have hfpos : 0 < f := lt_min hf0 (div_pos (by linarith) (by positivity))
  have hfL : L * f < -lam := by
    have h1 : f * (2 * (|L| + 1)) ≤ -lam := by
      rw [← le_div_iff₀ (by positivity)]
      exact min_le_right _ _
    have h2 : L * f ≤ |L| * f := mul_le_mul_of_nonneg_right (le_abs_self L) hfpos.le
    have h3 : 0 ≤ |L| * f := by positivity
    nlinarith
  obtain ⟨N, hN⟩ := pow_unbounded_of_one_lt (C * (h + f) / f) (by norm_num : (1 : ℝ) < 2)
  rw [div_lt_iff₀ hfpos, mul_comm (2 ^ N)] at hN
  obtain ⟨o, g1, g2, g3⟩ := G h hhpos hhlt ⟨.vec [h, 1], some (-1), true, false, none, M + 1, N + 1, 1, f, f, false, 1, 1, 1, 1, 1⟩
    rfl rfl rfl le_rfl hfpos (min_le_left _ _) ⟨1, rfl⟩ rfl (by push_cast; rw [hhM]) N (.inl hN) (.inl hN) le_rfl 1 le_rfl
  have hlt : M < o.recs.length := by rw [g2]; simp
  obtain ⟨k1, l, k2, k3⟩ := g3 M _ (List.getElem?_eq_getElem hlt)
  rw [hhM] at k2 k3
  refine ⟨_, o, _, l, g1, List.getElem_mem hlt, k1, k2, ?_⟩
  have := (abs_le.1 k3).2
  have hfL' : L * f < -vmLoad w H E A (3 / 2 * H) := hfL
  have this : l - vmLoad w H E A (3 / 2 * H) ≤ L * f := this
  linarith

end TrussPy
