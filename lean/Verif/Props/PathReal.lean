import Verif.Lemmas.Control
import Verif.Lemmas.Fuel
import Verif.Props.Path
import Verif.ExamplesReal
/-!
# Properties C34 (exact arithmetic), C35, C36, C37, C45: increments of `pathfollow`
-/

set_option linter.unusedSectionVars false

namespace TrussPy

/-- **C34 in exact arithmetic.** Every accepted increment: an evaluation of the residual at the recorded
vector has norm below `ftol`, and no component moves by more than `dxtol` times its recorded step width
(if the control component is not fixed by the user). -/
theorem C34_exact (env : Env ℝ) (P : Problem ℝ) (hP : KeepsWidth P) (cfg : PFCfg ℝ) (fuel : Nat) (x : List ℝ)
    (a : Analysis ℝ) (o : PFOut ℝ) (h : pathfollow env P cfg fuel x a = .ok o) (k : Nat) (prev : List ℝ)
    (r : Rec ℝ) (hprev : o.resX[k]? = some prev) (hr : o.recs[k]? = some r) (hacc : r.out = .accepted) :
    (∃ a1 a2 gv, P.g a1 r.x prev false = .ok (a2, gv) ∧ Flt.vnorm gv < cfg.ftol) ∧
    ∃ dV, r.a.dVmax = some dV ∧ (cfg.jFixed = false → ∀ (i : Nat) u v d, r.x[i]? = some u →
      prev[i]? = some v → dV[i]? = some d → 0 < d → |u - v| ≤ cfg.dxtol * d) := by
  obtain ⟨⟨a1, a2, gv, j, vj, vmax, h1, -, h3⟩, dV, h4, h5⟩ :=
    (C34_recorded_increments env P hP cfg fuel x a o h k prev r hprev hr).1 hacc
  refine ⟨⟨a1, a2, gv, h1, ?_⟩, dV, h4, fun hf i u v d k1 k2 k3 hd => ?_⟩
  · have h3 : Flt.vnorm ((gv.map fun v => -v) ++ [vj - vmax]) < cfg.ftol := of_decide_eq_true h3
    rw [← vnorm_neg gv]
    exact lt_of_le_of_lt (vnorm_append_le _ _) h3
  · rw [if_neg (by rw [hf]; decide)] at h5
    have : |(u - v) / d| ≤ cfg.dxtol := of_decide_eq_true (h5 i u v d k1 k2 k3)
    rw [abs_div, abs_of_pos hd, div_le_iff₀ hd] at this
    exact this

/-- The problem's residual function does not touch the recorded control component. -/
def KeepsControl (P : Problem ℝ) : Prop :=
  ∀ a V V0 w a' r, P.g a V V0 w = .ok (a', r) → a'.j = a.j

/-- **C35.** In every accepted increment the control component `j` recorded in the snapshot moves by its
recorded step width in the direction of the sign of `j`, up to `ftol`. -/
theorem C35_control_component (env : Env ℝ) (P : Problem ℝ) (hW : KeepsWidth P) (hP : KeepsControl P)
    (cfg : PFCfg ℝ) (fuel : Nat) (x : List ℝ) (a : Analysis ℝ) (o : PFOut ℝ)
    (h : pathfollow env P cfg fuel x a = .ok o) (k : Nat) (prev : List ℝ) (r : Rec ℝ)
    (hprev : o.resX[k]? = some prev) (hr : o.recs[k]? = some r) (hacc : r.out = .accepted) :
    ∃ dV u v d, r.a.dVmax = some dV ∧ pyGet r.x (r.a.j.natAbs - 1) = .ok u ∧
      pyGet prev (r.a.j.natAbs - 1) = .ok v ∧ pyGet dV (r.a.j.natAbs - 1) = .ok d ∧
      |(u - v) - d * (r.a.j.sign : ℝ)| < cfg.ftol := by
  obtain ⟨_, -, hQ⟩ := pathfollow_forall h (fun _ => True) (fun _ _ _ _ => trivial)
    (fun _ _ _ _ _ _ => trivial)
    (fun px _ r => r.out = .accepted → ∃ dV u v d, r.a.dVmax = some dV ∧
      pyGet r.x (r.a.j.natAbs - 1) = .ok u ∧ pyGet px (r.a.j.natAbs - 1) = .ok v ∧
      pyGet dV (r.a.j.natAbs - 1) = .ok d ∧ |(u - v) - d * (r.a.j.sign : ℝ)| < cfg.ftol)
    (by
      intro s s' o _ hi hout
      cases hi with
      | pre => cases hout
      | @solve p lpf n st1 st' o d hp hs hn hd he hl =>
        simp only at hout
        subst hout
        cases he with
        | accepted a2 fx hv hsucc hcommit =>
          obtain ⟨-, -, s2, y, s3, fx', dx, hit, hs3, hconv, -⟩ := newton_last hd.hnewton
          obtain ⟨_, _, _, _, _, _, _, _, _, hlast⟩ := hit
          obtain ⟨gv, vj, hg, hvj, rfl⟩ := extF_ok hlast
          obtain ⟨gv2, vj2, hg2, -, -⟩ := extF_ok hcommit
          obtain ⟨xj, dj, t1, t2, t3⟩ := target_ok hd.hxmax
          have hj2 : a2.j = st1.j := hP _ _ _ _ _ _ hg2
          have hw2 : a2.dVmax = some st1.dxmax := hW _ _ _ _ _ _ hg2
          have hn2 : Flt.vnorm ((gv.map fun v => -v) ++ [vj - d.xmax]) < cfg.ftol :=
            of_decide_eq_true (hconv hsucc).1
          have hle := abs_le_vnorm ((gv.map fun v => -v) ++ [vj - d.xmax]) (vj - d.xmax) (by simp)
          refine ⟨st1.dxmax, vj, xj, dj, hw2, ?_, ?_, ?_, ?_⟩
          · show pyGet d.nr.x (a2.j.natAbs - 1) = _
            rw [hj2]; exact hvj
          · show pyGet _ (a2.j.natAbs - 1) = _
            rw [hj2]; exact t1
          · show pyGet _ (a2.j.natAbs - 1) = _
            rw [hj2]; exact t2
          · show |vj - xj - dj * (a2.j.sign : ℝ)| < _
            rw [hj2]
            have e : vj - xj - dj * (st1.j.sign : ℝ) = vj - d.xmax := by
              rw [t3]
              show _ = vj - (xj + dj * (st1.j.sign : ℝ))
              ring
            rw [e]
            exact lt_of_le_of_lt hle hn2)
    hprev hr
  exact hQ hacc

/-- **C36, without step control.** For every arithmetic: with `cycl ≥ 1` no increment needs more than
`cycl` attempts: more fuel than that does not change the result, and it is never exhausted. -/
theorem C36_terminates {F : Type} [Zero F] [One F] [Add F] [Sub F] [Mul F] [Div F] [Neg F] [Flt F]
    (env : Env F) (P : Problem F) (cfg : PFCfg F) (hsc : cfg.stepcontrol = false) (hcy : 1 ≤ cfg.cycl)
    (x : List F) (a : Analysis F) :
    (∀ fuel, cfg.cycl.toNat ≤ fuel →
      pathfollow env P cfg fuel x a = pathfollow env P cfg cfg.cycl.toNat x a) ∧
    (Total env P → pathfollow env P cfg cfg.cycl.toNat x a ≠ .error .outOfFuel) := by
  refine pathfollow_fuel (I := fun _ => True) (fun _ _ => trivial) (fun _ _ _ _ _ => trivial) ?_
  intro s p _ _ n st1 hn
  have := hn.bound_plain hsc (by simp [PState.start]) (by simp only [PState.start]; omega)
  simp only [PState.start] at this
  omega

/-- **C36, with step control**, exact arithmetic: with `reduce > 1` and `minfac > 0` the number of
attempts of an increment is bounded by a number that depends on the settings only. -/
theorem C36_terminates_stepcontrol (cfg : PFCfg ℝ) (hc : cfg.WidthOK) (hcy : 1 ≤ cfg.cycl) :
    ∃ N : Nat, ∀ (env : Env ℝ) (P : Problem ℝ) (x : List ℝ) (a : Analysis ℝ) (d0 : ℝ),
      (initDxmax (x ++ [0]) cfg.dxmax)[0]? = some d0 → 0 < d0 →
      (∀ fuel, N ≤ fuel → pathfollow env P cfg fuel x a = pathfollow env P cfg N x a) ∧
      (Total env P → pathfollow env P cfg N x a ≠ .error .outOfFuel) := by
  by_cases hsc : cfg.stepcontrol = true
  swap
  · exact ⟨cfg.cycl.toNat, fun env P x a _ _ _ => C36_terminates env P cfg (by simpa using hsc) hcy x a⟩
  obtain ⟨R, hR⟩ : ∃ R : Nat, cfg.hi ≤ cfg.minfac * cfg.reduce ^ R := by
    obtain ⟨R, hR⟩ := pow_unbounded_of_one_lt (cfg.hi / cfg.minfac) hc.reduce_gt
    refine ⟨R, ?_⟩
    rw [div_lt_iff₀ hc.minfac_pos] at hR
    linarith
  refine ⟨(((R : Int) + 1) * (cfg.cycl - 1) + 1).toNat, fun env P x a d0 h0 hd0 => ?_⟩
  refine pathfollow_fuel (I := fun s => WidthInv cfg (initDxmax (x ++ [0]) cfg.dxmax) s.dxmax) ?_ ?_ ?_
  · intro j _
    unfold WidthInv
    rw [if_pos hsc]
    exact ⟨1, by simp [Scaled, pfStart], hc.lo_lt_one, hc.one_below⟩
  · intro s s' o hi hinc
    exact hinc.width (fun _ => hc) h0 hd0 hi
  · intro s p hi _ n st1 hn
    have := hn.bound_control hc hsc h0 hd0 R hR hcy rfl hi
    have h2 : 0 ≤ ((R : Int) + 1) * (cfg.cycl - 1) := mul_nonneg (by omega) (by omega)
    omega

/-- **C37.** Every recorded step width is a common multiple `c` of the initial one with
`minfac/reduce < c ≤ maxfac*(1+increase)` (strictly if `increase > 0`); without step control it is the
initial one.  (An increment skipped by the predictor does not record a step width.) -/
theorem C37_step_width (env : Env ℝ) (P : Problem ℝ) (hP : KeepsWidth P) (cfg : PFCfg ℝ)
    (hc : cfg.stepcontrol = true → cfg.WidthOK) (fuel : Nat) (x : List ℝ) (a : Analysis ℝ) (o : PFOut ℝ)
    (h : pathfollow env P cfg fuel x a = .ok o) (d0 : ℝ)
    (h0 : (initDxmax (x ++ [0]) cfg.dxmax)[0]? = some d0) (hd0 : 0 < d0) (r : Rec ℝ) (hr : r ∈ o.recs)
    (hpre : r.out ≠ .predictor) :
    ∃ c, r.a.dVmax = some ((initDxmax (x ++ [0]) cfg.dxmax).map fun v => c * v) ∧
      (cfg.stepcontrol = false → c = 1) ∧
      (cfg.stepcontrol = true → cfg.minfac / cfg.reduce < c ∧ c ≤ cfg.maxfac * (1 + cfg.increase) ∧
        (0 < cfg.increase → c < cfg.maxfac * (1 + cfg.increase))) := by
  obtain ⟨k, hk⟩ := List.mem_iff_getElem?.1 hr
  obtain ⟨px, hpx⟩ := resX_prev hk
  obtain ⟨_, -, hQ⟩ := pathfollow_forall h
    (fun s => WidthInv cfg (initDxmax (x ++ [0]) cfg.dxmax) s.dxmax)
    (by
      intro j _ _ _
      unfold WidthInv
      by_cases hsc : cfg.stepcontrol = true
      · rw [if_pos hsc]
        exact ⟨1, by simp [Scaled, pfStart], (hc hsc).lo_lt_one, (hc hsc).one_below⟩
      · rw [if_neg hsc]
        rfl)
    (fun s s' o hi hinc _ => hinc.width hc h0 hd0 hi)
    (fun _ _ r => r.out ≠ .predictor → ∃ l, r.a.dVmax = some l ∧
      WidthInv cfg (initDxmax (x ++ [0]) cfg.dxmax) l)
    (by
      intro s s' o hinv hi hout
      cases hi with
      | pre => exact absurd rfl hout
      | @solve p lpf n st1 st' o d hp hs hn hd he hl =>
        have hw := hn.width hc h0 hd0 hinv
        refine ⟨st1.dxmax, ?_, hw⟩
        cases he with
        | accepted a2 fx hv hsucc hcommit =>
          obtain ⟨gv2, vj2, hg2, -, -⟩ := extF_ok hcommit
          exact hP _ _ _ _ _ _ hg2
        | error1 => rfl
        | error2 => rfl)
    hpx hk
  obtain ⟨l, h1, h2⟩ := hQ hpre
  unfold WidthInv at h2
  by_cases hsc : cfg.stepcontrol = true
  · rw [if_pos hsc] at h2
    obtain ⟨c, k1, k2, k3⟩ := h2
    exact ⟨c, by rw [h1, k1], fun hf => (Bool.false_ne_true (hf.symm.trans hsc)).elim, fun _ => ⟨k2, k3.1, k3.2⟩⟩
  · rw [if_neg hsc] at h2
    exact ⟨1, by rw [h1, h2]; simp, fun _ => rfl, fun hf => absurd hf hsc⟩

/-! ## C45 -/

/-- Invariant: the control component is a component of the vector. -/
private def Ctrl (cfg : PFCfg ℝ) (n : Nat) (dxmax0 : List ℝ) (s : PState ℝ) : Prop :=
  s.x.length = n ∧ s.dxmax.length = n ∧ WidthInv cfg dxmax0 s.dxmax ∧ s.j ≠ 0

/-- All current step widths are at least `w`. -/
private theorem WidthInv.entry {cfg : PFCfg ℝ} {dxmax0 l : List ℝ} (hi : WidthInv cfg dxmax0 l) {w : ℝ}
    (hw : ∀ d ∈ dxmax0, 0 < d ∧ w ≤ (if cfg.stepcontrol then cfg.minfac / cfg.reduce else 1) * d) {d : ℝ}
    (hd : d ∈ l) : w ≤ d := by
  unfold WidthInv at hi
  by_cases hsc : cfg.stepcontrol = true
  · rw [if_pos hsc] at hi
    simp only [hsc, if_true] at hw
    obtain ⟨c, h1, h2, -⟩ := hi
    rw [h1] at hd
    obtain ⟨v, hv, rfl⟩ := List.mem_map.1 hd
    have := hw v hv
    unfold PFCfg.lo at h2
    nlinarith
  · rw [if_neg hsc] at hi
    rw [hi] at hd
    have := hw d hd
    rw [if_neg hsc] at this
    linarith [this.2]

/-- A converged Newton run leaves the control component away from its start value, so the next control
component is a component. -/
private theorem pass_success {cfg : PFCfg ℝ} {env : Env ℝ} (hA : ArgMax env) {P : Problem ℝ} {rc : RCtx ℝ}
    {st : RState ℝ} {d : PassData ℝ} (hd : IsPass env P cfg rc st d) (hf : cfg.jFixed = false)
    (hj : st.j ≠ 0) (hw : ∀ v ∈ st.dxmax, cfg.ftol < v) (hft : 0 < cfg.ftol)
    (hs : d.nr.success = true) : d.j ≠ 0 := by
  obtain ⟨-, -, s2, y, s3, fx', dx, hit, -, hconv, -⟩ := newton_last hd.hnewton
  obtain ⟨_, _, _, _, _, _, _, _, _, hlast⟩ := hit
  obtain ⟨gv, vj, hg, hvj, rfl⟩ := extF_ok hlast
  obtain ⟨xj, dj, t1, t2, t3⟩ := target_ok hd.hxmax
  have hn2 : Flt.vnorm ((gv.map fun v => -v) ++ [vj - d.xmax]) < cfg.ftol :=
    of_decide_eq_true (hconv hs).1
  have hle := abs_le_vnorm ((gv.map fun v => -v) ++ [vj - d.xmax]) (vj - d.xmax) (by simp)
  rw [pyGet_ctrl _ _ hj] at hvj t1 t2
  have hdj := hw dj (List.mem_of_getElem? t2)
  have hnj := hd.hj
  unfold nextJ at hnj
  rw [if_neg (by rw [hf]; decide)] at hnj
  refine signedIdx_ne_zero hA hd.hmax hnj (vdiv_vsub_mem hvj t1 t2) ?_
  have habs : |vj - d.xmax| < cfg.ftol := lt_of_le_of_lt hle hn2
  apply div_ne_zero
  · intro h0
    rw [t3] at habs
    rcases sign_cases st.j hj with h1 | h1 <;> rw [h1] at habs
    · have : vj - (xj + dj * 1) = -dj := by linarith
      rw [this, abs_neg, abs_of_pos (by linarith)] at habs
      linarith
    · have : vj - (xj + dj * -1) = dj := by linarith
      rw [this, abs_of_pos (by linarith)] at habs
      linarith
  · linarith

/-- The predictor: the control component moves exactly by its step width. -/
private theorem pre_spec {cfg : PFCfg ℝ} {env : Env ℝ} (hA : ArgMax env) (hE : ExactSolver env) {P : Problem ℝ}
    {s : PState ℝ} {p : PreOut ℝ} (hp : IsPre env P cfg s p) (hj : s.j ≠ 0)
    (hw : ∀ v ∈ s.dxmax, 0 < v ∧ cfg.xtol ≤ v) : p.j ≠ 0 ∧ p.success = false := by
  cases hp with
  | skip => exact ⟨hj, rfl⟩
  | @one xmax a1 nr i1 v1 j h1 h2 h3 h4 h5 h6 =>
    obtain ⟨n1, n2, s2, y, s3, fx', dx, hit, -, hconv, hfirst⟩ := newton_last h4
    obtain ⟨rfl, rfl⟩ := hfirst (by omega)
    obtain ⟨u, hu, hdx⟩ := newtonIter_control hE hj hit
    obtain ⟨_, _, _, _, _, _, _, _, hx', _⟩ := hit
    obtain ⟨xj, dj, t1, t2, t3⟩ := target_ok h3
    rw [pyGet_ctrl _ _ hj] at t1 t2
    rw [hu] at t1
    cases t1
    have hdj := hw dj (List.mem_of_getElem? t2)
    have hmove : xmax - u = dj * Flt.ofInt s.j.sign := by rw [t3]; ring
    have hnrx : nr.x[s.j.natAbs - 1]? = some (u + (xmax - u)) := by
      rw [hx', List.getElem?_zipWith, hu, hdx]
    constructor
    · refine signedIdx_ne_zero hA h5 h6 (vdiv_vsub_mem hnrx hu t2) ?_
      apply div_ne_zero
      · rw [hmove]
        rcases sign_cases s.j hj with h | h <;> rw [h] <;> intro h0 <;> linarith [hdj.1]
      · linarith [hdj.1]
    · have hns : nr.success = false := by
        by_contra hc
        have hc : nr.success = true := by simpa using hc
        have hlt : Flt.vnorm dx < cfg.xtol := of_decide_eq_true (hconv hc).2
        have hle := abs_le_vnorm dx _ (List.mem_of_getElem? hdx)
        rw [hmove, abs_mul] at hle
        have : |(Flt.ofInt s.j.sign : ℝ)| = 1 := by
          rcases sign_cases s.j hj with h | h <;> rw [h] <;> simp
        rw [this, mul_one, abs_of_pos hdj.1] at hle
        linarith
      show (if _ then false else nr.success) = false
      rw [hns, ite_self]

private theorem core (env : Env ℝ) (hA : ArgMax env) (hE : ExactSolver env) (P : Problem ℝ)
    (cfg : PFCfg ℝ) (hc : cfg.stepcontrol = true → cfg.WidthOK) (hft : 0 < cfg.ftol) (hxt : 0 < cfg.xtol)
    (fuel : Nat) (x : List ℝ) (a : Analysis ℝ) (o : PFOut ℝ)
    (hw : ∀ d ∈ initDxmax (x ++ [0]) cfg.dxmax,
      0 < d ∧ cfg.ftol + cfg.xtol ≤ (if cfg.stepcontrol then cfg.minfac / cfg.reduce else 1) * d)
    (h : pathfollow env P cfg fuel x a = .ok o) (r : Rec ℝ) (hr : r ∈ o.recs) :
    r.out ≠ .predictor ∧ (cfg.jFixed = false → KeepsControl P → r.out = .accepted → r.a.j ≠ 0) := by
  obtain ⟨k, hk⟩ := List.mem_iff_getElem?.1 hr
  obtain ⟨px, hpx⟩ := resX_prev hk
  by_cases hf : cfg.jFixed = true
  · obtain ⟨_, -, hQ⟩ := pathfollow_forall h (fun _ => True) (fun _ _ _ _ => trivial)
      (fun _ _ _ _ _ _ => trivial) (fun _ _ r => r.out ≠ .predictor)
      (by
        intro s s' o _ hi
        cases hi with
        | pre hp hs =>
          cases hp with
          | skip => cases hs
          | one _ h2 => rw [hf] at h2; cases h2
        | solve _ _ _ _ he => cases he <;> simp) hpx hk
    exact ⟨hQ, fun h => by rw [hf] at h; cases h⟩
  have hf : cfg.jFixed = false := by simpa using hf
  have hwidth : ∀ l, WidthInv cfg (initDxmax (x ++ [0]) cfg.dxmax) l → ∀ v ∈ l, cfg.ftol + cfg.xtol ≤ v :=
    fun l hl v hv => hl.entry hw hv
  by_cases hlen : (initDxmax (x ++ [0]) cfg.dxmax).length = x.length + 1
  swap
  · obtain ⟨_, -, hQ⟩ := pathfollow_forall h (fun _ => False) (fun _ _ _ h => hlen h)
      (fun _ _ _ h _ _ => h) (fun _ _ _ => False) (fun _ _ _ h _ => h.elim) hpx hk
    exact hQ.elim
  obtain ⟨d0, h0⟩ : ∃ d0, (initDxmax (x ++ [0]) cfg.dxmax)[0]? = some d0 :=
    ⟨_, List.getElem?_eq_getElem (by omega)⟩
  have hd0 : 0 < d0 := (hw d0 (List.mem_of_getElem? h0)).1
  -- passes keep the control component
  have hpass : ∀ (rc : RCtx ℝ) (n : Nat) (st st' : RState ℝ), rc.dxmax0 = initDxmax (x ++ [0]) cfg.dxmax →
      Passes env P cfg rc n st st' → WidthInv cfg (initDxmax (x ++ [0]) cfg.dxmax) st.dxmax → st.j ≠ 0 →
      st'.j ≠ 0 := by
    intro rc n st st' hrc hn
    induction hn with
    | zero => exact fun _ h => h
    | @succ n st st1 st2 ha _ ih =>
      intro hi hj
      obtain ⟨d, hd, he⟩ := attempt_ok ha
      apply ih
      · rw [he.dxmax.1, ← hrc]
        exact hd.width hc (by rw [hrc]; exact h0) hd0 (by rw [hrc]; exact hi)
      · cases he with
        | again =>
          show (if d.nr.success then d.j else st.j) ≠ 0
          split
          · next hs =>
            exact pass_success hA hd hf hj (fun v hv => by linarith [hwidth _ hi v hv]) hft hs
          · exact hj
  obtain ⟨_, -, hQ⟩ := pathfollow_forall h (Ctrl cfg (x.length + 1) (initDxmax (x ++ [0]) cfg.dxmax))
    (by
      intro j hj _ _
      refine ⟨by simp [pfStart], by simp [pfStart, hlen], ?_, ?_⟩
      · unfold WidthInv
        by_cases hsc : cfg.stepcontrol = true
        · rw [if_pos hsc]
          exact ⟨1, by simp [Scaled, pfStart], (hc hsc).lo_lt_one, (hc hsc).one_below⟩
        · rw [if_neg hsc]
          rfl
      · unfold StartJ at hj
        rw [if_neg (by rw [hf]; decide)] at hj
        show j ≠ 0
        omega)
    (by
      rintro s s' o ⟨i1, i2, i3, i4⟩ hi hst
      have hl := hi.length (by rw [hlen, i1]) (by rw [i2, i1])
      refine ⟨by rw [hl.1, i1], by rw [hl.2, i1], hi.width hc h0 hd0 i3, ?_⟩
      have hpos : ∀ v ∈ s.dxmax, 0 < v ∧ cfg.xtol ≤ v := fun v hv => by
        have := hwidth _ i3 v hv
        exact ⟨by linarith, by linarith⟩
      cases hi with
      | pre hp hs => exact (pre_spec hA hE hp i4 hpos).1
      | @solve p lpf n st1 st' o d hp hs hn hd he hl =>
        have hpj := (pre_spec hA hE hp i4 hpos).1
        have hj1 := hpass _ n _ st1 rfl hn i3 hpj
        have hw1 := hn.width (rc := s.rctx p _) hc h0 hd0 i3
        cases he with
        | accepted a2 fx hv hsucc hcommit =>
          exact pass_success hA hd hf hj1 (fun v hv => by linarith [hwidth _ hw1 v hv]) hft hsucc
        | error1 => cases hst
        | error2 => cases hst)
    (fun _ _ r => r.out ≠ .predictor ∧ (KeepsControl P → r.out = .accepted → r.a.j ≠ 0))
    (by
      rintro s s' o ⟨i1, i2, i3, i4⟩ hi
      have hpos : ∀ v ∈ s.dxmax, 0 < v ∧ cfg.xtol ≤ v := fun v hv => by
        have := hwidth _ i3 v hv
        exact ⟨by linarith, by linarith⟩
      cases hi with
      | pre hp hs =>
        have := (pre_spec hA hE hp i4 hpos).2
        rw [this] at hs
        cases hs
      | @solve p lpf n st1 st' o d hp hs hn hd he hl =>
        have hj1 := hpass _ n _ st1 rfl hn i3 (pre_spec hA hE hp i4 hpos).1
        cases he with
        | accepted a2 fx hv hsucc hcommit =>
          refine ⟨by simp, fun hK _ => ?_⟩
          obtain ⟨gv2, vj2, hg2, -, -⟩ := extF_ok hcommit
          have : a2.j = st1.j := hK _ _ _ _ _ _ hg2
          show a2.j ≠ 0
          rw [this]
          exact hj1
        | error1 => exact ⟨by simp, fun _ h => by cases h⟩
        | error2 => exact ⟨by simp, fun _ h => by cases h⟩) hpx hk
  exact ⟨hQ.1, fun _ => hQ.2⟩

/-- **C45.** In exact arithmetic, if every step width the step width control can choose is at least
`ftol + xtol`, the predictor never meets the tolerances, so no increment is recorded without progress. -/
theorem C45_no_lost_increment (env : Env ℝ) (hA : ArgMax env) (hE : ExactSolver env) (P : Problem ℝ)
    (cfg : PFCfg ℝ) (hc : cfg.stepcontrol = true → cfg.WidthOK) (hft : 0 < cfg.ftol) (hxt : 0 < cfg.xtol)
    (fuel : Nat) (x : List ℝ) (a : Analysis ℝ) (o : PFOut ℝ)
    (hw : ∀ d ∈ initDxmax (x ++ [0]) cfg.dxmax,
      0 < d ∧ cfg.ftol + cfg.xtol ≤ (if cfg.stepcontrol then cfg.minfac / cfg.reduce else 1) * d)
    (h : pathfollow env P cfg fuel x a = .ok o) (r : Rec ℝ) (hr : r ∈ o.recs) : r.out ≠ .predictor :=
  (core env hA hE P cfg hc hft hxt fuel x a o hw h r hr).1

/-- The other half of **C45**, for every arithmetic: an increment whose predictor met the tolerances is
recorded with the vector of the increment before. -/
theorem C45_predictor_keeps_vector {F : Type} [Zero F] [One F] [Add F] [Sub F] [Mul F] [Div F] [Neg F] [Flt F]
    (env : Env F) (P : Problem F) (cfg : PFCfg F) (fuel : Nat) (x : List F) (a : Analysis F) (o : PFOut F)
    (h : pathfollow env P cfg fuel x a = .ok o) (k : Nat) (r : Rec F) (hr : o.recs[k]? = some r)
    (hpre : r.out = .predictor) : o.resX[k]? = some r.x := by
  obtain ⟨px, hpx⟩ := resX_prev hr
  obtain ⟨_, -, hQ⟩ := pathfollow_forall h (fun _ => True) (fun _ _ _ _ => trivial)
    (fun _ _ _ _ _ _ => trivial) (fun px _ r => r.out = .predictor → r.x = px)
    (by
      intro s s' o _ hi hout
      cases hi with
      | pre => rfl
      | solve _ _ _ _ he =>
        simp only at hout
        subst hout
        cases he) hpx hr
  rw [hQ hpre, hpx]

/-- **C35, addition.** Under the conditions of `C45_no_lost_increment` the control component recorded by
an accepted increment is not 0, so in `C35_control_component` the sign is 1 or -1: the control component
moves by plus or minus its step width, up to `ftol`. -/
theorem C35_plus_minus (env : Env ℝ) (hA : ArgMax env) (hE : ExactSolver env) (P : Problem ℝ)
    (hW : KeepsWidth P) (hP : KeepsControl P) (cfg : PFCfg ℝ) (hf : cfg.jFixed = false)
    (hc : cfg.stepcontrol = true → cfg.WidthOK) (hft : 0 < cfg.ftol) (hxt : 0 < cfg.xtol)
    (fuel : Nat) (x : List ℝ) (a : Analysis ℝ) (o : PFOut ℝ)
    (hw : ∀ d ∈ initDxmax (x ++ [0]) cfg.dxmax,
      0 < d ∧ cfg.ftol + cfg.xtol ≤ (if cfg.stepcontrol then cfg.minfac / cfg.reduce else 1) * d)
    (h : pathfollow env P cfg fuel x a = .ok o) (k : Nat) (prev : List ℝ) (r : Rec ℝ)
    (hprev : o.resX[k]? = some prev) (hr : o.recs[k]? = some r) (hacc : r.out = .accepted) :
    ∃ (i : Nat) (dV : List ℝ) (u v d : ℝ), r.a.dVmax = some dV ∧ r.x[i]? = some u ∧ prev[i]? = some v ∧ dV[i]? = some d ∧
      (|(u - v) - d| < cfg.ftol ∨ |(u - v) + d| < cfg.ftol) := by
  have hj := (core env hA hE P cfg hc hft hxt fuel x a o hw h r (List.mem_of_getElem? hr)).2 hf hP hacc
  obtain ⟨dV, u, v, d, h1, h2, h3, h4, h5⟩ :=
    C35_control_component env P hW hP cfg fuel x a o h k prev r hprev hr hacc
  rw [pyGet_ctrl _ _ hj] at h2 h3 h4
  refine ⟨_, dV, u, v, d, h1, h2, h3, h4, ?_⟩
  rcases sign_cases r.a.j hj with hs | hs
  · have hs : (r.a.j.sign : ℝ) = 1 := hs
    rw [hs, mul_one] at h5
    exact .inl h5
  · have hs : (r.a.j.sign : ℝ) = -1 := hs
    rw [hs] at h5
    right
    have e : u - v + d = u - v - d * -1 := by ring
    rw [e]
    exact h5

/-- **C46, no active degree of freedom, exact arithmetic.** If every possible step width is at least
`ftol + xtol`, a job without active degree of freedom raises. -/
theorem C46_no_active_dof_raises (env : Env ℝ) (hA : ArgMax env) (hE : ExactSolver env) (P : Problem ℝ)
    (cfg : PFCfg ℝ) (hc : cfg.stepcontrol = true → cfg.WidthOK) (hft : 0 < cfg.ftol) (hxt : 0 < cfg.xtol)
    (fuel : Nat) (a : Analysis ℝ) (hincs : cfg.incs ≠ 0)
    (hw : ∀ d ∈ initDxmax ([0] : List ℝ) cfg.dxmax,
      0 < d ∧ cfg.ftol + cfg.xtol ≤ (if cfg.stepcontrol then cfg.minfac / cfg.reduce else 1) * d) :
    ∃ e, pathfollow env P cfg fuel [] a = .error e := by
  cases h : pathfollow env P cfg fuel [] a with
  | error e => exact ⟨e, rfl⟩
  | ok o =>
    exfalso
    cases hr : o.recs with
    | nil =>
      have := (C38_limit_stop env P cfg fuel [] a o h).2.2 (by rw [hr]; exact Nat.pos_of_ne_zero hincs)
      rw [hr] at this
      obtain ⟨_, h1, _⟩ := this
      cases h1
    | cons r l =>
      have hmem : r ∈ o.recs := by rw [hr]; exact List.mem_cons_self
      exact C45_no_lost_increment env hA hE P cfg hc hft hxt fuel [] a o hw h r hmem
        (C46_no_active_dof env P cfg fuel a o h r hmem).1

/-! ## Examples and counterexamples -/

private theorem realSpring_keeps : KeepsWidth realSpring ∧ KeepsControl realSpring := by
  constructor <;>
  · intro a V V0 w a' r h
    simp only [realSpring] at h
    split at h
    · cases h; rfl
    · cases h

private theorem realCfg_ok : realCfg.WidthOK := by
  constructor <;> norm_num [realCfg]

private theorem realCfg_width : ∀ d ∈ initDxmax ([0] ++ [0] : List ℝ) realCfg.dxmax,
    0 < d ∧ realCfg.ftol + realCfg.xtol ≤ (if realCfg.stepcontrol then realCfg.minfac / realCfg.reduce else 1) * d := by
  intro d hd
  have hd : d ∈ ([1 / 10, 1 / 4] : List ℝ) := hd
  simp only [List.mem_cons, List.not_mem_nil, or_false] at hd
  rcases hd with rfl | rfl <;> norm_num [realCfg]

private theorem realTotal : Total realEnv realSpring := by
  constructor
  · intro A b
    simp only [realEnv]
    split
    · split
      · exact .ok _
      · exact .err (by decide)
    · next e he =>
      unfold cramer at he
      split at he
      · cases he
      · cases he
        exact .err (by decide)
  · intro a V V0 w
    simp only [realSpring]
    split
    · exact .ok _
    · exact .err (by decide)
  · intro a U
    exact .ok _

/-- The hypotheses of `C34_exact`, `C35_control_component`, `C35_plus_minus`, `C37_step_width` and
`C45_no_lost_increment` are met by a run with step control that records an accepted increment: the
displacement 1/10 = step width, control component 1. -/
example : KeepsWidth realSpring ∧ KeepsControl realSpring ∧ ArgMax realEnv ∧ ExactSolver realEnv ∧ realCfg.WidthOK ∧
    (∀ d ∈ initDxmax ([0] ++ [0] : List ℝ) realCfg.dxmax, 0 < d ∧ realCfg.ftol + realCfg.xtol ≤
      (if realCfg.stepcontrol then realCfg.minfac / realCfg.reduce else 1) * d) ∧
    ∃ o r, pathfollow realEnv realSpring realCfg 5 [0] realA = .ok o ∧ o.recs[0]? = some r ∧
      o.resX[0]? = some [0, 0] ∧ r.out = .accepted ∧ r.x = [1/10, 1/10] ∧ r.a.dVmax = some [1/10, 1/4] ∧ r.a.j = 1 := by
  refine ⟨realSpring_keeps.1, realSpring_keeps.2, realEnv_argmax, realEnv_exact, realCfg_ok, realCfg_width, ?_⟩
  obtain ⟨o, h1, h2⟩ := realRun
  have hx := (pathfollow_ok h1).1
  cases hr : o.recs with
  | nil => rw [hr] at h2; cases h2
  | cons r l =>
    rw [hr] at h2
    have h3 := (List.cons.inj h2).1
    simp only [Prod.mk.injEq] at h3
    refine ⟨o, r, h1, by rw [hr]; rfl, ?_, h3.2.2.2, h3.1, h3.2.1, h3.2.2.1⟩
    show some o.startX = _
    rw [hx]
    rfl

/-- The hypotheses of the two termination theorems are met by the same job, with and without step
control; there is a bound on the attempts. -/
example : ∃ N, ∀ fuel, N ≤ fuel →
    pathfollow realEnv realSpring realCfg fuel [0] realA = pathfollow realEnv realSpring realCfg N [0] realA ∧
    pathfollow realEnv realSpring realCfg N [0] realA ≠ .error .outOfFuel := by
  obtain ⟨N, hN⟩ := C36_terminates_stepcontrol realCfg realCfg_ok (by decide)
  have := hN realEnv realSpring [0] realA (1/10) rfl (by norm_num)
  exact ⟨N, fun fuel hf => ⟨this.1 fuel hf, this.2 realTotal⟩⟩

/-- Without step control four attempts are enough for `cycl = 4`. -/
example (fuel : Nat) (hf : 4 ≤ fuel) (a : Analysis ℚ) : pathfollow exEnv exSpring exCfg fuel [0] a =
    pathfollow exEnv exSpring exCfg 4 [0] a :=
  (C36_terminates exEnv exSpring exCfg rfl (by decide) [0] a).1 fuel hf

/-- The hypotheses of `C46_no_active_dof_raises` are met. -/
example (P : Problem ℝ) : ∃ e, pathfollow realEnv P { realCfg with dxmax := .scalar (1/4) } 5 [] realA = .error e := by
  refine C46_no_active_dof_raises realEnv realEnv_argmax realEnv_exact P _ (fun _ => ?_) ?_ ?_ 5 realA ?_ ?_
  · constructor <;> norm_num [realCfg]
  · norm_num [realCfg]
  · norm_num [realCfg]
  · norm_num [realCfg]
  · intro d hd
    have hd : d ∈ ([1/4] : List ℝ) := hd
    simp only [List.mem_cons, List.not_mem_nil, or_false] at hd
    rw [hd]
    norm_num [realCfg]

/-- A recycle loop that can be repeated forever exhausts all fuel. -/
private theorem recycle_forever {F : Type} [Zero F] [One F] [Add F] [Sub F] [Mul F] [Div F] [Neg F] [Flt F]
    {env : Env F} {P : Problem F} {cfg : PFCfg F} {rc : RCtx F} (I : RState F → Prop)
    (hI : ∀ st, I st → ∃ st', attempt env P cfg rc st = .ok (st', none) ∧ I st') :
    ∀ (k : Nat) (st : RState F), I st → recycle env P cfg rc k st = .error .outOfFuel
  | 0, _, _ => rfl
  | k + 1, st, h => by
    obtain ⟨st', h1, h2⟩ := hI st h
    unfold recycle
    rw [h1]
    exact recycle_forever I hI k st' h2

/-- The spring problem on an analysis object that is not changed at all. -/
def exStuck : Problem ℚ where
  g _ V V0 w := exSpring.g exSpringA V V0 w
  dgdx _ U := exSpring.dgdx exSpringA U

/-- Control component fixed to 1, validity tolerance 1/2 that no solution can meet, `cycl = 0`. -/
def exCyclCfg : PFCfg ℚ := { exCfg with jFixed := true, j := some 1, jPre := false, dxtol := 1/2, cycl := 0 }

private theorem stuck_newton (xmax ft xt : ℚ) (sa : Analysis ℚ) (n : Int) :
    newton (extF exStuck [0, 0] 1 xmax false) (extDf exStuck 1) exEnv.spsolve sa [0, 0] n ft xt =
    newton (extF exStuck [0, 0] 1 xmax false) (extDf exStuck 1) exEnv.spsolve exSpringA [0, 0] n ft xt := by
  unfold newton
  cases n.toNat with
  | zero => rfl
  | succ k =>
    unfold newtonLoop
    have : extDf exStuck 1 sa [0, 0] = extDf exStuck 1 exSpringA [0, 0] := rfl
    rw [this]

private theorem stuck_out : ∃ a1 nr, newton (extF exStuck [0, 0] 1 (1/10) false) (extDf exStuck 1) exEnv.spsolve exSpringA
    [0, 0] 8 (1/1000) (1/1000) = .ok (a1, nr) ∧ nr.x = [1/10, 11/100] ∧ nr.success = true := by
  have h : (newton (extF exStuck [0, 0] 1 (1/10) false) (extDf exStuck 1) exEnv.spsolve exSpringA
    [0, 0] 8 (1/1000) (1/1000)).map (fun p => (p.2.x, p.2.success)) = .ok ([1/10, 11/100], true) := by
    decide +kernel
  cases hn : newton (extF exStuck [0, 0] 1 (1/10) false) (extDf exStuck 1) exEnv.spsolve exSpringA
    [0, 0] 8 (1/1000) (1/1000) with
  | error e => rw [hn] at h; cases h
  | ok p =>
    obtain ⟨a1, nr⟩ := p
    rw [hn] at h
    have h := Except.ok.inj h
    exact ⟨a1, nr, rfl, congrArg Prod.fst h, congrArg Prod.snd h⟩

/-- **C36, counterexample for `cycl = 0`**: without step control the job never ends, whatever the fuel. -/
theorem C36_cycl_counterexample (fuel : Nat) :
    pathfollow exEnv exStuck exCyclCfg fuel [0] exSpringA = .error .outOfFuel := by
  have hrec : ∀ (k : Nat) (st : RState ℚ), (0 ≤ st.z ∧ st.nPre = 0 ∧ st.dxmax = [1/10, 1/4] ∧ st.j = 1) →
      recycle exEnv exStuck exCyclCfg ⟨[0, 0], [1/10, 1/4], 0, [], 0⟩ k st = .error .outOfFuel := by
    refine recycle_forever _ ?_
    rintro ⟨sx, z, nPre, dx, j, b, sa⟩ ⟨h1, h2, h3, h4⟩
    simp only at h1 h2 h3 h4
    subst h2 h3 h4
    obtain ⟨a1, nr, hn, hx, hs⟩ := stuck_out
    have hv : solutionValid exCyclCfg (vsub [1/10, 11/100] [0, 0]) [1/10, 1/4] 1 = .ok false := by
      decide +kernel
    have hm : ∃ i v, maxComp exEnv (vdiv (vsub [1/10, 11/100] [0, 0]) [1/10, 1/4]) = .ok (i, v) := by
      have h : (maxComp exEnv (vdiv (vsub [1/10, 11/100] [0, 0]) [1/10, 1/4])) = .ok (1, 1) := by
        decide +kernel
      exact ⟨_, _, h⟩
    obtain ⟨i, v, hm⟩ := hm
    have ht : target ([0, 0] : List ℚ) [1/10, 1/4] 1 = .ok (1/10) := by decide +kernel
    refine ⟨⟨[1/10, 11/100], z + 1, 0, [1/10, 1/4], 1, b, { a1 with dVmax := some [1/10, 1/4] }⟩, ?_, ?_⟩
    · unfold attempt
      simp only [ht, bind, Except.bind]
      rw [if_neg (by simp), show exCyclCfg.ftol = 1/1000 from rfl, show exCyclCfg.xtol = 1/1000 from rfl,
        show exCyclCfg.nfev - 0 = 8 from rfl, stuck_newton, hn]
      simp only [hx, hm]
      rw [if_neg (by simp [vdiv, vsub])]
      simp only [nextJ, nextWidth, show exCyclCfg.jFixed = true from rfl, show exCyclCfg.stepcontrol = false from rfl,
        if_true, hv, hs, Bool.false_and, Bool.false_eq_true, if_false]
      rw [if_neg (by show ¬ (z + 1 = 0); omega), if_neg (by simp)]
      rfl
    · exact ⟨by show 0 ≤ z + 1; omega, rfl, rfl, rfl⟩
  have h1 := hrec fuel ⟨[0, 0], 0, 0, [1/10, 1/4], 1, 4, exSpringA⟩ ⟨by decide, rfl, rfl, rfl⟩
  have hinc : increment exEnv exStuck exCyclCfg [1/10, 1/4] fuel ⟨[0, 0], [1/10, 1/4], 1, 0, 4, exSpringA⟩ =
      .error .outOfFuel := by
    unfold increment solveInc
    have hp : predictor exEnv exStuck exCyclCfg ⟨[0, 0], [1/10, 1/4], 1, 0, 4, exSpringA⟩ =
      .ok ⟨false, 0, 1, 0, [], 0, exSpringA⟩ := rfl
    rw [hp]
    simp only [bind, Except.bind, Bool.false_eq_true, if_false]
    rw [h1]
  show (incrLoop exEnv exStuck exCyclCfg [1/10, 1/4] fuel 5 ⟨[0, 0], [1/10, 1/4], 1, 0, 4, exSpringA⟩ >>= fun p =>
    pure _) = _
  unfold incrLoop
  rw [hinc]
  rfl

/-- Step control with `reduce = 1`, tolerances that no iterate meets, one iteration per attempt. -/
def exReduceCfg : PFCfg ℚ := { exCfg with
  jFixed := true, j := some 1, jPre := false, stepcontrol := true, reduce := 1, ftol := 0, xtol := 0, nfev := 1, cycl := 2 }

private theorem reduce_newton : ∃ a1 nr, newton (extF exStuck [0, 0] 1 (1/10) false) (extDf exStuck 1) exEnv.spsolve exSpringA
    [0, 0] 1 0 0 = .ok (a1, nr) ∧ nr.x = [1/10, 1/10] ∧ nr.success = false := by
  have h : (newton (extF exStuck [0, 0] 1 (1/10) false) (extDf exStuck 1) exEnv.spsolve exSpringA
    [0, 0] 1 0 0).map (fun p => (p.2.x, p.2.success)) = .ok ([1/10, 1/10], false) := by
    decide +kernel
  cases hn : newton (extF exStuck [0, 0] 1 (1/10) false) (extDf exStuck 1) exEnv.spsolve exSpringA
    [0, 0] 1 0 0 with
  | error e => rw [hn] at h; cases h
  | ok p =>
    obtain ⟨a1, nr⟩ := p
    rw [hn] at h
    have h := Except.ok.inj h
    exact ⟨a1, nr, rfl, congrArg Prod.fst h, congrArg Prod.snd h⟩

/-- **C36, counterexample for `reduce = 1`**: with step control the job never ends, whatever the fuel. -/
theorem C36_reduce_counterexample (fuel : Nat) :
    pathfollow exEnv exStuck exReduceCfg fuel [0] exSpringA = .error .outOfFuel := by
  have hrec : ∀ (k : Nat) (st : RState ℚ), ((st.z = 0 ∨ st.z = 1) ∧ st.nPre = 0 ∧ st.dxmax = [1/10, 1/4] ∧ st.j = 1) →
      recycle exEnv exStuck exReduceCfg ⟨[0, 0], [1/10, 1/4], 0, [], 0⟩ k st = .error .outOfFuel := by
    refine recycle_forever _ ?_
    rintro ⟨sx, z, nPre, dx, j, b, sa⟩ ⟨h1, h2, h3, h4⟩
    simp only at h1 h2 h3 h4
    subst h2 h3 h4
    obtain ⟨a1, nr, hn, hx, hs⟩ := reduce_newton
    have hv : ∃ v, solutionValid exReduceCfg (vsub [1/10, 1/10] [0, 0]) [1/10, 1/4] 1 = .ok v :=
      ⟨true, by decide +kernel⟩
    obtain ⟨valid, hv⟩ := hv
    have hm : ∃ i v, maxComp exEnv (vdiv (vsub [1/10, 1/10] [0, 0]) [1/10, 1/4]) = .ok (i, v) :=
      ⟨1, 1, by decide +kernel⟩
    obtain ⟨i, v, hm⟩ := hm
    have ht : target ([0, 0] : List ℚ) [1/10, 1/4] 1 = .ok (1/10) := by decide +kernel
    have hdc : nextWidth exReduceCfg ⟨[0, 0], [1/10, 1/4], 0, [], 0⟩ ⟨sx, z, 0, [1/10, 1/4], 1, b, sa⟩ 1 nr =
        .ok ⟨[1/10, 1/4], 0, 0, true⟩ := by
      unfold nextWidth dxmaxControl
      have g0 : pyGet ([1/10, 1/4] : List ℚ) 0 = .ok (1/10) := rfl
      have gl : Flt.lt ((1/10 : ℚ) * exReduceCfg.minfac) (1/10) = true := by decide +kernel
      have gm : (List.map (fun v => v / exReduceCfg.reduce) [1/10, 1/4] : List ℚ) = [1/10, 1/4] := by decide +kernel
      simp only [show exReduceCfg.stepcontrol = true from rfl, if_true, g0, bind, Except.bind, hs, Bool.not_false, gl, gm,
        decide_true, Bool.true_or]
      rcases h1 with rfl | rfl <;> rfl
    refine ⟨⟨[1/10, 1/10], 1, 0, [1/10, 1/4], 1, 0, { a1 with dVmax := some [1/10, 1/4] }⟩, ?_, ?_⟩
    · unfold attempt
      simp only [ht, bind, Except.bind]
      rw [if_neg (by simp [show exReduceCfg.jFixed = true from rfl]), show exReduceCfg.ftol = 0 from rfl,
        show exReduceCfg.xtol = 0 from rfl, show exReduceCfg.nfev - 0 = 1 from rfl, stuck_newton, hn]
      simp only [hx, hm]
      rw [if_neg (by simp [vdiv, vsub])]
      simp only [nextJ, show exReduceCfg.jFixed = true from rfl,
        if_true, hv, hdc, hs, Bool.and_false, Bool.false_eq_true, if_false]
      rfl
    · exact ⟨.inr rfl, rfl, rfl, rfl⟩
  have h1 := hrec fuel ⟨[0, 0], 0, 0, [1/10, 1/4], 1, 4, exSpringA⟩ ⟨.inl rfl, rfl, rfl, rfl⟩
  have hinc : increment exEnv exStuck exReduceCfg [1/10, 1/4] fuel ⟨[0, 0], [1/10, 1/4], 1, 0, 4, exSpringA⟩ =
      .error .outOfFuel := by
    unfold increment solveInc
    have hp : predictor exEnv exStuck exReduceCfg ⟨[0, 0], [1/10, 1/4], 1, 0, 4, exSpringA⟩ =
      .ok ⟨false, 0, 1, 0, [], 0, exSpringA⟩ := rfl
    rw [hp]
    simp only [bind, Except.bind, Bool.false_eq_true, if_false]
    rw [h1]
  show (incrLoop exEnv exStuck exReduceCfg [1/10, 1/4] fuel 5 ⟨[0, 0], [1/10, 1/4], 1, 0, 4, exSpringA⟩ >>= fun p =>
    pure _) = _
  unfold incrLoop
  rw [hinc]
  rfl

/-- **C37, counterexample to the documented bound `maxfac`** ("maximum factor of the step width"): with
`maxfac = 6/5` the second increment uses 19/14 times the initial step width. -/
theorem C37_maxfac_counterexample :
    summary (pathfollow exEnv exSpring { exCfg with stepcontrol := true, maxfac := 6/5, incs := 2, xlimit := none } 20 [0]
      exSpringA) = .ok [([1/10, 11/100], some [1/10, 1/4], .accepted), ([33/140, 5709/19600], some [19/140, 19/56], .accepted)] := by
  decide +kernel

/-- **C37, counterexample to the documented bound `minfac`**: with `minfac = 1/2`, `reduce = 8` and one
Newton iteration per attempt the step width falls to 1/8 of the initial one. -/
theorem C37_minfac_counterexample :
    summary (pathfollow exEnv exSpring { exCfg with
      stepcontrol := true, jFixed := true, j := some 1, jPre := false, minfac := 1/2, nfev := 2, cycl := 3, ftol := 1/100000, incs := 1, xlimit := none } 20 [0] exSpringA) =
      .ok [([1/80, 81/6400], some [1/80, 1/32], .accepted)] := by
  decide +kernel

end TrussPy
