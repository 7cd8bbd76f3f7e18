import Verif.Lemmas.FirstStep
import Verif.Lemmas.Causal
import Verif.ExamplesRigid
/-!
# Property C73: a stable truss takes its first load increment
-/

set_option linter.unusedSectionVars false

namespace TrussPy

/-- **C73** A truss with positive stiffnesses that is no mechanism takes its first load increment: there are `t0 > 0` and `C`
such that for step widths `t * du`, `t * dl` with `t < t0` and matching tolerances, in every run of a model built from this
input the first increment is accepted at the first attempt, it is the first result after the undeformed state, and some
displacement or the load factor has moved by its step width.  `t0` and `C` do not depend on limits, number of steps and
increments, step control or order of the calls. -/
theorem C73_first_increment_accepted {u : UserInput ℝ} {es : List (Elem ℝ)} {nsteps : Nat} (hv : ValidInput u es nsteps)
    (hns : 1 ≤ nsteps) (hst : StiffElems u es) (hk : KinematicallyStable u es) {env : Env ℝ}
    (hsp : SolvesRegular env.spsolve (freeCount u + 1)) (hA : ArgMax env) {du dl : ℝ} (hdu : 0 < du) (hdl : 0 < dl)
    {dxtol : ℝ} (hdx : 1 < dxtol) (nst : Nat) :
    ∃ t0 > 0, ∃ C : ℝ, ∀ t, 0 < t → t < t0 → ∀ (argsort : List Int → List Nat), IsArgsort argsort →
      ∀ m m1 m2 : Model ℝ, Entered u m → EnteredElems es m → m.settings.nstatev = nst → 1 ≤ m.settings.nsteps →
      SmallSteps m.settings t du dl dxtol C → (∃ k, m.settings.incs.ofStep 0 = some (k + 1)) →
      ∀ fuel, 1 ≤ fuel → m.build argsort = .ok m1 → m1.run env fuel = .ok m2 →
      ∃ c outs r rest res, m1.ctx = some c ∧ RunCalls env fuel m1 c outs ∧ recorded outs = r :: rest ∧ r.out = .accepted ∧
        ReachedWidth r.a (t * du) (t * dl) ∧ m2.results = some res ∧ res.R[1]? = some r.a := by
  obtain ⟨t0, ht0, C, key⟩ := first_increment_ready hv hns hst hk hsp hA hdu hdl hdx nst
  refine ⟨t0, ht0, C, ?_⟩
  rintro t ht htlt as has m m1 m2 hu he hn hs1 hs ⟨k, hinc⟩ fuel hfuel hb hr
  have hdim : m.settings.ndim = 3 := by
    obtain ⟨s⟩ := build_steps hb
    exact s.hdim
  obtain ⟨m1', c, a, r0, ft, A1, k1, k2, k3, k4, k5, k6, k7, k8, k9, k10⟩ := key t ht htlt as has m hu he hdim hn hs
  rw [hb] at k1; cases k1
  obtain ⟨c', d, r0', outs, g1, g2, g3, g4, g5, g6, g7, g8, g9, g10, res, g11, g12⟩ := run_summary hb hr
  rw [k2] at g1; cases g1
  have hns1 : m1.settings.nsteps = m.settings.nsteps := by rw [k7]
  have hlen : 0 < outs.length := by rw [g9.count, hns1]; omega
  obtain ⟨o, outs', rfl⟩ := List.exists_cons_of_length_pos hlen
  obtain ⟨incs, xl, q1, q2, q3, q4⟩ := stepCall_iff.1 (g9.call 0 o rfl)
  obtain ⟨a', res', ft', ends, w1, w2, w3, w4⟩ := g9.chain
  rw [k3] at w1; cases w1
  rw [k4] at w2; cases w2
  rw [k6] at w3; cases w3
  obtain ⟨⟨p, v1, v2⟩, -⟩ := w4 0 o rfl
  cases v1
  simp only [List.take_zero, List.append_nil] at v2
  rw [beginsStep_iff, k8] at v2
  have hA1 := Except.ok.inj v2
  have hincs : incs = k + 1 := by
    rw [stepIncs_iff, k7] at q1
    exact Option.some.inj (q1.symm.trans hinc)
  subst hincs
  obtain ⟨s', i1, i2, i3⟩ := k10 (k + 1) xl fuel hfuel
  rw [← hA1, k9] at q4
  obtain ⟨rest, hrec⟩ := pathfollow_first (by rw [k7]; exact hs.width_du) (by rw [k7]; exact hs.width_dl) (by rw [k7]; exact hs.free)
    (by rw [k7]; exact hs.predictor) i1 q4
  obtain ⟨j1, j2⟩ := increment_saved i1
  refine ⟨c, o :: outs', ⟨s'.x, s'.a, .accepted⟩, rest ++ recorded outs', res, k2, g9, ?_, rfl,
    reachedWidth_of i2 j1 j2 i3, g11, ?_⟩
  · unfold recorded
    rw [List.flatMap_cons, hrec]
    rfl
  · rcases g12 with ⟨e1, e2, e3⟩ | ⟨e1, e2⟩
    · cases e2
    · rw [e2]
      unfold recorded
      rw [List.flatMap_cons, hrec]
      rfl

/-- **C73, one increment.** With a single step of a single increment and a sensible limit, `build` and `run` return, and the
results are the undeformed state and the accepted increment. -/
theorem C73_single_increment_run {u : UserInput ℝ} {es : List (Elem ℝ)} {nsteps : Nat} (hv : ValidInput u es nsteps)
    (hns : 1 ≤ nsteps) (hst : StiffElems u es) (hk : KinematicallyStable u es) {env : Env ℝ}
    (hsp : SolvesRegular env.spsolve (freeCount u + 1)) (hA : ArgMax env) {du dl : ℝ} (hdu : 0 < du) (hdl : 0 < dl)
    {dxtol : ℝ} (hdx : 1 < dxtol) (nst : Nat) :
    ∃ t0 > 0, ∃ C : ℝ, ∀ t, 0 < t → t < t0 → ∀ (argsort : List Int → List Nat), IsArgsort argsort →
      ∀ m : Model ℝ, Entered u m → EnteredElems es m → m.settings.ndim = 3 → m.settings.nstatev = nst →
      m.settings.nsteps = 1 → SmallSteps m.settings t du dl dxtol C → m.settings.incs.ofStep 0 = some 1 →
      (∃ xl, m.settings.xlimit.ofStep 0 = some xl ∧ IndexOK (freeCount u + 1) xl.1) →
      (1 < m.settings.log → m.settings.j0 = none) → ∀ fuel, 1 ≤ fuel →
      ∃ m1 m2 res r0 r1, m.build argsort = .ok m1 ∧ m1.run env fuel = .ok m2 ∧ m2.results = some res ∧ res.R = [r0, r1] ∧
        ReachedWidth r1 (t * du) (t * dl) := by
  obtain ⟨t0, ht0, C, key⟩ := first_increment_ready hv hns hst hk hsp hA hdu hdl hdx nst
  refine ⟨t0, ht0, C, ?_⟩
  rintro t ht htlt as has m hu he hdim hn hs1 hs hinc ⟨xl, hxl, hix⟩ hlog fuel hfuel
  obtain ⟨m1, c, a, r0, ft, A1, k1, k2, k3, k4, k5, k6, k7, k8, k9, k10⟩ := key t ht htlt as has m hu he hdim hn hs
  obtain ⟨s', i1, i2, i3⟩ := k10 1 xl fuel hfuel
  obtain ⟨o, p1, p2⟩ := pathfollow_single (by rw [k7]; exact hs.width_du) (by rw [k7]; exact hs.width_dl) (by rw [k7]; exact hs.free)
    (by rw [k7]; exact hs.predictor) i1 i2 hix
  rw [← k9] at p1
  obtain ⟨j1, j2⟩ := increment_saved i1
  obtain ⟨l, hl⟩ : ∃ l, s'.a.lpf = some l := by
    rw [j2]
    cases h : s'.x.getLast? with
    | none => rw [List.getLast?_eq_none_iff.1 h] at i2; simp at i2
    | some l => exact ⟨l, rfl⟩
  have hR : (o.recs.map (·.a)).foldl recordOne [r0, r0] = [r0, s'.a, s'.a] := by
    rw [p2]
    rfl
  have hstep : Steps env fuel c m1.settings ft.forces.rows { a with Vred := a.Ured ++ [0], lpf := some 0 }
      ⟨[r0, r0], []⟩ ([] ++ [o]) (resetLpf o.final) ⟨[r0, s'.a, { s'.a with U0 := s'.a.U }], [] ++ [l]⟩ := by
    refine .snoc .nil (incs := 1) (xl := xl) (stepIncs_iff.2 (by rw [k7]; exact hinc))
      (stepXlimit_iff.2 (by rw [k7]; exact hxl)) k8 p1 ?_ ?_
    · show syncU0 ((o.recs.map (·.a)).foldl recordOne [r0, r0]) = _
      rw [hR]
      rfl
    · simp [lastLpf, hl]
  have hrun := run_of_steps (outs := []) (rest := []) k2 k3 k4 k6 (by rw [k7]; exact hlog)
    (by rw [k7]; exact hs1.symm) hstep
  exact ⟨m1, _, _, r0, s'.a, k1, hrun, rfl, rfl, reachedWidth_of i2 j1 j2 i3⟩

/-- Both forms of C73 on the bar under tension, with an exact solver: there are settings for which `build` and `run` return
exactly one increment, which is accepted. -/
example (argsort : List Int → List Nat) (has : IsArgsort argsort) :
    ∃ (t : ℝ) (m m1 m2 : Model ℝ) (res : Results ℝ) (r0 r1 : Analysis ℝ), 0 < t ∧ m.build argsort = .ok m1 ∧
      m1.run exactEnv 1 = .ok m2 ∧ m2.results = some res ∧ res.R = [r0, r1] ∧ ReachedWidth r1 (t * 1) (t * 1) ∧
      ∃ c outs r rest, m1.ctx = some c ∧ RunCalls exactEnv 1 m1 c outs ∧ recorded outs = r :: rest ∧ r.out = .accepted ∧
        r.a = r1 := by
  have hdx : (1 : ℝ) < rbSettings.dxtol := by show (1 : ℝ) < 101 / 100; norm_num
  obtain ⟨t1, p1, C1, h1⟩ := C73_first_increment_accepted rbValid (le_refl _) rbStiff rbStable
    (exactEnv_solves _) exactEnv_argmax (one_pos (α := ℝ)) (one_pos (α := ℝ)) hdx rbSettings.nstatev
  obtain ⟨t2, p2, C2, h2⟩ := C73_single_increment_run rbValid (le_refl _) rbStiff rbStable
    (exactEnv_solves _) exactEnv_argmax (one_pos (α := ℝ)) (one_pos (α := ℝ)) hdx rbSettings.nstatev
  have ht : 0 < min t1 t2 / 2 := by have := lt_min p1 p2; linarith
  have hm1 : min t1 t2 / 2 < t1 := by have := min_le_left t1 t2; linarith
  have hm2 : min t1 t2 / 2 < t2 := by have := min_le_right t1 t2; linarith
  generalize min t1 t2 / 2 = t at ht hm1 hm2
  obtain ⟨xtol, ftol, nfev, hs⟩ := smallSteps_exist rbSettings ht (one_pos (α := ℝ)) (one_pos (α := ℝ)) (max C1 C2)
  generalize hS : ({ rbSettings with
    du := t * 1, dlpf := t * 1, jFixed := false, jPre := true, j0 := none, xtol := xtol, ftol := ftol, nfev := nfev } :
      Settings ℝ) = S at hs
  have hle : ∀ C, C ≤ max C1 C2 → SmallSteps S t 1 1 rbSettings.dxtol C := by
    intro C hC
    obtain ⟨N, n1, n2, n3⟩ := hs.iterations
    have := mul_le_mul_of_nonneg_right hC ht.le
    exact ⟨hs.width_du, hs.width_dl, hs.free, hs.predictor, hs.overshoot, hs.xtol_du, hs.xtol_dl, N, by linarith, by linarith, n3⟩
  obtain ⟨m1, m2, res, r0, r1, e1, e2, e3, e4, e5⟩ := h2 t ht hm2 argsort has { rbModel with settings := S } rbEntered rbEnteredElems
    (by subst hS; rfl) (by subst hS; rfl) (by subst hS; rfl) (hle C2 (le_max_right _ _)) (by subst hS; rfl)
    ⟨(0, 1000000), by subst hS; rfl, by unfold IndexOK; decide⟩ (by subst hS; intro _; rfl) 1 (le_refl _)
  obtain ⟨c, outs, r, rest, res', f1, f2, f3, f4, f5, f6, f7⟩ := h1 t ht hm1 argsort has { rbModel with settings := S } m1 m2 rbEntered
    rbEnteredElems (by subst hS; rfl) (by subst hS; exact le_refl _) (hle C1 (le_max_left _ _)) ⟨0, by subst hS; rfl⟩ 1 (le_refl _)
    e1 e2
  rw [e3] at f6; cases f6
  rw [e4] at f7
  exact ⟨t, _, m1, m2, res, r0, r1, ht, e1, e2, e3, e4, e5, c, outs, r, rest, f1, f2, f3, f4, (Option.some.inj f7).symm⟩

end TrussPy
