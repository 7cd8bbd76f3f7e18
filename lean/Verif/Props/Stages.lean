import Verif.Lemmas.StagesRun
import Verif.Props.TwoBar
/-!
# Property C106: a run with several steps follows the joined equilibrium paths
-/

set_option linter.unusedSectionVars false

namespace TrussPy

/-- **C106** The user enters a truss and loads for `ns` steps.  If there are regular equilibrium paths, each starting where
the one before ends, on which the loads of the earlier steps are held with their last load factors while those of the step grow,
and on which the component `j` moves by `T k`, then `build` and `run` with the control component fixed to `j` return, for
every step width `h` below `h0` which divides the `T k` and every tolerance of at most `f0`.  The results are the undeformed state
and then, step after step, the points of the paths up to `L` times the tolerance: the errors with which a step ends do not get the
later ones off their path.  `h0`, `f0`, `L`, `C` do not depend on order of the calls, limits, increments and tolerances. -/
theorem C106_run_follows_stages {u : UserInput ℝ} {es : List (Elem ℝ)} {ns : Nat} (hv : ValidInput u es ns) (hns : 1 ≤ ns)
    (hus : UsualPlastic es) {P : List (Int × Fin 3)} (hP : FreeList u P) {j : Int} (hj1 : 1 ≤ j.natAbs)
    (hj2 : j.natAbs ≤ P.length + 1) {T : Nat → ℝ} {U : Nat → ℝ → Int → V3 ℝ} {l : Nat → ℝ → ℝ} (ht : Stages u es P j ns T U l)
    {env : Env ℝ} (hsp : SolvesRegular env.spsolve (P.length + 1)) (hA : ArgMax env) (nst : Nat) :
    ∃ h0 > 0, ∃ f0 > 0, ∃ L C : ℝ, ∀ (argsort : List Int → List Nat), IsArgsort argsort → ∀ m : Model ℝ,
      Entered u m → EnteredElems es m → m.settings.ndim = 3 → m.settings.nstatev = nst → m.settings.nsteps = ns →
      m.settings.log ≤ 1 →
      ∀ h, 0 < h → h < h0 → FixedControl m.settings P.length j h → (10 : ℝ) ^ (-m.settings.ftol) ≤ f0 →
      ∀ (K : Nat → Nat) (xl : Nat → Int × ℝ),
      (∀ k < ns, m.settings.incs.ofStep k = some (K k) ∧ m.settings.xlimit.ofStep k = some (xl k) ∧ K k * h = T k ∧
        1 ≤ (xl k).1 ∧ (xl k).1 ≤ P.length + 1 ∧ ∀ t ∈ Set.Icc 0 (T k),
          |component P (U k t) (l k t) ((xl k).1 - 1).toNat| + L * (10 : ℝ) ^ (-m.settings.ftol) ≤ (xl k).2) →
      EnoughIterations m.settings C h → ∀ fuel, 1 ≤ fuel →
      ∃ m1 m2 nt res, m.build argsort = .ok m1 ∧ m1.run env fuel = .ok m2 ∧ m1.nodes = some nt ∧ m2.results = some res ∧
        FollowsStages P nt.labels res.R j h (L * (10 : ℝ) ^ (-m.settings.ftol)) U l ns K := by
  by_cases hex : ∃ (as : List Int → List Nat) (m0 : Model ℝ), IsArgsort as ∧ Entered u m0 ∧ EnteredElems es m0 ∧
      m0.settings.ndim = 3 ∧ m0.settings.nstatev = nst
  swap
  · refine ⟨1, one_pos, 1, one_pos, 0, 0, ?_⟩
    intro as has m hu he hd hn
    exact absurd ⟨as, m, has, hu, he, hd, hn⟩ hex
  obtain ⟨c, d, bars, w, a0, hb, hinv, hdof, hnn, hall⟩ := stages_ready hv hus nst hex
  obtain ⟨h0, hh0, f0, hf0, L, C, hL, key⟩ := stages_steps hb hP hj1 hj2 ht hns hsp hA ns le_rfl
  refine ⟨h0, hh0, f0, hf0, L, C, ?_⟩
  rintro as has m hu he hd hn hs hlog h hh hlt hfix hf K xl hK ⟨N, hN1, hN2, hN3⟩ fuel hfuel
  obtain ⟨m1, a, r0, ft, g1, g2, g3, g4, g5, g6, g7, g8, g9⟩ := hall as has m hu he hd hn
  have hset : m1.settings.ftol = m.settings.ftol ∧ m1.settings.xtol = m.settings.xtol ∧ m1.settings.nfev = m.settings.nfev ∧
      m1.settings.incs = m.settings.incs ∧ m1.settings.xlimit = m.settings.xlimit ∧ m1.settings.nsteps = m.settings.nsteps ∧
      m1.settings.log = m.settings.log := by
    rw [g7]
    exact ⟨rfl, rfl, rfl, rfl, rfl, rfl, rfl⟩
  obtain ⟨e1, e2, e3, e4, e5, e6, e7⟩ := hset
  have hfix1 : FixedControl m1.settings P.length j h := by
    rw [g7]
    exact ⟨hfix.fixed, hfix.control, hfix.plain, hfix.overshoot, hfix.width⟩
  obtain ⟨outs, a1, R, le, s1, s2, -, s4⟩ := key m1.settings h hh hlt hfix1 (by rw [e1]; exact hf) N (by rw [e1]; exact hN1)
    (by rw [e1, e2]; exact hN2) (by rw [e3]; exact hN3) K xl (by rw [e1, e4, e5]; exact hK) fuel hfuel r0 g5
  rw [e1] at s4
  -- the results
  have hR : R.dropLast = r0 :: (recorded outs).map (·.a) := by
    obtain ⟨u0, hu0⟩ := Steps.layout (X := [r0]) (j0 := r0) s1
    have hu0 : R = _ := hu0
    rw [hu0, List.dropLast_concat]
    rfl
  rcases List.eq_nil_or_concat outs with rfl | ⟨outs', o, ho⟩
  · simp at s2; omega
  rw [List.concat_eq_append] at ho
  have hlen : outs'.length + 1 = ns := by rw [← s2, ho]; simp
  have hrun : m1.run env fuel = .ok { m1 with analysis := some o.final, results := some ⟨R.dropLast, le⟩ } :=
    run_of_steps (outs := outs') (rest := []) g2 g3 g4 g6 (by rw [e7]; intro hl; exact absurd hl (not_lt.2 hlog))
      (by rw [e6, hs]; exact hlen) (by rw [g8, g9, ← ho]; exact s1)
  obtain ⟨n1, n2⟩ := recorded_get (K := K) fun k o hk => (s4 k o hk).1
  rw [s2] at n1
  refine ⟨m1, _, c.nodes, _, g1, hrun, ctx_nodes g2, rfl, ?_, ?_⟩
  · show R.dropLast.length = _
    rw [hR, List.length_cons, List.length_map, n1, Nat.add_comm]
  · intro k hk i hi
    obtain ⟨o', ho'⟩ : ∃ o', outs[k]? = some o' := ⟨_, List.getElem?_eq_getElem (by omega)⟩
    obtain ⟨t1, t2⟩ := s4 k o' ho'
    obtain ⟨r, hr⟩ : ∃ r, o'.recs[i]? = some r := ⟨_, List.getElem?_eq_getElem (by omega)⟩
    obtain ⟨p1, p2, p3, p4, p5⟩ := t2 i r hr
    have hpos := n2 k o' ho' i r hr
    have hp : i < K k := hi
    have hin : ((i : ℝ) + 1) * h ∈ Set.Icc 0 (T k) := by
      refine ⟨by positivity, ?_⟩
      rw [← (hK k hk).2.2.1]
      refine mul_le_mul_of_nonneg_right ?_ hh.le
      have : i + 1 ≤ K k := by omega
      exact_mod_cast this
    refine ⟨r.a, ?_, s1.stepNumber k o' ho' r (List.mem_of_getElem? hr), ?_, ?_⟩
    · show R.dropLast[_]? = _
      rw [hR, show 1 + (∑ m ∈ Finset.range k, K m) + i = ((∑ m ∈ Finset.range k, K m) + i) + 1 by omega, List.getElem?_cons_succ,
        List.getElem?_map, hpos]
      rfl
    · -- the table
      have hl : (∑ m ∈ Finset.range k, K m) + i < (a0 :: (recorded outs).map (·.a)).length := by
        have := (List.getElem?_eq_some_iff.1 hpos).1
        simp; omega
      have hcr : Carry a0 a0 := by constructor <;> rfl
      have hI := s1.pairs hinv hcr hinv (List.getElem?_eq_getElem hl) hpos
      have hsol := hI.solved hdof (by rw [p1]; simp)
      have hred : ReducedTo r.a.U d.dof1 r.a.Ured := by
        have ht := hsol.1.reduced
        rw [hI.next.dof1] at ht
        obtain ⟨t1, t2⟩ := (npTake_eq_ok_iff _ _ _).1 ht
        refine ⟨t1, ?_, ?_⟩
        · intro k i hk
          obtain ⟨t3, t4⟩ := t2 k (List.getElem?_eq_some_iff.1 hk).1
          rw [hk] at t3
          have t3 : r.a.Ured[k]? = r.a.U[i]? := t3
          exact ⟨t3.symm, fun e => t4 (t3.trans e)⟩
        · intro i hi hni
          exact hI.next.U i (by rw [hI.next.fits.U, hnn] at hi; exact hi) hni
      have hlaid := hb.laid
      rw [hinv.dof1] at hlaid
      obtain ⟨incs, xl', a2, q1, q2, q3⟩ : ∃ incs xl' a2, True ∧ True ∧
          pathfollow env (modelProblem c) (stepCfg m1.settings incs xl') fuel a2.Ured a2 = .ok o' := by
        obtain ⟨incs, xl', q1, q2, -, q4⟩ := stepCall_iff.1 (s1.calls k o' ho')
        exact ⟨incs, xl', _, trivial, trivial, q4⟩
      obtain ⟨-, -, -, lv, v1, v2⟩ := pathfollow_loads q3 r (List.mem_of_getElem? hr)
      exact shows_of hlaid hP hred hI.next.fits.U p2 hsol.2.2 (v2.trans v1.symm) ((ht.trail k hk).supports _ hin) p5
    · rw [p3, ← p4, List.getD_eq_getElem?_getD, List.getElem?_eq_getElem (by omega)]
      rfl

/-! ## The hypotheses are met -/

/-- The two-bar truss with loads for two steps: -1, then -2. -/
def tb2Input (w H : ℝ) : UserInput ℝ := { tbInput w H with forces := [⟨2, [0, 0, -1, 0, 0, -2]⟩] }

/-- The model after entering it. -/
def tb2Model (w H E A : ℝ) (s : Settings ℝ) : Model ℝ :=
  { tbModel w H E A s with forces := some ⟨[2], ⟨6, [[0, 0, -1, 0, 0, -2]]⟩⟩ }

theorem tb2Entered (w H E A : ℝ) (s : Settings ℝ) : Entered (tb2Input w H) (tb2Model w H E A s) := by
  unfold Entered
  exact ⟨rfl, rfl, rfl⟩

theorem tb2Valid (w H E A : ℝ) : ValidInput (tb2Input w H) (tbElems E A) 2 :=
  have h := tbValid w H E A
  { posed := ⟨h.posed.nodes, h.posed.elems, h.posed.coords, h.posed.joins, h.posed.law⟩
    props := h.props
    elems := h.elems
    supports := h.supports
    supportsOnce := h.supportsOnce
    supportsAt := h.supportsAt
    loads := by simp [tb2Input]
    loadsOnce := by simp [tb2Input]
    loadsAt := by simp [tb2Input, tbInput]
    width := by simp [tb2Input, loadWidth]
    free := h.free }

/-- Load factors of the two steps: the load of the first step is the closed-form curve, that of the second what is missing to it. -/
noncomputable def tb2Load (w H E A T : ℝ) : Nat → ℝ → ℝ
  | 0, s => vmLoad w H E A s
  | _, s => (vmLoad w H E A (T + s) - vmLoad w H E A T) / 2

/-- Position of the apex. -/
def tb2Move (T : ℝ) (k : Nat) (s : ℝ) : Int → V3 ℝ := tbMove (k * T + s)

theorem tb2Stages {w H E A : ℝ} (hw : 0 < w) {T : ℝ} (hT : 0 < T) :
    Stages (tb2Input w H) (tbElems E A) [(2, 2)] (-1) 2 (fun _ => T) (tb2Move T) (tb2Load w H E A T) where
  width _ _ := hT
  start := by
    intro n _ d
    simp [tb2Move, tbMove]
  join := by
    intro k hk n _ d
    simp only [tb2Move, Nat.cast_add, Nat.cast_one]
    congr 1
    ring
  trail := by
    intro k hk
    have hpos : k = 0 ∨ k = 1 := by omega
    have htb := tbTrail (w := w) (H := H) (E := E) (A := A) hw (2 * T)
    have hin : ∀ s ∈ Set.Icc 0 T, (k : ℝ) * T + s ∈ Set.Icc 0 (2 * T) := by
      rintro s ⟨h1, h2⟩
      rcases hpos with rfl | rfl
      · simp only [Nat.cast_zero, zero_mul, zero_add]
        exact ⟨h1, by linarith⟩
      · simp only [Nat.cast_one, one_mul]
        exact ⟨by linarith, by linarith⟩
    have hshift : Set.MapsTo (fun s => (k : ℝ) * T + s) (Set.Icc 0 T) (Set.Icc 0 (2 * T)) := hin
    have hld : stepLoad (tb2Input w H) k 2 2 = -(k + 1) := by
      rcases hpos with rfl | rfl
      · simp [stepLoad, tb2Input, loadOf]
      · simp [stepLoad, tb2Input, loadOf]
        norm_num
    refine ⟨?_, ?_, ?_, ?_, ?_, ?_, ?_, fun s _ => tbBelow E A _ _, ?_⟩
    · rcases hpos with rfl | rfl
      · simp [tb2Load, vmLoad]
      · simp [tb2Load]
    · intro n hn d
      exact (htb.cont n hn d).comp (by fun_prop) hshift
    · rcases hpos with rfl | rfl
      · refine htb.contLoad.mono fun s hs => ?_
        exact ⟨hs.1, by linarith [hs.2]⟩
      · have : ContinuousOn (fun s => vmLoad w H E A (T + s)) (Set.Icc 0 T) :=
          htb.contLoad.comp (f := fun s => T + s) (by fun_prop) fun s hs => ⟨by linarith [hs.1], by linarith [hs.2]⟩
        exact (this.sub continuousOn_const).div_const 2
    · intro s hs
      exact htb.supports _ (hin s hs)
    · intro s hs
      simp [component, tb2Move, tbMove]
      ring
    · intro s hs lab d hfree
      have hfree : FreeAt (tbInput w H) lab d := hfree
      rw [tbFreeAt] at hfree
      cases hfree
      have hp : pull (tb2Input w H) (tbElems E A) (tb2Move T k s) 2 2 = -vmLoad w H E A (k * T + s) :=
        tbPull (s := (k : ℝ) * T + s) hw (by simp [tb2Move, tbMove]) (by simp [tb2Move, tbMove]) (fun _ => rfl)
      rw [hp, hld]
      rcases hpos with rfl | rfl
      · simp [heldLoads, tb2Load]
      · have h0 : stepLoad (tb2Input w H) 0 2 2 = -1 := by simp [stepLoad, tb2Input, loadOf]
        simp only [heldLoads, Finset.sum_range_one, h0, tb2Load, Nat.cast_one, one_mul]
        ring
    · intro s hs
      exact htb.length _ (hin s hs)
    · intro s hs v μ hvel hd h0
      have h0 : v 2 2 = 0 := by simpa [component] using h0
      have hz : ∀ n ∈ (tbInput w H).nodes, ∀ d, v n.label d = 0 := by
        intro n hn d
        by_cases h : (n.label, d) = (2, 2)
        · simp only [Prod.mk.injEq] at h
          rw [h.1, h.2]
          exact h0
        · refine hvel n hn d fun h1 => h ?_
          exact (tbFreeAt w H _ d).1 ⟨⟨n, hn, rfl⟩, h1⟩
      refine ⟨hz, ?_⟩
      have z1 : ∀ d, v 1 d = 0 := hz ⟨1, [-w, 0, 0]⟩ (by simp [tbInput])
      have z2 : ∀ d, v 2 d = 0 := hz ⟨2, [0, 0, H]⟩ (by simp [tbInput])
      have z3 : ∀ d, v 3 d = 0 := hz ⟨3, [w, 0, 0]⟩ (by simp [tbInput])
      have hder := hd 2 2 ((tbFreeAt w H 2 2).2 rfl)
      have hfun : (fun t : ℝ => pull (tb2Input w H) (tbElems E A) (fun n e => tb2Move T k s n e + t * v n e) 2 2 -
          (tb2Load w H E A T k s + t * μ) * stepLoad (tb2Input w H) k 2 2) = fun t =>
          (-vmLoad w H E A (k * T + s) + tb2Load w H E A T k s * (k + 1)) + t * (μ * (k + 1)) := by
        funext t
        have hp : pull (tb2Input w H) (tbElems E A) (fun n e => tb2Move T k s n e + t * v n e) 2 2 = -vmLoad w H E A (k * T + s) :=
          tbPull (s := (k : ℝ) * T + s) hw (by simp [tb2Move, tbMove, z1]) (by simp [tb2Move, tbMove, z3]) (by simp [tb2Move, z2])
        rw [hp, hld]
        ring
      rw [hfun] at hder
      have h2 : HasDerivAt (fun t : ℝ => (-vmLoad w H E A (k * T + s) + tb2Load w H E A T k s * (k + 1)) + t * (μ * (k + 1)))
          (1 * (μ * (k + 1))) 0 := ((hasDerivAt_id 0).mul_const (μ * ((k : ℝ) + 1))).const_add _
      have h3 := hder.unique h2
      have h4 : (0 : ℝ) < k + 1 := by positivity
      rw [one_mul] at h3
      rcases mul_eq_zero.1 h3.symm with h5 | h5
      · exact h5
      · exact absurd h5 h4.ne'

/-- There are settings with which `build` and `run` return; the first step pushes the apex down by three quarters of its height, the
second as far again: the last result belongs to step 2, and its load factor is negative, since the structure then pulls down
instead of carrying the load held from the first step. -/
example {w H E A : ℝ} (hw : 0 < w) (hH : 0 < H) (hE : 0 < E) (hA : 0 < A) (argsort : List Int → List Nat) (has : IsArgsort argsort) :
    ∃ s m1 m2 res r l, (tb2Model w H E A s).build argsort = .ok m1 ∧ m1.run exactEnv 1 = .ok m2 ∧ m2.results = some res ∧
      res.R.getLast? = some r ∧ r.step = 2 ∧ r.Vred[0]? = some (-(3 / 2 * H)) ∧ r.lpf = some l ∧ l < 0 := by
  have hTpos : 0 < 3 / 4 * H := by positivity
  set T := 3 / 4 * H with hTd
  obtain ⟨h0, hh0, f0, hf0, L, C, G⟩ := C106_run_follows_stages (tb2Valid w H E A) (by norm_num) (tbUsual E A)
    (P := [(2, 2)]) ⟨(tbFree w H).order, (tbFree w H).mem⟩ (j := -1) (by decide) (by decide) (tb2Stages (E := E) (A := A) hw hTpos)
    (exactEnv_solves 2) exactEnv_argmax rbSettings.nstatev
  have hrev := C100_load_reverses hw hH hE hA
  have hpos : 0 < vmLoad w H E A T := hrev.2.2.2.1 T hTpos (by linarith)
  have hneg : vmLoad w H E A (3 / 2 * H) < 0 := hrev.2.2.2.2.1 (3 / 2 * H) (by linarith) (by linarith)
  set v1 := (vmLoad w H E A (3 / 2 * H) - vmLoad w H E A T) / 2 with hv1
  have hv1n : v1 < 0 := by rw [hv1]; linarith
  obtain ⟨M, hM⟩ := exists_nat_gt (T / h0)
  rw [div_lt_iff₀ hh0] at hM
  have hM1 : (0 : ℝ) < M + 1 := by positivity
  have hhM : ((M : ℝ) + 1) * (T / (M + 1)) = T := by field_simp
  have hhpos : 0 < T / ((M : ℝ) + 1) := by positivity
  have hhlt : T / ((M : ℝ) + 1) < h0 := by
    rw [div_lt_iff₀ hM1]
    nlinarith
  generalize T / ((M : ℝ) + 1) = h at hhM hhpos hhlt
  obtain ⟨k, hk⟩ := exists_pow_lt_of_lt_one (lt_min hf0 (lt_min (show 0 < -v1 / (2 * (|L| + 1)) from
    div_pos (by linarith) (by positivity)) (show 0 < H / (4 * (|L| + 1)) by positivity))) (show (10 : ℝ)⁻¹ < 1 by norm_num)
  have hp : (10 : ℝ)⁻¹ ^ k = (10 : ℝ) ^ (-(k : Int)) := by rw [zpow_neg, zpow_natCast, inv_pow]
  rw [hp] at hk
  have hfpos : (0 : ℝ) < (10 : ℝ) ^ (-(k : Int)) := by positivity
  have hLabs : L * (10 : ℝ) ^ (-(k : Int)) ≤ (|L| + 1) * (10 : ℝ) ^ (-(k : Int)) :=
    mul_le_mul_of_nonneg_right ((le_abs_self L).trans (by linarith)) hfpos.le
  have hfL : L * (10 : ℝ) ^ (-(k : Int)) < -v1 := by
    have h1 : (10 : ℝ) ^ (-(k : Int)) * (2 * (|L| + 1)) < -v1 := by
      rw [← lt_div_iff₀ (by positivity)]
      exact lt_of_lt_of_le hk ((min_le_right _ _).trans (min_le_left _ _))
    have h3 : 0 ≤ (|L| + 1) * (10 : ℝ) ^ (-(k : Int)) := by positivity
    linarith
  have hfH : L * (10 : ℝ) ^ (-(k : Int)) ≤ H / 4 := by
    have h1 : (10 : ℝ) ^ (-(k : Int)) * (4 * (|L| + 1)) < H := by
      rw [← lt_div_iff₀ (by positivity)]
      exact lt_of_lt_of_le hk ((min_le_right _ _).trans (min_le_right _ _))
    linarith
  obtain ⟨N, hN⟩ := pow_unbounded_of_one_lt (C * (h + (10 : ℝ) ^ (-(k : Int))) / (10 : ℝ) ^ (-(k : Int))) (by norm_num : (1 : ℝ) < 2)
  rw [div_lt_iff₀ hfpos, mul_comm (2 ^ N)] at hN
  obtain ⟨m1, m2, nt, res, g1, g2, g3, g4, g5⟩ := G argsort has (tb2Model w H E A { rbSettings with
      j0 := some (-1), du := h, incs := .const (M + 1), xlimit := .const 1 (2 * H), xtol := k, ftol := k, nfev := N + 1, nsteps := 2 })
    (tb2Entered w H E A _) (tbEnteredElems w H E A { rbSettings with
      j0 := some (-1), du := h, incs := .const (M + 1), xlimit := .const 1 (2 * H), xtol := k, ftol := k, nfev := N + 1, nsteps := 2 })
    rfl rfl rfl (by show (0 : Int) ≤ 1; decide) h hhpos hhlt ⟨rfl, rfl, rfl, by show (1 : ℝ) ≤ 101 / 100; norm_num, if_pos (by decide)⟩
    (hk.le.trans (min_le_left _ _)) (fun _ => M + 1) (fun _ => (1, 2 * H)) (by
      intro q hq
      refine ⟨rfl, rfl, by push_cast; exact hhM, le_refl _, by simp, ?_⟩
      rintro t ⟨ht0, ht1⟩
      show |component [(2, 2)] (tb2Move T q t) (tb2Load w H E A T q t) 0| + L * (10 : ℝ) ^ (-(k : Int)) ≤ 2 * H
      have hc : component [(2, 2)] (tb2Move T q t) (tb2Load w H E A T q t) 0 = -(q * T + t) := by
        simp [component, tb2Move, tbMove]
      have hq1 : (q : ℝ) * T ≤ 1 * T := mul_le_mul_of_nonneg_right (by exact_mod_cast (by omega : q ≤ 1)) hTpos.le
      rw [hc, abs_neg, abs_of_nonneg (by positivity)]
      linarith)
    ⟨N, .inl hN, .inl hN, le_rfl⟩ 1 le_rfl
  have hlen : res.R.length = 1 + 2 * (M + 1) := by
    rw [g5.count]
    simp
  obtain ⟨r, p1, p2, ⟨⟨l, p3, p4⟩, -⟩, p5⟩ := g5.points 1 (by norm_num) M (by omega)
  rw [hhM] at p4 p5
  have p5 : r.Vred[0]? = some (component [(2, 2)] (tb2Move T 1 T) (tb2Load w H E A T 1 T) 0) := p5
  have h32 : T + T = 3 / 2 * H := by rw [hTd]; ring
  refine ⟨_, m1, m2, res, r, l, g1, g2, g4, ?_, p2, ?_, p3, ?_⟩
  · rw [List.getLast?_eq_getElem?, hlen]
    rw [show 1 + 2 * (M + 1) - 1 = 1 + (∑ m ∈ Finset.range 1, (M + 1)) + M by simp; omega]
    exact p1
  · rw [p5]
    simp [component, tb2Move, tbMove]
    linarith
  · have p4 : |l - (vmLoad w H E A (T + T) - vmLoad w H E A T) / 2| ≤ L * (10 : ℝ) ^ (-(k : Int)) := p4
    rw [h32] at p4
    have := (abs_le.1 p4).2
    linarith

end TrussPy
