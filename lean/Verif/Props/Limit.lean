import Verif.Props.Yield
import Verif.Spec.Work
import Verif.Lemmas.Unique
import Mathlib.Algebra.BigOperators.Ring.Finset
import Mathlib.Algebra.Order.BigOperators.Group.Finset
/-!
# C93: a run never exceeds the plastic limit load

Principle of virtual work for the accepted increments, and the upper bound of limit analysis that follows from it.
-/

set_option linter.unusedSectionVars false

namespace TrussPy

open Spec

/-- Greatest force of a bar without hardening: yield stress times area. -/
noncomputable def Bar.limitForce (b : Bar ℝ) : ℝ := b.mat.getD 2 0 * |b.geo.getD 0 0|

theorem sum_sgn (b : Bar ℝ) {n : Nat} (hA : b.iA < n) (hE : b.iE < n) (w : Nat → ℝ) :
    ∑ i ∈ Finset.range n, b.sgn i * w i = w b.iE - w b.iA := by
  unfold Bar.sgn
  simp only [sub_mul, Finset.sum_sub_distrib, ite_mul, one_mul, zero_mul, Finset.sum_ite_eq', Finset.mem_range, hA, hE, if_true]

/-- Virtual work of the internal forces. -/
theorem internal_work (U : List ℝ) (v : Nat → V3 ℝ) (n : Nat) : ∀ (bars : List (Bar ℝ)) (xs : List BarRes),
    (∀ b ∈ bars, b.iA < n ∧ b.iE < n) →
    work n (nodeForce bars xs U) v = ((bars.zip xs).map fun p => p.2.force * p.1.elongation U v).sum := by
  intro bars
  induction bars with
  | nil => intro xs _; simp [work, nodeForce]
  | cons b bars ih =>
    intro xs hb
    cases xs with
    | nil => simp [work, nodeForce]
    | cons x xs =>
      have ih := ih xs fun b' hb' => hb b' (List.mem_cons_of_mem _ hb')
      obtain ⟨hA, hE⟩ := hb b (List.mem_cons_self ..)
      simp only [List.zip_cons_cons, List.map_cons, List.sum_cons]
      rw [← ih]
      have hsplit : work n (nodeForce (b :: bars) (x :: xs) U) v =
          (∑ i ∈ Finset.range n, ∑ d : Fin 3, b.sgn i * (x.force * b.dir U d) * v i d) + work n (nodeForce bars xs U) v := by
        unfold work
        rw [← Finset.sum_add_distrib]
        refine Finset.sum_congr rfl fun i _ => ?_
        rw [← Finset.sum_add_distrib]
        refine Finset.sum_congr rfl fun d _ => ?_
        simp only [nodeForce, List.zip_cons_cons, List.map_cons, List.sum_cons]
        ring
      rw [hsplit, Finset.sum_comm]
      congr 1
      unfold Bar.elongation
      rw [Finset.mul_sum]
      refine Finset.sum_congr rfl fun d _ => ?_
      have := sum_sgn b hA hE fun i => v i d
      rw [← this, Finset.mul_sum, Finset.mul_sum]
      refine Finset.sum_congr rfl fun i _ => ?_
      ring

/-- **C93** Accepted increments are equilibria in the sense of virtual work: for every virtual displacement that respects the
supports, the work of the loads equals that of the recorded bar forces on the elongations of the bars, up to the tolerance. -/
theorem C93_virtual_work {argsort : List Int → List Nat} (has : IsArgsort argsort) {u : UserInput ℝ}
    {es : List (Elem ℝ)} {env : Env ℝ} {fuel : Nat} {m m1 m2 : Model ℝ} (hu : Entered u m) (he : EnteredElems es m)
    (hw : WellPosed u es) (hbw : ∀ b ∈ u.bounds, b.values.length = 3)
    (hb : m.build argsort = .ok m1) (hr : m1.run env fuel = .ok m2) (hn : 0 < m1.settings.nsteps)
    (hfw : 3 * m1.settings.nsteps ≤ loadWidth u.forces) :
    ∃ c bars res r0 outs, m1.ctx = some c ∧ c.Bars bars ∧ Meant u es c.nodes.labels bars ∧ m2.results = some res ∧
      RunCalls env fuel m1 c outs ∧ res.R = r0 :: (recorded outs).map (·.a) ∧
      ∀ r ∈ recorded outs, r.out = .accepted → ∃ (xs : List BarRes) (ef : StepForces ℝ) (l : ℝ) (s : Nat), xs.length = bars.length ∧
        r.a.elementForce = xs.map (·.force) ∧ r.a.lpf = some l ∧ r.a.extForces = some ef ∧ r.a.step = s + 1 ∧
        ∀ v : Nat → V3 ℝ, (∀ (i : Nat) (lab : Int) (d : Fin 3), c.nodes.labels[i]? = some lab →
            (supportOf u.bounds lab)[d.val]? ≠ some 1 → v i d = 0) →
          |work c.nnodes (totalLoad u c.nodes.labels ef.forcesConst l s) v -
              ((bars.zip xs).map fun p => p.2.force * p.1.elongation r.a.U v).sum| ≤
            (10 : ℝ) ^ (-m1.settings.ftol) * size c.nnodes v := by
  obtain ⟨c, bars, res, r0, outs, h1, h2, h3, h4, h5, h6, h7⟩ := C62_accepted_is_equilibrium has hu he hw hbw hb hr hn hfw
  refine ⟨c, bars, res, r0, outs, h1, h2, h3, h4, h5, h6, ?_⟩
  intro r hmem ho
  obtain ⟨k, hk⟩ := List.getElem?_of_mem hmem
  have hkl := (List.getElem?_eq_some_iff.1 hk).1
  obtain ⟨p, hp⟩ : ∃ p, res.R[k]? = some p := ⟨_, List.getElem?_eq_getElem (by rw [h6]; simp; omega)⟩
  obtain ⟨xs, ef, l, s, x1, x2, x3, x4, x5, x6⟩ := h7 k p r hp hk ho
  refine ⟨xs, ef, l, s, x1.length, x2, x3, x4, x5, ?_⟩
  intro v hv
  have hin : ∀ b ∈ bars, b.iA < c.nnodes ∧ b.iE < c.nnodes := by
    intro b hbm
    obtain ⟨j, hj⟩ := List.getElem?_of_mem hbm
    obtain ⟨NA, NE, -, g2, g3⟩ := (h2.bar j b hj).conn
    rw [h2.nnodes]
    exact ⟨(List.getElem?_eq_some_iff.1 g2).1, (List.getElem?_eq_some_iff.1 g3).1⟩
  rw [← internal_work r.a.U v c.nnodes bars xs hin]
  unfold work size
  rw [← Finset.sum_sub_distrib, Finset.mul_sum]
  refine (Finset.abs_sum_le_sum_abs _ _).trans (Finset.sum_le_sum fun i hi => ?_)
  rw [← Finset.sum_sub_distrib, Finset.mul_sum]
  refine (Finset.abs_sum_le_sum_abs _ _).trans (Finset.sum_le_sum fun d _ => ?_)
  rw [← sub_mul, abs_mul]
  have hil : i < c.nodes.labels.length := by rw [← h2.nnodes]; exact Finset.mem_range.1 hi
  have hlab : c.nodes.labels[i]? = some c.nodes.labels[i] := List.getElem?_eq_getElem hil
  by_cases hs : (supportOf u.bounds c.nodes.labels[i])[d.val]? = some 1
  · obtain ⟨k0, f, e1, e2, e3⟩ := x6 i _ hlab d hs
    refine mul_le_mul_of_nonneg_right ?_ (abs_nonneg _)
    have : totalLoad u c.nodes.labels ef.forcesConst l s i d = k0 + l * f := by
      unfold totalLoad
      rw [List.getD_eq_getElem?_getD, e1, List.getD_eq_getElem?_getD (l := c.nodes.labels), hlab,
        List.getD_eq_getElem?_getD]
      simp only [Option.getD_some]
      rw [e2]
      rfl
    rw [this]
    exact e3.le
  · rw [hv i _ d hlab hs]
    simp

/-- **C93** No accepted increment carries more than the plastic limit load: if no bar hardens, then for every virtual
displacement that respects the supports, the work of the loads is at most the work that the yield forces of the bars do on
the elongations of the bars in the recorded configuration, up to the tolerance. -/
theorem C93_limit_load {argsort : List Int → List Nat} (has : IsArgsort argsort) {u : UserInput ℝ}
    {es : List (Elem ℝ)} {env : Env ℝ} {fuel : Nat} {m m1 m2 : Model ℝ} (hu : Entered u m) (he : EnteredElems es m)
    (hw : WellPosed u es) (hbw : ∀ b ∈ u.bounds, b.values.length = 3)
    (hpl : ∀ e ∈ es, e.mtype = 2 ∧ ∃ (pl : Plastic) (rest : List ℝ), pl.Valid ∧ pl.K = 0 ∧ e.mprop.vals = pl.props rest)
    (hb : m.build argsort = .ok m1) (hr : m1.run env fuel = .ok m2) (hn : 0 < m1.settings.nsteps)
    (hfw : 3 * m1.settings.nsteps ≤ loadWidth u.forces) :
    ∃ c bars res r0 outs, m1.ctx = some c ∧ c.Bars bars ∧ Meant u es c.nodes.labels bars ∧ m2.results = some res ∧
      RunCalls env fuel m1 c outs ∧ res.R = r0 :: (recorded outs).map (·.a) ∧
      ∀ r ∈ recorded outs, r.out = .accepted → ∃ ef l s,
        r.a.lpf = some l ∧ r.a.extForces = some ef ∧ r.a.step = s + 1 ∧
        ∀ v : Nat → V3 ℝ, (∀ (i : Nat) (lab : Int) (d : Fin 3), c.nodes.labels[i]? = some lab →
            (supportOf u.bounds lab)[d.val]? ≠ some 1 → v i d = 0) →
          |work c.nnodes (totalLoad u c.nodes.labels ef.forcesConst l s) v| ≤
            (bars.map fun b => b.limitForce * |b.elongation r.a.U v|).sum +
              (10 : ℝ) ^ (-m1.settings.ftol) * size c.nnodes v := by
  obtain ⟨c, bars, res, r0, outs, h1, h2, h3, h4, h5, h6, h7⟩ := C93_virtual_work has hu he hw hbw hb hr hn hfw
  refine ⟨c, bars, res, r0, outs, h1, h2, h3, h4, h5, h6, ?_⟩
  intro r hmem ho
  obtain ⟨xs, ef, l, s, x1, x2, x3, x4, x5, x6⟩ := h7 r hmem ho
  refine ⟨ef, l, s, x3, x4, x5, ?_⟩
  intro v hv
  have hx := x6 v hv
  obtain ⟨res', r0', outs', k1, k2, k3, k4⟩ := C92_perfect_plasticity hb hr hn h1 h2
  have hout := k2.unique h5
  subst hout
  have hforce : ∀ (i : Nat) (b : Bar ℝ) (x : BarRes), bars[i]? = some b → xs[i]? = some x → |x.force| ≤ b.limitForce := by
    intro i b x hi hxi
    have hil := (List.getElem?_eq_some_iff.1 hi).1
    have hie : i < es.length := by rw [h3.length_eq]; exact hil
    obtain ⟨nA, -, nE, -, hbar⟩ := h3.get hie hil
    simp only [List.get_eq_getElem] at hbar
    have hbe : bars[i] = b := Option.some.inj ((List.getElem?_eq_getElem hil).symm.trans hi)
    rw [hbe] at hbar
    obtain ⟨hm2, pl, rest, hv, hK, hp⟩ := hpl es[i] (List.getElem_mem hie)
    have hlaw : b.law = .elplast := by
      rcases hbar.law with ⟨h, -⟩ | ⟨-, h⟩
      · rw [hm2] at h; cases h
      · exact h
    have hmat : b.mat = pl.props rest := by rw [hbar.mat, hp]
    obtain ⟨N, A, j1, j2, j3⟩ := k4 i b pl rest hi hlaw hv hmat hK r hmem ho
    rw [x2, List.getElem?_map, hxi] at j1
    have hN : x.force = N := Option.some.inj j1
    rw [hN]
    unfold Bar.limitForce
    rw [hmat, List.getD_eq_getElem?_getD (l := b.geo), j2]
    exact j3
  have hsum : ∀ (bs : List (Bar ℝ)) (ys : List BarRes), bs.length = ys.length →
      (∀ (i : Nat) (b : Bar ℝ) (x : BarRes), bs[i]? = some b → ys[i]? = some x → |x.force| ≤ b.limitForce) →
      |((bs.zip ys).map fun p => p.2.force * p.1.elongation r.a.U v).sum| ≤
        (bs.map fun b => b.limitForce * |b.elongation r.a.U v|).sum := by
    intro bs
    induction bs with
    | nil => intro ys _ _; simp
    | cons b bs ih =>
      intro ys hl hle
      cases ys with
      | nil => cases hl
      | cons y ys =>
        simp only [List.zip_cons_cons, List.map_cons, List.sum_cons]
        refine (abs_add_le _ _).trans (add_le_add ?_ (ih ys (by simpa using hl) fun i b' x hb' hx' =>
          hle (i + 1) b' x (by simpa using hb') (by simpa using hx')))
        rw [abs_mul]
        exact mul_le_mul_of_nonneg_right (hle 0 b y rfl rfl) (abs_nonneg _)
  have h8 := hsum bars xs x1.symm hforce
  have h9 := abs_sub_abs_le_abs_sub (work c.nnodes (totalLoad u c.nodes.labels ef.forcesConst l s) v)
    ((bars.zip xs).map fun p => p.2.force * p.1.elongation r.a.U v).sum
  linarith

/-- The bar of `rbModel` made of a plastic material without hardening, `E = 1`, `Sy = 3/8`. -/
noncomputable def rpElems : List (Elem ℝ) := [⟨1, [1, 2], 1, 2, ⟨false, [1, 0, 3 / 8]⟩, ⟨false, [1]⟩⟩]

/-- The model with this bar. -/
noncomputable def rpModel : Model ℝ where
  nodes := rbModel.nodes
  elems := some ⟨[1], ⟨2, [[1, 2]]⟩, [1], [2], ⟨false, 3, [[1, 0, 3 / 8]]⟩, ⟨false, 1, [[1]]⟩⟩
  bounds := rbModel.bounds
  forces := rbModel.forces
  settings := rbSettings

theorem rpValid : ValidInput rbInput rpElems rpModel.settings.nsteps where
  posed :=
    { nodes := rbValid.posed.nodes
      elems := by simp [rpElems]
      coords := rbValid.posed.coords
      joins := by
        intro e he
        simp only [rpElems, List.mem_singleton] at he
        subst he
        exact ⟨⟨1, [0, 0, 0]⟩, by simp [rbInput], ⟨2, [1, 0, 0]⟩, by simp [rbInput], rfl, by decide⟩
      law := by simp [rpElems] }
  props := by
    intro e he
    simp only [rpElems, List.mem_singleton] at he
    subst he
    exact ⟨by simp, by simp, by simp⟩
  elems := by simp [rpElems]
  supports := rbValid.supports
  supportsOnce := rbValid.supportsOnce
  supportsAt := rbValid.supportsAt
  loads := rbValid.loads
  loadsOnce := rbValid.loadsOnce
  loadsAt := rbValid.loadsAt
  width := rbValid.width
  free := rbValid.free

/-- The hypotheses of C92 and C93 can be met: the plastic bar is built and run. -/
example : ∃ m1 m2 c bars b, ∃ pl : Plastic, rpModel.build refArgsort = .ok m1 ∧ m1.run rbEnv 4 = .ok m2 ∧ 0 < m1.settings.nsteps ∧
    3 * m1.settings.nsteps ≤ loadWidth rbInput.forces ∧ m1.ctx = some c ∧ c.Bars bars ∧ bars[0]? = some b ∧
    b.law = .elplast ∧ pl.Valid ∧ pl.K = 0 ∧ b.mat = pl.props [] := by
  have hE : EnteredElems rpElems rpModel := rfl
  obtain ⟨m1, m2, h1, h2⟩ := C64_valid_model_runs refArgsort_isArgsort signTotal_real (m := rpModel) rbEntered hE rpValid rfl
    rbSane rfl rbReturns (fuel := 4) (by decide)
  obtain ⟨c, bars, k1, k2, k3, k4, k5⟩ := C61_structure_as_entered refArgsort_isArgsort (m := rpModel) rbEntered hE
    rpValid.posed h1
  obtain ⟨s⟩ := build_steps h1
  have hs : m1.settings.nsteps = 1 := congrArg (·.settings.nsteps) s.hm'
  cases k5 with
  | cons h t =>
    obtain ⟨nA, -, nE, -, h⟩ := h
    refine ⟨m1, m2, c, _, _, ⟨1, 0, 3 / 8⟩, h1, h2, by omega, by rw [hs]; decide, k1, k2, rfl, ?_, ⟨by norm_num, le_rfl, by norm_num⟩,
      rfl, h.mat⟩
    rcases h.law with ⟨h, -⟩ | ⟨-, h⟩
    · cases h
    · exact h

/-- With hardening the bar yields, without hardening the increment beyond the limit load 3/8 is not accepted (the state stays,
the results are those of the failed increments): state variables and force of the results. -/
example : showR (fun a => (a.statev, a.elementForce)) (buildRun 1 (exBarModel 2 [1, 1, 3 / 8])) =
      .ok [(some [[0, 0]], [0]), (some [[3 / 8, 0]], [1 / 4]), (some [[1 / 2, 1 / 8]], [1 / 2]),
        (some [[3 / 4, 3 / 8]], [3 / 4])] ∧
    showR (fun a => (a.statev, a.elementForce)) (buildRun 1 (exBarModel 2 [1, 0, 3 / 8])) =
      .ok [(some [[0, 0]], [0]), (some [[3 / 8, 0]], [1 / 4]), (some [[3 / 8, 0]], [3 / 8]),
        (some [[3 / 8, 0]], [3 / 8])] :=
  ⟨by decide +kernel, by decide +kernel⟩

end TrussPy
