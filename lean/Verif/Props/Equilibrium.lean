import Verif.ExamplesAccept
import Verif.Spec.Reaction
import Verif.Props.EndToEnd
/-!
# C62, C63: recorded results are in equilibrium with the loads
-/

set_option linter.unusedSectionVars false

namespace TrussPy

/-! ## C62 -/

section
variable {F : Type} [Zero F] [One F] [Add F] [Sub F] [Mul F] [Div F] [Neg F] [Flt F]

/-- **C62** In every result of a run that belongs to an accepted increment the *recorded* residual forces of the
active degrees of freedom (extended by the control equation) have a norm below the tolerance of the settings.  Every
arithmetic, every linear solver. -/
theorem C62_recorded_residual {argsort : List Int → List Nat} {env : Env F} {fuel : Nat} {m m1 m2 : Model F}
    (hb : m.build argsort = .ok m1) (hr : m1.run env fuel = .ok m2) (hn : 0 < m1.settings.nsteps) {c : Ctx F}
    {bars : List (Bar F)} (hc : m1.ctx = some c) (hB : c.Bars bars) :
    ∃ res r0 outs, m2.results = some res ∧ RunCalls env fuel m1 c outs ∧
      res.R = r0 :: (recorded outs).map (·.a) ∧ ∀ r ∈ recorded outs, r.out = .accepted →
        ∃ gf vj vmax, npTake r.a.g r.a.DOF1 = .ok gf ∧
          Flt.lt (Flt.vnorm ((gf.map fun v => -v) ++ [vj - vmax])) (Flt.pow10neg m1.settings.ftol) = true := by
  obtain ⟨d, hd⟩ : ∃ d, m1.dims = some d := by
    obtain ⟨st⟩ := build_steps hb
    exact ⟨_, congrArg Model.dims st.hm'⟩
  obtain ⟨-, res, r0, outs, h1, h2, h3, h4⟩ := run_accepted hb hr hn hc hB hd
  refine ⟨res, r0, outs, h1, h2, h3, fun r hr => ?_⟩
  obtain ⟨k, hk⟩ := List.getElem?_of_mem hr
  have hkl := (List.getElem?_eq_some_iff.1 hk).1
  exact (h4 k _ r (List.getElem?_eq_getElem (by rw [h3]; simp; omega)) hk).2

end

/-- Results of the bars in a solved increment. -/
theorem Increment.results {d : Dims} {c : Ctx ℝ} {bars : List (Bar ℝ)} (hB : c.Bars bars) {p : Analysis ℝ} {r : Rec ℝ}
    (h : Increment d c p r) (ho : r.out ≠ .predictor) : ∃ xs, Results.Of c bars r.a.U p.statev xs ∧
      r.a.elementForce = xs.map (·.force) ∧ ∀ i, i < c.nnodes → r.a.r[i]? = some (nodeForce bars xs r.a.U i) := by
  obtain ⟨sA, sx, hc, h1, h2, h3⟩ := h.how
  rcases h3 with ⟨h3, -⟩ | ⟨-, ⟨b, b', g, dV, lpf, hb, hev, hl, ha⟩⟩
  · exact absurd h3 ho
  have hI := (h.prev.carry hc).trial hb
  obtain ⟨xs, x1, x2, x3, x4, x5, x6⟩ := C23_internal_forces hB hI.fits hev
  rw [hb.statev, hc.statev] at x1
  rw [ha]
  exact ⟨xs, x1, x4, x6⟩

/-- **C62** Every accepted increment of a run is an equilibrium of the entered structure: at every component of every
node that the user left free, the constant load plus load factor times step load is balanced by the internal forces of
the entered bars, up to the tolerance.  Real arithmetic, every linear solver.  The internal forces are those of the
recorded displacements, with the state variables of the result before. -/
theorem C62_accepted_is_equilibrium {argsort : List Int → List Nat} (has : IsArgsort argsort) {u : UserInput ℝ}
    {es : List (Elem ℝ)} {env : Env ℝ} {fuel : Nat} {m m1 m2 : Model ℝ} (hu : Entered u m) (he : EnteredElems es m)
    (hw : WellPosed u es) (hbw : ∀ b ∈ u.bounds, b.values.length = 3)
    (hb : m.build argsort = .ok m1) (hr : m1.run env fuel = .ok m2) (hn : 0 < m1.settings.nsteps)
    (hfw : 3 * m1.settings.nsteps ≤ loadWidth u.forces) :
    ∃ c bars res r0 outs, m1.ctx = some c ∧ c.Bars bars ∧ Meant u es c.nodes.labels bars ∧ m2.results = some res ∧
      RunCalls env fuel m1 c outs ∧ res.R = r0 :: (recorded outs).map (·.a) ∧
      ∀ (k : Nat) (p : Analysis ℝ) (r : Rec ℝ), res.R[k]? = some p → (recorded outs)[k]? = some r →
        r.out = .accepted → ∃ xs ef l s, Results.Of c bars r.a.U p.statev xs ∧ r.a.elementForce = xs.map (·.force) ∧
          r.a.lpf = some l ∧ r.a.extForces = some ef ∧ r.a.step = s + 1 ∧
          ∀ (i : Nat) (lab : Int), c.nodes.labels[i]? = some lab → ∀ d : Fin 3,
            (supportOf u.bounds lab)[d.val]? = some 1 → ∃ k0 f, ef.forcesConst[3 * i + d.val]? = some k0 ∧
              (loadOf u.forces lab)[3 * s + d.val]? = some f ∧
              |k0 + l * f - nodeForce bars xs r.a.U i d| < (10 : ℝ) ^ (-m1.settings.ftol) := by
  obtain ⟨c, bars, hc, hB, hperm, -, hmeant⟩ := C61_structure_as_entered has hu he hw hb
  have h2n : 2 ≤ u.nodes.length := by
    obtain ⟨st⟩ := build_steps hb
    unfold EnteredElems at he
    rw [st.he] at he
    exact two_nodes he hw
  have hnt : m1.nodes = some c.nodes := ctx_nodes hc
  obtain ⟨nt, dm, d1, d2, d3, d4, -⟩ := C06_degrees_of_freedom_partial has hu hw.nodes h2n hbw hb
  rw [hnt] at d1; cases d1
  obtain ⟨hnd, res, r0, outs, g1, g2, g3, g4⟩ := run_accepted hb hr hn hc hB d2
  refine ⟨c, bars, res, r0, outs, hc, hB, hmeant, g1, g2, g3, ?_⟩
  intro k p r hp hrk hout
  obtain ⟨hinc, hacc⟩ := g4 k p r hp hrk
  obtain ⟨gf, vj, vmax, hgf, hlt⟩ := hacc hout
  obtain ⟨s, ef, s1, s2, s3, s4⟩ := C42_step_loads has hu hw.nodes h2n hb hr hfw hnt g1 k r.a hn (by
    rw [g3, List.getElem?_cons_succ, List.getElem?_map, hrk]; rfl)
  obtain ⟨xs, x1, x2, x3⟩ := hinc.results hB (by rw [hout]; simp)
  obtain ⟨⟨-, -, ef', l, q1, q2, q3, q4⟩, -⟩ := hinc.solved hnd (by rw [hout]; simp)
  rw [s3] at q1; cases q1
  refine ⟨xs, ef, l, s, x1, x2, q2, s3, s1, ?_⟩
  intro i lab hlab d hsup
  have hi : i < c.nnodes := by rw [hB.nnodes]; exact (List.getElem?_eq_some_iff.1 hlab).1
  obtain ⟨k0, f, e1, e2, e3⟩ := q4 i _ (x3 i hi) d
  refine ⟨k0, f, e1, (s4 i lab hlab d d.isLt).symm.trans e2, ?_⟩
  have hmem : 3 * i + d.val ∈ r.a.DOF1 := by
    rw [hinc.next.dof1]
    exact (d4 i lab hlab d d.isLt).1.2 hsup
  obtain ⟨n, hn'⟩ := List.getElem?_of_mem hmem
  have hval := npTake_getElem hgf hn' e3
  have hm : -(nodeForce bars xs r.a.U i d) + k0 + l * f ∈ gf := List.mem_of_getElem? hval
  have h1 : Flt.vnorm ((gf.map fun v => -v) ++ [vj - vmax]) < (10 : ℝ) ^ (-m1.settings.ftol) := of_decide_eq_true hlt
  have h2 := abs_le_vnorm _ _ hm
  rw [← vnorm_neg gf] at h2
  have h3 := vnorm_append_le (gf.map fun v => -v) [vj - vmax]
  rw [show k0 + l * f - nodeForce bars xs r.a.U i d = -(nodeForce bars xs r.a.U i d) + k0 + l * f by ring]
  exact lt_of_le_of_lt (h2.trans h3) h1

/-- The bar of length 1 (see `ExamplesValid`): its only increment is accepted, and the internal force at the free node
balances the load factor times the load 1. -/
example : ∃ m1 m2 c bars res outs r p xs l, rbModel.build refArgsort = .ok m1 ∧ m1.run rbEnv 4 = .ok m2 ∧
    m2.results = some res ∧ RunCalls rbEnv 4 m1 c outs ∧ recorded outs = [r] ∧ r.out = .accepted ∧
    r.x = [1 / 4, 1 / 4] ∧ res.R = [p, r.a] ∧ Results.Of c bars r.a.U p.statev xs ∧ r.a.lpf = some l ∧
    |l - nodeForce bars xs r.a.U 1 0| < (10 : ℝ) ^ (-8 : Int) ∧
    ∃ gf vj vmax, npTake r.a.g r.a.DOF1 = .ok gf ∧
      Flt.lt (Flt.vnorm ((gf.map fun v => -v) ++ [vj - vmax])) (Flt.pow10neg 8 : ℝ) = true := by
  obtain ⟨m1, m2, hb, hr⟩ := rbRuns
  obtain ⟨_, _, _, _, _, _, h1, -, -, -, -, -, -, -, -, -, -, -, n, hs⟩ :=
    rbValid.built refArgsort_isArgsort rbEntered rbEnteredElems rfl
  rw [hb] at h1; cases h1
  obtain ⟨c, bars, res, r0, outs, e1, e2, e3, e4, e5, e6, e7⟩ := C62_accepted_is_equilibrium refArgsort_isArgsort rbEntered
    rbEnteredElems rbValid.posed rbValid.supports hb hr (by rw [hs]; exact Nat.one_pos) (by rw [hs]; exact (le_refl 3))
  obtain ⟨r, k1, k2, k3⟩ := rbAccepted hb e1 e5
  obtain ⟨xs, ef, l, s, q1, -, q3, q4, q5, q6⟩ := e7 0 r0 r (by rw [e6]; rfl) (by rw [k1]; rfl) k2
  have hft : m1.settings.ftol = 8 := by rw [hs]; rfl
  have hl : c.nodes.labels[1]? = some 2 := by rw [rbLabels hb e1]; rfl
  obtain ⟨k0, f, t1, t2, t3⟩ := q6 1 2 hl 0 rfl
  obtain ⟨_, rfl, hzero⟩ := rbLoads hb hr e4 (by rw [e6, k1]) q4 q5
  rw [hzero 3 k0 t1] at t3
  cases t2
  rw [hft, zero_add, mul_one] at t3
  obtain ⟨res', r0', outs', z1, z2, z3, z4⟩ := C62_recorded_residual hb hr (by rw [hs]; exact Nat.one_pos) e1 e2
  obtain ⟨r', k1', k2', k3'⟩ := rbAccepted hb e1 z2
  rw [e4] at z1; cases z1
  have hsame : r'.a = r.a := by
    have := e6.symm.trans z3
    rw [k1, k1'] at this
    simp only [List.map_cons, List.map_nil, List.cons.injEq, and_true] at this
    exact this.2.symm
  obtain ⟨gf, vj, vmax, y1, y2⟩ := z4 r' (by rw [k1']; simp) k2'
  rw [hsame, hft] at *
  exact ⟨m1, m2, c, bars, res, outs, r, r0, xs, l, hb, hr, e4, e5, k1, k2, k3, by rw [e6, k1]; rfl, q1, q3, t3, gf, vj, vmax,
    y1, y2⟩

/-! ## C63 -/

open Finset in
theorem Increment.balance {d : Dims} {c : Ctx ℝ} {bars : List (Bar ℝ)} (hB : c.Bars bars) {p : Analysis ℝ} {r : Rec ℝ}
    (h : Increment d c p r) (hd : d.dof1.length = c.ndof1) (ho : r.out ≠ .predictor) :
    ∃ ef l, r.a.extForces = some ef ∧ r.a.lpf = some l ∧
      (∀ i, i < c.nnodes → ∀ e : Fin 3, loadAt ef l i e - row3 r.a.g i e = r.a.r.getD i 0 e) ∧
      (∀ e, ∑ i ∈ range c.nnodes, r.a.r.getD i 0 e = 0) ∧
      ∀ X : Nat → V3 ℝ, (∀ i, i < c.nnodes → CoordRow c i (X i)) →
        ∀ e, ∑ i ∈ range c.nnodes, cross (fun e => X i e + row3 r.a.U i e) (r.a.r.getD i 0) e = 0 := by
  obtain ⟨⟨-, -, ef, l, q1, q2, q3, q4⟩, -⟩ := h.solved hd ho
  refine ⟨ef, l, q1, q2, ?_, ?_⟩
  · intro i hi e
    have hr : r.a.r[i]? = some (r.a.r.getD i 0) := by
      rw [List.getD_eq_getElem?_getD, List.getElem?_eq_getElem (by rw [h.next.fits.r]; exact hi)]; rfl
    obtain ⟨k0, f, e1, e2, e3⟩ := q4 i _ hr e
    unfold loadAt row3
    simp only [Pi.add_apply, Pi.smul_apply, smul_eq_mul, List.getD_eq_getElem?_getD, e1, e2, e3, Option.getD_some]
    ring
  · obtain ⟨sA, sx, hc, h1, h2, h3⟩ := h.how
    rcases h3 with ⟨h3, -⟩ | ⟨-, ⟨b, b', g, dV, lpf, hb, hev, hl, ha⟩⟩
    · exact absurd h3 ho
    have := C22_self_equilibrated hB ((h.prev.carry hc).trial hb).fits hev
    rw [ha]
    exact this

open Finset in
/-- **C63** The recorded residual forces balance the loads: in every result of a run except those left by a predictor,
converged or not, the residual forces of all nodes together have the same resultant and the same moment (about the
origin, at the recorded deformed positions) as the loads.  Real arithmetic, every linear solver. -/
theorem C63_residual_balances_loads {argsort : List Int → List Nat} {env : Env ℝ} {fuel : Nat} {m m1 m2 : Model ℝ}
    (hb : m.build argsort = .ok m1) (hr : m1.run env fuel = .ok m2) (hn : 0 < m1.settings.nsteps) {c : Ctx ℝ}
    {bars : List (Bar ℝ)} (hc : m1.ctx = some c) (hB : c.Bars bars) :
    ∃ res r0 outs, m2.results = some res ∧ RunCalls env fuel m1 c outs ∧
      res.R = r0 :: (recorded outs).map (·.a) ∧ ∀ r ∈ recorded outs, r.out ≠ .predictor →
        ∃ ef l, r.a.extForces = some ef ∧ r.a.lpf = some l ∧
          (∀ e, ∑ i ∈ range c.nnodes, row3 r.a.g i e = ∑ i ∈ range c.nnodes, loadAt ef l i e) ∧
          ∀ X : Nat → V3 ℝ, (∀ i, i < c.nnodes → CoordRow c i (X i)) →
            ∀ e, ∑ i ∈ range c.nnodes, cross (fun e => X i e + row3 r.a.U i e) (row3 r.a.g i) e =
              ∑ i ∈ range c.nnodes, cross (fun e => X i e + row3 r.a.U i e) (loadAt ef l i) e := by
  obtain ⟨d, hd⟩ : ∃ d, m1.dims = some d := by
    obtain ⟨st⟩ := build_steps hb
    exact ⟨_, congrArg Model.dims st.hm'⟩
  obtain ⟨hnd, res, r0, outs, h1, h2, h3, h4⟩ := run_accepted hb hr hn hc hB hd
  refine ⟨res, r0, outs, h1, h2, h3, fun r hr ho => ?_⟩
  obtain ⟨k, hk⟩ := List.getElem?_of_mem hr
  have hkl := (List.getElem?_eq_some_iff.1 hk).1
  obtain ⟨ef, l, b1, b2, b3, b4, b5⟩ :=
    (h4 k _ r (List.getElem?_eq_getElem (by rw [h3]; simp; omega)) hk).1.balance hB hnd ho
  refine ⟨ef, l, b1, b2, ?_, ?_⟩
  · intro e
    have := b4 e
    rw [← Finset.sum_congr rfl fun i hi => b3 i (Finset.mem_range.1 hi) e, Finset.sum_sub_distrib] at this
    linarith
  · intro X hX e
    have := b5 X hX e
    have hsub : ∀ i ∈ range c.nnodes, cross (fun e => X i e + row3 r.a.U i e) (r.a.r.getD i 0) e =
        cross (fun e => X i e + row3 r.a.U i e) (loadAt ef l i) e -
          cross (fun e => X i e + row3 r.a.U i e) (row3 r.a.g i) e := by
      intro i hi
      have h0 := b3 i (Finset.mem_range.1 hi) 0
      have h1 := b3 i (Finset.mem_range.1 hi) 1
      have h2 := b3 i (Finset.mem_range.1 hi) 2
      unfold cross
      rw [← h0, ← h1, ← h2]
      split
      · ring
      · split <;> ring
    rw [Finset.sum_congr rfl hsub, Finset.sum_sub_distrib] at this
    linarith

open Finset in
/-- **C63** Support reactions balance the loads: in every result of an accepted increment the reactions of all supports
and the loads on all nodes add up to zero in every direction, up to the tolerance for each active component in that
direction. -/
theorem C63_reactions_balance_loads {argsort : List Int → List Nat} {env : Env ℝ} {fuel : Nat} {m m1 m2 : Model ℝ}
    (hb : m.build argsort = .ok m1) (hr : m1.run env fuel = .ok m2) (hn : 0 < m1.settings.nsteps) {c : Ctx ℝ}
    {bars : List (Bar ℝ)} (hc : m1.ctx = some c) (hB : c.Bars bars) {d : Dims} (hd : m1.dims = some d) :
    ∃ res r0 outs, m2.results = some res ∧ RunCalls env fuel m1 c outs ∧
      res.R = r0 :: (recorded outs).map (·.a) ∧ ∀ r ∈ recorded outs, r.out = .accepted →
        ∃ ef l, r.a.extForces = some ef ∧ r.a.lpf = some l ∧
          ∀ e : Fin 3, |∑ i ∈ range c.nnodes, reaction d.dof1 r.a.g i e + ∑ i ∈ range c.nnodes, loadAt ef l i e| ≤
            ((range c.nnodes).filter fun i => 3 * i + e.val ∈ d.dof1).card * (10 : ℝ) ^ (-m1.settings.ftol) := by
  obtain ⟨hnd, res, r0, outs, h1, h2, h3, h4⟩ := run_accepted hb hr hn hc hB hd
  refine ⟨res, r0, outs, h1, h2, h3, fun r hr ho => ?_⟩
  obtain ⟨k, hk⟩ := List.getElem?_of_mem hr
  have hkl := (List.getElem?_eq_some_iff.1 hk).1
  obtain ⟨hinc, hacc⟩ := h4 k _ r (List.getElem?_eq_getElem (by rw [h3]; simp; omega)) hk
  obtain ⟨gf, vj, vmax, hgf, hlt⟩ := hacc ho
  obtain ⟨ef, l, b1, b2, b3, b4, -⟩ := hinc.balance hB hnd (by rw [ho]; simp)
  refine ⟨ef, l, b1, b2, fun e => ?_⟩
  have hbal := b4 e
  rw [← Finset.sum_congr rfl fun i hi => b3 i (Finset.mem_range.1 hi) e, Finset.sum_sub_distrib, sub_eq_zero] at hbal
  rw [hbal, ← Finset.sum_add_distrib]
  have hterm : ∀ i ∈ range c.nnodes, reaction d.dof1 r.a.g i e + row3 r.a.g i e =
      if 3 * i + e.val ∈ d.dof1 then row3 r.a.g i e else 0 := by
    intro i _
    unfold reaction
    split
    · exact zero_add _
    · exact neg_add_cancel _
  rw [Finset.sum_congr rfl hterm, ← Finset.sum_filter]
  refine (Finset.abs_sum_le_sum_abs _ _).trans ?_
  rw [← nsmul_eq_mul]
  refine Finset.sum_le_card_nsmul _ _ _ fun i hi => ?_
  have hmem : 3 * i + e.val ∈ r.a.DOF1 := by
    rw [hinc.next.dof1]
    exact (Finset.mem_filter.1 hi).2
  obtain ⟨n, hn'⟩ := List.getElem?_of_mem hmem
  have hin : i < c.nnodes := Finset.mem_range.1 (Finset.mem_filter.1 hi).1
  have hgl : 3 * i + e.val < r.a.g.length := npTake_ok_lt hgf _ hmem
  have e3 : r.a.g[3 * i + e.val]? = some (row3 r.a.g i e) := by
    unfold row3
    rw [List.getD_eq_getElem?_getD, List.getElem?_eq_getElem hgl]; rfl
  have hm : row3 r.a.g i e ∈ gf := List.mem_of_getElem? (npTake_getElem hgf hn' e3)
  have h1 : Flt.vnorm ((gf.map fun v => -v) ++ [vj - vmax]) < (10 : ℝ) ^ (-m1.settings.ftol) := of_decide_eq_true hlt
  have h2 := abs_le_vnorm _ _ hm
  rw [← vnorm_neg gf] at h2
  exact ((h2.trans (vnorm_append_le _ [vj - vmax])).trans_lt h1).le

open Finset in
/-- The bar of length 1: its only increment is accepted; the support forces of both nodes and the loads add up to zero up
to the tolerance of the only active component. -/
example : ∃ m1 m2 c d outs r ef l, rbModel.build refArgsort = .ok m1 ∧ m1.run rbEnv 4 = .ok m2 ∧
    RunCalls rbEnv 4 m1 c outs ∧ recorded outs = [r] ∧ r.out = .accepted ∧ r.x = [1 / 4, 1 / 4] ∧
    m1.dims = some d ∧ r.a.extForces = some ef ∧ r.a.lpf = some l ∧ c.nnodes = 2 ∧
    |∑ i ∈ range 2, reaction d.dof1 r.a.g i 0 + ∑ i ∈ range 2, loadAt ef l i 0| ≤
      ((range 2).filter fun i => 3 * i + 0 ∈ d.dof1).card * (10 : ℝ) ^ (-8 : Int) ∧
    (∑ i ∈ range 2, row3 r.a.g i 0 = ∑ i ∈ range 2, loadAt ef l i 0) := by
  obtain ⟨m1, m2, hb, hr⟩ := rbRuns
  obtain ⟨_, _, _, _, _, _, h1, -, -, -, -, -, -, -, -, -, -, -, n, hs⟩ :=
    rbValid.built refArgsort_isArgsort rbEntered rbEnteredElems rfl
  rw [hb] at h1; cases h1
  obtain ⟨c, bars, hc, hB, -⟩ :=
    C61_structure_as_entered refArgsort_isArgsort rbEntered rbEnteredElems rbValid.posed hb
  obtain ⟨d, hd⟩ : ∃ d, m1.dims = some d := by
    obtain ⟨st⟩ := build_steps hb
    exact ⟨_, congrArg Model.dims st.hm'⟩
  have hn : 0 < m1.settings.nsteps := by rw [hs]; exact Nat.one_pos
  have hft : m1.settings.ftol = 8 := by rw [hs]; rfl
  have hnn : c.nnodes = 2 := by rw [hB.nnodes, rbLabels hb hc]; rfl
  obtain ⟨res, r0, outs, e1, e2, e3, e4⟩ := C63_reactions_balance_loads hb hr hn hc hB hd
  obtain ⟨r, k1, k2, k3⟩ := rbAccepted hb hc e2
  obtain ⟨ef, l, b1, b2, b3⟩ := e4 r (by rw [k1]; simp) k2
  obtain ⟨res', r0', outs', z1, z2, z3, z4⟩ := C63_residual_balances_loads hb hr hn hc hB
  obtain ⟨r', k1', k2', -⟩ := rbAccepted hb hc z2
  rw [e1] at z1; cases z1
  have hsame : r'.a = r.a := by
    have := e3.symm.trans z3
    rw [k1, k1'] at this
    simp only [List.map_cons, List.map_nil, List.cons.injEq, and_true] at this
    exact this.2.symm
  obtain ⟨ef', l', y1, y2, y3, -⟩ := z4 r' (by rw [k1']; simp) (by rw [k2']; simp)
  rw [hsame] at y1 y2 y3
  rw [b1] at y1; cases y1
  rw [b2] at y2; cases y2
  have hb3 := b3 0
  have hy3 := y3 0
  rw [hnn, hft] at hb3
  rw [hnn] at hy3
  exact ⟨m1, m2, c, d, outs, r, ef, l, hb, hr, e2, k1, k2, k3, hd, b1, b2, hnn, hb3, hy3⟩

end TrussPy
