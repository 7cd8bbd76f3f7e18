import Verif.Lemmas.Balance
import Verif.Props.Limit
import Verif.Lemmas.Rigid
import Verif.ExamplesRigid
import Verif.ExamplesAccept
/-!
# C119: energy balance of a run

Work of the loads along the recorded results (trapezoidal rule) against the energy stored in the bars and the work of plastic
flow.  Exact real arithmetic.
-/

set_option linter.unusedSectionVars false

namespace TrussPy

open Spec

/-- The state of a bar in an accepted result or in the undeformed state. -/
structure BarState (c : Ctx ℝ) (b : Bar ℝ) (i : Nat) (a : Analysis ℝ) : Prop where
  force : barForce a i = b.E * b.area * (b.stretch a.U - 1 - b.plasticStrain c i a)
  yield : ∀ (pl : Plastic) (rest : List ℝ), b.law = .elplast → pl.Valid → b.mat = pl.props rest → ∃ y p,
    IsState c i a y p ∧ |barForce a i| ≤ meantY pl y * |b.area|

theorem IsState.plasticStrain {c : Ctx ℝ} {b : Bar ℝ} {i : Nat} {a : Analysis ℝ} {y p : ℝ} (h : IsState c i a y p)
    (hl : b.law = .elplast) : b.plasticStrain c i a = p := by
  unfold IsState at h
  unfold Bar.plasticStrain
  rw [hl, h]
  rfl

/-- What the theorems below need of a run. -/
theorem run_balance {argsort : List Int → List Nat} (has : IsArgsort argsort) {u : UserInput ℝ}
    {es : List (Elem ℝ)} {env : Env ℝ} {fuel : Nat} {m m1 m2 : Model ℝ} (hu : Entered u m) (he : EnteredElems es m)
    (hw : WellPosed u es) (hbw : ∀ b ∈ u.bounds, b.values.length = 3) (hst : StiffElems u es)
    (hb : m.build argsort = .ok m1) (hr : m1.run env fuel = .ok m2) (hn : 0 < m1.settings.nsteps)
    (hfw : 3 * m1.settings.nsteps ≤ loadWidth u.forces) :
    ∃ c bars res r0 outs, m1.ctx = some c ∧ c.Bars bars ∧ Meant u es c.nodes.labels bars ∧ m2.results = some res ∧
      RunCalls env fuel m1 c outs ∧ res.R = r0 :: (recorded outs).map (·.a) ∧ (∀ b ∈ bars, b.Stiff) ∧
      (∀ p, r0.U.getD p 0 = 0) ∧
      (∀ a ∈ res.R, ∀ a' ∈ res.R, ∀ (i : Nat) (lab : Int) (d : Fin 3), c.nodes.labels[i]? = some lab →
            (supportOf u.bounds lab)[d.val]? ≠ some 1 → moved a a' i d = 0) ∧
      storedEnergy c bars r0 = 0 ∧
      (∀ k r, (recorded outs)[k]? = some r → r.out = .accepted → ∃ P, ActingLoads u c.nodes.labels (recorded outs) (k + 1) P) ∧
      (∀ (k : Nat) (a : Analysis ℝ) (P : Nat → V3 ℝ), res.R[k]? = some a → ActingLoads u c.nodes.labels (recorded outs) k P →
        (∀ i : Fin bars.length, BarState c bars[i] i a) ∧
        ∀ v : Nat → V3 ℝ, (∀ (i : Nat) (lab : Int) (d : Fin 3), c.nodes.labels[i]? = some lab →
            (supportOf u.bounds lab)[d.val]? ≠ some 1 → v i d = 0) →
          |work c.nnodes P v - ∑ i : Fin bars.length, barForce a i * bars[i].elongation a.U v| ≤
            (10 : ℝ) ^ (-m1.settings.ftol) * size c.nnodes v) ∧
      (∀ (k : Nat) (a : Analysis ℝ) (r : Rec ℝ), res.R[k]? = some a → (recorded outs)[k]? = some r → r.out = .accepted →
        ∀ (i : Fin bars.length) (pl : Plastic) (rest : List ℝ), bars[i].law = .elplast → pl.Valid → bars[i].mat = pl.props rest →
          ∀ y p, IsState c i a y p → ∃ y' p' s, IsState c i r.a y' p' ∧ barForce r.a i = s * bars[i].area ∧
            PlasticIncrement pl (bars[i].stretch r.a.U - 1) y p y' p' s) := by
  obtain ⟨c, bars, res, r0, outs, h1, h2, h3, h4, h5, h6, h7⟩ := C93_virtual_work has hu he hw hbw hb hr hn hfw
  have hstiff := meant_stiff h3 hst
  obtain ⟨c', d, r0', outs', k1, k2, k3, k4, k5, k6, k7, k8, k9, k10, res', k11, k12⟩ := run_summary hb hr
  rw [h1] at k1; cases k1
  rw [h4] at k11; cases k11
  cases h5.unique k9
  rcases k12 with ⟨e, -⟩ | ⟨-, e⟩
  · omega
  rw [h6] at e; cases e
  obtain ⟨res', r0', outs', q1, q2, q3, q4⟩ := C92_plastic_bars hb hr hn h1 h2
  rw [h4] at q1; cases q1
  cases h5.unique q2
  rw [h6] at q3; cases q3
  have hplm : ∀ i : Fin bars.length, bars[i].law = .elplast → ∃ (pl : Plastic) (rest : List ℝ), pl.Valid ∧
      bars[i].mat = pl.props rest := fun i hl => (hstiff _ (List.getElem_mem _)).plastic hl
  have hU0 : ∀ p, r0.U.getD p 0 = 0 := by
    intro p
    rw [k6.U, List.getD_eq_getElem?_getD, List.getElem?_replicate]
    split <;> rfl
  have hf0 : ∀ i, barForce r0 i = 0 := by
    intro i
    unfold barForce
    rw [k6.force, List.getD_eq_getElem?_getD, List.getElem?_replicate]
    split <;> rfl
  have hps0 : ∀ i : Fin bars.length, bars[i].plasticStrain c i r0 = 0 := by
    intro i
    cases hl : bars[i].law with
    | el => unfold Bar.plasticStrain; rw [hl]
    | elplast =>
      obtain ⟨pl, rest, hv, hm⟩ := hplm i hl
      exact IsState.plasticStrain (q4 i _ pl rest (List.getElem?_eq_getElem i.isLt) hl hv hm).1 hl
  have hst0 : ∀ i : Fin bars.length, bars[i].stretch r0.U = 1 := fun i =>
    stretch_zero (hstiff _ (List.getElem_mem _)).length hU0
  have hplast : ∀ (k : Nat) (a : Analysis ℝ) (r : Rec ℝ), res.R[k]? = some a → (recorded outs)[k]? = some r → r.out = .accepted →
        ∀ (i : Fin bars.length) (pl : Plastic) (rest : List ℝ), bars[i].law = .elplast → pl.Valid → bars[i].mat = pl.props rest →
          ∀ y p, IsState c i a y p → ∃ y' p' s, IsState c i r.a y' p' ∧ barForce r.a i = s * bars[i].area ∧ pl.Sy ≤ y' ∧
            PlasticIncrement pl (bars[i].stretch r.a.U - 1) y p y' p' s := by
    intro k a r ha hk ho i pl rest hl hv hm y p hs
    obtain ⟨-, -, w⟩ := q4 i _ pl rest (List.getElem?_eq_getElem i.isLt) hl hv hm
    obtain ⟨y', p', s, A, w1, w2, w3, w4, w5⟩ := (w k a r ha hk y p hs).2 ho
    refine ⟨y', p', s, w1, ?_, w4, w5⟩
    unfold barForce Bar.area
    rw [List.getD_eq_getElem?_getD, w3, List.getD_eq_getElem?_getD]
    have w2' : bars[i].geo[0]? = some A := w2
    rw [w2']
    rfl
  refine ⟨c, bars, res, r0, outs, h1, h2, h3, h4, h5, h6, hstiff, hU0, ?_, ?_, ?_, ?_, ?_⟩
  · -- supports
    intro a ha a' ha' i lab d' hlab hsup
    have h2n : 2 ≤ u.nodes.length := by
      obtain ⟨st⟩ := build_steps hb
      unfold EnteredElems at he
      rw [st.he] at he
      exact two_nodes he hw
    have hz := C30_supported_components has hu hw.nodes h2n hbw hb hr (ctx_nodes h1) h4 hlab d'.isLt hsup
    have z := hz a ha
    have z' := hz a' ha'
    unfold moved row3
    rw [List.getD_eq_getElem?_getD, List.getD_eq_getElem?_getD, z, z']
    simp
  · unfold storedEnergy
    refine Finset.sum_eq_zero fun i _ => ?_
    rw [hst0, hps0]
    simp
  · intro k r hk ho
    obtain ⟨xs, ef, l, s, x1, x2, x3, x4, x5, -⟩ := h7 r (List.mem_of_getElem? hk) ho
    exact ⟨_, r, ef, l, s, hk, ho, x4, x3, x5, rfl⟩
  · intro k a P ha hP
    cases k with
    | zero =>
      rw [h6] at ha
      cases ha
      cases hP
      refine ⟨fun i => ⟨?_, ?_⟩, ?_⟩
      · rw [hf0, hst0, hps0]; simp
      · intro pl rest hl hv hm
        refine ⟨0, 0, (q4 i _ pl rest (List.getElem?_eq_getElem i.isLt) hl hv hm).1, ?_⟩
        rw [hf0, abs_zero]
        exact mul_nonneg (by unfold meantY; rw [if_pos rfl]; exact hv.Sy.le) (abs_nonneg _)
      · intro v _
        have : work c.nnodes (fun _ _ => 0) v = 0 := by simp [work]
        rw [this]
        simp only [hf0, zero_mul, Finset.sum_const_zero, sub_zero, abs_zero]
        refine mul_nonneg (by positivity) (Finset.sum_nonneg fun i _ => Finset.sum_nonneg fun d _ => abs_nonneg _)
    | succ k =>
      obtain ⟨r, ef, l, s, hk, ho, p1, p2, p3, rfl⟩ := hP
      have hkl := (List.getElem?_eq_some_iff.1 hk).1
      obtain ⟨p, hp⟩ : ∃ p, res.R[k]? = some p := ⟨_, List.getElem?_eq_getElem (by rw [h6]; simp; omega)⟩
      have har : a = r.a := by
        rw [h6, List.getElem?_cons_succ, List.getElem?_map, hk] at ha
        exact (Option.some.inj ha).symm
      subst har
      obtain ⟨xs, ef', l', s', x1, x2, x3, x4, x5, x6⟩ := h7 r (List.mem_of_getElem? hk) ho
      rw [p1] at x4; cases x4
      rw [p2] at x3; cases x3
      rw [p3] at x5
      have hs' : s = s' := by omega
      subst hs'
      refine ⟨fun i => ⟨?_, ?_⟩, ?_⟩
      · cases hl : bars[i].law with
        | el =>
          have hp' := hp
          rw [h6] at hp'
          obtain ⟨ys, y1, y2, -⟩ := (k8 k p r hp' hk).results h2 (by rw [ho]; simp)
          have hiy : i.val < ys.length := by rw [y1.length]; exact i.isLt
          obtain ⟨r1, ⟨de, out, r2, r3, -⟩, r4, r5⟩ := y1.result i bars[i] ys[i.val] (List.getElem?_eq_getElem i.isLt)
            (List.getElem?_eq_getElem hiy)
          obtain ⟨E, rest, hE, -⟩ := (hstiff bars[i] (List.getElem_mem _)).elastic hl
          have hps : bars[i].plasticStrain c i r.a = 0 := by unfold Bar.plasticStrain; rw [hl]
          have hbf : barForce r.a i = ys[i.val].force := by
            unfold barForce
            rw [y2, List.getD_eq_getElem?_getD, List.getElem?_map, List.getElem?_eq_getElem hiy]
            rfl
          rw [hl, hE] at r2
          have : (Except.ok ⟨E * (ys[i.val].stretch - 1), E, 0, stateRow c p.statev i⟩ : Py (UmatOut ℝ)) = .ok out := r2
          cases this
          rw [hps, hbf, r5, r3]
          simp only [r1]
          have hA : bars[i].area = ys[i.val].area := by
            unfold Bar.area
            rw [List.getD_eq_getElem?_getD, r4]
            rfl
          have hEE : bars[i].E = E := by unfold Bar.E; rw [hE]; rfl
          rw [hA, hEE]
          ring
        | elplast =>
          obtain ⟨pl, rest, hv, hm⟩ := hplm i hl
          obtain ⟨y, q, hsq, -⟩ := (q4 i _ pl rest (List.getElem?_eq_getElem i.isLt) hl hv hm).2.1 p (List.mem_of_getElem? hp)
          obtain ⟨y', p', s', w1, w2, w3, w4⟩ := hplast k p r hp hk ho i pl rest hl hv hm y q hsq
          have hEE : bars[i].E = pl.E := by unfold Bar.E; rw [hm]; rfl
          rw [w2, IsState.plasticStrain w1 hl, w4.elastic, hEE]
          ring
      · intro pl rest hl hv hm
        obtain ⟨y, q, hsq, -⟩ := (q4 i _ pl rest (List.getElem?_eq_getElem i.isLt) hl hv hm).2.1 p (List.mem_of_getElem? hp)
        obtain ⟨y', p', s', w1, w2, w3, w4⟩ := hplast k p r hp hk ho i pl rest hl hv hm y q hsq
        refine ⟨y', p', w1, ?_⟩
        rw [w2, abs_mul]
        refine mul_le_mul_of_nonneg_right ?_ (abs_nonneg _)
        have := hv.Sy
        unfold meantY
        rw [if_neg (by linarith)]
        exact w4.yield
      · intro v hv
        rw [← sum_zip r.a.U v x1 x2]
        exact x6 v hv
  · intro k a r ha hk ho i pl rest hl hv hm y p hs
    obtain ⟨y', p', s, w1, w2, -, w4⟩ := hplast k a r ha hk ho i pl rest hl hv hm y p hs
    exact ⟨y', p', s, w1, w2, w4⟩

/-- Plastic flow takes energy out. -/
theorem plastic_term {pl : Plastic} (hv : pl.Valid) {strain y p y' p' s N A : ℝ} (hA : 0 ≤ A)
    (h : PlasticIncrement pl strain y p y' p' s) (hN : |N| ≤ meantY pl y * |A|) : 0 ≤ (N + s * A) / 2 * (p' - p) := by
  have h1 : -(|N| * |p' - p|) ≤ N * (p' - p) := by
    have := neg_abs_le (N * (p' - p))
    rwa [abs_mul] at this
  have h2 : s * A * (p' - p) = y' * |p' - p| * A := by rw [← h.dissipation]; ring
  have h3 : |N| * |p' - p| ≤ y' * |p' - p| * A := by
    have hy : meantY pl y ≤ y' := by
      rw [h.hardening]
      unfold meantY
      have := mul_nonneg hv.K (abs_nonneg (p' - p))
      linarith
    rw [abs_of_nonneg hA] at hN
    have := mul_le_mul_of_nonneg_right (hN.trans (mul_le_mul_of_nonneg_right hy hA)) (abs_nonneg (p' - p))
    nlinarith
  nlinarith

theorem stiff_EA {b : Bar ℝ} (hb : b.Stiff) : 0 ≤ b.E * b.area := by
  obtain ⟨A, rest', hg, hA⟩ := hb.area
  unfold Bar.E Bar.area
  rw [hg]
  cases hl : b.law with
  | el =>
    obtain ⟨E, rest, hE, hE0⟩ := hb.elastic hl
    rw [hE]
    exact mul_nonneg hE0.le hA.le
  | elplast =>
    obtain ⟨pl, rest, hv, hE⟩ := hb.plastic hl
    rw [hE]
    exact mul_nonneg hv.E.le hA.le

/-- **C119** Energy balance of an increment.  From one accepted result (or the undeformed state) to the next accepted one, the
work of the mean loads on the displacements is the change of the elastic energy stored in the entered bars plus the work of plastic
flow, which is never negative, up to the error of the trapezoidal rule for bars that turn and the tolerance of the
solver. -/
theorem C119_energy_balance {argsort : List Int → List Nat} (has : IsArgsort argsort) {u : UserInput ℝ}
    {es : List (Elem ℝ)} {env : Env ℝ} {fuel : Nat} {m m1 m2 : Model ℝ} (hu : Entered u m) (he : EnteredElems es m)
    (hw : WellPosed u es) (hbw : ∀ b ∈ u.bounds, b.values.length = 3) (hst : StiffElems u es)
    (hb : m.build argsort = .ok m1) (hr : m1.run env fuel = .ok m2) (hn : 0 < m1.settings.nsteps)
    (hfw : 3 * m1.settings.nsteps ≤ loadWidth u.forces) :
    ∃ c bars res r0 outs, m1.ctx = some c ∧ c.Bars bars ∧ Meant u es c.nodes.labels bars ∧ m2.results = some res ∧
      RunCalls env fuel m1 c outs ∧ res.R = r0 :: (recorded outs).map (·.a) ∧
      (∀ k r, (recorded outs)[k]? = some r → r.out = .accepted → ∃ P, ActingLoads u c.nodes.labels (recorded outs) (k + 1) P) ∧
      storedEnergy c bars r0 = 0 ∧ Spread bars r0 ∧
      ∀ (k : Nat) (a a' : Analysis ℝ) (P P' : Nat → V3 ℝ), res.R[k]? = some a → res.R[k + 1]? = some a' →
        ActingLoads u c.nodes.labels (recorded outs) k P → ActingLoads u c.nodes.labels (recorded outs) (k + 1) P' →
        0 ≤ plasticWork c bars a a' ∧
        (Spread bars a → Spread bars a' →
          |work c.nnodes (fun i d => (P i d + P' i d) / 2) (moved a a') -
              (storedEnergy c bars a' - storedEnergy c bars a + plasticWork c bars a a')| ≤
            turnError bars a a' + (10 : ℝ) ^ (-m1.settings.ftol) * size c.nnodes (moved a a')) := by
  obtain ⟨c, bars, res, r0, outs, h1, h2, h3, h4, h5, h6, h7, h8, h9, h10, h11, h12, h13⟩ :=
    run_balance has hu he hw hbw hst hb hr hn hfw
  refine ⟨c, bars, res, r0, outs, h1, h2, h3, h4, h5, h6, h11, h10, ?_, ?_⟩
  · intro b hb'
    rw [axis_zero b h8]
    exact (h7 b hb').length
  intro k a a' P P' ha ha' hP hP'
  obtain ⟨s1, w1⟩ := h12 k a P ha hP
  obtain ⟨s2, w2⟩ := h12 (k + 1) a' P' ha' hP'
  refine ⟨?_, fun hs hs' => ?_⟩
  · obtain ⟨r, -, -, -, hk, ho, -⟩ := hP'
    have har : a' = r.a := by
      rw [h6, List.getElem?_cons_succ, List.getElem?_map, hk] at ha'
      exact (Option.some.inj ha').symm
    subst har
    refine Finset.sum_nonneg fun i _ => ?_
    have hbs := h7 bars[i] (List.getElem_mem _)
    cases hl : bars[i].law with
    | el =>
      have e0 : ∀ x : Analysis ℝ, bars[i].plasticStrain c i x = 0 := fun x => by unfold Bar.plasticStrain; rw [hl]
      rw [e0, e0, sub_zero, mul_zero, mul_zero]
    | elplast =>
      obtain ⟨pl, rest, hv, hm⟩ := hbs.plastic hl
      obtain ⟨y, p, e1, e2⟩ := (s1 i).yield pl rest hl hv hm
      obtain ⟨y', p', s, e3, e4, e5⟩ := h13 k a r ha hk ho i pl rest hl hv hm y p e1
      rw [e3.plasticStrain hl, e1.plasticStrain hl, e4]
      have hA : 0 ≤ bars[i].area := by
        obtain ⟨A, rest', hg, hA⟩ := hbs.area
        unfold Bar.area
        rw [hg]
        exact hA.le
      have := mul_nonneg (len_nonneg bars[i].ref) (plastic_term hv hA e5 e2)
      refine this.trans_eq ?_
      ring
  · have hv := h9 a (List.mem_of_getElem? ha) a' (List.mem_of_getElem? ha')
    rw [← work_split (fun b hb' => (h7 b hb').length) (fun i => (s1 i).force) (fun i => (s2 i).force)]
    exact trapezoid hs hs' (w1 _ hv) (w2 _ hv)

/-- **C119** The error of an increment of an elastic structure is of third order: for every bar the square of what it turns,
times its change of length. -/
theorem C119_error_elastic {argsort : List Int → List Nat} (has : IsArgsort argsort) {u : UserInput ℝ}
    {es : List (Elem ℝ)} {env : Env ℝ} {fuel : Nat} {m m1 m2 : Model ℝ} (hu : Entered u m) (he : EnteredElems es m)
    (hw : WellPosed u es) (hbw : ∀ b ∈ u.bounds, b.values.length = 3) (hst : StiffElems u es)
    (hel : ∀ e ∈ es, e.mtype = 1)
    (hb : m.build argsort = .ok m1) (hr : m1.run env fuel = .ok m2) (hn : 0 < m1.settings.nsteps)
    (hfw : 3 * m1.settings.nsteps ≤ loadWidth u.forces) :
    ∃ c bars res r0 outs, m1.ctx = some c ∧ c.Bars bars ∧ Meant u es c.nodes.labels bars ∧ m2.results = some res ∧
      RunCalls env fuel m1 c outs ∧ res.R = r0 :: (recorded outs).map (·.a) ∧
      ∀ (k : Nat) (a a' : Analysis ℝ) (P P' : Nat → V3 ℝ), res.R[k]? = some a → res.R[k + 1]? = some a' →
        ActingLoads u c.nodes.labels (recorded outs) k P → ActingLoads u c.nodes.labels (recorded outs) (k + 1) P' →
        Spread bars a → Spread bars a' →
          |work c.nnodes (fun i d => (P i d + P' i d) / 2) (moved a a') - (strainEnergy bars a'.U - strainEnergy bars a.U)| ≤
            ∑ i : Fin bars.length, bars[i].E * bars[i].area * bars[i].turned a a' * |bars[i].longer a a'| /
                (4 * len (bars[i].axis a.U) * len (bars[i].axis a'.U)) +
              (10 : ℝ) ^ (-m1.settings.ftol) * size c.nnodes (moved a a') := by
  obtain ⟨c, bars, res, r0, outs, h1, h2, h3, h4, h5, h6, h7, h8, h9, h10, h11, h12, h13⟩ :=
    run_balance has hu he hw hbw hst hb hr hn hfw
  refine ⟨c, bars, res, r0, outs, h1, h2, h3, h4, h5, h6, ?_⟩
  have hlaw : ∀ i : Fin bars.length, bars[i].law = .el := by
    intro i
    have hke : i.val < es.length := by rw [h3.length_eq]; exact i.isLt
    obtain ⟨nA, hA, nE, hE, hbo⟩ := h3.get hke i.isLt
    rcases hbo.law with ⟨g1, g2⟩ | ⟨g1, g2⟩
    · exact g2
    · have := hel _ (List.get_mem es ⟨i.val, hke⟩)
      omega
  have hps : ∀ (i : Fin bars.length) (a : Analysis ℝ), bars[i].plasticStrain c i a = 0 := by
    intro i a
    unfold Bar.plasticStrain
    rw [hlaw i]
  have hse : ∀ a : Analysis ℝ, storedEnergy c bars a = strainEnergy bars a.U := by
    intro a
    unfold storedEnergy strainEnergy
    rw [← List.sum_ofFn]
    congr 1
    apply List.ext_getElem
    · simp
    · intro i g1 g2
      have hi : i < bars.length := by simpa using g2
      have := hps ⟨i, hi⟩ a
      simp only [Fin.getElem_fin] at this
      simp [this]
  intro k a a' P P' ha ha' hP hP' hs hs'
  obtain ⟨s1, w1⟩ := h12 k a P ha hP
  obtain ⟨s2, w2⟩ := h12 (k + 1) a' P' ha' hP'
  have hv := h9 a (List.mem_of_getElem? ha) a' (List.mem_of_getElem? ha')
  have t := trapezoid hs hs' (w1 _ hv) (w2 _ hv)
  rw [work_split (fun b hb' => (h7 b hb').length) (fun i => (s1 i).force) (fun i => (s2 i).force), hse, hse] at t
  have hpw : plasticWork c bars a a' = 0 := Finset.sum_eq_zero fun i _ => by rw [hps, hps]; simp
  rw [hpw, add_zero] at t
  refine t.trans (le_of_eq ?_)
  congr 1
  refine Finset.sum_congr rfl fun i _ => ?_
  have hbs := h7 bars[i] (List.getElem_mem _)
  rw [(s1 i).force, (s2 i).force, hps, hps]
  have n0 := hs bars[i] (List.getElem_mem _)
  have n1 := hs' bars[i] (List.getElem_mem _)
  have p0 := lt_of_le_of_ne (len_nonneg _) n0.symm
  have p1 := lt_of_le_of_ne (len_nonneg _) n1.symm
  have nr := hbs.length
  have hEA := stiff_EA hbs
  have key : bars[i].E * bars[i].area * (bars[i].stretch a'.U - 1 - 0) / len (bars[i].axis a'.U) -
      bars[i].E * bars[i].area * (bars[i].stretch a.U - 1 - 0) / len (bars[i].axis a.U) =
      bars[i].E * bars[i].area * bars[i].longer a a' / (len (bars[i].axis a.U) * len (bars[i].axis a'.U)) := by
    unfold Bar.stretch Bar.longer
    field_simp
    ring
  rw [key, abs_div, abs_mul, abs_of_nonneg hEA, abs_of_pos (mul_pos p0 p1)]
  field_simp

/-- **C119** Energy balance of a run up to the result number `n`, all accepted: the energy stored in the bars is at most the
work that the loads have done, up to the sum of the errors, and what is missing is the plastic work. -/
theorem C119_total_balance {argsort : List Int → List Nat} (has : IsArgsort argsort) {u : UserInput ℝ}
    {es : List (Elem ℝ)} {env : Env ℝ} {fuel : Nat} {m m1 m2 : Model ℝ} (hu : Entered u m) (he : EnteredElems es m)
    (hw : WellPosed u es) (hbw : ∀ b ∈ u.bounds, b.values.length = 3) (hst : StiffElems u es)
    (hb : m.build argsort = .ok m1) (hr : m1.run env fuel = .ok m2) (hn : 0 < m1.settings.nsteps)
    (hfw : 3 * m1.settings.nsteps ≤ loadWidth u.forces) :
    ∃ c bars res r0 outs, m1.ctx = some c ∧ c.Bars bars ∧ Meant u es c.nodes.labels bars ∧ m2.results = some res ∧
      RunCalls env fuel m1 c outs ∧ res.R = r0 :: (recorded outs).map (·.a) ∧
      ∀ (n : Nat) (a : Nat → Analysis ℝ) (P : Nat → Nat → V3 ℝ), (∀ k ≤ n, res.R[k]? = some (a k) ∧
          ActingLoads u c.nodes.labels (recorded outs) k (P k) ∧ Spread bars (a k)) →
        |∑ k ∈ Finset.range n, work c.nnodes (fun i d => (P k i d + P (k + 1) i d) / 2) (moved (a k) (a (k + 1))) -
            (storedEnergy c bars (a n) + ∑ k ∈ Finset.range n, plasticWork c bars (a k) (a (k + 1)))| ≤
          ∑ k ∈ Finset.range n, (turnError bars (a k) (a (k + 1)) +
            (10 : ℝ) ^ (-m1.settings.ftol) * size c.nnodes (moved (a k) (a (k + 1)))) ∧
        0 ≤ storedEnergy c bars (a n) ∧
        storedEnergy c bars (a n) ≤
          ∑ k ∈ Finset.range n, work c.nnodes (fun i d => (P k i d + P (k + 1) i d) / 2) (moved (a k) (a (k + 1))) +
          ∑ k ∈ Finset.range n, (turnError bars (a k) (a (k + 1)) +
            (10 : ℝ) ^ (-m1.settings.ftol) * size c.nnodes (moved (a k) (a (k + 1)))) := by
  obtain ⟨c, bars, res, r0, outs, h1, h2, h3, h4, h5, h6, -, h8, h9, h10⟩ := C119_energy_balance has hu he hw hbw hst hb hr hn hfw
  refine ⟨c, bars, res, r0, outs, h1, h2, h3, h4, h5, h6, ?_⟩
  intro n a P h
  have ha0 : a 0 = r0 := by
    have := (h 0 (Nat.zero_le _)).1
    rw [h6] at this
    exact (Option.some.inj this).symm
  have hpw : 0 ≤ ∑ k ∈ Finset.range n, plasticWork c bars (a k) (a (k + 1)) := Finset.sum_nonneg fun k hk => by
    have hk' := Finset.mem_range.1 hk
    obtain ⟨e1, e2, e3⟩ := h k hk'.le
    obtain ⟨f1, f2, f3⟩ := h (k + 1) hk'
    exact (h10 k _ _ _ _ e1 f1 e2 f2).1
  have hmain : |∑ k ∈ Finset.range n, work c.nnodes (fun i d => (P k i d + P (k + 1) i d) / 2) (moved (a k) (a (k + 1))) -
            (storedEnergy c bars (a n) + ∑ k ∈ Finset.range n, plasticWork c bars (a k) (a (k + 1)))| ≤
          ∑ k ∈ Finset.range n, (turnError bars (a k) (a (k + 1)) +
            (10 : ℝ) ^ (-m1.settings.ftol) * size c.nnodes (moved (a k) (a (k + 1)))) := by
    have hsum : storedEnergy c bars (a n) + ∑ k ∈ Finset.range n, plasticWork c bars (a k) (a (k + 1)) =
        ∑ k ∈ Finset.range n, (storedEnergy c bars (a (k + 1)) - storedEnergy c bars (a k) + plasticWork c bars (a k) (a (k + 1))) := by
      rw [Finset.sum_add_distrib, Finset.sum_range_sub (fun k => storedEnergy c bars (a k)), ha0, h8, sub_zero]
    rw [hsum, ← Finset.sum_sub_distrib]
    refine (Finset.abs_sum_le_sum_abs _ _).trans (Finset.sum_le_sum fun k hk => ?_)
    have hk' := Finset.mem_range.1 hk
    obtain ⟨e1, e2, e3⟩ := h k hk'.le
    obtain ⟨f1, f2, f3⟩ := h (k + 1) hk'
    exact (h10 k _ _ _ _ e1 f1 e2 f2).2 e3 f3
  refine ⟨hmain, ?_, ?_⟩
  · refine Finset.sum_nonneg fun i _ => ?_
    have hbs := meant_stiff h3 hst bars[i] (List.getElem_mem _)
    have := mul_nonneg (stiff_EA hbs) (len_nonneg bars[i].ref)
    exact mul_nonneg (by linarith) (sq_nonneg _)
  · have := (abs_le.1 hmain).1
    linarith

/-- The bar of length 1 (see `ExamplesValid`): undeformed state and the only increment, which is accepted, meet the hypotheses of the
balance.  The energy stored in the bar with stretch 5/4 is 1/32, the work of the load 1/4 is 1/4 * 1/4 / 2. -/
example : ∃ m1 m2 c bars res outs a a' P', rbModel.build refArgsort = .ok m1 ∧ m1.run rbEnv 4 = .ok m2 ∧
    StiffElems rbInput rbElems ∧ (∀ e ∈ rbElems, e.mtype = 1) ∧ RunCalls rbEnv 4 m1 c outs ∧ m2.results = some res ∧
    res.R[0]? = some a ∧ res.R[1]? = some a' ∧ ActingLoads rbInput c.nodes.labels (recorded outs) 0 (fun _ _ => 0) ∧
    ActingLoads rbInput c.nodes.labels (recorded outs) 1 P' ∧ Spread bars a ∧ Spread bars a' ∧
    moved a a' 1 0 = 1 / 4 ∧ storedEnergy c bars a' = 1 / 32 ∧
    |work c.nnodes (fun i d => (0 + P' i d) / 2) (moved a a') - 1 / 32| ≤
      turnError bars a a' + (10 : ℝ) ^ (-8 : Int) * size c.nnodes (moved a a') := by
  obtain ⟨m1, m2, hb, hr⟩ := rbRuns
  obtain ⟨_, _, _, _, _, _, h1, -, -, -, -, -, -, -, -, -, -, -, n, hs⟩ :=
    rbValid.built refArgsort_isArgsort rbEntered rbEnteredElems rfl
  rw [hb] at h1; cases h1
  have hn : 0 < m1.settings.nsteps := by rw [hs]; exact Nat.one_pos
  have hfw : 3 * m1.settings.nsteps ≤ loadWidth rbInput.forces := by rw [hs]; exact (le_refl 3)
  have hft : m1.settings.ftol = 8 := by rw [hs]; rfl
  have hel : ∀ e ∈ rbElems, e.mtype = 1 := by simp [rbElems]
  obtain ⟨c, bars, res, r0, outs, e1, e2, e3, e4, e5, e6, e7, e8, e9, e10⟩ := C119_energy_balance refArgsort_isArgsort rbEntered
    rbEnteredElems rbValid.posed rbValid.supports rbStiff hb hr hn hfw
  obtain ⟨r, k1, k2, k3⟩ := rbAccepted hb e1 e5
  obtain ⟨P', hP'⟩ := e7 0 r (by rw [k1]; rfl) k2
  have hR0 : res.R[0]? = some r0 := by rw [e6]; rfl
  have hR1 : res.R[1]? = some r.a := by rw [e6, k1]; rfl
  -- displacements
  obtain ⟨c', d, r0', outs', q1, q2, q3, q4, q5, q6, q7, q8, q9, q10, res', q11, q12⟩ := run_summary hb hr
  rw [e1] at q1; cases q1
  rw [e4] at q11; cases q11
  cases e5.unique q9
  rcases q12 with ⟨e, -⟩ | ⟨-, e⟩
  · omega
  rw [e6] at e; cases e
  have hinc := q8 0 r0 r rfl (by rw [k1]; rfl)
  obtain ⟨sc, -, hUred⟩ := hinc.solved q4 (by rw [k2]; simp)
  have hl := rbLabels hb e1
  obtain ⟨nt, dm, d1, d2, d3, d4, -⟩ := C06_degrees_of_freedom_partial refArgsort_isArgsort rbEntered rbValid.posed.nodes
    (le_refl 2) rbValid.supports hb
  rw [ctx_nodes e1] at d1; cases d1
  rw [q2] at d2; cases d2
  have hz := fun {i : Nat} {l : Int} (hl : c.nodes.labels[i]? = some l) {k : Nat} (hk : k < 3) hsup =>
    C30_supported_components refArgsort_isArgsort rbEntered rbValid.posed.nodes (le_refl 2) rbValid.supports hb hr
      (ctx_nodes e1) e4 hl hk hsup r.a (List.mem_of_getElem? hR1)
  have z : ∀ (l : Int) (i k : Nat), c.nodes.labels[i]? = some l → k < 3 → (supportOf rbInput.bounds l)[k]? ≠ some 1 →
      r.a.U.getD (3 * i + k) 0 = 0 := by
    intro l i k hl hk hsup
    rw [List.getD_eq_getElem?_getD, hz hl hk hsup]
    rfl
  have hl0 : c.nodes.labels[0]? = some 1 := by rw [hl]; rfl
  have hl1 : c.nodes.labels[1]? = some 2 := by rw [hl]; rfl
  have u0 : r.a.U.getD 0 0 = 0 := z 1 0 0 hl0 (by decide) (by decide)
  have u1 : r.a.U.getD 1 0 = 0 := z 1 0 1 hl0 (by decide) (by decide)
  have u2 : r.a.U.getD 2 0 = 0 := z 1 0 2 hl0 (by decide) (by decide)
  have u4 : r.a.U.getD 4 0 = 0 := z 2 1 1 hl1 (by decide) (by decide)
  have u5 : r.a.U.getD 5 0 = 0 := z 2 1 2 hl1 (by decide) (by decide)
  have u3 : r.a.U.getD 3 0 = 1 / 4 := by
    have hmem : 3 ∈ r.a.DOF1 := by
      rw [hinc.next.dof1]
      exact (d4 1 2 hl1 0 (by decide)).1.2 rfl
    obtain ⟨j, hj⟩ := List.getElem?_of_mem hmem
    have hlt := npTake_ok_lt sc.reduced _ hmem
    have := npTake_getElem sc.reduced hj (List.getElem?_eq_getElem hlt)
    have hm := List.mem_of_getElem? this
    rw [hUred, k3] at hm
    rw [List.getD_eq_getElem?_getD, List.getElem?_eq_getElem hlt]
    simpa using hm
  obtain ⟨b, rfl, hrb⟩ := rbBar hl e3
  have w0 : row3 r.a.U 0 = fun _ => 0 := by
    funext k
    match k with
    | 0 => exact u0
    | 1 => exact u1
    | 2 => exact u2
  have w1 : row3 r.a.U 1 = fun k => if k = 0 then 1 / 4 else 0 := by
    funext k
    match k with
    | 0 => exact u3
    | 1 => exact u4
    | 2 => exact u5
  have hax : b.axis r.a.U = fun k => if k = 0 then 5 / 4 else 0 := by
    funext k
    unfold Bar.axis
    rw [hrb.iA, hrb.iE, hrb.XA, hrb.XE, w0, w1]
    dsimp only
    split <;> norm_num
  have hlen : len (b.axis r.a.U) = 5 / 4 := by
    rw [hax]
    unfold len
    rw [show ((if (0 : Fin 3) = 0 then (5 / 4 : ℝ) else 0) ^ 2 + (if (1 : Fin 3) = 0 then (5 / 4 : ℝ) else 0) ^ 2 +
      (if (2 : Fin 3) = 0 then (5 / 4 : ℝ) else 0) ^ 2) = (5 / 4) ^ 2 by
        rw [if_pos rfl, if_neg (by decide), if_neg (by decide)]; norm_num]
    exact Real.sqrt_sq (by norm_num)
  have href : len b.ref = 1 := by
    unfold len Bar.ref
    rw [hrb.XA, hrb.XE]
    dsimp only
    rw [if_pos rfl, if_neg (by decide), if_neg (by decide)]
    norm_num
  have hstored : storedEnergy c [b] r.a = 1 / 32 := by
    unfold storedEnergy Bar.stretch Bar.plasticStrain
    have : ∀ i : Fin [b].length, [b][i] = b := fun i => by
      have : i = ⟨0, by simp⟩ := Fin.ext (by have h : i.val < 1 := i.isLt; show i.val = 0; omega)
      rw [this]
      rfl
    simp only [this, Bar.E, Bar.area, hrb.mat, hrb.geo, hrb.law, hlen, href]
    norm_num
  have hmv : moved r0 r.a 1 0 = 1 / 4 := by
    unfold moved
    rw [w1]
    unfold row3
    rw [q6.U, List.getD_eq_getElem?_getD, List.getElem?_replicate]
    split <;> simp
  have hs1 : Spread [b] r.a := by
    intro b' hb'
    rw [List.mem_singleton.1 hb', hlen]
    norm_num
  obtain ⟨pw, bal⟩ := e10 0 r0 r.a (fun _ _ => 0) P' hR0 hR1 rfl hP'
  have hpw : plasticWork c [b] r0 r.a = 0 := by
    refine Finset.sum_eq_zero fun i _ => ?_
    have : [b][i] = b := by
      have : i = ⟨0, by simp⟩ := Fin.ext (by have h : i.val < 1 := i.isLt; show i.val = 0; omega)
      rw [this]
      rfl
    rw [this]
    unfold Bar.plasticStrain
    rw [hrb.law]
    simp
  have t := bal e9 hs1
  rw [hpw, e8, hstored, hft] at t
  refine ⟨m1, m2, c, [b], res, outs, r0, r.a, P', hb, hr, rbStiff, hel, e5, e4, hR0, hR1, rfl, hP', e9, hs1, hmv, hstored, ?_⟩
  simpa using t

/-- The plastic bar of `Props/Limit.lean` meets the hypotheses as well. -/
example : ∃ m1 m2, rpModel.build refArgsort = .ok m1 ∧ m1.run rbEnv 4 = .ok m2 ∧ StiffElems rbInput rpElems ∧
    0 < m1.settings.nsteps ∧ 3 * m1.settings.nsteps ≤ loadWidth rbInput.forces ∧ ∀ e ∈ rpElems, e.mtype = 2 := by
  have hE : EnteredElems rpElems rpModel := rfl
  obtain ⟨m1, m2, h1, h2⟩ := C64_valid_model_runs refArgsort_isArgsort signTotal_real (m := rpModel) rbEntered hE rpValid rfl
    rbSane rfl rbReturns (fuel := 4) (by decide)
  obtain ⟨s⟩ := build_steps h1
  have hs : m1.settings.nsteps = 1 := congrArg (·.settings.nsteps) s.hm'
  refine ⟨m1, m2, h1, h2, ⟨?_, ?_, ?_, ?_⟩, by omega, by rw [hs]; decide, by simp [rpElems]⟩
  · intro e he nA hA nE hE hc hcoord
    simp only [rpElems, List.mem_singleton] at he
    subst he
    simp only [List.cons.injEq, and_true] at hc
    simp only [rbInput, List.mem_cons, List.not_mem_nil, or_false] at hA hE
    rcases hA with rfl | rfl <;> rcases hE with rfl | rfl <;> simp at hc hcoord
  · intro e he
    simp only [rpElems, List.mem_singleton] at he
    subst he
    exact ⟨1, [], rfl, one_pos⟩
  · intro e he h
    simp only [rpElems, List.mem_singleton] at he
    subst he
    cases h
  · intro e he _
    simp only [rpElems, List.mem_singleton] at he
    subst he
    exact ⟨⟨1, 0, 3 / 8⟩, [], ⟨by norm_num, le_rfl, by norm_num⟩, rfl⟩

/-- Plastic work of an increment with flow: stress 3/8 at the strain 3/8, then stress 1/2 and plastic strain 1/8
(constants `E = K = 1`, `Sy = 3/8`). -/
example : ∃ pl : Plastic, pl.Valid ∧ PlasticIncrement pl (5 / 8) 0 0 (1 / 2) (1 / 8) (1 / 2) ∧ |(3 / 8 : ℝ)| ≤ meantY pl 0 * |1| ∧
    (3 / 8 + 1 / 2 * (1 : ℝ)) / 2 * (1 / 8 - 0) = 7 / 128 := by
  refine ⟨⟨1, 1, 3 / 8⟩, ⟨by norm_num, by norm_num, by norm_num⟩, ⟨?_, ?_, ?_, ?_, ?_⟩, ?_, ?_⟩
  · norm_num
  · norm_num
  · intro _; norm_num
  · norm_num
  · norm_num
  · simp only [meantY]; norm_num
  · norm_num

end TrussPy
