import Verif.Lemmas.Split
import Verif.ExamplesValid
import Verif.ExamplesRun
/-!
# C120: runs with bundles of parallel elements, elements without area and spare state variables
-/

set_option linter.unusedSectionVars false

namespace TrussPy

variable {π : Nat → Nat} {w : Nat → ℝ}

theorem elem_share {u : UserInput ℝ} (hnd : (u.nodes.map (·.label)).Nodup) {labels : List Int} (hl : labels.Pairwise (· < ·))
    {e e' : Elem ℝ} {b b' : Bar ℝ} {ω : ℝ} (hb : ∃ nA ∈ u.nodes, ∃ nE ∈ u.nodes, BarOf labels e nA nE b)
    (hb' : ∃ nA ∈ u.nodes, ∃ nE ∈ u.nodes, BarOf labels e' nA nE b') (h : e.Share ω e') : b.Share ω b' := by
  obtain ⟨nA, hA, nE, hE, hb⟩ := hb
  obtain ⟨nA', hA', nE', hE', hb'⟩ := hb'
  have hc := hb'.conn
  rw [h.conn, hb.conn] at hc
  simp only [List.cons.injEq, and_true] at hc
  have e1 := node_eq hnd hA hA' hc.1
  have e2 := node_eq hnd hE hE' hc.2
  subst e1 e2
  have vec : ∀ {X Y : V3 ℝ}, [X 0, X 1, X 2] = [Y 0, Y 1, Y 2] → X = Y := by
    intro X Y h
    simp only [List.cons.injEq, and_true] at h
    funext d
    match d with
    | 0 => exact h.1
    | 1 => exact h.2.1
    | 2 => exact h.2.2
  refine ⟨label_inj hl hb'.posA hb.posA, label_inj hl hb'.posE hb.posE, vec (hb'.coordA.symm.trans hb.coordA),
    vec (hb'.coordE.symm.trans hb.coordE), by rw [hb.mat, hb'.mat, h.mprop], ?_, ?_⟩
  · have := h.mtype
    rcases hb.law with ⟨l1, l2⟩ | ⟨l1, l2⟩ <;> rcases hb'.law with ⟨r1, r2⟩ | ⟨r1, r2⟩
    · rw [l2, r2]
    · omega
    · omega
    · rw [l2, r2]
  · rw [hb.geo, hb'.geo]
    exact h.area

theorem Meant.bar {u : UserInput ℝ} {es : List (Elem ℝ)} {labels : List Int} {bars : List (Bar ℝ)} (h : Meant u es labels bars)
    {k : Nat} {e : Elem ℝ} (he : es[k]? = some e) :
    ∃ b, bars[k]? = some b ∧ ∃ nA ∈ u.nodes, ∃ nE ∈ u.nodes, BarOf labels e nA nE b := by
  have hk := (List.getElem?_eq_some_iff.1 he).1
  have hk' : k < bars.length := by rw [← h.length_eq]; exact hk
  have := h.get hk hk'
  simp only [List.get_eq_getElem] at this
  rw [(List.getElem?_eq_some_iff.1 he).2] at this
  exact ⟨_, List.getElem?_eq_getElem hk', this⟩

theorem Meant.elem {u : UserInput ℝ} {es : List (Elem ℝ)} {labels : List Int} {bars : List (Bar ℝ)} (h : Meant u es labels bars)
    {k : Nat} {b : Bar ℝ} (hb : bars[k]? = some b) :
    ∃ e, es[k]? = some e ∧ ∃ nA ∈ u.nodes, ∃ nE ∈ u.nodes, BarOf labels e nA nE b := by
  have hk := (List.getElem?_eq_some_iff.1 hb).1
  have hk' : k < es.length := by rw [h.length_eq]; exact hk
  obtain ⟨b1, h1, h2⟩ := h.bar (List.getElem?_eq_getElem hk')
  rw [hb] at h1
  cases h1
  exact ⟨_, List.getElem?_eq_getElem hk', h2⟩

/-- The undeformed states. -/
theorem fresh_twin {c c' : Ctx ℝ} {bars bars' : List (Bar ℝ)} (nn : Nat) (d0 d1 : List Nat)
    (hns : ∀ x ∈ bars, x.law = .elplast → c.nstatev = 2) (hns' : ∀ x ∈ bars', x.law = .elplast → c'.nstatev = 2)
    (l l' : Option ℝ) (V V' : List ℝ) (ef : Option (StepForces ℝ)) :
    SplitPair π w c c' bars bars'
      { (Analysis.fresh nn bars.length d0 d1 c.nstatev : Analysis ℝ) with Vred := V, lpf := l, extForces := ef }
      { (Analysis.fresh nn bars'.length d0 d1 c'.nstatev : Analysis ℝ) with Vred := V', lpf := l', extForces := ef } := by
  unfold Analysis.fresh
  refine ⟨rfl, rfl, rfl, rfl, rfl, rfl, rfl, rfl, rfl, rfl, rfl, rfl, rfl, ?_, ?_, ?_⟩
  · intro k x x' h1 h2 _
    have k1 := (List.getElem?_eq_some_iff.1 h1).1
    have k2 := (List.getElem?_eq_some_iff.1 h2).1
    simp only [List.getElem?_replicate_of_lt k1, List.getElem?_replicate_of_lt k2, Option.map_some, mul_zero, and_self]
  · intro k x x' h1 h2 h3 h4
    have k1 := (List.getElem?_eq_some_iff.1 h1).1
    have k2 := (List.getElem?_eq_some_iff.1 h2).1
    have n1 := hns x (List.mem_of_getElem? h2) h4
    have n2 := hns' x' (List.mem_of_getElem? h1) (by rw [h3.law]; exact h4)
    unfold stateRow
    simp only [n1, n2, Nat.zero_lt_two, if_true, Option.bind_some, List.getElem?_replicate_of_lt k1,
      List.getElem?_replicate_of_lt k2]
  · intro k x' h1 _
    have k1 := (List.getElem?_eq_some_iff.1 h1).1
    simp only [List.getElem?_replicate_of_lt k1]

/-- **C120** Bundles in a run.  Replace every element by parallel elements of the same material whose areas sum up to its area,
add elements without area anywhere, and choose any number of state variables: both models build, and the runs raise the same
exception or return the same number of results, with equal displacements, internal forces, residuals, load factors, control
components and step widths one by one, whatever the linear solver does.  Every part has the stretch and stress of the whole and
its share of the normal force. -/
theorem C120_bundled_runs {argsort : List Int → List Nat} (has : IsArgsort argsort) {u : UserInput ℝ} {es es' : List (Elem ℝ)}
    {m m' : Model ℝ} (hu : Entered u m) (he : EnteredElems es m) (hv : ValidInput u es m.settings.nsteps)
    (hdim : m.settings.ndim = 3) (hu' : Entered u m') (he' : EnteredElems es' m') (hv' : ValidInput u es' m.settings.nsteps)
    {ns : Nat} (hset : m'.settings = { m.settings with nstatev := ns }) (hs : SplitElems π w es es') :
    ∃ m1 m1', m.build argsort = .ok m1 ∧ m'.build argsort = .ok m1' ∧ ∀ (env : Env ℝ) fuel,
      Alike (Model.SplitResults π w es es') (m1.run env fuel) (m1'.run env fuel) := by
  obtain ⟨m1, labels, c, bars, dof0, dof1, ft, hb, B⟩ := hv.builtAs has hu he hdim
  have hns' : m'.settings.nsteps = m.settings.nsteps := by rw [hset]
  obtain ⟨m1', labels', c', bars', dof0', dof1', ft', hb', B'⟩ :=
    (hns' ▸ hv' : ValidInput u es' m'.settings.nsteps).builtAs has hu' he' (by rw [hset]; exact hdim)
  refine ⟨m1, m1', hb, hb', ?_⟩
  intro env fuel
  have hl : labels' = labels :=
    sorted_perm_eq (B'.perm.trans B.perm.symm) (B'.sorted.imp le_of_lt) (B.sorted.imp le_of_lt)
  subst hl
  have hd0 : dof0' = dof0 := by rw [B'.isDof0, B.isDof0]
  have hd1 : dof1' = dof1 := by rw [B'.isDof1, B.isDof1]
  subst hd0 hd1
  have hrows : ft'.forces.rows = ft.forces.rows := by rw [B'.rows, B.rows]
  have hbl : bars.length = es.length := B.meant.length_eq.symm
  have hbl' : bars'.length = es'.length := B'.meant.length_eq.symm
  have hS : SplitBars π w c c' bars bars' := by
    refine ⟨by rw [B.isBars.nnodes, B'.isBars.nnodes, B.isLabels, B'.isLabels], by rw [B.ndof1, B'.ndof1], ?_, ?_⟩
    · rw [hbl, hbl']
      exact hs.sum
    · intro k b' hb1
      obtain ⟨e', q1, q2⟩ := B'.meant.elem hb1
      rcases hs.elem k e' q1 with ⟨h0, h1⟩ | ⟨e, h1, h2⟩
      · obtain ⟨nA, -, nE, -, q3⟩ := q2
        exact .inl ⟨h0, by rw [q3.geo]; exact h1⟩
      · obtain ⟨b, r1, r2⟩ := B.meant.bar h1
        exact .inr ⟨b, r1, elem_share hv.posed.nodes B.sorted r2 q2 h2⟩
  have hp : ∀ x ∈ bars, x.law = .elplast → c.nstatev = 2 := by
    intro x hx hlaw
    obtain ⟨k, hk⟩ := List.getElem?_of_mem hx
    obtain ⟨e, q1, nA, -, nE, -, q2⟩ := B.meant.elem hk
    have : e.mtype = 2 := by
      rcases q2.law with ⟨-, h⟩ | ⟨h, -⟩
      · rw [hlaw] at h; cases h
      · exact h
    rw [B.nstatev, if_pos]
    rw [List.contains_iff_mem]
    exact List.mem_map.2 ⟨e, List.mem_of_getElem? q1, this⟩
  have hp' : ∀ x ∈ bars', x.law = .elplast → c'.nstatev = 2 := by
    intro x hx hlaw
    obtain ⟨k, hk⟩ := List.getElem?_of_mem hx
    obtain ⟨e, q1, nA, -, nE, -, q2⟩ := B'.meant.elem hk
    have : e.mtype = 2 := by
      rcases q2.law with ⟨-, h⟩ | ⟨h, -⟩
      · rw [hlaw] at h; cases h
      · exact h
    rw [B'.nstatev, if_pos]
    rw [List.contains_iff_mem]
    exact List.mem_map.2 ⟨e, List.mem_of_getElem? q1, this⟩
  have hana := B.analysis
  have hana' := B'.analysis
  have hres := B.results
  have hres' := B'.results
  have hbase := B.base
  have hbase' := B'.base
  rw [← hbl] at hana hres hbase
  rw [← hbl'] at hana' hres' hbase'
  have hst := fun (l : Option ℝ) V V' (ef : Option (StepForces ℝ)) =>
    fresh_twin (π := π) (w := w) labels'.length dof0' dof1' hp hp' l l V V' ef
  have fit : ∀ (c : Ctx ℝ) (bars : List (Bar ℝ)) (ef : Option (StepForces ℝ)),
      ({ (Analysis.fresh labels'.length bars.length dof0' dof1' c.nstatev : Analysis ℝ) with
        Vred := (Analysis.fresh labels'.length bars.length dof0' dof1' c.nstatev : Analysis ℝ).Ured ++ [0],
        lpf := some 0 }).Fits c →
      ({ (Analysis.fresh labels'.length bars.length dof0' dof1' c.nstatev : Analysis ℝ) with
        lpf := some 0, extForces := ef }).Fits c := by
    intro c bars ef f
    exact ⟨f.U, f.U0, f.r, f.K, f.Krow, f.stretch, f.force, f.stress, f.statev, f.dof, f.dofNodup⟩
  have hlog : (1 < m1'.settings.log ∧ m1'.settings.j0 ≠ none) ↔ (1 < m1.settings.log ∧ m1.settings.j0 ≠ none) := by
    rw [B'.settings, B.settings, hset]
  have hsame : m1'.settings = { m1.settings with nstatev := c'.nstatev } := by
    rw [B'.settings, B.settings, hset]
  have hn1 : m1.settings.nsteps = m.settings.nsteps := by rw [B.settings]
  have hq : SplitRec π w c c' bars bars'
      { (Analysis.fresh labels'.length bars.length dof0' dof1' c.nstatev : Analysis ℝ) with
        lpf := some 0, extForces := some ⟨ft.forces.rows.flatten, List.replicate (3 * labels'.length) 0⟩ }
      { (Analysis.fresh labels'.length bars'.length dof0' dof1' c'.nstatev : Analysis ℝ) with
        lpf := some 0, extForces := some ⟨ft.forces.rows.flatten, List.replicate (3 * labels'.length) 0⟩ } :=
    ⟨hst (some 0) [] [] _, fit c bars _ hbase.fits, fit c' bars' _ hbase'.fits, rfl⟩
  have key := fun (q q' : Analysis ℝ) (hq : SplitRec π w c c' bars bars' q q') => steps_split (π := π) (w := w) B.isBars B'.isBars B.complete B'.complete hS env fuel m1.settings c'.nstatev
    (by rw [B.rows, List.length_map, B.isBars.nnodes, B.isLabels]) B.width
    (st := ({ (Analysis.fresh labels'.length bars.length dof0' dof1' c.nstatev : Analysis ℝ) with
        Vred := (Analysis.fresh labels'.length bars.length dof0' dof1' c.nstatev : Analysis ℝ).Ured ++ [0], lpf := some 0 },
        ⟨[q, q], []⟩))
    (st' := ({ (Analysis.fresh labels'.length bars'.length dof0' dof1' c'.nstatev : Analysis ℝ) with
        Vred := (Analysis.fresh labels'.length bars'.length dof0' dof1' c'.nstatev : Analysis ℝ).Ured ++ [0], lpf := some 0 },
        ⟨[q', q'], []⟩))
    ⟨hst (some 0) _ _ none, hbase, hbase', rfl, rfl, rfl, .cons hq (.cons hq .nil)⟩ m.settings.nsteps hv.width
  unfold Model.run
  by_cases hlg : 1 < m1.settings.log ∧ m1.settings.j0 ≠ none
  · rw [if_pos hlg, if_pos (hlog.2 hlg)]
    exact .error _
  · rw [if_neg hlg, if_neg (fun h => hlg (hlog.1 h))]
    simp only [B.ctx, B'.ctx, hana, hana', hres, hres', B.forces, B'.forces, dupFirst, py_bind_ok]
    rw [hsame, hrows, hn1]
    refine (key _ _ hq).bind ?_
    intro st st' h
    refine .ok ⟨st.2.R, st'.2.R, st.2.stepLpfEnd, rfl, by rw [← h.ends], h.recs.imp ?_⟩
    rintro a b ⟨t, f, f', hlpf⟩
    refine ⟨t.step, t.U, t.U0, t.r, t.g, t.dof0, t.dof1, t.Ured, hlpf, t.loads, t.f0red, t.Kred, t.j, t.dVmax, ?_, ?_⟩
    · intro k e e' h1 h2 h3
      obtain ⟨x, r1, r2⟩ := B.meant.bar h2
      obtain ⟨x', q1, q2⟩ := B'.meant.bar h1
      have hsh := elem_share hv.posed.nodes B.sorted r2 q2 h3
      obtain ⟨s1, s2, s3⟩ := t.share k x x' q1 r1 hsh
      refine ⟨s1, s2, s3, ?_⟩
      intro hty
      obtain ⟨nA, -, nE, -, r3⟩ := r2
      have hlaw : x.law = .elplast := by
        rcases r3.law with ⟨h, -⟩ | ⟨-, h⟩
        · omega
        · exact h
      have n1 : 0 < c.nstatev := by rw [hp x (List.mem_of_getElem? r1) hlaw]; omega
      have n2 : 0 < c'.nstatev := by
        rw [hp' x' (List.mem_of_getElem? q1) (by rw [hsh.law]; exact hlaw)]; omega
      have hrow := t.state k x x' q1 r1 hsh hlaw
      obtain ⟨sv, v1, v2⟩ := f.statev n1
      obtain ⟨sv', v1', v2'⟩ := f'.statev n2
      unfold stateRow at hrow
      rw [if_pos n1, if_pos n2, v1, v1'] at hrow
      simp only [Option.bind_some] at hrow
      have hk : π k < sv.length := by
        rw [v2, ← B.isBars.length]
        exact (List.getElem?_eq_some_iff.1 r1).1
      refine ⟨sv, sv', sv[π k], v1, v1', List.getElem?_eq_getElem hk, ?_⟩
      rw [hrow]
      exact List.getElem?_eq_getElem hk
    · intro k e' h1 h2
      obtain ⟨x', q1, nA, -, nE, -, q2⟩ := B'.meant.bar h1
      exact t.void k x' q1 (by rw [q2.geo]; exact h2)

/-- The displacements, internal forces and load factors of all results, and the results of the first `n` elements, are equal. -/
def SameFirst (n : Nat) (m2 m2' : Model ℝ) : Prop :=
  ∃ R R' ends, m2.results = some ⟨R, ends⟩ ∧ m2'.results = some ⟨R', ends⟩ ∧
    List.Forall₂ (fun a b => b.U = a.U ∧ b.r = a.r ∧ b.lpf = a.lpf ∧ b.step = a.step ∧ ∀ k, k < n →
      b.stretch[k]? = a.stretch[k]? ∧ b.elementStress[k]? = a.elementStress[k]? ∧ b.elementForce[k]? = a.elementForce[k]?) R R'

theorem SplitResults.first {es es' : List (Elem ℝ)} {m2 m2' : Model ℝ} {n : Nat} (h : Model.SplitResults id w es es' m2 m2')
    (hw : ∀ k, k < n → w k = 1) (hsh : ∀ k, k < n → ∃ e e', es'[k]? = some e' ∧ es[k]? = some e ∧ e.Share (w k) e') :
    SameFirst n m2 m2' := by
  obtain ⟨R, R', ends, r1, r2, r3⟩ := h
  refine ⟨R, R', ends, r1, r2, r3.imp ?_⟩
  intro a b hab
  refine ⟨hab.U, hab.r, hab.lpf, hab.step, ?_⟩
  intro k hk
  obtain ⟨e, e', h1, h2, h3⟩ := hsh k hk
  obtain ⟨s1, s2, s3, -⟩ := hab.share k e e' h1 h2 h3
  refine ⟨s1, s2, ?_⟩
  rw [s3, hw k hk]
  simp

theorem Elem.share_self {e : Elem ℝ} (h : e.gprop.vals ≠ []) : e.Share 1 e := by
  refine ⟨rfl, rfl, rfl, ?_⟩
  cases hg : e.gprop.vals with
  | nil => exact absurd hg h
  | cons A l => exact ⟨A, rfl, by simp⟩

/-- **C120** The number of state variables in the settings (`model.settings.nstatev`, which `build` raises to 2 if there are
plastic elements, and which stays 2 afterwards) does not influence the results of a run. -/
theorem C120_state_variables {argsort : List Int → List Nat} (has : IsArgsort argsort) {u : UserInput ℝ} {es : List (Elem ℝ)}
    {m m' : Model ℝ} (hu : Entered u m) (he : EnteredElems es m) (hv : ValidInput u es m.settings.nsteps)
    (hdim : m.settings.ndim = 3) (hu' : Entered u m') (he' : EnteredElems es m') {ns : Nat}
    (hset : m'.settings = { m.settings with nstatev := ns }) (env : Env ℝ) (fuel : Nat) :
    Alike (SameFirst es.length) (do let m1 ← m.build argsort; m1.run env fuel) (do let m1 ← m'.build argsort; m1.run env fuel) := by
  have hself : ∀ k, k < es.length → ∃ e e', es[k]? = some e' ∧ es[id k]? = some e ∧ e.Share 1 e' := by
    intro k hk
    exact ⟨_, _, List.getElem?_eq_getElem hk, List.getElem?_eq_getElem hk, Elem.share_self (hv.props _ (List.getElem_mem hk)).1⟩
  have hs : SplitElems id (fun _ => 1) es es := by
    refine ⟨?_, ?_⟩
    · intro j hj
      simp [hj]
    · intro k e h1
      obtain ⟨e1, e2, h2, h3, h4⟩ := hself k (List.getElem?_eq_some_iff.1 h1).1
      rw [h1] at h2
      cases h2
      exact .inr ⟨e1, h3, h4⟩
  obtain ⟨m1, m1', h1, h2, h⟩ := C120_bundled_runs has hu he hv hdim hu' he' hv hset hs
  rw [h1, h2]
  exact (h env fuel).mono fun _ _ hr => SplitResults.first hr (fun _ _ => rfl) hself

/-- **C120** An additional element without area has no influence on the results of a run, even if it is plastic and everything
else is elastic. -/
theorem C120_element_without_area {argsort : List Int → List Nat} (has : IsArgsort argsort) {u : UserInput ℝ}
    {es : List (Elem ℝ)} {e0 : Elem ℝ} {m m' : Model ℝ} (hu : Entered u m) (he : EnteredElems es m)
    (hv : ValidInput u es m.settings.nsteps) (hdim : m.settings.ndim = 3) (hu' : Entered u m')
    (he' : EnteredElems (es ++ [e0]) m') (hv' : ValidInput u (es ++ [e0]) m.settings.nsteps)
    (h0 : e0.gprop.vals[0]? = some 0) (hset : m'.settings = m.settings) (env : Env ℝ) (fuel : Nat) :
    Alike (SameFirst es.length) (do let m1 ← m.build argsort; m1.run env fuel) (do let m1 ← m'.build argsort; m1.run env fuel) := by
  have hself : ∀ k, k < es.length → ∃ e e', (es ++ [e0])[k]? = some e' ∧ es[id k]? = some e ∧
      e.Share (if k < es.length then 1 else 0) e' := by
    intro k hk
    refine ⟨_, _, by rw [List.getElem?_append_left hk]; exact List.getElem?_eq_getElem hk, List.getElem?_eq_getElem hk, ?_⟩
    rw [if_pos hk]
    exact Elem.share_self (hv.props _ (List.getElem_mem hk)).1
  have hs : SplitElems id (fun k => if k < es.length then 1 else 0) es (es ++ [e0]) := by
    refine ⟨?_, ?_⟩
    · intro j hj
      have hj' : j < es.length + 1 := by omega
      simp [hj, hj']
    · intro k e h1
      by_cases hk : k < es.length
      · obtain ⟨e1, e2, h2, h3, h4⟩ := hself k hk
        rw [h1] at h2
        cases h2
        exact .inr ⟨e1, h3, h4⟩
      · have hkl := (List.getElem?_eq_some_iff.1 h1).1
        rw [List.length_append, List.length_singleton] at hkl
        have : k = es.length := by omega
        subst this
        rw [List.getElem?_append_right (Nat.le_refl _), Nat.sub_self] at h1
        cases h1
        exact .inl ⟨by simp, h0⟩
  have hset' : m'.settings = { m.settings with nstatev := m.settings.nstatev } := hset
  obtain ⟨m1, m1', h1, h2, h⟩ := C120_bundled_runs has hu he hv hdim hu' he' hv' hset' hs
  rw [h1, h2]
  exact (h env fuel).mono fun _ _ hr => SplitResults.first hr (fun k hk => by simp [hk]) hself

/-! ## Examples -/

/-- The bar of `rbModel`, with three material properties. -/
def rsElems : List (Elem ℝ) := [⟨1, [1, 2], 1, 1, ⟨false, [1, 1, 1]⟩, ⟨false, [1]⟩⟩]

/-- Two parallel bars with a quarter and three quarters of its area, and a plastic bar without area. -/
noncomputable def rsSplit : List (Elem ℝ) :=
  [⟨1, [1, 2], 1, 1, ⟨false, [1, 1, 1]⟩, ⟨false, [1 / 4]⟩⟩, ⟨5, [1, 2], 1, 1, ⟨false, [1, 1, 1]⟩, ⟨false, [3 / 4]⟩⟩,
    ⟨2, [2, 1], 1, 2, ⟨false, [3, 2, 1]⟩, ⟨false, [0]⟩⟩]

/-- The models. -/
noncomputable def rsModel (et : ElemTab ℝ) (ns : Nat) : Model ℝ :=
  { rbModel with elems := some et, settings := { rbSettings with nstatev := ns } }

theorem rsValid : ValidInput rbInput rsElems 1 :=
  { rbValid with
    posed :=
      { rbValid.posed with
        elems := by decide
        joins := by
          intro e he
          simp only [rsElems, List.mem_singleton] at he
          subst he
          exact ⟨⟨1, [0, 0, 0]⟩, by simp [rbInput], ⟨2, [1, 0, 0]⟩, by simp [rbInput], rfl, by decide⟩
        law := by simp [rsElems] }
    props := by
      intro e he
      simp only [rsElems, List.mem_singleton] at he
      subst he
      exact ⟨by simp, by simp, by simp⟩
    elems := by simp [rsElems] }

theorem rsSplit_valid : ValidInput rbInput rsSplit 1 :=
  { rbValid with
    posed :=
      { rbValid.posed with
        elems := by simp [rsSplit]
        joins := by
          intro e he
          simp only [rsSplit, List.mem_cons, List.not_mem_nil, or_false] at he
          have h12 : ∃ nA ∈ rbInput.nodes, ∃ nE ∈ rbInput.nodes, ([1, 2] : List Int) = [nA.label, nE.label] ∧ nA.label ≠ nE.label :=
            ⟨⟨1, [0, 0, 0]⟩, by simp [rbInput], ⟨2, [1, 0, 0]⟩, by simp [rbInput], rfl, by decide⟩
          rcases he with rfl | rfl | rfl
          · exact h12
          · exact h12
          · exact ⟨⟨2, [1, 0, 0]⟩, by simp [rbInput], ⟨1, [0, 0, 0]⟩, by simp [rbInput], rfl, by decide⟩
        law := by simp [rsSplit] }
    props := by
      intro e he
      simp only [rsSplit, List.mem_cons, List.not_mem_nil, or_false] at he
      rcases he with rfl | rfl | rfl <;> exact ⟨by simp, by simp, by simp⟩
    elems := by simp [rsSplit] }

-- C120: all hypotheses hold for the bar and the bundle, with different numbers of state variables, and any solver
example : ∃ m1 m1', (rsModel ⟨[1], ⟨2, [[1, 2]]⟩, [1], [1], ⟨false, 3, [[1, 1, 1]]⟩, ⟨false, 1, [[1]]⟩⟩ 0).build refArgsort = .ok m1 ∧
    (rsModel ⟨[1, 5, 2], ⟨2, [[1, 2], [1, 2], [2, 1]]⟩, [1, 1, 1], [1, 1, 2], ⟨false, 3, [[1, 1, 1], [1, 1, 1], [3, 2, 1]]⟩,
      ⟨false, 1, [[1 / 4], [3 / 4], [0]]⟩⟩ 7).build refArgsort = .ok m1' ∧
    ∀ (env : Env ℝ) fuel, Alike (Model.SplitResults (fun _ => 0) (fun k => ([1 / 4, 3 / 4, 0] : List ℝ).getD k 0) rsElems rsSplit)
      (m1.run env fuel) (m1'.run env fuel) := by
  refine C120_bundled_runs refArgsort_isArgsort (u := rbInput) ⟨rfl, rfl, rfl⟩ rfl rsValid rfl ⟨rfl, rfl, rfl⟩ rfl rsSplit_valid
    (ns := 7) rfl ⟨?_, ?_⟩
  · intro j hj
    have hj : j < 1 := hj
    have : j = 0 := by omega
    subst this
    have hl : rsSplit.length = 3 := rfl
    rw [hl]
    simp [Finset.sum_range_succ]
    norm_num
  · intro k e' h
    match k with
    | 0 => cases h; exact .inr ⟨_, rfl, rfl, rfl, rfl, 1, rfl, by simp⟩
    | 1 => cases h; exact .inr ⟨_, rfl, rfl, rfl, rfl, 1, rfl, by simp⟩
    | 2 => cases h; exact .inl ⟨rfl, rfl⟩
    | k + 3 => cases h

/-- The plastic bar of `exBarModel` as a bundle, and an elastic bar without area. -/
def exBarSplit (mat : List ℚ) : Model ℚ :=
  { exBarModel 2 mat with
    elems := some ⟨[4, 1, 3], ⟨2, [[1, 2], [2, 1], [1, 2]]⟩, [1, 1, 1], [2, 1, 2],
      ⟨false, mat.length, [mat, mat, mat]⟩, ⟨false, 1, [[1 / 4], [0], [3 / 4]]⟩⟩ }

-- two complete runs (of two steps, with plasticity): same displacements and load factors, the forces are shared 1 : 3
example :
    showR (fun a => (a.U, a.lpf, a.elementStress.getD 0 9, (a.elementForce.getD 0 9) * 4))
        (buildRun 1 (exBarSplit [1, 1 / 3, 1 / 8])) =
      showR (fun a => (a.U, a.lpf, a.elementStress.getD 0 9, a.elementForce.getD 0 9))
        (buildRun 1 (exBarModel 2 [1, 1 / 3, 1 / 8])) ∧
    showR (fun a => (a.statev.getD []).getD 2 []) (buildRun 1 (exBarSplit [1, 1 / 3, 1 / 8])) =
      showR (fun a => (a.statev.getD []).getD 0 []) (buildRun 1 (exBarModel 2 [1, 1 / 3, 1 / 8])) ∧
    showR (fun a => a.elementForce.getD 1 9) (buildRun 1 (exBarSplit [1, 1 / 3, 1 / 8])) = .ok [0, 0, 0, 0] ∧
    showR (fun a => a.U.getD 3 9) (buildRun 1 (exBarSplit [1, 1 / 3, 1 / 8])) ≠ .ok [0, 0, 0, 0] := by
  decide +kernel

end TrussPy
