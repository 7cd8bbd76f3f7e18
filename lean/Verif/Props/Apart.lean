import Verif.Lemmas.Apart
import Verif.ExamplesRun
/-!
# Elements between fully supported nodes (C123)
-/

set_option linter.unusedSectionVars false

namespace TrussPy

variable {F : Type} [Zero F] [One F] [Add F] [Sub F] [Mul F] [Div F] [Neg F] [Flt F]

theorem BarOf.same_bar {u : UserInput F} (hnd : (u.nodes.map (·.label)).Nodup) {labels : List Int} (hl : labels.Pairwise (· < ·))
    {e : Elem F} {b b' : Bar F} (hb : ∃ nA ∈ u.nodes, ∃ nE ∈ u.nodes, BarOf labels e nA nE b)
    (hb' : ∃ nA ∈ u.nodes, ∃ nE ∈ u.nodes, BarOf labels e nA nE b') : b = b' := by
  obtain ⟨nA, hA, nE, hE, hb⟩ := hb
  obtain ⟨nA', hA', nE', hE', hb'⟩ := hb'
  have hc := hb'.conn
  rw [hb.conn] at hc
  simp only [List.cons.injEq, and_true] at hc
  have e1 := List.inj_on_of_nodup_map hnd hA hA' hc.1
  have e2 := List.inj_on_of_nodup_map hnd hE hE' hc.2
  subst e1 e2
  have vec : ∀ {X Y : V3 F}, [X 0, X 1, X 2] = [Y 0, Y 1, Y 2] → X = Y := by
    intro X Y h
    simp only [List.cons.injEq, and_true] at h
    funext d
    match d with
    | 0 => exact h.1
    | 1 => exact h.2.1
    | 2 => exact h.2.2
  have l1 := label_inj hl hb.posA hb'.posA
  have l2 := label_inj hl hb.posE hb'.posE
  have l3 := vec (hb.coordA.symm.trans hb'.coordA)
  have l4 := vec (hb.coordE.symm.trans hb'.coordE)
  have l5 := hb.mat.trans hb'.mat.symm
  have l6 := hb.geo.trans hb'.geo.symm
  have l7 : b.law = b'.law := by
    rcases hb.law with ⟨l1, l2⟩ | ⟨l1, l2⟩ <;> rcases hb'.law with ⟨r1, r2⟩ | ⟨r1, r2⟩
    · rw [l2, r2]
    · omega
    · omega
    · rw [l2, r2]
  cases b
  cases b'
  simp only at l1 l2 l3 l4 l5 l6 l7
  subst l1 l2 l3 l4 l5 l6 l7
  rfl

theorem Meant.same_bars {u : UserInput F} (hnd : (u.nodes.map (·.label)).Nodup) {labels : List Int} (hl : labels.Pairwise (· < ·))
    {es : List (Elem F)} {bars bars' : List (Bar F)} (h : Meant u es labels bars) (h' : Meant u es labels bars') : bars = bars' := by
  unfold Meant at h h'
  induction h generalizing bars' with
  | nil => cases h'; rfl
  | cons h _ ih =>
    cases h' with
    | cons g t => rw [BarOf.same_bar hnd hl h g, ih t]

/-- **C123.** Add elements whose nodes are fully supported, at any positions of the element list.  Both models build, and the runs
raise the same exception or give the same results one by one: displacements, load factors, loads, reduced stiffness matrices and
residuals of the free directions, control components, step widths, all results of the elements of the first model, and the internal
forces and residuals at the nodes where no added element ends.  For every number type, whatever the linear solver does. -/
theorem C123_held_elements {argsort : List Int → List Nat} (has : IsArgsort argsort) {u : UserInput F} {mask : List Bool}
    {es es' : List (Elem F)} {m m' : Model F} (hu : Entered u m) (he : EnteredElems es m) (hv : ValidInput u es m.settings.nsteps)
    (hdim : m.settings.ndim = 3) (hu' : Entered u m') (he' : EnteredElems es' m') (hv' : ValidInput u es' m.settings.nsteps)
    (hset : m'.settings = m.settings) (hh : AddsHeld u mask es es')
    (hp : 2 ∈ es'.map (·.mtype) → 2 ∈ es.map (·.mtype) ∨ m.settings.nstatev = 2) :
    ∃ m1 m1', m.build argsort = .ok m1 ∧ m'.build argsort = .ok m1' ∧ ∀ (env : Env F) fuel,
      Alike (Model.SameApart mask es') (m1.run env fuel) (m1'.run env fuel) := by
  obtain ⟨m1, labels, c, bars, dof0, dof1, ft, hb, B⟩ := hv.builtAs has hu he hdim
  obtain ⟨m1', labels', c', bars', dof0', dof1', ft', hb', B'⟩ := hv'.builtAs has hu' he' (by rw [hset]; exact hdim)
  refine ⟨m1, m1', hb, hb', ?_⟩
  intro env fuel
  have hl : labels' = labels :=
    sorted_perm_eq (B'.perm.trans B.perm.symm) (B'.sorted.imp le_of_lt) (B.sorted.imp le_of_lt)
  subst hl
  have hd0 : dof0' = dof0 := by rw [B'.isDof0, B.isDof0]
  have hd1 : dof1' = dof1 := by rw [B'.isDof1, B.isDof1]
  subst hd0 hd1
  have hrows : ft'.forces.rows = ft.forces.rows := by rw [B'.rows, B.rows]
  have hn : c'.nstatev = c.nstatev := by
    rw [B'.nstatev, B.nstatev, hset]
    simp only [List.contains_iff_mem]
    by_cases h1 : (2 : Int) ∈ es.map (·.mtype)
    · have h2 : (2 : Int) ∈ es'.map (·.mtype) := by
        rw [← hh.kept] at h1
        obtain ⟨e, h3, h4⟩ := List.mem_map.1 h1
        exact List.mem_map.2 ⟨e, pick_mem h3, h4⟩
      rw [if_pos h1, if_pos h2]
    · rw [if_neg h1]
      by_cases h2 : (2 : Int) ∈ es'.map (·.mtype)
      · rw [if_pos h2]
        exact ((hp h2).resolve_left h1).symm
      · rw [if_neg h2]
  have hbl' : bars'.length = es'.length := B'.meant.length_eq.symm
  have hend : ∀ (k : Nat) b, bars'[k]? = some b → ∃ e, es'[k]? = some e ∧ ∃ lA ∈ e.conn, ∃ lE ∈ e.conn,
      labels'[b.iA]? = some lA ∧ labels'[b.iE]? = some lE := by
    intro k b hb1
    have hk := (List.getElem?_eq_some_iff.1 hb1).1
    have hk' : k < es'.length := by rw [← hbl']; exact hk
    obtain ⟨nA, -, nE, -, hx⟩ := B'.meant.get hk' hk
    simp only [List.get_eq_getElem] at hx
    rw [(List.getElem?_eq_some_iff.1 hb1).2] at hx
    refine ⟨es'[k], List.getElem?_eq_getElem hk', nA.label, ?_, nE.label, ?_, hx.posA, hx.posE⟩
    · rw [hx.conn]; simp
    · rw [hx.conn]; simp
  let T : Nat → Prop := fun i => ∃ (k : Nat) (b : Bar F), mask[k]? = some false ∧ bars'[k]? = some b ∧ (i = b.iA ∨ i = b.iE)
  have hTl : ∀ i l, T i → labels'[i]? = some l → ∃ (k : Nat) (e : Elem F), mask[k]? = some false ∧ es'[k]? = some e ∧ l ∈ e.conn := by
    rintro i l ⟨k, b, h1, h2, h3⟩ h4
    obtain ⟨e, h5, lA, h6, lE, h7, h8, h9⟩ := hend k b h2
    refine ⟨k, e, h1, h5, ?_⟩
    rcases h3 with rfl | rfl
    · rw [h8] at h4; cases h4; exact h6
    · rw [h9] at h4; cases h4; exact h7
  have hS : ApartBars T mask c c' bars bars' := by
    refine ⟨B.isBars, B'.isBars, B'.complete, by rw [B.isBars.nnodes, B'.isBars.nnodes, B.isLabels, B'.isLabels],
      by rw [B.ndof1, B'.ndof1], hn, by rw [hh.length, hbl'], ?_, ?_, fun k b h1 h2 => ⟨⟨k, b, h1, h2, .inl rfl⟩, ⟨k, b, h1, h2, .inr rfl⟩⟩⟩
    · have h1 : Meant u es labels' (pick mask bars') := by
        have := pick_forall₂ mask B'.meant
        rw [hh.kept] at this
        exact this
      exact Meant.same_bars hv.posed.nodes B.sorted h1 B.meant
    · intro h0
      apply hv.elems
      have := B.meant.length_eq
      rw [h0] at this
      exact List.length_eq_zero_iff.1 this
  have hfree : ∀ p ∈ dof1', ¬ T (p / 3) := by
    intro p hp1 hT
    rw [B.isDof1, mem_whereEq] at hp1
    have hp3 : p = 3 * (p / 3) + p % 3 := (Nat.div_add_mod p 3).symm
    rw [hp3, flatten_get (w := 3) (by
      intro r hr
      obtain ⟨l, -, rfl⟩ := List.mem_map.1 hr
      exact supportOf_length hv.supports l) _ _ (Nat.mod_lt _ (by omega)), List.getElem?_map] at hp1
    cases hlab : labels'[p / 3]? with
    | none => rw [hlab] at hp1; cases hp1
    | some l =>
      rw [hlab] at hp1
      simp only [Option.map_some, Option.bind_some] at hp1
      obtain ⟨k, e, h1, h2, h3⟩ := hTl _ _ hT hlab
      exact hh.held k e h1 h2 l h3 (List.mem_of_getElem? hp1)
  have hpr : ∀ {α : Type} (x : α), pick mask (List.replicate es'.length x) = List.replicate es.length x := by
    intro α x
    rw [pick_replicate, hh.kept]
  have hbase := B.base
  have hbase' := B'.base
  rw [hn] at hbase'
  have hst : ∀ (V : List F) (ef : Option (StepForces F)), ApartPair T mask c c'
      { (Analysis.fresh labels'.length es.length dof0' dof1' c.nstatev : Analysis F) with
        Vred := V, lpf := some 0, extForces := ef }
      { (Analysis.fresh labels'.length es'.length dof0' dof1' c.nstatev : Analysis F) with
        Vred := V, lpf := some 0, extForces := ef } := by
    intro V ef
    refine ⟨rfl, hpr _, hpr _, hpr _, hpr _, ?_, fun _ _ => rfl, fun _ _ => rfl, ?_, ?_, hbase'.statev, hfree⟩
    · unfold Analysis.fresh
      dsimp only
      split
      · simp only [Option.map_some, hpr]
      · rfl
    · have f := hbase.fits
      exact ⟨f.U, f.U0, f.r, f.K, f.Krow, f.stretch, f.force, f.stress, f.statev, f.dof, f.dofNodup⟩
    · have f := hbase'.fits
      exact ⟨f.U, f.U0, f.r, f.K, f.Krow, f.stretch, f.force, f.stress, f.statev, f.dof, f.dofNodup⟩
  have hsame : m1'.settings = m1.settings := by
    rw [B'.settings, B.settings, hset, hn]
  have hn1 : m1.settings.nsteps = m.settings.nsteps := by rw [B.settings]
  have hnt : m1.nodes = some c.nodes := by
    have := B.ctx
    unfold Model.ctx at this
    simp only [Option.bind_eq_bind, Option.pure_def, Option.bind_eq_some_iff, Option.some.injEq] at this
    obtain ⟨nt, h1, et, -, d, -, rfl⟩ := this
    exact h1
  have hq := hst [] (some ⟨ft.forces.rows.flatten, List.replicate (3 * labels'.length) 0⟩)
  have hana' := B'.analysis
  have hres' := B'.results
  rw [hn] at hana' hres'
  have key := fun (q q' : Analysis F) (hq : ApartPair T mask c c' q q') => steps_apart hS env fuel m1.settings
    (by rw [B.rows, List.length_map, B.isBars.nnodes, B.isLabels]) B.width hv.width
    (st := ({ (Analysis.fresh labels'.length es.length dof0' dof1' c.nstatev : Analysis F) with
        Vred := (Analysis.fresh labels'.length es.length dof0' dof1' c.nstatev : Analysis F).Ured ++ [0], lpf := some 0 },
        ⟨[q, q], []⟩))
    (st' := ({ (Analysis.fresh labels'.length es'.length dof0' dof1' c.nstatev : Analysis F) with
        Vred := (Analysis.fresh labels'.length es'.length dof0' dof1' c.nstatev : Analysis F).Ured ++ [0], lpf := some 0 },
        ⟨[q', q'], []⟩))
    ⟨hst _ none, rfl, .cons hq (.cons hq .nil)⟩
  unfold Model.run
  rw [hsame]
  split
  · exact .error _
  · simp only [B.ctx, B'.ctx, B.analysis, hana', B.results, hres', B.forces, B'.forces, dupFirst, py_bind_ok]
    rw [hrows, hn1]
    refine (key _ _ hq).bind ?_
    intro st st' h
    refine .ok ⟨c.nodes, st.2.R, st'.2.R, st.2.stepLpfEnd, hnt, rfl, by rw [← h.ends], h.recs.imp ?_⟩
    intro a b t
    refine ⟨t.same, t.stretch, t.force, t.stress, t.stress0, t.state, ?_, fun p hp => t.g p (t.free p hp)⟩
    intro i l h1 h2
    rw [B.isLabels] at h1
    have hT : ¬ T i := by
      intro hT
      obtain ⟨k, e, q1, q2, q3⟩ := hTl i l hT h1
      exact h2 k e q1 q2 q3
    refine ⟨t.r i hT, ?_⟩
    intro d
    refine t.g _ ?_
    rw [show (3 * i + d.val) / 3 = i by omega]
    exact hT

/-! ## Examples -/

/-- The bar of `exBarModel` and a fully supported third node. -/
def exHeldInput : UserInput ℚ where
  nodes := [⟨1, [0, 0, 0]⟩, ⟨2, [1, 0, 0]⟩, ⟨3, [0, 3, 4]⟩]
  bounds := [⟨1, [0, 0, 0]⟩, ⟨2, [1, 0, 0]⟩, ⟨3, [0, 0, 0]⟩]
  forces := [⟨2, [1, 0, 0, 2, 0, 0]⟩]

def exHeldElems : List (Elem ℚ) := [⟨1, [1, 2], 1, 1, ⟨false, [1]⟩, ⟨false, [1]⟩⟩]

/-- An element between the nodes 1 and 3 before the bar. -/
def exHeldElems' : List (Elem ℚ) := [⟨8, [3, 1], 1, 1, ⟨false, [7]⟩, ⟨false, [5]⟩⟩, ⟨1, [1, 2], 1, 1, ⟨false, [1]⟩, ⟨false, [1]⟩⟩]

def exHeldModel (et : ElemTab ℚ) : Model ℚ :=
  { exBarModel 1 [1] with
    nodes := some ⟨[1, 2, 3], ⟨3, [[0, 0, 0], [1, 0, 0], [0, 3, 4]]⟩⟩
    bounds := some ⟨[1, 2, 3], .d2 ⟨3, [[0, 0, 0], [1, 0, 0], [0, 0, 0]]⟩⟩
    elems := some et }

def exHeldTab : ElemTab ℚ := ⟨[1], ⟨2, [[1, 2]]⟩, [1], [1], ⟨false, 1, [[1]]⟩, ⟨false, 1, [[1]]⟩⟩
def exHeldTab' : ElemTab ℚ := ⟨[8, 1], ⟨2, [[3, 1], [1, 2]]⟩, [1, 1], [1, 1], ⟨false, 1, [[7], [1]]⟩, ⟨false, 1, [[5], [1]]⟩⟩

theorem exHeld_valid : ValidInput exHeldInput exHeldElems 2 ∧ ValidInput exHeldInput exHeldElems' 2 := by
  constructor
  all_goals
    refine ⟨⟨by decide, by decide, by decide, by decide, by decide⟩, ?_, by decide, by decide, by decide, by decide, by decide, by decide,
      by decide, by decide, by decide⟩
    unfold PropsEntered
    decide

/-- The hypotheses of C123. -/
example : Entered exHeldInput (exHeldModel exHeldTab) ∧ EnteredElems exHeldElems (exHeldModel exHeldTab) ∧
    Entered exHeldInput (exHeldModel exHeldTab') ∧ EnteredElems exHeldElems' (exHeldModel exHeldTab') ∧
    AddsHeld exHeldInput [false, true] exHeldElems exHeldElems' ∧ 2 ∉ exHeldElems'.map (·.mtype) ∧
    (exHeldModel exHeldTab').settings = (exHeldModel exHeldTab).settings ∧ (exHeldModel exHeldTab).settings.nsteps = 2 ∧
    Apart [false, true] exHeldElems' 2 := by
  refine ⟨by unfold Entered; decide +kernel, by unfold EnteredElems; decide +kernel, by unfold Entered; decide +kernel,
    by unfold EnteredElems; decide +kernel, ⟨rfl, rfl, ?_⟩, by decide, rfl, rfl, ?_⟩
  · intro k e h1 h2
    match k with
    | 0 =>
      cases h2
      unfold Elem.Held
      decide
    | 1 => cases h1
    | k + 2 => simp at h1
  · intro k e h1 h2
    match k with
    | 0 =>
      cases h2
      decide
    | 1 => cases h1
    | k + 2 => simp at h1

/-- Both runs, computed: displacements and load factors are the same and not trivial; the results of the bar are the second ones
with the added element. -/
example : showR (fun a => (a.U, a.lpf, pick [false, true] a.elementForce)) (buildRun 1 (exHeldModel exHeldTab')) =
      showR (fun a => (a.U, a.lpf, a.elementForce)) (buildRun 1 (exHeldModel exHeldTab)) ∧
    (showR (fun a => a.elementForce) (buildRun 1 (exHeldModel exHeldTab))).toBool = true ∧
    showR (fun a => a.elementForce.length) (buildRun 1 (exHeldModel exHeldTab')) ≠
      showR (fun a => a.elementForce.length) (buildRun 1 (exHeldModel exHeldTab)) := by
  decide +kernel

/-- `exHeldModel` with node 3 in line with the bar and one increment. -/
def exHeldLine (et : ElemTab ℚ) : Model ℚ :=
  { exHeldModel et with
    nodes := some ⟨[1, 2, 3], ⟨3, [[0, 0, 0], [1, 0, 0], [2, 0, 0]]⟩⟩
    settings := { exSettings with nsteps := 1, incs := .const 1, dlpf := 1 / 4, du := 1 / 2, xtol := 4, ftol := 4 } }

/-- An element between the free node 2 and the supported node 3 does change the run. -/
example : showR (fun a => a.U) (buildRun 1 (exHeldLine
      ⟨[8, 1], ⟨2, [[3, 2], [1, 2]]⟩, [1, 1], [1, 1], ⟨false, 1, [[1], [1]]⟩, ⟨false, 1, [[1], [1]]⟩⟩)) ≠
    showR (fun a => a.U) (buildRun 1 (exHeldLine exHeldTab)) := by
  decide +kernel

end TrussPy
