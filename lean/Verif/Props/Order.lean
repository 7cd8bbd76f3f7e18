import Verif.Lemmas.Drawable
import Verif.Props.EndToEnd
import Verif.Props.Plot
import Verif.Props.Equilibrium
/-!
# C78, C79: calls before `build` and before `run`; every result can be drawn
-/

set_option linter.unusedSectionVars false

namespace TrussPy

variable {F : Type} [Zero F] [One F] [Add F] [Sub F] [Mul F] [Div F] [Neg F] [Flt F]

/-! ## C78 -/

/-- **C78** (before `build`) Without `build` there are no results: `run` raises (`AttributeError`, or the `TypeError` of its
table of settings if it prints one), all plots raise `AttributeError`. -/
theorem C78_before_build {m : Model F} (h : m.results = none) (env : Env F) (fuel : Nat) :
    (m.run env fuel = .error .attributeError ∨
      m.run env fuel = .error .typeError ∧ 1 < m.settings.log ∧ m.settings.j0 ≠ none) ∧
    (∀ con inc, pModel m con inc = .error .attributeError) ∧
    (∀ auto view contour lim scale cbar inc, drawModel auto m view contour lim scale cbar inc = .error .attributeError) ∧
    (∀ n0 n1 X Y, pHistory m n0 n1 X Y = .error .attributeError) ∧
    (∀ path inc Y, pPath m path inc Y = .error .attributeError) := by
  refine ⟨?_, ?_, ?_, ?_, ?_⟩
  · unfold Model.run
    split
    · next hl => exact .inr ⟨rfl, hl⟩
    · refine .inl ?_
      rw [h]
      cases m.ctx <;> cases m.analysis <;> rfl
  · intro con inc
    unfold pModel
    rw [h]
    cases m.nodes <;> cases m.elems <;> cases m.forces <;> rfl
  · intro auto view contour lim scale cbar inc
    unfold drawModel
    rw [h]
    cases m.nodes <;> cases m.elems <;> cases m.forces <;> rfl
  · intro n0 n1 X Y
    unfold pHistory
    rw [h]
  · intro path inc Y
    unfold pPath
    rw [h]

/-- **C78** (before `run`) After `build` alone there are no loads and no load factor: `equilibrium` never returns a residual,
and both it and `stiffness` raise `AttributeError` for a vector without load factor. -/
theorem C78_before_run {argsort : List Int → List Nat} {m m1 : Model F} (hb : m.build argsort = .ok m1) :
    ∃ c a, m1.ctx = some c ∧ m1.analysis = some a ∧
      (∀ V V0 write, V.length ≤ c.ndof1 → equilibrium c a V V0 .G write = .error .attributeError) ∧
      (∀ V, V.length ≤ c.ndof1 → stiffness c a V = .error .attributeError) ∧
      (∀ V V0 write out, equilibrium c a V V0 .G write ≠ .ok out) := by
  obtain ⟨c, d, ft, g1, g2, g3, g4, g5, g6, g7, g8, g9, g10, g11, g12⟩ := build_ready hb
  have hsplit : ∀ V V0 : List F, V.length ≤ c.ndof1 →
      splitV c (Analysis.fresh d.nnodes d.nelems d.dof0 d.dof1 c.nstatev) V V0 = .error .attributeError := by
    intro V V0 hV
    unfold splitV
    rw [if_neg (by omega)]
    rfl
  refine ⟨c, _, g1, g10, ?_, ?_, ?_⟩
  · intro V V0 write hV
    unfold equilibrium
    rw [hsplit V V0 hV]
    rfl
  · intro V hV
    unfold stiffness equilibrium
    rw [hsplit V V hV]
    rfl
  · rintro V V0 write ⟨a', g⟩ h
    obtain ⟨f, -, -⟩ := equilibrium_frame h
    unfold equilibrium at h
    obtain ⟨⟨lpf, u, u0⟩, h1, h⟩ := py_bind_eq_ok.1 h
    obtain ⟨b, h2, h⟩ := py_bind_eq_ok.1 h
    obtain ⟨⟨b', um⟩, h3, h⟩ := py_bind_eq_ok.1 h
    simp only at h
    split at h
    · cases h
    · next ef hef =>
      obtain ⟨g', h4, h⟩ := py_bind_eq_ok.1 h
      obtain ⟨gr, h5, h⟩ := py_bind_eq_ok.1 h
      cases h
      have hn := f.ext
      simp only [hef] at hn
      cases hn

/-- The nodes of the input are named 1, 2, ..., n, entered in any order. -/
def NamedOneToN (u : UserInput F) : Prop :=
  (u.nodes.map (·.label)).Perm ((List.range u.nodes.length).map fun (i : Nat) => (i : Int) + 1)

theorem NamedOneToN.consecutive {u : UserInput F} (h : NamedOneToN u) {labels : List Int}
    (hp : labels.Perm (u.nodes.map (·.label))) (hs : labels.Pairwise (· < ·)) : Consecutive labels := by
  have : labels = (List.range u.nodes.length).map fun (i : Nat) => (i : Int) + 1 := by
    apply List.Perm.eq_of_pairwise (le := (· < ·)) (fun a b _ _ h1 h2 => by omega) hs _ (hp.trans h)
    rw [List.pairwise_map]
    exact List.pairwise_lt_range.imp (by intro a b hab; omega)
  subst this
  intro i l hl
  rw [List.getElem?_map, Option.map_eq_some_iff] at hl
  obtain ⟨j, hj, rfl⟩ := hl
  rw [List.getElem?_eq_some_iff] at hj
  obtain ⟨hj1, hj2⟩ := hj
  rw [List.getElem_range] at hj2
  rw [hj2]

/-- Tables of a model built from valid input with nodes 1, ..., n. -/
theorem built_tables {argsort : List Int → List Nat} (has : IsArgsort argsort) {u : UserInput F} {es : List (Elem F)}
    {m m1 : Model F} {nsteps : Nat} (hu : Entered u m) (he : EnteredElems es m) (hv : ValidInput u es nsteps)
    (hone : NamedOneToN u) (hb : m.build argsort = .ok m1) :
    ∃ c ft, m1.ctx = some c ∧ m1.forces = some ft ∧ Consecutive c.nodes.labels ∧
      c.nodes.labels.Perm (u.nodes.map (·.label)) ∧ c.nnodes = c.nodes.labels.length ∧
      c.nodes.coords.rows = c.nodes.labels.map (coordOf u.nodes) ∧ (∀ row ∈ c.nodes.coords.rows, row.length = 3) ∧
      c.elems.conns.rows = es.map (·.conn) ∧ c.elems.labels.length = es.length ∧
      (∀ e ∈ c.elems.conns.rows, ∃ a b : Nat, e = [(a : Int) + 1, (b : Int) + 1] ∧
        a < c.nodes.coords.rows.length ∧ b < c.nodes.coords.rows.length) ∧
      ft.forces.rows = c.nodes.labels.map (loadOf u.forces) ∧ ∀ row ∈ ft.forces.rows, row.length = loadWidth u.forces := by
  obtain ⟨c, bars, hc, hB, hperm, hsort, hm⟩ := C61_structure_as_entered has hu he hv.posed hb
  have hcons := hone.consecutive hperm hsort
  obtain ⟨s⟩ := build_steps hb
  have het := he
  unfold EnteredElems at het
  rw [s.he] at het
  have h2 := two_nodes het hv.posed
  obtain ⟨t1, t2, -⟩ := addElems_tab het
  obtain ⟨c1, c2, c3, c4, c5, c6, c7, c8, c9, c10, c11⟩ := build_closed has hu hv.posed.nodes h2 s
  have hnt : c.nodes = s.nt := by
    have h1 := ctx_nodes hc
    have := congrArg Model.nodes s.hm'
    rw [h1] at this
    exact Option.some.inj this
  have hel : c.elems = s.et := by
    obtain ⟨c', d, ft, g1, g2, g3, g4, -⟩ := build_ready hb
    rw [hc] at g1; cases g1
    have := congrArg Model.elems s.hm'
    rw [g4] at this
    exact Option.some.inj (this.trans s.he)
  refine ⟨c, s.ft, hc, congrArg Model.forces s.hm', hcons, hperm, hB.nnodes, by rw [hnt]; exact c4, ?_, by rw [hel]; exact t2,
    by rw [hel, t1, List.length_map], ?_, by rw [hnt, c8], ?_⟩
  · intro row hrow
    rw [hnt, c4] at hrow
    obtain ⟨l, hl, rfl⟩ := List.mem_map.1 hrow
    obtain ⟨n, hn, hnl⟩ := List.mem_map.1 (c1.mem_iff.1 hl)
    rw [← hnl, coordOf_mem hv.posed.nodes hn]
    exact hv.posed.coords n hn
  · intro e hemem
    rw [hel, t2] at hemem
    obtain ⟨e, hee, rfl⟩ := List.mem_map.1 hemem
    obtain ⟨nA, hA, nE, hE, hconn, -⟩ := hv.posed.joins e hee
    have hpos : ∀ n ∈ u.nodes, ∃ a : Nat, n.label = (a : Int) + 1 ∧ a < c.nodes.coords.rows.length := by
      intro n hn
      obtain ⟨a, ha⟩ := List.getElem?_of_mem (hperm.mem_iff.2 (List.mem_map_of_mem hn))
      refine ⟨a, hcons a _ ha, ?_⟩
      rw [hnt, c4, List.length_map, ← hnt]
      exact (List.getElem?_eq_some_iff.1 ha).1
    obtain ⟨a, ha, ha'⟩ := hpos nA hA
    obtain ⟨b, hb, hb'⟩ := hpos nE hE
    exact ⟨a, b, by rw [hconn, ha, hb], ha', hb'⟩
  · intro row hrow
    rw [c8] at hrow
    obtain ⟨l, hl, rfl⟩ := List.mem_map.1 hrow
    exact c9 l hl

/-- Undeformed positions: adding no displacement. -/
theorem deformed_zero {coords : List (List ℝ)} (n : Nat) : deformed coords (List.replicate n 0) = coords := by
  have h0 : ∀ j, (List.replicate n (0 : ℝ)).getD j 0 = 0 := by
    intro j
    rw [List.getD_eq_getElem?_getD, List.getElem?_replicate]
    split <;> rfl
  have hz : ∀ (l : List ℝ), (l.zipIdx.map fun q => q.1) = l := fun l => List.zipIdx_map_fst 0 l
  unfold deformed
  simp only [h0, add_zero, hz]
  exact List.zipIdx_map_fst 0 coords

/-- Loads without constant part and with load factor 1. -/
theorem plotLoads_plain {rows : List (List ℝ)} {n : Nat} (h3 : ∀ row ∈ rows, row.length = 3) (hl : n = 3 * rows.length) :
    plotLoads (List.replicate n 0) 1 rows = .ok rows := by
  have h0 : ∀ j, (List.replicate n (0 : ℝ)).getD j 0 = 0 := by
    intro j
    rw [List.getD_eq_getElem?_getD, List.getElem?_replicate]
    split <;> rfl
  have hz : ∀ (l : List ℝ), (l.zipIdx.map fun q => q.1) = l := fun l => List.zipIdx_map_fst 0 l
  unfold plotLoads
  rw [if_pos ⟨h3, by simpa using hl⟩]
  simp only [h0, zero_add, one_mul, hz]
  exact congrArg _ (List.zipIdx_map_fst 0 rows)

/-- **C78** (preview) After `build` and before `run`, `plot_model` shows the structure as entered, provided the nodes are named
1, ..., n: every node at its coordinates with its load of the first step in full, every element as a line between its nodes, and
no contour, whatever contour is asked for. -/
theorem C78_preview {argsort : List Int → List Nat} (has : IsArgsort argsort) {u : UserInput ℝ} {es : List (Elem ℝ)}
    {m m1 : Model ℝ} {nsteps : Nat} (hu : Entered u m) (he : EnteredElems es m) (hv : ValidInput u es nsteps)
    (hn : 0 < nsteps) (hone : NamedOneToN u) (hb : m.build argsort = .ok m1) (con : Option Contour) {inc : Int}
    (hi : inc = 0 ∨ inc = -1) :
    ∃ d, pModel m1 con inc = .ok d ∧ d.contour = none ∧ d.points.length = u.nodes.length ∧
      d.loads.length = u.nodes.length ∧ d.segments.length = es.length ∧
      (∀ n ∈ u.nodes, ∃ i : Nat, n.label = (i : Int) + 1 ∧ d.points[i]? = some n.coord ∧
        d.loads[i]? = some ((loadOf u.forces n.label).take 3)) ∧
      ∀ (k : Nat) (e : Elem ℝ), es[k]? = some e → ∃ nA ∈ u.nodes, ∃ nE ∈ u.nodes, e.conn = [nA.label, nE.label] ∧
        d.segments[k]? = some (nA.coord, nE.coord) := by
  obtain ⟨c, ft, b1, b2, b3, b4, b5, b6, b7, b8, b9, b10, b11, b12⟩ := built_tables has hu he hv hone hb
  obtain ⟨c', d, ft', g1, g2, g3, g4, g5, g6, g7, g8, g9, g10, g11, g12⟩ := build_ready hb
  rw [b1] at g1; cases g1
  rw [b2] at g3; cases g3
  have hlen : c.nodes.labels.length = u.nodes.length := by simpa using b4.length_eq
  have hdn : d.nnodes = u.nodes.length := by omega
  have hslice : stepSlice ft.forces.rows 0 = c.nodes.labels.map fun l => (loadOf u.forces l).take 3 := by
    unfold stepSlice
    rw [b11, List.map_map]
    rfl
  have hw : ∀ row ∈ stepSlice ft.forces.rows 0, row.length = 3 := by
    intro row hrow
    obtain ⟨r', hr', rfl⟩ := List.mem_map.1 hrow
    have := b12 r' hr'
    have := hv.width
    simp only [List.length_take, List.length_drop]
    omega
  have hnames : NamesResult 1 inc 0 := ⟨by omega, by rcases hi with rfl | rfl <;> simp⟩
  obtain ⟨segs, hs⟩ := mapM_total (l := c.elems.conns.rows) (f := plotSegment c.nodes.coords.rows) (by
    intro e he
    obtain ⟨a, b, rfl, ha, hb⟩ := b10 e he
    exact ⟨_, plotSegment_total ha hb⟩)
  have hrow : ∀ n ∈ u.nodes, ∃ i : Nat, n.label = (i : Int) + 1 ∧ c.nodes.labels[i]? = some n.label ∧
      c.nodes.coords.rows[i]? = some n.coord := by
    intro n hn
    obtain ⟨i, hi⟩ := List.getElem?_of_mem (b4.mem_iff.2 (List.mem_map_of_mem hn))
    refine ⟨i, b3 i _ hi, hi, ?_⟩
    rw [b6, List.getElem?_map, hi, Option.map_some, coordOf_mem hv.posed.nodes hn]
  refine ⟨⟨stepSlice ft.forces.rows 0, c.nodes.coords.rows, segs, none⟩, ?_, rfl, ?_, ?_, ?_, ?_, ?_⟩
  · unfold pModel
    rw [g5, g4, b2, g11]
    simp only [List.length_singleton]
    have := names_inc hnames
    rw [this]
    have hget : ∀ r : Analysis ℝ, pyGet [r] ((0 : Nat) : Int) = .ok r := fun r => rfl
    rw [hget, py_bind_ok]
    simp only [plotFactor, Nat.cast_zero, if_true, py_bind_ok, plotContour]
    have h1 : plotLoads (List.replicate (3 * d.nnodes) 0) 1 (stepSlice ft.forces.rows
        ((Analysis.fresh d.nnodes d.nelems d.dof0 d.dof1 c.nstatev : Analysis ℝ).step - 1)) = .ok (stepSlice ft.forces.rows 0) :=
      plotLoads_plain hw (by
        show _ = 3 * (stepSlice ft.forces.rows 0).length
        rw [hslice, List.length_map]; omega)
    rw [h1, py_bind_ok]
    have h2 : deformed c.nodes.coords.rows (Analysis.fresh d.nnodes d.nelems d.dof0 d.dof1 c.nstatev : Analysis ℝ).U =
        c.nodes.coords.rows := deformed_zero _
    rw [h2, hs]
    rfl
  · show c.nodes.coords.rows.length = _
    rw [b6, List.length_map, hlen]
  · show (stepSlice ft.forces.rows 0).length = _
    rw [hslice, List.length_map, hlen]
  · show segs.length = _
    rw [(mapM_get hs).1, b8, List.length_map]
  · intro n hn
    obtain ⟨i, h1, h2, h3⟩ := hrow n hn
    refine ⟨i, h1, h3, ?_⟩
    show (stepSlice ft.forces.rows 0)[i]? = _
    rw [hslice, List.getElem?_map, h2]
    rfl
  · intro k e hk
    obtain ⟨nA, hA, nE, hE, hconn, -⟩ := hv.posed.joins e (List.mem_of_getElem? hk)
    refine ⟨nA, hA, nE, hE, hconn, ?_⟩
    obtain ⟨y, y1, y2⟩ := (mapM_get hs).2 k e.conn (by rw [b8, List.getElem?_map, hk]; rfl)
    show segs[k]? = _
    rw [y1]
    obtain ⟨a, a1, a2, a3⟩ := hrow nA hA
    obtain ⟨b, e1, e2, e3⟩ := hrow nE hE
    obtain ⟨ha, ha'⟩ := List.getElem?_eq_some_iff.1 a3
    obtain ⟨hb, hb'⟩ := List.getElem?_eq_some_iff.1 e3
    rw [hconn, a1, e1, plotSegment_total ha hb, ha', hb'] at y2
    rw [← Except.ok.inj y2]

/-- The bar of the examples, nodes entered as 2, 1: the preview shows both ends, the unit load and the line between. -/
example : ∃ m1 d, rbModel.build refArgsort = .ok m1 ∧ pModel m1 none (-1) = .ok d ∧ d.points = [[0, 0, 0], [1, 0, 0]] ∧
    d.loads[1]? = some [1, 0, 0] ∧ d.segments = [([0, 0, 0], [1, 0, 0])] := by
  obtain ⟨m1, m2, hb, -⟩ := rbRuns
  have hone : NamedOneToN rbInput := by
    show ([2, 1] : List Int).Perm [1, 2]
    decide
  obtain ⟨d, h1, -, h3, -, h5, h6, h7⟩ := C78_preview (refArgsort_isArgsort) rbEntered rbEnteredElems rbValid
    (by decide) hone hb none (inc := -1) (.inr rfl)
  obtain ⟨i, i1, i2, i3⟩ := h6 ⟨2, [1, 0, 0]⟩ (by simp [rbInput])
  obtain ⟨j, j1, j2, j3⟩ := h6 ⟨1, [0, 0, 0]⟩ (by simp [rbInput])
  obtain rfl : i = 1 := by simp only at i1; omega
  obtain rfl : j = 0 := by simp only at j1; omega
  have hl : loadOf rbInput.forces 2 = [1, 0, 0] := by
    simp [loadOf, rbInput]
  refine ⟨m1, d, hb, h1, ?_, ?_, ?_⟩
  · apply List.ext_getElem? 
    intro k
    match k with
    | 0 => simpa using j2
    | 1 => simpa using i2
    | k + 2 =>
      rw [List.getElem?_eq_none (by rw [h3]; show 2 ≤ k + 2; omega)]
      simp
  · rw [i3, hl]
    rfl
  · obtain ⟨nA, hA, nE, hE, hconn, hseg⟩ := h7 0 ⟨1, [1, 2], 1, 1, ⟨false, [1]⟩, ⟨false, [1]⟩⟩ rfl
    simp only [rbInput, List.mem_cons, List.not_mem_nil, or_false] at hA hE
    have hs : d.segments[0]? = some ([0, 0, 0], [1, 0, 0]) := by
      rcases hA with rfl | rfl <;> rcases hE with rfl | rfl <;> first | exact hseg | (simp at hconn)
    match hd : d.segments, h5 with
    | [x], _ =>
      rw [hd] at hs
      simpa using hs

/-- Other increments do not exist before `run` (-2 is counted from the end twice, see `C49_counts_twice_counterexample`). -/
theorem C78_preview_only {argsort : List Int → List Nat} {m m1 : Model F} (hb : m.build argsort = .ok m1)
    (con : Option Contour) {inc : Int} (hi : inc < -2 ∨ 0 < inc) : pModel m1 con inc = .error .indexError := by
  obtain ⟨c', d, ft', g1, g2, g3, g4, g5, g6, g7, g8, g9, g10, g11, g12⟩ := build_ready hb
  unfold pModel
  rw [g5, g4, g3, g11]
  simp only [List.length_singleton]
  have : ∀ (r : Analysis F), pyGet [r] (if inc < 0 then ((1 : Nat) : Int) + inc else inc) = .error .indexError := by
    intro r
    rcases hi with hi | hi
    · rw [if_pos (by omega)]
      unfold pyGet
      simp only [List.length_singleton]
      rw [if_pos (by split <;> omega)]
    · rw [if_neg (by omega)]
      unfold pyGet
      simp only [List.length_singleton]
      rw [if_neg (by split <;> omega), if_pos (by omega), List.getElem?_eq_none (by simp only [List.length_singleton]; omega)]
  rw [this]
  rfl

/-! ## C79 -/

/-- Every record has a constant load of the size of the load table. -/
theorem Steps.consts {env : Env F} {fuel : Nat} {c : Ctx F} {s : Settings F} {rows : List (List F)}
    {a0 : Analysis F} {r0 : Results F} {outs : List (PFOut F)} {a : Analysis F} {res : Results F}
    (h : Steps env fuel c s rows a0 r0 outs a res) : ∀ r ∈ recorded outs, ∃ k ef, k < outs.length ∧ r.a.step = k + 1 ∧
      r.a.extForces = some ef ∧ ef.forcesConst.length = (stepSlice rows k).flatten.length := by
  induction h with
  | nil => intro r hr; simp [recorded] at hr
  | @snoc outs a res incs xl a1 o R l hs h1 h2 h3 h4 h5 h6 ih =>
    intro r hr
    rw [recorded_snoc, List.mem_append] at hr
    rcases hr with hr | hr
    · obtain ⟨k, ef, hk, h⟩ := ih r hr
      exact ⟨k, ef, by simp; omega, h⟩
    · obtain ⟨e1, e2, -⟩ := pathfollow_loads h4 r hr
      obtain ⟨-, hst, -, fc, hfc, hext, -⟩ := setStep_ok h3
      exact ⟨outs.length, _, by simp, by rw [e1, hst], by rw [e2, hext], constLoad_length hfc⟩

theorem flatten_length_three {rows : List (List F)} {k w : Nat} (hw : ∀ row ∈ rows, row.length = w) (hk : 3 * (k + 1) ≤ w) :
    (stepSlice rows k).flatten.length = 3 * rows.length := by
  unfold stepSlice
  induction rows with
  | nil => rfl
  | cons r rows ih =>
    rw [List.map_cons, List.flatten_cons, List.length_append, ih fun row h => hw row (by simp [h])]
    have := hw r (by simp)
    simp only [List.length_take, List.length_drop, List.length_cons]
    omega

/-- Every result of a run can be drawn. -/
theorem run_drawable {argsort : List Int → List Nat} (has : IsArgsort argsort) {u : UserInput F} {es : List (Elem F)}
    {m m1 m2 : Model F} (hu : Entered u m) (he : EnteredElems es m) (hv : ValidInput u es m.settings.nsteps)
    (hn : 0 < m.settings.nsteps) (hone : NamedOneToN u) (hb : m.build argsort = .ok m1) {env : Env F} {fuel : Nat}
    (hr : m1.run env fuel = .ok m2) :
    ∃ nt et ft res, m2.nodes = some nt ∧ m2.elems = some et ∧ m2.forces = some ft ∧ m2.results = some res ∧
      ∀ r ∈ res.R, CanDraw nt.coords.rows et.conns.rows ft.forces.rows r := by
  obtain ⟨c, ft, b1, b2, b3, b4, b5, b6, b7, b8, b9, b10, b11, b12⟩ := built_tables has hu he hv hone hb
  obtain ⟨c', d, ft', g1, g2, g3, g4, g5, g6, g7, g8, g9, g10, g11, g12⟩ := build_ready hb
  rw [b1] at g1; cases g1
  rw [b2] at g3; cases g3
  obtain ⟨c2, a, res0, ft2, q0, rest, k1, k2, k3, k4, k5, -, k6, k7, -, k8, k9, -, outs, a2, R, le, k10, k11, k12⟩ := run_ok hr
  rw [b1] at k1; cases k1
  rw [g11] at k3; cases k3
  rw [b2] at k4; cases k4
  simp only [List.cons.injEq] at k5
  obtain ⟨rfl, rfl⟩ := k5
  have hns : m1.settings.nsteps = m.settings.nsteps := by
    obtain ⟨s⟩ := build_steps hb
    exact (congrArg (fun q : Model F => q.settings.nsteps) s.hm').trans rfl
  have hX : c.nodes.coords.rows.length = c.nnodes := by rw [b6, List.length_map, b5]
  have hP : ft.forces.rows.length = c.nodes.coords.rows.length := by rw [b11, List.length_map, hX, b5]
  have hE : c.elems.conns.rows.length = es.length := by rw [b8, List.length_map]
  have hEne : c.elems.conns.rows ≠ [] := by
    intro h
    rw [h] at hE
    exact hv.elems (List.length_eq_zero_iff.1 hE.symm)
  rcases k12 with ⟨e, -, -⟩ | ⟨e, e2, -⟩
  · omega
  · obtain ⟨u0, hu0⟩ := Steps.layout (X := [_]) k11
    simp only at hu0
    refine ⟨c.nodes, c.elems, ft, _, k6.trans g5, k7.trans g4, k8.trans b2, e2, ?_⟩
    have hres := e2
    obtain ⟨c3, d3, z1, z2, z3, z4⟩ := run_sizes hb hr e2
    rw [b1] at z1; cases z1
    intro r hrR
    obtain ⟨hfit, l, hl⟩ := z4 r hrR
    have hstep : 1 ≤ r.step ∧ r.step ≤ m.settings.nsteps ∧
        ∃ ef, r.extForces = some ef ∧ ef.forcesConst.length = 3 * c.nodes.coords.rows.length := by
      simp only [hu0, List.dropLast_concat, List.mem_append, List.mem_singleton, List.mem_map] at hrR
      rcases hrR with rfl | ⟨q, hq, rfl⟩
      · refine ⟨le_refl 1, hn, _, rfl, ?_⟩
        show (List.replicate (3 * d.nnodes) (0 : F)).length = _
        rw [List.length_replicate, hX, g6]
      · obtain ⟨k, ef, y1, y2, y3, y4⟩ := k11.consts q hq
        have hw := hv.width
        refine ⟨by omega, by omega, ef, y3, ?_⟩
        rw [y4, flatten_length_three b12 (by omega), hP]
    obtain ⟨s1, s2, s3⟩ := hstep
    exact
      { coords := b7
        conns := b10
        elems := hEne
        rows := hP
        width := by
          intro row hrow
          rw [b12 row hrow]
          have := hv.width
          omega
        step := s1
        lpf := by rw [hl]; rfl
        const := s3
        stretch := by rw [hfit.stretch, b9, hE]
        force := by rw [hfit.force, b9, hE]
        stress := by rw [hfit.stress, b9, hE] }

/-- **C79** Every result of a run can be drawn: for valid input with nodes 1, ..., n, every increment which names a result
(from the front or from the end), every view, every contour and all limits which fit to the view, `plot_model` returns. -/
theorem C79_every_result_drawable {argsort : List Int → List Nat} (has : IsArgsort argsort) {u : UserInput F}
    {es : List (Elem F)} {m m1 m2 : Model F} (hu : Entered u m) (he : EnteredElems es m)
    (hv : ValidInput u es m.settings.nsteps) (hn : 0 < m.settings.nsteps) (hone : NamedOneToN u)
    (hb : m.build argsort = .ok m1) {env : Env F} {fuel : Nat} (hr : m1.run env fuel = .ok m2) {res : Results F}
    (hres : m2.results = some res) {inc : Int} {k : Nat} (hk : NamesResult res.R.length inc k) :
    (∀ con, ∃ d, pModel m2 con inc = .ok d) ∧
      ∀ (auto : List (Cmd F) → (F × F) × (F × F)) (view : PlotView) (contour : ContourArg F) (cbar : CbarArg F)
        (lim : LimScale F) (scale : F), view ≠ .other → ContourOK contour cbar → LimOK view lim →
        ∃ cmds, drawModel auto m2 view contour lim scale cbar inc = .ok cmds := by
  obtain ⟨nt, et, ft, res', h1, h2, h3, h4, h5⟩ := run_drawable has hu he hv hn hone hb hr
  rw [hres] at h4; cases h4
  have hkl : k < res.R.length := by
    have := hk
    unfold NamesResult at this
    exact this.1
  have hg : res.R[k]? = some res.R[k] := List.getElem?_eq_getElem hkl
  have hd := h5 _ (List.getElem_mem hkl)
  exact ⟨fun con => pModel_total h1 h2 h3 hres hk hg hd con,
    fun auto view contour cbar lim scale hv hc hl => drawModel_total h1 h2 h3 hres hk hg hd hv hc hl scale⟩

/-- **C79** (movie) A movie over results of the run is made, whatever is in `figures`, unless that is a plain file. -/
theorem C79_movie {argsort : List Int → List Nat} (has : IsArgsort argsort) {u : UserInput F}
    {es : List (Elem F)} {m m1 m2 : Model F} (hu : Entered u m) (he : EnteredElems es m)
    (hv : ValidInput u es m.settings.nsteps) (hn : 0 < m.settings.nsteps) (hone : NamedOneToN u)
    (hb : m.build argsort = .ok m1) {env : Env F} {fuel : Nat} (hr : m1.run env fuel = .ok m2) {res : Results F}
    (hres : m2.results = some res) {incs : List Int} (hi : ∀ i ∈ incs, ∃ k, NamesResult res.R.length i k)
    {disk : OnDisk (PlotData F)} (hd : disk ≠ .file) (con : Option Contour) :
    ∃ pics, pMovie (pModel m2 con) disk incs = .ok pics := by
  apply C51_movie_exists hd
  intro i hii
  obtain ⟨k, hk⟩ := hi i hii
  exact (C79_every_result_drawable has hu he hv hn hone hb hr hres hk).1 con

/-- The run of the bar of the examples has two results; both can be drawn, in space with forces as colours and in the plane
without, and a movie of both is made. -/
example : ∃ m1 m2 res, rbModel.build refArgsort = .ok m1 ∧ m1.run rbEnv 4 = .ok m2 ∧ m2.results = some res ∧
    res.R.length = 2 ∧
    (∃ cmds, drawModel (fun _ => ((0, 1), (0, 1))) m2 .d3 (.name .force) (.scalar 1) 1 .auto (-1) = .ok cmds) ∧
    (∃ cmds, drawModel (fun _ => ((0, 1), (0, 1))) m2 .xy .none (.tuple [0, 1, 0, 1]) 1 .auto 0 = .ok cmds) ∧
    ∃ pics, pMovie (pModel m2 none) .absent [0, 1] = .ok pics := by
  obtain ⟨m1, m2, hb, hr⟩ := rbRuns
  have hone : NamedOneToN rbInput := by
    show ([2, 1] : List Int).Perm [1, 2]
    decide
  obtain ⟨_, _, _, _, _, _, h1, -, -, -, -, -, -, -, -, -, -, -, n, hs⟩ :=
    rbValid.built refArgsort_isArgsort rbEntered rbEnteredElems rfl
  rw [hb] at h1; cases h1
  obtain ⟨c, bars, res, r0, outs, e1, e2, e3, e4, e5, e6, e7⟩ := C62_accepted_is_equilibrium refArgsort_isArgsort rbEntered
    rbEnteredElems rbValid.posed rbValid.supports hb hr (by rw [hs]; exact Nat.one_pos) (by rw [hs]; exact (le_refl 3))
  obtain ⟨r, k1, k2, k3⟩ := rbAccepted hb e1 e5
  have hlen : res.R.length = 2 := by rw [e6, k1]; rfl
  have hdraw := fun {inc : Int} {k : Nat} => C79_every_result_drawable (inc := inc) (k := k) refArgsort_isArgsort rbEntered
    rbEnteredElems rbValid (by decide) hone hb hr e4
  refine ⟨m1, m2, res, hb, hr, e4, hlen, (hdraw (k := 1) ⟨by omega, by omega⟩).2 _ _ _ _ _ _ (by decide) trivial trivial,
    (hdraw (k := 0) ⟨by omega, by omega⟩).2 _ _ _ _ _ _ (by decide) trivial (fun h => by simp at h), ?_⟩
  apply C79_movie refArgsort_isArgsort rbEntered rbEnteredElems rbValid (by decide) hone hb hr e4 _ (by simp)
  intro i hi
  simp only [List.mem_cons, List.not_mem_nil, or_false] at hi
  rcases hi with rfl | rfl
  · exact ⟨0, by omega, by omega⟩
  · exact ⟨1, by omega, by omega⟩

end TrussPy
