import Verif.Spec.RoundedRun
import Verif.Lemmas.TrailRun
/-!
# Entered data in a number format and in real numbers
-/

set_option linter.unusedSectionVars false

namespace TrussPy

section
variable {F : Type} {val : F → ℝ}

/-! ## The calls that enter the data -/

def NodeTab.image (val : F → ℝ) (t : NodeTab F) : NodeTab ℝ := ⟨t.labels, ⟨t.coords.cols, t.coords.rows.map (List.map val)⟩⟩

def ForceTab.image (val : F → ℝ) (t : ForceTab F) : ForceTab ℝ := ⟨t.nodes, ⟨t.forces.cols, t.forces.rows.map (List.map val)⟩⟩

def ElemTab.image (val : F → ℝ) (t : ElemTab F) : ElemTab ℝ :=
  ⟨t.labels, t.conns, t.etype, t.mtype, ⟨t.mprop.isInt, t.mprop.cols, t.mprop.rows.map (List.map val)⟩,
    ⟨t.gprop.isInt, t.gprop.cols, t.gprop.rows.map (List.map val)⟩⟩

theorem foldlM_image {α β α' β' : Type} {f : β → α → Py β} {f' : β' → α' → Py β'} {g : α → α'} {k : β → β'}
    (h : ∀ b a c, f b a = .ok c → f' (k b) (g a) = .ok (k c)) :
    ∀ (l : List α) (b c : β), l.foldlM f b = .ok c → (l.map g).foldlM f' (k b) = .ok (k c) := by
  intro l
  induction l with
  | nil =>
    intro b c hb
    cases hb
    rfl
  | cons a l ih =>
    intro b c hb
    rw [List.foldlM_cons] at hb
    obtain ⟨d, h1, h2⟩ := py_bind_eq_ok.1 hb
    rw [List.map_cons, List.foldlM_cons, h _ _ _ h1]
    exact ih _ _ h2

theorem addNode_image (b : Option (NodeTab F)) (n : Node F) (c : Option (NodeTab F)) (h : addNode b n = .ok c) :
    addNode (b.map (NodeTab.image val)) (n.image val) = .ok (c.map (NodeTab.image val)) := by
  cases b with
  | none =>
    cases h
    simp [addNode, Tab.ofRow, Node.image, NodeTab.image]
  | some t =>
    unfold addNode Tab.vstack at h ⊢
    obtain ⟨x, h1, h2⟩ := py_bind_eq_ok.1 h
    cases h2
    split at h1
    next hl =>
      cases h1
      simp [Node.image, NodeTab.image, hl]
    next hl => cases h1

theorem addForce_image (b : Option (ForceTab F)) (n : ExtForce F) (c : Option (ForceTab F)) (h : addForce b n = .ok c) :
    addForce (b.map (ForceTab.image val)) (n.image val) = .ok (c.map (ForceTab.image val)) := by
  cases b with
  | none =>
    cases h
    simp [addForce, Tab.ofRow, ExtForce.image, ForceTab.image]
  | some t =>
    unfold addForce Tab.vstack at h ⊢
    obtain ⟨x, h1, h2⟩ := py_bind_eq_ok.1 h
    cases h2
    split at h1
    next hl =>
      cases h1
      simp [ExtForce.image, ForceTab.image, hl]
    next hl => cases h1

theorem addElem_image (b : Option (ElemTab F)) (e : Elem F) (c : Option (ElemTab F)) (h : addElem b e = .ok c) :
    addElem (b.map (ElemTab.image val)) (e.image val) = .ok (c.map (ElemTab.image val)) := by
  cases b with
  | none =>
    cases h
    simp [addElem, Tab.ofRow, PTab.ofRow, Elem.image, ElemTab.image]
  | some t =>
    unfold addElem Tab.vstack PTab.vstack at h ⊢
    obtain ⟨x, h1, h⟩ := py_bind_eq_ok.1 h
    obtain ⟨y, h2, h⟩ := py_bind_eq_ok.1 h
    obtain ⟨z, h3, h⟩ := py_bind_eq_ok.1 h
    cases h
    split at h1
    next hl1 =>
      split at h2
      next hl2 =>
        split at h3
        next hl3 =>
          cases h1; cases h2; cases h3
          simp [Elem.image, ElemTab.image, hl1, hl2, hl3]
        next => cases h3
      next => cases h2
    next => cases h1

/-- A model with the same data in real numbers. -/
theorem entered_image {u : UserInput F} {es : List (Elem F)} {m : Model F} (hu : Entered u m) (he : EnteredElems es m) :
    ∃ m' : Model ℝ, Entered (u.image val) m' ∧ EnteredElems (es.map (Elem.image val)) m' ∧ m'.settings.ndim = 3 ∧ m'.settings.nstatev = 0 := by
  refine ⟨⟨m.nodes.map (NodeTab.image val), m.elems.map (ElemTab.image val), m.bounds, m.forces.map (ForceTab.image val),
    { maxfac := 1, minfac := 1, increase := 1, reduce := 1, dxtol := 1, dlpf := 1, du := 1, xlimit := .const 1 1, nstatev := 0 }, none, none, none⟩,
    ⟨?_, hu.2.1, ?_⟩, ?_, rfl, rfl⟩
  · exact foldlM_image (k := Option.map (NodeTab.image val)) addNode_image u.nodes none m.nodes hu.1
  · exact foldlM_image (k := Option.map (ForceTab.image val)) addForce_image u.forces none m.forces hu.2.2
  · exact foldlM_image (k := Option.map (ElemTab.image val)) addElem_image es none m.elems he

/-- The data are complete if those they stand for are. -/
theorem ValidInput.of_image {u : UserInput F} {es : List (Elem F)} {n : Nat} (h : ValidInput (u.image val) (es.map (Elem.image val)) n) :
    ValidInput u es n := by
  have hlab : (u.image val).nodes.map (·.label) = u.nodes.map (·.label) := by
    simp [UserInput.image, Node.image, Function.comp_def]
  have helab : (es.map (Elem.image val)).map (·.label) = es.map (·.label) := by
    simp [Elem.image, Function.comp_def]
  have hfn : (u.image val).forces.map (·.node) = u.forces.map (·.node) := by
    simp [UserInput.image, ExtForce.image, Function.comp_def]
  have hnode : ∀ {n' : Node ℝ}, n' ∈ (u.image val).nodes → ∃ n ∈ u.nodes, n.label = n'.label := by
    intro n' hn
    obtain ⟨n, h1, rfl⟩ := List.mem_map.1 hn
    exact ⟨n, h1, rfl⟩
  refine ⟨⟨by rw [← hlab]; exact h.posed.nodes, by rw [← helab]; exact h.posed.elems, ?_, ?_, ?_⟩, ?_, ?_, h.supports, h.supportsOnce, ?_,
    ?_, by rw [← hfn]; exact h.loadsOnce, ?_, ?_, ?_⟩
  · intro n hn
    have := h.posed.coords _ (List.mem_map_of_mem hn)
    simpa [Node.image] using this
  · intro e he
    obtain ⟨nA, hA, nE, hE, h1, h2⟩ := h.posed.joins _ (List.mem_map_of_mem he)
    obtain ⟨a, ha, hal⟩ := hnode hA
    obtain ⟨b, hb, hbl⟩ := hnode hE
    exact ⟨a, ha, b, hb, by rw [hal, hbl]; exact h1, by rw [hal, hbl]; exact h2⟩
  · intro e he
    exact h.posed.law _ (List.mem_map_of_mem he)
  · intro e he
    have := h.props _ (List.mem_map_of_mem he)
    simpa [Elem.image] using this
  · intro hn
    exact h.elems (by rw [hn]; rfl)
  · intro b hb
    obtain ⟨n', hn, hl⟩ := h.supportsAt b hb
    obtain ⟨n, h1, h2⟩ := hnode hn
    exact ⟨n, h1, h2.trans hl⟩
  · intro hn
    exact h.loads (by show u.forces.map _ = []; rw [hn]; rfl)
  · intro f hf
    obtain ⟨n', hn, hl⟩ := h.loadsAt _ (List.mem_map_of_mem hf)
    obtain ⟨n, h1, h2⟩ := hnode hn
    exact ⟨n, h1, h2.trans hl⟩
  · have := h.width
    have e : loadWidth (u.image val).forces = loadWidth u.forces := by
      show loadWidth (u.forces.map (ExtForce.image val)) = _
      cases u.forces with
      | nil => rfl
      | cons f fs => simp [loadWidth, ExtForce.image]
    rwa [e] at this
  · have := h.free
    have e : freeCount (u.image val) = freeCount u := by
      unfold freeCount
      show ((u.nodes.map (Node.image val)).map _).sum = _
      rw [List.map_map]
      rfl
    rwa [e] at this

/-! ## Tables -/

theorem loadOf_image [Zero F] (h0 : val 0 = 0) (fs : List (ExtForce F)) (l : Int) :
    loadOf (fs.map (ExtForce.image val)) l = (loadOf fs l).map val := by
  unfold loadOf
  rw [List.find?_map]
  have : ((fun f : ExtForce ℝ => f.node == l) ∘ ExtForce.image val) = fun f : ExtForce F => f.node == l := rfl
  rw [this]
  cases fs.find? (fun f => f.node == l) with
  | some f => rfl
  | none =>
    show List.replicate (loadWidth (fs.map (ExtForce.image val))) 0 = (List.replicate (loadWidth fs) 0).map val
    rw [List.map_replicate, h0]
    congr 1
    cases fs with
    | nil => rfl
    | cons f fs => simp [loadWidth, ExtForce.image]

theorem stepSlice_image (rows : List (List F)) (s : Nat) :
    (stepSlice (rows.map (List.map val)) s).flatten = (stepSlice rows s).flatten.map val := by
  unfold stepSlice
  rw [List.map_map, List.map_flatten, List.map_map]
  congr 1
  refine List.map_congr_left fun r _ => ?_
  simp [List.map_take, List.map_drop]

theorem BarOf.unique {labels : List Int} (hnd : labels.Nodup) {u : UserInput F} (hun : (u.nodes.map (·.label)).Nodup) {e : Elem F} {nA nE : Node F}
    {nA' nE' : Node ℝ} {b : Bar F} {b' : Bar ℝ} (hA : nA ∈ u.nodes) (hE : nE ∈ u.nodes) (hA' : nA' ∈ (u.image val).nodes)
    (hE' : nE' ∈ (u.image val).nodes) (h : BarOf labels e nA nE b) (h' : BarOf labels (e.image val) nA' nE' b') : b.image val = b' := by
  obtain ⟨mA, hmA, rfl⟩ := List.mem_map.1 hA'
  obtain ⟨mE, hmE, rfl⟩ := List.mem_map.1 hE'
  have hc : [nA.label, nE.label] = [mA.label, mE.label] := h.conn.symm.trans h'.conn
  simp only [List.cons.injEq, and_true] at hc
  obtain rfl := List.inj_on_of_nodup_map hun hA hmA hc.1
  obtain rfl := List.inj_on_of_nodup_map hun hE hmE hc.2
  have hpos : ∀ {i j : Nat} {l : Int}, labels[i]? = some l → labels[j]? = some l → i = j := by
    intro i j l hi hj
    obtain ⟨a1, a2⟩ := List.getElem?_eq_some_iff.1 hi
    obtain ⟨b1, b2⟩ := List.getElem?_eq_some_iff.1 hj
    exact hnd.getElem_inj_iff.1 (a2.trans b2.symm)
  have i1 := hpos h.posA h'.posA
  have i2 := hpos h.posE h'.posE
  have cA : nA.coord.map val = _ := h'.coordA
  have cE : nE.coord.map val = _ := h'.coordE
  rw [h.coordA] at cA
  rw [h.coordE] at cE
  simp only [List.map_cons, List.map_nil, List.cons.injEq, and_true] at cA cE
  have hXA : (fun d => val (b.XA d)) = b'.XA := by
    funext d
    fin_cases d
    · exact cA.1
    · exact cA.2.1
    · exact cA.2.2
  have hXE : (fun d => val (b.XE d)) = b'.XE := by
    funext d
    fin_cases d
    · exact cE.1
    · exact cE.2.1
    · exact cE.2.2
  have hm : b.mat.map val = b'.mat := by rw [h.mat, h'.mat]; rfl
  have hg : b.geo.map val = b'.geo := by rw [h.geo, h'.geo]; rfl
  have hl : b.law = b'.law := by
    rcases h.law with ⟨p, q⟩ | ⟨p, q⟩ <;> rcases h'.law with ⟨p', q'⟩ | ⟨p', q'⟩
    · rw [q, q']
    · have : e.mtype = 2 := p'
      omega
    · have : e.mtype = 1 := p'
      omega
    · rw [q, q']
  cases b'
  simp only at i1 i2 hXA hXE hm hg hl
  unfold Bar.image
  rw [hXA, hXE, hm, hg, hl, i1, i2]

theorem Meant.image {labels : List Int} (hnd : labels.Nodup) {u : UserInput F} (hun : (u.nodes.map (·.label)).Nodup) :
    ∀ {es : List (Elem F)} {bars : List (Bar F)} {bars' : List (Bar ℝ)}, Meant u es labels bars →
      Meant (u.image val) (es.map (Elem.image val)) labels bars' → bars.map (Bar.image val) = bars' := by
  intro es
  induction es with
  | nil =>
    intro bars bars' h h'
    cases h; cases h'
    rfl
  | cons e es ih =>
    intro bars bars' h h'
    obtain ⟨b, bs, ⟨nA, hA, nE, hE, hb⟩, hr, rfl⟩ := List.forall₂_cons_left_iff.1 h
    obtain ⟨b', bs', ⟨nA', hA', nE', hE', hb'⟩, hr', rfl⟩ := List.forall₂_cons_left_iff.1 h'
    rw [List.map_cons, ih hr hr', hb.unique hnd hun hA hE hA' hE' hb']

/-- Sorted lists with the same entries are equal. -/
theorem sorted_unique {l l' : List Nat} (h : l.Pairwise (· < ·)) (h' : l'.Pairwise (· < ·)) (hm : ∀ i, i ∈ l ↔ i ∈ l') : l = l' :=
  List.Perm.eq_of_pairwise (fun _ _ _ _ h1 h2 => absurd h1 (not_lt.2 h2.le)) h h'
    ((List.perm_ext_iff_of_nodup (h.imp fun h => h.ne) (h'.imp fun h => h.ne)).2 hm)

theorem labels_unique {l l' : List Int} (h : l.Pairwise (· < ·)) (h' : l'.Pairwise (· < ·)) (hm : l.Perm l') : l = l' :=
  List.Perm.eq_of_pairwise (fun _ _ _ _ h1 h2 => absurd h1 (not_lt.2 h2.le)) h h' hm

end

/-! ## The first step -/

section
variable {F : Type} [Zero F] [One F] [Add F] [Sub F] [Mul F] [Div F] [Neg F] [Flt F]

/-- The model after `build` and the analysis object in the first step. -/
theorem first_step {argsort : List Int → List Nat} (has : IsArgsort argsort) {u : UserInput F} {es : List (Elem F)} {nsteps : Nat}
    (hv : ValidInput u es nsteps) (hns : 1 ≤ nsteps) {m : Model F} (hu : Entered u m) (he : EnteredElems es m) (hd : m.settings.ndim = 3) :
    ∃ m1 c d bars a r0 ft A1 ef, m.build argsort = .ok m1 ∧ m1.ctx = some c ∧ m1.dims = some d ∧ m1.analysis = some a ∧
      m1.results = some ⟨[r0], []⟩ ∧ r0.lpf = some 0 ∧ m1.forces = some ft ∧ m1.settings = { m.settings with nstatev := c.nstatev } ∧
      setStep ft.forces.rows [] 0 { a with Vred := a.Ured ++ [0], lpf := some 0 } = .ok A1 ∧
      Evaluable c bars A1 ef ∧ A1.Ready c ∧ (A1.f0red = A1.DOF1.map fun p => ef.forces.getD p 0) ∧
      A1.DOF1 = d.dof1 ∧ A1.Ured = List.replicate d.dof1.length 0 ∧ A1.U = List.replicate (3 * c.nnodes) 0 ∧
      Meant u es c.nodes.labels bars ∧ c.nodes.labels.Perm (u.nodes.map (·.label)) ∧ c.nodes.labels.Pairwise (· < ·) ∧
      c.nnodes = c.nodes.labels.length ∧ c.ndof1 = d.dof1.length ∧ d.dof1.Pairwise (· < ·) ∧ (∀ i ∈ d.dof1, i < 3 * c.nnodes) ∧
      (∀ (i : Nat) (l : Int), c.nodes.labels[i]? = some l → ∀ e : Fin 3, 3 * i + e ∈ d.dof1 ↔ (supportOf u.bounds l)[e.val]? = some 1) ∧
      ef.forces = (stepSlice (c.nodes.labels.map (loadOf u.forces)) 0).flatten ∧ ef.forcesConst = ef.forces.map fun _ => 0 := by
  obtain ⟨m1, c, bars0, a0, r0, ft, b1, b2, b3, b4, b5, b6, b7, b8, b9, b10, b11, b12, n0, b13⟩ := hv.built has hu he hd
  obtain ⟨c', d, bars, ft', h1, h2, h3, h4, h5, h6, h7, h8, h9, h10, h11, h12, h13, h14⟩ := built_structure has hu he hv b1
  rw [h1] at b2; cases b2
  rw [h11] at b6
  have hae := (Option.some.inj b6).symm
  subst hae
  rw [h3] at b8; cases b8
  have h2n : 2 ≤ u.nodes.length := by
    obtain ⟨s⟩ := build_steps b1
    have he' := he
    unfold EnteredElems at he'
    rw [s.he] at he'
    exact two_nodes he' hv.posed
  have hnt : m1.nodes = some c.nodes := ctx_nodes h1
  obtain ⟨nt, k1, k2, -⟩ := C01_nodes_keep_coordinates has hu hv.posed.nodes b1
  rw [hnt] at k1; cases k1
  obtain ⟨nt, dm, d1, d2, d3, d4, -, d6, -, d8, -⟩ := C06_degrees_of_freedom_partial has hu hv.posed.nodes h2n hv.supports b1
  rw [hnt] at d1; cases d1
  rw [h2] at d2; cases d2
  obtain ⟨nt, ft', f1, f2, f3, f4, f5, -⟩ := C03_loads_partial has hu hv.posed.nodes h2n b1
  rw [hnt] at f1; cases f1
  rw [h3] at f2; cases f2
  obtain ⟨mm, cc, aa, r, r', ft1, ft1', g1, g2, g3, gd, g5, g6, g7, g8, g9, g10, g11, g12, g13, g14, g15, g16⟩ :=
    build_compare has has hu hu rfl rfl rfl rfl rfl rfl hv.posed.nodes h2n b1
  rw [b1] at g1; cases g1
  rw [h1] at g2; cases g2
  rw [b7] at g7; cases g7
  set p : Analysis F := { Analysis.fresh d.nnodes d.nelems d.dof0 d.dof1 c.nstatev with
    Vred := (Analysis.fresh d.nnodes d.nelems d.dof0 d.dof1 c.nstatev : Analysis F).Ured ++ [0], lpf := some 0 } with hp
  obtain ⟨A1, hset, hready⟩ := setStep_total (rows := ft.forces.rows) (le := []) (k := 0) (a := p) b11 b9 b10
    (by have := hv.width; omega) (by simp)
  obtain ⟨hcarry, -, hlpf, fc, hfc, hext, hf0⟩ := setStep_ok hset
  obtain ⟨ef, e1, e2, e3⟩ := hready.ext
  rw [hext] at e1
  have hef := Option.some.inj e1
  have heval : Evaluable c bars A1 ef := ⟨h4, hready.base.fits, h5, hready.base.statev, by rw [hext, hef], e2, e3,
    hready.base.dofs⟩
  have hDA : A1.DOF1 = d.dof1 := hcarry.dof1
  have hUA : A1.U = List.replicate (3 * c.nnodes) 0 := by rw [h8]; exact hcarry.U
  have hUr : A1.Ured = List.replicate d.dof1.length 0 := hcarry.Ured
  have hfr : A1.f0red = A1.DOF1.map fun q => ef.forces.getD q 0 := by
    have hlen : (stepSlice ft.forces.rows 0).flatten.length = 3 * c.nnodes := by rw [← hef] at e2; exact e2
    rw [npTake_eq_map (0 : F) (fun i hi => by rw [hlen]; exact h12.dof i hi)] at hf0
    rw [← Except.ok.inj hf0, hDA, ← hef]
    rfl
  refine ⟨m1, c, d, bars, _, r0, ft, A1, ef, b1, h1, h2, h11, b7, g9, h3, g13, hset, heval, hready, hfr, hDA, hUr, hUA, h7, h6, k2, h4.nnodes, h9,
    d6, h12.dof, h14, ?_, ?_⟩
  · rw [← hef, f4]
  · rw [← hef]
    exact (Except.ok.inj hfc).symm

end

end TrussPy
