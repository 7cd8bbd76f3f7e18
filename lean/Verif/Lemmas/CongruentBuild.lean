import Verif.Lemmas.CongruentRun
import Verif.Props.EndToEnd
/-!
# Lemmas: the models built from congruent input
-/

set_option linter.unusedSectionVars false

namespace TrussPy

variable {ax : Axes} {π : Nat → Nat} {t : V3 ℝ}

section
variable {F : Type} [Zero F] [One F] [Add F] [Sub F] [Mul F] [Div F] [Neg F] [Flt F]

/-- What `build` makes of valid input, in terms of the sorted node labels. -/
structure BuiltAs (u : UserInput F) (es : List (Elem F)) (s : Settings F) (labels : List Int) (m1 : Model F) (c : Ctx F)
    (bars : List (Bar F)) (dof0 dof1 : List Nat) (ft : ForceTab F) : Prop where
  ctx : m1.ctx = some c
  isBars : c.Bars bars
  complete : ∀ b ∈ bars, b.Complete c.nstatev
  meant : Meant u es labels bars
  isLabels : c.nodes.labels = labels
  perm : labels.Perm (u.nodes.map (·.label))
  sorted : labels.Pairwise (· < ·)
  nstatev : c.nstatev = if (es.map (·.mtype)).contains 2 then 2 else s.nstatev
  isDof0 : dof0 = whereEq (labels.map (supportOf u.bounds)).flatten 0
  isDof1 : dof1 = whereEq (labels.map (supportOf u.bounds)).flatten 1
  dims : m1.dims.map (·.dof1) = some dof1
  ndof1 : c.ndof1 = dof1.length
  analysis : m1.analysis = some (Analysis.fresh labels.length es.length dof0 dof1 c.nstatev)
  results : m1.results = some ⟨[{ (Analysis.fresh labels.length es.length dof0 dof1 c.nstatev : Analysis F) with
        lpf := some 0, extForces := some ⟨ft.forces.rows.flatten, List.replicate (3 * labels.length) 0⟩ }], []⟩
  forces : m1.forces = some ft
  rows : ft.forces.rows = labels.map (loadOf u.forces)
  width : ∀ r ∈ ft.forces.rows, r.length = loadWidth u.forces
  base : ({ (Analysis.fresh labels.length es.length dof0 dof1 c.nstatev : Analysis F) with
    Vred := (Analysis.fresh labels.length es.length dof0 dof1 c.nstatev : Analysis F).Ured ++ [0], lpf := some 0 }).Base c
  settings : m1.settings = { s with nstatev := c.nstatev }

theorem ValidInput.builtAs {argsort : List Int → List Nat} (has : IsArgsort argsort) {u : UserInput F}
    {es : List (Elem F)} {m : Model F} {nsteps : Nat} (hu : Entered u m) (he : EnteredElems es m)
    (hv : ValidInput u es nsteps) (hdim : m.settings.ndim = 3) :
    ∃ m1 labels c bars dof0 dof1 ft, m.build argsort = .ok m1 ∧ BuiltAs u es m.settings labels m1 c bars dof0 dof1 ft := by
  obtain ⟨m1, c, bars, a, r0, ft, h1, h2, h3, h4, h5, h6, h7, h8, h9, h10, h11, h12, n, h13⟩ := hv.built has hu he hdim
  obtain ⟨c', bars', k1, k2, k3, k4, k5⟩ := C61_structure_as_entered has hu he hv.posed h1
  rw [h2] at k1; cases k1
  have hC := C61_bars_complete he hv.props h1 h2 k5
  obtain ⟨s⟩ := build_steps h1
  have he' := he
  unfold EnteredElems at he'
  rw [s.he] at he'
  obtain ⟨t1, t2, t3, t4, t5, t6⟩ := addElems_tab he'
  obtain ⟨c1, c2, c3, c4, c5, ⟨w, c6, c7⟩, c8, c9, c10, c11, c12⟩ := build_closed has hu hv.posed.nodes (two_nodes he' hv.posed) s
  obtain ⟨c', d, ft', g1, g2, g3, g4, g5, g6, g7, g8, g9, g10, g11, g12⟩ := build_ready h1
  rw [h2] at g1; cases g1
  rw [h8] at g3; cases g3
  have hft : ft = s.ft := by
    have := congrArg Model.forces s.hm'
    rw [h8] at this
    exact Option.some.inj this
  have hd : d = ⟨s.nt0.labels.length, s.et.labels.length, s.nt0.labels.length * 3, s.dof0, s.dof1⟩ := by
    have := congrArg Model.dims s.hm'
    rw [g2] at this
    exact Option.some.inj this
  have hnt : c.nodes = s.nt := by
    have := congrArg Model.nodes s.hm'
    rw [g5] at this
    exact Option.some.inj this
  have hs : m1.settings = { m.settings with nstatev := if s.et.mtype.contains 2 then 2 else m.settings.nstatev } :=
    (congrArg Model.settings s.hm').trans rfl
  have hns : c.nstatev = if s.et.mtype.contains 2 then 2 else m.settings.nstatev := by rw [g8, hs]
  have hlen : s.nt0.labels.length = s.nt.labels.length := by rw [c3]; simpa using c1.length_eq.symm
  have hel : s.et.labels.length = es.length := by rw [t1, List.length_map]
  subst hd
  simp only [hlen, hel] at g10 g11 g12 g7
  rw [hft] at g11
  rw [h6] at g10
  refine ⟨m1, s.nt.labels, c, bars', s.dof0, s.dof1, s.ft, h1, h2, k2, hC, by rw [← hnt]; exact k5, by rw [hnt], c1, c2,
    by rw [hns, t4], ?_, ?_, by rw [g2]; rfl, g7, by rw [h6]; exact g10, g11, by rw [h8, hft], by rw [c9], ?_, ?_, by rw [hs, hns]⟩
  · have := (dofWhere_ok_iff.1 s.hd0).1
    rw [c6] at this
    exact this
  · have := (dofWhere_ok_iff.1 s.hd1).1
    rw [c6] at this
    exact this
  · rw [← hft]; exact h10
  · cases g10
    exact h11

end

/-! ## The moved input is valid -/

theorem moved_labels (u : UserInput ℝ) : (u.moved ax t).nodes.map (·.label) = u.nodes.map (·.label) := by
  unfold UserInput.moved
  rw [List.map_map]
  rfl

theorem moved_forces (u : UserInput ℝ) : (u.moved ax t).forces.map (·.node) = u.forces.map (·.node) := by
  unfold UserInput.moved
  rw [List.map_map]
  rfl

theorem moved_loadWidth (u : UserInput ℝ) : loadWidth (u.moved ax t).forces = loadWidth u.forces := by
  unfold UserInput.moved loadWidth
  cases u.forces with
  | nil => rfl
  | cons f fs => simp [Axes.row]

theorem moved_loadOf (u : UserInput ℝ) (l : Int) : loadOf (u.moved ax t).forces l = flipV ax.full (loadOf u.forces l) := by
  have hw := moved_loadWidth (ax := ax) (t := t) u
  unfold loadOf
  rw [hw]
  unfold UserInput.moved
  simp only [List.find?_map]
  have : ((fun f : ExtForce ℝ => f.node == l) ∘ fun f : ExtForce ℝ => ({ f with force := ax.row f.force } : ExtForce ℝ)) =
      fun f : ExtForce ℝ => f.node == l := rfl
  rw [this]
  cases u.forces.find? (fun f => f.node == l) with
  | some f => rfl
  | none =>
    simp only [Option.map_none]
    apply List.ext_getElem?
    intro i
    rw [flipV_get]
    by_cases h : i < loadWidth u.forces
    · rw [List.getElem?_replicate_of_lt h]; simp
    · rw [List.getElem?_eq_none (by simp; omega)]; rfl

theorem SameElems.lt {es es' : List (Elem ℝ)} (h : SameElems π es es') {k : Nat} (hk : k < es.length) : π k < es.length := by
  have : π k ∈ (List.range es.length).map π := List.mem_map.2 ⟨k, List.mem_range.2 hk, rfl⟩
  exact List.mem_range.1 (h.perm.mem_iff.1 this)

theorem SameElems.mem {es es' : List (Elem ℝ)} (h : SameElems π es es') {e' : Elem ℝ} (he : e' ∈ es') :
    ∃ e ∈ es, e.Same e' := by
  obtain ⟨k, hk⟩ := List.getElem?_of_mem he
  obtain ⟨e, h1, h2⟩ := h.elem k e' hk
  exact ⟨e, List.mem_of_getElem? h1, h2⟩

theorem SameElems.mem' {es es' : List (Elem ℝ)} (h : SameElems π es es') {e : Elem ℝ} (he : e ∈ es) :
    ∃ e' ∈ es', e.Same e' := by
  obtain ⟨k, hk⟩ := List.getElem?_of_mem he
  have hkl := (List.getElem?_eq_some_iff.1 hk).1
  have : k ∈ (List.range es.length).map π := h.perm.mem_iff.2 (List.mem_range.2 hkl)
  obtain ⟨i, hi, rfl⟩ := List.mem_map.1 this
  have hil : i < es'.length := by rw [h.length]; exact List.mem_range.1 hi
  obtain ⟨e1, h1, h2⟩ := h.elem i _ (List.getElem?_eq_getElem hil)
  rw [hk] at h1; cases h1
  exact ⟨_, List.getElem_mem hil, h2⟩

/-- Mirrored and shifted input with the elements in another order is valid, too. -/
theorem ValidInput.moved {u : UserInput ℝ} {es es' : List (Elem ℝ)} {n : Nat} (hv : ValidInput u es n)
    (hs : SameElems π es es') : ValidInput (u.moved ax t) es' n where
  posed := by
    refine ⟨by rw [moved_labels]; exact hv.posed.nodes, hs.labels, ?_, ?_, ?_⟩
    · intro nd hn
      obtain ⟨n0, h0, rfl⟩ := List.mem_map.1 hn
      simp only [List.length_mapIdx]
      exact hv.posed.coords n0 h0
    · intro e' he'
      obtain ⟨e, h1, h2⟩ := hs.mem he'
      obtain ⟨nA, hA, nE, hE, c1, c2⟩ := hv.posed.joins e h1
      have hm : ∀ nd ∈ u.nodes, ∃ nd' ∈ (u.moved ax t).nodes, nd'.label = nd.label :=
        fun nd hnd => ⟨_, List.mem_map.2 ⟨nd, hnd, rfl⟩, rfl⟩
      obtain ⟨nA', hA', lA⟩ := hm nA hA
      obtain ⟨nE', hE', lE⟩ := hm nE hE
      rcases h2.conn with hc | hc
      · exact ⟨nA', hA', nE', hE', by rw [hc, c1, lA, lE], by rw [lA, lE]; exact c2⟩
      · exact ⟨nE', hE', nA', hA', by rw [hc, c1, lA, lE]; rfl, by rw [lA, lE]; exact c2.symm⟩
    · intro e' he'
      obtain ⟨e, h1, h2⟩ := hs.mem he'
      rw [h2.mtype]
      exact hv.posed.law e h1
  props := by
    intro e' he'
    obtain ⟨e, h1, h2⟩ := hs.mem he'
    rw [h2.mtype, h2.mprop, h2.gprop]
    exact hv.props e h1
  elems := by
    intro h
    have := hs.length
    rw [h] at this
    exact hv.elems (List.length_eq_zero_iff.1 this.symm)
  supports := hv.supports
  supportsOnce := hv.supportsOnce
  supportsAt := by
    intro b hb
    obtain ⟨nd, h1, h2⟩ := hv.supportsAt b hb
    exact ⟨_, List.mem_map.2 ⟨nd, h1, rfl⟩, h2⟩
  loads := by
    unfold UserInput.moved
    simp only [ne_eq, List.map_eq_nil_iff]
    exact hv.loads
  loadsOnce := by rw [moved_forces]; exact hv.loadsOnce
  loadsAt := by
    intro f hf
    obtain ⟨f0, h0, rfl⟩ := List.mem_map.1 hf
    obtain ⟨nd, h1, h2⟩ := hv.loadsAt f0 h0
    exact ⟨_, List.mem_map.2 ⟨nd, h1, rfl⟩, h2⟩
  width := by rw [moved_loadWidth]; exact hv.width
  free := by
    have : freeCount (u.moved ax t) = freeCount u := by
      unfold freeCount UserInput.moved
      simp only [List.map_map]
      rfl
    rw [this]; exact hv.free

/-! ## The built structures are congruent -/

theorem moved_coord {x : List ℝ} {X Y : V3 ℝ} (h : x = [X 0, X 1, X 2])
    (h' : (x.mapIdx fun i v => (ax.full i : ℝ) * v + t (comp i)) = [Y 0, Y 1, Y 2]) (d : Fin 3) :
    Y d = (ax.s d : ℝ) * X d + t d := by
  subst h
  simp only [List.mapIdx_cons, List.mapIdx_nil, List.cons.injEq, and_true] at h'
  obtain ⟨h0, h1, h2⟩ := h'
  match d with
  | 0 => exact h0.symm
  | 1 => exact h1.symm
  | 2 => exact h2.symm

theorem node_eq {u : UserInput ℝ} (hnd : (u.nodes.map (·.label)).Nodup) {a b : Node ℝ} (ha : a ∈ u.nodes) (hb : b ∈ u.nodes)
    (h : a.label = b.label) : a = b := List.inj_on_of_nodup_map hnd ha hb h

theorem label_inj {labels : List Int} (hs : labels.Pairwise (· < ·)) {i k : Nat} {l : Int} (hi : labels[i]? = some l)
    (hk : labels[k]? = some l) : i = k := by
  have hnd : labels.Nodup := hs.imp fun h => ne_of_lt h
  obtain ⟨h1, h2⟩ := List.getElem?_eq_some_iff.1 hi
  obtain ⟨h3, h4⟩ := List.getElem?_eq_some_iff.1 hk
  exact (List.Nodup.getElem_inj_iff hnd).1 (h2.trans h4.symm)

theorem built_bars {u : UserInput ℝ} {es es' : List (Elem ℝ)} {n : Nat} (hv : ValidInput u es n) (hs : SameElems π es es')
    {labels : List Int} (hl : labels.Pairwise (· < ·)) {bars bars' : List (Bar ℝ)} (hm : Meant u es labels bars)
    (hm' : Meant (u.moved ax t) es' labels bars') {k : Nat} (hk : k < bars.length) :
    ∃ b b', bars[π k]? = some b ∧ bars'[k]? = some b' ∧ b.Congruent ax t b' := by
  have hke : k < es.length := by rw [hm.length_eq]; exact hk
  have hke' : k < es'.length := by rw [hs.length]; exact hke
  have hkb' : k < bars'.length := by rw [← hm'.length_eq]; exact hke'
  obtain ⟨e, h1, h2⟩ := hs.elem k _ (List.getElem?_eq_getElem hke')
  have hπ := hs.lt hke
  have hπb : π k < bars.length := by rw [← hm.length_eq]; exact hπ
  have hee : e = es[π k] := (Option.some.inj ((List.getElem?_eq_getElem hπ).symm.trans h1)).symm
  obtain ⟨nA, hA, nE, hE, hb⟩ := hm.get hπ hπb
  obtain ⟨nA', hA', nE', hE', hb'⟩ := hm'.get hke' hkb'
  simp only [List.get_eq_getElem] at hb hb'
  rw [← hee] at hb
  refine ⟨_, _, List.getElem?_eq_getElem hπb, List.getElem?_eq_getElem hkb', ?_⟩
  generalize bars[π k] = b at hb
  generalize bars'[k] = b' at hb'
  generalize es'[k] = e' at hb' h2
  obtain ⟨mA, hmA, rfl⟩ := List.mem_map.1 hA'
  obtain ⟨mE, hmE, rfl⟩ := List.mem_map.1 hE'
  refine ⟨?_, by rw [hb'.mat, hb.mat, h2.mprop], by rw [hb'.geo, hb.geo, h2.gprop], ?_⟩
  · have hcon := hb'.conn
    simp only at hcon
    have pA := hb'.posA
    have pE := hb'.posE
    simp only at pA pE
    rcases h2.conn with hc | hc
    · rw [hc, hb.conn] at hcon
      simp only [List.cons.injEq, and_true] at hcon
      have eA := node_eq hv.posed.nodes hA hmA hcon.1
      have eE := node_eq hv.posed.nodes hE hmE hcon.2
      subst eA eE
      exact Or.inl ⟨label_inj hl pA hb.posA, label_inj hl pE hb.posE, moved_coord hb.coordA hb'.coordA,
        moved_coord hb.coordE hb'.coordE⟩
    · rw [hc, hb.conn] at hcon
      simp only [List.reverse_cons, List.reverse_nil, List.nil_append, List.cons_append, List.cons.injEq, and_true] at hcon
      have eA := node_eq hv.posed.nodes hE hmA hcon.1
      have eE := node_eq hv.posed.nodes hA hmE hcon.2
      subst eA eE
      exact Or.inr ⟨label_inj hl pA hb.posE, label_inj hl pE hb.posA, moved_coord hb.coordE hb'.coordA,
        moved_coord hb.coordA hb'.coordE⟩
  · have e1 := h2.mtype
    rcases hb.law with ⟨l1, l2⟩ | ⟨l1, l2⟩ <;> rcases hb'.law with ⟨r1, r2⟩ | ⟨r1, r2⟩
    · rw [l2, r2]
    · omega
    · omega
    · rw [l2, r2]

theorem flipV_zeros (σ : Nat → Int) (n : Nat) : flipV σ (List.replicate n 0) = List.replicate n 0 := by
  apply List.ext_getElem?
  intro i
  rw [flipV_get]
  by_cases h : i < n
  · rw [List.getElem?_replicate_of_lt h]; simp
  · rw [List.getElem?_eq_none (by simpa using h)]; rfl

theorem reordered_replicate (hπ : Rearranges π n) {α : Type} (x : α) : Reordered π (List.replicate n x) (List.replicate n x) := by
  refine ⟨rfl, ?_⟩
  intro k hk
  rw [List.length_replicate] at hk
  have : π k ∈ (List.range n).map π := List.mem_map.2 ⟨k, List.mem_range.2 hk, rfl⟩
  have hlt := List.mem_range.1 (hπ.mem_iff.1 this)
  rw [List.getElem?_replicate_of_lt hk, List.getElem?_replicate_of_lt hlt]

/-- The undeformed state is its own mirror image. -/
theorem fresh_congruent (ax : Axes) {nelems : Nat} (hπ : Rearranges π nelems) (nnodes : Nat) (dof0 dof1 : List Nat) (ns : Nat)
    (l : Option ℝ) (V : List ℝ) (hV : flipV (ax.free dof1) V = V) (ef : Option (StepForces ℝ)) :
    ({ (Analysis.fresh nnodes nelems dof0 dof1 ns : Analysis ℝ) with Vred := V, lpf := l, extForces := ef }).Congruent ax π
      { (Analysis.fresh nnodes nelems dof0 dof1 ns : Analysis ℝ) with
        Vred := V, lpf := l, extForces := ef.map fun ef : StepForces ℝ => ⟨flipV ax.full ef.forces, flipV ax.full ef.forcesConst⟩ } := by
  unfold Analysis.fresh
  refine ⟨rfl, (flipV_zeros _ _).symm, (flipV_zeros _ _).symm, ?_, (flipV_zeros _ _).symm, ?_, reordered_replicate hπ 0,
    reordered_replicate hπ 0, reordered_replicate hπ 0, ?_, rfl, rfl, (flipV_zeros _ _).symm, hV.symm, rfl, rfl, rfl, rfl,
    ⟨fun _ => 1, fun _ => Or.inl rfl, rfl⟩, ?_, rfl⟩
  · simp only [List.map_replicate]
    congr 1
    funext d
    simp [Axes.mirror]
  · simp only [List.map_replicate]
    congr 2
    funext d e
    simp [Axes.mirrorM]
  · simp only
    split
    · exact Or.inr ⟨_, _, rfl, rfl, reordered_replicate hπ _⟩
    · exact Or.inl ⟨rfl, rfl⟩
  · simp [flipJ]

end TrussPy
