import Verif.Spec.Entered
import Verif.Spec.Reaction
import Verif.Props.Handlers
import Verif.Props.Input
import Verif.Props.Run
import Verif.Props.Mechanics
import Verif.Lemmas.Accepted
import Verif.Lemmas.Total
import Verif.Lemmas.Control
import Verif.ExamplesRun
import Verif.ExamplesValid
/-!
# C61, C64: from the entered input to the analysed structure and to the end of the run
-/

set_option linter.unusedSectionVars false

namespace TrussPy

section
variable {F : Type} [Zero F]

theorem three_of_length {l : List F} (h : l.length = 3) : ∃ X : V3 F, l = [X 0, X 1, X 2] := by
  match l, h with
  | [a, b, c], _ => exact ⟨![a, b, c], rfl⟩

/-- A well posed truss has at least two nodes. -/
theorem two_nodes {u : UserInput F} {es : List (Elem F)} {t : ElemTab F} (he : addElems none es = .ok (some t))
    (hw : WellPosed u es) : 2 ≤ u.nodes.length := by
  have hes : es ≠ [] := by rintro rfl; cases he
  obtain ⟨e, es', rfl⟩ := List.exists_cons_of_ne_nil hes
  obtain ⟨nA, hA, nE, hE, -, hne⟩ := hw.joins e (by simp)
  by_contra hlt
  match hn : u.nodes, hlt with
  | [], _ => rw [hn] at hA; cases hA
  | [n], _ =>
    rw [hn] at hA hE
    simp only [List.mem_singleton] at hA hE
    rw [hA, hE] at hne
    exact hne rfl
  | _ :: _ :: _, hlt => simp at hlt

/-- **C61** The structure analysed by the solver is the structure entered by the user: after a successful build of
well posed input the tables describe a list of bars, one per entered element in the order of entry, joining the two
entered nodes at their entered coordinates, with the entered material and geometric properties and material type. -/
theorem C61_structure_as_entered {argsort : List Int → List Nat} (has : IsArgsort argsort) {u : UserInput F}
    {es : List (Elem F)} {m m1 : Model F} (hu : Entered u m) (he : EnteredElems es m) (hw : WellPosed u es)
    (hb : m.build argsort = .ok m1) :
    ∃ c bars, m1.ctx = some c ∧ c.Bars bars ∧ c.nodes.labels.Perm (u.nodes.map (·.label)) ∧
      c.nodes.labels.Pairwise (· < ·) ∧ Meant u es c.nodes.labels bars := by
  obtain ⟨s⟩ := build_steps hb
  unfold EnteredElems at he
  rw [s.he] at he
  obtain ⟨t1, t2, t3, t4, t5, t6⟩ := addElems_tab he
  have h2 := two_nodes he hw
  obtain ⟨c1, c2, c3, c4, -⟩ := build_closed has hu hw.nodes h2 s
  have hctx : m1.ctx = some ⟨s.nt, s.et, s.nt0.labels.length, s.dof1.length,
      if s.et.mtype.contains 2 then 2 else m.settings.nstatev⟩ := by
    refine (congrArg Model.ctx s.hm').trans ?_
    simp only [Model.ctx, s.he]
    rfl
  have hlen : s.nt.labels.length = u.nodes.length := by simpa using c1.length_eq
  -- rows of the node table
  have hrow : ∀ n ∈ u.nodes, ∃ (i : Nat) (X : V3 F), s.nt.labels[i]? = some n.label ∧ n.coord = [X 0, X 1, X 2] ∧
      s.nt.coords.rows[i]? = some [X 0, X 1, X 2] := by
    intro n hn
    obtain ⟨i, hi⟩ := List.getElem?_of_mem (c1.mem_iff.2 (List.mem_map.2 ⟨n, hn, rfl⟩))
    obtain ⟨X, hX⟩ := three_of_length (hw.coords n hn)
    refine ⟨i, X, hi, hX, ?_⟩
    rw [c4, List.getElem?_map, hi, Option.map_some, coordOf_mem hw.nodes hn, hX]
  have hbar : ∀ e ∈ es, ∃ b : Bar F, ∃ nA ∈ u.nodes, ∃ nE ∈ u.nodes, BarOf s.nt.labels e nA nE b ∧
      s.nt.coords.rows[b.iA]? = some [b.XA 0, b.XA 1, b.XA 2] ∧
      s.nt.coords.rows[b.iE]? = some [b.XE 0, b.XE 1, b.XE 2] ∧ b.iA ≠ b.iE := by
    intro e hee
    obtain ⟨nA, hA, nE, hE, hconn, hne⟩ := hw.joins e hee
    obtain ⟨i, X, i1, i2, i3⟩ := hrow nA hA
    obtain ⟨k, Y, k1, k2, k3⟩ := hrow nE hE
    refine ⟨⟨i, k, X, Y, e.mprop.vals, e.gprop.vals, if e.mtype = 1 then .el else .elplast⟩, nA, hA, nE, hE,
      ⟨hconn, i1, k1, i2, k2, rfl, rfl, ?_⟩, i3, k3, ?_⟩
    · rcases hw.law e hee with h | h
      · exact .inl ⟨h, if_pos h⟩
      · exact .inr ⟨h, if_neg (by omega)⟩
    · rintro h
      simp only at h
      rw [h, k1] at i1
      exact hne (Option.some.inj i1).symm
  obtain ⟨bars, hbars⟩ : ∃ bars, List.Forall₂ (fun e (b : Bar F) => ∃ nA ∈ u.nodes, ∃ nE ∈ u.nodes,
      BarOf s.nt.labels e nA nE b ∧ s.nt.coords.rows[b.iA]? = some [b.XA 0, b.XA 1, b.XA 2] ∧
      s.nt.coords.rows[b.iE]? = some [b.XE 0, b.XE 1, b.XE 2] ∧ b.iA ≠ b.iE) es bars := by
    clear t1 t2 t3 t4 t5 t6 he hw
    induction es with
    | nil => exact ⟨[], .nil⟩
    | cons e es ih =>
      obtain ⟨b, h⟩ := hbar e (by simp)
      obtain ⟨bs, hbs⟩ := ih fun e he => hbar e (List.mem_cons_of_mem _ he)
      exact ⟨b :: bs, .cons h hbs⟩
  refine ⟨_, bars, hctx, ?_, c1, c2, ?_⟩
  swap
  · exact hbars.imp fun e b ⟨nA, hA, nE, hE, h, _⟩ => ⟨nA, hA, nE, hE, h⟩
  refine { nodes := c2.imp fun h => ne_of_lt h, elems := ?_, length := ?_, bar := ?_, nnodes := ?_ }
  · show s.et.labels.Nodup
    rw [t1]; exact hw.elems
  · show bars.length = s.et.labels.length
    rw [t1, List.length_map, hbars.length_eq]
  · intro k b hk
    have hkl := (List.getElem?_eq_some_iff.1 hk).1
    have hke : k < es.length := by rw [hbars.length_eq]; exact hkl
    have hek : es[k]? = some es[k] := List.getElem?_eq_getElem hke
    obtain ⟨nA, hA, nE, hE, h, hcA, hcE, hne⟩ := hbars.get hke hkl
    simp only [List.get_eq_getElem] at h hcA hcE hne
    have hkb : bars[k] = b := Option.some.inj ((List.getElem?_eq_getElem hkl).symm.trans hk)
    rw [hkb] at h hcA hcE hne
    refine ⟨⟨nA.label, nE.label, ?_, h.posA, h.posE⟩, hcA, hcE, ?_, ?_, ?_, hne⟩
    · show s.et.conns.rows[k]? = _
      rw [t2, List.getElem?_map, hek, Option.map_some, h.conn]
    · show s.et.mprop.rows[k]? = _
      rw [t5, List.getElem?_map, hek, Option.map_some, h.mat]
    · show s.et.gprop.rows[k]? = _
      rw [t6, List.getElem?_map, hek, Option.map_some, h.geo]
    · show (s.et.mtype[k]? = _ ∧ _) ∨ (s.et.mtype[k]? = _ ∧ _)
      rw [t4, List.getElem?_map, hek, Option.map_some]
      rcases h.law with ⟨h1, h2⟩ | ⟨h1, h2⟩
      · exact .inl ⟨by rw [h1], h2⟩
      · exact .inr ⟨by rw [h1], h2⟩
  · show s.nt0.labels.length = s.nt.labels.length
    rw [c3, hlen]

/-- **C61** If all properties were entered, every bar of the analysed structure has all data its law reads, including
the state variables of the plastic law. -/
theorem C61_bars_complete {argsort : List Int → List Nat} {u : UserInput F} {es : List (Elem F)} {m m1 : Model F}
    (he : EnteredElems es m) (hp : PropsEntered es) (hb : m.build argsort = .ok m1) {c : Ctx F} {bars : List (Bar F)}
    (hc : m1.ctx = some c) (hm : Meant u es c.nodes.labels bars) : ∀ b ∈ bars, b.Complete c.nstatev := by
  obtain ⟨s⟩ := build_steps hb
  unfold EnteredElems at he
  rw [s.he] at he
  obtain ⟨t1, t2, t3, t4, t5, t6⟩ := addElems_tab he
  have hctx : m1.ctx = some ⟨s.nt, s.et, s.nt0.labels.length, s.dof1.length,
      if s.et.mtype.contains 2 then 2 else m.settings.nstatev⟩ := by
    refine (congrArg Model.ctx s.hm').trans ?_
    simp only [Model.ctx, s.he]
    rfl
  rw [hc] at hctx; cases hctx
  intro b hbm
  obtain ⟨k, hk⟩ := List.getElem?_of_mem hbm
  have hkl := (List.getElem?_eq_some_iff.1 hk).1
  have hke : k < es.length := by rw [hm.length_eq]; exact hkl
  obtain ⟨nA, hA, nE, hE, h⟩ := hm.get hke hkl
  simp only [List.get_eq_getElem] at h
  have hkb : bars[k] = b := Option.some.inj ((List.getElem?_eq_getElem hkl).symm.trans hk)
  rw [hkb] at h
  obtain ⟨p1, p2, p3⟩ := hp es[k] (List.getElem_mem hke)
  refine ⟨by rw [h.geo]; exact p1, by rw [h.mat]; exact p2, fun hl => ?_⟩
  rcases h.law with ⟨h1, h2⟩ | ⟨h1, h2⟩
  · rw [h2] at hl; cases hl
  · refine ⟨by rw [h.mat]; exact p3 h1, ?_⟩
    have hmem : (2 : Int) ∈ s.et.mtype := by
      rw [t4, ← h1]
      exact List.mem_map.2 ⟨_, List.getElem_mem hke, rfl⟩
    show 2 ≤ if s.et.mtype.contains 2 then 2 else m.settings.nstatev
    rw [if_pos (by simpa using hmem)]

end

/-- The bar elements of the example model. -/
def exEs : List (Elem ℚ) := [⟨1, [1, 2], 1, 1, ⟨false, [1]⟩, ⟨false, [1]⟩⟩, ⟨2, [2, 3], 1, 1, ⟨false, [1]⟩, ⟨false, [1]⟩⟩]

theorem exEnteredElems : EnteredElems exEs exModel := by
  unfold EnteredElems
  decide +kernel

theorem exWellPosed : WellPosed exInput exEs where
  nodes := by decide +kernel
  elems := by decide +kernel
  coords := by decide +kernel
  joins := by decide +kernel
  law := by decide +kernel

-- the nodes were entered in the order 3, 1, 2; the analysed bars are 1-2 and 2-3 at the entered coordinates
example : ∃ m1 c bars, exModel.build refArgsort = .ok m1 ∧ m1.ctx = some c ∧ c.Bars bars ∧
    c.nodes.labels = [1, 2, 3] ∧ Meant exInput exEs [1, 2, 3] bars ∧ ∀ b ∈ bars, b.Complete c.nstatev := by
  obtain ⟨m1, h⟩ := exBuild_ok
  obtain ⟨c, bars, h1, h2, h3, h4, h5⟩ :=
    C61_structure_as_entered refArgsort_isArgsort exEntered exEnteredElems exWellPosed h
  have hl : c.nodes.labels = [1, 2, 3] := by
    refine (h3.trans (by decide : ([3, 1, 2] : List Int).Perm [1, 2, 3])).eq_of_pairwise (le := (· < ·)) ?_ h4 (by decide)
    intro a b _ _ hab hba
    exact absurd hab (lt_asymm hba)
  refine ⟨m1, c, bars, h, h1, h2, hl, hl ▸ h5, ?_⟩
  exact C61_bars_complete (u := exInput) exEnteredElems (by unfold PropsEntered; decide +kernel) h h1 h5

-- the second bar of the example joins the nodes at positions 1 and 2 at the entered coordinates
example : BarOf [1, 2, 3] exEs[1] ⟨2, [4, 0, 3]⟩ (⟨3, [8, 0, 0]⟩ : Node ℚ)
    ⟨1, 2, ![4, 0, 3], ![8, 0, 0], [1], [1], .el⟩ := by
  refine ⟨by decide, by decide, by decide, by decide +kernel, by decide +kernel, by decide +kernel, by decide +kernel, ?_⟩
  exact .inl ⟨rfl, rfl⟩

/-! ## C64 -/

section
variable {F : Type} [Zero F] [One F] [Add F] [Sub F] [Mul F] [Div F] [Neg F] [Flt F]

theorem whereEq_length (l : List Int) (v : Int) : (whereEq l v).length = l.count v := by
  unfold whereEq
  induction l with
  | nil => rfl
  | cons x l ih =>
    rw [List.length_cons, List.range_succ_eq_map, List.filter_cons, List.filter_map]
    simp only [List.getElem?_cons_zero]
    have hc : ((fun i => (x :: l)[i]? == some v) ∘ Nat.succ) = fun i => l[i]? == some v := by
      funext i
      simp
    rw [hc, List.count_cons, ← ih]
    by_cases h : x = v
    · simp [h]
    · rw [if_neg (by simpa using h), if_neg (by simpa using h), List.length_map, Nat.add_zero]

/-- The model built from valid input has as many active degrees of freedom as components were left free, and its
analysis object is ready for a run. -/
theorem ValidInput.built {argsort : List Int → List Nat} (has : IsArgsort argsort) {u : UserInput F}
    {es : List (Elem F)} {m : Model F} {nsteps : Nat} (hu : Entered u m) (he : EnteredElems es m)
    (hv : ValidInput u es nsteps) (hdim : m.settings.ndim = 3) :
    ∃ m1 c bars a r0 ft, m.build argsort = .ok m1 ∧ m1.ctx = some c ∧ c.Bars bars ∧
      (∀ b ∈ bars, b.Complete c.nstatev) ∧ c.ndof1 = freeCount u ∧ m1.analysis = some a ∧
      m1.results = some ⟨[r0], []⟩ ∧ m1.forces = some ft ∧ ft.forces.rows.length = c.nnodes ∧
      (∀ r ∈ ft.forces.rows, r.length = loadWidth u.forces) ∧
      ({ a with Vred := a.Ured ++ [0], lpf := some 0 } : Analysis F).Base c ∧ r0.lpf.isSome ∧
      ∃ n, m1.settings = { m.settings with nstatev := n } := by
  obtain ⟨t, ht⟩ : ∃ t, m.elems = some t := by
    cases h : m.elems with
    | some t => exact ⟨t, rfl⟩
    | none =>
      exfalso
      unfold EnteredElems at he
      rw [h] at he
      obtain ⟨e, es', rfl⟩ := List.exists_cons_of_ne_nil hv.elems
      obtain ⟨r1, ha, hrest⟩ := py_bind_eq_ok.1 (show (addElem none e >>= fun h => addElems h es') = .ok none from he)
      have hne : ∀ (l : List (Elem F)) (t : ElemTab F), addElems (some t) l ≠ .ok none := by
        intro l
        induction l with
        | nil => intro t h; cases h
        | cons e l ih =>
          intro t h
          obtain ⟨r1, ha, hrest⟩ := py_bind_eq_ok.1 (show (addElem (some t) e >>= fun h => addElems h l) = .ok none from h)
          unfold addElem at ha
          obtain ⟨_, -, ha⟩ := py_bind_eq_ok.1 ha
          obtain ⟨_, -, ha⟩ := py_bind_eq_ok.1 ha
          obtain ⟨_, -, ha⟩ := py_bind_eq_ok.1 ha
          cases ha
          exact ih _ hrest
      cases ha
      exact hne es' _ hrest
  have h2 : 2 ≤ u.nodes.length := by
    have he' := he
    unfold EnteredElems at he'
    rw [ht] at he'
    exact two_nodes he' hv.posed
  obtain ⟨m1, hb⟩ := (C05_build_succeeds_iff has hu hv.posed.nodes h2 hv.supports).2
    ⟨by rw [ht]; simp, hdim, hv.loads, hv.supportsOnce, hv.supportsAt, hv.loadsOnce, hv.loadsAt⟩
  obtain ⟨c, bars, h3, h4, h5, h6, h7⟩ := C61_structure_as_entered has hu he hv.posed hb
  have hC := C61_bars_complete he hv.props hb h3 h7
  obtain ⟨s⟩ := build_steps hb
  obtain ⟨c1, c2, c3, c4, c5, ⟨w, c6, c7⟩, c8, c9, c10, c11, c12⟩ := build_closed has hu hv.posed.nodes h2 s
  obtain ⟨c', d, ft, g1, g2, g3, g4, g5, g6, g7, g8, g9, g10, g11, g12⟩ := build_ready hb
  rw [h3] at g1; cases g1
  have hft : ft = s.ft := by
    have := congrArg Model.forces s.hm'
    rw [g3] at this
    exact Option.some.inj this
  have hdm : d.dof1 = s.dof1 := by
    have := congrArg Model.dims s.hm'
    rw [g2] at this
    exact congrArg Dims.dof1 (Option.some.inj this)
  have hnt : c.nodes = s.nt := by
    have := congrArg Model.nodes s.hm'
    rw [g5] at this
    exact Option.some.inj this
  have hfree : c.ndof1 = freeCount u := by
    have hd1 := (dofWhere_ok_iff.1 s.hd1).1
    rw [g7, hdm, hd1, whereEq_length, c6]
    show ((s.nt.labels.map (supportOf u.bounds)).flatten).count 1 = _
    rw [List.count_flatten, List.map_map]
    unfold freeCount
    have := (c1.map (List.count 1 ∘ supportOf u.bounds)).sum_eq
    rw [this, List.map_map]
    rfl
  refine ⟨m1, c, bars, _, _, ft, hb, h3, h4, hC, hfree, g10, g11, g3, ?_, ?_, ?_, rfl, ?_⟩
  · rw [hft, c9, h4.nnodes, hnt]
    simp
  · intro r hr
    rw [hft, c9] at hr
    obtain ⟨l, hl, rfl⟩ := List.mem_map.1 hr
    exact c10 l hl
  · have := g12
    refine ⟨⟨this.U, this.U0, this.r, this.K, this.Krow, this.stretch, this.force, this.stress, this.statev, this.dof,
      this.dofNodup⟩, ?_, ?_, rfl, ?_⟩
    · intro sv hsv row hrow
      simp only [Analysis.fresh] at hsv
      split at hsv
      · cases hsv
        rw [List.eq_of_mem_replicate hrow]
        simp
      · cases hsv
    · exact g7.symm
    · rw [g7]; simp [Analysis.fresh]
  · exact ⟨if s.et.mtype.contains 2 then 2 else m.settings.nstatev, (congrArg Model.settings s.hm').trans rfl⟩

/-- **C64** A valid model runs to completion: for valid input and sensible settings without step control, `build` and
`run` return, for every arithmetic without NaN and every linear solver that returns; the attempts of an increment never
exceed `cycl`. -/
theorem C64_valid_model_runs {argsort : List Int → List Nat} (has : IsArgsort argsort) (hsg : SignTotal F)
    {u : UserInput F} {es : List (Elem F)} {m : Model F} (hu : Entered u m) (he : EnteredElems es m)
    (hv : ValidInput u es m.settings.nsteps) (hdim : m.settings.ndim = 3) (hs : m.settings.Sane (freeCount u))
    (hsc : m.settings.stepcontrol = false) {env : Env F} (hE : env.Returns (freeCount u + 1)) {fuel : Nat}
    (hf : m.settings.cycl.toNat ≤ fuel) :
    ∃ m1 m2, m.build argsort = .ok m1 ∧ m1.run env fuel = .ok m2 := by
  obtain ⟨m1, c, bars, a, r0, ft, h1, h2, h3, h4, h5, h6, h7, h8, h9, h10, h11, h12, n, h13⟩ := hv.built has hu he hdim
  have hs1 : m1.settings.Sane c.ndof1 := by
    rw [h13, h5]
    exact ⟨hs.log, hs.cycl, hs.nfev, hs.control, hs.incs, hs.limit, hs.limits⟩
  obtain ⟨m2, hr⟩ := run_total h2 h6 h7 h8 hs1
    (pathReturns_plain (fuel := fuel) hsg h3 h4 (by rw [h5]; exact hE) hs1 (by rw [h5]; exact hv.free) (by rw [h13]; exact hsc)
      (by rw [h13]; exact hf)) h9 h10 (by rw [h13]; exact hv.width) h11 h12
  exact ⟨m1, m2, h1, hr⟩

end

/-- A solver that returns, whatever the system is. -/
def exZeroEnv : Env ℚ where
  spsolve A _ := .ok (A.map fun _ => 0)
  argsortF l := List.range l.length

theorem exZeroEnv_returns (n : Nat) : exZeroEnv.Returns n where
  solve A b h _ _ := ⟨_, rfl, by rw [List.length_map]; exact h⟩
  sort l hl := by
    obtain ⟨n, hn⟩ : ∃ n, l.length = n + 1 := ⟨l.length - 1, by have := List.length_pos_iff.2 hl; omega⟩
    refine ⟨n, ?_, by omega⟩
    show (List.range l.length).getLast? = _
    rw [hn, List.range_succ, List.getLast?_concat]

theorem signTotal_rat : SignTotal ℚ := by
  intro v
  refine ⟨_, rfl, ?_⟩
  split
  · decide
  · split <;> decide

theorem exValid : ValidInput exInput exEs 1 where
  posed := exWellPosed
  props := by unfold PropsEntered; decide +kernel
  elems := by decide +kernel
  supports := by decide +kernel
  supportsOnce := by decide +kernel
  supportsAt := by decide +kernel
  loads := by decide +kernel
  loadsOnce := by decide +kernel
  loadsAt := by decide +kernel
  width := by decide +kernel
  free := by decide +kernel

-- the two-bar truss with a useless solver: the run ends
example : ∃ m1 m2, exModel.build refArgsort = .ok m1 ∧ m1.run exZeroEnv 4 = .ok m2 :=
  C64_valid_model_runs refArgsort_isArgsort signTotal_rat exEntered exEnteredElems exValid rfl
    { log := fun _ => rfl
      cycl := by decide
      nfev := by decide
      control := fun h => by cases h
      incs := fun _ h => by cases h
      limit := by
        intro j v h
        have h : XLimit.const 0 1000000 = XLimit.const j v := h
        cases h
        unfold IndexOK
        decide +kernel
      limits := fun _ h => by cases h } rfl (exZeroEnv_returns _) (by decide)

/-- The model builds and runs. -/
theorem rbRuns : ∃ m1 m2, rbModel.build refArgsort = .ok m1 ∧ m1.run rbEnv 4 = .ok m2 :=
  C64_valid_model_runs refArgsort_isArgsort signTotal_real rbEntered rbEnteredElems rbValid rfl rbSane rfl rbReturns
    (by decide)

/-- Without any free component the hypotheses fail, and so does the run (`spsolve` of a 1×1 system aside, `Dxi[-2]` does
not exist). -/
example : ((({ exModel with bounds := some ⟨[3, 1, 2], .d2 ⟨3, [[0, 0, 0], [0, 0, 0], [0, 0, 0]]⟩⟩ } : Model ℚ).build refArgsort
    >>= fun m1 => m1.run exZeroEnv 4).map fun _ => ()) = .error .indexError := by decide +kernel

/-- **C64** The same with step control, in exact arithmetic: there is a number, depending on the settings only, such that
no increment needs more attempts. -/
theorem C64_valid_model_runs_controlled (s : Settings ℝ) (hW : s.Controlled) (hcy : 1 ≤ s.cycl) :
    ∃ N, ∀ {argsort : List Int → List Nat} (_ : IsArgsort argsort) {u : UserInput ℝ} {es : List (Elem ℝ)} {m : Model ℝ},
      Entered u m → EnteredElems es m → ValidInput u es m.settings.nsteps → m.settings = s → s.ndim = 3 →
      s.Sane (freeCount u) → ∀ {env : Env ℝ}, env.Returns (freeCount u + 1) → ∀ fuel, N ≤ fuel →
      ∃ m1 m2, m.build argsort = .ok m1 ∧ m1.run env fuel = .ok m2 := by
  have key : ∀ n, (stepCfg { s with nstatev := n } 0 (0, 0)).WidthOK := fun n => ⟨hW.2, hW.3, hW.4, hW.5, hW.6⟩
  obtain ⟨N, hN⟩ := pathReturns_control (s := s) (key s.nstatev) hW.du hcy
  refine ⟨N, ?_⟩
  intro argsort has u es m hu he hv hms hdim hs env hE fuel hf
  obtain ⟨m1, c, bars, a, r0, ft, h1, h2, h3, h4, h5, h6, h7, h8, h9, h10, h11, h12, n, h13⟩ :=
    hv.built has hu he (by rw [hms]; exact hdim)
  rw [hms] at h13 hv
  have hs0 : s.Sane c.ndof1 := by rw [h5]; exact hs
  have hs1 : m1.settings.Sane c.ndof1 := by
    rw [h13]
    exact ⟨hs0.log, hs0.cycl, hs0.nfev, hs0.control, hs0.incs, hs0.limit, hs0.limits⟩
  have hp : PathReturns env fuel c m1.settings := by
    rw [h13]
    exact hN env c bars h3 h4 (by rw [h5]; exact hE) hs0 (by rw [h5]; exact hv.free) fuel hf
  obtain ⟨m2, hr⟩ := run_total h2 h6 h7 h8 hs1 hp h9 h10 (by rw [h13]; exact hv.width) h11 h12
  exact ⟨m1, m2, h1, hr⟩

-- the bar with step control
example : ∃ N, ∀ fuel, N ≤ fuel → ∃ m1 m2,
    ({ rbModel with settings := { rbSettings with stepcontrol := true } } : Model ℝ).build refArgsort = .ok m1 ∧
      m1.run rbEnv fuel = .ok m2 := by
  have hW : ({ rbSettings with stepcontrol := true } : Settings ℝ).Controlled := by
    constructor <;> norm_num [rbSettings]
  obtain ⟨N, hN⟩ := C64_valid_model_runs_controlled { rbSettings with stepcontrol := true } hW (by decide)
  exact ⟨N, fun fuel hf => hN refArgsort_isArgsort (u := rbInput) (es := rbElems)
    (m := { rbModel with settings := { rbSettings with stepcontrol := true } }) rbEntered rfl rbValid rfl rfl
    ⟨rbSane.log, rbSane.cycl, rbSane.nfev, rbSane.control, rbSane.incs, rbSane.limit, rbSane.limits⟩ rbReturns fuel hf⟩

end TrussPy
