import Verif.Lemmas.CongruentBuild
import Verif.Spec.Linear
import Verif.ExamplesValid
import Verif.ExamplesRun
/-!
# C86: congruent structures have congruent results
-/

set_option linter.unusedSectionVars false

namespace TrussPy

variable {π : Nat → Nat}

/-- The same with the assumption on the linear solver only for the signs that occur. -/
theorem congruent_runs {argsort : List Int → List Nat} (has : IsArgsort argsort) {u : UserInput ℝ} {es es' : List (Elem ℝ)}
    {m : Model ℝ} (hu : Entered u m) (he : EnteredElems es m) (hv : ValidInput u es m.settings.nsteps)
    (hdim : m.settings.ndim = 3) (h3 : 3 ∣ loadWidth u.forces) (ax : Axes) (t : V3 ℝ) (hs : SameElems π es es') :
    ∃ m1 dofs, m.build argsort = .ok m1 ∧ m1.dims.map (·.dof1) = some dofs ∧
      ∀ m' : Model ℝ, Entered (u.moved ax t) m' → EnteredElems es' m' →
        m'.settings = { m.settings with j0 := m.settings.j0.map (flipJ (ax.free dofs)) } →
        ∃ m1', m'.build argsort = .ok m1' ∧ ∀ env : Env ℝ, env.KeepsSignsOf (ax.free dofs) → ∀ fuel,
          Alike (Model.CongruentResults ax π) (m1.run env fuel) (m1'.run env fuel) := by
  obtain ⟨m1, labels, c, bars, dof0, dof1, ft, hb, B⟩ := hv.builtAs has hu he hdim
  refine ⟨m1, dof1, hb, B.dims, ?_⟩
  intro m' hu' he' hset
  obtain ⟨m1', labels', c', bars', dof0', dof1', ft', hb', B'⟩ :=
    (hv.moved (ax := ax) (t := t) hs).builtAs has hu' he' (by rw [hset]; exact hdim)
  refine ⟨m1', hb', ?_⟩
  intro env hE fuel
  have hl : labels' = labels := by
    have h1 := B'.perm
    rw [moved_labels] at h1
    exact sorted_perm_eq (h1.trans B.perm.symm) (B'.sorted.imp le_of_lt) (B.sorted.imp le_of_lt)
  subst hl
  have hd0 : dof0' = dof0 := by rw [B'.isDof0, B.isDof0]; rfl
  have hd1 : dof1' = dof1 := by rw [B'.isDof1, B.isDof1]; rfl
  subst hd0 hd1
  have hrows : ft'.forces.rows = ft.forces.rows.map (flipV ax.full) := by
    rw [B'.rows, B.rows, List.map_map]
    refine List.map_congr_left fun l _ => ?_
    exact moved_loadOf u l
  have hel : es'.length = es.length := hs.length
  have hns : c'.nstatev = c.nstatev := by
    rw [B'.nstatev, B.nstatev, hset]
    have : (es'.map (·.mtype)).contains 2 = (es.map (·.mtype)).contains 2 := by
      rw [Bool.eq_iff_iff, List.contains_iff_mem, List.contains_iff_mem]
      constructor
      · intro h
        obtain ⟨e', h1, h2⟩ := List.mem_map.1 h
        obtain ⟨e, h3, h4⟩ := hs.mem h1
        exact List.mem_map.2 ⟨e, h3, by rw [← h4.mtype]; exact h2⟩
      · intro h
        obtain ⟨e, h1, h2⟩ := List.mem_map.1 h
        obtain ⟨e', h3, h4⟩ := hs.mem' h1
        exact List.mem_map.2 ⟨e', h3, by rw [h4.mtype]; exact h2⟩
    rw [this]
  have hbl : bars.length = es.length := B.meant.length_eq.symm
  have hC : Congruent ax t π c c' bars bars' := by
    refine ⟨?_, ?_, hns, ?_, by rw [hbl]; exact hs.perm, ?_⟩
    · rw [B.isBars.nnodes, B'.isBars.nnodes, B.isLabels, B'.isLabels]
    · rw [B.ndof1, B'.ndof1]
    · rw [hbl, ← hel]; exact B'.meant.length_eq.symm
    · intro k hk
      exact built_bars hv hs B.sorted B.meant B'.meant hk
  have hπ : Rearranges π es.length := hs.perm
  have hbase' := B'.base
  have hana' := B'.analysis
  have hres' := B'.results
  rw [hel, hns] at hbase' hana' hres'
  have hV : flipV (ax.free dof1') ((Analysis.fresh labels'.length es.length dof0' dof1' c.nstatev : Analysis ℝ).Ured ++ [0]) =
      (Analysis.fresh labels'.length es.length dof0' dof1' c.nstatev : Analysis ℝ).Ured ++ [0] := by
    rw [flipV_append, mul_zero]
    congr 1
    exact flipV_zeros _ _
  have hst := fresh_congruent ax hπ labels'.length dof0' dof1' c.nstatev (some 0) _ hV none
  have hr0 := fresh_congruent ax hπ labels'.length dof0' dof1' c.nstatev (some 0) [] rfl
    (some ⟨ft.forces.rows.flatten, List.replicate (3 * labels'.length) 0⟩)
  simp only [Option.map_some, flipV_zeros] at hr0
  rw [← flatten_flip ax _ (fun r hr => by rw [B.width r hr]; exact h3), ← hrows] at hr0
  have hlog : (1 < m1'.settings.log ∧ m1'.settings.j0 ≠ none) ↔ (1 < m1.settings.log ∧ m1.settings.j0 ≠ none) := by
    rw [B'.settings, B.settings, hset]
    simp
  have key := fun (q q' : Analysis ℝ) (hq : q.Congruent ax π q') => steps_flip (st := ({ (Analysis.fresh labels'.length es.length dof0' dof1' c.nstatev : Analysis ℝ) with
        Vred := (Analysis.fresh labels'.length es.length dof0' dof1' c.nstatev : Analysis ℝ).Ured ++ [0], lpf := some 0 },
        ⟨[q, q], []⟩))
      (st' := ({ (Analysis.fresh labels'.length es.length dof0' dof1' c.nstatev : Analysis ℝ) with
        Vred := (Analysis.fresh labels'.length es.length dof0' dof1' c.nstatev : Analysis ℝ).Ured ++ [0], lpf := some 0 },
        ⟨[q', q'], []⟩)) B.isBars B'.isBars B.complete B'.complete hC B.ndof1.symm hE fuel m1.settings
    (by rw [B.rows, List.length_map, B.isBars.nnodes, B.isLabels]) B.width
    ⟨hst, B.base, hbase', rfl, rfl, rfl, .cons hq (.cons hq .nil)⟩ m.settings.nsteps hv.width
  have hsame : m1'.settings = { m1.settings with j0 := m1.settings.j0.map (flipJ (ax.free dof1')) } := by
    rw [B'.settings, B.settings, hset, hns]
  have hn1 : m1.settings.nsteps = m.settings.nsteps := by rw [B.settings]
  unfold Model.run
  by_cases hlg : 1 < m1.settings.log ∧ m1.settings.j0 ≠ none
  · rw [if_pos hlg, if_pos (hlog.2 hlg)]
    exact .error _
  · rw [if_neg hlg, if_neg (fun h => hlg (hlog.1 h))]
    simp only [B.ctx, B'.ctx, B.analysis, hana', B.results, hres', B.forces, B'.forces, dupFirst, py_bind_ok]
    rw [hsame, hrows, hn1]
    rw [hrows] at hr0
    refine (key _ _ hr0).bind ?_
    intro st st' h
    exact .ok ⟨st.2.R, st'.2.R, st.2.stepLpfEnd, rfl, by rw [← h.ends], h.recs⟩

/-- **C86** Mirroring the structure (along any of the coordinate axes) and its loads, shifting it, listing the elements in
another order and exchanging begin and end of elements mirrors the results: both models build, and both runs raise the same
exception or both return the same number of results, which are mirror images of each other one by one, with the same load
factors, stretches, normal forces, stresses and state variables.  If a control component is prescribed, its sign has to be
mirrored, too. -/
theorem C86_congruent_runs {argsort : List Int → List Nat} (has : IsArgsort argsort) {u : UserInput ℝ} {es es' : List (Elem ℝ)}
    {m : Model ℝ} (hu : Entered u m) (he : EnteredElems es m) (hv : ValidInput u es m.settings.nsteps)
    (hdim : m.settings.ndim = 3) (h3 : 3 ∣ loadWidth u.forces) (ax : Axes) (t : V3 ℝ) (hs : SameElems π es es') :
    ∃ m1 dofs, m.build argsort = .ok m1 ∧ m1.dims.map (·.dof1) = some dofs ∧
      ∀ m' : Model ℝ, Entered (u.moved ax t) m' → EnteredElems es' m' →
        m'.settings = { m.settings with j0 := m.settings.j0.map (flipJ (ax.free dofs)) } →
        ∃ m1', m'.build argsort = .ok m1' ∧ ∀ env : Env ℝ, env.KeepsSigns → ∀ fuel,
          Alike (Model.CongruentResults ax π) (m1.run env fuel) (m1'.run env fuel) := by
  obtain ⟨m1, dofs, h1, h2, h⟩ := congruent_runs has hu he hv hdim h3 ax t hs
  refine ⟨m1, dofs, h1, h2, fun m' hu' he' hset => ?_⟩
  obtain ⟨m1', h3, h4⟩ := h m' hu' he' hset
  exact ⟨m1', h3, fun env hE fuel => h4 env (hE.of (ax.free_signs dofs)) fuel⟩

/-- **C86** Without a prescribed control component the same settings can be used for both. -/
theorem C86_congruent_runs_same_settings {argsort : List Int → List Nat} (has : IsArgsort argsort) {u : UserInput ℝ}
    {es es' : List (Elem ℝ)} {m m' : Model ℝ} (hu : Entered u m) (he : EnteredElems es m)
    (hv : ValidInput u es m.settings.nsteps) (hdim : m.settings.ndim = 3) (h3 : 3 ∣ loadWidth u.forces) (ax : Axes) (t : V3 ℝ)
    (hs : SameElems π es es') (hu' : Entered (u.moved ax t) m') (he' : EnteredElems es' m') (hset : m'.settings = m.settings)
    (hj : m.settings.j0 = none) {env : Env ℝ} (hE : env.KeepsSigns) (fuel : Nat) :
    Alike (Model.CongruentResults ax π) (do let m1 ← m.build argsort; m1.run env fuel)
      (do let m1 ← m'.build argsort; m1.run env fuel) := by
  obtain ⟨m1, dofs, h1, -, h⟩ := C86_congruent_runs has hu he hv hdim h3 ax t hs
  have e : m.settings = { m.settings with j0 := m.settings.j0.map (flipJ (ax.free dofs)) } := by
    rw [hj, Option.map_none, ← hj]
  obtain ⟨m1', h2, h⟩ := h m' hu' he' (by rw [hset]; exact e)
  rw [h1, h2]
  exact h env hE fuel

/-- **C86** A shifted structure whose elements are listed in another order, some with begin and end exchanged, has the same results,
whatever the linear solver does: displacements and forces component by component, stretches, normal forces, stresses and state
variables element by element, and the load factors. -/
theorem C86_shifted_structure {argsort : List Int → List Nat} (has : IsArgsort argsort) {u : UserInput ℝ}
    {es es' : List (Elem ℝ)} {m m' : Model ℝ} (hu : Entered u m) (he : EnteredElems es m)
    (hv : ValidInput u es m.settings.nsteps) (hdim : m.settings.ndim = 3) (h3 : 3 ∣ loadWidth u.forces) (t : V3 ℝ)
    (hs : SameElems π es es')
    (hu' : Entered { u with nodes := u.nodes.map fun n => { n with coord := n.coord.mapIdx fun i x => x + t (comp i) } } m')
    (he' : EnteredElems es' m') (hset : m'.settings = m.settings) (env : Env ℝ) (fuel : Nat) :
    Alike (fun m2 m2' => ∃ R R' ends, m2.results = some ⟨R, ends⟩ ∧ m2'.results = some ⟨R', ends⟩ ∧
        List.Forall₂ (fun a b => b.U = a.U ∧ b.lpf = a.lpf ∧ b.r = a.r ∧ b.step = a.step ∧
          Reordered π a.stretch b.stretch ∧ Reordered π a.elementForce b.elementForce ∧
          Reordered π a.elementStress b.elementStress ∧
          ((a.statev = none ∧ b.statev = none) ∨
            ∃ sv sv', a.statev = some sv ∧ b.statev = some sv' ∧ Reordered π sv sv')) R R')
      (do let m1 ← m.build argsort; m1.run env fuel) (do let m1 ← m'.build argsort; m1.run env fuel) := by
  let ax : Axes := ⟨fun _ => 1, fun _ => Or.inl rfl⟩
  have hf : ∀ x : List ℝ, flipV ax.full x = x := by
    intro x
    apply List.ext_getElem?
    intro i
    rw [flipV_get]
    have : ax.full i = 1 := rfl
    rw [this]
    cases x[i]? <;> simp
  have hj : ∀ dofs, flipJ (ax.free dofs) = id := by
    intro dofs
    funext j
    unfold flipJ Axes.free
    cases dofs[j.natAbs - 1]? with
    | none => simp
    | some p =>
      have : ax.full p = 1 := rfl
      simp [this]
  have hmv : u.moved ax t = { u with nodes := u.nodes.map fun n => { n with coord := n.coord.mapIdx fun i x => x + t (comp i) } } := by
    unfold UserInput.moved
    congr 1
    · refine List.map_congr_left fun n _ => ?_
      congr 1
      apply List.ext_getElem?
      intro i
      rw [List.getElem?_mapIdx, List.getElem?_mapIdx]
      have : ax.full i = 1 := rfl
      rw [this]
      simp
    · have : (fun f : ExtForce ℝ => ({ f with force := ax.row f.force } : ExtForce ℝ)) = id := by
        funext f
        unfold Axes.row
        rw [hf]
        rfl
      rw [this, List.map_id]
  obtain ⟨m1, dofs, h1, -, h⟩ := congruent_runs has hu he hv hdim h3 ax t hs
  obtain ⟨m1', h2, h⟩ := h m' (by rw [hmv]; exact hu') he' (by rw [hset, hj, Option.map_id]; rfl)
  rw [h1, h2]
  have hE : env.KeepsSignsOf (ax.free dofs) := by
    have h1 : ∀ i, ax.free dofs i = 1 := by
      intro i
      unfold Axes.free
      cases dofs[i]? <;> rfl
    have h2 : ∀ σ : Nat → Int, (∀ i, σ i = 1) → ∀ x : List ℝ, flipV σ x = x := by
      intro σ hσ x
      apply List.ext_getElem?
      intro i
      rw [flipV_get, hσ]
      cases x[i]? <;> simp
    intro τ hτ A b
    have h3 : ∀ i, τ i = 1 := by
      intro i
      obtain ⟨k, hk⟩ := hτ i
      rw [hk, h1]
    have h4 : flipM τ (ax.free dofs) A = A := by
      apply List.ext_getElem?
      intro i
      rw [flipM_get]
      cases A[i]? with
      | none => rfl
      | some row => simp [h2 _ h1, h3]
    rw [h4, h2 τ h3]
    cases env.spsolve A b with
    | error e => rfl
    | ok x => simp [Except.map, h2 _ h1]
  refine (h env hE fuel).mono ?_
  rintro m2 m2' ⟨R, R', ends, r1, r2, r3⟩
  refine ⟨R, R', ends, r1, r2, r3.imp ?_⟩
  intro a b hab
  refine ⟨by rw [hab.U, hf], hab.lpf, ?_, hab.step, hab.stretch, hab.force, hab.stress, hab.statev⟩
  · rw [hab.r]
    have : ax.mirror = id := by
      funext v d
      show ((1 : Int) : ℝ) * v d = v d
      simp
    rw [this, List.map_id]

/-! ## Examples -/

open Classical in
/-- A solver that returns the solution if there is exactly one, and otherwise fails. -/
noncomputable def uniqueEnv : Env ℝ where
  spsolve A b := if h : ∃! x : List ℝ, x.length = b.length ∧ matVec A x = b then .ok h.choose else .error .valueError
  argsortF l := (List.range l.length).insertionSort fun i j => l.getD i 0 ≤ l.getD j 0

theorem flipV_flipV {σ : Nat → Int} (h : IsSigns σ) (x : List ℝ) : flipV σ (flipV σ x) = x := by
  apply List.ext_getElem?
  intro i
  rw [flipV_get, flipV_get]
  rcases h i with e | e <;> cases x[i]? <;> simp [e]

theorem zipWith_flip {σ : Nat → Int} (h : IsSigns σ) (r x : List ℝ) :
    List.zipWith (· * ·) (flipV σ r) (flipV σ x) = List.zipWith (· * ·) r x := by
  apply List.ext_getElem?
  intro i
  simp only [List.getElem?_zipWith, flipV_get]
  rcases h i with e | e <;> cases r[i]? <;> cases x[i]? <;> simp [e]

theorem matVec_flip {τ σ : Nat → Int} (hσ : IsSigns σ) (A : List (List ℝ)) (x : List ℝ) :
    matVec (flipM τ σ A) (flipV σ x) = flipV τ (matVec A x) := by
  unfold matVec
  apply List.ext_getElem?
  intro i
  rw [List.getElem?_map, flipM_get, flipV_get, List.getElem?_map]
  cases A[i]? with
  | none => rfl
  | some row =>
    simp only [Option.map_some, Option.some.injEq]
    have e := sum_mul (τ i : ℝ) (List.zipWith (· * ·) row x) id
    simp only [id_eq] at e
    rw [List.map_id] at e
    rw [← e, ← zipWith_flip hσ row x]
    congr 1
    rw [List.zipWith_map_left, List.map_zipWith]
    congr 1
    funext a b
    ring

theorem uniqueEnv_keeps : uniqueEnv.KeepsSigns := by
  intro τ σ hτ hσ A b
  have key : ∀ (τ σ : Nat → Int), IsSigns τ → IsSigns σ → ∀ A b (x : List ℝ), (x.length = b.length ∧ matVec A x = b) →
      (flipV σ x).length = (flipV τ b).length ∧ matVec (flipM τ σ A) (flipV σ x) = flipV τ b := by
    rintro τ σ - hσ A b x ⟨h1, h2⟩
    exact ⟨by rw [flipV_length, flipV_length, h1], by rw [matVec_flip hσ, h2]⟩
  have back : ∀ x : List ℝ, (x.length = (flipV τ b).length ∧ matVec (flipM τ σ A) x = flipV τ b) →
      (flipV σ x).length = b.length ∧ matVec A (flipV σ x) = b := by
    rintro x ⟨h1, h2⟩
    refine ⟨by rw [flipV_length, h1, flipV_length], ?_⟩
    have h3 := matVec_flip (τ := τ) hσ A (flipV σ x)
    rw [flipV_flipV hσ, h2] at h3
    rw [← flipV_flipV hτ (matVec A (flipV σ x)), ← h3, flipV_flipV hτ]
  unfold uniqueEnv
  simp only
  by_cases h : ∃! x : List ℝ, x.length = b.length ∧ matVec A x = b
  · have h' : ∃! x : List ℝ, x.length = (flipV τ b).length ∧ matVec (flipM τ σ A) x = flipV τ b := by
      obtain ⟨x, hx, hu⟩ := h
      refine ⟨flipV σ x, key τ σ hτ hσ A b x hx, ?_⟩
      intro y hy
      rw [← hu _ (back y hy), flipV_flipV hσ]
    rw [dif_pos h, dif_pos h']
    show _ = Except.ok (flipV σ h.choose)
    congr 1
    exact h'.unique h'.choose_spec.1 (key τ σ hτ hσ A b _ h.choose_spec.1)
  · rw [dif_neg h, dif_neg ?_]
    · rfl
    · rintro ⟨y, hy, hu⟩
      refine h ⟨flipV σ y, back y hy, ?_⟩
      intro x hx
      rw [← hu _ (key τ σ hτ hσ A b x hx), flipV_flipV hσ]

-- the solver is not trivial
example : uniqueEnv.spsolve [[2, 0], [0, 4]] [1, 1] = .ok [1 / 2, 1 / 4] := by
  have h : ∃! x : List ℝ, x.length = [(1 : ℝ), 1].length ∧ matVec [[2, 0], [0, 4]] x = [1, 1] := by
    refine ⟨[1 / 2, 1 / 4], ⟨rfl, by norm_num [matVec]⟩, ?_⟩
    rintro y ⟨h1, h2⟩
    match y, h1 with
    | [a, b], _ =>
      simp [matVec] at h2
      obtain ⟨e1, e2⟩ := h2
      congr 2 <;> linarith
  have := h.unique h.choose_spec.1 (y₂ := [1 / 2, 1 / 4]) ⟨rfl, by norm_num [matVec]⟩
  unfold uniqueEnv
  simp only
  rw [dif_pos h, this]

/-- Mirror along x. -/
def mirrorX : Axes := ⟨![-1, 1, 1], by decide⟩

/-- The bar of `rbModel` mirrored along x and shifted by `(5, 0, 1)`, its element from node 2 to node 1. -/
noncomputable def rbMirrored : Model ℝ where
  nodes := some ⟨[2, 1], ⟨3, [[-1 * 1 + 5, 1 * 0 + 0, 1 * 0 + 1], [-1 * 0 + 5, 1 * 0 + 0, 1 * 0 + 1]]⟩⟩
  elems := some ⟨[7], ⟨2, [[2, 1]]⟩, [1], [1], ⟨false, 1, [[1]]⟩, ⟨false, 1, [[1]]⟩⟩
  bounds := some ⟨[1, 2], .d2 ⟨3, [[0, 0, 0], [1, 0, 0]]⟩⟩
  forces := some ⟨[2], ⟨3, [[-1 * 1, 1 * 0, 1 * 0]]⟩⟩
  settings := { rbSettings with j0 := some (-1) }

-- all hypotheses hold for the bar and its mirror image
example : ∃ m1 m1' dofs, rbModel.build refArgsort = .ok m1 ∧ m1.dims.map (·.dof1) = some dofs ∧
    rbMirrored.build refArgsort = .ok m1' ∧
    ∀ fuel, Alike (Model.CongruentResults mirrorX id) (m1.run uniqueEnv fuel) (m1'.run uniqueEnv fuel) := by
  have hs : SameElems id rbElems [⟨7, [2, 1], 1, 1, ⟨false, [1]⟩, ⟨false, [1]⟩⟩] := by
    refine ⟨by unfold Rearranges; rw [List.map_id], rfl, ?_, by decide⟩
    intro k e' h
    match k with
    | 0 => cases h; exact ⟨_, rfl, Or.inr rfl, rfl, rfl, rfl⟩
    | k + 1 => cases h
  obtain ⟨m1, dofs, h1, h2, h⟩ := C86_congruent_runs refArgsort_isArgsort rbEntered rbEnteredElems rbValid rfl ⟨1, rfl⟩ mirrorX
    ![5, 0, 1] hs
  have hd : dofs = [3] := by
    have : m1.dims.map (·.dof1) = some [3] := by
      have := congrArg (fun r => r.toOption.bind fun m : Model ℝ => m.dims.map (·.dof1)) h1
      exact this.symm.trans rfl
    rw [this] at h2
    exact (Option.some.inj h2).symm
  have hu : Entered (rbInput.moved mirrorX ![5, 0, 1]) rbMirrored := by
    refine ⟨?_, rfl, ?_⟩
    · simp [rbInput, UserInput.moved, rbMirrored, addNodes, addNode, Tab.ofRow, Tab.vstack, Axes.full, mirrorX, comp, bind,
        Except.bind, pure, Except.pure]
    · simp [rbInput, UserInput.moved, rbMirrored, addForces, addForce, Tab.ofRow, Axes.row, flipV, Axes.full, mirrorX, comp,
        bind, Except.bind, pure, Except.pure]
  obtain ⟨m1', h3, h4⟩ := h rbMirrored hu rfl (by rw [hd]; rfl)
  exact ⟨m1, m1', dofs, h1, h2, h3, h4 uniqueEnv uniqueEnv_keeps⟩

/-- The bar of `exBarModel` mirrored along x and shifted, its element from node 2 to node 1. -/
def exBarMirrored (ty : Int) (mat : List ℚ) : Model ℚ :=
  { exBarModel ty mat with
    nodes := some ⟨[1, 2], ⟨3, [[5, 0, 0], [4, 0, 0]]⟩⟩
    elems := some ⟨[1], ⟨2, [[2, 1]]⟩, [1], [ty], ⟨false, mat.length, [mat]⟩, ⟨false, 1, [[1]]⟩⟩
    forces := some ⟨[2], ⟨6, [[-1, 0, 0, -2, 0, 0]]⟩⟩ }

-- two complete runs (of two steps, with plasticity): opposite displacements, same stretches, stresses and load factors
example :
    showR (fun a => (-a.U.getD 3 9, a.stretch, a.elementStress, a.lpf)) (buildRun 1 (exBarMirrored 2 [1, 1 / 3, 1 / 8])) =
      showR (fun a => (a.U.getD 3 9, a.stretch, a.elementStress, a.lpf)) (buildRun 1 (exBarModel 2 [1, 1 / 3, 1 / 8])) ∧
    (showR (fun a => a.stretch) (buildRun 1 (exBarModel 2 [1, 1 / 3, 1 / 8]))).map List.length = .ok 4 ∧
    showR (fun a => a.U.getD 3 9) (buildRun 1 (exBarModel 2 [1, 1 / 3, 1 / 8])) ≠ .ok [0, 0, 0, 0] := by
  decide +kernel

end TrussPy
