import Verif.Spec.Rigid
import Verif.Props.Energy
import Verif.Props.EndToEnd
import Mathlib.LinearAlgebra.Matrix.NonsingularInverse
/-!
# The stiffness matrix of the undeformed structure
-/

set_option linter.unusedSectionVars false

namespace TrussPy

open Spec

/-- A bar with a length and positive properties. -/
structure Bar.Stiff (b : Bar ℝ) : Prop where
  length : len b.ref ≠ 0
  area : ∃ A rest, b.geo = A :: rest ∧ 0 < A
  elastic : b.law = .el → ∃ E rest, b.mat = E :: rest ∧ 0 < E
  plastic : b.law = .elplast → ∃ (m : Plastic) (rest : List ℝ), m.Valid ∧ b.mat = m.E :: m.K :: m.Sy :: rest

/-- State variables of a bar that has not yet seen any strain. -/
def Virgin (b : Bar ℝ) (row : Option (List ℝ)) : Prop := b.law = .elplast → ∃ more, row = some (0 :: 0 :: more)

theorem axis_zero (b : Bar ℝ) {U : List ℝ} (hU : ∀ p, U.getD p 0 = 0) : b.axis U = b.ref := by
  funext d
  unfold Bar.axis Bar.ref row3
  rw [hU, hU, add_zero, add_zero]

theorem stretch_zero {b : Bar ℝ} (hb : len b.ref ≠ 0) {U : List ℝ} (hU : ∀ p, U.getD p 0 = 0) : b.stretch U = 1 := by
  unfold Bar.stretch
  rw [axis_zero b hU, div_self hb]

theorem virgin_yield {m : Plastic} (hm : m.Valid) : |m.E * ((1 : ℝ) - 1 - 0)| ≤ m.Sy := by
  have := hm.Sy
  simp only [sub_self, mul_zero, abs_zero]
  exact this.le

/-- Without displacement a virgin bar has no force and its elastic tangent. -/
theorem Bar.Stiff.undeformed {b : Bar ℝ} (hb : b.Stiff) {U : List ℝ} (hU : ∀ p, U.getD p 0 = 0) {row : Option (List ℝ)}
    (hrow : Virgin b row) {x : BarRes} (hx : b.Result U row x) : x.force = 0 ∧ 0 < x.dsde * x.area := by
  obtain ⟨s1, ⟨de, out, l1, l2, l3⟩, a1, f1⟩ := hx
  obtain ⟨A, rest, hA, hA0⟩ := hb.area
  rw [hA] at a1
  have ha : A = x.area := Option.some.inj a1
  rw [stretch_zero hb.length hU] at s1
  have key : out.s = 0 ∧ 0 < out.dsde := by
    cases hl : b.law with
    | el =>
      obtain ⟨E, rest, hm, hE⟩ := hb.elastic hl
      rw [hl, hm, s1] at l1
      have : (Except.ok ⟨E * (1 - 1), E, 0, row⟩ : Py (UmatOut ℝ)) = .ok out := l1
      cases this
      exact ⟨by simp, hE⟩
    | elplast =>
      obtain ⟨m, rest, hm, hmat⟩ := hb.plastic hl
      obtain ⟨more, hr⟩ := hrow hl
      rw [hl, hmat, s1, hr] at l1
      have hcall : Umat.call .elplast ((1 : ℝ) - 1) de (m.E :: m.K :: m.Sy :: rest) (some (0 :: 0 :: more)) = _ :=
        umat_real hm rest (1 - 1) de 0 0 (Y := m.Sy) (by simp) hm.Sy.le more
      rw [hcall] at l1
      have := Except.ok.inj l1
      rw [← this]
      have hy := virgin_yield hm
      refine ⟨?_, ?_⟩
      · simp only [newP, flow_elastic hm hy]
        simp
      · simp only
        rw [if_pos hy]
        exact hm.E
  rw [f1, l2, l3, key.1, zero_mul, ← ha]
  exact ⟨rfl, mul_pos key.2 hA0⟩

theorem inner_dir_ref {b : Bar ℝ} (hb : len b.ref ≠ 0) {U : List ℝ} (hU : ∀ p, U.getD p 0 = 0) (w : V3 ℝ) :
    inner3 (b.dir U) w = inner3 b.ref w / len b.ref := by
  unfold inner3 Bar.dir
  rw [axis_zero b hU]
  field_simp

/-- One row of the stiffness matrix times a vector. -/
theorem stiffness_row {c : Ctx ℝ} {bars : List (Bar ℝ)} (hB : c.Bars bars) {a a' : Analysis ℝ} (hf : a.Fits c)
    {V : List ℝ} {K : List (List ℝ)} (h : stiffness c a V = .ok (a', K)) {n : Nat} (hn : a.DOF1.length = n)
    (v : Fin n → ℝ) {dU : List ℝ} (hU : scatter (List.replicate (3 * c.nnodes) 0) a.DOF1 (List.ofFn v) = .ok dU)
    (i : Fin n) :
    ∃ xs, Results.Of c bars a'.U a.statev xs ∧ (matOf n K).mulVec v i = ((bars.zip xs).map fun p =>
      p.1.sgn (a.DOF1.getD i 0 / 3) *
        (∑ e : Fin 3, p.1.tangent a'.U p.2 (comp (a.DOF1.getD i 0)) e * p.1.delta dU e)).sum := by
  obtain ⟨xs, x1, -, rfl⟩ := C23_stiffness hB hf h
  refine ⟨xs, x1, ?_⟩
  show ∑ j, matOf n _ i j * v j = _
  simp only [reducedStiffness_get hn]
  have : ∀ j : Fin n, nodeStiffness bars xs a'.U (a.DOF1.getD i 0 / 3) (a.DOF1.getD j 0 / 3)
      (comp (a.DOF1.getD i 0)) (comp (a.DOF1.getD j 0)) * v j = ((bars.zip xs).map fun p =>
        p.1.sgn (a.DOF1.getD i 0 / 3) * (p.1.sgn (a.DOF1.getD j 0 / 3) *
          p.1.tangent a'.U p.2 (comp (a.DOF1.getD i 0)) (comp (a.DOF1.getD j 0)) * v j)).sum := by
    intro j
    unfold nodeStiffness
    rw [← List.sum_map_mul_right]
    congr 1
    refine List.map_congr_left fun p _ => ?_
    ring
  rw [Finset.sum_congr rfl fun j _ => this j, sum_list_swap_fin]
  congr 1
  refine List.map_congr_left fun p _ => ?_
  rw [delta_pick hf.dofNodup hf.dof hn v hU p.1 (fun e => p.1.tangent a'.U p.2 (comp (a.DOF1.getD i 0)) e),
    ← Finset.mul_sum]

/-- No velocity of the free degrees of freedom except zero leaves the lengths of the bars unchanged. -/
def BarStable (nnodes : Nat) (dofs : List Nat) (bars : List (Bar ℝ)) : Prop :=
  ∀ v : Fin dofs.length → ℝ, ∀ dU, scatter (List.replicate (3 * nnodes) 0) dofs (List.ofFn v) = .ok dU →
    (∀ b ∈ bars, inner3 b.ref (b.delta dU) = 0) → v = 0

theorem regular_iff_injective {n : Nat} (M : Matrix (Fin n) (Fin n) ℝ) :
    IsUnit M.det ↔ ∀ v, M.mulVec v = 0 → v = 0 := by
  rw [← Matrix.isUnit_iff_isUnit_det, ← Matrix.mulVec_injective_iff_isUnit]
  constructor
  · intro h v hv
    exact h (hv.trans (Matrix.mulVec_zero M).symm)
  · intro h x y hxy
    have : M.mulVec (x - y) = 0 := by
      rw [Matrix.mulVec_sub]
      exact sub_eq_zero.2 hxy
    exact sub_eq_zero.1 (h _ this)

theorem sum_zero_nonneg {l : List ℝ} (h : ∀ y ∈ l, 0 ≤ y) (hs : l.sum = 0) : ∀ y ∈ l, y = 0 := by
  induction l with
  | nil => simp
  | cons x l ih =>
    rw [List.sum_cons] at hs
    have h1 := h x (by simp)
    have h2 : 0 ≤ l.sum := List.sum_nonneg fun y hy => h y (by simp [hy])
    intro y hy
    rcases List.mem_cons.1 hy with rfl | hy
    · linarith
    · exact ih (fun z hz => h z (by simp [hz])) (by linarith) y hy

theorem stiffness_regular_iff {c : Ctx ℝ} {bars : List (Bar ℝ)} (hB : c.Bars bars) {a a' : Analysis ℝ} (hf : a.Fits c)
    {V : List ℝ} {K : List (List ℝ)} (h : stiffness c a V = .ok (a', K)) (hst : ∀ b ∈ bars, b.Stiff)
    (hvir : ∀ k b, bars[k]? = some b → Virgin b (stateRow c a.statev k)) (hU : ∀ p, a'.U.getD p 0 = 0) :
    IsUnit (matOf a.DOF1.length K).det ↔ BarStable c.nnodes a.DOF1 bars := by
  rw [regular_iff_injective]
  have hres : ∀ {xs}, Results.Of c bars a'.U a.statev xs → ∀ p ∈ bars.zip xs,
      p.2.force = 0 ∧ 0 < p.2.dsde * p.2.area ∧ p.1 ∈ bars := by
    intro xs hx p hp
    obtain ⟨k, hk⟩ := List.getElem?_of_mem hp
    obtain ⟨hb, hx'⟩ := List.getElem?_zip_eq_some.1 hk
    have hm := List.mem_of_getElem? hb
    obtain ⟨q1, q2⟩ := (hst _ hm).undeformed hU (hvir k _ hb) (hx.result k _ _ hb hx')
    exact ⟨q1, q2, hm⟩
  constructor
  · intro hinj v dU hdU hz
    refine hinj v ?_
    funext i
    obtain ⟨xs, x1, x2⟩ := stiffness_row hB hf h rfl v hdU i
    rw [x2]
    refine List.sum_eq_zero fun y hy => ?_
    obtain ⟨p, hp, rfl⟩ := List.mem_map.1 hy
    obtain ⟨q1, q2, q3⟩ := hres x1 p hp
    have h0 : inner3 (p.1.dir a'.U) (p.1.delta dU) = 0 := by
      rw [inner_dir_ref (hst _ q3).length hU, hz _ q3, zero_div]
    have : (∑ e : Fin 3, p.1.tangent a'.U p.2 (comp (a.DOF1.getD i 0)) e * p.1.delta dU e) = 0 := by
      simp only [Bar.tangent, q1, zero_div, zero_mul, add_zero, Fin.sum_univ_three]
      unfold inner3 at h0
      linear_combination (p.2.dsde * p.2.area / len p.1.ref * p.1.dir a'.U (comp (a.DOF1.getD i 0))) * h0
    rw [this, mul_zero]
  · intro hs v hv
    obtain ⟨dU, hdU⟩ : ∃ dU, scatter (List.replicate (3 * c.nnodes) 0) a.DOF1 (List.ofFn v) = .ok dU :=
      scatter_ok (by simp)
    refine hs v dU hdU ?_
    obtain ⟨xs, x1, x2⟩ := quadratic_scatter hB hf h rfl v hdU
    have h0 : ∑ i, ∑ j, v i * matOf a.DOF1.length K i j * v j = 0 := by
      refine Finset.sum_eq_zero fun i _ => ?_
      have : ∑ j, v i * matOf a.DOF1.length K i j * v j = v i * (matOf a.DOF1.length K).mulVec v i := by
        show _ = v i * ∑ j, matOf a.DOF1.length K i j * v j
        rw [Finset.mul_sum]
        exact Finset.sum_congr rfl fun j _ => by ring
      rw [this, hv, Pi.zero_apply, mul_zero]
    rw [h0] at x2
    have hnn : ∀ y ∈ (bars.zip xs).map (fun p : Bar ℝ × BarRes =>
        p.2.dsde * p.2.area / len p.1.ref * inner3 (p.1.dir a'.U) (p.1.delta dU) ^ 2 +
        p.2.force / len (p.1.axis a'.U) * (inner3 (p.1.delta dU) (p.1.delta dU) -
          inner3 (p.1.dir a'.U) (p.1.delta dU) ^ 2)), 0 ≤ y := by
      intro y hy
      obtain ⟨p, hp, rfl⟩ := List.mem_map.1 hy
      obtain ⟨q1, q2, q3⟩ := hres x1 p hp
      rw [q1, zero_div, zero_mul, add_zero]
      have := len_nonneg p.1.ref
      positivity
    intro b hb
    obtain ⟨k, hk⟩ := List.getElem?_of_mem hb
    have hkl : k < bars.length := (List.getElem?_eq_some_iff.1 hk).1
    obtain ⟨x, hx⟩ : ∃ x, xs[k]? = some x := ⟨_, List.getElem?_eq_getElem (by rw [x1.length]; exact hkl)⟩
    have hmem : (b, x) ∈ bars.zip xs := List.mem_of_getElem? (List.getElem?_zip_eq_some.2 ⟨hk, hx⟩)
    have hz := sum_zero_nonneg hnn x2.symm _ (List.mem_map.2 ⟨_, hmem, rfl⟩)
    obtain ⟨q1, q2, q3⟩ := hres x1 _ hmem
    simp only at hz q1 q2
    rw [q1, zero_div, zero_mul, add_zero] at hz
    have hl := (hst b hb).length
    rcases mul_eq_zero.1 hz with h1 | h1
    · exact absurd h1 (div_ne_zero q2.ne' hl)
    · have h2 := pow_eq_zero_iff (two_ne_zero) |>.1 h1
      rw [inner_dir_ref hl hU, div_eq_zero_iff] at h2
      exact h2.resolve_right hl

/-! ## The entered structure -/

/-- What `build` makes of valid input: the structure and the free degrees of freedom. -/
theorem built_structure {F : Type} [Zero F] [One F] [Add F] [Sub F] [Mul F] [Div F] [Neg F] [Flt F]
    {argsort : List Int → List Nat} (has : IsArgsort argsort) {u : UserInput F} {es : List (Elem F)} {m m1 : Model F}
    {nsteps : Nat} (hu : Entered u m) (he : EnteredElems es m) (hv : ValidInput u es nsteps)
    (hb : m.build argsort = .ok m1) :
    ∃ c d bars ft, m1.ctx = some c ∧ m1.dims = some d ∧ m1.forces = some ft ∧ c.Bars bars ∧
      (∀ b ∈ bars, b.Complete c.nstatev) ∧ c.nodes.labels.Perm (u.nodes.map (·.label)) ∧ Meant u es c.nodes.labels bars ∧
      c.nnodes = d.nnodes ∧ c.ndof1 = d.dof1.length ∧ d.dof1.length = freeCount u ∧
      m1.analysis = some (Analysis.fresh d.nnodes d.nelems d.dof0 d.dof1 c.nstatev) ∧
      (Analysis.fresh d.nnodes d.nelems d.dof0 d.dof1 c.nstatev : Analysis F).Fits c ∧
      d.nelems = bars.length ∧
      ∀ (i : Nat) (l : Int), c.nodes.labels[i]? = some l → ∀ e : Fin 3,
        3 * i + e ∈ d.dof1 ↔ (supportOf u.bounds l)[e.val]? = some 1 := by
  obtain ⟨s⟩ := build_steps hb
  have h2 : 2 ≤ u.nodes.length := by
    have he' := he
    unfold EnteredElems at he'
    rw [s.he] at he'
    exact two_nodes he' hv.posed
  obtain ⟨c, bars, h3, h4, h5, h6, h7⟩ := C61_structure_as_entered has hu he hv.posed hb
  have hC := C61_bars_complete he hv.props hb h3 h7
  obtain ⟨c1, c2, c3, c4, c5, ⟨w, c6, c7⟩, c8, c9, c10, c11, c12⟩ := build_closed has hu hv.posed.nodes h2 s
  obtain ⟨c', d, ft, g1, g2, g3, g4, g5, g6, g7, g8, g9, g10, g11, g12⟩ := build_ready hb
  rw [h3] at g1; cases g1
  have hd : d = ⟨s.nt0.labels.length, s.et.labels.length, s.nt0.labels.length * 3, s.dof0, s.dof1⟩ := by
    have := congrArg Model.dims s.hm'
    rw [g2] at this
    exact Option.some.inj this
  have hnt : c.nodes = s.nt := by
    have := congrArg Model.nodes s.hm'
    rw [g5] at this
    exact Option.some.inj this
  have het : c.elems = s.et := by
    have := congrArg Model.elems s.hm'
    rw [g4, s.he] at this
    exact Option.some.inj this
  have hd1 := (dofWhere_ok_iff.1 s.hd1).1
  have hsup : ∀ l, (supportOf u.bounds l).length = 3 := by
    intro l
    unfold supportOf
    split
    · next b hb => exact hv.supports b (List.mem_of_find?_eq_some hb)
    · rfl
  refine ⟨c, d, bars, ft, h3, g2, g3, h4, hC, h5, h7, g6, g7, ?_, g10, g12, ?_, ?_⟩
  · rw [hd]
    show s.dof1.length = _
    rw [hd1, whereEq_length, c6]
    show ((s.nt.labels.map (supportOf u.bounds)).flatten).count 1 = _
    rw [List.count_flatten, List.map_map]
    unfold freeCount
    have := (c1.map (List.count 1 ∘ supportOf u.bounds)).sum_eq
    rw [this, List.map_map]
    rfl
  · rw [hd, h4.length, het]
  · intro i l hl e
    rw [hnt] at hl
    rw [hd]
    show _ ∈ s.dof1 ↔ _
    rw [hd1, mem_whereEq, c6]
    show ((s.nt.labels.map (supportOf u.bounds)).flatten)[_]? = _ ↔ _
    rw [flatten_get (w := 3) (by
      intro r hr
      obtain ⟨l, -, rfl⟩ := List.mem_map.1 hr
      exact hsup l) i e e.isLt, List.getElem?_map, hl]
    rfl

theorem meant_stiff {u : UserInput ℝ} {es : List (Elem ℝ)} {labels : List Int} {bars : List (Bar ℝ)}
    (hm : Meant u es labels bars) (hst : StiffElems u es) : ∀ b ∈ bars, b.Stiff := by
  intro b hb
  obtain ⟨k, hk⟩ := List.getElem?_of_mem hb
  have hkl := (List.getElem?_eq_some_iff.1 hk).1
  have hke : k < es.length := by rw [hm.length_eq]; exact hkl
  have := hm.get hke hkl
  obtain ⟨nA, hA, nE, hE, hbo⟩ := this
  have hbe : bars.get ⟨k, hkl⟩ = b := (List.getElem?_eq_some_iff.1 hk).2
  rw [hbe] at hbo
  set e := es.get ⟨k, hke⟩
  have hee : e ∈ es := List.get_mem _ _
  refine ⟨?_, ?_, ?_, ?_⟩
  · intro h0
    apply hst.length e hee nA hA nE hE hbo.conn
    rw [hbo.coordA, hbo.coordE]
    have hsq := len_sq b.ref
    rw [h0] at hsq
    have e0 : b.ref 0 = 0 := by nlinarith [sq_nonneg (b.ref 0), sq_nonneg (b.ref 1), sq_nonneg (b.ref 2)]
    have e1 : b.ref 1 = 0 := by nlinarith [sq_nonneg (b.ref 0), sq_nonneg (b.ref 1), sq_nonneg (b.ref 2)]
    have e2 : b.ref 2 = 0 := by nlinarith [sq_nonneg (b.ref 0), sq_nonneg (b.ref 1), sq_nonneg (b.ref 2)]
    unfold Bar.ref at e0 e1 e2
    rw [sub_eq_zero.1 e0, sub_eq_zero.1 e1, sub_eq_zero.1 e2]
  · rw [hbo.geo]
    exact hst.area e hee
  · intro hl
    rw [hbo.mat]
    rcases hbo.law with ⟨h1, h2⟩ | ⟨h1, h2⟩
    · exact hst.elastic e hee h1
    · rw [hl] at h2; cases h2
  · intro hl
    rw [hbo.mat]
    rcases hbo.law with ⟨h1, h2⟩ | ⟨h1, h2⟩
    · rw [hl] at h2; cases h2
    · exact hst.plastic e hee h1

theorem scatter_zero_getD {N : Nat} {idx : List Nat} (hnd : idx.Nodup) (hlt : ∀ i ∈ idx, i < N) {v : Fin idx.length → ℝ}
    {dU : List ℝ} (h : scatter (List.replicate N 0) idx (List.ofFn v) = .ok dU) :
    (∀ m : Fin idx.length, dU.getD idx[m] 0 = v m) ∧ ∀ p, p ∉ idx → dU.getD p 0 = 0 := by
  have hg := scatter_getD h (by simp) hnd (by simpa using hlt)
  have h0 : ∀ p, (if p ∈ idx then (0 : ℝ) else (List.replicate N (0 : ℝ)).getD p 0) = 0 := by
    intro p
    split
    · rfl
    · rw [List.getD_eq_getElem?_getD, List.getElem?_replicate]
      split <;> rfl
  constructor
  · intro m
    rw [hg, h0, zero_add, Finset.sum_eq_single m]
    · rw [if_pos rfl, List.getD_eq_getElem?_getD, List.getElem?_ofFn]
      simp
    · intro k _ hkm
      rw [if_neg]
      intro h
      exact hkm (Fin.ext (hnd.getElem_inj_iff.1 h))
    · simp
  · intro p hp
    rw [hg, h0, zero_add]
    refine Finset.sum_eq_zero fun m _ => ?_
    rw [if_neg]
    intro h
    exact hp (h ▸ List.getElem_mem _)

theorem stable_iff {u : UserInput ℝ} {es : List (Elem ℝ)} {labels : List Int} {bars : List (Bar ℝ)} {nn : Nat}
    {dofs : List Nat} (hnd : (u.nodes.map (·.label)).Nodup) (hp : labels.Perm (u.nodes.map (·.label)))
    (hnn : nn = labels.length) (hm : Meant u es labels bars) (hdn : dofs.Nodup) (hlt : ∀ i ∈ dofs, i < 3 * nn)
    (hd : ∀ (i : Nat) (l : Int), labels[i]? = some l → ∀ e : Fin 3,
      3 * i + e ∈ dofs ↔ (supportOf u.bounds l)[e.val]? = some 1) :
    BarStable nn dofs bars ↔ KinematicallyStable u es := by
  subst hnn
  have hln : labels.Nodup := hp.nodup_iff.2 hnd
  have hidx : ∀ {i : Nat} {l : Int}, labels[i]? = some l → labels.idxOf l = i := by
    intro i l h
    obtain ⟨h1, h2⟩ := List.getElem?_eq_some_iff.1 h
    rw [← h2]
    exact hln.idxOf_getElem i h1
  have hnode : ∀ n ∈ u.nodes, ∃ i : Nat, labels[i]? = some n.label := by
    intro n hn
    have : n.label ∈ labels := hp.mem_iff.2 (List.mem_map_of_mem hn)
    exact List.getElem?_of_mem this
  have hsame : ∀ {n n' : Node ℝ}, n ∈ u.nodes → n' ∈ u.nodes → n.label = n'.label → n = n' :=
    fun h h' heq => List.inj_on_of_nodup_map hnd h h' heq
  have hdec : ∀ p : Nat, 3 * (p / 3) + (comp p : Nat) = p := fun p => by
    show 3 * (p / 3) + p % 3 = p
    omega
  have hcomp : ∀ (i : Nat) (e : Fin 3), (3 * i + e) / 3 = i ∧ comp (3 * i + e) = e := by
    intro i e
    have := e.isLt
    refine ⟨by omega, Fin.ext ?_⟩
    show (3 * i + e) % 3 = e
    omega
  constructor
  · intro hs w hadm hinx n hn d
    set v : Fin dofs.length → ℝ := fun k => w (labels.getD (dofs[k] / 3) 0) (comp dofs[k]) with hvdef
    obtain ⟨dU, hdU⟩ : ∃ dU, scatter (List.replicate (3 * labels.length) 0) dofs (List.ofFn v) = .ok dU :=
      scatter_ok (by simp)
    obtain ⟨g1, g2⟩ := scatter_zero_getD hdn hlt hdU
    have hval : ∀ n ∈ u.nodes, ∀ i : Nat, labels[i]? = some n.label → ∀ e, row3 dU i e = w n.label e := by
      intro n hn i hi e
      unfold row3
      by_cases hin : 3 * i + (e : Nat) ∈ dofs
      · obtain ⟨k, hk, hke⟩ := List.getElem_of_mem hin
        have := g1 ⟨k, hk⟩
        simp only [hvdef, Fin.getElem_fin, hke] at this
        rw [this, (hcomp i e).1, (hcomp i e).2, List.getD_eq_getElem?_getD, hi]
        rfl
      · rw [g2 _ hin]
        exact (hadm n hn e fun h => hin ((hd i _ hi e).2 h)).symm
    have hv0 : v = 0 := by
      refine hs v dU hdU fun b hb => ?_
      obtain ⟨k, hk⟩ := List.getElem?_of_mem hb
      have hkl := (List.getElem?_eq_some_iff.1 hk).1
      have hke : k < es.length := by rw [hm.length_eq]; exact hkl
      obtain ⟨nA, hA, nE, hE, hbo⟩ := hm.get hke hkl
      rw [show bars.get ⟨k, hkl⟩ = b from (List.getElem?_eq_some_iff.1 hk).2] at hbo
      have := hinx _ (List.get_mem _ _) nA hA nE hE hbo.conn
      rw [hbo.coordA, hbo.coordE] at this
      unfold inner3 at this ⊢
      unfold Bar.delta
      simp only [hval nA hA _ hbo.posA, hval nE hE _ hbo.posE]
      exact this
    obtain ⟨i, hi⟩ := hnode n hn
    rw [← hval n hn i hi d]
    unfold row3
    by_cases hin : 3 * i + (d : Nat) ∈ dofs
    · obtain ⟨k, hk, hke⟩ := List.getElem_of_mem hin
      have := g1 ⟨k, hk⟩
      simp only [Fin.getElem_fin, hke, hv0] at this
      exact this
    · exact g2 _ hin
  · intro hs v dU hdU hz
    obtain ⟨g1, g2⟩ := scatter_zero_getD hdn hlt hdU
    have hall := hs (fun l => row3 dU (labels.idxOf l)) ?_ ?_
    · funext k
      have hk := hlt _ (List.getElem_mem k.isLt)
      have hq : dofs[k] / 3 < labels.length := by
        have : dofs[k] < 3 * labels.length := hk
        omega
      have hmem : labels[dofs[k] / 3] ∈ u.nodes.map (·.label) := hp.mem_iff.1 (List.getElem_mem hq)
      obtain ⟨n, hn, hnl⟩ := List.mem_map.1 hmem
      have := hall n hn (comp dofs[k])
      rw [hnl, hln.idxOf_getElem _ hq] at this
      unfold row3 at this
      rw [hdec, g1 k] at this
      exact this
    · intro n hn d hsup
      obtain ⟨i, hi⟩ := hnode n hn
      simp only [hidx hi]
      exact g2 _ fun h => hsup ((hd i _ hi d).1 h)
    · intro e he nA hA nE hE hconn
      obtain ⟨k, hk⟩ := List.getElem?_of_mem he
      have hke := (List.getElem?_eq_some_iff.1 hk).1
      have hkl : k < bars.length := by rw [← hm.length_eq]; exact hke
      obtain ⟨nA', hA', nE', hE', hbo⟩ := hm.get hke hkl
      have hee : es.get ⟨k, hke⟩ = e := (List.getElem?_eq_some_iff.1 hk).2
      rw [hee] at hbo
      have hc := hbo.conn
      rw [hconn] at hc
      simp only [List.cons.injEq, and_true] at hc
      obtain rfl := hsame hA hA' hc.1
      obtain rfl := hsame hE hE' hc.2
      have := hz _ (List.get_mem bars ⟨k, hkl⟩)
      simp only [hidx hbo.posA, hidx hbo.posE]
      rw [hbo.coordA, hbo.coordE]
      exact this

/-- The stiffness evaluation returns; it reads no loads. -/
theorem stiffness_returns {F : Type} [Zero F] [One F] [Add F] [Sub F] [Mul F] [Div F] [Neg F] [Flt F]
    {c : Ctx F} {bars : List (Bar F)} (hB : c.Bars bars) {a : Analysis F} (hf : a.Fits c)
    (hc : ∀ b ∈ bars, b.Complete c.nstatev) (hsv : ∀ sv, a.statev = some sv → ∀ row ∈ sv, row.length = c.nstatev)
    (hd : a.DOF1.length = c.ndof1) (hl : a.lpf.isSome = true) {u : List F} (hu : u.length = c.ndof1) :
    ∃ r, stiffness c a u = .ok r := by
  have hrows : 2 ≤ c.nstatev → ∀ i, 0 ≤ i → i < 0 + bars.length →
      ∃ l, stateRow c a.statev i = some l ∧ 2 ≤ l.length := by
    intro h2 i _ hi
    obtain ⟨sv, hs, hl⟩ := hf.statev (by omega)
    have hi' : i < sv.length := by rw [hl, ← hB.length]; omega
    refine ⟨sv[i], ?_, ?_⟩
    · unfold stateRow
      rw [if_pos (by omega), hs]
      exact List.getElem?_eq_getElem hi'
    · rw [hsv sv hs _ (List.getElem_mem hi')]
      exact h2
  obtain ⟨lpf, hlpf⟩ := Option.isSome_iff_exists.1 hl
  have hsplit : splitV c a u u = .ok (lpf, u, u) := by
    unfold splitV
    rw [if_neg (by omega), hlpf]
  obtain ⟨U, hU⟩ := scatter_ok (u := a.U) (idx := a.DOF1) (v := u) (by omega)
  obtain ⟨U0, hU0⟩ := scatter_ok (u := a.U0) (idx := a.DOF1) (v := u) (by omega)
  obtain ⟨outs, ho⟩ := evalAll_total (U := U) (U0 := U0) 0 hc hrows
  unfold stiffness
  rw [equilibrium_K_ok hB hf hsplit hU hU0 ho]
  exact ⟨_, rfl⟩

/-- State variables right after `build`. -/
def freshState (F : Type) [Zero F] (nelems nstatev : Nat) : Option (List (List F)) :=
  if 0 < nstatev then some (List.replicate nelems (List.replicate nstatev 0)) else none

theorem fresh_virgin {c : Ctx ℝ} {bars : List (Bar ℝ)} (hC : ∀ b ∈ bars, b.Complete c.nstatev) {ne : Nat}
    (hne : ne = bars.length) {sv : Option (List (List ℝ))} (hsv : sv = freshState ℝ ne c.nstatev) :
    ∀ k b, bars[k]? = some b → Virgin b (stateRow c sv k) := by
  intro k b hb hl
  have h2 := ((hC b (List.mem_of_getElem? hb)).plastic hl).2
  have hk := (List.getElem?_eq_some_iff.1 hb).1
  obtain ⟨n, hn⟩ : ∃ n, c.nstatev = n + 2 := ⟨c.nstatev - 2, by omega⟩
  refine ⟨List.replicate n 0, ?_⟩
  unfold stateRow
  rw [hsv, freshState, if_pos (by omega), if_pos (by omega), Option.bind_some, List.getElem?_replicate,
    if_pos (by omega), hn]
  rfl

theorem zero_table {n : Nat} : ∀ p, (List.replicate n (0 : ℝ)).getD p 0 = 0 := by
  intro p
  rw [List.getD_eq_getElem?_getD, List.getElem?_replicate]
  split <;> rfl

/-- Scattering zeros into zeros. -/
theorem scatter_zeros {n k : Nat} {idx : List Nat} (hk : idx.length = k) {U : List ℝ}
    (h : scatter (List.replicate n 0) idx (List.replicate k 0) = .ok U) : ∀ p, U.getD p 0 = 0 := by
  have key : ∀ (l : List (Nat × ℝ)) (w : List ℝ), (∀ q ∈ l, q.2 = 0) → (∀ p, w.getD p 0 = 0) →
      ∀ p, (l.foldl (fun acc q => acc.set q.1 q.2) w).getD p 0 = 0 := by
    intro l
    induction l with
    | nil => intro w _ hw; exact hw
    | cons q l ih =>
      intro w hq hw
      refine ih _ (fun r hr => hq r (by simp [hr])) fun p => ?_
      have h0 := hq q (by simp)
      rw [List.getD_eq_getElem?_getD, List.getElem?_set]
      split
      · split
        · simpa using h0
        · rfl
      · rw [← List.getD_eq_getElem?_getD]
        exact hw p
  unfold scatter at h
  rw [if_pos (by simp [hk])] at h
  cases h
  refine key _ _ ?_ zero_table
  intro q hq
  have := (List.of_mem_zip hq).2
  exact List.eq_of_mem_replicate this

end TrussPy
