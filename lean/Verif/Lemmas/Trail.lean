import Verif.Spec.Trail
import Verif.Lemmas.Follow
import Verif.Lemmas.FirstStep
import Mathlib.Analysis.Calculus.Deriv.Prod
/-!
# Equilibrium paths of the entered structure are equilibrium paths of the built model
-/

set_option linter.unusedSectionVars false

namespace TrussPy

/-- The tables of the built model hold the entered structure. -/
structure Laid (u : UserInput ℝ) (es : List (Elem ℝ)) (c : Ctx ℝ) (bars : List (Bar ℝ)) (dofs : List Nat) : Prop where
  nodup : (u.nodes.map (·.label)).Nodup
  perm : c.nodes.labels.Perm (u.nodes.map (·.label))
  sorted : c.nodes.labels.Pairwise (· < ·)
  nnodes : c.nnodes = c.nodes.labels.length
  meant : Meant u es c.nodes.labels bars
  usual : UsualPlastic es
  dofSorted : dofs.Pairwise (· < ·)
  dofLt : ∀ i ∈ dofs, i < 3 * c.nnodes
  dof : ∀ (i : Nat) (l : Int), c.nodes.labels[i]? = some l → ∀ e : Fin 3,
    3 * i + e ∈ dofs ↔ (supportOf u.bounds l)[e.val]? = some 1

theorem dof_split (p : Nat) : 3 * (p / 3) + (comp p : Nat) = p := by
  show 3 * (p / 3) + p % 3 = p
  omega

theorem dof_parts (i : Nat) (e : Fin 3) : (3 * i + e) / 3 = i ∧ comp (3 * i + e) = e := by
  have := e.isLt
  refine ⟨by omega, Fin.ext ?_⟩
  show (3 * i + e) % 3 = e
  omega

section
variable {u : UserInput ℝ} {es : List (Elem ℝ)} {c : Ctx ℝ} {bars : List (Bar ℝ)} {dofs : List Nat}

theorem Laid.labelsNodup (h : Laid u es c bars dofs) : c.nodes.labels.Nodup := h.perm.nodup_iff.2 h.nodup

theorem Laid.dofNodup (h : Laid u es c bars dofs) : dofs.Nodup := h.dofSorted.imp fun h => h.ne

theorem Laid.node (h : Laid u es c bars dofs) {i : Nat} {l : Int} (hl : c.nodes.labels[i]? = some l) :
    ∃ n ∈ u.nodes, n.label = l := by
  have := h.perm.mem_iff.1 (List.mem_of_getElem? hl)
  obtain ⟨n, hn, rfl⟩ := List.mem_map.1 this
  exact ⟨n, hn, rfl⟩

theorem Laid.label (h : Laid u es c bars dofs) {n : Node ℝ} (hn : n ∈ u.nodes) :
    ∃ i : Nat, c.nodes.labels[i]? = some n.label :=
  List.getElem?_of_mem (h.perm.mem_iff.2 (List.mem_map_of_mem hn))

/-- Label of the node of a degree of freedom. -/
def dofLabel (c : Ctx ℝ) (p : Nat) : Int := c.nodes.labels.getD (p / 3) 0

theorem Laid.dofLabel (h : Laid u es c bars dofs) {p : Nat} (hp : p ∈ dofs) :
    c.nodes.labels[p / 3]? = some (dofLabel c p) := by
  have h1 := h.dofLt p hp
  rw [h.nnodes] at h1
  unfold TrussPy.dofLabel
  rw [List.getD_eq_getElem?_getD, List.getElem?_eq_getElem (by omega)]
  rfl

theorem Laid.dofFree (h : Laid u es c bars dofs) {p : Nat} (hp : p ∈ dofs) : FreeAt u (TrussPy.dofLabel c p) (comp p) := by
  have h1 := h.dofLabel hp
  refine ⟨h.node h1, (h.dof _ _ h1 (comp p)).1 ?_⟩
  rw [dof_split]
  exact hp

theorem Laid.freeDof (h : Laid u es c bars dofs) {l : Int} {d : Fin 3} (hf : FreeAt u l d) :
    ∃ p ∈ dofs, TrussPy.dofLabel c p = l ∧ comp p = d := by
  obtain ⟨⟨n, hn, rfl⟩, hs⟩ := hf
  obtain ⟨i, hi⟩ := h.label hn
  have hp := (h.dof i _ hi d).2 hs
  refine ⟨3 * i + d, hp, ?_, (dof_parts i d).2⟩
  have := h.dofLabel hp
  rw [(dof_parts i d).1, hi] at this
  exact (Option.some.inj this).symm

/-- The degrees of freedom of the built model are the free directions in order. -/
theorem Laid.freeList (h : Laid u es c bars dofs) {P : List (Int × Fin 3)} (hP : FreeList u P) :
    P = dofs.map fun p => (TrussPy.dofLabel c p, comp p) := by
  have hlex : (dofs.map fun p => (TrussPy.dofLabel c p, comp p)).Pairwise
      fun p q => p.1 < q.1 ∨ p.1 = q.1 ∧ p.2 < q.2 := by
    rw [List.pairwise_map]
    refine h.dofSorted.imp_of_mem fun {p q} hp hq hlt => ?_
    have h1 := h.dofLabel hp
    have h2 := h.dofLabel hq
    rcases Nat.lt_or_ge (p / 3) (q / 3) with h3 | h3
    · left
      obtain ⟨l1, e1⟩ := List.getElem?_eq_some_iff.1 h1
      obtain ⟨l2, e2⟩ := List.getElem?_eq_some_iff.1 h2
      simp only
      rw [← e1, ← e2]
      exact List.pairwise_iff_getElem.1 h.sorted _ _ l1 l2 h3
    · right
      have h4 : p / 3 = q / 3 := by omega
      refine ⟨by simp only [TrussPy.dofLabel, h4], ?_⟩
      show p % 3 < q % 3
      omega
  have hmem : ∀ p, p ∈ P ↔ p ∈ dofs.map fun p => (TrussPy.dofLabel c p, comp p) := by
    rintro ⟨l, d⟩
    rw [hP.mem, List.mem_map]
    constructor
    · intro hf
      obtain ⟨p, hp, e1, e2⟩ := h.freeDof hf
      exact ⟨p, hp, by rw [e1, e2]⟩
    · rintro ⟨p, hp, heq⟩
      cases heq
      exact h.dofFree hp
  have hne : ∀ {p q : Int × Fin 3}, (p.1 < q.1 ∨ p.1 = q.1 ∧ p.2 < q.2) → p ≠ q := by
    rintro p q hpq rfl
    rcases hpq with h | ⟨-, h⟩ <;> exact absurd h (lt_irrefl _)
  have hperm : P.Perm (dofs.map fun p => (TrussPy.dofLabel c p, comp p)) :=
    (List.perm_ext_iff_of_nodup (hP.order.imp hne) (hlex.imp hne)).2 hmem
  refine hperm.eq_of_pairwise ?_ hP.order hlex
  intro p q _ _ h1 h2
  exfalso
  rcases h1 with h1 | ⟨h1, h1'⟩ <;> rcases h2 with h2 | ⟨h2, h2'⟩
  · exact absurd (h1.trans h2) (lt_irrefl _)
  · rw [h2] at h1; exact absurd h1 (lt_irrefl _)
  · rw [h1] at h2; exact absurd h2 (lt_irrefl _)
  · exact absurd (h1'.trans h2') (lt_irrefl _)

/-- Free displacements and load factor in the order of the tables. -/
def fieldVec (c : Ctx ℝ) (dofs : List Nat) (U : Int → V3 ℝ) (l : ℝ) : Fin (dofs.length + 1) → ℝ :=
  Fin.snoc (α := fun _ => ℝ) (fun q => U (dofLabel c dofs[q]) (comp dofs[q])) l

/-- The table of displacements made from the free ones is that of the field. -/
theorem Laid.scatter (h : Laid u es c bars dofs) {U : Int → V3 ℝ} (hU : AllowedVelocity u U) {l : ℝ} {dU : List ℝ}
    (hs : scatter (List.replicate (3 * c.nnodes) 0) dofs
      (List.ofFn fun i : Fin dofs.length => fieldVec c dofs U l i.castSucc) = .ok dU) {i : Nat} {lab : Int}
    (hi : c.nodes.labels[i]? = some lab) (e : Fin 3) : row3 dU i e = U lab e := by
  obtain ⟨g1, g2⟩ := scatter_zero_getD h.dofNodup h.dofLt hs
  unfold row3
  by_cases hin : 3 * i + (e : Nat) ∈ dofs
  · obtain ⟨k, hk, hke⟩ := List.getElem_of_mem hin
    have := g1 ⟨k, hk⟩
    simp only [fieldVec, Fin.snoc_castSucc, Fin.getElem_fin, hke] at this
    have h3 := h.dofLabel hin
    rw [(dof_parts i e).1, hi] at h3
    rw [this, ← Option.some.inj h3, (dof_parts i e).2]
  · rw [g2 _ hin]
    obtain ⟨n, hn, rfl⟩ := h.node hi
    exact (hU n hn e fun hh => hin ((h.dof i _ hi e).2 hh)).symm

theorem Laid.placeOf (h : Laid u es c bars dofs) {n : Node ℝ} (hn : n ∈ u.nodes) (d : Fin 3) :
    placeOf u n.label d = n.coord.getD d 0 := by
  unfold TrussPy.placeOf
  obtain ⟨n', hn'⟩ : ∃ n', u.nodes.find? (fun m => m.label == n.label) = some n' := by
    cases hf : u.nodes.find? (fun m => m.label == n.label) with
    | some n' => exact ⟨n', rfl⟩
    | none => exact absurd (List.find?_eq_none.1 hf n hn) (by simp)
  have h1 := List.find?_some hn'
  have h2 := List.mem_of_find?_eq_some hn'
  have : n' = n := List.inj_on_of_nodup_map h.nodup h2 hn (by simpa using h1)
  rw [hn', this]

theorem Laid.axis (h : Laid u es c bars dofs) {U : Int → V3 ℝ} {dU : List ℝ}
    (hU : ∀ (i : Nat) (lab : Int), c.nodes.labels[i]? = some lab → ∀ e, row3 dU i e = U lab e) {e : Elem ℝ} {nA nE : Node ℝ}
    (hA : nA ∈ u.nodes) (hE : nE ∈ u.nodes) {b : Bar ℝ} (hb : BarOf c.nodes.labels e nA nE b) :
    b.axis dU = span u U nA.label nE.label := by
  funext d
  unfold Bar.axis span
  rw [hU _ _ hb.posA, hU _ _ hb.posE, h.placeOf hA, h.placeOf hE, hb.coordA, hb.coordE]
  fin_cases d <;> rfl

theorem Laid.ref (h : Laid u es c bars dofs) {e : Elem ℝ} {nA nE : Node ℝ}
    (hA : nA ∈ u.nodes) (hE : nE ∈ u.nodes) {b : Bar ℝ} (hb : BarOf c.nodes.labels e nA nE b) :
    b.ref = span u 0 nA.label nE.label := by
  funext d
  unfold Bar.ref span
  rw [h.placeOf hA, h.placeOf hE, hb.coordA, hb.coordE]
  fin_cases d <;> simp

theorem forall₂_map_sum {α β : Type} {R : α → β → Prop} {f : α → ℝ} {g : β → ℝ} {l : List α} {l' : List β}
    (h : List.Forall₂ R l l') (hfg : ∀ a b, a ∈ l → R a b → f a = g b) : (l.map f).sum = (l'.map g).sum := by
  induction h with
  | nil => rfl
  | cons hab _ ih =>
    rw [List.map_cons, List.map_cons, List.sum_cons, List.sum_cons, hfg _ _ (by simp) hab,
      ih fun a b ha => hfg a b (by simp [ha])]

/-- All state variables mean: yield stress as entered, no plastic strain. -/
def Unyielded (c : Ctx ℝ) (bars : List (Bar ℝ)) (sv : Option (List (List ℝ))) : Prop :=
  ∀ (k : Nat) (b : Bar ℝ), bars[k]? = some b → b.Alike (some [0, 0]) (stateRow c sv k)

/-- Stress of a bar that has not yielded. -/
theorem BarOf.stress {labels : List Int} {e : Elem ℝ} {nA nE : Node ℝ} {b : Bar ℝ} (hbo : BarOf labels e nA nE b)
    {x : ℝ} (husual : b.law = .elplast → ∃ (m : Spec.Plastic) (rest : List ℝ), m.Valid ∧
      e.mprop.vals = m.E :: m.K :: m.Sy :: rest)
    (hx : b.law = .elplast → |e.mprop.vals.headD 0 * x| < e.mprop.vals.getD 2 0) :
    b.stressAt (some [0, 0]) x = e.mprop.vals.headD 0 * x := by
  unfold Bar.stressAt TrussPy.stressAt
  rw [hbo.mat]
  cases hl : b.law with
  | el =>
    cases e.mprop.vals with
    | nil => exact (zero_mul x).symm
    | cons E rest => rfl
  | elplast =>
    obtain ⟨m, rest, hm, hv⟩ := husual hl
    have hx := hx hl
    rw [hv] at hx ⊢
    have h1 := umat_real hm rest x 0 0 0 (if_pos rfl).symm hm.Sy.le []
    have hlt : |m.E * (x - 0)| ≤ m.Sy := by
      rw [sub_zero]
      exact le_of_lt hx
    have hP : Spec.newP m m.Sy 0 x = 0 := by
      unfold Spec.newP
      rw [flow_elastic hm hlt, zero_mul, add_zero]
    simp only [Umat.call, h1, hP, sub_zero]
    rfl

theorem BarOf.plastic {labels : List Int} {e : Elem ℝ} {nA nE : Node ℝ} {b : Bar ℝ} (hbo : BarOf labels e nA nE b)
    (hl : b.law = .elplast) : e.mtype = 2 := by
  rcases hbo.law with ⟨-, h2⟩ | ⟨h1, -⟩
  · rw [hl] at h2; cases h2
  · exact h1

/-- The constants of a plastic bar. -/
theorem Laid.plastic (h : Laid u es c bars dofs) {k : Nat} {b : Bar ℝ} (hb : bars[k]? = some b) (hl : b.law = .elplast) :
    ∃ (m : Spec.Plastic) (rest : List ℝ), m.Valid ∧ b.mat = m.E :: m.K :: m.Sy :: rest := by
  have hkl := (List.getElem?_eq_some_iff.1 hb).1
  have hke : k < es.length := by rw [h.meant.length_eq]; exact hkl
  obtain ⟨nA, hA, nE, hE, hbo⟩ := h.meant.get hke hkl
  rw [show bars.get ⟨k, hkl⟩ = b from (List.getElem?_eq_some_iff.1 hb).2] at hbo
  rw [hbo.mat]
  exact h.usual _ (List.get_mem _ _) (hbo.plastic hl)

/-- The internal forces of the built model are those of the entered structure. -/
theorem Laid.pull (h : Laid u es c bars dofs) {U : Int → V3 ℝ} {dU : List ℝ}
    (hU : ∀ (i : Nat) (lab : Int), c.nodes.labels[i]? = some lab → ∀ e, row3 dU i e = U lab e)
    (hby : ∀ e ∈ es, BelowYield u U e) {sv : Option (List (List ℝ))} (hsv : Unyielded c bars sv) {i : Nat} {lab : Int}
    (hi : c.nodes.labels[i]? = some lab) (d : Fin 3) : forceFn c sv bars dU i d = pull u es U lab d := by
  have hpos : ∀ {i' : Nat} {l' : Int}, c.nodes.labels[i']? = some l' → (i = i' ↔ lab = l') := by
    intro i' l' hi'
    constructor
    · rintro rfl
      rw [hi] at hi'
      exact Option.some.inj hi'
    · rintro rfl
      obtain ⟨h1, h2⟩ := List.getElem?_eq_some_iff.1 hi
      obtain ⟨h3, h4⟩ := List.getElem?_eq_some_iff.1 hi'
      exact h.labelsNodup.getElem_inj_iff.1 (h2.trans h4.symm)
  unfold forceFn TrussPy.pull
  have e1 : (bars.zipIdx.map fun p => p.1.sgn i * (p.1.stressAt (stateRow c sv p.2) (p.1.stretch dU - 1) *
      p.1.geo.getD 0 0 * p.1.dir dU d)) = bars.map fun b => b.sgn i * (b.stressAt (some [0, 0]) (b.stretch dU - 1) *
      b.geo.getD 0 0 * b.dir dU d) := by
    conv_rhs => rw [← List.zipIdx_map_fst 0 bars, List.map_map]
    refine List.map_congr_left fun p hp => ?_
    obtain ⟨b, q⟩ := p
    simp only [Function.comp]
    rw [(hsv q b (List.mem_zipIdx_iff_getElem?.1 hp)).stress]
  rw [e1]
  refine (forall₂_map_sum h.meant ?_).symm
  rintro e b he ⟨nA, hA, nE, hE, hbo⟩
  have hst := hbo.stress (x := b.stretch dU - 1) (fun hl => h.usual e he (hbo.plastic hl)) (fun hl => by
    have := hby e he (hbo.plastic hl) _ _ hbo.conn
    unfold Bar.stretch
    rwa [h.axis hU hA hE hbo, h.ref hA hE hbo])
  unfold elementPull
  rw [hbo.conn]
  simp only
  rw [hst]
  unfold Bar.sgn Bar.stretch Bar.dir
  rw [h.axis hU hA hE hbo, h.ref hA hE hbo, hbo.geo]
  have e2 : e.gprop.vals.headD 0 = e.gprop.vals.getD 0 0 := by cases e.gprop.vals <;> rfl
  rw [e2]
  simp only [hpos hbo.posA, hpos hbo.posE]

/-- The loads of the first step are in the tables, and nothing has moved yet. -/
structure LaidStep (u : UserInput ℝ) (es : List (Elem ℝ)) (c : Ctx ℝ) (bars : List (Bar ℝ)) (a : Analysis ℝ)
    (ef : StepForces ℝ) : Prop where
  laid : Laid u es c bars a.DOF1
  eval : Evaluable c bars a ef
  lpf : a.lpf.isSome = true
  f0 : a.f0red = a.DOF1.map fun p => ef.forces.getD p 0
  U : a.U = List.replicate (3 * c.nnodes) 0
  const : ∀ p, ef.forcesConst.getD p 0 = 0
  load : ∀ p ∈ a.DOF1, ef.forces.getD p 0 = firstLoad u (dofLabel c p) (comp p)
  virgin : ∀ (k : Nat) (b : Bar ℝ), bars[k]? = some b → Virgin b (stateRow c a.statev k)

theorem LaidStep.unyielded (h : LaidStep u es c bars a ef) : Unyielded c bars a.statev := fun k b hb hl => by
  obtain ⟨more, hrow⟩ := h.virgin k b hb hl
  obtain ⟨m, rest, hm, hv'⟩ := h.laid.plastic hb hl
  exact ⟨m, rest, [], more, 0, 0, 0, hm, hv', rfl, hrow, le_rfl, le_rfl, rfl⟩

variable {a : Analysis ℝ} {ef : StepForces ℝ}

theorem fieldVec_castSucc (U : Int → V3 ℝ) (l : ℝ) (q : Fin dofs.length) :
    fieldVec c dofs U l q.castSucc = U (dofLabel c dofs[q]) (comp dofs[q]) := by
  unfold fieldVec
  rw [Fin.snoc_castSucc]

theorem fieldVec_last (U : Int → V3 ℝ) (l : ℝ) : fieldVec c dofs U l (Fin.last _) = l := by
  unfold fieldVec
  rw [Fin.snoc_last]

theorem fieldVec_add (U v : Int → V3 ℝ) (l μ t : ℝ) : fieldVec c dofs (fun n e => U n e + t * v n e) (l + t * μ) =
    fieldVec c dofs U l + t • fieldVec c dofs v μ := by
  funext i
  refine Fin.lastCases ?_ (fun q => ?_) i
  · simp [fieldVec_last]
  · simp [fieldVec_castSucc]

theorem getD_dof (q : Fin dofs.length) : dofs.getD q 0 = dofs[q] := by
  rw [List.getD_eq_getElem?_getD, List.getElem?_eq_getElem q.isLt]
  rfl

/-- The system of the built model at a displacement field. -/
theorem LaidStep.system (h : LaidStep u es c bars a ef) {V0 : List ℝ} (hV0 : V0.length = a.DOF1.length + 1) {j : Int}
    {k : Fin (a.DOF1.length + 1)} (hj : j.natAbs = k + 1) (Vmax : ℝ) {U : Int → V3 ℝ} (hU : AllowedVelocity u U)
    (hby : ∀ e ∈ es, BelowYield u U e) (l : ℝ) (q : Fin a.DOF1.length) : sysRes c a a.DOF1.length V0 j Vmax (fieldVec c a.DOF1 U l) q.castSucc =
      pull u es U (dofLabel c a.DOF1[q]) (comp a.DOF1[q]) - l * firstLoad u (dofLabel c a.DOF1[q]) (comp a.DOF1[q]) := by
  have hn : c.ndof1 = a.DOF1.length := h.eval.dofs.symm
  obtain ⟨W, hW⟩ := exists_disp h.eval hn
  rw [sysRes_closed h.eval hn hV0 hj Vmax _ (hW _)]
  simp only [closedRes, Fin.snoc_castSucc]
  have hmem : a.DOF1[q] ∈ a.DOF1 := List.getElem_mem _
  have hs := hW (fieldVec c a.DOF1 U l)
  rw [h.U] at hs
  rw [getD_dof, h.laid.pull (fun i lab hi e => h.laid.scatter hU hs hi e) hby h.unyielded (h.laid.dofLabel hmem), h.const, zero_add,
    h.load _ hmem, fieldVec_last]

/-- A bar of the built model at displacements where the element has a length and has not yielded. -/
theorem BarOf.calm {labels : List Int} {e : Elem ℝ} {nA nE : Node ℝ} {b : Bar ℝ} (hbo : BarOf labels e nA nE b)
    {row : Option (List ℝ)} (hrow : b.Alike (some [0, 0]) row) {W : List ℝ} {U : Int → V3 ℝ}
    (hax : b.axis W = span u U nA.label nE.label) (hrf : b.ref = span u 0 nA.label nE.label)
    (hl : len (span u U nA.label nE.label) ≠ 0) (hby : BelowYield u U e) : b.Calm W row := by
  refine hrow.calm ⟨by rw [hax]; exact hl, fun hp => ?_⟩
  obtain ⟨m, rest, more, more', y, y', p, k1, k2, k3, k4, k5, k6, k7⟩ := hrow hp
  simp only [Option.some.injEq, List.cons.injEq] at k3
  obtain ⟨rfl, rfl, rfl⟩ := k3
  refine ⟨m, rest, [], 0, 0, k1, k2, rfl, le_rfl, ?_⟩
  have := hby (hbo.plastic hp) _ _ hbo.conn
  rw [hbo.mat] at k2
  rw [k2] at this
  unfold Bar.stretch
  rw [hax, hrf, if_pos rfl, sub_zero]
  exact this

theorem LaidStep.calm (h : LaidStep u es c bars a ef) {U : Int → V3 ℝ} (hU : AllowedVelocity u U) (l : ℝ)
    (hl : ∀ e ∈ es, ∀ A E, e.conn = [A, E] → len (span u U A E) ≠ 0) (hby : ∀ e ∈ es, BelowYield u U e) :
    CalmAt c bars a (fieldVec c a.DOF1 U l) := by
  intro W hW k b hb
  rw [h.U] at hW
  have hkl := (List.getElem?_eq_some_iff.1 hb).1
  have hke : k < es.length := by rw [h.laid.meant.length_eq]; exact hkl
  obtain ⟨nA, hA, nE, hE, hbo⟩ := h.laid.meant.get hke hkl
  rw [show bars.get ⟨k, hkl⟩ = b from (List.getElem?_eq_some_iff.1 hb).2] at hbo
  exact hbo.calm (h.unyielded k b hb) (h.laid.axis (fun i lab hi e => h.laid.scatter hU hW hi e) hA hE hbo) (h.laid.ref hA hE hbo)
    (hl _ (List.get_mem _ _) _ _ hbo.conn) (hby _ (List.get_mem _ _))

/-- Elements below their yield stress stay there for small further displacements. -/
theorem below_eventually {U : Int → V3 ℝ} (v : Int → V3 ℝ) (hby : ∀ e ∈ es, BelowYield u U e) :
    ∀ᶠ t : ℝ in nhds 0, ∀ e ∈ es, BelowYield u (fun n d => U n d + t * v n d) e := by
  induction es with
  | nil => simp
  | cons e es ih =>
    filter_upwards [ih fun e' he' => hby e' (by simp [he']), show ∀ᶠ t : ℝ in nhds 0,
      BelowYield u (fun n d => U n d + t * v n d) e from by
        by_cases hm : e.mtype = 2
        · by_cases hc : ∃ A E, e.conn = [A, E]
          · obtain ⟨A, E, hc⟩ := hc
            have h0 := hby e (by simp) hm A E hc
            have hcont : Continuous fun t : ℝ => |e.mprop.vals.headD 0 *
                (len (span u (fun n d => U n d + t * v n d) A E) / len (span u 0 A E) - 1)| := by
              unfold len span
              fun_prop
            have hz : (fun (n : Int) (d : Fin 3) => U n d + 0 * v n d) = U := by
              funext n d
              rw [zero_mul, add_zero]
            have h1 := (hcont.continuousAt (x := (0 : ℝ))).tendsto.eventually_lt_const (u := e.mprop.vals.getD 2 0) (by
              rw [hz]
              exact h0)
            filter_upwards [h1] with t ht
            intro _ A' E' hc'
            rw [hc] at hc'
            cases hc'
            exact ht
          · exact Filter.Eventually.of_forall fun t _ A E hc' => absurd ⟨A, E, hc'⟩ hc
        · exact Filter.Eventually.of_forall fun t h => absurd h hm] with t h1 h2
    intro e' he'
    rcases List.mem_cons.1 he' with rfl | he'
    · exact h2
    · exact h1 e' he'

theorem component_eq {P : List (Int × Fin 3)} (hP : P = dofs.map fun p => (dofLabel c p, comp p)) (U : Int → V3 ℝ) (l : ℝ)
    (k : Fin (dofs.length + 1)) : component P U l k = fieldVec c dofs U l k := by
  subst hP
  unfold component
  refine Fin.lastCases ?_ (fun q => ?_) k
  · rw [fieldVec_last, Fin.val_last, List.getElem?_eq_none (by simp)]
  · rw [fieldVec_castSucc, Fin.val_castSucc, List.getElem?_map, List.getElem?_eq_getElem q.isLt]
    rfl

/-- Vectors in the kernel of the matrix of the built model are first-order equilibrium motions of the entered structure. -/
theorem LaidStep.kernel (h : LaidStep u es c bars a ef) {j : Int} {k : Fin (a.DOF1.length + 1)} (hj : j.natAbs = k + 1)
    {U : Int → V3 ℝ} {l : ℝ} (hU : AllowedVelocity u U) (hlen : ∀ e ∈ es, ∀ A E, e.conn = [A, E] → len (span u U A E) ≠ 0)
    (hby : ∀ e ∈ es, BelowYield u U e) {w : Fin (a.DOF1.length + 1) → ℝ} (hw : (sysMat c a a.DOF1.length j (fieldVec c a.DOF1 U l)).mulVec w = 0) :
    ∃ v, AllowedVelocity u v ∧ fieldVec c a.DOF1 v (w (Fin.last _)) = w ∧ ∀ lab d, FreeAt u lab d →
      HasDerivAt (fun t : ℝ => pull u es (fun n e => U n e + t * v n e) lab d -
        (l + t * w (Fin.last _)) * firstLoad u lab d) 0 0 := by
  have hn : c.ndof1 = a.DOF1.length := h.eval.dofs.symm
  have hsm := (h.calm hU l hlen hby).smooth
  have hV0 : (List.replicate (a.DOF1.length + 1) (0 : ℝ)).length = a.DOF1.length + 1 := by simp
  have hD := sys_hasFDerivAt h.eval h.lpf h.f0 hn hV0 hj 0 hsm
  -- the field of the vector
  obtain ⟨dU, hdU⟩ : ∃ dU, TrussPy.scatter (List.replicate (3 * c.nnodes) (0 : ℝ)) a.DOF1
      (List.ofFn fun i : Fin a.DOF1.length => w i.castSucc) = .ok dU := scatter_ok (by simp)
  obtain ⟨g1, g2⟩ := scatter_zero_getD h.laid.dofNodup h.laid.dofLt hdU
  have hidx : ∀ {i : Nat} {lab : Int}, c.nodes.labels[i]? = some lab → c.nodes.labels.idxOf lab = i := by
    intro i lab hi
    obtain ⟨h1, h2⟩ := List.getElem?_eq_some_iff.1 hi
    rw [← h2]
    exact h.laid.labelsNodup.idxOf_getElem i h1
  let v : Int → V3 ℝ := fun lab d => row3 dU (c.nodes.labels.idxOf lab) d
  have hv : ∀ (i : Nat) (lab : Int), c.nodes.labels[i]? = some lab → ∀ d, v lab d = dU.getD (3 * i + d) 0 := by
    intro i lab hi d
    show row3 dU _ d = _
    rw [hidx hi]
    rfl
  have hva : AllowedVelocity u v := by
    intro n hn' d hs'
    obtain ⟨i, hi⟩ := h.laid.label hn'
    rw [hv i _ hi, g2]
    exact fun hin => hs' ((h.laid.dof i _ hi d).1 hin)
  have hvw : fieldVec c a.DOF1 v (w (Fin.last _)) = w := by
    funext i
    refine Fin.lastCases ?_ (fun q => ?_) i
    · rw [fieldVec_last]
    · rw [fieldVec_castSucc, hv _ _ (h.laid.dofLabel (p := a.DOF1[q]) (List.getElem_mem q.isLt)), dof_split]
      exact g1 q
  have hline : HasDerivAt (fun t : ℝ => fieldVec c a.DOF1 U l + t • w) w 0 := by
    have := ((hasDerivAt_id (0 : ℝ)).smul_const w).const_add (fieldVec c a.DOF1 U l)
    simpa using this
  have hcomp : HasDerivAt (fun t : ℝ => sysRes c a a.DOF1.length (List.replicate (a.DOF1.length + 1) 0) j 0
      (fieldVec c a.DOF1 U l + t • w)) 0 0 := by
    have h0 : fieldVec c a.DOF1 U l + (0 : ℝ) • w = fieldVec c a.DOF1 U l := by simp
    have := HasFDerivAt.comp_hasDerivAt (x := (0 : ℝ)) (f := fun t : ℝ => fieldVec c a.DOF1 U l + t • w)
      (l := sysRes c a a.DOF1.length (List.replicate (a.DOF1.length + 1) 0) j 0) (by rw [h0]; exact hD) hline
    have hw' : mulCLM (sysMat c a a.DOF1.length j (fieldVec c a.DOF1 U l)) w = 0 := hw
    rw [hw'] at this
    exact this
  refine ⟨v, hva, hvw, ?_⟩
  intro lab d hf
  obtain ⟨p, hp, rfl, rfl⟩ := h.laid.freeDof hf
  obtain ⟨q, hq, rfl⟩ := List.getElem_of_mem hp
  have := hasDerivAt_pi.1 hcomp (⟨q, hq⟩ : Fin a.DOF1.length).castSucc
  refine this.congr_of_eventuallyEq ?_
  filter_upwards [below_eventually v hby] with t hbt
  have hall : AllowedVelocity u fun n e => U n e + t * v n e := by
    intro n hn' d hd
    simp only
    rw [hU n hn' d hd, hva n hn' d hd]
    ring
  have h3 := h.system hV0 hj 0 hall hbt (l + t * w (Fin.last _)) ⟨q, hq⟩
  rw [fieldVec_add, hvw] at h3
  exact h3.symm

theorem LaidStep.balance (h : LaidStep u es c bars a ef) {U : Int → V3 ℝ} {l : ℝ} (hU : AllowedVelocity u U)
    (hby : ∀ e ∈ es, BelowYield u U e) (heq : ∀ lab d, FreeAt u lab d → pull u es U lab d = l * firstLoad u lab d) :
    ∃ a1, equilibrium c a (List.ofFn (fieldVec c a.DOF1 U l)) (List.ofFn (fieldVec c a.DOF1 U l)) .G false =
      .ok (a1, List.replicate a.DOF1.length 0) := by
  have hn : c.ndof1 = a.DOF1.length := h.eval.dofs.symm
  obtain ⟨W, hW⟩ := exists_disp h.eval hn
  obtain ⟨a1, h1, -⟩ := equilibrium_closed h.eval
    (u := List.ofFn fun i : Fin a.DOF1.length => fieldVec c a.DOF1 U l i.castSucc)
    (V0 := List.ofFn (fieldVec c a.DOF1 U l)) (by simp [hn]) (by simp [hn]) l false (hW _)
  refine ⟨a1, ?_⟩
  rw [show List.ofFn (fieldVec c a.DOF1 U l) =
    (List.ofFn fun i : Fin a.DOF1.length => fieldVec c a.DOF1 U l i.castSucc) ++ [l] by
      rw [ofFn_split, fieldVec_last]] at h1 ⊢
  rw [h1]
  congr 2
  rw [← List.map_const']
  refine List.map_congr_left fun p hp => ?_
  have hs' := hW (fieldVec c a.DOF1 U l)
  rw [h.U] at hs'
  rw [h.laid.pull (fun i lab hi e => h.laid.scatter hU hs' hi e) hby h.unyielded (h.laid.dofLabel hp), h.const,
    h.load p hp, heq _ _ (h.laid.dofFree hp)]
  ring

theorem LaidStep.path (h : LaidStep u es c bars a ef) {P : List (Int × Fin 3)} (hP : FreeList u P) {j : Int}
    {k : Fin (a.DOF1.length + 1)} (hj : j.natAbs = k + 1) {S : ℝ} (hS : 0 ≤ S) {U : ℝ → Int → V3 ℝ} {l : ℝ → ℝ}
    (ht : Trail u es P j S U l) : EquilPath c bars a j k S fun s => fieldVec c a.DOF1 (U s) (l s) := by
  have hn : c.ndof1 = a.DOF1.length := h.eval.dofs.symm
  have hPd := h.laid.freeList hP
  have hk : j.natAbs - 1 = k := by omega
  have hz : ∀ s ∈ Set.Icc 0 S, fieldVec c a.DOF1 (U s) (l s) k = s * (j.sign : ℝ) := by
    intro s hs
    rw [← component_eq hPd, ← hk]
    exact ht.control s hs
  refine ⟨?_, ?_, ?_, fun s hs => h.calm (ht.supports s hs) _ (ht.length s hs) (ht.below s hs), ?_⟩
  · refine continuousOn_pi.2 fun i => ?_
    refine Fin.lastCases ?_ (fun q => ?_) i
    · simp only [fieldVec_last]
      exact ht.contLoad
    · simp only [fieldVec_castSucc]
      obtain ⟨n, hn', hl⟩ := h.laid.node (h.laid.dofLabel (List.getElem_mem q.isLt))
      have := ht.cont n hn' (comp a.DOF1[q])
      rw [hl] at this
      exact this
  · intro s hs
    exact h.balance (ht.supports s hs) (ht.below s hs) (ht.equilibrium s hs)
  · intro s hs
    rw [hz s hs, hz 0 ⟨le_rfl, hS⟩]
    ring
  · intro s hs
    obtain ⟨a', K0, K, e1, -⟩ := extDf_model h.eval h.lpf h.f0 hn hj (fieldVec c a.DOF1 (U s) (l s))
    refine ⟨a', K, e1, ?_⟩
    have hmat : sysMat c a a.DOF1.length j (fieldVec c a.DOF1 (U s) (l s)) = matOf (a.DOF1.length + 1) K := by
      unfold sysMat
      rw [e1]
    rw [← hmat, regular_iff_injective]
    intro w hw
    obtain ⟨v, hva, hvw, hvd⟩ := h.kernel hj (ht.supports s hs) (ht.length s hs) (ht.below s hs) hw
    obtain ⟨r1, r2⟩ := ht.regular s hs v (w (Fin.last _)) hva hvd (by
      rw [hk, component_eq hPd, hvw]
      have := (sysMat_rows h.eval h.lpf h.f0 hn hj hj (fieldVec c a.DOF1 (U s) (l s))).2 w
      rw [← this, hw]
      rfl)
    rw [← hvw]
    funext i
    refine Fin.lastCases ?_ (fun q => ?_) i
    · rw [fieldVec_last]
      exact r2
    · rw [fieldVec_castSucc]
      obtain ⟨n, hn', hl⟩ := h.laid.node (h.laid.dofLabel (List.getElem_mem q.isLt))
      have := r1 n hn' (comp a.DOF1[q])
      rw [hl] at this
      exact this

end

end TrussPy
