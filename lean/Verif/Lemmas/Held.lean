import Verif.Spec.Stages
import Verif.Lemmas.Trail
import Verif.Lemmas.Rough
/-!
# Equilibrium paths under held loads, in the built model
-/

set_option linter.unusedSectionVars false

namespace TrussPy

section
variable {u : UserInput ℝ} {es : List (Elem ℝ)} {c : Ctx ℝ} {bars : List (Bar ℝ)} {a : Analysis ℝ} {ef : StepForces ℝ}
  {held load : Int → V3 ℝ}

/-- The loads `held` and `load` are in the tables; the displacements are zero. -/
structure LaidAt (u : UserInput ℝ) (es : List (Elem ℝ)) (c : Ctx ℝ) (bars : List (Bar ℝ)) (a : Analysis ℝ)
    (ef : StepForces ℝ) (held load : Int → V3 ℝ) : Prop where
  laid : Laid u es c bars a.DOF1
  eval : Evaluable c bars a ef
  lpf : a.lpf.isSome = true
  f0 : a.f0red = a.DOF1.map fun p => ef.forces.getD p 0
  U : a.U = List.replicate (3 * c.nnodes) 0
  const : ∀ p ∈ a.DOF1, ef.forcesConst.getD p 0 = held (dofLabel c p) (comp p)
  load : ∀ p ∈ a.DOF1, ef.forces.getD p 0 = load (dofLabel c p) (comp p)
  unyielded : Unyielded c bars a.statev

theorem LaidAt.system (h : LaidAt u es c bars a ef held load) {V0 : List ℝ} (hV0 : V0.length = a.DOF1.length + 1) {j : Int}
    {k : Fin (a.DOF1.length + 1)} (hj : j.natAbs = k + 1) (Vmax : ℝ) {U : Int → V3 ℝ} (hU : AllowedVelocity u U)
    (hby : ∀ e ∈ es, BelowYield u U e) (l : ℝ) (q : Fin a.DOF1.length) : sysRes c a a.DOF1.length V0 j Vmax (fieldVec c a.DOF1 U l) q.castSucc =
      pull u es U (dofLabel c a.DOF1[q]) (comp a.DOF1[q]) - (held (dofLabel c a.DOF1[q]) (comp a.DOF1[q]) +
        l * load (dofLabel c a.DOF1[q]) (comp a.DOF1[q])) := by
  have hn : c.ndof1 = a.DOF1.length := h.eval.dofs.symm
  obtain ⟨W, hW⟩ := exists_disp h.eval hn
  rw [sysRes_closed h.eval hn hV0 hj Vmax _ (hW _)]
  simp only [closedRes, Fin.snoc_castSucc]
  have hmem : a.DOF1[q] ∈ a.DOF1 := List.getElem_mem _
  have hs := hW (fieldVec c a.DOF1 U l)
  rw [h.U] at hs
  rw [getD_dof, h.laid.pull (fun i lab hi e => h.laid.scatter hU hs hi e) hby h.unyielded (h.laid.dofLabel hmem), h.const _ hmem,
    h.load _ hmem, fieldVec_last]

theorem LaidAt.calm (h : LaidAt u es c bars a ef held load) {U : Int → V3 ℝ} (hU : AllowedVelocity u U) (l : ℝ)
    (hl : ∀ e ∈ es, ∀ A E, e.conn = [A, E] → len (span u U A E) ≠ 0) (hby : ∀ e ∈ es, BelowYield u U e) :
    CalmAt c bars a (fieldVec c a.DOF1 U l) := by
  intro W hW k b hb
  rw [h.U] at hW
  have hkl := (List.getElem?_eq_some_iff.1 hb).1
  have hke : k < es.length := by rw [h.laid.meant.length_eq]; exact hkl
  obtain ⟨nA, hA, nE, hE, hbo⟩ := h.laid.meant.get hke hkl
  rw [show bars.get ⟨k, hkl⟩ = b from (List.getElem?_eq_some_iff.1 hb).2] at hbo
  exact hbo.calm (h.unyielded k b hb) (h.laid.axis (fun i lab hi e => h.laid.scatter hU hW hi e) hA hE hbo) (h.laid.ref hA hE hbo)
    (hl _ (List.get_mem _ _) _ _ hbo.conn) (hby _ (List.get_mem _ _))

theorem LaidAt.kernel (h : LaidAt u es c bars a ef held load) {j : Int} {k : Fin (a.DOF1.length + 1)} (hj : j.natAbs = k + 1)
    {U : Int → V3 ℝ} {l : ℝ} (hU : AllowedVelocity u U) (hlen : ∀ e ∈ es, ∀ A E, e.conn = [A, E] → len (span u U A E) ≠ 0)
    (hby : ∀ e ∈ es, BelowYield u U e) {w : Fin (a.DOF1.length + 1) → ℝ} (hw : (sysMat c a a.DOF1.length j (fieldVec c a.DOF1 U l)).mulVec w = 0) :
    ∃ v, AllowedVelocity u v ∧ fieldVec c a.DOF1 v (w (Fin.last _)) = w ∧ ∀ lab d, FreeAt u lab d →
      HasDerivAt (fun t : ℝ => pull u es (fun n e => U n e + t * v n e) lab d -
        (l + t * w (Fin.last _)) * load lab d) 0 0 := by
  have hn : c.ndof1 = a.DOF1.length := h.eval.dofs.symm
  have hsm := (h.calm hU l hlen hby).smooth
  have hV0 : (List.replicate (a.DOF1.length + 1) (0 : ℝ)).length = a.DOF1.length + 1 := by simp
  have hD := sys_hasFDerivAt h.eval h.lpf h.f0 hn hV0 hj 0 hsm
  obtain ⟨dU, hdU⟩ : ∃ dU, TrussPy.scatter (List.replicate (3 * c.nnodes) (0 : ℝ)) a.DOF1
      (List.ofFn fun i : Fin a.DOF1.length => w i.castSucc) = .ok dU := scatter_ok (by simp)
  obtain ⟨g1, g2⟩ := scatter_zero_getD h.laid.dofNodup h.laid.dofLt hdU
  have hidx : ∀ {i : Nat} {lab : Int}, c.nodes.labels[i]? = some lab → c.nodes.labels.idxOf lab = i := by
    intro i lab hi
    obtain ⟨h1, h2⟩ := List.getElem?_eq_some_iff.1 hi
    rw [← h2]
    exact h.laid.labelsNodup.idxOf_getElem i h1
  let v : Int → V3 ℝ := fun lab d => row3 dU (c.nodes.labels.idxOf lab) d
  have hv : ∀ (i : Nat) (lab : Int), c.nodes.labels[i]? = some lab → ∀ d, v lab d = dU.getD (3 * i + d) 0 := by
    intro i lab hi d
    show row3 dU _ d = _
    rw [hidx hi]
    rfl
  have hva : AllowedVelocity u v := by
    intro n hn' d hs'
    obtain ⟨i, hi⟩ := h.laid.label hn'
    rw [hv i _ hi, g2]
    exact fun hin => hs' ((h.laid.dof i _ hi d).1 hin)
  have hvw : fieldVec c a.DOF1 v (w (Fin.last _)) = w := by
    funext i
    refine Fin.lastCases ?_ (fun q => ?_) i
    · rw [fieldVec_last]
    · rw [fieldVec_castSucc, hv _ _ (h.laid.dofLabel (p := a.DOF1[q]) (List.getElem_mem q.isLt)), dof_split]
      exact g1 q
  have hline : HasDerivAt (fun t : ℝ => fieldVec c a.DOF1 U l + t • w) w 0 := by
    have := ((hasDerivAt_id (0 : ℝ)).smul_const w).const_add (fieldVec c a.DOF1 U l)
    simpa using this
  have hcomp : HasDerivAt (fun t : ℝ => sysRes c a a.DOF1.length (List.replicate (a.DOF1.length + 1) 0) j 0
      (fieldVec c a.DOF1 U l + t • w)) 0 0 := by
    have h0 : fieldVec c a.DOF1 U l + (0 : ℝ) • w = fieldVec c a.DOF1 U l := by simp
    have := HasFDerivAt.comp_hasDerivAt (x := (0 : ℝ)) (f := fun t : ℝ => fieldVec c a.DOF1 U l + t • w)
      (l := sysRes c a a.DOF1.length (List.replicate (a.DOF1.length + 1) 0) j 0) (by rw [h0]; exact hD) hline
    have hw' : mulCLM (sysMat c a a.DOF1.length j (fieldVec c a.DOF1 U l)) w = 0 := hw
    rw [hw'] at this
    exact this
  refine ⟨v, hva, hvw, ?_⟩
  intro lab d hf
  obtain ⟨p, hp, rfl, rfl⟩ := h.laid.freeDof hf
  obtain ⟨q, hq, rfl⟩ := List.getElem_of_mem hp
  have := (hasDerivAt_pi.1 hcomp (⟨q, hq⟩ : Fin a.DOF1.length).castSucc).add_const
    (held (dofLabel c a.DOF1[q]) (comp a.DOF1[q]))
  refine this.congr_of_eventuallyEq ?_
  filter_upwards [below_eventually v hby] with t hbt
  have hall : AllowedVelocity u fun n e => U n e + t * v n e := by
    intro n hn' d hd
    simp only
    rw [hU n hn' d hd, hva n hn' d hd]
    ring
  have h3 := h.system hV0 hj 0 hall hbt (l + t * w (Fin.last _)) ⟨q, hq⟩
  rw [fieldVec_add, hvw] at h3
  simp only [Fin.getElem_fin] at h3
  simp only [h3]
  ring

theorem LaidAt.balance (h : LaidAt u es c bars a ef held load) {U : Int → V3 ℝ} {l : ℝ} (hU : AllowedVelocity u U)
    (hby : ∀ e ∈ es, BelowYield u U e) (heq : ∀ lab d, FreeAt u lab d → pull u es U lab d = held lab d + l * load lab d) :
    ∃ a1, equilibrium c a (List.ofFn (fieldVec c a.DOF1 U l)) (List.ofFn (fieldVec c a.DOF1 U l)) .G false =
      .ok (a1, List.replicate a.DOF1.length 0) := by
  have hn : c.ndof1 = a.DOF1.length := h.eval.dofs.symm
  obtain ⟨W, hW⟩ := exists_disp h.eval hn
  obtain ⟨a1, h1, -⟩ := equilibrium_closed h.eval
    (u := List.ofFn fun i : Fin a.DOF1.length => fieldVec c a.DOF1 U l i.castSucc)
    (V0 := List.ofFn (fieldVec c a.DOF1 U l)) (by simp [hn]) (by simp [hn]) l false (hW _)
  refine ⟨a1, ?_⟩
  rw [show List.ofFn (fieldVec c a.DOF1 U l) =
    (List.ofFn fun i : Fin a.DOF1.length => fieldVec c a.DOF1 U l i.castSucc) ++ [l] by
      rw [ofFn_split, fieldVec_last]] at h1 ⊢
  rw [h1]
  congr 2
  rw [← List.map_const']
  refine List.map_congr_left fun p hp => ?_
  have hs' := hW (fieldVec c a.DOF1 U l)
  rw [h.U] at hs'
  rw [h.laid.pull (fun i lab hi e => h.laid.scatter hU hs' hi e) hby h.unyielded (h.laid.dofLabel hp), h.const p hp,
    h.load p hp, heq _ _ (h.laid.dofFree hp)]
  ring

theorem LaidAt.path (h : LaidAt u es c bars a ef held load) {P : List (Int × Fin 3)} (hP : FreeList u P) {j : Int}
    {k : Fin (a.DOF1.length + 1)} (hj : j.natAbs = k + 1) {S : ℝ} {U : ℝ → Int → V3 ℝ} {l : ℝ → ℝ}
    (ht : HeldTrail u es P j S held load U l) : EquilPath c bars a j k S fun s => fieldVec c a.DOF1 (U s) (l s) := by
  have hn : c.ndof1 = a.DOF1.length := h.eval.dofs.symm
  have hPd := h.laid.freeList hP
  have hk : j.natAbs - 1 = k := by omega
  refine ⟨?_, ?_, ?_, fun s hs => h.calm (ht.supports s hs) _ (ht.length s hs) (ht.below s hs), ?_⟩
  · refine continuousOn_pi.2 fun i => ?_
    refine Fin.lastCases ?_ (fun q => ?_) i
    · simp only [fieldVec_last]
      exact ht.contLoad
    · simp only [fieldVec_castSucc]
      obtain ⟨n, hn', hl⟩ := h.laid.node (h.laid.dofLabel (List.getElem_mem q.isLt))
      have := ht.cont n hn' (comp a.DOF1[q])
      rw [hl] at this
      exact this
  · intro s hs
    exact h.balance (ht.supports s hs) (ht.below s hs) (ht.equilibrium s hs)
  · intro s hs
    rw [← component_eq hPd, ← component_eq hPd, ← hk]
    exact ht.control s hs
  · intro s hs
    obtain ⟨a', K0, K, e1, -⟩ := extDf_model h.eval h.lpf h.f0 hn hj (fieldVec c a.DOF1 (U s) (l s))
    refine ⟨a', K, e1, ?_⟩
    have hmat : sysMat c a a.DOF1.length j (fieldVec c a.DOF1 (U s) (l s)) = matOf (a.DOF1.length + 1) K := by
      unfold sysMat
      rw [e1]
    rw [← hmat, regular_iff_injective]
    intro w hw
    obtain ⟨v, hva, hvw, hvd⟩ := h.kernel hj (ht.supports s hs) (ht.length s hs) (ht.below s hs) hw
    obtain ⟨r1, r2⟩ := ht.regular s hs v (w (Fin.last _)) hva hvd (by
      rw [hk, component_eq hPd, hvw]
      have := (sysMat_rows h.eval h.lpf h.f0 hn hj hj (fieldVec c a.DOF1 (U s) (l s))).2 w
      rw [← this, hw]
      rfl)
    rw [← hvw]
    funext i
    refine Fin.lastCases ?_ (fun q => ?_) i
    · rw [fieldVec_last]
      exact r2
    · rw [fieldVec_castSucc]
      obtain ⟨n, hn', hl⟩ := h.laid.node (h.laid.dofLabel (List.getElem_mem q.isLt))
      have := r1 n hn' (comp a.DOF1[q])
      rw [hl] at this
      exact this

/-- The analysis object with another constant load. -/
def reload (a : Analysis ℝ) (ef : StepForces ℝ) : Analysis ℝ := { a with extForces := some ef }

theorem reload_eval (he : Evaluable c bars a ef) {fc : List ℝ} (hfc : fc.length = 3 * c.nnodes) :
    Evaluable c bars (reload a ⟨ef.forces, fc⟩) ⟨ef.forces, fc⟩ :=
  ⟨he.tables, ⟨he.fits.U, he.fits.U0, he.fits.r, he.fits.K, he.fits.Krow, he.fits.stretch, he.fits.force, he.fits.stress,
    he.fits.statev, he.fits.dof, he.fits.dofNodup⟩, he.complete, he.statev, rfl, he.forces, hfc, he.dofs⟩

theorem reload_smooth {n : Nat} {x : Fin (n + 1) → ℝ} {ef' : StepForces ℝ} (hs : SmoothAt c bars a x) :
    SmoothAt c bars (reload a ef') x := hs

theorem reload_calm {n : Nat} {x : Fin (n + 1) → ℝ} {ef' : StepForces ℝ} (hs : CalmAt c bars a x) :
    CalmAt c bars (reload a ef') x := hs

theorem reload_first (he : Evaluable c bars a ef) {fc : List ℝ} (hfc : fc.length = 3 * c.nnodes) {n : Nat} (hn : c.ndof1 = n)
    {V0 : List ℝ} (hV0 : V0.length = n + 1) {j : Int} {k : Fin (n + 1)} (hj : j.natAbs = k + 1) (Vmax : ℝ) (x : Fin (n + 1) → ℝ)
    (m : Fin n) : sysRes c (reload a ⟨ef.forces, fc⟩) n V0 j Vmax x m.castSucc = sysRes c a n V0 j Vmax x m.castSucc +
      (ef.forcesConst.getD (a.DOF1.getD m 0) 0 - fc.getD (a.DOF1.getD m 0) 0) := by
  obtain ⟨W, hW⟩ := exists_disp he hn
  rw [sysRes_closed he hn hV0 hj Vmax x (hW x), sysRes_closed (reload_eval he hfc) hn hV0 hj Vmax x (hW x)]
  simp only [closedRes, Fin.snoc_castSucc]
  show forceFn c a.statev bars (W x) (a.DOF1.getD m 0 / 3) (comp (a.DOF1.getD m 0)) -
    (fc.getD (a.DOF1.getD m 0) 0 + x (Fin.last n) * ef.forces.getD (a.DOF1.getD m 0) 0) = _
  ring

theorem reload_shift (he : Evaluable c bars a ef) {fc : List ℝ} (hfc : fc.length = 3 * c.nnodes) {n : Nat} (hn : c.ndof1 = n)
    {V0 : List ℝ} (hV0 : V0.length = n + 1) {j : Int} {k : Fin (n + 1)} (hj : j.natAbs = k + 1) (Vmax : ℝ)
    (x y : Fin (n + 1) → ℝ) : sysRes c (reload a ⟨ef.forces, fc⟩) n V0 j Vmax x - sysRes c (reload a ⟨ef.forces, fc⟩) n V0 j Vmax y =
      sysRes c a n V0 j Vmax x - sysRes c a n V0 j Vmax y := by
  funext m
  refine Fin.lastCases ?_ (fun m => ?_) m
  · simp only [Pi.sub_apply, sysRes_last he hn hV0 hj, sysRes_last (reload_eval he hfc) hn hV0 hj]
  · simp only [Pi.sub_apply, reload_first he hfc hn hV0 hj]
    ring

theorem reload_mat (he : Evaluable c bars a ef) (hl : a.lpf.isSome = true)
    (hf0 : a.f0red = a.DOF1.map fun p => ef.forces.getD p 0) {fc : List ℝ} (hfc : fc.length = 3 * c.nnodes) {n : Nat}
    (hn : c.ndof1 = n) {V0 : List ℝ} (hV0 : V0.length = n + 1) {j : Int} {k : Fin (n + 1)} (hj : j.natAbs = k + 1)
    {y : Fin (n + 1) → ℝ} (hs : SmoothAt c bars a y) :
    sysMat c (reload a ⟨ef.forces, fc⟩) n j y = sysMat c a n j y := by
  have d1 := sys_hasFDerivAt he hl hf0 hn hV0 hj 0 hs
  have d2 := sys_hasFDerivAt (reload_eval he hfc) (a := reload a ⟨ef.forces, fc⟩) hl hf0 hn hV0 hj 0 (reload_smooth hs)
  have d3 : HasFDerivAt (sysRes c (reload a ⟨ef.forces, fc⟩) n V0 j 0) (mulCLM (sysMat c a n j y)) y := by
    have : sysRes c (reload a ⟨ef.forces, fc⟩) n V0 j 0 = fun x => sysRes c a n V0 j 0 x +
        (sysRes c (reload a ⟨ef.forces, fc⟩) n V0 j 0 y - sysRes c a n V0 j 0 y) := by
      funext x
      have := reload_shift he hfc hn hV0 hj 0 x y
      rw [sub_eq_iff_eq_add] at this
      rw [this]
      abel
    rw [this]
    exact d1.add_const _
  exact mulCLM_injective (d2.unique d3)

theorem reload_quad (he : Evaluable c bars a ef) (hl : a.lpf.isSome = true)
    (hf0 : a.f0red = a.DOF1.map fun p => ef.forces.getD p 0) {fc : List ℝ} (hfc : fc.length = 3 * c.nnodes) {n : Nat}
    (hn : c.ndof1 = n) {V0 : List ℝ} (hV0 : V0.length = n + 1) {j : Int} {k : Fin (n + 1)} (hj : j.natAbs = k + 1) (Vmax : ℝ)
    {z : Fin (n + 1) → ℝ} {ρ Λ : ℝ} (hq : Quad (sysRes c a n V0 j Vmax) (sysMat c a n j) z ρ Λ)
    (hs : ∀ y, ‖y - z‖ ≤ ρ → SmoothAt c bars a y) :
    Quad (sysRes c (reload a ⟨ef.forces, fc⟩) n V0 j Vmax) (sysMat c (reload a ⟨ef.forces, fc⟩) n j) z ρ Λ := by
  intro x y hx hy
  rw [reload_shift he hfc hn hV0 hj Vmax, reload_mat he hl hf0 hfc hn hV0 hj (hs x hx)]
  exact hq x y hx hy

theorem reload_tame (he : Evaluable c bars a ef) (hl : a.lpf.isSome = true)
    (hf0 : a.f0red = a.DOF1.map fun p => ef.forces.getD p 0) {fc : List ℝ} (hfc : fc.length = 3 * c.nnodes) {n : Nat}
    (hn : c.ndof1 = n) {V0 : List ℝ} (hV0 : V0.length = n + 1) {j : Int} {k : Fin (n + 1)} (hj : j.natAbs = k + 1) (Vmax : ℝ)
    {A : (Fin (n + 1) → ℝ) →L[ℝ] Fin (n + 1) → ℝ} {z : Fin (n + 1) → ℝ} {ρ ε M : ℝ}
    (ht : Tame (sysRes c a n V0 j Vmax) (sysMat c a n j) A z ρ ε M) (hs : ∀ y, ‖y - z‖ ≤ ρ → SmoothAt c bars a y) :
    Tame (sysRes c (reload a ⟨ef.forces, fc⟩) n V0 j Vmax) (sysMat c (reload a ⟨ef.forces, fc⟩) n j) A z ρ ε M := by
  have h1 := ht.shift (reload_shift he hfc hn hV0 hj Vmax)
  refine ⟨h1.diff, fun y hy v => ?_, h1.below, h1.pos, h1.eps, h1.small⟩
  rw [reload_mat he hl hf0 hfc hn hV0 hj (hs y hy)]
  exact h1.matrix y hy v

end

end TrussPy
