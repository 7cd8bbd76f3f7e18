import Verif.Spec.LoadPath
import Verif.Lemmas.Curve
import Verif.Lemmas.FreeTrail
import Mathlib.Analysis.Calculus.Deriv.Add
import Mathlib.Analysis.Calculus.Deriv.Inv
import Mathlib.Analysis.Calculus.Deriv.Pow
import Mathlib.Analysis.SpecialFunctions.Sqrt
/-!
# Stable structures have an equilibrium path under small loads
-/

set_option linter.unusedSectionVars false

namespace TrussPy

open Filter Topology

section
variable {u : UserInput ℝ} {es : List (Elem ℝ)} {c : Ctx ℝ} {bars : List (Bar ℝ)} {dofs : List Nat} {a : Analysis ℝ} {ef : StepForces ℝ}

/-- The displacements by label and direction that belong to a vector in the order of the tables. -/
def fieldOf (c : Ctx ℝ) (dofs : List Nat) (w : Fin (dofs.length + 1) → ℝ) : Int → V3 ℝ := fun lab d =>
  ∑ q : Fin dofs.length, (if dofLabel c dofs[q] = lab ∧ comp dofs[q] = d then 1 else 0) * w q.castSucc

theorem Laid.allowed_fieldOf (h : Laid u es c bars dofs) (w : Fin (dofs.length + 1) → ℝ) : AllowedVelocity u (fieldOf c dofs w) := by
  intro n hn d hd
  refine Finset.sum_eq_zero fun q _ => ?_
  rw [if_neg, zero_mul]
  rintro ⟨h1, h2⟩
  have := (h.dofFree (p := dofs[q]) (List.getElem_mem q.isLt)).2
  rw [h1, h2] at this
  exact hd this

theorem Laid.dof_inj (h : Laid u es c bars dofs) {q r : Fin dofs.length} (h1 : TrussPy.dofLabel c dofs[q] = TrussPy.dofLabel c dofs[r])
    (h2 : comp dofs[q] = comp dofs[r]) : q = r := by
  have e1 := h.dofLabel (p := dofs[q]) (List.getElem_mem q.isLt)
  have e2 := h.dofLabel (p := dofs[r]) (List.getElem_mem r.isLt)
  rw [h1] at e1
  obtain ⟨l1, f1⟩ := List.getElem?_eq_some_iff.1 e1
  obtain ⟨l2, f2⟩ := List.getElem?_eq_some_iff.1 e2
  have h3 : dofs[q] / 3 = dofs[r] / 3 := h.labelsNodup.getElem_inj_iff.1 (f1.trans f2.symm)
  have h4 : dofs[q] = dofs[r] := by
    rw [← dof_split dofs[q], ← dof_split dofs[r], h3, h2]
  exact Fin.ext (h.dofNodup.getElem_inj_iff.1 h4)

theorem Laid.fieldVec_fieldOf (h : Laid u es c bars dofs) {w : Fin (dofs.length + 1) → ℝ} {l : ℝ} (hl : w (Fin.last _) = l) :
    fieldVec c dofs (fieldOf c dofs w) l = w := by
  funext i
  refine Fin.lastCases ?_ (fun q => ?_) i
  · rw [fieldVec_last, hl]
  · rw [fieldVec_castSucc]
    unfold fieldOf
    rw [Finset.sum_eq_single q]
    · rw [if_pos ⟨rfl, rfl⟩, one_mul]
    · intro r _ hr
      rw [if_neg, zero_mul]
      rintro ⟨h1, h2⟩
      exact hr (h.dof_inj h1 h2)
    · intro h
      exact absurd (Finset.mem_univ q) h

/-- Fields allowed by the supports are determined by their vectors. -/
theorem Laid.field_ext (h : Laid u es c bars dofs) {U V : Int → V3 ℝ} (hU : AllowedVelocity u U) (hV : AllowedVelocity u V) {l l' : ℝ}
    (heq : fieldVec c dofs U l = fieldVec c dofs V l') {n : Node ℝ} (hn : n ∈ u.nodes) (d : Fin 3) : U n.label d = V n.label d := by
  by_cases hf : FreeAt u n.label d
  · obtain ⟨p, hp, e1, e2⟩ := h.freeDof hf
    obtain ⟨q, hq, rfl⟩ := List.getElem_of_mem hp
    have := congrFun heq (⟨q, hq⟩ : Fin dofs.length).castSucc
    rw [fieldVec_castSucc, fieldVec_castSucc] at this
    simp only [Fin.getElem_fin, e1, e2] at this
    exact this
  · have hs : (supportOf u.bounds n.label)[d.val]? ≠ some 1 := fun hc => hf ⟨⟨n, hn, rfl⟩, hc⟩
    rw [hU n hn d hs, hV n hn d hs]

theorem fieldVec_smul (v : Int → V3 ℝ) (r : ℝ) (μ : ℝ) : fieldVec c dofs (fun n e => r * v n e) (r * μ) = r • fieldVec c dofs v μ := by
  funext i
  refine Fin.lastCases ?_ (fun q => ?_) i
  · simp [fieldVec_last]
  · simp [fieldVec_castSucc]

theorem LaidStep.length_of_smooth (h : LaidStep u es c bars a ef) {U : Int → V3 ℝ} (hU : AllowedVelocity u U) {l : ℝ}
    (hs : SmoothAt c bars a (fieldVec c a.DOF1 U l)) : ∀ e ∈ es, ∀ A E, e.conn = [A, E] → len (span u U A E) ≠ 0 := by
  intro e he A E hc
  obtain ⟨k, hk, rfl⟩ := List.getElem_of_mem he
  have hkl : k < bars.length := by rw [← h.laid.meant.length_eq]; exact hk
  obtain ⟨nA, hA, nE, hE, hbo⟩ := h.laid.meant.get hk hkl
  have hconn := hbo.conn
  rw [show es.get ⟨k, hk⟩ = es[k] from rfl, hc] at hconn
  cases hconn
  obtain ⟨W, hW⟩ := exists_disp h.eval h.eval.dofs.symm
  have h1 := (hs _ (hW _) k _ (List.getElem?_eq_getElem hkl)).1
  have h2 := hW (fieldVec c a.DOF1 U l)
  rw [h.U] at h2
  rw [← h.laid.axis (fun i lab hi e => h.laid.scatter hU h2 hi e) hA hE hbo]
  exact h1

theorem LaidStep.below_of_calm (h : LaidStep u es c bars a ef) {U : Int → V3 ℝ} (hU : AllowedVelocity u U) {l : ℝ}
    (hs : CalmAt c bars a (fieldVec c a.DOF1 U l)) : ∀ e ∈ es, BelowYield u U e := by
  intro e he hm A E hc
  obtain ⟨k, hk, rfl⟩ := List.getElem_of_mem he
  have hkl : k < bars.length := by rw [← h.laid.meant.length_eq]; exact hk
  obtain ⟨nA, hA, nE, hE, hbo⟩ := h.laid.meant.get hk hkl
  have hconn := hbo.conn
  rw [show es.get ⟨k, hk⟩ = es[k] from rfl, hc] at hconn
  cases hconn
  obtain ⟨W, hW⟩ := exists_disp h.eval h.eval.dofs.symm
  have hb := List.getElem?_eq_getElem hkl
  have h1 := (h.unyielded k _ hb).symm.calm (hs _ (hW _) k _ hb)
  have h2 := hW (fieldVec c a.DOF1 U l)
  rw [h.U] at h2
  have hlaw : bars[k].law = .elplast := by
    rcases hbo.law with ⟨q, -⟩ | ⟨-, q⟩
    · rw [show es.get ⟨k, hk⟩ = es[k] from rfl, hm] at q
      cases q
    · exact q
  obtain ⟨m, rest, more, y, p, k1, k2, k3, k4, k5⟩ := h1.plastic hlaw
  simp only [Option.some.injEq, List.cons.injEq] at k3
  obtain ⟨rfl, rfl, rfl⟩ := k3
  unfold Bar.stretch at k5
  have hmat := hbo.mat
  rw [show bars.get ⟨k, hkl⟩ = bars[k] from rfl, k2] at hmat
  rw [show es[k].mprop.vals = _ from hmat.symm, ← h.laid.ref hA hE hbo,
    ← h.laid.axis (fun i lab hi e => h.laid.scatter hU h2 hi e) hA hE hbo]
  rw [if_pos rfl, sub_zero] at k5
  exact k5

/-- The matrix of the built model is the derivative of the equilibrium equations of the entered structure. -/
theorem LaidStep.derivative (h : LaidStep u es c bars a ef) {j : Int} {k : Fin (a.DOF1.length + 1)} (hj : j.natAbs = k + 1)
    {U : Int → V3 ℝ} {l : ℝ} (hU : AllowedVelocity u U) (hcm : CalmAt c bars a (fieldVec c a.DOF1 U l)) {v : Int → V3 ℝ}
    (hv : AllowedVelocity u v) (μ : ℝ) (q : Fin a.DOF1.length) :
    HasDerivAt (fun t : ℝ => pull u es (fun n e => U n e + t * v n e) (dofLabel c a.DOF1[q]) (comp a.DOF1[q]) -
      (l + t * μ) * firstLoad u (dofLabel c a.DOF1[q]) (comp a.DOF1[q]))
      ((sysMat c a a.DOF1.length j (fieldVec c a.DOF1 U l)).mulVec (fieldVec c a.DOF1 v μ) q.castSucc) 0 := by
  have hn : c.ndof1 = a.DOF1.length := h.eval.dofs.symm
  have hV0 : (List.replicate (a.DOF1.length + 1) (0 : ℝ)).length = a.DOF1.length + 1 := by simp
  have hD := sys_hasFDerivAt h.eval h.lpf h.f0 hn hV0 hj 0 hcm.smooth
  have hline : HasDerivAt (fun t : ℝ => fieldVec c a.DOF1 U l + t • fieldVec c a.DOF1 v μ) (fieldVec c a.DOF1 v μ) 0 := by
    have := ((hasDerivAt_id (0 : ℝ)).smul_const (fieldVec c a.DOF1 v μ)).const_add (fieldVec c a.DOF1 U l)
    simpa using this
  have hcomp : HasDerivAt (fun t : ℝ => sysRes c a a.DOF1.length (List.replicate (a.DOF1.length + 1) 0) j 0
      (fieldVec c a.DOF1 U l + t • fieldVec c a.DOF1 v μ))
      ((sysMat c a a.DOF1.length j (fieldVec c a.DOF1 U l)).mulVec (fieldVec c a.DOF1 v μ)) 0 := by
    have h0 : fieldVec c a.DOF1 U l + (0 : ℝ) • fieldVec c a.DOF1 v μ = fieldVec c a.DOF1 U l := by simp
    exact HasFDerivAt.comp_hasDerivAt (x := (0 : ℝ)) (f := fun t : ℝ => fieldVec c a.DOF1 U l + t • fieldVec c a.DOF1 v μ)
      (l := sysRes c a a.DOF1.length (List.replicate (a.DOF1.length + 1) 0) j 0) (by rw [h0]; exact hD) hline
  have := hasDerivAt_pi.1 hcomp q.castSucc
  refine this.congr_of_eventuallyEq ?_
  filter_upwards [below_eventually v (h.below_of_calm hU hcm)] with t hbt
  have hall : AllowedVelocity u fun n e => U n e + t * v n e := by
    intro n hn' d hd
    simp only
    rw [hU n hn' d hd, hv n hn' d hd]
    ring
  have h3 := h.system hV0 hj 0 hall hbt (l + t * μ) q
  rw [fieldVec_add] at h3
  exact h3.symm

theorem LaidStep.zero_disp (h : LaidStep u es c bars a ef) {U : List ℝ}
    (hU : scatter a.U a.DOF1 (List.ofFn fun _ : Fin a.DOF1.length => (0 : ℝ)) = .ok U) (p : Nat) : U.getD p 0 = 0 := by
  rw [h.U, List.ofFn_const] at hU
  exact scatter_zeros rfl hU p

theorem LaidStep.zero_calm (h : LaidStep u es c bars a ef) (hst : StiffElems u es) :
    CalmAt c bars a (0 : Fin (a.DOF1.length + 1) → ℝ) := by
  intro U hU k b hb
  have hb' := meant_stiff h.laid.meant hst b (List.mem_of_getElem? hb)
  refine ⟨(undeformed_smooth hb' (h.zero_disp hU) (h.virgin k b hb)).1, fun hp => ?_⟩
  obtain ⟨m, rest, hm, hv'⟩ := hb'.plastic hp
  obtain ⟨more, hrow⟩ := h.virgin k b hb hp
  refine ⟨m, rest, more, 0, 0, hm, hv', hrow, le_rfl, ?_⟩
  rw [stretch_zero hb'.length (h.zero_disp hU), if_pos rfl]
  simpa using hm.Sy

theorem LaidStep.zero_regular (h : LaidStep u es c bars a ef) (hst : StiffElems u es) (hk : KinematicallyStable u es) :
    IsUnit (sysMat c a a.DOF1.length ((a.DOF1.length : Int) + 1) 0).det := by
  have hstab := (stable_iff h.laid.nodup h.laid.perm h.laid.nnodes h.laid.meant h.laid.dofNodup h.laid.dofLt h.laid.dof).2 hk
  have hn : c.ndof1 = a.DOF1.length := h.eval.dofs.symm
  obtain ⟨U, hUs⟩ : ∃ U, scatter a.U a.DOF1 (List.ofFn fun _ : Fin a.DOF1.length => (0 : ℝ)) = .ok U := scatter_ok (by simp)
  obtain ⟨a2, K0, K, k1, -, k3, k4, k5, k6, k7⟩ := extDf_model h.eval h.lpf h.f0 hn (j := (a.DOF1.length : Int) + 1)
    (k := Fin.last a.DOF1.length) (by rw [Fin.val_last]; omega) fun _ => 0
  have hmat : sysMat c a a.DOF1.length ((a.DOF1.length : Int) + 1) 0 = matOf (a.DOF1.length + 1) K := by
    unfold sysMat
    rw [show (List.ofFn (0 : Fin (a.DOF1.length + 1) → ℝ)) = List.ofFn fun _ => 0 from rfl, k1]
  rw [hmat]
  obtain ⟨⟨a3, K0'⟩, hst3, rfl⟩ : ∃ r, stiffness c a (List.ofFn fun _ : Fin (a.DOF1.length + 1) => (0 : ℝ)).dropLast = .ok r ∧
      r.2 = K0 := by
    cases hs3 : stiffness c a (List.ofFn fun _ : Fin (a.DOF1.length + 1) => (0 : ℝ)).dropLast with
    | ok r => rw [hs3] at k5; exact ⟨r, rfl, Except.ok.inj k5⟩
    | error e => rw [hs3] at k5; cases k5
  have hdrop : (List.ofFn fun _ : Fin (a.DOF1.length + 1) => (0 : ℝ)).dropLast = List.ofFn fun _ : Fin a.DOF1.length => (0 : ℝ) := by
    rw [ofFn_split, List.dropLast_concat]
  rw [hdrop] at hst3
  obtain ⟨hUU, xs, -, hK0⟩ := stiffness_closed h.eval (by simp [hn]) hst3 hUs
  have hiff := stiffness_regular_iff h.eval.tables h.eval.fits hst3 (meant_stiff h.laid.meant hst) h.virgin
    (by rw [hUU]; exact h.zero_disp hUs)
  refine bordered_regular (K0 := K0') (f := a.f0red) ?_ ?_ ?_ k6 (hiff.2 hstab)
  · rw [show K0' = _ from hK0]; simp [reducedStiffness]
  · intro row hr
    rw [show K0' = _ from hK0] at hr
    unfold reducedStiffness at hr
    obtain ⟨p, -, rfl⟩ := List.mem_map.1 hr
    simp
  · rw [h.f0]; simp

theorem allowed_zero : AllowedVelocity u 0 := fun _ _ _ _ => rfl

theorem fieldVec_zero : fieldVec c dofs 0 0 = 0 := by
  funext i
  refine Fin.lastCases ?_ (fun q => ?_) i
  · rw [fieldVec_last]; rfl
  · rw [fieldVec_castSucc]; rfl

/-- The undeformed state is an equilibrium. -/
theorem LaidStep.zero_sys (h : LaidStep u es c bars a ef) (hst : StiffElems u es) {V0 : List ℝ} (hV0 : V0.length = a.DOF1.length + 1) :
    sysRes c a a.DOF1.length V0 ((a.DOF1.length : Int) + 1) 0 0 = 0 := by
  have hn : c.ndof1 = a.DOF1.length := h.eval.dofs.symm
  have hj : ((a.DOF1.length : Int) + 1).natAbs = ((Fin.last a.DOF1.length : Fin (a.DOF1.length + 1)) : Nat) + 1 := by
    rw [Fin.val_last]; omega
  funext i
  refine Fin.lastCases ?_ (fun q => ?_) i
  · rw [sysRes_last h.eval hn hV0 hj]
    simp
  · obtain ⟨U, hUs⟩ : ∃ U, scatter a.U a.DOF1 (List.ofFn fun _ : Fin a.DOF1.length => (0 : ℝ)) = .ok U := scatter_ok (by simp)
    rw [sysRes_closed h.eval hn hV0 hj 0 _ hUs]
    simp only [closedRes, Fin.snoc_castSucc]
    rw [undeformed_force (meant_stiff h.laid.meant hst) h.virgin (h.zero_disp hUs), h.const]
    simp

theorem LaidStep.zero_length (h : LaidStep u es c bars a ef) (hst : StiffElems u es) :
    ∀ e ∈ es, ∀ A E, e.conn = [A, E] → len (span u 0 A E) ≠ 0 :=
  h.length_of_smooth allowed_zero (l := 0) (by rw [fieldVec_zero]; exact (h.zero_calm hst).smooth)

/-- Linear truss theory is the derivative of the equilibrium equations at the undeformed state. -/
theorem elementPull_deriv (v : Int → V3 ℝ) {e : Elem ℝ} (hl : ∀ A E, e.conn = [A, E] → len (span u 0 A E) ≠ 0) (lab : Int) (d : Fin 3) :
    HasDerivAt (fun t : ℝ => elementPull u (fun n i => t * v n i) e lab d) (linearElementPull u v e lab d) 0 := by
  unfold elementPull linearElementPull
  rcases hc : e.conn with _ | ⟨A, _ | ⟨E, _ | ⟨B, rest⟩⟩⟩
  · exact hasDerivAt_const _ _
  · exact hasDerivAt_const _ _
  · simp only
    have hL := hl A E hc
    set L := len (span u 0 A E) with hLd
    have hspan : ∀ t i, span u (fun n i => t * v n i) A E i = span u 0 A E i + t * (v E i - v A i) := by
      intro t i
      simp only [span, Pi.zero_apply]
      ring
    have hcomp : ∀ i, HasDerivAt (fun t => span u (fun n i => t * v n i) A E i) (v E i - v A i) 0 := by
      intro i
      simp only [hspan]
      have := ((hasDerivAt_id (0 : ℝ)).mul_const (v E i - v A i)).const_add (span u 0 A E i)
      simpa using this
    have h0 : (span u (fun n i => (0 : ℝ) * v n i) A E) = span u 0 A E := by
      funext i
      rw [hspan]
      ring
    have hlen : HasDerivAt (fun t : ℝ => len (span u (fun n i => t * v n i) A E)) (inner3 (span u 0 A E) (fun i => v E i - v A i) / L) 0 := by
      have hsum := (((hcomp 0).pow 2).add ((hcomp 1).pow 2)).add ((hcomp 2).pow 2)
      have hne : span u 0 A E 0 ^ 2 + span u 0 A E 1 ^ 2 + span u 0 A E 2 ^ 2 ≠ 0 := by
        rw [← len_sq]
        exact pow_ne_zero 2 hL
      have := hsum.sqrt (by
        simp only [Pi.add_apply, Pi.pow_apply, h0]
        exact hne)
      refine this.congr_deriv ?_
      simp only [Pi.add_apply, Pi.pow_apply, h0]
      rw [show √(span u 0 A E 0 ^ 2 + span u 0 A E 1 ^ 2 + span u 0 A E 2 ^ 2) = L from rfl]
      unfold inner3
      field_simp
      ring
    have hdir := (hcomp d).div hlen (by rw [h0]; exact hL)
    have hstr := (((hlen.div_const L).sub_const 1).const_mul (e.mprop.vals.headD 0)).mul_const (e.gprop.vals.headD 0)
    have hall := (hstr.mul hdir).const_mul (((if lab = E then 1 else 0) - (if lab = A then 1 else 0)) : ℝ)
    refine hall.congr_deriv ?_
    simp only [h0, Pi.div_apply, ← hLd]
    rw [div_self hL]
    field_simp
    ring
  · exact hasDerivAt_const _ _

theorem pull_deriv (v : Int → V3 ℝ) (hl : ∀ e ∈ es, ∀ A E, e.conn = [A, E] → len (span u 0 A E) ≠ 0) (lab : Int) (d : Fin 3) :
    HasDerivAt (fun t : ℝ => pull u es (fun n i => t * v n i) lab d) (linearPull u es v lab d) 0 := by
  unfold pull linearPull
  induction es with
  | nil => exact hasDerivAt_const _ _
  | cons e es ih =>
    simp only [List.map_cons, List.sum_cons]
    exact (elementPull_deriv v (hl e (by simp)) lab d).add (ih fun e he => hl e (by simp [he]))

theorem LaidStep.zero_row (h : LaidStep u es c bars a ef) (hst : StiffElems u es) {v : Int → V3 ℝ} (hv : AllowedVelocity u v) (μ : ℝ)
    (q : Fin a.DOF1.length) : (sysMat c a a.DOF1.length ((a.DOF1.length : Int) + 1) 0).mulVec (fieldVec c a.DOF1 v μ) q.castSucc =
      linearPull u es v (dofLabel c a.DOF1[q]) (comp a.DOF1[q]) - μ * firstLoad u (dofLabel c a.DOF1[q]) (comp a.DOF1[q]) := by
  have hj : ((a.DOF1.length : Int) + 1).natAbs = ((Fin.last a.DOF1.length : Fin (a.DOF1.length + 1)) : Nat) + 1 := by
    rw [Fin.val_last]; omega
  have h1 := h.derivative hj allowed_zero (l := 0) (by rw [fieldVec_zero]; exact h.zero_calm hst) hv μ q
  rw [fieldVec_zero] at h1
  refine h1.unique ?_
  have h2 := pull_deriv v (h.zero_length hst) (dofLabel c a.DOF1[q]) (comp a.DOF1[q])
  have h3 := ((hasDerivAt_id (0 : ℝ)).mul_const μ).mul_const (firstLoad u (dofLabel c a.DOF1[q]) (comp a.DOF1[q]))
  have h4 := h2.sub h3
  rw [one_mul] at h4
  refine h4.congr_of_eventuallyEq (Filter.Eventually.of_forall fun t => ?_)
  simp

theorem LaidStep.linear_iff (h : LaidStep u es c bars a ef) (hst : StiffElems u es) {v : Int → V3 ℝ} (hv : AllowedVelocity u v) :
    LinearSolution u es v ↔
      (sysMat c a a.DOF1.length ((a.DOF1.length : Int) + 1) 0).mulVec (fieldVec c a.DOF1 v 1) = Pi.single (Fin.last _) 1 := by
  have hn : c.ndof1 = a.DOF1.length := h.eval.dofs.symm
  have hj : ((a.DOF1.length : Int) + 1).natAbs = ((Fin.last a.DOF1.length : Fin (a.DOF1.length + 1)) : Nat) + 1 := by
    rw [Fin.val_last]; omega
  constructor
  · intro hl
    funext i
    refine Fin.lastCases ?_ (fun q => ?_) i
    · rw [(sysMat_rows h.eval h.lpf h.f0 hn hj hj _).2, fieldVec_last, Pi.single_eq_same]
    · rw [h.zero_row hst hv, hl.equilibrium _ _ (h.laid.dofFree (p := a.DOF1[q]) (List.getElem_mem q.isLt)), one_mul, sub_self,
        Pi.single_eq_of_ne (Fin.castSucc_lt_last _).ne]
  · intro heq
    refine ⟨hv, fun lab d hf => ?_⟩
    obtain ⟨p, hp, rfl, rfl⟩ := h.laid.freeDof hf
    obtain ⟨q, hq, rfl⟩ := List.getElem_of_mem hp
    have h1 := h.zero_row hst hv 1 ⟨q, hq⟩
    rw [heq, Pi.single_eq_of_ne (Fin.castSucc_lt_last _).ne, one_mul] at h1
    exact sub_eq_zero.1 h1.symm

/-- Linear truss theory has exactly one solution for a stable structure. -/
theorem LaidStep.linear_exists (h : LaidStep u es c bars a ef) (hst : StiffElems u es) (hk : KinematicallyStable u es) :
    (∃ v, LinearSolution u es v) ∧
      ∀ v v', LinearSolution u es v → LinearSolution u es v' → ∀ n ∈ u.nodes, ∀ d, v n.label d = v' n.label d := by
  have hn : c.ndof1 = a.DOF1.length := h.eval.dofs.symm
  have hj : ((a.DOF1.length : Int) + 1).natAbs = ((Fin.last a.DOF1.length : Fin (a.DOF1.length + 1)) : Nat) + 1 := by
    rw [Fin.val_last]; omega
  have hreg := h.zero_regular hst hk
  constructor
  · obtain ⟨w, hw⟩ := Matrix.mulVec_surjective_iff_isUnit.2 ((Matrix.isUnit_iff_isUnit_det _).2 hreg) (Pi.single (Fin.last _) 1)
    have hlast : w (Fin.last _) = 1 := by
      rw [← (sysMat_rows h.eval h.lpf h.f0 hn hj hj 0).2 w, hw, Pi.single_eq_same]
    refine ⟨fieldOf c a.DOF1 w, (h.linear_iff hst (h.laid.allowed_fieldOf w)).2 ?_⟩
    rw [h.laid.fieldVec_fieldOf hlast, hw]
  · intro v v' hv hv' n hn' d
    refine h.laid.field_ext hv.supports hv'.supports (l := 1) (l' := 1) ?_ hn' d
    rw [← sub_eq_zero]
    refine (regular_iff_injective _).1 hreg _ ?_
    rw [Matrix.mulVec_sub, (h.linear_iff hst hv.supports).1 hv, (h.linear_iff hst hv'.supports).1 hv', sub_self]

/-- A stable structure has an equilibrium path on which the load factor grows evenly. -/
theorem LaidStep.loadPath (h : LaidStep u es c bars a ef) (hst : StiffElems u es) (hk : KinematicallyStable u es) {dl : ℝ}
    (hdl : 0 < dl) : ∃ S > 0, ∃ U U' : ℝ → Int → V3 ℝ, (∀ du, FreeTrail u es du dl S U U' (fun s => dl * s) fun _ => dl) ∧
      (∀ v, LinearSolution u es v → ∀ n ∈ u.nodes, ∀ d, U' 0 n.label d = dl * v n.label d) ∧
      ∃ ρ > 0, ∀ (V : Int → V3 ℝ) (s : ℝ), AllowedVelocity u V → (∀ n ∈ u.nodes, ∀ d, |V n.label d| ≤ ρ) → s ∈ Set.Icc 0 S →
        (∀ lab d, FreeAt u lab d → pull u es V lab d = dl * s * firstLoad u lab d) → ∀ n ∈ u.nodes, ∀ d, V n.label d = U s n.label d := by
  have hn : c.ndof1 = a.DOF1.length := h.eval.dofs.symm
  have hV0 : (List.replicate (a.DOF1.length + 1) (0 : ℝ)).length = a.DOF1.length + 1 := by simp
  have hj : ((a.DOF1.length : Int) + 1).natAbs = ((Fin.last a.DOF1.length : Fin (a.DOF1.length + 1)) : Nat) + 1 := by
    rw [Fin.val_last]; omega
  have hs0 := h.zero_calm hst
  have hev := calmAt_eventually h.eval hn hs0
  obtain ⟨δ, hδ, hball⟩ := Metric.eventually_nhds_iff.1 hev
  obtain ⟨S, hS, γ, γ', g0, g1, g2, ρ0, hρ0, g3⟩ := exists_curve (h.zero_sys hst hV0) (sys_contDiff h.eval hn hV0 hj 0 hs0.smooth)
    (J := sysMat c a a.DOF1.length ((a.DOF1.length : Int) + 1)) (hev.mono fun x hx => sys_hasFDerivAt h.eval h.lpf h.f0 hn hV0 hj 0 hx.smooth)
    (h.zero_regular hst hk) (Pi.single (Fin.last _) dl) hev
  set ρ := min ρ0 (δ / 2) with hρd
  have hρ : 0 < ρ := lt_min hρ0 (by positivity)
  set S' := min S (ρ / dl) with hS'
  have hS'0 : 0 < S' := lt_min hS (by positivity)
  have hsub : ∀ s ∈ Set.Icc 0 S', s ∈ Set.Icc 0 S := fun s hs => ⟨hs.1, hs.2.trans (min_le_left _ _)⟩
  have hlast : ∀ s ∈ Set.Icc 0 S', γ s (Fin.last _) = dl * s := by
    intro s hs
    have h1 := congrFun (g1 s (hsub s hs)).2.1 (Fin.last _)
    rw [sysRes_last h.eval hn hV0 hj] at h1
    simp only [Pi.smul_apply, Pi.single_eq_same, smul_eq_mul, sub_zero] at h1
    rw [h1, mul_comm]
  have hlast' : ∀ s ∈ Set.Icc 0 S', γ' s (Fin.last _) = dl := by
    intro s hs
    have h1 := congrFun (g1 s (hsub s hs)).2.2.1 (Fin.last _)
    rw [(sysMat_rows h.eval h.lpf h.f0 hn hj hj _).2, Pi.single_eq_same] at h1
    exact h1
  have hvec : ∀ s ∈ Set.Icc 0 S', fieldVec c a.DOF1 (fieldOf c a.DOF1 (γ s)) (dl * s) = γ s := fun s hs =>
    h.laid.fieldVec_fieldOf (hlast s hs)
  have hvec' : ∀ s ∈ Set.Icc 0 S', fieldVec c a.DOF1 (fieldOf c a.DOF1 (γ' s)) dl = γ' s := fun s hs =>
    h.laid.fieldVec_fieldOf (hlast' s hs)
  have hsm : ∀ s ∈ Set.Icc 0 S', CalmAt c bars a (fieldVec c a.DOF1 (fieldOf c a.DOF1 (γ s)) (dl * s)) := by
    intro s hs
    rw [hvec s hs]
    exact (g1 s (hsub s hs)).2.2.2.2
  refine ⟨S', hS'0, fun s => fieldOf c a.DOF1 (γ s), fun s => fieldOf c a.DOF1 (γ' s), fun du => ⟨?_, mul_zero _, hdl, ?_, ?_, ?_,
    continuousOn_const, fun s _ => Or.inl (le_abs_self dl), fun s _ => h.laid.allowed_fieldOf _, ?_,
    fun s hs => h.length_of_smooth (h.laid.allowed_fieldOf _) (hsm s hs).smooth,
    fun s hs => h.below_of_calm (h.laid.allowed_fieldOf _) (hsm s hs), ?_⟩, ?_, ρ, hρ, ?_⟩
  · intro n _ d
    simp only [g0]
    exact Finset.sum_eq_zero fun q _ => mul_zero _
  · intro s hs n _ d
    unfold fieldOf
    refine HasDerivWithinAt.fun_sum fun q _ => ?_
    exact ((hasDerivAt_pi.1 (g1 s (hsub s hs)).1 q.castSucc).const_mul _).hasDerivWithinAt
  · intro s _
    have := ((hasDerivAt_id s).const_mul dl).hasDerivWithinAt (s := Set.Icc 0 S')
    simpa using this
  · intro n _ d
    unfold fieldOf
    refine continuousOn_finsetSum _ fun q _ => continuousOn_const.mul ?_
    exact (continuousOn_pi.1 g2 q.castSucc).mono fun s hs => hsub s hs
  · intro s hs lab d hf
    obtain ⟨p, hp, rfl, rfl⟩ := h.laid.freeDof hf
    obtain ⟨q, hq, rfl⟩ := List.getElem_of_mem hp
    have h1 := h.system hV0 hj 0 (h.laid.allowed_fieldOf (γ s)) (h.below_of_calm (h.laid.allowed_fieldOf _) (hsm s hs)) (dl * s) ⟨q, hq⟩
    have h2 := congrFun (g1 s (hsub s hs)).2.1 (⟨q, hq⟩ : Fin a.DOF1.length).castSucc
    rw [hvec s hs, h2] at h1
    simp only [Pi.smul_apply, smul_eq_mul] at h1
    rw [Pi.single_eq_of_ne (Fin.castSucc_lt_last _).ne, mul_zero] at h1
    exact (sub_eq_zero.1 h1.symm)
  · intro s hs v μ hv hd
    obtain ⟨-, -, k3, k4, -⟩ := g1 s (hsub s hs)
    have hzero : (sysMat c a a.DOF1.length ((a.DOF1.length : Int) + 1) (γ s)).mulVec (fieldVec c a.DOF1 v μ - (μ / dl) • γ' s) = 0 := by
      rw [Matrix.mulVec_sub, Matrix.mulVec_smul, k3, sub_eq_zero]
      funext i
      refine Fin.lastCases ?_ (fun q => ?_) i
      · rw [(sysMat_rows h.eval h.lpf h.f0 hn hj hj _).2, fieldVec_last, Pi.smul_apply, Pi.single_eq_same, smul_eq_mul,
          div_mul_cancel₀ _ hdl.ne']
      · have h1 := h.derivative hj (h.laid.allowed_fieldOf (γ s)) (hsm s hs) hv μ q
        have h2 := h1.unique (hd _ _ (h.laid.dofFree (List.getElem_mem q.isLt)))
        rw [hvec s hs] at h2
        rw [h2, Pi.smul_apply, Pi.single_eq_of_ne (Fin.castSucc_lt_last _).ne, smul_zero]
    have heq := sub_eq_zero.1 ((regular_iff_injective _).1 k4 _ hzero)
    refine ⟨μ / dl, fun n hn' d => ?_, (div_mul_cancel₀ _ hdl.ne').symm⟩
    have hall : AllowedVelocity u fun n e => μ / dl * fieldOf c a.DOF1 (γ' s) n e := fun n hn' d hd => by
      simp only
      rw [h.laid.allowed_fieldOf (γ' s) n hn' d hd, mul_zero]
    refine h.laid.field_ext hv hall (l := μ) (l' := μ / dl * dl) ?_ hn' d
    rw [fieldVec_smul, hvec' s hs]
    exact heq
  · intro v hv n hn' d
    have h0 : (0 : ℝ) ∈ Set.Icc 0 S' := ⟨le_rfl, hS'0.le⟩
    have hall : AllowedVelocity u fun n e => dl * v n e := fun n hn' d hd => by
      simp only
      rw [hv.supports n hn' d hd, mul_zero]
    refine h.laid.field_ext (h.laid.allowed_fieldOf (γ' 0)) hall (l := dl) (l' := dl * 1) ?_ hn' d
    rw [hvec' 0 h0, fieldVec_smul, ← sub_eq_zero]
    obtain ⟨-, -, k3, k4, -⟩ := g1 0 (hsub 0 h0)
    refine (regular_iff_injective _).1 k4 _ ?_
    rw [Matrix.mulVec_sub, Matrix.mulVec_smul, k3, g0, (h.linear_iff hst hv.supports).1 hv, ← Pi.single_smul, smul_eq_mul, mul_one,
      sub_self]
  · intro V s hV hb hs heq n hn' d
    refine h.laid.field_ext hV (h.laid.allowed_fieldOf _) (l := dl * s) (l' := dl * s) ?_ hn' d
    rw [hvec s hs]
    have hnorm : ‖fieldVec c a.DOF1 V (dl * s) - 0‖ ≤ ρ := by
      rw [sub_zero, pi_norm_le_iff_of_nonneg hρ.le]
      intro i
      refine Fin.lastCases ?_ (fun q => ?_) i
      · rw [fieldVec_last, Real.norm_eq_abs, abs_of_nonneg (mul_nonneg hdl.le hs.1)]
        have := hs.2.trans (min_le_right _ _)
        rw [le_div_iff₀ hdl] at this
        linarith
      · rw [fieldVec_castSucc, Real.norm_eq_abs]
        obtain ⟨n, hn', hl⟩ := h.laid.node (h.laid.dofLabel (p := a.DOF1[q]) (List.getElem_mem q.isLt))
        rw [← hl]
        exact hb n hn' _
    have hcalm : CalmAt c bars a (fieldVec c a.DOF1 V (dl * s)) := hball (by
      rw [dist_eq_norm]
      refine hnorm.trans_lt ((min_le_right _ _).trans_lt ?_)
      linarith)
    refine g3 _ (hnorm.trans (min_le_left _ _)) s ?_
    · funext i
      refine Fin.lastCases ?_ (fun q => ?_) i
      · rw [sysRes_last h.eval hn hV0 hj, fieldVec_last, Pi.smul_apply, Pi.single_eq_same, smul_eq_mul, sub_zero, mul_comm]
      · rw [h.system hV0 hj 0 hV (h.below_of_calm hV hcalm), heq _ _ (h.laid.dofFree (p := a.DOF1[q]) (List.getElem_mem q.isLt)), sub_self, Pi.smul_apply,
          Pi.single_eq_of_ne (Fin.castSucc_lt_last _).ne, smul_zero]

end

end TrussPy
