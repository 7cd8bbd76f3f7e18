import Verif.Lemmas.System
import Mathlib.Analysis.SpecialFunctions.Sqrt
/-!
# The extended system is twice continuously differentiable where bars are smooth
-/

namespace TrussPy

open Spec Filter

/-- Off the yield surface the stress is an affine function of the strain, locally. -/
theorem stress_affine {c : Plastic} (hc : c.Valid) {Y p e : ℝ} (hY : 0 ≤ Y) (hoff : |c.E * (e - p)| ≠ Y) :
    ∃ s t : ℝ, (fun x => c.E * (x - newP c Y p x)) =ᶠ[nhds e] fun x => s * x + t := by
  have hcont : Continuous fun x : ℝ => |c.E * (x - p)| := by fun_prop
  rcases lt_or_gt_of_ne hoff with hlt | hgt
  · have : ∀ᶠ x in nhds e, |c.E * (x - p)| < Y := hcont.continuousAt.eventually_lt continuousAt_const hlt
    refine ⟨c.E, -(c.E * p), ?_⟩
    filter_upwards [this] with x hx
    simp only [newP, flow_elastic hc hx.le]
    ring
  · have hEK : 0 < c.E + c.K := by have := hc.E; have := hc.K; linarith
    have hplus : ∀ᶠ x in nhds e, Y < |c.E * (x - p)| := continuousAt_const.eventually_lt hcont.continuousAt hgt
    have hcont2 : Continuous fun x : ℝ => c.E * (x - p) := by fun_prop
    rcases lt_trichotomy (c.E * (e - p)) 0 with hneg | hz | hpos
    · have hsg : ∀ᶠ x in nhds e, c.E * (x - p) < 0 := hcont2.continuousAt.eventually_lt continuousAt_const hneg
      refine ⟨c.E * c.K / (c.E + c.K), -(c.E * c.K / (c.E + c.K) * p) - c.E * Y / (c.E + c.K), ?_⟩
      filter_upwards [hplus, hsg] with x hx hx'
      simp only [newP, flow_plastic hc hx.le, abs_of_neg hx', Real.sign_of_neg hx']
      field_simp
      ring
    · rw [hz] at hgt; simp at hgt; exact absurd hgt (not_lt.2 hY)
    · have hsg : ∀ᶠ x in nhds e, 0 < c.E * (x - p) := continuousAt_const.eventually_lt hcont2.continuousAt hpos
      refine ⟨c.E * c.K / (c.E + c.K), -(c.E * c.K / (c.E + c.K) * p) + c.E * Y / (c.E + c.K), ?_⟩
      filter_upwards [hplus, hsg] with x hx hx'
      simp only [newP, flow_plastic hc hx.le, abs_of_pos hx', Real.sign_of_pos hx']
      field_simp
      ring

theorem law_contDiffAt {b : Bar ℝ} {U : List ℝ} {row : Option (List ℝ)} (h : b.Smooth U row) (hm : b.mat ≠ []) :
    ContDiffAt ℝ 2 (b.stressAt row) (b.stretch U - 1) := by
  unfold Bar.stressAt
  cases hl : b.law with
  | el =>
    cases hmat : b.mat with
    | nil => exact absurd hmat hm
    | cons E rest =>
      have : (TrussPy.stressAt fun e => Umat.call .el e 0 (E :: rest) row) = fun e => E * e := by
        funext e; rfl
      rw [this]
      fun_prop
  | elplast =>
    obtain ⟨m, rest, more, y, p, hv, hm, hr, hy, hoff⟩ := h.plastic hl
    rw [hm, hr]
    have hY : 0 ≤ if y = 0 then m.Sy else y := by
      split
      · exact hv.Sy.le
      · exact hy
    have hfun : (TrussPy.stressAt fun e => Umat.call .elplast e 0 (m.E :: m.K :: m.Sy :: rest) (some (y :: p :: more))) =
        fun e => m.E * (e - Spec.newP m (if y = 0 then m.Sy else y) p e) := by
      funext e
      unfold TrussPy.stressAt
      have hcall : Umat.call .elplast e 0 (m.E :: m.K :: m.Sy :: rest) (some (y :: p :: more)) = _ :=
        umat_real hv rest e 0 y p rfl hY more
      simp only [hcall]
    rw [hfun]
    obtain ⟨s, t, hst⟩ := stress_affine hv hY hoff
    refine ContDiffAt.congr_of_eventuallyEq ?_ hst
    fun_prop

section
variable {E : Type} [NormedAddCommGroup E] [NormedSpace ℝ E]

theorem axis_contDiff {b : Bar ℝ} {U : E → List ℝ} {x0 : E} (hD : ∀ p, ContDiffAt ℝ 2 (fun x => (U x).getD p 0) x0)
    (d : Fin 3) : ContDiffAt ℝ 2 (fun x => b.axis (U x) d) x0 := by
  unfold Bar.axis row3
  exact (contDiffAt_const.add (hD _)).sub (contDiffAt_const.add (hD _))

theorem len_contDiff {v : E → V3 ℝ} {x0 : E} (hD : ∀ d, ContDiffAt ℝ 2 (fun x => v x d) x0) (hl : len (v x0) ≠ 0) :
    ContDiffAt ℝ 2 (fun x => len (v x)) x0 := by
  unfold len at hl ⊢
  refine ContDiffAt.sqrt ?_ ?_
  · exact (((hD 0).pow 2).add ((hD 1).pow 2)).add ((hD 2).pow 2)
  · intro h
    rw [h, Real.sqrt_zero] at hl
    exact hl rfl

/-- Smoothness of a bar is an open condition. -/
theorem smooth_eventually {b : Bar ℝ} {U : E → List ℝ} {x0 : E} (hD : ∀ p, ContDiffAt ℝ 2 (fun x => (U x).getD p 0) x0)
    {row : Option (List ℝ)} (h : b.Smooth (U x0) row) : ∀ᶠ x in nhds x0, b.Smooth (U x) row := by
  have hlen := (len_contDiff (fun d => axis_contDiff (b := b) hD d) h.length).continuousAt
  have e1 : ∀ᶠ x in nhds x0, len (b.axis (U x)) ≠ 0 := hlen.eventually_ne h.length
  by_cases hp : b.law = .elplast
  · obtain ⟨m, rest, more, y, p, hv, hm, hr, hy, hoff⟩ := h.plastic hp
    have hst : ContinuousAt (fun x => |m.E * (b.stretch (U x) - 1 - p)|) x0 := by
      unfold Bar.stretch
      have := hlen.div_const (len b.ref)
      exact ((continuousAt_const.mul ((this.sub continuousAt_const).sub continuousAt_const))).abs
    filter_upwards [e1, hst.eventually_ne hoff] with x h1 h2
    exact ⟨h1, fun _ => ⟨m, rest, more, y, p, hv, hm, hr, hy, h2⟩⟩
  · filter_upwards [e1] with x h1
    exact ⟨h1, fun h => absurd h hp⟩

theorem bar_contDiff {b : Bar ℝ} {U : E → List ℝ} {row : Option (List ℝ)} {x0 : E}
    (hD : ∀ p, ContDiffAt ℝ 2 (fun x => (U x).getD p 0) x0) (h : b.Smooth (U x0) row) (hm : b.mat ≠ []) (d : Fin 3) :
    ContDiffAt ℝ 2 (fun x => b.stressAt row (b.stretch (U x) - 1) * b.geo.getD 0 0 * b.dir (U x) d) x0 := by
  have hax := fun d => axis_contDiff (b := b) hD d
  have hl := len_contDiff hax h.length
  have hs : ContDiffAt ℝ 2 (fun x => b.stretch (U x) - 1) x0 := (hl.div_const _).sub contDiffAt_const
  have hlaw : ContDiffAt ℝ 2 (fun x => b.stressAt row (b.stretch (U x) - 1)) x0 :=
    ContDiffAt.comp x0 (law_contDiffAt h hm) hs
  have hdir : ContDiffAt ℝ 2 (fun x => b.dir (U x) d) x0 := (hax d).div hl h.length
  exact (hlaw.mul contDiffAt_const).mul hdir

theorem list_sum_contDiff {A : Type} {f : A → E → ℝ} {x : E} {l : List A} (h : ∀ p ∈ l, ContDiffAt ℝ 2 (f p) x) :
    ContDiffAt ℝ 2 (fun x => (l.map fun p => f p x).sum) x := by
  induction l with
  | nil => simpa using contDiffAt_const
  | cons p l ih =>
    simp only [List.map_cons, List.sum_cons]
    exact (h p (by simp)).add (ih fun q hq => h q (by simp [hq]))

theorem forceFn_contDiff {c : Ctx ℝ} {sv : Option (List (List ℝ))} {bars : List (Bar ℝ)} {U : E → List ℝ} {x0 : E}
    (hD : ∀ p, ContDiffAt ℝ 2 (fun x => (U x).getD p 0) x0) (hm : ∀ b ∈ bars, b.mat ≠ [])
    (hs : ∀ (k : Nat) (b : Bar ℝ), bars[k]? = some b → b.Smooth (U x0) (stateRow c sv k)) (i : Nat) (d : Fin 3) :
    ContDiffAt ℝ 2 (fun x => forceFn c sv bars (U x) i d) x0 := by
  unfold forceFn
  refine list_sum_contDiff fun p hp => ?_
  obtain ⟨b, k⟩ := p
  have hb := List.mem_zipIdx_iff_getElem?.1 hp
  exact contDiffAt_const.mul (bar_contDiff hD (hs k b hb) (hm b (List.mem_of_getElem? hb)) d)

end

section
variable {c : Ctx ℝ} {bars : List (Bar ℝ)} {a : Analysis ℝ} {ef : StepForces ℝ}

theorem disp_contDiff (he : Evaluable c bars a ef) {n : Nat} (hn : c.ndof1 = n) {U : (Fin (n + 1) → ℝ) → List ℝ}
    (hU : ∀ x, scatter a.U a.DOF1 (List.ofFn fun i : Fin n => x i.castSucc) = .ok (U x)) (x0 : Fin (n + 1) → ℝ) (p : Nat) :
    ContDiffAt ℝ 2 (fun x => (U x).getD p 0) x0 := by
  have hlt : ∀ i ∈ a.DOF1, i < a.U.length := fun i hi => by rw [he.fits.U]; exact he.fits.dof i hi
  have hd : a.DOF1.length = n := by rw [he.dofs, hn]
  subst hd
  have he' : (fun x => (U x).getD p 0) = fun x : Fin (a.DOF1.length + 1) → ℝ => (if p ∈ a.DOF1 then 0 else a.U.getD p 0) +
      ∑ m : Fin a.DOF1.length, if a.DOF1[m] = p then x m.castSucc else 0 := by
    funext x
    rw [scatter_getD (hU x) (by simp) he.fits.dofNodup hlt]
    congr 1
    refine Finset.sum_congr rfl fun m _ => ?_
    rw [List.getD_eq_getElem?_getD, List.getElem?_ofFn]
    simp
  rw [he']
  refine contDiffAt_const.add (ContDiffAt.sum fun m _ => ?_)
  split
  · exact contDiffAt_apply ℝ ℝ m.castSucc x0
  · exact contDiffAt_const

theorem sys_contDiff2 (he : Evaluable c bars a ef) {n : Nat} (hn : c.ndof1 = n) {V0 : List ℝ} (hV0 : V0.length = n + 1)
    {j : Int} {k : Fin (n + 1)} (hj : j.natAbs = k + 1) (Vmax : ℝ) {x : Fin (n + 1) → ℝ} (hs : SmoothAt c bars a x) :
    ContDiffAt ℝ 2 (sysRes c a n V0 j Vmax) x := by
  obtain ⟨U, hU⟩ := exists_disp he hn
  have hfun : sysRes c a n V0 j Vmax = fun x => closedRes c bars ef a k Vmax (U x) x := by
    funext x
    exact sysRes_closed he hn hV0 hj Vmax x (hU x)
  rw [hfun, contDiffAt_pi]
  intro m
  refine Fin.lastCases ?_ (fun m => ?_) m
  · simp only [closedRes, Fin.snoc_last]
    exact (contDiffAt_apply ℝ ℝ k x).sub contDiffAt_const
  · simp only [closedRes, Fin.snoc_castSucc]
    exact (forceFn_contDiff (fun p => disp_contDiff he hn hU x p) (fun b hb => (he.complete b hb).mat)
      (hs (U x) (hU x)) _ _).sub (contDiffAt_const.add ((contDiffAt_apply ℝ ℝ (Fin.last n) x).mul contDiffAt_const))

theorem sys_contDiff (he : Evaluable c bars a ef) {n : Nat} (hn : c.ndof1 = n) {V0 : List ℝ} (hV0 : V0.length = n + 1)
    {j : Int} {k : Fin (n + 1)} (hj : j.natAbs = k + 1) (Vmax : ℝ) {x : Fin (n + 1) → ℝ} (hs : SmoothAt c bars a x) :
    ContDiffAt ℝ 1 (sysRes c a n V0 j Vmax) x :=
  (sys_contDiff2 he hn hV0 hj Vmax hs).of_le (by norm_num)

theorem smoothAt_eventually (he : Evaluable c bars a ef) {n : Nat} (hn : c.ndof1 = n) {x : Fin (n + 1) → ℝ}
    (hs : SmoothAt c bars a x) : ∀ᶠ y in nhds x, SmoothAt c bars a y := by
  obtain ⟨U, hU⟩ := exists_disp he hn
  have key : ∀ᶠ y in nhds x, ∀ p ∈ bars.zipIdx, p.1.Smooth (U y) (stateRow c a.statev p.2) := by
    have hall : ∀ p ∈ bars.zipIdx, ∀ᶠ y in nhds x, p.1.Smooth (U y) (stateRow c a.statev p.2) := by
      intro p hp
      exact smooth_eventually (fun q => disp_contDiff he hn hU x q) (hs (U x) (hU x) p.2 p.1 (List.mem_zipIdx_iff_getElem?.1 hp))
    generalize bars.zipIdx = l at hall ⊢
    induction l with
    | nil => simp
    | cons p l ih =>
      filter_upwards [hall p (by simp), ih fun q hq => hall q (by simp [hq])] with y h1 h2
      intro q hq
      rcases List.mem_cons.1 hq with rfl | hq
      · exact h1
      · exact h2 q hq
  filter_upwards [key] with y hy
  intro U' hU' k b hb
  rw [hU y] at hU'
  cases hU'
  exact hy (b, k) (List.mem_zipIdx_iff_getElem?.2 hb)

theorem sys_hasFDerivAt (he : Evaluable c bars a ef) (hl : a.lpf.isSome = true)
    (hf0 : a.f0red = a.DOF1.map fun p => ef.forces.getD p 0) {n : Nat} (hn : c.ndof1 = n) {V0 : List ℝ}
    (hV0 : V0.length = n + 1) {j : Int} {k : Fin (n + 1)} (hj : j.natAbs = k + 1) (Vmax : ℝ) {x : Fin (n + 1) → ℝ}
    (hs : SmoothAt c bars a x) : HasFDerivAt (sysRes c a n V0 j Vmax) (mulCLM (sysMat c a n j x)) x := by
  obtain ⟨a', K0, K, h1, -, -, -, -, -, h6⟩ := extDf_model he hl hf0 hn hj x
  have := C27_extended_jacobian he hf0 hn hV0 x j Vmax false h1 (hs a'.U h6)
  unfold sysRes sysMat mulCLM
  rw [h1]
  exact this

/-- Around a vector with smooth bars and regular extended matrix the system is tame. -/
theorem sys_tame (he : Evaluable c bars a ef) (hl : a.lpf.isSome = true)
    (hf0 : a.f0red = a.DOF1.map fun p => ef.forces.getD p 0) {n : Nat} (hn : c.ndof1 = n) {V0 : List ℝ}
    (hV0 : V0.length = n + 1) {j : Int} {k : Fin (n + 1)} (hj : j.natAbs = k + 1) (Vmax : ℝ) {x : Fin (n + 1) → ℝ}
    (hs : SmoothAt c bars a x) (hreg : IsUnit (sysMat c a n j x).det) :
    ∃ ρ ε M, 0 < ρ ∧ Tame (sysRes c a n V0 j Vmax) (sysMat c a n j) (mulCLM (sysMat c a n j x)) x ρ ε M := by
  refine exists_tame (sys_contDiff he hn hV0 hj Vmax hs) ?_ hreg
  filter_upwards [smoothAt_eventually he hn hs] with y hy
  exact sys_hasFDerivAt he hl hf0 hn hV0 hj Vmax hy

end

end TrussPy
