import Verif.Lemmas.RoundSystem
import Verif.Lemmas.Inexact
/-!
# Path following in rounded numbers
-/

set_option linter.unusedSectionVars false

namespace TrussPy

open Filter Topology

/-! ## Constants along a path -/

section
variable {c : Ctx ℝ} {bars : List (Bar ℝ)} {a : Analysis ℝ} {ef : StepForces ℝ}

theorem dot3_self_nonneg (v : V3 ℝ) : 0 ≤ dot3 v v := by
  unfold dot3
  nlinarith [mul_self_nonneg (v 0), mul_self_nonneg (v 1), mul_self_nonneg (v 2)]

theorem dot3_pos_of_len {v : V3 ℝ} (h : len v ≠ 0) : 0 < dot3 v v := by
  refine lt_of_le_of_ne (dot3_self_nonneg v) fun h0 => h ?_
  have e : v 0 ^ 2 + v 1 ^ 2 + v 2 ^ 2 = dot3 v v := by unfold dot3; ring
  unfold len
  rw [e, ← h0]
  exact Real.sqrt_zero

theorem Clear.mono {C C' : ℝ} {W : List ℝ} (h : Clear C bars W) (hC : C ≤ C') : Clear C' bars W :=
  ⟨fun v hv => (h.disp v hv).trans hC, fun b hb => (h.axis b hb).trans (mul_le_mul_of_nonneg_right hC (dot3_self_nonneg _))⟩

theorem InReach.mono {C C' : ℝ} {n : Nat} {x : Fin (n + 1) → ℝ} (h : InReach C bars a x) (hC : C ≤ C') : InReach C' bars a x :=
  ⟨fun i => (h.size i).trans hC, fun U hU => (h.clear U hU).mono hC⟩

theorem Moderate.mono {C C' : ℝ} (h : Moderate C bars ef) (hC : C ≤ C') : Moderate C' bars ef :=
  ⟨fun b hb d => (h.begin_ b hb d).trans hC, fun b hb d => (h.end_ b hb d).trans hC, fun b hb => (h.modulus b hb).trans hC, fun b hb => (h.area b hb).trans hC,
    fun b hb => (h.ref b hb).trans (mul_le_mul_of_nonneg_right hC (dot3_self_nonneg _)), fun v hv => (h.forces v hv).trans hC,
    fun v hv => (h.forcesConst v hv).trans hC⟩

theorem exists_bound_list {α : Type} (l : List α) (f : α → ℝ) : ∃ C, ∀ v ∈ l, f v ≤ C := by
  induction l with
  | nil => exact ⟨0, fun v hv => absurd hv (by simp)⟩
  | cons w l ih =>
    obtain ⟨C, hC⟩ := ih
    refine ⟨max C (f w), fun v hv => ?_⟩
    rcases List.mem_cons.1 hv with rfl | hv
    · exact le_max_right _ _
    · exact (hC v hv).trans (le_max_left _ _)

theorem exists_moderate (h : ∀ b ∈ bars, len b.ref ≠ 0) : ∃ C, 1 ≤ C ∧ Moderate C bars ef := by
  obtain ⟨C1, h1⟩ := exists_bound_list bars fun b => |b.XA 0| + |b.XA 1| + |b.XA 2|
  obtain ⟨C2, h2⟩ := exists_bound_list bars fun b => |b.XE 0| + |b.XE 1| + |b.XE 2|
  obtain ⟨C3, h3⟩ := exists_bound_list bars fun b => |b.mat.getD 0 0|
  obtain ⟨C4, h4⟩ := exists_bound_list bars fun b => |b.geo.getD 0 0|
  obtain ⟨C5, h5⟩ := exists_bound_list bars fun b => 1 / dot3 b.ref b.ref
  obtain ⟨C6, h6⟩ := exists_bound_list ef.forces fun v => |v|
  obtain ⟨C7, h7⟩ := exists_bound_list ef.forcesConst fun v => |v|
  have ha := fun x : ℝ => le_abs_self x
  have hn := fun x : ℝ => abs_nonneg x
  refine ⟨1 + |C1| + |C2| + |C3| + |C4| + |C5| + |C6| + |C7|, by linarith [hn C1, hn C2, hn C3, hn C4, hn C5, hn C6, hn C7], ⟨?_, ?_, ?_, ?_, ?_, ?_, ?_⟩⟩
  · intro b hb d
    have := h1 b hb
    have e : |b.XA d| ≤ |b.XA 0| + |b.XA 1| + |b.XA 2| := by
      fin_cases d <;> simp <;> linarith [hn (b.XA 0), hn (b.XA 1), hn (b.XA 2)]
    linarith [hn C1, hn C2, hn C3, hn C4, hn C5, hn C6, hn C7, ha C1]
  · intro b hb d
    have := h2 b hb
    have e : |b.XE d| ≤ |b.XE 0| + |b.XE 1| + |b.XE 2| := by
      fin_cases d <;> simp <;> linarith [hn (b.XE 0), hn (b.XE 1), hn (b.XE 2)]
    linarith [hn C1, hn C2, hn C3, hn C4, hn C5, hn C6, hn C7, ha C2]
  · intro b hb
    linarith [h3 b hb, hn C1, hn C2, hn C3, hn C4, hn C5, hn C6, hn C7, ha C3]
  · intro b hb
    linarith [h4 b hb, hn C1, hn C2, hn C3, hn C4, hn C5, hn C6, hn C7, ha C4]
  · intro b hb
    have hp := dot3_pos_of_len (h b hb)
    have h5' := h5 b hb
    rw [← div_le_iff₀ hp]
    linarith [hn C1, hn C2, hn C3, hn C4, hn C5, hn C6, hn C7, ha C5]
  · intro v hv
    linarith [h6 v hv, hn C1, hn C2, hn C3, hn C4, hn C5, hn C6, hn C7, ha C6]
  · intro v hv
    linarith [h7 v hv, hn C1, hn C2, hn C3, hn C4, hn C5, hn C6, hn C7, ha C7]

theorem reach_eventually (he : Evaluable c bars a ef) {n : Nat} (hn : c.ndof1 = n) {x : Fin (n + 1) → ℝ} (hs : CalmAt c bars a x) :
    ∃ C, 1 ≤ C ∧ ∀ᶠ y in nhds x, InReach C bars a y := by
  obtain ⟨U, hU⟩ := exists_disp he hn
  obtain ⟨Cu, hCu⟩ := exists_bound_list a.U fun v => |v|
  have haxis : ∃ Ca, ∀ᶠ y in nhds x, ∀ b ∈ bars, 1 ≤ Ca * dot3 (b.axis (U y)) (b.axis (U y)) := by
    have hall : ∀ b ∈ bars, ∃ Cb, ∀ᶠ y in nhds x, 1 ≤ Cb * dot3 (b.axis (U y)) (b.axis (U y)) := by
      intro b hb
      obtain ⟨q, hq⟩ := List.getElem?_of_mem hb
      have hp := dot3_pos_of_len (hs (U x) (hU x) q b hq).length
      have hc : ∀ d, ContinuousAt (fun y => b.axis (U y) d) x := fun d =>
        (axis_contDiff (b := b) (fun p => disp_contDiff he hn hU x p) d).continuousAt
      have hcont : ContinuousAt (fun y => dot3 (b.axis (U y)) (b.axis (U y))) x := by
        unfold dot3
        exact (((hc 0).mul (hc 0)).add ((hc 1).mul (hc 1))).add ((hc 2).mul (hc 2))
      refine ⟨2 / dot3 (b.axis (U x)) (b.axis (U x)), ?_⟩
      have := hcont.eventually_const_lt (show dot3 (b.axis (U x)) (b.axis (U x)) / 2 < _ by linarith)
      filter_upwards [this] with y hy
      rw [div_mul_eq_mul_div, le_div_iff₀ hp]
      linarith
    generalize bars = l at hall
    induction l with
    | nil => exact ⟨0, by simp⟩
    | cons b l ih =>
      obtain ⟨C1, h1⟩ := ih fun b' hb' => hall b' (by simp [hb'])
      obtain ⟨C2, h2⟩ := hall b (by simp)
      refine ⟨max C1 C2, ?_⟩
      filter_upwards [h1, h2] with y h1 h2
      intro b' hb'
      rcases List.mem_cons.1 hb' with rfl | hb'
      · exact h2.trans (mul_le_mul_of_nonneg_right (le_max_right _ _) (dot3_self_nonneg _))
      · exact (h1 b' hb').trans (mul_le_mul_of_nonneg_right (le_max_left _ _) (dot3_self_nonneg _))
  obtain ⟨Ca, hCa⟩ := haxis
  have hball : ∀ᶠ y in nhds x, ‖y - x‖ < 1 := by
    have : ContinuousAt (fun y => ‖y - x‖) x := (continuousAt_id.sub continuousAt_const).norm
    exact this.eventually_lt continuousAt_const (by simp)
  have n1 := norm_nonneg x
  have n2 := abs_nonneg Cu
  have n3 := abs_nonneg Ca
  refine ⟨1 + ‖x‖ + |Cu| + |Ca|, by linarith, ?_⟩
  filter_upwards [hCa, hball] with y h1 h2
  have hy : ∀ i, |y i| ≤ 1 + ‖x‖ := by
    intro i
    have e1 := norm_le_pi_norm y i
    rw [Real.norm_eq_abs] at e1
    have e2 : ‖y‖ ≤ ‖y - x‖ + ‖x‖ := by
      have := norm_add_le (y - x) x
      rwa [sub_add_cancel] at this
    linarith
  refine ⟨fun i => by linarith [hy i], fun W hW => ?_⟩
  have hWU : W = U y := by
    rw [hU y] at hW
    exact (Except.ok.inj hW).symm
  subst hWU
  have hlt : ∀ i ∈ a.DOF1, i < a.U.length := fun i hi => by rw [he.fits.U]; exact he.fits.dof i hi
  have hpl := placed_of_scatter (by rw [List.length_ofFn, he.dofs, hn]) he.fits.dofNodup hlt (hU y)
  refine ⟨fun v hv => ?_, fun b hb => (h1 b hb).trans (mul_le_mul_of_nonneg_right (by linarith [le_abs_self Ca]) (dot3_self_nonneg _))⟩
  obtain ⟨i, hi⟩ := List.getElem?_of_mem hv
  by_cases hd : i ∈ a.DOF1
  · obtain ⟨m, hm⟩ := List.getElem?_of_mem hd
    have := hpl.free m i hm
    rw [hi, List.getElem?_ofFn] at this
    split at this
    · have := Option.some.inj this
      rw [this]
      linarith [hy (Fin.castSucc ⟨m, by assumption⟩)]
    · cases this
  · rw [hpl.locked i hd] at hi
    linarith [hCu v (List.mem_of_getElem? hi), le_abs_self Cu]

/-- Constants for a path: around all its points the system is tame and all numbers are moderate. -/
theorem path_reach (he : Evaluable c bars a ef) (hl : a.lpf.isSome = true)
    (hf0 : a.f0red = a.DOF1.map fun p => ef.forces.getD p 0) {n : Nat} (hn : c.ndof1 = n) {j : Int} {k : Fin (n + 1)}
    (hj : j.natAbs = k + 1) {S : ℝ} {γ : ℝ → Fin (n + 1) → ℝ} (hP : EquilPath c bars a j k S γ) {V0 : List ℝ}
    (hV0 : V0.length = n + 1) :
    ∃ ρ > 0, ∃ M0 > 0, ∃ B, 0 ≤ B ∧ ∃ C, 1 ≤ C ∧ ∀ s ∈ Set.Icc 0 S, (∃ A ε M, M ≤ M0 ∧ (∀ v, ‖A v‖ ≤ B * ‖v‖) ∧ ε ≤ B ∧
      Tame (sysRes c a n V0 j 0) (sysMat c a n j) A (γ s) ρ ε M) ∧ ∀ y, ‖y - γ s‖ ≤ ρ → InReach C bars a y := by
  refine IsCompact.induction_on (s := Set.Icc 0 S) (p := fun T => ∃ ρ > 0, ∃ M0 > 0, ∃ B, 0 ≤ B ∧ ∃ C, 1 ≤ C ∧ ∀ s ∈ T, (∃ A ε M, M ≤ M0 ∧ (∀ v, ‖A v‖ ≤ B * ‖v‖) ∧ ε ≤ B ∧
      Tame (sysRes c a n V0 j 0) (sysMat c a n j) A (γ s) ρ ε M) ∧ ∀ y, ‖y - γ s‖ ≤ ρ → InReach C bars a y) isCompact_Icc ?_ ?_ ?_ ?_
  · exact ⟨1, one_pos, 1, one_pos, 0, le_rfl, 1, le_rfl, fun s hs => absurd hs (Set.notMem_empty s)⟩
  · rintro T T' hT ⟨ρ, hρ, M0, hM0, B, hB, C, hC, h⟩
    exact ⟨ρ, hρ, M0, hM0, B, hB, C, hC, fun s hs => h s (hT hs)⟩
  · rintro T T' ⟨ρ, hρ, M0, hM0, B, hB, C, hC, h⟩ ⟨ρ', hρ', M0', hM0', B', hB', C', hC', h'⟩
    refine ⟨min ρ ρ', lt_min hρ hρ', max M0 M0', lt_max_of_lt_left hM0, max B B', le_max_of_le_left hB, max C C', le_max_of_le_left hC, ?_⟩
    rintro s (hs | hs)
    · obtain ⟨⟨A, ε, M, h1, h2, h3, h4⟩, h5⟩ := h s hs
      exact ⟨⟨A, ε, M, h1.trans (le_max_left _ _), fun v => (h2 v).trans (mul_le_mul_of_nonneg_right (le_max_left _ _) (norm_nonneg _)),
        h3.trans (le_max_left _ _), h4.recenter (by rw [sub_self, norm_zero, zero_add]; exact min_le_left _ _)⟩,
        fun y hy => (h5 y (hy.trans (min_le_left _ _))).mono (le_max_left _ _)⟩
    · obtain ⟨⟨A, ε, M, h1, h2, h3, h4⟩, h5⟩ := h' s hs
      exact ⟨⟨A, ε, M, h1.trans (le_max_right _ _), fun v => (h2 v).trans (mul_le_mul_of_nonneg_right (le_max_right _ _) (norm_nonneg _)),
        h3.trans (le_max_right _ _), h4.recenter (by rw [sub_self, norm_zero, zero_add]; exact min_le_right _ _)⟩,
        fun y hy => (h5 y (hy.trans (min_le_right _ _))).mono (le_max_right _ _)⟩
  · intro s hs
    obtain ⟨a2, K, hK, hreg⟩ := hP.regular s hs
    have hmat : sysMat c a n j (γ s) = matOf (n + 1) K := by unfold sysMat; rw [hK]
    obtain ⟨ρ, ε, M, hρ, ht⟩ := sys_tame he hl hf0 hn hV0 hj 0 (hP.calm s hs).smooth (by rw [hmat]; exact hreg)
    obtain ⟨C, hC, hev⟩ := reach_eventually he hn (hP.calm s hs)
    obtain ⟨r, hr, hball⟩ := Metric.eventually_nhds_iff.1 hev
    have hq : 0 < min ρ r / 4 := by positivity
    set A := mulCLM (sysMat c a n j (γ s)) with hA
    have hε := ht.eps
    refine ⟨Set.Icc 0 S ∩ {s' | ‖γ s' - γ s‖ < min ρ r / 4}, ?_, min ρ r / 4, hq, M, ht.pos, ‖A‖ + ε, by positivity, C, hC, ?_⟩
    · refine inter_mem self_mem_nhdsWithin ?_
      have h1 : Tendsto (fun s' => ‖γ s' - γ s‖) (𝓝[Set.Icc 0 S] s) (𝓝 ‖γ s - γ s‖) :=
        ((hP.cont s hs).tendsto.sub tendsto_const_nhds).norm
      rw [sub_self, norm_zero] at h1
      exact h1.eventually_lt tendsto_const_nhds hq
    · rintro s' ⟨-, hs'⟩
      have hs' : ‖γ s' - γ s‖ < min ρ r / 4 := hs'
      have h1 := min_le_left ρ r
      have h2 := min_le_right ρ r
      refine ⟨⟨A, ε, M, le_rfl, fun v => (A.le_opNorm v).trans (mul_le_mul_of_nonneg_right (by linarith) (norm_nonneg _)),
        by linarith [norm_nonneg A], ht.recenter (by linarith)⟩, fun y hy => hball ?_⟩
      rw [dist_eq_norm]
      calc ‖y - γ s‖ = ‖(y - γ s') + (γ s' - γ s)‖ := by congr 1; abel
        _ ≤ _ := norm_add_le _ _
        _ < r := by linarith

end

/-! ## Attempts -/

section
variable {F : Type} [Zero F] [One F] [Add F] [Sub F] [Mul F] [Div F] [Neg F] [Flt F]

/-- An attempt with fixed control component and without step control, whose Newton run succeeded with a valid solution. -/
theorem attempt_fixed {c : Ctx F} {bars : List (Bar F)} {b : Analysis F} {ef : StepForces F} (he : Evaluable c bars b ef)
    {n : Nat} (hn : c.ndof1 = n) (hn1 : 1 ≤ n) {env : Env F} (hsort : ∀ l : List F, l ≠ [] → ∃ i, (env.argsortF l).getLast? = some i ∧ i < l.length)
    {cfg : PFCfg F} (hjf : cfg.jFixed = true) (hsc : cfg.stepcontrol = false) {rc : RCtx F} {st : RState F}
    {x y d : Fin (n + 1) → F} (hx : rc.x0 = List.ofFn x) (hd : st.dxmax = List.ofFn d)
    {k : Fin (n + 1)} (hj : st.j.natAbs = k + 1) {a1 : Analysis F} {nr : NewtonOut F}
    (hnew : newton (extF (modelProblem c) rc.x0 st.j (x k + d k * Flt.ofInt st.j.sign) false) (extDf (modelProblem c) st.j)
      env.spsolve st.a (List.ofFn x) (cfg.nfev - st.nPre) cfg.ftol cfg.xtol = .ok (a1, nr)) (ha1 : Trial b a1)
    (hsucc : nr.success = true) (hy : nr.x = List.ofFn y) (hvalid : Flt.le (Flt.abs ((y k - x k) / d k)) cfg.dxtol = true) :
    ∃ st', attempt env (modelProblem c) cfg rc st = .ok (st', some .accepted) ∧ st'.x = List.ofFn y := by
  obtain ⟨i1, v1, hmax⟩ : ∃ i v, maxComp env (vdiv (vsub nr.x rc.x0) st.dxmax) = .ok (i, v) := by
    rw [hy, hx, hd, vsub_ofFn', vdiv_ofFn']
    obtain ⟨i, h1, h2⟩ := hsort ((List.ofFn fun i => (y i - x i) / d i).map Flt.abs) (by simp [List.ofFn_succ])
    rw [List.length_map] at h2
    unfold maxComp
    rw [h1]
    simp only
    rw [List.getElem?_eq_getElem h2]
    exact ⟨_, _, rfl⟩
  have hj1 : nextJ cfg st.j i1 v1 = .ok st.j := by
    unfold nextJ
    rw [if_pos hjf]
  have hv : solutionValid cfg (vsub nr.x rc.x0) st.dxmax st.j = .ok true := by
    unfold solutionValid
    rw [if_pos hjf, hy, hx, hd, vsub_ofFn', pyGet_ofFn _ hj, pyGet_ofFn _ hj]
    simp only [py_bind_ok]
    exact congrArg Except.ok hvalid
  have hdc : nextWidth cfg rc st st.j nr = .ok ⟨st.dxmax, st.z, st.b, false⟩ := by
    unfold nextWidth
    rw [if_neg (by rw [hsc]; simp)]
  have hb : Trial b { a1 with dVmax := some st.dxmax } := ha1.trans (Trial.book a1 a1.j a1.Kmod _)
  have E := evaluable_withJ (evaluable_trial he hb) st.j
  obtain ⟨⟨⟨a2, g⟩, h2⟩, -⟩ := C56_evaluation_total E.tables E.fits E.complete E.statev E.ext E.forces E.forcesConst E.dofs
    (V := (List.ofFn fun i : Fin n => y i.castSucc) ++ [y (Fin.last n)]) (V0 := List.ofFn x) (by simp [hn]) (by simp [hn]) true
  have h3 := extF_form hj y (x k + d k * Flt.ofInt st.j.sign) h2
  have ht : target rc.x0 st.dxmax st.j = .ok (x k + d k * Flt.ofInt st.j.sign) := by rw [hx, hd]; exact target_ofFn' x d hj
  have hlen : ¬ (vdiv (vsub nr.x rc.x0) st.dxmax).length < 2 := by
    rw [hy, hx, hd, vsub_ofFn', vdiv_ofFn', List.length_ofFn]
    omega
  have hstart : (if st.z = 0 ∧ rc.jPre ≠ 0 ∧ cfg.jFixed = false then vadd rc.x0 (rc.DxPre.map fun v => v / Flt.abs rc.vPre)
      else rc.x0) = List.ofFn x := by
    rw [if_neg (by rw [hjf]; simp), hx]
  rw [← hx, ← hy] at h3
  refine ⟨⟨List.ofFn y, st.z, st.nPre, st.dxmax, st.j, st.b + 1, a2⟩, ?_, rfl⟩
  unfold attempt
  simp only [ht, py_bind_ok, hstart, hnew, hmax, if_neg hlen, hj1, hv, hdc, hsucc, Bool.and_self, if_true, h3]
  rw [← hy]
  rfl

theorem increment_fixed {env : Env F} {P : Problem F} {cfg : PFCfg F} (hjf : cfg.jFixed = true) {dxmax0 : List F} {fuel : Nat} {s : PState F} {st' : RState F}
    (hat : attempt env P cfg ⟨s.x, dxmax0, s.jPre, [], 0⟩ ⟨s.x, 0, 0, s.dxmax, s.j, s.b, s.a⟩ =
      .ok (st', some .accepted)) {n : Nat} {y : Fin (n + 1) → F} (hy : st'.x = List.ofFn y) (hfuel : 1 ≤ fuel) :
    ∃ s', increment env P cfg dxmax0 fuel s = .ok (s', .accepted) ∧ s'.x = List.ofFn y := by
  have hp : predictor env P cfg s = .ok ⟨false, 0, s.j, s.jPre, [], 0, s.a⟩ := by
    unfold predictor
    rw [if_neg (by rw [hjf]; simp)]
    rfl
  obtain ⟨k, rfl⟩ : ∃ k, fuel = k + 1 := ⟨fuel - 1, by omega⟩
  obtain ⟨l, hl⟩ : ∃ l, st'.x.getLast? = some l := by
    rw [hy, ofFn_split', List.getLast?_concat]
    exact ⟨_, rfl⟩
  refine ⟨⟨st'.x, st'.dxmax, st'.j, s.jPre, st'.b, { st'.a with Vred := st'.x, Ured := st'.x.dropLast, lpf := some l }⟩, ?_, hy⟩
  have hrec : recycle env P cfg ⟨s.x, dxmax0, s.jPre, [], 0⟩ (k + 1)
      ⟨s.x, 0, 0, s.dxmax, s.j, s.b, s.a⟩ = .ok (st', .accepted) := by
    rw [recycle]
    simp only [hat, py_bind_ok]
    rfl
  have hsol : solveInc env P cfg dxmax0 (k + 1) s = .ok (s.jPre, st', .accepted) := by
    unfold solveInc
    simp only [hp, py_bind_ok, Bool.false_eq_true, if_false, hrec]
    rfl
  unfold increment
  simp only [hsol, py_bind_ok, hl]
  rfl

end

/-! ## Increments along the path -/

section
variable {F : Type} [Zero F] [One F] [Add F] [Sub F] [Mul F] [Div F] [Neg F] [Flt F]
variable {val : F → ℝ} {δ C : ℝ} {c : Ctx F} {bars : List (Bar F)} {a b : Analysis F} {ef : StepForces F} {c' : Ctx ℝ} {a' : Analysis ℝ}

/-- Everything fixed along the path: the structure, its image in real numbers, the path and the constants around it. -/
structure Setting (val : F → ℝ) (δ C : ℝ) (c : Ctx F) (bars : List (Bar F)) (a : Analysis F) (ef : StepForces F) (c' : Ctx ℝ) (a' : Analysis ℝ)
    (n : Nat) (j : Int) (k : Fin (n + 1)) (S : ℝ) (γ : ℝ → Fin (n + 1) → ℝ) (ρ M0 B : ℝ) : Prop where
  acc : Acc val δ C (15 + 4 * bars.length)
  eval : Evaluable c' (bars.map (Bar.image val)) a' (ef.image val)
  twin : Twin val c a c' a'
  elastic : ∀ b ∈ bars, b.law = .el
  moderate : Moderate C (bars.map (Bar.image val)) (ef.image val)
  ndof : c.ndof1 = n
  free : 1 ≤ n
  control : j.natAbs = k + 1
  lpf : a'.lpf.isSome = true
  f0 : a'.f0red = a.f0red.map val
  f0C : ∀ v ∈ a'.f0red, |v| ≤ C
  path : EquilPath c' (bars.map (Bar.image val)) a' j k S γ
  radius : 0 < ρ
  bound : 0 < M0
  tame : ∀ s ∈ Set.Icc 0 S, (∃ A ε M, M ≤ M0 ∧ (∀ v, ‖A v‖ ≤ B * ‖v‖) ∧ ε ≤ B ∧
      Tame (sysRes c' a' n (List.replicate (n + 1) 0) j 0) (sysMat c' a' n j) A (γ s) ρ ε M) ∧
    ∀ y, ‖y - γ s‖ ≤ ρ → InReach C (bars.map (Bar.image val)) a' y

/-- The constant in the requirement on the number of iterations. -/
noncomputable def iterConst (n : Nat) (M B : ℝ) : ℝ :=
  2 * n * (1 + 9 / 4 * M) + ((8 * n * (5 + 4 * B) + 2 * n + 1) + (2 * n * (9 * M * (5 + 4 * B) + 5 * M) + 1))

variable {n : Nat} {j : Int} {k : Fin (n + 1)} {S : ℝ} {γ : ℝ → Fin (n + 1) → ℝ} {ρ M0 B : ℝ}

/-- One increment along the path in rounded numbers: it is accepted and ends near the path again. -/
theorem round_increment (H : Setting val δ C c bars a ef c' a' n j k S γ ρ M0 B) {η θ τ κ : ℝ} (hη : lev C (15 + 4 * bars.length) * δ ≤ η)
    (hδη : 9 * δ ≤ η) (hF : Fine (n + 1) M0 B (C + ρ) (ρ / (10 * M0)) ρ κ δ η θ τ)
    {env : Env F} (hsp : SolvesNear val env.spsolve (n + 1) κ θ τ)
    (hsort : ∀ l : List F, l ≠ [] → ∃ i, (env.argsortF l).getLast? = some i ∧ i < l.length) {cfg : PFCfg F} (hjf : cfg.jFixed = true)
    (hsc : cfg.stepcontrol = false) {f h : ℝ} (hfd : val cfg.ftol = f) (hηf : η ≤ f) (hfh : 6 * f ≤ h) (hh1 : h ≤ 1) (hxr : |val cfg.xtol| ≤ 1 / δ)
    (hdr : |val cfg.dxtol| ≤ 1 / δ) (hdx : h + 8 * f ≤ val cfg.dxtol * h) {d : Fin (n + 1) → F} (hd : val (d k) = h)
    (hsmall : 20 * M0 * h ≤ ρ) {N : Nat}
    (hN1 : iterConst (n + 1) M0 B * (h + 5 * f) * (3 / 4) ^ N + iterConst (n + 1) M0 B * η < f)
    (hN2 : iterConst (n + 1) M0 B * (h + 5 * f) * (3 / 4) ^ N + iterConst (n + 1) M0 B * η < val cfg.xtol) (hN : (N : Int) + 1 ≤ cfg.nfev)
    {s : ℝ} (hs : s ∈ Set.Icc 0 S) (hs' : s + h + 6 * f ≤ S)
    (hω : ∀ t ∈ Set.Icc 0 S, |t - s| ≤ 2 * h → ‖γ s - γ t‖ ≤ ρ / 2) {x : Fin (n + 1) → F}
    (hx : NearTrack c' a' j k γ (2 * M0) (5 * f) s fun i => val (x i))
    (hb : Passed c bars ef a b) {dxmax0 : List F} {fuel : Nat} (hfuel : 1 ≤ fuel) (jPre q : Int) :
    ∃ s', increment env (modelProblem c) cfg dxmax0 fuel ⟨List.ofFn x, List.ofFn d, j, jPre, q, b⟩ = .ok (s', .accepted) ∧
      s'.dxmax = List.ofFn d ∧ s'.j = j ∧ Passed c bars ef a s'.a ∧
      ∃ y t, s'.x = List.ofFn y ∧ t ∈ Set.Icc 0 S ∧ |t - (s + h)| ≤ 6 * f ∧ NearTrack c' a' j k γ (2 * M0) (5 * f) t fun i => val (y i) := by
  have hj := H.control
  have hn := H.ndof
  have hn' : c'.ndof1 = n := H.twin.ndof1.trans hn
  have hR := H.acc.rounds
  have hδ := hR.pos
  have hM0 := H.bound
  have hρ := H.radius
  have hf : 0 < f := by linarith
  have hh : 0 < h := by linarith
  have hη1 := hF.eta1
  have hC1 := H.acc.one
  set V0 : List ℝ := List.replicate (n + 1) 0 with hV0d
  have hV0 : V0.length = n + 1 := by simp [hV0d]
  have hxl : (List.ofFn x).length = n + 1 := by simp
  set X : Fin (n + 1) → ℝ := fun i => val (x i) with hX
  set σ : ℝ := (j.sign : ℝ) with hσ
  have hσ1 : |σ| = 1 := by
    rw [hσ, ← Int.cast_abs, Int.abs_sign_of_ne_zero (by omega)]
    simp
  have hσσ : σ * σ = 1 := by rw [← abs_mul_abs_self, hσ1, one_mul]
  have hδ1 : 1 ≤ 1 / δ := by rw [le_div_iff₀ hδ]; linarith
  have h9δ : 9 ≤ 1 / δ := by rw [le_div_iff₀ hδ]; linarith
  have hM0f : 0 ≤ M0 * f := by positivity
  have hM0h : M0 * (6 * f) ≤ M0 * h := mul_le_mul_of_nonneg_left hfh hM0.le
  -- the start is in reach
  have hXs : ‖X - γ s‖ ≤ ρ := by
    have := hx.close
    linarith
  have hXr := (H.tame s hs).2 X hXs
  have hofInt : val (Flt.ofInt j.sign) = σ := hR.ofInt _ (by show |σ| ≤ _; rw [hσ1]; exact hδ1)
  set Vmax : F := x k + d k * Flt.ofInt j.sign with hVmax
  have hVe : |val Vmax - (X k + h * σ)| ≤ η := by
    have c1 : Close val δ (lev C 0) (x k) (X k) := close_self hδ.le (hXr.size k)
    have c2 : Close val δ (lev C 0) (d k) h := by
      have := close_self (val := val) (x := d k) hδ.le (C := C) (by rw [hd, abs_of_pos hh]; linarith)
      rwa [hd] at this
    have c3 : Close val δ (lev C 0) (Flt.ofInt j.sign : F) σ := by
      have := close_self (val := val) (x := (Flt.ofInt j.sign : F)) hδ.le (C := C) (by rw [hofInt, hσ1]; exact hC1)
      rwa [hofInt] at this
    have := H.acc.add (m := 1) (by omega) (H.acc.up c1 (Nat.zero_le 1)) (H.acc.mul (by omega) c2 c3)
    exact (H.acc.near this (by omega)).trans hη
  -- the parameter aimed at
  set t : ℝ := s + h + (X k - γ s k) * σ + (val Vmax - (X k + h * σ)) * σ with htd
  have htd' : |t - (s + h)| ≤ 6 * f := by
    have e1 : t - (s + h) = (X k - γ s k) * σ + (val Vmax - (X k + h * σ)) * σ := by rw [htd]; ring
    rw [e1]
    refine (abs_add_le _ _).trans ?_
    rw [abs_mul, abs_mul, hσ1, mul_one, mul_one]
    have := hx.control
    linarith
  have hab := abs_le.1 htd'
  have ht0 : t ∈ Set.Icc 0 S := ⟨by have := hs.1; linarith, by linarith⟩
  have hts : |t - s| ≤ 2 * h := by
    rw [abs_le]
    constructor <;> linarith
  have hVγ : val Vmax = γ t k := by
    rw [H.path.control t ht0]
    have h2 : γ s k = γ 0 k + s * σ := H.path.control s hs
    have h3 : t * σ = s * σ + h * σ + ((X k - γ s k) + (val Vmax - (X k + h * σ))) * (σ * σ) := by rw [htd]; ring
    show _ = γ 0 k + t * σ
    rw [h3, hσσ]
    linarith
  obtain ⟨⟨A, ε, M, hMM, hAB, hεB, ht⟩, hreach⟩ := H.tame t ht0
  have hM := ht.pos
  have hγr : InReach C (bars.map (Bar.image val)) a' (γ t) := hreach (γ t) (by rw [sub_self, norm_zero]; exact hρ.le)
  have hVC : |val Vmax| ≤ C := by rw [hVγ]; exact hγr.size k
  have htame : Tame (sysRes c' a' n V0 j (val Vmax)) (sysMat c' a' n j) A (γ t) ρ ε M :=
    ht.shift fun p q => sysRes_shift H.eval hn' hV0 hj (val Vmax) 0 p q
  have hfirst : ∀ (y : Fin (n + 1) → ℝ) (m : Fin n), sysRes c' a' n V0 j (val Vmax) y m.castSucc =
      sysRes c' a' n V0 j 0 y m.castSucc := fun y m => sysRes_first H.eval hn' hV0 hV0 hj hj (val Vmax) 0 y m
  have hlast : ∀ y : Fin (n + 1) → ℝ, sysRes c' a' n V0 j (val Vmax) y (Fin.last n) = y k - val Vmax := fun y =>
    sysRes_last H.eval hn' hV0 hj (val Vmax) y
  have hzero : sysRes c' a' n V0 j (val Vmax) (γ t) = 0 := by
    funext m
    refine Fin.lastCases ?_ (fun m => ?_) m
    · rw [hlast, hVγ, sub_self]; rfl
    · rw [hfirst, path_zero H.eval hn' hj H.path ht0 hV0 0 m]; rfl
  have hφ : ‖sysRes c' a' n V0 j (val Vmax) X‖ ≤ h + 5 * f := by
    refine (pi_norm_le_iff_of_nonneg (by positivity)).2 fun m => ?_
    refine Fin.lastCases ?_ (fun m => ?_) m
    · rw [hlast, Real.norm_eq_abs]
      calc |X k - val Vmax| = |-(h * σ) + -(val Vmax - (X k + h * σ))| := by congr 1; ring
        _ ≤ |-(h * σ)| + |-(val Vmax - (X k + h * σ))| := abs_add_le _ _
        _ ≤ h + η := by rw [abs_neg, abs_neg, abs_mul, hσ1, abs_of_pos hh]; linarith
        _ ≤ _ := by linarith
    · rw [hfirst, Real.norm_eq_abs]
      have := hx.residual m
      linarith
  have hα : h + 5 * f ≤ ρ / (10 * M0) := by
    rw [le_div_iff₀ (by positivity)]
    have e1 : (h + 5 * f) * (10 * M0) = 10 * (M0 * h) + 50 * (M0 * f) := by ring
    have e2 : 20 * M0 * h = 20 * (M0 * h) := by ring
    rw [e1]
    linarith
  have hXt : ‖X - γ t‖ ≤ ρ := by
    have h1 : ‖X - γ t‖ ≤ 2 * M0 * (5 * f) + ρ / 2 := by
      calc ‖X - γ t‖ = ‖(X - γ s) + (γ s - γ t)‖ := by congr 1; abel
        _ ≤ _ := norm_add_le _ _
        _ ≤ _ := add_le_add hx.close (hω t ht0 hts)
    linarith
  have hQ : ‖γ t‖ + ρ ≤ C + ρ := by
    have : ‖γ t‖ ≤ C := (pi_norm_le_iff_of_nonneg (by linarith)).2 fun i => hγr.size i
    linarith
  have hMB : 0 ≤ B := hF.B0
  have hI1 : 2 * ((n + 1 : Nat) : ℝ) * (1 + 9 / 4 * M) ≤ iterConst (n + 1) M0 B := by
    unfold iterConst
    have e1 : ((n + 1 : Nat) : ℝ) * M ≤ ((n + 1 : Nat) : ℝ) * M0 := mul_le_mul_of_nonneg_left hMM (Nat.cast_nonneg _)
    have e2 : 0 ≤ (8 * ((n + 1 : Nat) : ℝ) * (5 + 4 * B) + 2 * ((n + 1 : Nat) : ℝ) + 1) + (2 * ((n + 1 : Nat) : ℝ) * (9 * M0 * (5 + 4 * B) + 5 * M0) + 1) := by positivity
    linarith
  have hI2 : (8 * ((n + 1 : Nat) : ℝ) * (5 + 4 * B) + 2 * ((n + 1 : Nat) : ℝ) + 1) + (2 * ((n + 1 : Nat) : ℝ) * (9 * M * (5 + 4 * B) + 5 * M) + 1) ≤
      iterConst (n + 1) M0 B := by
    unfold iterConst
    have e1 : 2 * ((n + 1 : Nat) : ℝ) * (9 * (5 + 4 * B) + 5) * M ≤ 2 * ((n + 1 : Nat) : ℝ) * (9 * (5 + 4 * B) + 5) * M0 :=
      mul_le_mul_of_nonneg_left hMM (by positivity)
    have e2 : 0 ≤ 2 * ((n + 1 : Nat) : ℝ) * (1 + 9 / 4 * M0) := by positivity
    linarith
  obtain ⟨a3, o, y, g1, g2, g3, g4, g5, g6⟩ := newton_rounded hR
    (model_near H.acc H.eval H.twin hb H.elastic H.moderate hn hj H.lpf H.f0 H.f0C hxl hV0 hVC hreach hη) hsp htame hAB hεB
    (hF.mono hMM (by positivity)) hQ hρ.le hzero (ftol := cfg.ftol) (xtol := cfg.xtol) (by rw [hfd, abs_of_pos hf]; linarith) hxr (N := N)
    (nfev := cfg.nfev - 0) (by omega) (Trial.refl b) hXt (hφ.trans hα) hφ hI1 hI2 (by rw [hfd]; exact hN1) hN2
  rw [hfd] at g6
  set Y : Fin (n + 1) → ℝ := fun i => val (y i) with hY
  have hφy : ‖sysRes c' a' n V0 j (val Vmax) Y‖ ≤ 5 * f := g6.trans (by linarith)
  have hyk : |Y k - val Vmax| ≤ 5 * f := by
    have := norm_le_pi_norm (sysRes c' a' n V0 j (val Vmax) Y) (Fin.last n)
    rw [hlast, Real.norm_eq_abs] at this
    exact this.trans hφy
  have hYr := hreach Y g5
  have hCδ : C ≤ 1 / δ := by
    rw [le_div_iff₀ hδ]
    have h1 := H.acc.small
    have h2 : lev C 0 ≤ lev C (15 + 4 * bars.length) := lev_mono hC1 (Nat.zero_le _)
    have h3 : lev C 0 * δ ≤ lev C (15 + 4 * bars.length) * δ := mul_le_mul_of_nonneg_right h2 hδ.le
    have h4 : lev C 0 = C := rfl
    rw [h4] at h3
    linarith
  have hvalid : Flt.le (Flt.abs ((y k - x k) / d k)) cfg.dxtol = true := by
    have hyx : |Y k - X k| ≤ h + 6 * f := by
      calc |Y k - X k| = |(Y k - val Vmax) + (val Vmax - (X k + h * σ)) + h * σ| := by congr 1; ring
        _ ≤ |(Y k - val Vmax) + (val Vmax - (X k + h * σ))| + |h * σ| := abs_add_le _ _
        _ ≤ |Y k - val Vmax| + |val Vmax - (X k + h * σ)| + |h * σ| := by
            have := abs_add_le (Y k - val Vmax) (val Vmax - (X k + h * σ))
            linarith
        _ ≤ _ := by rw [abs_mul h σ, hσ1, abs_of_pos hh]; linarith
    have hsub := hR.sub (y k) (x k) ((hYr.size k).trans hCδ) ((hXr.size k).trans hCδ)
    have hsub' : |val (y k - x k)| ≤ h + 7 * f := by
      have e1 : |val (y k - x k)| ≤ |val (y k - x k) - (Y k - X k)| + |Y k - X k| := by
        have := abs_add_le (val (y k - x k) - (Y k - X k)) (Y k - X k)
        rwa [sub_add_cancel] at this
      have e2 : δ * (1 + |Y k - X k|) ≤ δ * 3 := mul_le_mul_of_nonneg_left (by linarith) hδ.le
      have e3 : |val (y k - x k) - (Y k - X k)| ≤ δ * (1 + |Y k - X k|) := hsub
      linarith
    have hdiv := hR.div (y k - x k) (d k) (hsub'.trans (by linarith)) (by rw [hd, abs_of_pos hh]; linarith) (by rw [hd, abs_of_pos hh]; linarith)
    rw [hd] at hdiv
    have hq1 : |val (y k - x k) / h| ≤ (h + 7 * f) / h := by
      rw [abs_div, abs_of_pos hh]
      exact div_le_div_of_nonneg_right hsub' hh.le
    have hq2 : (h + 7 * f) / h ≤ 3 := by rw [div_le_iff₀ hh]; linarith
    have hq3 : |val ((y k - x k) / d k)| ≤ (h + 8 * f) / h := by
      have e1 : |val ((y k - x k) / d k)| ≤ |val ((y k - x k) / d k) - val (y k - x k) / h| + |val (y k - x k) / h| := by
        have := abs_add_le (val ((y k - x k) / d k) - val (y k - x k) / h) (val (y k - x k) / h)
        rwa [sub_add_cancel] at this
      have e2 : δ * (1 + |val (y k - x k) / h|) ≤ δ * 4 := mul_le_mul_of_nonneg_left (by linarith) hδ.le
      have e3 : f ≤ f / h := by
        rw [le_div_iff₀ hh]
        exact mul_le_of_le_one_right hf.le hh1
      have e4 : (h + 8 * f) / h = (h + 7 * f) / h + f / h := by rw [← add_div]; congr 1; ring
      rw [e4]
      linarith
    have hq4 : (h + 8 * f) / h ≤ val cfg.dxtol := by rw [div_le_iff₀ hh]; exact hdx
    have hq5 : (h + 8 * f) / h ≤ 9 := by rw [div_le_iff₀ hh]; linarith
    have hq6 : |val ((y k - x k) / d k)| ≤ 1 / δ := by linarith
    have habs := hR.abs _ hq6
    rw [hR.le _ _ (by rw [habs, abs_abs]; exact hq6) hdr, habs]
    linarith
  obtain ⟨st', hat, hy⟩ := attempt_fixed hb.eval hn H.free hsort hjf hsc (rc := ⟨List.ofFn x, dxmax0, jPre, [], 0⟩)
    (st := ⟨List.ofFn x, 0, 0, List.ofFn d, j, q, b⟩) (x := x) (y := y) (d := d) rfl rfl hj g1 g2 g3 g4 hvalid
  obtain ⟨s', hs1, hs2⟩ := increment_fixed hjf (s := ⟨List.ofFn x, List.ofFn d, j, jPre, q, b⟩) hat hy hfuel
  have hinc := increment_ok hs1
  refine ⟨s', hs1, hinc.dxmax_fixed hsc, hinc.j_fixed hjf, hb.next hn hinc rfl (by simp) (by rw [hs2]; simp), y, t, hs2, ht0, htd',
    ?_, ?_, ?_⟩
  · have := htame.near_zero hρ.le hzero g5 hφy
    refine this.trans ?_
    gcongr
  · rw [← hVγ]
    exact hyk
  · intro m
    rw [← hfirst]
    have := norm_le_pi_norm (sysRes c' a' n V0 j (val Vmax) Y) m.castSucc
    rw [Real.norm_eq_abs] at this
    exact this.trans hφy

/-- The increment loop along the path. -/
theorem round_loop (H : Setting val δ C c bars a ef c' a' n j k S γ ρ M0 B) {η θ τ κ : ℝ} (hη : lev C (15 + 4 * bars.length) * δ ≤ η)
    (hδη : 9 * δ ≤ η) (hF : Fine (n + 1) M0 B (C + ρ) (ρ / (10 * M0)) ρ κ δ η θ τ)
    {env : Env F} (hsp : SolvesNear val env.spsolve (n + 1) κ θ τ)
    (hsort : ∀ l : List F, l ≠ [] → ∃ i, (env.argsortF l).getLast? = some i ∧ i < l.length) {cfg : PFCfg F} (hjf : cfg.jFixed = true)
    (hsc : cfg.stepcontrol = false) {f h : ℝ} (hfd : val cfg.ftol = f) (hηf : η ≤ f) (hfh : 6 * f ≤ h) (hh1 : h ≤ 1) (hxr : |val cfg.xtol| ≤ 1 / δ)
    (hdr : |val cfg.dxtol| ≤ 1 / δ) (hdx : h + 8 * f ≤ val cfg.dxtol * h) {d : Fin (n + 1) → F} (hd : val (d k) = h)
    (hsmall : 20 * M0 * h ≤ ρ) {N : Nat}
    (hN1 : iterConst (n + 1) M0 B * (h + 5 * f) * (3 / 4) ^ N + iterConst (n + 1) M0 B * η < f)
    (hN2 : iterConst (n + 1) M0 B * (h + 5 * f) * (3 / 4) ^ N + iterConst (n + 1) M0 B * η < val cfg.xtol) (hN : (N : Int) + 1 ≤ cfg.nfev)
    (hω : ∀ s ∈ Set.Icc 0 S, ∀ t ∈ Set.Icc 0 S, |t - s| ≤ 2 * h → ‖γ s - γ t‖ ≤ ρ / 2)
    (hlim : ∀ p, cfg.xlimit = some p → IndexOK (n + 1) p.1) {dxmax0 : List F} {fuel : Nat} (hfuel : 1 ≤ fuel) :
    ∀ (i : Nat) (s : ℝ) (x : Fin (n + 1) → F) (b : Analysis F) (jPre q : Int), 0 ≤ s → s + i * (h + 6 * f) ≤ S →
      (NearTrack c' a' j k γ (2 * M0) (5 * f) s fun i => val (x i)) → Passed c bars ef a b →
      ∃ s' recs, incrLoop env (modelProblem c) cfg dxmax0 fuel i ⟨List.ofFn x, List.ofFn d, j, jPre, q, b⟩ = .ok (s', recs) ∧
        (∀ (m : Nat) r, recs[m]? = some r → r.out = .accepted ∧
          ∃ y t, r.x = List.ofFn y ∧ t ∈ Set.Icc 0 S ∧ |t - (s + (m + 1) * h)| ≤ (m + 1) * (6 * f) ∧
            NearTrack c' a' j k γ (2 * M0) (5 * f) t fun i => val (y i)) ∧
        (recs.length = i ∨ ∃ r, recs.getLast? = some r ∧ limitReached r.x cfg.xlimit = .ok true) := by
  have hf : 0 < f := by
    have := H.acc.rounds.pos
    linarith
  have hh : 0 < h := by linarith
  intro i
  induction i with
  | zero =>
    intro s x b jPre q _ _ _ _
    exact ⟨_, [], rfl, fun m r hm => by simp at hm, Or.inl rfl⟩
  | succ i ih =>
    intro s x b jPre q hs0 hsS hx hb
    push_cast at hsS
    have hih : 0 ≤ i * (h + 6 * f) := by positivity
    have hs : s ∈ Set.Icc 0 S := ⟨hs0, by linarith⟩
    obtain ⟨s1, e1, e2, e3, e4, y, t, e5, et1, et2, e6⟩ := round_increment H hη hδη hF hsp hsort hjf hsc hfd hηf hfh hh1 hxr hdr hdx hd hsmall
      hN1 hN2 hN hs (by linarith) (hω s hs) hx hb (dxmax0 := dxmax0) hfuel jPre q
    obtain ⟨lim, hlm⟩ := limitReached_total (x := s1.x) (l := cfg.xlimit) (by rw [e5]; simpa using hlim)
    have hone : ∀ m : Nat, ∀ r, [(⟨s1.x, s1.a, .accepted⟩ : Rec F)][m]? = some r → r.out = .accepted ∧
          ∃ y t, r.x = List.ofFn y ∧ t ∈ Set.Icc 0 S ∧ |t - (s + (m + 1) * h)| ≤ (m + 1) * (6 * f) ∧
            NearTrack c' a' j k γ (2 * M0) (5 * f) t fun i => val (y i) := by
      intro m r hm
      cases m with
      | zero =>
        cases hm
        exact ⟨rfl, y, t, e5, et1, by rw [Nat.cast_zero, zero_add, one_mul, one_mul]; exact et2, e6⟩
      | succ m => simp at hm
    cases lim with
    | true =>
      refine ⟨s1, [⟨s1.x, s1.a, .accepted⟩], ?_, hone, Or.inr ⟨_, rfl, hlm⟩⟩
      unfold incrLoop
      simp only [e1, py_bind_ok, Outcome.isStop, hlm, if_true]
      rfl
    | false =>
      obtain ⟨sx, sd, sj, sp, sb, sa⟩ := s1
      simp only at e2 e3 e4 e5 hone hlm
      subst e2 e3 e5
      have hab := abs_le.1 et2
      obtain ⟨s2, recs, g1, g2, g3⟩ := ih t y sa sp sb et1.1 (by linarith) e6 e4
      refine ⟨s2, ⟨List.ofFn y, sa, .accepted⟩ :: recs, ?_, ?_, ?_⟩
      · rw [incrLoop]
        simp only [e1, py_bind_ok, Outcome.isStop, hlm, g1]
        rfl
      · intro m r hm
        cases m with
        | zero => exact hone 0 r hm
        | succ m =>
          obtain ⟨p1, y', t', p2, p3, p4, p5⟩ := g2 m r (by simpa using hm)
          refine ⟨p1, y', t', p2, p3, ?_, p5⟩
          have hab' := abs_le.1 p4
          push_cast
          rw [abs_le]
          constructor <;> linarith
      · rcases g3 with g3 | ⟨r, g3, g4⟩
        · left; simp [g3]
        · right
          refine ⟨r, ?_, g4⟩
          rw [List.getLast?_cons, g3]
          rfl

end

end TrussPy
