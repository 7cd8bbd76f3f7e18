import Verif.Spec.Follow
import Verif.Lemmas.Calm
import Verif.Lemmas.Quick
import Mathlib.Topology.Compactness.Compact
import Mathlib.Topology.UniformSpace.HeineCantor
/-!
# Many small increments along an equilibrium path
-/

namespace TrussPy

open Filter Topology

theorem Tame.recenter {n : Nat} {φ : (Fin n → ℝ) → Fin n → ℝ} {J : (Fin n → ℝ) → Matrix (Fin n) (Fin n) ℝ}
    {A : (Fin n → ℝ) →L[ℝ] Fin n → ℝ} {x0 x1 : Fin n → ℝ} {ρ ρ' ε M : ℝ} (h : Tame φ J A x0 ρ ε M)
    (hr : ‖x1 - x0‖ + ρ' ≤ ρ) : Tame φ J A x1 ρ' ε M := by
  have hin : ∀ x, ‖x - x1‖ ≤ ρ' → ‖x - x0‖ ≤ ρ := by
    intro x hx
    calc ‖x - x0‖ = ‖(x - x1) + (x1 - x0)‖ := by congr 1; abel
      _ ≤ _ := norm_add_le _ _
      _ ≤ ρ := by linarith
  exact ⟨fun x y hx hy => h.diff x y (hin x hx) (hin y hy), fun x hx => h.matrix x (hin x hx), h.below, h.pos, h.eps, h.small⟩

/-- Near a zero the residual bounds the distance. -/
theorem Tame.near_zero {n : Nat} {φ : (Fin n → ℝ) → Fin n → ℝ} {J : (Fin n → ℝ) → Matrix (Fin n) (Fin n) ℝ}
    {A : (Fin n → ℝ) →L[ℝ] Fin n → ℝ} {z y : Fin n → ℝ} {ρ ε M f : ℝ} (h : Tame φ J A z ρ ε M) (hρ : 0 ≤ ρ) (hz : φ z = 0)
    (hy : ‖y - z‖ ≤ ρ) (hf : ‖φ y‖ ≤ f) : ‖y - z‖ ≤ 2 * M * f := by
  have hM := h.pos
  have h7 := h.diff y z hy (by rw [sub_self, norm_zero]; exact hρ)
  rw [hz, sub_zero] at h7
  have h8 : ‖A (y - z)‖ ≤ ‖φ y‖ + ε * ‖y - z‖ := by
    calc ‖A (y - z)‖ = ‖φ y - (φ y - A (y - z))‖ := by congr 1; abel
      _ ≤ ‖φ y‖ + ‖φ y - A (y - z)‖ := norm_sub_le _ _
      _ ≤ _ := by linarith
  have h9 := h.below (y - z)
  have h10 : M * ‖A (y - z)‖ ≤ M * (‖φ y‖ + ε * ‖y - z‖) := mul_le_mul_of_nonneg_left h8 hM.le
  have h11 : M * ε * ‖y - z‖ ≤ 1 / 8 * ‖y - z‖ := mul_le_mul_of_nonneg_right h.small (norm_nonneg _)
  have h13 : M * ‖φ y‖ ≤ M * f := mul_le_mul_of_nonneg_left hf hM.le
  have h15 : 0 ≤ M * f := (mul_nonneg hM.le (norm_nonneg _)).trans h13
  linarith

section
variable {c : Ctx ℝ} {bars : List (Bar ℝ)} {a b : Analysis ℝ} {ef : StepForces ℝ}

/-- Along an equilibrium path the system is tame with a common radius and a common bound. -/
theorem path_tame (he : Evaluable c bars a ef) (hl : a.lpf.isSome = true)
    (hf0 : a.f0red = a.DOF1.map fun p => ef.forces.getD p 0) {n : Nat} (hn : c.ndof1 = n) {j : Int} {k : Fin (n + 1)}
    (hj : j.natAbs = k + 1) {S : ℝ} {γ : ℝ → Fin (n + 1) → ℝ} (hP : EquilPath c bars a j k S γ) {V0 : List ℝ}
    (hV0 : V0.length = n + 1) :
    ∃ ρ > 0, ∃ M0 > 0, ∀ s ∈ Set.Icc 0 S, ∃ A ε M, M ≤ M0 ∧ Tame (sysRes c a n V0 j 0) (sysMat c a n j) A (γ s) ρ ε M ∧
      ∀ y, ‖y - γ s‖ ≤ ρ → CalmAt c bars a y := by
  refine IsCompact.induction_on (s := Set.Icc 0 S) (p := fun T => ∃ ρ > 0, ∃ M0 > 0, ∀ s ∈ T, ∃ A ε M, M ≤ M0 ∧
    Tame (sysRes c a n V0 j 0) (sysMat c a n j) A (γ s) ρ ε M ∧ ∀ y, ‖y - γ s‖ ≤ ρ → CalmAt c bars a y) isCompact_Icc ?_ ?_ ?_ ?_
  · exact ⟨1, one_pos, 1, one_pos, fun s hs => absurd hs (Set.notMem_empty s)⟩
  · rintro T T' hT ⟨ρ, hρ, M0, hM0, h⟩
    exact ⟨ρ, hρ, M0, hM0, fun s hs => h s (hT hs)⟩
  · rintro T T' ⟨ρ, hρ, M0, hM0, h⟩ ⟨ρ', hρ', M0', hM0', h'⟩
    refine ⟨min ρ ρ', lt_min hρ hρ', max M0 M0', lt_max_of_lt_left hM0, ?_⟩
    rintro s (hs | hs)
    · obtain ⟨A, ε, M, h1, h2, h3⟩ := h s hs
      exact ⟨A, ε, M, h1.trans (le_max_left _ _), h2.recenter (by rw [sub_self, norm_zero, zero_add]; exact min_le_left _ _),
        fun y hy => h3 y (hy.trans (min_le_left _ _))⟩
    · obtain ⟨A, ε, M, h1, h2, h3⟩ := h' s hs
      exact ⟨A, ε, M, h1.trans (le_max_right _ _), h2.recenter (by rw [sub_self, norm_zero, zero_add]; exact min_le_right _ _),
        fun y hy => h3 y (hy.trans (min_le_right _ _))⟩
  · intro s hs
    obtain ⟨a2, K, hK, hreg⟩ := hP.regular s hs
    have hmat : sysMat c a n j (γ s) = matOf (n + 1) K := by unfold sysMat; rw [hK]
    obtain ⟨ρ, ε, M, hρ, ht⟩ := sys_tame he hl hf0 hn hV0 hj 0 (hP.calm s hs).smooth (by rw [hmat]; exact hreg)
    obtain ⟨r, hr, hball⟩ := Metric.eventually_nhds_iff.1 (calmAt_eventually he hn (hP.calm s hs))
    have hq : 0 < min ρ r / 4 := by positivity
    refine ⟨Set.Icc 0 S ∩ {s' | ‖γ s' - γ s‖ < min ρ r / 4}, ?_, min ρ r / 4, hq, M, ht.pos, ?_⟩
    · refine inter_mem self_mem_nhdsWithin ?_
      have h1 : Tendsto (fun s' => ‖γ s' - γ s‖) (𝓝[Set.Icc 0 S] s) (𝓝 ‖γ s - γ s‖) :=
        ((hP.cont s hs).tendsto.sub tendsto_const_nhds).norm
      rw [sub_self, norm_zero] at h1
      exact h1.eventually_lt tendsto_const_nhds hq
    · rintro s' ⟨-, hs'⟩
      have hs' : ‖γ s' - γ s‖ < min ρ r / 4 := hs'
      have h1 := min_le_left ρ r
      have h2 := min_le_right ρ r
      refine ⟨_, ε, M, le_rfl, ht.recenter (by linarith), fun y hy => hball ?_⟩
      rw [dist_eq_norm]
      calc ‖y - γ s‖ = ‖(y - γ s') + (γ s' - γ s)‖ := by congr 1; abel
        _ ≤ _ := norm_add_le _ _
        _ < r := by linarith

/-- Along an equilibrium path the linearisation error is quadratic with a common radius and a common bound. -/
theorem path_quad (he : Evaluable c bars a ef) (hl : a.lpf.isSome = true)
    (hf0 : a.f0red = a.DOF1.map fun p => ef.forces.getD p 0) {n : Nat} (hn : c.ndof1 = n) {j : Int} {k : Fin (n + 1)}
    (hj : j.natAbs = k + 1) {S : ℝ} {γ : ℝ → Fin (n + 1) → ℝ} (hcont : ContinuousOn γ (Set.Icc 0 S))
    (hcalm : ∀ s ∈ Set.Icc 0 S, CalmAt c bars a (γ s)) {V0 : List ℝ} (hV0 : V0.length = n + 1) :
    ∃ ρ > 0, ∃ Λ ≥ 0, ∀ s ∈ Set.Icc 0 S, Quad (sysRes c a n V0 j 0) (sysMat c a n j) (γ s) ρ Λ := by
  refine IsCompact.induction_on (s := Set.Icc 0 S) (p := fun T => ∃ ρ > 0, ∃ Λ ≥ 0, ∀ s ∈ T,
    Quad (sysRes c a n V0 j 0) (sysMat c a n j) (γ s) ρ Λ) isCompact_Icc ?_ ?_ ?_ ?_
  · exact ⟨1, one_pos, 0, le_rfl, fun s hs => absurd hs (Set.notMem_empty s)⟩
  · rintro T T' hT ⟨ρ, hρ, Λ, hΛ, h⟩
    exact ⟨ρ, hρ, Λ, hΛ, fun s hs => h s (hT hs)⟩
  · rintro T T' ⟨ρ, hρ, Λ, hΛ, h⟩ ⟨ρ', hρ', Λ', hΛ', h'⟩
    refine ⟨min ρ ρ', lt_min hρ hρ', max Λ Λ', le_max_of_le_left hΛ, ?_⟩
    rintro s (hs | hs)
    · exact ((h s hs).recenter (by rw [sub_self, norm_zero, zero_add]; exact min_le_left _ _)).mono (le_max_left _ _)
    · exact ((h' s hs).recenter (by rw [sub_self, norm_zero, zero_add]; exact min_le_right _ _)).mono (le_max_right _ _)
  · intro s hs
    obtain ⟨ρ, hρ, Λ, hΛ, hq⟩ := exists_quad (sys_contDiff2 he hn hV0 hj 0 (hcalm s hs).smooth) (J := sysMat c a n j) (by
      filter_upwards [smoothAt_eventually he hn (hcalm s hs).smooth] with y hy
      exact sys_hasFDerivAt he hl hf0 hn hV0 hj 0 hy)
    refine ⟨Set.Icc 0 S ∩ {s' | ‖γ s' - γ s‖ < ρ / 2}, ?_, ρ / 2, by positivity, Λ, hΛ, ?_⟩
    · refine inter_mem self_mem_nhdsWithin ?_
      have h1 : Tendsto (fun s' => ‖γ s' - γ s‖) (𝓝[Set.Icc 0 S] s) (𝓝 ‖γ s - γ s‖) :=
        ((hcont s hs).tendsto.sub tendsto_const_nhds).norm
      rw [sub_self, norm_zero] at h1
      exact h1.eventually_lt tendsto_const_nhds (by positivity)
    · rintro s' ⟨-, hs'⟩
      have hs' : ‖γ s' - γ s‖ < ρ / 2 := hs'
      exact hq.recenter (by linarith)

theorem path_both (he : Evaluable c bars a ef) (hl : a.lpf.isSome = true)
    (hf0 : a.f0red = a.DOF1.map fun p => ef.forces.getD p 0) {n : Nat} (hn : c.ndof1 = n) {j : Int} {k : Fin (n + 1)}
    (hj : j.natAbs = k + 1) {S : ℝ} {γ : ℝ → Fin (n + 1) → ℝ} (hP : EquilPath c bars a j k S γ) {V0 : List ℝ}
    (hV0 : V0.length = n + 1) :
    ∃ ρ > 0, ∃ M0 > 0, ∃ Λ ≥ 0, (∀ s ∈ Set.Icc 0 S, ∃ A ε M, M ≤ M0 ∧
      Tame (sysRes c a n V0 j 0) (sysMat c a n j) A (γ s) ρ ε M ∧ ∀ y, ‖y - γ s‖ ≤ ρ → CalmAt c bars a y) ∧
      ∀ s ∈ Set.Icc 0 S, Quad (sysRes c a n V0 j 0) (sysMat c a n j) (γ s) ρ Λ := by
  obtain ⟨ρ, hρ, M0, hM0, hT⟩ := path_tame he hl hf0 hn hj hP hV0
  obtain ⟨ρ', hρ', Λ, hΛ, hQ⟩ := path_quad he hl hf0 hn hj hP.cont hP.calm hV0
  refine ⟨min ρ ρ', lt_min hρ hρ', M0, hM0, Λ, hΛ, fun s hs => ?_, fun s hs =>
    (hQ s hs).recenter (by rw [sub_self, norm_zero, zero_add]; exact min_le_right _ _)⟩
  obtain ⟨A, ε, M, h1, h2, h3⟩ := hT s hs
  exact ⟨A, ε, M, h1, h2.recenter (by rw [sub_self, norm_zero, zero_add]; exact min_le_left _ _),
    fun y hy => h3 y (hy.trans (min_le_left _ _))⟩

/-- The analysis object `b` has the loads, supports and sizes of `a`, and state variables of the same meaning. -/
structure Carried (c : Ctx ℝ) (bars : List (Bar ℝ)) (ef : StepForces ℝ) (a b : Analysis ℝ) : Prop where
  eval : Evaluable c bars b ef
  ready : b.Ready c
  f0red : b.f0red = a.f0red
  dof1 : b.DOF1 = a.DOF1
  U : ∀ i, i ∉ a.DOF1 → b.U[i]? = a.U[i]?
  Ulen : b.U.length = a.U.length
  alike : ∀ (k : Nat) (bar : Bar ℝ), bars[k]? = some bar → bar.Alike (stateRow c a.statev k) (stateRow c b.statev k)

theorem Carried.scatter (h : Carried c bars ef a b) (v : List ℝ) : scatter b.U b.DOF1 v = scatter a.U a.DOF1 v := by
  rw [h.dof1]
  exact scatter_congr h.Ulen h.U

theorem Carried.sysRes (h : Carried c bars ef a b) (he : Evaluable c bars a ef) {n : Nat}
    (hn : c.ndof1 = n) {V0 V0' : List ℝ} (hV0 : V0.length = n + 1) (hV0' : V0'.length = n + 1) {j : Int} {k : Fin (n + 1)}
    (hj : j.natAbs = k + 1) (Vmax : ℝ) : sysRes c b n V0 j Vmax = sysRes c a n V0' j Vmax := by
  funext x
  obtain ⟨U, hU⟩ := exists_disp he hn
  rw [sysRes_closed he hn hV0' hj Vmax x (hU x), sysRes_closed h.eval hn hV0 hj Vmax x ((h.scatter _).trans (hU x))]
  unfold closedRes
  rw [h.dof1]
  congr 1
  funext m
  rw [forceFn_alike h.alike]

theorem Carried.calm (h : Carried c bars ef a b) {n : Nat} {x : Fin (n + 1) → ℝ} (hs : CalmAt c bars a x) :
    CalmAt c bars b x := by
  intro U hU q bar hbar
  rw [h.scatter] at hU
  exact (h.alike q bar hbar).calm (hs U hU q bar hbar)

theorem mulCLM_injective {n : Nat} {B B' : Matrix (Fin n) (Fin n) ℝ} (h : mulCLM B = mulCLM B') : B = B' := by
  apply Matrix.toLin'.injective
  ext1 v
  apply LinearMap.ext
  intro w
  have := congrArg (fun f => f (LinearMap.single ℝ (fun _ : Fin n => ℝ) v w)) h
  exact this

/-- Where the bars are smooth, the matrices agree too: both are the derivative of the same function. -/
theorem Carried.sysMat (h : Carried c bars ef a b) (he : Evaluable c bars a ef) (hl : a.lpf.isSome = true)
    (hf0 : a.f0red = a.DOF1.map fun p => ef.forces.getD p 0) {n : Nat}
    (hn : c.ndof1 = n) {j : Int} {k : Fin (n + 1)} (hj : j.natAbs = k + 1) {x : Fin (n + 1) → ℝ} (hs : CalmAt c bars a x) :
    sysMat c b n j x = sysMat c a n j x := by
  have hV0 : (List.replicate (n + 1) (0 : ℝ)).length = n + 1 := by simp
  have h1 := sys_hasFDerivAt he hl hf0 hn hV0 hj 0 hs.smooth
  have h2 := sys_hasFDerivAt h.eval h.ready.base.lpf (by rw [h.f0red, h.dof1]; exact hf0) hn hV0 hj 0 (h.calm hs).smooth
  rw [h.sysRes he hn hV0 hV0 hj 0] at h2
  exact mulCLM_injective (h2.unique h1)

/-- An accepted increment passes the loads, supports and sizes on. -/
theorem Carried.next (h : Carried c bars ef a b) {n : Nat} (hn : c.ndof1 = n) {env : Env ℝ} {cfg : PFCfg ℝ} {dxmax0 : List ℝ}
    {s s' : PState ℝ} (hi : IsInc env (modelProblem c) cfg dxmax0 s s' .accepted) (hsa : s.a = b) (hx : s.x.length = n + 1)
    {y : Fin (n + 1) → ℝ} (hy : s'.x = List.ofFn y) (hc : CalmAt c bars a y) : Carried c bars ef a s'.a := by
  subst hn hsa
  have hx' : s'.x.length = c.ndof1 + 1 := by rw [hy, List.length_ofFn]
  obtain ⟨h1, -⟩ | ⟨-, ⟨b1, b', g, dV, lpf, t1, hev, -, hA⟩⟩ := hi.model
  · cases h1
  have hR := modelProblem_runs h.eval.tables h.eval.complete
  have hb1 : b1.Ready c := by
    refine ⟨⟨t1.fits h.ready.base.fits, by rw [t1.statev]; exact h.ready.base.statev, by rw [t1.dof1]; exact h.ready.base.dofs,
      by rw [t1.lpf]; exact h.ready.base.lpf, by rw [t1.Ured]; exact h.ready.base.Ured⟩, by rw [t1.ext]; exact h.ready.ext, by rw [t1.f0red]; exact h.ready.f0⟩
  have hb' : b'.Ready c := by
    obtain ⟨a', g', e1, e2, -⟩ := hR.g b1 s'.x s.x true hb1 hx' hx
    have e1 : TrussPy.equilibrium c b1 s'.x s.x .G true = .ok (a', g') := e1
    have hev : TrussPy.equilibrium c b1 s'.x s.x .G true = .ok (b', g) := hev
    rw [hev] at e1
    cases e1
    exact e2
  have hf := (equilibrium_frame hev).1
  have hsave : s'.a.Ready c := by
    rw [hA]
    exact hR.save { b' with dVmax := dV } s'.x s'.x.dropLast lpf (hR.book b' b'.j b'.Kmod dV hb') (by simp [hx'])
  have e1 : s'.a.DOF1 = s.a.DOF1 := by rw [hA]; exact hf.dof1.trans t1.dof1
  have e2 : s'.a.f0red = s.a.f0red := by rw [hA]; exact hf.f0red.trans t1.f0red
  have e3 : s'.a.extForces = s.a.extForces := by rw [hA]; exact hf.ext.trans t1.ext
  refine ⟨⟨h.eval.tables, hsave.base.fits, h.eval.complete, hsave.base.statev, by rw [e3]; exact h.eval.ext, h.eval.forces,
    h.eval.forcesConst, hsave.base.dofs⟩, hsave, e2.trans h.f0red, e1.trans h.dof1, ?_, ?_, ?_⟩
  · intro i hi
    rw [hA]
    have hi1 : i ∉ s.a.DOF1 := by rw [h.dof1]; exact hi
    have hi2 : i ∉ b1.DOF1 := by rw [t1.dof1]; exact hi1
    exact (hf.Uout i hi2).trans ((t1.Uout i hi1).trans (h.U i hi))
  · rw [hA]
    exact hf.Ulen.trans (t1.Ulen.trans h.Ulen)
  · intro q bar hbar hp
    have hq := h.alike q bar hbar
    obtain ⟨m, rest, more, more', z, z', p, k1, k2, k3, k4, k5, k6, k7⟩ := hq hp
    obtain ⟨lpf', u, u0, U, U0, outs, ef', gg, p1, p2, p3, p4, p5, p6, p7, p8⟩ :=
      equilibrium_G h.eval.tables (t1.fits h.eval.fits) hev
    have hn : 0 < c.nstatev := by
      have := ((h.eval.complete bar (List.mem_of_getElem? hbar)).plastic hp).2
      omega
    have hne : bars.isEmpty = false := by
      cases hbars : bars with
      | nil => rw [hbars] at hbar; cases hbar
      | cons => rfl
    have hU : b'.U = U ∧ b'.U0 = U0 ∧ b'.statev = some (outs.map fun o => o.statev.getD []) := by
      rw [p8]; unfold afterG
      simp [hn, hne]
    obtain ⟨o, ho1, ho2⟩ := evalAll_get p4 hbar
    rw [Nat.zero_add, t1.statev, k4] at ho2
    obtain ⟨new, hnew, hup⟩ := eval_update ho2
    have hrow : stateRow c s'.a.statev q = some new := by
      unfold stateRow
      rw [if_pos hn, hA]
      show b'.statev.bind (·[q]?) = some new
      rw [hU.2.2]
      show (outs.map fun o => o.statev.getD [])[q]? = some new
      rw [List.getElem?_map, ho1, Option.map_some, hnew]
      rfl
    rw [hrow]
    have hu : u = List.ofFn fun i : Fin c.ndof1 => y i.castSucc := by
      have := (splitV_ext (by rw [hy, List.length_ofFn]) hx p1).2.1
      rw [this, hy, ofFn_split, List.dropLast_concat]
    have hsc : TrussPy.scatter s.a.U s.a.DOF1 u = .ok U := by
      rw [← p2, t1.dof1]
      exact (scatter_congr t1.Ulen fun i hi => t1.Uout i hi).symm
    rw [h.scatter, hu] at hsc
    rw [k4] at hq
    exact hq.update (hc U hsc q bar hbar) hup hp

end

variable {F : Type} [Zero F] [One F] [Add F] [Sub F] [Mul F] [Div F] [Neg F] [Flt F]

theorem IsPass.dxmax_fixed {env : Env F} {P : Problem F} {cfg : PFCfg F} {rc : RCtx F} {st : RState F} {d : PassData F}
    (hd : IsPass env P cfg rc st d) (hc : cfg.stepcontrol = false) : d.dc.dxmax = st.dxmax := by
  have h := hd.hdc
  unfold nextWidth at h
  rw [if_neg (by rw [hc]; simp)] at h
  rw [← Except.ok.inj h]

/-- Without step control the step width never changes. -/
theorem IsInc.dxmax_fixed {env : Env F} {P : Problem F} {cfg : PFCfg F} {dxmax0 : List F} {s s' : PState F}
    {o : Outcome} (h : IsInc env P cfg dxmax0 s s' o) (hc : cfg.stepcontrol = false) : s'.dxmax = s.dxmax := by
  have hpass : ∀ {n : Nat} {rc : RCtx F} {st st' : RState F}, Passes env P cfg rc n st st' → st'.dxmax = st.dxmax := by
    intro n rc st st' hp
    induction hp with
    | zero => rfl
    | succ ha _ ih =>
      obtain ⟨d, hd, he⟩ := attempt_ok ha
      rw [ih, he.dxmax.1, hd.dxmax_fixed hc]
  cases h with
  | pre => rfl
  | solve hp _ hn hd he =>
    exact he.dxmax.1.trans ((hd.dxmax_fixed hc).trans (hpass hn))

/-! ## One increment along the path -/

section
variable {c : Ctx ℝ} {bars : List (Bar ℝ)} {a b : Analysis ℝ} {ef : StepForces ℝ}

/-- `x` is a numerical solution belonging to the parameter `s` of the path. -/
structure OnTrack (c : Ctx ℝ) (a : Analysis ℝ) {n : Nat} (j : Int) (k : Fin (n + 1)) (γ : ℝ → Fin (n + 1) → ℝ) (L f s : ℝ)
    (x : Fin (n + 1) → ℝ) : Prop where
  close : ‖x - γ s‖ ≤ L * f
  control : x k = γ s k
  residual : ∀ m : Fin n, |sysRes c a n (List.replicate (n + 1) 0) j 0 x m.castSucc| ≤ f

theorem path_zero (he : Evaluable c bars a ef) {n : Nat} (hn : c.ndof1 = n) {j : Int} {k : Fin (n + 1)} (hj : j.natAbs = k + 1)
    {S : ℝ} {γ : ℝ → Fin (n + 1) → ℝ} (hP : EquilPath c bars a j k S γ) {s : ℝ} (hs : s ∈ Set.Icc 0 S) {V0 : List ℝ}
    (hV0 : V0.length = n + 1) (Vmax : ℝ) (m : Fin n) : sysRes c a n V0 j Vmax (γ s) m.castSucc = 0 := by
  obtain ⟨a1, h⟩ := hP.equilibrium s hs
  rw [sysRes_first he hn hV0 (V0' := List.ofFn (γ s)) (by simp) hj hj Vmax Vmax]
  exact sysRes_zero he hn hj Vmax h m

theorem follow_increment (he : Evaluable c bars a ef) (hl : a.lpf.isSome = true)
    (hf0 : a.f0red = a.DOF1.map fun p => ef.forces.getD p 0) {n : Nat} (hn : c.ndof1 = n)
    (hn1 : 1 ≤ n) {j : Int} {k : Fin (n + 1)} (hj : j.natAbs = k + 1) {S : ℝ} {γ : ℝ → Fin (n + 1) → ℝ}
    (hP : EquilPath c bars a j k S γ) {ρ M0 : ℝ} (hρ : 0 < ρ) (hM0 : 0 < M0)
    (hT : ∀ s ∈ Set.Icc 0 S, ∃ A ε M, M ≤ M0 ∧
      Tame (sysRes c a n (List.replicate (n + 1) 0) j 0) (sysMat c a n j) A (γ s) ρ ε M ∧
      ∀ y, ‖y - γ s‖ ≤ ρ → CalmAt c bars a y) {Λ : ℝ} (hΛ : 0 ≤ Λ)
    (hQ : ∀ s ∈ Set.Icc 0 S, Quad (sysRes c a n (List.replicate (n + 1) 0) j 0) (sysMat c a n j) (γ s) ρ Λ)
    {env : Env ℝ} (hsp : SolvesRegular env.spsolve (n + 1)) (hA : ArgMax env) {cfg : PFCfg ℝ} (hjf : cfg.jFixed = true)
    (hsc : cfg.stepcontrol = false) (hdx : 1 ≤ cfg.dxtol) (hft : 0 < cfg.ftol) {d : Fin (n + 1) → ℝ} {h : ℝ} (hd : d k = h)
    (hh : 0 < h) (hsmall : 6 * M0 * cfg.ftol + 4 * M0 * h ≤ ρ / 2)
    (hN : Enough (((n : ℝ) + 1) * (1 + 2 * M0)) (4 * Λ * M0 ^ 2) cfg.ftol cfg.xtol cfg.nfev (h + cfg.ftol))
    {s : ℝ} (hs : s ∈ Set.Icc 0 S) (hs' : s + h ∈ Set.Icc 0 S) (hω : ‖γ s - γ (s + h)‖ ≤ ρ / 2) {x : Fin (n + 1) → ℝ}
    (hx : OnTrack c a j k γ (2 * M0) cfg.ftol s x) (hb : Carried c bars ef a b) {dxmax0 : List ℝ} (hdx0 : dxmax0 ≠ [])
    {fuel : Nat} (hfuel : 1 ≤ fuel) (jPre q : Int) :
    ∃ s', increment env (modelProblem c) cfg dxmax0 fuel ⟨List.ofFn x, List.ofFn d, j, jPre, q, b⟩ = .ok (s', .accepted) ∧
      s'.dxmax = List.ofFn d ∧ s'.j = j ∧ Carried c bars ef a s'.a ∧
      ∃ y, s'.x = List.ofFn y ∧ OnTrack c a j k γ (2 * M0) cfg.ftol (s + h) y := by
  set V0 : List ℝ := List.replicate (n + 1) 0 with hV0d
  have hV0 : V0.length = n + 1 := by simp [hV0d]
  have hxl : (List.ofFn x).length = n + 1 := by simp
  have hblpf : b.lpf.isSome = true := hb.ready.base.lpf
  have hbf0 : b.f0red = b.DOF1.map fun p => ef.forces.getD p 0 := by rw [hb.f0red, hb.dof1]; exact hf0
  set σ : ℝ := (j.sign : ℝ) with hσ
  have hσ1 : |σ| = 1 := by
    rw [hσ, ← Int.cast_abs, Int.abs_sign_of_ne_zero (by omega)]
    simp
  set Vmax := x k + d k * Flt.ofInt j.sign with hVmax
  have hVγ : Vmax = γ (s + h) k := by
    rw [hVmax, hd, hx.control, hP.control s hs, hP.control _ hs']
    show γ 0 k + s * σ + h * σ = γ 0 k + (s + h) * σ
    ring
  obtain ⟨A, ε, M, hMM, ht, hsm⟩ := hT (s + h) hs'
  have hM := ht.pos
  -- the system of the current state
  have hres : sysRes c b n (List.ofFn x) j Vmax = sysRes c a n V0 j Vmax := hb.sysRes he hn hxl hV0 hj Vmax
  have htame : Tame (sysRes c b n (List.ofFn x) j Vmax) (sysMat c b n j) A (γ (s + h)) ρ ε M := by
    have h1 : Tame (sysRes c a n V0 j Vmax) (sysMat c a n j) A (γ (s + h)) ρ ε M :=
      ht.shift fun p q => sysRes_shift he hn hV0 hj Vmax 0 p q
    rw [hres]
    exact ⟨h1.diff, fun y hy v => by rw [hb.sysMat he hl hf0 hn hj (hsm y hy)]; exact h1.matrix y hy v, h1.below, h1.pos,
      h1.eps, h1.small⟩
  have hfirst : ∀ (y : Fin (n + 1) → ℝ) (m : Fin n), sysRes c b n (List.ofFn x) j Vmax y m.castSucc =
      sysRes c a n V0 j 0 y m.castSucc := fun y m => by rw [hres]; exact sysRes_first he hn hV0 hV0 hj hj Vmax 0 y m
  have hlast : ∀ y : Fin (n + 1) → ℝ, sysRes c b n (List.ofFn x) j Vmax y (Fin.last n) = y k - Vmax := fun y => by
    rw [hres]; exact sysRes_last he hn hV0 hj Vmax y
  have hzero : sysRes c b n (List.ofFn x) j Vmax (γ (s + h)) = 0 := by
    funext m
    refine Fin.lastCases ?_ (fun m => ?_) m
    · rw [hlast, hVγ, sub_self]; rfl
    · rw [hfirst, path_zero he hn hj hP hs' hV0 0 m]; rfl
  have hφ : ‖sysRes c b n (List.ofFn x) j Vmax x‖ ≤ h + cfg.ftol := by
    refine (pi_norm_le_iff_of_nonneg (by positivity)).2 fun m => ?_
    refine Fin.lastCases ?_ (fun m => ?_) m
    · rw [hlast, hVmax, hd, Real.norm_eq_abs, sub_add_cancel_left, abs_neg, abs_mul]
      show |h| * |σ| ≤ _
      rw [hσ1, abs_of_pos hh]
      linarith
    · rw [hfirst, Real.norm_eq_abs]
      have := hx.residual m
      linarith
  have hMφ : M * ‖sysRes c b n (List.ofFn x) j Vmax x‖ ≤ M0 * (h + cfg.ftol) :=
    mul_le_mul hMM hφ (norm_nonneg _) hM0.le
  have hxz : ‖x - γ (s + h)‖ ≤ 2 * M0 * cfg.ftol + ρ / 2 := by
    calc ‖x - γ (s + h)‖ = ‖(x - γ s) + (γ s - γ (s + h))‖ := by congr 1; abel
      _ ≤ _ := norm_add_le _ _
      _ ≤ _ := add_le_add hx.close hω
  have hstart : ‖x - γ (s + h)‖ + 4 * M * ‖sysRes c b n (List.ofFn x) j Vmax x‖ ≤ ρ := by nlinarith
  have hquad : Quad (sysRes c b n (List.ofFn x) j Vmax) (sysMat c b n j) (γ (s + h)) ρ Λ := by
    intro p q hp hq
    rw [hres, sysRes_shift he hn hV0 hj Vmax 0, hb.sysMat he hl hf0 hn hj (hsm p hp)]
    exact hQ (s + h) hs' p q hp hq
  obtain ⟨a3, o, y, g1, g2, g3, g4, g5, g6, g7⟩ := newton_quick (model_computes hb.eval hblpf hbf0 hn hxl hj Vmax) hsp htame
    hMM hΛ hquad (nfev := cfg.nfev - 0) (by rw [sub_zero]; push_cast; exact hN) (Trial.refl b) hstart hφ
  have hyk : y k = Vmax := control_exact hb.eval hblpf hbf0 hn hxl hj g7
  have hyρ : ‖y - γ (s + h)‖ ≤ ρ := by
    calc ‖y - γ (s + h)‖ = ‖(y - x) + (x - γ (s + h))‖ := by congr 1; abel
      _ ≤ _ := norm_add_le _ _
      _ ≤ _ := by linarith
  have hφy : ‖sysRes c b n (List.ofFn x) j Vmax y‖ ≤ cfg.ftol := ((norm_le_vnorm _).trans_lt g6).le
  have hpre : predictor env (modelProblem c) cfg ⟨List.ofFn x, List.ofFn d, j, jPre, q, b⟩ =
      .ok ⟨false, 0, j, jPre, [], 0, b⟩ := by
    unfold predictor
    rw [if_neg (by rw [hjf]; simp)]
    rfl
  have hst : (if (0 : Int) = 0 ∧ jPre ≠ 0 ∧ cfg.jFixed = false then
      vadd (List.ofFn x) (([] : List ℝ).map fun u => u / Flt.abs (0 : ℝ)) else List.ofFn x) = List.ofFn x := by
    rw [if_neg (by rw [hjf]; simp)]
  obtain ⟨st', hat, hy⟩ := attempt_accepts hb.eval hn hn1 hA (cfg := cfg)
    (rc := ⟨List.ofFn x, dxmax0, jPre, [], 0⟩) (st := ⟨List.ofFn x, 0, 0, List.ofFn d, j, q, b⟩)
    (x := x) (y := y) (d := d) rfl rfl hdx0 hj hst g1 g2 g3 g4
    (Or.inl ⟨hjf, by
      rw [Pi.sub_apply, hyk, hVmax, add_sub_cancel_left, hd, mul_div_right_comm, div_self hh.ne', one_mul]
      show |σ| ≤ _
      rw [hσ1]
      exact hdx⟩)
  obtain ⟨s', hs1, hs2⟩ := increment_accepts hpre rfl hat hy hfuel
  have hinc := increment_ok hs1
  refine ⟨s', hs1, hinc.dxmax_fixed hsc, hinc.j_fixed hjf, hb.next hn hinc rfl (by simp) hs2 (hsm y hyρ), y, hs2, ?_, ?_, ?_⟩
  · have := htame.near_zero hρ.le hzero hyρ hφy
    refine this.trans ?_
    gcongr
  · rw [hyk, hVγ]
  · intro m
    rw [← hfirst]
    have := norm_le_pi_norm (sysRes c b n (List.ofFn x) j Vmax y) m.castSucc
    rw [Real.norm_eq_abs] at this
    exact this.trans hφy

/-- The increment loop along the path. -/
theorem follow_loop (he : Evaluable c bars a ef) (hl : a.lpf.isSome = true)
    (hf0 : a.f0red = a.DOF1.map fun p => ef.forces.getD p 0) {n : Nat} (hn : c.ndof1 = n)
    (hn1 : 1 ≤ n) {j : Int} {k : Fin (n + 1)} (hj : j.natAbs = k + 1) {S : ℝ} {γ : ℝ → Fin (n + 1) → ℝ}
    (hP : EquilPath c bars a j k S γ) {ρ M0 : ℝ} (hρ : 0 < ρ) (hM0 : 0 < M0)
    (hT : ∀ s ∈ Set.Icc 0 S, ∃ A ε M, M ≤ M0 ∧
      Tame (sysRes c a n (List.replicate (n + 1) 0) j 0) (sysMat c a n j) A (γ s) ρ ε M ∧
      ∀ y, ‖y - γ s‖ ≤ ρ → CalmAt c bars a y) {Λ : ℝ} (hΛ : 0 ≤ Λ)
    (hQ : ∀ s ∈ Set.Icc 0 S, Quad (sysRes c a n (List.replicate (n + 1) 0) j 0) (sysMat c a n j) (γ s) ρ Λ)
    {env : Env ℝ} (hsp : SolvesRegular env.spsolve (n + 1)) (hA : ArgMax env) {cfg : PFCfg ℝ} (hjf : cfg.jFixed = true)
    (hsc : cfg.stepcontrol = false) (hdx : 1 ≤ cfg.dxtol) (hft : 0 < cfg.ftol) {d : Fin (n + 1) → ℝ} {h : ℝ} (hd : d k = h)
    (hh : 0 < h) (hsmall : 6 * M0 * cfg.ftol + 4 * M0 * h ≤ ρ / 2)
    (hN : Enough (((n : ℝ) + 1) * (1 + 2 * M0)) (4 * Λ * M0 ^ 2) cfg.ftol cfg.xtol cfg.nfev (h + cfg.ftol))
    (hω : ∀ s ∈ Set.Icc 0 S, s + h ∈ Set.Icc 0 S → ‖γ s - γ (s + h)‖ ≤ ρ / 2)
    (hlim : ∀ p, cfg.xlimit = some p → IndexOK (n + 1) p.1) {dxmax0 : List ℝ} (hdx0 : dxmax0 ≠ []) {fuel : Nat} (hfuel : 1 ≤ fuel) :
    ∀ (i : Nat) (s : ℝ) (x : Fin (n + 1) → ℝ) (b : Analysis ℝ) (jPre q : Int), 0 ≤ s → s + i * h ≤ S →
      OnTrack c a j k γ (2 * M0) cfg.ftol s x → Carried c bars ef a b →
      ∃ s' recs, incrLoop env (modelProblem c) cfg dxmax0 fuel i ⟨List.ofFn x, List.ofFn d, j, jPre, q, b⟩ = .ok (s', recs) ∧
        (∀ (m : Nat) r, recs[m]? = some r → r.out = .accepted ∧
          ∃ y, r.x = List.ofFn y ∧ OnTrack c a j k γ (2 * M0) cfg.ftol (s + (m + 1) * h) y) ∧
        (recs.length = i ∨ ∃ r, recs.getLast? = some r ∧ limitReached r.x cfg.xlimit = .ok true) := by
  intro i
  induction i with
  | zero =>
    intro s x b jPre q _ _ _ _
    exact ⟨_, [], rfl, fun m r hm => by simp at hm, Or.inl rfl⟩
  | succ i ih =>
    intro s x b jPre q hs0 hsS hx hb
    push_cast at hsS
    have hih : 0 ≤ i * h := by positivity
    have hs : s ∈ Set.Icc 0 S := ⟨hs0, by linarith⟩
    have hs' : s + h ∈ Set.Icc 0 S := ⟨by linarith, by linarith⟩
    obtain ⟨s1, e1, e2, e3, e4, y, e5, e6⟩ := follow_increment he hl hf0 hn hn1 hj hP hρ hM0 hT hΛ hQ hsp hA hjf hsc hdx hft hd hh
      hsmall hN hs hs' (hω s hs hs') hx hb hdx0 hfuel jPre q
    obtain ⟨lim, hlm⟩ := limitReached_total (x := s1.x) (l := cfg.xlimit) (by rw [e5]; simpa using hlim)
    have hone : ∀ m : Nat, ∀ r, [(⟨s1.x, s1.a, .accepted⟩ : Rec ℝ)][m]? = some r → r.out = .accepted ∧
          ∃ y, r.x = List.ofFn y ∧ OnTrack c a j k γ (2 * M0) cfg.ftol (s + (m + 1) * h) y := by
      intro m r hm
      cases m with
      | zero =>
        cases hm
        exact ⟨rfl, y, e5, by rw [Nat.cast_zero, zero_add, one_mul]; exact e6⟩
      | succ m => simp at hm
    cases lim with
    | true =>
      refine ⟨s1, [⟨s1.x, s1.a, .accepted⟩], ?_, hone, Or.inr ⟨_, rfl, hlm⟩⟩
      unfold incrLoop
      simp only [e1, py_bind_ok, Outcome.isStop, hlm, if_true]
      rfl
    | false =>
      obtain ⟨sx, sd, sj, sp, sb, sa⟩ := s1
      simp only at e2 e3 e4 e5 hone hlm
      subst e2 e3 e5
      obtain ⟨s2, recs, g1, g2, g3⟩ := ih (s + h) y sa sp sb (by linarith) (by linarith) e6 e4
      refine ⟨s2, ⟨List.ofFn y, sa, .accepted⟩ :: recs, ?_, ?_, ?_⟩
      · rw [incrLoop]
        simp only [e1, py_bind_ok, Outcome.isStop, hlm, g1]
        rfl
      · intro m r hm
        cases m with
        | zero => exact hone 0 r hm
        | succ m =>
          obtain ⟨p1, y', p2, p3⟩ := g2 m r (by simpa using hm)
          refine ⟨p1, y', p2, ?_⟩
          have : s + ((m + 1 : Nat) + 1) * h = s + h + (m + 1) * h := by push_cast; ring
          rw [this]
          exact p3
      · rcases g3 with g3 | ⟨r, g3, g4⟩
        · left; simp [g3]
        · right
          refine ⟨r, ?_, g4⟩
          rw [List.getLast?_cons, g3]
          rfl

end

end TrussPy
