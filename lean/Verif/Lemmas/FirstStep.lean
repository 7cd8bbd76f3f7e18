import Verif.Lemmas.Causal
import Verif.Lemmas.Rigid
import Verif.Lemmas.Compare
import Verif.Props.SmallStep
/-!
# The first increment from the undeformed state
-/

set_option linter.unusedSectionVars false

namespace TrussPy

open Spec

section
variable {c : Ctx ℝ} {bars : List (Bar ℝ)} {a : Analysis ℝ} {ef : StepForces ℝ}

theorem undeformed_smooth {b : Bar ℝ} (hb : b.Stiff) {U : List ℝ} (hU : ∀ p, U.getD p 0 = 0) {row : Option (List ℝ)}
    (hrow : Virgin b row) : b.Smooth U row := by
  refine ⟨by rw [axis_zero b hU]; exact hb.length, fun hl => ?_⟩
  obtain ⟨m, rest, hm, hmat⟩ := hb.plastic hl
  obtain ⟨more, hr⟩ := hrow hl
  refine ⟨m, rest, more, 0, 0, hm, hmat, hr, le_refl _, ?_⟩
  rw [stretch_zero hb.length hU, if_pos rfl]
  simp only [sub_self, mul_zero, abs_zero]
  exact hm.Sy.ne

theorem undeformed_stress {b : Bar ℝ} (hb : b.Stiff) {row : Option (List ℝ)} (hrow : Virgin b row) :
    b.stressAt row (1 - 1) = 0 := by
  unfold Bar.stressAt TrussPy.stressAt
  cases hl : b.law with
  | el =>
    obtain ⟨E, rest, hm, hE⟩ := hb.elastic hl
    rw [hm]
    show E * (1 - 1) = 0
    simp
  | elplast =>
    obtain ⟨m, rest, hm, hmat⟩ := hb.plastic hl
    obtain ⟨more, hr⟩ := hrow hl
    rw [hmat, hr]
    have hcall : Umat.call .elplast ((1 : ℝ) - 1) 0 (m.E :: m.K :: m.Sy :: rest) (some (0 :: 0 :: more)) = _ :=
      umat_real hm rest (1 - 1) 0 0 0 (Y := m.Sy) (by simp) hm.Sy.le more
    simp only [hcall, newP, flow_elastic hm (virgin_yield hm)]
    simp

theorem undeformed_force (hst : ∀ b ∈ bars, b.Stiff) {sv : Option (List (List ℝ))}
    (hvir : ∀ k b, bars[k]? = some b → Virgin b (stateRow c sv k)) {U : List ℝ} (hU : ∀ p, U.getD p 0 = 0) (i : Nat)
    (d : Fin 3) : forceFn c sv bars U i d = 0 := by
  unfold forceFn
  refine List.sum_eq_zero fun y hy => ?_
  obtain ⟨⟨b, k⟩, hp, rfl⟩ := List.mem_map.1 hy
  have hb := List.mem_zipIdx_iff_getElem?.1 hp
  have hbs := hst b (List.mem_of_getElem? hb)
  simp only
  rw [stretch_zero hbs.length hU, undeformed_stress hbs (hvir k b hb)]
  ring

/-- `[[K, f], [0, 1]]` is regular if `K` is. -/
theorem bordered_regular {n : Nat} {K0 K : List (List ℝ)} {f : List ℝ} (hK0 : K0.length = n)
    (hrow : ∀ row ∈ K0, row.length = n) (hf : f.length = n)
    (hK : K = List.zipWith (fun row f0 => row ++ [-f0]) K0 f ++ [(List.replicate (n + 1) (0 : ℝ)).set n 1])
    (h : IsUnit (matOf n K0).det) : IsUnit (matOf (n + 1) K).det := by
  rw [regular_iff_injective] at h ⊢
  have hzl : (List.zipWith (fun row f0 => row ++ [-f0]) K0 f).length = n := by simp [hK0, hf]
  have e1 : ∀ i j : Fin n, matOf (n + 1) K i.castSucc j.castSucc = matOf n K0 i j := by
    intro i j
    have hi : (i : Nat) < K0.length := by rw [hK0]; exact i.isLt
    have hif : (i : Nat) < f.length := by rw [hf]; exact i.isLt
    have hj : (j : Nat) < K0[(i : Nat)].length := by rw [hrow _ (List.getElem_mem hi)]; exact j.isLt
    unfold matOf
    rw [hK]
    simp only [Fin.val_castSucc, List.getD_eq_getElem?_getD]
    rw [List.getElem?_append_left (by rw [hzl]; exact i.isLt), List.getElem?_zipWith, List.getElem?_eq_getElem hi,
      List.getElem?_eq_getElem hif]
    simp only [Option.getD_some]
    rw [List.getElem?_append_left hj]
  have elast : K[n]? = some ((List.replicate (n + 1) (0 : ℝ)).set n 1) := by
    rw [hK, List.getElem?_append_right (by rw [hzl]), hzl]
    simp
  have e2 : ∀ j : Fin n, matOf (n + 1) K (Fin.last n) j.castSucc = 0 := by
    intro j
    unfold matOf
    simp only [Fin.val_last, Fin.val_castSucc, List.getD_eq_getElem?_getD, elast, Option.getD_some]
    rw [List.getElem?_set_ne (by have := j.isLt; omega), ← List.getD_eq_getElem?_getD]
    exact zero_table _
  have e3 : matOf (n + 1) K (Fin.last n) (Fin.last n) = 1 := by
    unfold matOf
    simp only [Fin.val_last, List.getD_eq_getElem?_getD, elast, Option.getD_some]
    rw [List.getElem?_set_self (by simp)]
    rfl
  intro v hv
  have hlast : v (Fin.last n) = 0 := by
    have := congrFun hv (Fin.last n)
    have this : ∑ j, matOf (n + 1) K (Fin.last n) j * v j = 0 := this
    rw [Fin.sum_univ_castSucc, e3] at this
    simpa [e2] using this
  have hin : (fun i : Fin n => v i.castSucc) = 0 := by
    refine h _ ?_
    funext i
    have := congrFun hv i.castSucc
    have this : ∑ j, matOf (n + 1) K i.castSucc j * v j = 0 := this
    rw [Fin.sum_univ_castSucc, hlast, mul_zero, add_zero] at this
    show ∑ j, matOf n K0 i j * v j.castSucc = 0
    rw [← this]
    exact Finset.sum_congr rfl fun j _ => by rw [e1]
  funext i
  refine Fin.lastCases hlast (fun i => ?_) i
  exact congrFun hin i

/-- From the undeformed state of a stable structure, increments with small step widths are accepted. -/
theorem undeformed_small_step (he : Evaluable c bars a ef) (hl : a.lpf.isSome = true)
    (hf0 : a.f0red = a.DOF1.map fun p => ef.forces.getD p 0) {n : Nat} (hn : c.ndof1 = n) (hn1 : 1 ≤ n)
    (hst : ∀ b ∈ bars, b.Stiff) (hvir : ∀ k b, bars[k]? = some b → Virgin b (stateRow c a.statev k))
    (hU : a.U = List.replicate (3 * c.nnodes) 0) (hfc : ∀ p, ef.forcesConst.getD p 0 = 0)
    (hstab : BarStable c.nnodes a.DOF1 bars) {env : Env ℝ} (hsp : SolvesRegular env.spsolve (n + 1)) (hA : ArgMax env)
    {du dl : ℝ} (hdu : 0 < du) (hdl : 0 < dl) {dxtol : ℝ} (hdx : 1 < dxtol) :
    ∃ t0 > 0, ∃ C : ℝ, ∀ t, 0 < t → t < t0 → ∀ (cfg : PFCfg ℝ), cfg.jFixed = false → dxtol ≤ cfg.dxtol →
      cfg.xtol ≤ t * du → cfg.xtol ≤ t * dl →
      ∀ N : Nat, C * t < cfg.ftol * 2 ^ N → C * t < cfg.xtol * 2 ^ N → (N : Int) + 2 ≤ cfg.nfev →
      ∀ (dxmax0 : List ℝ), dxmax0 ≠ [] → ∀ (fuel : Nat), 1 ≤ fuel → ∀ (jPre b : Int), jPre ≠ 0 →
        ∃ s', increment env (modelProblem c) cfg dxmax0 fuel
          ⟨List.replicate n 0 ++ [0], List.replicate n (t * du) ++ [t * dl], (n : Int) + 1, jPre, b, a⟩ =
            .ok (s', .accepted) ∧ s'.x.length = n + 1 ∧
          ((∃ i < n, |s'.x.getD i 0| = t * du) ∨ |s'.x.getD n 0| = t * dl) := by
  have hx0 : (List.ofFn fun _ : Fin (n + 1) => (0 : ℝ)) = List.replicate n 0 ++ [0] := by
    rw [List.ofFn_const, List.replicate_succ']
  have hd0 : a.DOF1.length = n := by rw [he.dofs, hn]
  have hzero : ∀ U, scatter a.U a.DOF1 (List.ofFn fun _ : Fin n => (0 : ℝ)) = .ok U → ∀ p, U.getD p 0 = 0 := by
    intro U h
    rw [hU, List.ofFn_const] at h
    exact scatter_zeros hd0 h
  have hs : SmoothAt c bars a (n := n) fun _ => 0 := by
    intro U hUs k b hb
    exact undeformed_smooth (hst b (List.mem_of_getElem? hb)) (hzero U hUs) (hvir k b hb)
  obtain ⟨U, hUs⟩ : ∃ U, scatter a.U a.DOF1 (List.ofFn fun _ : Fin n => (0 : ℝ)) = .ok U := scatter_ok (by simp [hd0])
  obtain ⟨a1, heq, -⟩ := equilibrium_closed he (u := List.ofFn fun _ : Fin n => (0 : ℝ))
    (V0 := List.ofFn fun _ : Fin (n + 1) => (0 : ℝ)) (by simp [hn]) (by simp [hn]) 0 false hUs
  have heq' : equilibrium c a (List.ofFn fun _ : Fin (n + 1) => (0 : ℝ)) (List.ofFn fun _ : Fin (n + 1) => (0 : ℝ)) .G false =
      .ok (a1, List.replicate n 0) := by
    have h1 : List.ofFn (fun _ : Fin (n + 1) => (0 : ℝ)) = List.ofFn (fun _ : Fin n => (0 : ℝ)) ++ [0] := ofFn_split _
    conv_lhs => rw [show equilibrium c a (List.ofFn fun _ : Fin (n + 1) => (0 : ℝ))
      (List.ofFn fun _ : Fin (n + 1) => (0 : ℝ)) .G false = equilibrium c a (List.ofFn (fun _ : Fin n => (0 : ℝ)) ++ [0])
      (List.ofFn fun _ : Fin (n + 1) => (0 : ℝ)) .G false by rw [← h1]]
    rw [heq]
    congr 2
    rw [← hd0, ← List.map_const']
    refine List.map_congr_left fun p _ => ?_
    rw [hfc, undeformed_force hst hvir (hzero U hUs)]
    ring
  obtain ⟨a2, K0, K, k1, -, k3, k4, k5, k6, k7⟩ := extDf_model he hl hf0 hn (j := (n : Int) + 1) (k := Fin.last n)
    (by rw [Fin.val_last]; omega) fun _ => 0
  have hreg : IsUnit (Matrix.det (matOf (n + 1) K)) := by
    obtain ⟨⟨a3, K0'⟩, hst3, rfl⟩ : ∃ r, stiffness c a (List.ofFn fun _ : Fin (n + 1) => (0 : ℝ)).dropLast = .ok r ∧ r.2 = K0 := by
      cases hs3 : stiffness c a (List.ofFn fun _ : Fin (n + 1) => (0 : ℝ)).dropLast with
      | ok r => rw [hs3] at k5; exact ⟨r, rfl, Except.ok.inj k5⟩
      | error e => rw [hs3] at k5; cases k5
    have hdrop : (List.ofFn fun _ : Fin (n + 1) => (0 : ℝ)).dropLast = List.ofFn fun _ : Fin n => (0 : ℝ) := by
      rw [ofFn_split, List.dropLast_concat]
    rw [hdrop] at hst3
    obtain ⟨hUU, xs, -, hK0⟩ := stiffness_closed he (by simp [hn]) hst3 hUs
    have hiff := stiffness_regular_iff he.tables he.fits hst3 hst hvir (by rw [hUU]; exact hzero U hUs)
    rw [hd0] at hiff
    refine bordered_regular (K0 := K0') (f := a.f0red) ?_ ?_ ?_ k6 (hiff.2 hstab)
    · rw [show K0' = _ from hK0]; simp [reducedStiffness, hd0]
    · intro row hr
      rw [show K0' = _ from hK0] at hr
      unfold reducedStiffness at hr
      obtain ⟨p, -, rfl⟩ := List.mem_map.1 hr
      simp [hd0]
    · rw [hf0]; simp [hd0]
  set d : Fin (n + 1) → ℝ := Fin.snoc (α := fun _ => ℝ) (fun _ => du) dl with hd
  have hdpos : ∀ i, 0 < d i := by
    intro i
    refine Fin.lastCases ?_ (fun i => ?_) i
    · rw [hd, Fin.snoc_last]; exact hdl
    · rw [hd, Fin.snoc_castSucc]; exact hdu
  obtain ⟨t0, ht0, C, key⟩ := C71_small_steps_accepted he hl hf0 hn hn1 hs heq' (j := (n : Int) + 1) ⟨by omega, by omega⟩ k1
    hreg hsp hA hdpos hdx
  refine ⟨t0, ht0, C, ?_⟩
  intro t p1 p2 cfg p3 p4 p5 p5' N p6 p7 p8 dxmax0 p9 fuel p10 jPre b p11
  obtain ⟨s', q1, y, i, q2, q3⟩ := key t p1 p2 cfg p3 p4 (by
    intro i
    refine Fin.lastCases ?_ (fun i => ?_) i
    · rw [hd, Fin.snoc_last]; exact p5'
    · rw [hd, Fin.snoc_castSucc]; exact p5) N p6 p7 p8 dxmax0 p9 fuel p10 jPre b p11
  have hdw : (List.ofFn fun i => t * d i) = List.replicate n (t * du) ++ [t * dl] := by
    rw [ofFn_split]
    simp only [hd, Fin.snoc_last, Fin.snoc_castSucc, List.ofFn_const]
  rw [hx0, hdw] at q1
  refine ⟨s', q1, by rw [q2]; simp, ?_⟩
  have hget : ∀ i : Fin (n + 1), s'.x.getD i 0 = y i := by
    intro i
    rw [q2, List.getD_eq_getElem?_getD, List.getElem?_ofFn, dif_pos i.isLt]
    rfl
  rw [sub_zero] at q3
  revert q3
  refine Fin.lastCases ?_ (fun i => ?_) i
  · intro q3
    right
    have := hget (Fin.last n)
    rw [Fin.val_last] at this
    rw [this, q3, hd, Fin.snoc_last]
  · intro q3
    left
    refine ⟨i, i.isLt, ?_⟩
    have := hget i.castSucc
    rw [Fin.val_castSucc] at this
    rw [this, q3, hd, Fin.snoc_castSucc]

end

/-- `build` of a stable structure and the first increment of its run. -/
theorem first_increment_ready {u : UserInput ℝ} {es : List (Elem ℝ)} {nsteps : Nat} (hv : ValidInput u es nsteps)
    (hns : 1 ≤ nsteps) (hst : StiffElems u es) (hk : KinematicallyStable u es) {env : Env ℝ}
    (hsp : SolvesRegular env.spsolve (freeCount u + 1)) (hA : ArgMax env) {du dl : ℝ} (hdu : 0 < du) (hdl : 0 < dl)
    {dxtol : ℝ} (hdx : 1 < dxtol) (nst : Nat) :
    ∃ t0 > 0, ∃ C : ℝ, ∀ t, 0 < t → t < t0 → ∀ (argsort : List Int → List Nat), IsArgsort argsort → ∀ m : Model ℝ,
      Entered u m → EnteredElems es m → m.settings.ndim = 3 → m.settings.nstatev = nst →
      SmallSteps m.settings t du dl dxtol C →
      ∃ m1 c a r0 ft A1, m.build argsort = .ok m1 ∧ m1.ctx = some c ∧ m1.analysis = some a ∧
        m1.results = some ⟨[r0], []⟩ ∧ r0.lpf = some 0 ∧ m1.forces = some ft ∧
        m1.settings = { m.settings with nstatev := c.nstatev } ∧
        setStep ft.forces.rows [] 0 { a with Vred := a.Ured ++ [0], lpf := some 0 } = .ok A1 ∧
        A1.Ured = List.replicate (freeCount u) 0 ∧
        ∀ incs xl fuel, 1 ≤ fuel → ∃ s', increment env (modelProblem c) (stepCfg m1.settings incs xl)
            (List.replicate (freeCount u) (t * du) ++ [t * dl]) fuel
            ⟨List.replicate (freeCount u) 0 ++ [0], List.replicate (freeCount u) (t * du) ++ [t * dl],
              (freeCount u : Int) + 1, 1, 4, A1⟩ = .ok (s', .accepted) ∧ s'.x.length = freeCount u + 1 ∧
          ((∃ i < freeCount u, |s'.x.getD i 0| = t * du) ∨ |s'.x.getD (freeCount u) 0| = t * dl) := by
  by_cases hex : ∃ (as : List Int → List Nat) (m0 : Model ℝ), IsArgsort as ∧ Entered u m0 ∧ EnteredElems es m0 ∧
      m0.settings.ndim = 3 ∧ m0.settings.nstatev = nst
  swap
  · refine ⟨1, one_pos, 0, ?_⟩
    intro t _ _ as has m hu he hd hn _
    exact absurd ⟨as, m, has, hu, he, hd, hn⟩ hex
  obtain ⟨as0, m0, has0, hu0, he0, hd0, hn0⟩ := hex
  obtain ⟨m10, c, bars0, a0, r00, ft, b1, b2, b3, b4, b5, b6, b7, b8, b9, b10, b11, b12, n0, b13⟩ :=
    hv.built has0 hu0 he0 hd0
  obtain ⟨c', d, bars, ft', h1, h2, h3, h4, h5, h6, h7, h8, h9, h10, h11, h12, h13, h14⟩ :=
    built_structure has0 hu0 he0 hv b1
  rw [h1] at b2; cases b2
  rw [h11] at b6
  have hae := (Option.some.inj b6).symm
  subst hae
  rw [h3] at b8; cases b8
  set p : Analysis ℝ := { Analysis.fresh d.nnodes d.nelems d.dof0 d.dof1 c.nstatev with
    Vred := (Analysis.fresh d.nnodes d.nelems d.dof0 d.dof1 c.nstatev : Analysis ℝ).Ured ++ [0], lpf := some 0 } with hp
  obtain ⟨A1, hset, hready⟩ := setStep_total (rows := ft.forces.rows) (le := []) (k := 0) (a := p) b11 b9 b10
    (by have := hv.width; omega) (by simp)
  obtain ⟨hcarry, -, hlpf, fc, hfc, hext, hf0⟩ := setStep_ok hset
  obtain ⟨ef, e1, e2, e3⟩ := hready.ext
  rw [hext] at e1
  have hef := Option.some.inj e1
  have heval : Evaluable c bars A1 ef := ⟨h4, hready.base.fits, h5, hready.base.statev, by rw [hext, hef], e2, e3,
    hready.base.dofs⟩
  have hsvA : A1.statev = freshState ℝ d.nelems c.nstatev := hcarry.statev
  have hDA : A1.DOF1 = d.dof1 := hcarry.dof1
  have hUA : A1.U = List.replicate (3 * c.nnodes) 0 := by rw [h8]; exact hcarry.U
  have hfcz : ∀ q, ef.forcesConst.getD q 0 = 0 := by
    intro q
    have hz : fc = (stepSlice ft.forces.rows 0).flatten.map fun _ => 0 := (Except.ok.inj hfc).symm
    rw [← hef]
    show fc.getD q 0 = 0
    rw [hz, List.map_const']
    exact zero_table q
  have hfr : A1.f0red = A1.DOF1.map fun q => ef.forces.getD q 0 := by
    have hlen : (stepSlice ft.forces.rows 0).flatten.length = 3 * c.nnodes := by rw [← hef] at e2; exact e2
    rw [npTake_eq_map (0 : ℝ) (fun i hi => by rw [hlen]; exact h12.dof i hi)] at hf0
    rw [← Except.ok.inj hf0, hDA, ← hef]
    rfl
  obtain ⟨t0, ht0, C, key⟩ := undeformed_small_step heval (by rw [hlpf]; rfl) hfr (n := freeCount u) (by rw [h9, h10]) hv.free
    (meant_stiff h7 hst) (fresh_virgin h5 h13 hsvA) hUA hfcz (by
      rw [hDA]
      exact (stable_iff hv.posed.nodes h6 h4.nnodes h7 h12.dofNodup h12.dof h14).2 hk) hsp hA hdu hdl hdx
  refine ⟨t0, ht0, C, ?_⟩
  intro t ht htlt as has m hu he hd hn hs
  have helem : m.elems = m0.elems := by
    have h1 : addElems none es = .ok m.elems := he
    rw [show addElems none es = .ok m0.elems from he0] at h1
    exact (Except.ok.inj h1).symm
  have h2n : 2 ≤ u.nodes.length := by
    obtain ⟨s⟩ := build_steps b1
    have he' := he0
    unfold EnteredElems at he'
    rw [s.he] at he'
    exact two_nodes he' hv.posed
  obtain ⟨m1, c', a', r, r', ft1, ft1', g1, g2, g3, g4, g5, g6, g7, g8, g9, g10, g11, g12, g13, g14, g15, g16⟩ :=
    build_compare has has0 hu hu0 rfl rfl rfl helem (hd.trans hd0.symm) (hn.trans hn0.symm) hv.posed.nodes h2n b1
  rw [h1] at g3; cases g3
  rw [h11] at g6
  have hae := (Option.some.inj g6).symm
  subst hae
  rw [h3] at g12; cases g12
  refine ⟨m1, c, _, r, ft1, A1, g1, g2, g5, g7, g9, g11, g13, ?_, ?_, ?_⟩
  · rw [g15, ← g16]
    exact hset
  · have : A1.Ured = List.replicate d.dof1.length 0 := hcarry.Ured
    rw [this, h10]
  · intro incs xl fuel hfuel
    obtain ⟨N, i1, i2, i3⟩ := hs.iterations
    rw [g13]
    exact key t ht htlt _ hs.free hs.overshoot hs.xtol_du hs.xtol_dl N i1 i2 i3 _ (by simp) fuel hfuel 1 4 (by decide)

/-- What an increment leaves in the analysis object. -/
theorem increment_saved {env : Env ℝ} {P : Problem ℝ} {cfg : PFCfg ℝ} {d0 : List ℝ} {fuel : Nat} {s s' : PState ℝ}
    {o : Outcome} (h : increment env P cfg d0 fuel s = .ok (s', o)) :
    s'.a.Ured = s'.x.dropLast ∧ s'.a.lpf = s'.x.getLast? := by
  unfold increment at h
  obtain ⟨⟨jp, st, o1⟩, -, h⟩ := py_bind_eq_ok.1 h
  simp only at h
  split at h
  · cases h
  next lpf hl =>
    cases h
    exact ⟨rfl, hl.symm⟩

theorem reachedWidth_of {n : Nat} {a : Analysis ℝ} {x : List ℝ} {wu wl : ℝ} (hx : x.length = n + 1) (hU : a.Ured = x.dropLast)
    (hl : a.lpf = x.getLast?) (h : (∃ i < n, |x.getD i 0| = wu) ∨ |x.getD n 0| = wl) : ReachedWidth a wu wl := by
  rcases h with ⟨i, hi, h⟩ | h
  · left
    have hi' : i < x.dropLast.length := by rw [List.length_dropLast]; omega
    refine ⟨x.dropLast[i], by rw [hU]; exact List.getElem_mem _, ?_⟩
    rw [List.getElem_dropLast, ← h, List.getD_eq_getElem?_getD, List.getElem?_eq_getElem (by omega)]
    rfl
  · right
    refine ⟨x[n], ?_, ?_⟩
    · rw [hl, List.getLast?_eq_getElem?, show x.length - 1 = n by omega]
      exact List.getElem?_eq_getElem (by omega)
    · rw [← h, List.getD_eq_getElem?_getD, List.getElem?_eq_getElem (by omega)]
      rfl

/-- The first record of a path-following call, if the first increment is accepted. -/
theorem pathfollow_first {env : Env ℝ} {P : Problem ℝ} {s : Settings ℝ} {k fuel n : Nat} {xl : Int × ℝ} {a : Analysis ℝ}
    {du dl : ℝ} (h1 : s.du = du) (h2 : s.dlpf = dl) (h3 : s.jFixed = false) (h4 : s.jPre = true) {s' : PState ℝ}
    (hi : increment env P (stepCfg s (k + 1) xl) (List.replicate n du ++ [dl]) fuel
      ⟨List.replicate n 0 ++ [0], List.replicate n du ++ [dl], (n : Int) + 1, 1, 4, a⟩ = .ok (s', .accepted))
    {o : PFOut ℝ} (h : pathfollow env P (stepCfg s (k + 1) xl) fuel (List.replicate n 0) a = .ok o) :
    ∃ rest, o.recs = ⟨s'.x, s'.a, .accepted⟩ :: rest := by
  unfold pathfollow at h
  obtain ⟨j, e1, h⟩ := py_bind_eq_ok.1 h
  have hj : j = (n : Int) + 1 := by
    unfold startJ at e1
    rw [show (stepCfg s (k + 1) xl).jFixed = false from h3] at e1
    rw [if_neg (by decide)] at e1
    rw [← Except.ok.inj e1]
    simp
  have hw : initDxmax (List.replicate n (0 : ℝ) ++ [0]) (stepCfg s (k + 1) xl).dxmax = List.replicate n du ++ [dl] := by
    show List.replicate ((List.replicate n (0 : ℝ) ++ [0]).length - 1) s.du ++ [s.dlpf] = _
    rw [h1, h2]
    simp
  simp only [hw] at h
  rw [if_neg (by simp)] at h
  rw [show (stepCfg s (k + 1) xl).jPre = true from h4, if_pos rfl, hj, show (stepCfg s (k + 1) xl).incs = k + 1 from rfl] at h
  obtain ⟨⟨s1, recs⟩, e2, h⟩ := py_bind_eq_ok.1 h
  cases h
  rw [incrLoop, hi] at e2
  simp only [py_bind_ok] at e2
  rw [if_neg (by decide)] at e2
  obtain ⟨lim, -, e2⟩ := py_bind_eq_ok.1 e2
  cases lim with
  | true => cases e2; exact ⟨[], rfl⟩
  | false =>
    rw [if_neg (by decide)] at e2
    obtain ⟨⟨s2, rest⟩, -, e2⟩ := py_bind_eq_ok.1 e2
    cases e2
    exact ⟨rest, rfl⟩

/-- Path following with a single increment returns if that increment is accepted. -/
theorem pathfollow_single {env : Env ℝ} {P : Problem ℝ} {s : Settings ℝ} {fuel n : Nat} {xl : Int × ℝ} {a : Analysis ℝ}
    {du dl : ℝ} (h1 : s.du = du) (h2 : s.dlpf = dl) (h3 : s.jFixed = false) (h4 : s.jPre = true) {s' : PState ℝ}
    (hi : increment env P (stepCfg s 1 xl) (List.replicate n du ++ [dl]) fuel
      ⟨List.replicate n 0 ++ [0], List.replicate n du ++ [dl], (n : Int) + 1, 1, 4, a⟩ = .ok (s', .accepted))
    (hx : s'.x.length = n + 1) (hxl : IndexOK (n + 1) xl.1) :
    ∃ o, pathfollow env P (stepCfg s 1 xl) fuel (List.replicate n 0) a = .ok o ∧ o.recs = [⟨s'.x, s'.a, .accepted⟩] := by
  obtain ⟨lim, hlim⟩ : ∃ lim, limitReached s'.x (some xl) = .ok lim := by
    unfold limitReached
    obtain ⟨v, hv⟩ : ∃ v, pyGet s'.x (xl.1 - 1) = .ok v := pyGet_total (by rw [hx]; unfold IndexOK at hxl; omega)
      (by rw [hx]; unfold IndexOK at hxl; omega)
    obtain ⟨i, l⟩ := xl
    simp only at hv ⊢
    rw [hv]
    exact ⟨_, rfl⟩
  have hj : startJ (stepCfg s 1 xl) (List.replicate n (0 : ℝ) ++ [0]) = .ok ((n : Int) + 1) := by
    unfold startJ
    rw [show (stepCfg s 1 xl).jFixed = false from h3]
    simp
  have hw : initDxmax (List.replicate n (0 : ℝ) ++ [0]) (stepCfg s 1 xl).dxmax = List.replicate n du ++ [dl] := by
    show List.replicate ((List.replicate n (0 : ℝ) ++ [0]).length - 1) s.du ++ [s.dlpf] = _
    rw [h1, h2]
    simp
  have hloop : ∃ s2, incrLoop env P (stepCfg s 1 xl) (List.replicate n du ++ [dl]) fuel 1
      ⟨List.replicate n 0 ++ [0], List.replicate n du ++ [dl], (n : Int) + 1, 1, 4, a⟩ =
        .ok (s2, [⟨s'.x, s'.a, .accepted⟩]) := by
    rw [incrLoop, hi]
    simp only [py_bind_ok]
    rw [if_neg (by decide), show (stepCfg s 1 xl).xlimit = some xl from rfl, hlim]
    cases lim
    · exact ⟨_, rfl⟩
    · exact ⟨_, rfl⟩
  obtain ⟨s2, hloop⟩ := hloop
  unfold pathfollow
  simp only [hj, py_bind_ok, hw]
  rw [if_neg (by simp)]
  rw [show (stepCfg s 1 xl).jPre = true from h4, if_pos rfl, show (stepCfg s 1 xl).incs = 1 from rfl, hloop]
  exact ⟨_, rfl, rfl⟩

end TrussPy
