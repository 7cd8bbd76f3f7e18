import Verif.Lemmas.Trail
import Verif.Props.Follow
import Verif.Props.Path
import Verif.Props.Getters
import Verif.Lemmas.Compare
/-!
# The first step of a run along an equilibrium path of the entered structure
-/

set_option linter.unusedSectionVars false

namespace TrussPy

theorem initDxmax_width {x : List ℝ} {n : Nat} (hx : x.length = n) {du dl : ℝ} :
    initDxmax (x ++ [0]) (.vec [du, dl]) = List.replicate n du ++ [dl] := by
  show List.replicate ((x ++ [(0 : ℝ)]).length - 1) du ++ [dl] = _
  rw [List.length_append, hx]
  rfl

/-- The state in which `pathfollow` is called in the first step of a run; it does not depend on the order of the calls. -/
theorem step_ready {u : UserInput ℝ} {es : List (Elem ℝ)} {nsteps : Nat} (hv : ValidInput u es nsteps) (hns : 1 ≤ nsteps)
    (hus : UsualPlastic es) (nst : Nat)
    (hex : ∃ (as : List Int → List Nat) (m0 : Model ℝ), IsArgsort as ∧ Entered u m0 ∧ EnteredElems es m0 ∧
      m0.settings.ndim = 3 ∧ m0.settings.nstatev = nst) :
    ∃ (c : Ctx ℝ) (d : Dims) (bars : List (Bar ℝ)) (A1 : Analysis ℝ) (ef : StepForces ℝ), Laid u es c bars d.dof1 ∧
      LaidStep u es c bars A1 ef ∧ A1.Ready c ∧ A1.DOF1 = d.dof1 ∧ A1.Ured = List.replicate d.dof1.length 0 ∧ 1 ≤ A1.DOF1.length ∧
      ∀ (argsort : List Int → List Nat), IsArgsort argsort → ∀ m : Model ℝ,
        Entered u m → EnteredElems es m → m.settings.ndim = 3 → m.settings.nstatev = nst →
        ∃ m1 a r0 ft, m.build argsort = .ok m1 ∧ m1.ctx = some c ∧ m1.dims = some d ∧ m1.analysis = some a ∧
          m1.results = some ⟨[r0], []⟩ ∧ r0.lpf = some 0 ∧ m1.forces = some ft ∧
          m1.settings = { m.settings with nstatev := c.nstatev } ∧
          setStep ft.forces.rows [] 0 { a with Vred := a.Ured ++ [0], lpf := some 0 } = .ok A1 := by
  obtain ⟨as0, m0, has0, hu0, he0, hd0, hn0⟩ := hex
  obtain ⟨m10, c, bars0, a0, r00, ft, b1, b2, b3, b4, b5, b6, b7, b8, b9, b10, b11, b12, n0, b13⟩ :=
    hv.built has0 hu0 he0 hd0
  obtain ⟨c', d, bars, ft', h1, h2, h3, h4, h5, h6, h7, h8, h9, h10, h11, h12, h13, h14⟩ :=
    built_structure has0 hu0 he0 hv b1
  rw [h1] at b2; cases b2
  rw [h11] at b6
  have hae := (Option.some.inj b6).symm
  subst hae
  rw [h3] at b8; cases b8
  have h2n : 2 ≤ u.nodes.length := by
    obtain ⟨s⟩ := build_steps b1
    have he' := he0
    unfold EnteredElems at he'
    rw [s.he] at he'
    exact two_nodes he' hv.posed
  -- the tables
  have hnt : m10.nodes = some c.nodes := ctx_nodes h1
  obtain ⟨nt, k1, k2, -⟩ := C01_nodes_keep_coordinates has0 hu0 hv.posed.nodes b1
  rw [hnt] at k1; cases k1
  obtain ⟨nt, dm, d1, d2, d3, d4, -, d6, -, d8, -⟩ := C06_degrees_of_freedom_partial has0 hu0 hv.posed.nodes h2n hv.supports b1
  rw [hnt] at d1; cases d1
  rw [h2] at d2; cases d2
  have hlaid : Laid u es c bars d.dof1 := ⟨hv.posed.nodes, h6, k2, h4.nnodes, h7, hus, d6, h12.dof, h14⟩
  obtain ⟨nt, ft', f1, f2, f3, f4, f5, -⟩ := C03_loads_partial has0 hu0 hv.posed.nodes h2n b1
  rw [hnt] at f1; cases f1
  rw [h3] at f2; cases f2
  -- the analysis object of the first step
  set p : Analysis ℝ := { Analysis.fresh d.nnodes d.nelems d.dof0 d.dof1 c.nstatev with
    Vred := (Analysis.fresh d.nnodes d.nelems d.dof0 d.dof1 c.nstatev : Analysis ℝ).Ured ++ [0], lpf := some 0 } with hp
  obtain ⟨A1, hset, hready⟩ := setStep_total (rows := ft.forces.rows) (le := []) (k := 0) (a := p) b11 b9 b10
    (by have := hv.width; omega) (by simp)
  obtain ⟨hcarry, -, hlpf, fc, hfc, hext, hf0⟩ := setStep_ok hset
  obtain ⟨ef, e1, e2, e3⟩ := hready.ext
  rw [hext] at e1
  have hef := Option.some.inj e1
  have heval : Evaluable c bars A1 ef := ⟨h4, hready.base.fits, h5, hready.base.statev, by rw [hext, hef], e2, e3,
    hready.base.dofs⟩
  have hDA : A1.DOF1 = d.dof1 := hcarry.dof1
  have hUA : A1.U = List.replicate (3 * c.nnodes) 0 := by rw [h8]; exact hcarry.U
  have hUr : A1.Ured = List.replicate d.dof1.length 0 := hcarry.Ured
  have hfcz : ∀ q, ef.forcesConst.getD q 0 = 0 := by
    intro q
    have hz : fc = (stepSlice ft.forces.rows 0).flatten.map fun _ => 0 := (Except.ok.inj hfc).symm
    rw [← hef]
    show fc.getD q 0 = 0
    rw [hz, List.map_const']
    exact zero_table q
  have hfr : A1.f0red = A1.DOF1.map fun q => ef.forces.getD q 0 := by
    have hlen : (stepSlice ft.forces.rows 0).flatten.length = 3 * c.nnodes := by rw [← hef] at e2; exact e2
    rw [npTake_eq_map (0 : ℝ) (fun i hi => by rw [hlen]; exact h12.dof i hi)] at hf0
    rw [← Except.ok.inj hf0, hDA, ← hef]
    rfl
  have hload : ∀ q ∈ A1.DOF1, ef.forces.getD q 0 = firstLoad u (dofLabel c q) (comp q) := by
    intro q hq
    rw [hDA] at hq
    have hlab := hlaid.dofLabel hq
    have hrow : ft.forces.rows[q / 3]? = some (loadOf u.forces (dofLabel c q)) := by
      rw [f4, List.getElem?_map, hlab]
      rfl
    have := stepSlice_get (k := 0) b10 (by have := hv.width; omega) hrow (comp q).isLt
    rw [dof_split, Nat.mul_zero, Nat.zero_add] at this
    rw [← hef]
    show (stepSlice ft.forces.rows 0).flatten.getD q 0 = _
    unfold firstLoad
    rw [List.getD_eq_getElem?_getD, this, List.getD_eq_getElem?_getD]
  have hstep : LaidStep u es c bars A1 ef := ⟨by rw [hDA]; exact hlaid, heval, by rw [hlpf]; rfl, hfr, hUA, hfcz, hload,
    fresh_virgin h5 h13 hcarry.statev⟩
  refine ⟨c, d, bars, A1, ef, hlaid, hstep, hready, hDA, hUr, by rw [hDA, h10]; exact hv.free, ?_⟩
  intro as has m hu he hd hn
  have helem : m.elems = m0.elems := by
    have h1 : addElems none es = .ok m.elems := he
    rw [show addElems none es = .ok m0.elems from he0] at h1
    exact (Except.ok.inj h1).symm
  obtain ⟨m1, c', a', r, r', ft1, ft1', g1, g2, g3, gd, g5, g6, g7, g8, g9, g10, g11, g12, g13, g14, g15, g16⟩ :=
    build_compare has has0 hu hu0 rfl rfl rfl helem (hd.trans hd0.symm) (hn.trans hn0.symm) hv.posed.nodes h2n b1
  rw [h1] at g3; cases g3
  rw [h11] at g6
  have hae := (Option.some.inj g6).symm
  subst hae
  rw [h3] at g12; cases g12
  refine ⟨m1, _, r, ft1, g1, g2, gd.trans h2, g5, g7, g9, g11, g13, ?_⟩
  rw [g15, ← g16]
  exact hset

/-- The undeformed state as vector. -/
theorem undeformed {u : UserInput ℝ} {es : List (Elem ℝ)} {c : Ctx ℝ} {bars : List (Bar ℝ)} {A1 : Analysis ℝ} {ef : StepForces ℝ}
    (hstep : LaidStep u es c bars A1 ef) {d : Dims} (hDA : A1.DOF1 = d.dof1) (hUr : A1.Ured = List.replicate d.dof1.length 0)
    {U : Int → V3 ℝ} {l : ℝ} (h0 : ∀ n ∈ u.nodes, ∀ d, U n.label d = 0) (hl : l = 0) :
    List.ofFn (fieldVec c A1.DOF1 U l) = A1.Ured ++ [0] := by
  rw [ofFn_split, fieldVec_last, hl, hUr, ← hDA]
  congr 1
  rw [← List.ofFn_const]
  congr 1
  funext q
  rw [fieldVec_castSucc]
  obtain ⟨n, hn', hl⟩ := hstep.laid.node (hstep.laid.dofLabel (p := A1.DOF1[q]) (List.getElem_mem q.isLt))
  rw [← hl]
  exact h0 n hn' _

/-- Path following in the first step of a run. -/
theorem trail_ready {u : UserInput ℝ} {es : List (Elem ℝ)} {nsteps : Nat} (hv : ValidInput u es nsteps) (hns : 1 ≤ nsteps)
    (hus : UsualPlastic es) {P : List (Int × Fin 3)} (hP : FreeList u P) {j : Int} (hj1 : 1 ≤ j.natAbs)
    (hj2 : j.natAbs ≤ P.length + 1) {S : ℝ} (hS : 0 ≤ S) {U : ℝ → Int → V3 ℝ} {l : ℝ → ℝ} (ht : Trail u es P j S U l)
    {env : Env ℝ} (hsp : SolvesRegular env.spsolve (P.length + 1)) (hA : ArgMax env) (nst : Nat) :
    ∃ h0 > 0, ∃ f0 > 0, ∃ L C : ℝ, ∀ (argsort : List Int → List Nat), IsArgsort argsort → ∀ m : Model ℝ,
      Entered u m → EnteredElems es m → m.settings.ndim = 3 → m.settings.nstatev = nst →
      ∃ m1 c d bars a r0 ft A1, m.build argsort = .ok m1 ∧ m1.ctx = some c ∧ m1.dims = some d ∧ Laid u es c bars d.dof1 ∧
        m1.analysis = some a ∧
        m1.results = some ⟨[r0], []⟩ ∧ r0.lpf = some 0 ∧ m1.forces = some ft ∧
        m1.settings = { m.settings with nstatev := c.nstatev } ∧
        setStep ft.forces.rows [] 0 { a with Vred := a.Ured ++ [0], lpf := some 0 } = .ok A1 ∧
        ∀ h, 0 < h → h < h0 → FixedControl m.settings P.length j h → (10 : ℝ) ^ (-m.settings.ftol) ≤ f0 →
        ∀ (K : Nat) (xl : Int × ℝ), 1 ≤ xl.1 → xl.1 ≤ P.length + 1 → K * h ≤ S →
        ∀ N : Nat, Shrinks C (h + (10 : ℝ) ^ (-m.settings.ftol)) ((10 : ℝ) ^ (-m.settings.ftol)) N →
          Shrinks C (h + (10 : ℝ) ^ (-m.settings.ftol)) ((10 : ℝ) ^ (-m.settings.xtol)) N → (N : Int) + 1 ≤ m.settings.nfev →
        ∀ fuel, 1 ≤ fuel → ∃ o, pathfollow env (modelProblem c) (stepCfg m1.settings K xl) fuel A1.Ured A1 = .ok o ∧
          (∀ (q : Nat) r, o.recs[q]? = some r → r.out = .accepted ∧ r.x.length = P.length + 1 ∧
            r.x.getD (j.natAbs - 1) 0 = (q + 1) * h * (j.sign : ℝ) ∧
            ∀ i ≤ P.length, |r.x.getD i 0 - component P (U ((q + 1) * h)) (l ((q + 1) * h)) i| ≤
              L * (10 : ℝ) ^ (-m.settings.ftol)) ∧
          o.recs.length ≤ K ∧ (o.recs.length = K ∨ ∃ r v, o.recs.getLast? = some r ∧ r.x[(xl.1 - 1).toNat]? = some v ∧ xl.2 < |v|) := by
  by_cases hex : ∃ (as : List Int → List Nat) (m0 : Model ℝ), IsArgsort as ∧ Entered u m0 ∧ EnteredElems es m0 ∧
      m0.settings.ndim = 3 ∧ m0.settings.nstatev = nst
  swap
  · refine ⟨1, one_pos, 1, one_pos, 0, 0, ?_⟩
    intro as has m hu he hd hn
    exact absurd ⟨as, m, has, hu, he, hd, hn⟩ hex
  obtain ⟨c, d, bars, A1, ef, hlaid, hstep, hready, hDA, hUr, hfree, hall⟩ := step_ready hv hns hus nst hex
  -- its equilibrium path
  have hPd := hlaid.freeList hP
  have hPl : P.length = A1.DOF1.length := by rw [hPd, List.length_map, hDA]
  have hk : j.natAbs - 1 < A1.DOF1.length + 1 := by rw [← hPl]; omega
  have hjk : j.natAbs = ((⟨j.natAbs - 1, hk⟩ : Fin (A1.DOF1.length + 1)) : Nat) + 1 := by
    show j.natAbs = j.natAbs - 1 + 1
    omega
  have hpath := hstep.path hP hjk hS ht
  have hU0 := undeformed hstep hDA hUr ht.start ht.startLoad
  obtain ⟨g0, hg0, f0, hf0', L, C, key⟩ := C99_follows_path hstep.eval hready hstep.f0 (n := A1.DOF1.length)
    (by rw [hstep.eval.dofs]) hfree hjk hS hpath hU0 (by rw [← hPl]; exact hsp) hA
  refine ⟨g0, hg0, f0, hf0', L, C, ?_⟩
  intro as has m hu he hd hn
  obtain ⟨m1, a, r, ft1, g1, g2, gd, g5, g7, g9, g11, g13, hset⟩ := hall as has m hu he hd hn
  refine ⟨m1, c, d, bars, a, r, ft1, A1, g1, g2, gd, hlaid, g5, g7, g9, g11, g13, hset, ?_⟩
  · intro h hh hlt hfix hf K xl hx1 hx2 hKS N hN1 hN2 hN3 fuel hfuel
    have hcfg : stepCfg m1.settings K xl = stepCfg m.settings K xl := by rw [g13]; rfl
    have hw := initDxmax_width (x := A1.Ured) (n := A1.DOF1.length) (by rw [hUr, hDA]; simp) (du := m.settings.du)
      (dl := m.settings.dlpf)
    rw [hcfg]
    obtain ⟨o, o1, o2, o3⟩ := key h hh hlt (stepCfg m.settings K xl) hfix.fixed hfix.control hfix.plain hfix.overshoot
      (by show (0 : ℝ) < 10 ^ (-m.settings.ftol); positivity) hf (by
        show (initDxmax (A1.Ured ++ [0]) (.vec [m.settings.du, m.settings.dlpf])).length = _
        rw [hw]
        simp) (by
        show (initDxmax (A1.Ured ++ [0]) (.vec [m.settings.du, m.settings.dlpf]))[j.natAbs - 1]? = _
        rw [hw]
        have := hfix.width
        rw [hPl] at this
        split at this
        next hle =>
          rw [List.getElem?_append_left (by rw [List.length_replicate]; omega), List.getElem?_replicate, if_pos (by omega), this]
        next hle =>
          rw [List.getElem?_append_right (by rw [List.length_replicate]; omega), List.length_replicate,
            show j.natAbs - 1 - A1.DOF1.length = 0 by omega, ← this]
          rfl) (by
        intro q hq
        have hq : some xl = some q := hq
        cases hq
        rw [← hPl]
        exact ⟨hx1, hx2⟩) hKS N hN1 hN2 hN3 fuel hfuel
    have hlen : o.recs.length ≤ K := (C38_limit_stop _ _ _ _ _ _ o o1).2.1
    refine ⟨o, o1, ?_, hlen, ?_⟩
    · intro q r hr
      obtain ⟨r1, y, r2, r3, r4⟩ := o2 q r hr
      have hqK : q < o.recs.length := (List.getElem?_eq_some_iff.1 hr).1
      have hget : ∀ i : Fin (A1.DOF1.length + 1), r.x.getD i 0 = y i := by
        intro i
        rw [r2, List.getD_eq_getElem?_getD, List.getElem?_ofFn, dif_pos i.isLt]
        rfl
      have hPd' : P = A1.DOF1.map fun p => (dofLabel c p, comp p) := by rw [hDA]; exact hPd
      have hin : ((q : ℝ) + 1) * h ∈ Set.Icc 0 S := by
        refine ⟨by positivity, le_trans ?_ hKS⟩
        refine mul_le_mul_of_nonneg_right ?_ hh.le
        have : q + 1 ≤ K := by omega
        exact_mod_cast this
      refine ⟨r1, by rw [r2, hPl]; simp, ?_, ?_⟩
      · have h5 := hget ⟨j.natAbs - 1, hk⟩
        rw [r3] at h5
        simp only at h5
        rw [h5, ← component_eq hPd']
        exact ht.control _ hin
      · intro i hi
        rw [hPl] at hi
        have h5 := hget ⟨i, by omega⟩
        have h6 := r4 ⟨i, by omega⟩
        rw [← component_eq hPd', ← h5] at h6
        exact h6
    · rcases o3 with o3 | ⟨r, v, q, o4, o5, o6, o7⟩
      · exact Or.inl o3
      · right
        have o5 : some xl = some q := o5
        cases o5
        exact ⟨r, v, o4, o6, o7⟩

/-- What the table of a recorded increment shows. -/
theorem shows_of {u : UserInput ℝ} {es : List (Elem ℝ)} {c : Ctx ℝ} {bars : List (Bar ℝ)} {d : Dims} (hl : Laid u es c bars d.dof1)
    {P : List (Int × Fin 3)} (hP : FreeList u P) {a : Analysis ℝ} (hI : ReducedTo a.U d.dof1 a.Ured)
    (hU : a.U.length = 3 * c.nnodes) {x : List ℝ}
    (hx : x.length = P.length + 1) (hr : a.Ured = x.dropLast) (hlpf : x.getLast? = a.lpf) {U : Int → V3 ℝ} {l tol : ℝ}
    (hs : AllowedVelocity u U) (hc : ∀ i ≤ P.length, |x.getD i 0 - component P U l i| ≤ tol) :
    OnPath c.nodes.labels a U l tol := by
  have hPd := hl.freeList hP
  have hPl : P.length = d.dof1.length := by rw [hPd, List.length_map]
  have hlast := hc P.length (le_refl _)
  have hcl : component P U l P.length = l := by
    unfold component
    rw [List.getElem?_eq_none (le_refl _)]
  rw [hcl] at hlast
  refine ⟨⟨x.getD P.length 0, ?_, hlast⟩, ?_⟩
  · rw [← hlpf, List.getLast?_eq_getElem?, hx, Nat.add_sub_cancel, List.getD_eq_getElem?_getD,
      List.getElem?_eq_getElem (by omega)]
    rfl
  · intro i lab hi e
    have hin : 3 * i + e.val < 3 * c.nnodes := by
      have := (List.getElem?_eq_some_iff.1 hi).1
      have := hl.nnodes
      have := e.isLt
      omega
    show |a.U.getD (3 * i + e.val) 0 - U lab e| ≤ tol
    by_cases hm : 3 * i + e.val ∈ d.dof1
    · obtain ⟨k, hk⟩ := List.getElem?_of_mem hm
      have hkl := (List.getElem?_eq_some_iff.1 hk).1
      have h1 := (hI.free k _ hk).1
      have h2 := hc k (by omega)
      have h3 : component P U l k = U lab e := by
        unfold component
        have hp := dof_parts i e
        rw [hPd, List.getElem?_map, hk]
        show U (dofLabel c (3 * i + e)) (comp (3 * i + e)) = _
        rw [hp.2]
        congr 1
        unfold dofLabel
        rw [hp.1, List.getD_eq_getElem?_getD, hi]
        rfl
      rw [h3] at h2
      rw [hr, List.getElem?_dropLast, if_pos (by omega)] at h1
      rw [List.getD_eq_getElem?_getD, h1, ← List.getD_eq_getElem?_getD]
      exact h2
    · have h1 := hI.locked _ (by rw [hU]; exact hin) hm
      rw [List.getD_eq_getElem?_getD, h1]
      obtain ⟨n, hn, rfl⟩ := hl.node hi
      rw [hs n hn e (fun h => hm ((hl.dof i _ hi e).2 h))]
      simpa using le_trans (abs_nonneg _) hlast

section
variable {F : Type} [Zero F] [One F] [Add F] [Sub F] [Mul F] [Div F] [Neg F] [Flt F]

/-- What the results of a run hold of the first call of `pathfollow`. -/
theorem run_records {argsort : List Int → List Nat} {env : Env F} {fuel : Nat} {m m1 m2 : Model F} (hb : m.build argsort = .ok m1)
    (hr : m1.run env fuel = .ok m2) (hs1 : 1 ≤ m.settings.nsteps) {c : Ctx F} {d : Dims} {a r0 A1 : Analysis F}
    {ft : ForceTab F} (k2 : m1.ctx = some c) (kd : m1.dims = some d) (k3 : m1.analysis = some a)
    (k4 : m1.results = some ⟨[r0], []⟩) (k6 : m1.forces = some ft) (k7 : m1.settings = { m.settings with nstatev := c.nstatev })
    (k8 : setStep ft.forces.rows [] 0 { a with Vred := a.Ured ++ [0], lpf := some 0 } = .ok A1) {K : Nat} {xl : Int × F}
    (hK : m.settings.incs.ofStep 0 = some K) (hxl : m.settings.xlimit.ofStep 0 = some xl) {o : PFOut F}
    (o1 : pathfollow env (modelProblem c) (stepCfg m1.settings K xl) fuel A1.Ured A1 = .ok o)
    (o2 : ∀ (q : Nat) (r : Rec F), o.recs[q]? = some r → r.out = .accepted) :
    ∃ res, m1.nodes = some c.nodes ∧ m2.results = some res ∧ (m.settings.nsteps = 1 → res.R.length = o.recs.length + 1) ∧
      ∀ (q : Nat) (r : Rec F), o.recs[q]? = some r → res.R[q + 1]? = some r.a ∧ r.a.Vred = r.x ∧ r.a.Ured = r.x.dropLast ∧
        r.x.getLast? = r.a.lpf ∧ ReducedTo r.a.U d.dof1 r.a.Ured ∧ r.a.U.length = 3 * c.nnodes := by
  have hns1 : m1.settings.nsteps = m.settings.nsteps := by rw [k7]
  obtain ⟨c', d', res, r0', outs, g1, g2, g3, g4, g5, g6⟩ := C83_reduced_displacements hb hr (by rw [hns1]; omega)
  rw [k2] at g1; cases g1
  rw [kd] at g2; cases g2
  have hlen : 0 < outs.length := by rw [g4.count, hns1]; omega
  obtain ⟨o', outs', rfl⟩ := List.exists_cons_of_length_pos hlen
  obtain ⟨incs, xl', q1, q2, q3, q4⟩ := stepCall_iff.1 (g4.call 0 o' rfl)
  obtain ⟨a', res', ft', ends, w1, w2, w3, w4⟩ := g4.chain
  rw [k3] at w1; cases w1
  rw [k4] at w2; cases w2
  rw [k6] at w3; cases w3
  obtain ⟨⟨p, v1, v2⟩, -⟩ := w4 0 o' rfl
  cases v1
  simp only [List.take_zero, List.append_nil] at v2
  rw [beginsStep_iff, k8] at v2
  have hA1 := Except.ok.inj v2
  have hincs : incs = K := by
    rw [stepIncs_iff, k7] at q1
    exact Option.some.inj (q1.symm.trans hK)
  have hxl' : xl' = xl := by
    rw [stepXlimit_iff, k7] at q2
    exact Option.some.inj (q2.symm.trans hxl)
  subst hincs hxl'
  rw [← hA1, o1] at q4
  have ho := Except.ok.inj q4
  subst ho
  have hRi : ∀ (i : Nat) (r : Rec F), o.recs[i]? = some r → res.R[i + 1]? = some r.a := by
    intro i r hir
    rw [g5, List.getElem?_cons_succ, List.getElem?_map]
    unfold recorded
    rw [List.flatMap_cons, List.getElem?_append_left (List.getElem?_eq_some_iff.1 hir).1, hir]
    rfl
  obtain ⟨c2, d2, r02, outs2, y1, y2, y3, -, -, -, -, y8, y9, -, res2, y11, y12⟩ := run_summary hb hr
  rw [k2] at y1; cases y1
  rw [kd] at y2; cases y2
  rw [g3] at y11; cases y11
  have hUlen : ∀ (i : Nat) b, res.R[i + 1]? = some b → b.U.length = 3 * c.nnodes := by
    intro i b hb
    rcases y12 with ⟨e1, -⟩ | ⟨-, e2⟩
    · omega
    rw [e2, List.getElem?_cons_succ, List.getElem?_map, Option.map_eq_some_iff] at hb
    obtain ⟨r, hr, rfl⟩ := hb
    have hi := (List.getElem?_eq_some_iff.1 hr).1
    exact (y8 i _ r (List.getElem?_eq_getElem (by simp; omega)) hr).next.fits.U
  refine ⟨res, ctx_nodes k2, g3, ?_, ?_⟩
  · intro h1
    have : outs' = [] := by
      have := g4.count
      rw [hns1, h1] at this
      exact List.eq_nil_of_length_eq_zero (by simpa using this)
    subst this
    rw [g5]
    simp [recorded]
  · intro i r hir
    obtain p1 := o2 i r hir
    obtain ⟨-, -, -, hs⟩ := C39_snapshots _ _ _ _ _ _ o o1
    obtain ⟨s1, s2, s3, -⟩ := hs i r.x r.a (by simp [PFOut.resX, hir]) (by simp [PFOut.resA, hir])
    have hmem : r ∈ recorded (o :: outs') := by
      unfold recorded
      rw [List.flatMap_cons]
      exact List.mem_append_left _ (List.mem_of_getElem? hir)
    obtain ⟨v, w, z1, z2, z3⟩ := g6 r.a (List.mem_cons_of_mem _ (List.mem_map_of_mem (List.mem_filter.2 ⟨hmem, by rw [p1]; rfl⟩)))
    cases z1; cases z2
    exact ⟨hRi i r hir, s1, s2, s3, z3, hUlen i _ (hRi i r hir)⟩

/-- A run with one step returns if `pathfollow` does. -/
theorem one_step_returns {env : Env F} {fuel : Nat} {m m1 : Model F} {c : Ctx F} {a r0 A1 : Analysis F} {ft : ForceTab F}
    (hs1 : m.settings.nsteps = 1) (hlog : m.settings.log ≤ 1) (k2 : m1.ctx = some c) (k3 : m1.analysis = some a)
    (k4 : m1.results = some ⟨[r0], []⟩) (k5 : r0.lpf = some 0) (k6 : m1.forces = some ft)
    (k7 : m1.settings = { m.settings with nstatev := c.nstatev })
    (k8 : setStep ft.forces.rows [] 0 { a with Vred := a.Ured ++ [0], lpf := some 0 } = .ok A1) {K : Nat} {xl : Int × F}
    (hK : m.settings.incs.ofStep 0 = some K) (hxl : m.settings.xlimit.ofStep 0 = some xl) {o : PFOut F}
    (o1 : pathfollow env (modelProblem c) (stepCfg m1.settings K xl) fuel A1.Ured A1 = .ok o) :
    ∃ m2, m1.run env fuel = .ok m2 := by
  obtain ⟨R1, lv, z1, z2⟩ := endStep_fewer (as := o.recs.map (·.a)) (R := [r0, r0]) (by simp)
    (by simp [lpfOf, k5]) (by
      intro b hb
      obtain ⟨r, hr, rfl⟩ := List.mem_map.1 hb
      obtain ⟨i, hir⟩ := List.getElem?_of_mem hr
      obtain ⟨-, -, -, hs⟩ := C39_snapshots _ _ _ _ _ _ o o1
      obtain ⟨-, -, -, s4⟩ := hs i r.x r.a (by simp [PFOut.resX, hir]) (by simp [PFOut.resA, hir])
      exact Option.isSome_iff_ne_none.2 s4)
  have hstep : Steps env fuel c m1.settings ft.forces.rows { a with Vred := a.Ured ++ [0], lpf := some 0 }
      ⟨[r0, r0], []⟩ ([] ++ [o]) (resetLpf o.final) ⟨R1, [] ++ [lv]⟩ :=
    .snoc .nil (incs := K) (xl := xl) (stepIncs_iff.2 (by rw [k7]; exact hK))
      (stepXlimit_iff.2 (by rw [k7]; exact hxl)) k8 o1 z1 z2
  exact ⟨_, run_of_steps (outs := []) (rest := []) k2 k3 k4 k6 (by rw [k7]; intro hl; exact absurd hl (not_lt.2 hlog))
    (by rw [k7]; exact hs1.symm) hstep⟩

end

/-- What the results of a run show of the first call of `pathfollow`. -/
theorem run_shows {u : UserInput ℝ} {es : List (Elem ℝ)} {P : List (Int × Fin 3)} (hP : FreeList u P)
    {argsort : List Int → List Nat} {env : Env ℝ} {fuel : Nat} {m m1 m2 : Model ℝ} (hb : m.build argsort = .ok m1)
    (hr : m1.run env fuel = .ok m2) (hs1 : 1 ≤ m.settings.nsteps) {c : Ctx ℝ} {d : Dims} {bars : List (Bar ℝ)} {a r0 A1 : Analysis ℝ}
    {ft : ForceTab ℝ} (k2 : m1.ctx = some c) (kd : m1.dims = some d) (kl : Laid u es c bars d.dof1) (k3 : m1.analysis = some a)
    (k4 : m1.results = some ⟨[r0], []⟩) (k6 : m1.forces = some ft) (k7 : m1.settings = { m.settings with nstatev := c.nstatev })
    (k8 : setStep ft.forces.rows [] 0 { a with Vred := a.Ured ++ [0], lpf := some 0 } = .ok A1) {K : Nat} {xl : Int × ℝ}
    (hK : m.settings.incs.ofStep 0 = some K) (hxl : m.settings.xlimit.ofStep 0 = some xl) {o : PFOut ℝ}
    (o1 : pathfollow env (modelProblem c) (stepCfg m1.settings K xl) fuel A1.Ured A1 = .ok o)
    (o2 : ∀ (q : Nat) (r : Rec ℝ), o.recs[q]? = some r → r.out = .accepted ∧ r.x.length = P.length + 1) :
    ∃ res, m1.nodes = some c.nodes ∧ m2.results = some res ∧ (m.settings.nsteps = 1 → res.R.length = o.recs.length + 1) ∧
      ∀ (q : Nat) (r : Rec ℝ), o.recs[q]? = some r → res.R[q + 1]? = some r.a ∧ r.a.Vred = r.x ∧
        ∀ (U : Int → V3 ℝ) (l tol : ℝ), AllowedVelocity u U → (∀ i ≤ P.length, |r.x.getD i 0 - component P U l i| ≤ tol) →
          OnPath c.nodes.labels r.a U l tol := by
  obtain ⟨res, h1, h2, h3, h4⟩ := run_records hb hr hs1 k2 kd k3 k4 k6 k7 k8 hK hxl o1 fun q r h => (o2 q r h).1
  refine ⟨res, h1, h2, h3, fun i r hir => ?_⟩
  obtain ⟨s0, s1, s2, s3, s4, s5⟩ := h4 i r hir
  exact ⟨s0, s1, fun U l tol hU hc => shows_of kl hP s4 s5 (o2 i r hir).2 s2 s3 hU hc⟩

end TrussPy
