import Verif.Props.EndToEnd
import Verif.ExamplesValid
import Verif.Lemmas.Jacobian
import Verif.Props.Jacobian
/-!
# A complete run in exact real arithmetic with an accepted increment, used in the examples beside the theorems
-/

namespace TrussPy

/-- The bar of the example. -/
structure RbBar (b : Bar ℝ) : Prop where
  iA : b.iA = 0
  iE : b.iE = 1
  XA : b.XA = fun _ => 0
  XE : b.XE = fun d => if d = 0 then 1 else 0
  mat : b.mat = [1]
  geo : b.geo = [1]
  law : b.law = .el

theorem rbForce {b : Bar ℝ} (h : RbBar b) (c : Ctx ℝ) (sv : Option (List (List ℝ))) :
    forceFn c sv [b] [0, 0, 0, 1 / 4, 0, 0] 1 0 = 1 / 4 := by
  have hax : b.axis [0, 0, 0, 1 / 4, 0, 0] = fun d => if d = 0 then 5 / 4 else 0 := by
    funext d
    unfold Bar.axis row3
    rw [h.iA, h.iE, h.XA, h.XE]
    fin_cases d <;> norm_num
  have hl : len (b.axis [0, 0, 0, 1 / 4, 0, 0]) = 5 / 4 := by
    rw [hax]
    unfold len
    have : √((5 / 4 : ℝ) ^ 2) = 5 / 4 := Real.sqrt_sq (by norm_num)
    simpa [show ¬ ((2 : Fin 3) = 0) by decide] using this
  have hr : len b.ref = 1 := by
    unfold len Bar.ref
    rw [h.XA, h.XE]
    simp [show ¬ ((2 : Fin 3) = 0) by decide]
  have hd : b.dir [0, 0, 0, 1 / 4, 0, 0] 0 = 1 := by
    unfold Bar.dir
    rw [hl, hax]
    norm_num
  have hs : b.sgn 1 = 1 := by
    unfold Bar.sgn
    rw [h.iA, h.iE]
    norm_num
  unfold forceFn
  simp only [List.zipIdx_singleton, List.map_cons, List.map_nil, List.sum_cons, List.sum_nil, hd, hs, h.geo]
  have : b.stressAt (stateRow c sv 0) (b.stretch [0, 0, 0, 1 / 4, 0, 0] - 1) = 1 / 4 := by
    unfold Bar.stressAt stressAt
    rw [h.law, h.mat]
    show (1 : ℝ) * (b.stretch _ - 1) = 1 / 4
    unfold Bar.stretch
    rw [hl, hr]
    norm_num
  rw [this]
  norm_num

/-- Residual at the proposed vector. -/
theorem rbResidual {c : Ctx ℝ} {b : Bar ℝ} (hb : RbBar b) {a a' : Analysis ℝ} {ef : StepForces ℝ}
    (he : Evaluable c [b] a ef) (hn : c.ndof1 = 1) (hd : a.DOF1 = [3])
    (hs : scatter a.U [3] [1 / 4] = .ok [0, 0, 0, 1 / 4, 0, 0]) (h1 : ef.forces.getD 3 0 = 1)
    (h0 : ef.forcesConst.getD 3 0 = 0) {fx : List ℝ}
    (h : extF (modelProblem c) [0, 0] 1 (1 / 4) false a [1 / 4, 1 / 4] = .ok (a', fx)) : fx = [0, 0] := by
  obtain ⟨gv, vj, hg, hv, rfl⟩ := extF_ok h
  have he' : Evaluable c [b] { a with j := 1 } ef :=
    ⟨he.tables, ⟨he.fits.U, he.fits.U0, he.fits.r, he.fits.K, he.fits.Krow, he.fits.stretch, he.fits.force, he.fits.stress,
      he.fits.statev, he.fits.dof, he.fits.dofNodup⟩, he.complete, he.statev, he.ext, he.forces, he.forcesConst, he.dofs⟩
  obtain ⟨a1, h2, -⟩ := equilibrium_closed he' (u := [1 / 4]) (V0 := [0, 0]) (by rw [hn]; rfl) (by rw [hn]; rfl) (1 / 4) false
    (U := [0, 0, 0, 1 / 4, 0, 0]) (by show scatter a.U a.DOF1 _ = _; rw [hd]; exact hs)
  have hg' : equilibrium c { a with j := 1 } ([1 / 4] ++ [1 / 4]) [0, 0] .G false = .ok (a', gv) := hg
  rw [h2] at hg'
  have e : gv = _ := (congrArg Prod.snd (Except.ok.inj hg')).symm
  have hv' : vj = 1 / 4 := by
    have : (Except.ok (1 / 4 : ℝ) : Py ℝ) = .ok vj := hv
    exact (Except.ok.inj this).symm
  rw [e, hv']
  simp only [hd, List.map_cons, List.map_nil]
  rw [h0, h1, show comp 3 = 0 from rfl, show 3 / 3 = 1 from rfl, rbForce hb]
  norm_num

/-- Every pass of the recycle loop accepts the proposed vector. -/
theorem rbPass {c : Ctx ℝ} {b : Bar ℝ} (hb : RbBar b) {a : Analysis ℝ} {ef : StepForces ℝ}
    (he : Evaluable c [b] a ef) (hn : c.ndof1 = 1) (hd : a.DOF1 = [3])
    (hs : scatter a.U [3] [1 / 4] = .ok [0, 0, 0, 1 / 4, 0, 0]) (h1 : ef.forces.getD 3 0 = 1)
    (h0 : ef.forcesConst.getD 3 0 = 0) {s : Settings ℝ} (hset : ∃ n, s = { rbSettings with nstatev := n }) {xl : Int × ℝ}
    {rc : RCtx ℝ} (hx0 : rc.x0 = [0, 0]) {st : RState ℝ} (hdx : st.dxmax = [1 / 4, 1 / 4]) (hj : st.j = 1)
    (hpre : st.nPre = 0) (ht : Trial a st.a) {d : PassData ℝ} (h : IsPass rbEnv (modelProblem c) (stepCfg s 1 xl) rc st d) :
    d.valid = true ∧ d.nr.success = true ∧ d.nr.x = [1 / 4, 1 / 4] := by
  obtain ⟨n, rfl⟩ := hset
  have hmax : d.xmax = 1 / 4 := by
    have := h.hxmax
    rw [hx0, hdx, hj] at this
    have this : (Except.ok ((0 : ℝ) + 1 / 4 * ((1 : Int) : ℝ)) : Py ℝ) = .ok d.xmax := this
    have := Except.ok.inj this
    rw [← this]
    norm_num
  have hst : d.start = [0, 0] := by
    rw [h.hstart, if_neg (by
      rintro ⟨-, -, h⟩
      exact Bool.noConfusion (show true = false from h)), hx0]
  have hN := h.hnewton
  rw [hmax, hst, hx0, hj, hpre] at hN
  have hN : newtonLoop _ _ _ _ _ 8 0 st.a [0, 0] = .ok (d.a1, d.nr) := hN
  unfold newtonLoop at hN
  obtain ⟨⟨s1, J⟩, e1, hN⟩ := py_bind_eq_ok.1 hN
  obtain ⟨⟨s2, fx⟩, e2, hN⟩ := py_bind_eq_ok.1 hN
  obtain ⟨dx, e3, hN⟩ := py_bind_eq_ok.1 hN
  have e3 : dx = [1 / 4, 1 / 4] := (Except.ok.inj e3).symm
  subst e3
  simp only at hN
  rw [if_neg (by simp)] at hN
  obtain ⟨⟨s3, fx'⟩, e4, hN⟩ := py_bind_eq_ok.1 hN
  have t2 : Trial a s2 := (ht.trans (extDf_trial e1)).trans (extF_trial e2)
  have hv : (vadd [0, 0] [1 / 4, 1 / 4] : List ℝ) = [1 / 4, 1 / 4] := by norm_num [vadd]
  simp only [hv] at e4 hN
  have hfx : fx' = [0, 0] := by
    refine rbResidual hb (a := s2) (ef := ef) ?_ hn (t2.dof1.trans hd) ?_ h1 h0 e4
    · exact ⟨he.tables, t2.fits he.fits, he.complete, by rw [t2.statev]; exact he.statev, t2.ext.trans he.ext, he.forces,
        he.forcesConst, by rw [t2.dof1]; exact he.dofs⟩
    · rw [← hs]
      exact scatter_congr t2.Ulen (fun i hi => t2.Uout i (by rw [hd]; exact hi))
  subst hfx
  have n1 : Flt.lt (Flt.vnorm ([0, 0] : List ℝ)) (Flt.pow10neg 8) = true := by
    apply decide_eq_true
    show Real.sqrt _ < (10 : ℝ) ^ (-8 : Int)
    norm_num
  have n2 : Flt.lt (Flt.vnorm ([1 / 4, 1 / 4] : List ℝ)) (Flt.pow10neg 0) = true := by
    apply decide_eq_true
    show Real.sqrt _ < (10 : ℝ) ^ (-0 : Int)
    rw [Real.sqrt_lt' (by norm_num)]
    norm_num
  have hc : (Flt.lt (Flt.vnorm ([0, 0] : List ℝ)) (stepCfg { rbSettings with nstatev := n } 1 xl).ftol &&
      Flt.lt (Flt.vnorm ([1 / 4, 1 / 4] : List ℝ)) (stepCfg { rbSettings with nstatev := n } 1 xl).xtol) = true := by
    show (Flt.lt (Flt.vnorm ([0, 0] : List ℝ)) (Flt.pow10neg 8) && Flt.lt _ (Flt.pow10neg 0)) = true
    rw [n1, n2]; rfl
  rw [if_pos hc] at hN
  have hnr := (congrArg Prod.snd (Except.ok.inj hN)).symm
  simp only at hnr
  refine ⟨?_, by rw [hnr], by rw [hnr]⟩
  have hjj : d.j = 1 := by
    have := h.hj
    rw [hj] at this
    have this : (Except.ok (1 : Int) : Py Int) = .ok d.j := this
    exact (Except.ok.inj this).symm
  have hva := h.hvalid
  rw [hjj, hx0, hdx, hnr] at hva
  have hva : (Except.ok (decide (|((1 / 4 : ℝ) - 0) / (1 / 4)| ≤ 101 / 100)) : Py Bool) = .ok d.valid := hva
  rw [← Except.ok.inj hva]
  apply decide_eq_true
  norm_num

theorem rbBar {labels : List Int} (hl : labels = [1, 2]) {bars : List (Bar ℝ)} (h : Meant rbInput rbElems labels bars) :
    ∃ b, bars = [b] ∧ RbBar b := by
  subst hl
  cases h with
  | @cons _ b _ bs h hrest =>
  cases hrest
  obtain ⟨nA, hA, nE, hE, h⟩ := h
  have hconn := h.conn
  simp only [List.cons.injEq, and_true] at hconn
  simp only [rbInput, List.mem_cons, List.not_mem_nil, or_false] at hA hE
  have eA : nA = ⟨1, [0, 0, 0]⟩ := by
    rcases hA with rfl | rfl
    · exact absurd hconn.1 (by decide)
    · rfl
  have eE : nE = ⟨2, [1, 0, 0]⟩ := by
    rcases hE with rfl | rfl
    · rfl
    · exact absurd hconn.2 (by decide)
  subst eA eE
  refine ⟨b, rfl, ?_, ?_, ?_, ?_, h.mat, h.geo, ?_⟩
  · have := h.posA
    match hb : b.iA with
    | 0 => rfl
    | 1 => rw [hb] at this; exact absurd this (by decide)
    | k + 2 => rw [hb] at this; exact absurd this (by simp)
  · have := h.posE
    match hb : b.iE with
    | 0 => rw [hb] at this; exact absurd this (by decide)
    | 1 => rfl
    | k + 2 => rw [hb] at this; exact absurd this (by simp)
  · have := h.coordA
    simp only [List.cons.injEq, and_true] at this
    funext d
    fin_cases d
    · exact this.1.symm
    · exact this.2.1.symm
    · exact this.2.2.symm
  · have := h.coordE
    simp only [List.cons.injEq, and_true] at this
    funext d
    fin_cases d
    · exact this.1.symm
    · exact this.2.1.symm
    · exact this.2.2.symm
  · rcases h.law with ⟨-, h⟩ | ⟨h, -⟩
    · exact h
    · exact absurd h (by decide)

theorem rbLabels {m1 : Model ℝ} (hb : rbModel.build refArgsort = .ok m1) {c : Ctx ℝ} (hc : m1.ctx = some c) :
    c.nodes.labels = [1, 2] := by
  obtain ⟨c', bars, h2, hB, hperm, hsort, hm⟩ :=
    C61_structure_as_entered refArgsort_isArgsort rbEntered rbEnteredElems rbValid.posed hb
  rw [hc] at h2; cases h2
  refine (hperm.trans (by decide : ([2, 1] : List Int).Perm [1, 2])).eq_of_pairwise (le := (· < ·)) ?_ hsort (by decide)
  intro a b _ _ hab hba
  exact absurd hab (lt_asymm hba)

/-- The only recorded increment of the run is accepted with displacement and load factor 1/4. -/
theorem rbAccepted {m1 : Model ℝ} (hb : rbModel.build refArgsort = .ok m1) {c : Ctx ℝ} (hc : m1.ctx = some c)
    {outs : List (PFOut ℝ)} (hcalls : RunCalls rbEnv 4 m1 c outs) :
    ∃ r, recorded outs = [r] ∧ r.out = .accepted ∧ r.x = [1 / 4, 1 / 4] := by
  obtain ⟨m1', c', bars', a', r0, ft', h1, h2, -, -, h5, h6, h7, h8, -, -, h11, -, n, h13⟩ :=
    rbValid.built refArgsort_isArgsort rbEntered rbEnteredElems rfl
  rw [hb] at h1; cases h1
  rw [hc] at h2; cases h2
  rw [rbFree] at h5
  obtain ⟨c', bars, h2, hB, hperm, hsort, hm⟩ :=
    C61_structure_as_entered refArgsort_isArgsort rbEntered rbEnteredElems rbValid.posed hb
  rw [hc] at h2; cases h2
  have hl := rbLabels hb hc
  obtain ⟨b, rfl, hbar⟩ := rbBar hl hm
  have hC := C61_bars_complete rbEnteredElems rbValid.props hb hc hm
  have hnn : c.nnodes = 2 := by rw [hB.nnodes, hl]; rfl
  obtain ⟨c', d, ft, g1, g2, g3, -, g5, -, g7, -, -, g10, g11, g12⟩ := build_ready hb
  rw [hc] at g1; cases g1
  rw [h8] at g3; cases g3
  rw [h6] at g10; cases g10
  obtain ⟨nt, d', d1, d2, -, d4, -⟩ := C06_degrees_of_freedom_partial refArgsort_isArgsort rbEntered rbValid.posed.nodes
    (by decide) rbValid.supports hb
  rw [g5] at d1; cases d1
  rw [g2] at d2; cases d2
  have hdof : d.dof1 = [3] := by
    have h3 : 3 ∈ d.dof1 := (d4 1 2 (by rw [hl]; rfl) 0 (by decide)).1.2 rfl
    rw [g7] at h5
    match hd : d.dof1, h5 with
    | [x], _ =>
      rw [hd, List.mem_singleton] at h3
      rw [h3]
  obtain ⟨nt, ft, f1, f2, -, f4, -⟩ := C03_loads_partial refArgsort_isArgsort rbEntered rbValid.posed.nodes (by decide) hb
  rw [g5] at f1; cases f1
  rw [h8] at f2; cases f2
  have hrows : ft'.forces.rows = [[0, 0, 0], [1, 0, 0]] := by
    rw [f4, hl]
    rfl
  obtain ⟨a0, res, ft, ends, q1, q2, q3, q4⟩ := hcalls.chain
  rw [h6] at q1; cases q1
  rw [h8] at q3; cases q3
  have hlen : outs.length = 1 := by rw [hcalls.count, h13]; rfl
  match outs, hlen with
  | [o], _ =>
  obtain ⟨⟨p, hp, hstart⟩, -⟩ := q4 0 o rfl
  cases hp
  obtain ⟨incs, xl, i1, i2, i3, hpf⟩ := stepCall_iff.1 (hcalls.call 0 o rfl)
  rw [hrows, beginsStep_iff] at hstart
  obtain ⟨s1, -, -, fc, s2, s3, -⟩ := setStep_ok hstart
  generalize ha : o.startA = a at *
  have hinc : incs = 1 := by
    rw [h13] at i1
    exact (Except.ok.inj (show (Except.ok 1 : Py Nat) = .ok incs from i1)).symm
  subst hinc
  have hU : a.U = [0, 0, 0, 0, 0, 0] := by
    rw [s1.U]
    show List.replicate (3 * d.nnodes) (0 : ℝ) = _
    have := g12.U
    simp only [Analysis.fresh, List.length_replicate] at this
    rw [this, hnn]
    rfl
  have hD : a.DOF1 = [3] := s1.dof1.trans hdof
  have hred : a.Ured = [0] := by
    rw [s1.Ured]
    show List.replicate d.dof1.length (0 : ℝ) = _
    rw [hdof]
    rfl
  have hfc : fc = [0, 0, 0, 0, 0, 0] := (Except.ok.inj (show (Except.ok [0, 0, 0, 0, 0, 0] : Py (List ℝ)) = .ok fc from s2)).symm
  subst hfc
  have hev : Evaluable c [b] a ⟨(stepSlice [[0, 0, 0], [1, 0, 0]] 0).flatten, [0, 0, 0, 0, 0, 0]⟩ := by
    refine ⟨hB, ?_, hC, ?_, s3, by rw [hnn]; rfl, by rw [hnn]; rfl, by rw [hD, h5]; rfl⟩
    · have := h11.fits
      exact ⟨by rw [s1.U]; exact this.U, by rw [s1.U0]; exact this.U0, by rw [s1.r]; exact this.r, by rw [s1.K]; exact this.K,
        by rw [s1.K]; exact this.Krow, by rw [s1.stretch]; exact this.stretch, by rw [s1.force]; exact this.force,
        by rw [s1.stress]; exact this.stress, by rw [s1.statev]; exact this.statev, by rw [s1.dof1]; exact this.dof,
        by rw [s1.dof1]; exact this.dofNodup⟩
    · rw [s1.statev]
      exact h11.statev
  have hsc : scatter a.U [3] [1 / 4] = .ok [0, 0, 0, 1 / 4, 0, 0] := by rw [hU]; rfl
  have hset : ∃ n, m1.settings = { rbSettings with nstatev := n } := ⟨n, h13⟩
  rw [hred] at hpf
  obtain ⟨-, -, j, s', hj, -, -, hpath⟩ := pathfollow_ok hpf
  have hj1 : j = 1 := by
    rw [h13] at hj
    have hj : some (1 : Int) = some j ∨ _ := hj
    rcases hj with hj | ⟨hj, -⟩
    · exact (Option.some.inj hj).symm
    · cases hj
  subst hj1
  have hjf : (stepCfg m1.settings 1 xl).jFixed = true := by rw [h13]; rfl
  have hdx : initDxmax ([0] ++ [0]) (stepCfg m1.settings 1 xl).dxmax = [1 / 4, 1 / 4] := by rw [h13]; rfl
  have key : ∀ s1 o1, IsInc rbEnv (modelProblem c) (stepCfg m1.settings 1 xl)
      (initDxmax ([0] ++ [0]) (stepCfg m1.settings 1 xl).dxmax) (pfStart (stepCfg m1.settings 1 xl) [0] a 1) s1 o1 →
      o1 = .accepted ∧ s1.x = [1 / 4, 1 / 4] := by
    intro s1 o1 h
    have hskip : ∀ {p}, IsPre rbEnv (modelProblem c) (stepCfg m1.settings 1 xl)
        (pfStart (stepCfg m1.settings 1 xl) [0] a 1) p → p.success = false ∧ p.nPre = 0 ∧ p.j = 1 := by
      intro p hp
      cases hp with
      | skip => exact ⟨rfl, rfl, rfl⟩
      | one _ h => rw [hjf] at h; cases h
    cases h with
    | pre hp hs _ =>
      rw [(hskip hp).1] at hs
      cases hs
    | @solve p lpf k st1 st' _ dd hp hs hps hpass hend hlast =>
      obtain ⟨-, k1, k2⟩ := hskip hp
      have hany : ∀ {dd}, IsPass rbEnv (modelProblem c) (stepCfg m1.settings 1 xl)
          ((pfStart (stepCfg m1.settings 1 xl) [0] a 1).rctx p
            (initDxmax ([0] ++ [0]) (stepCfg m1.settings 1 xl).dxmax))
          ((pfStart (stepCfg m1.settings 1 xl) [0] a 1).start p) dd →
          dd.valid = true ∧ dd.nr.success = true ∧ dd.nr.x = [1 / 4, 1 / 4] := fun h =>
        rbPass (st := (pfStart (stepCfg m1.settings 1 xl) [0] a 1).start p) hbar hev h5 hD hsc rfl rfl hset rfl hdx k2 k1
          hp.trial h
      cases hps with
      | zero =>
        obtain ⟨v1, v2, v3⟩ := hany hpass
        cases hend with
        | accepted a2 fx _ _ _ => exact ⟨rfl, v3⟩
        | error1 hf => rw [v1, v2] at hf; cases hf
        | error2 hf => rw [v1, v2] at hf; cases hf
      | succ hat _ =>
        obtain ⟨dd, e1, e2⟩ := attempt_ok hat
        obtain ⟨v1, v2, v3⟩ := hany e1
        cases e2 with
        | again hf => rw [v1, v2] at hf; cases hf
  have hrec : recorded [o] = o.recs := by simp [recorded]
  rw [hrec]
  generalize o.recs = recs at hpath
  have hinc1 : (stepCfg m1.settings 1 xl).incs = 1 := rfl
  rw [hinc1] at hpath
  cases hpath with
  | stop h hs =>
    obtain ⟨rfl, -⟩ := key _ _ h
    cases hs
  | limit h _ _ =>
    obtain ⟨e1, e2⟩ := key _ _ h
    exact ⟨_, rfl, e1, e2⟩
  | cons h _ _ hrest =>
    cases hrest
    obtain ⟨e1, e2⟩ := key _ _ h
    exact ⟨_, rfl, e1, e2⟩

/-- Loads of the recorded increment. -/
theorem rbLoads {m1 m2 : Model ℝ} (hb : rbModel.build refArgsort = .ok m1) (hr : m1.run rbEnv 4 = .ok m2)
    {res : Results ℝ} (hres : m2.results = some res) {r0 : Analysis ℝ} {rs : Rec ℝ}
    (hR : res.R = r0 :: [rs].map (·.a)) {ef : StepForces ℝ} (hef : rs.a.extForces = some ef) {s : Nat}
    (hs : rs.a.step = s + 1) : ef.forces.length = ef.forcesConst.length ∧ s = 0 ∧
      ∀ (i : Nat) (k : ℝ), ef.forcesConst[i]? = some k → k = 0 := by
  obtain ⟨_, _, _, _, _, _, h1, -, -, -, -, -, -, -, -, -, -, -, n, hset⟩ :=
    rbValid.built refArgsort_isArgsort rbEntered rbEnteredElems rfl
  rw [hb] at h1; cases h1
  obtain ⟨-, h2⟩ := C42_loads_continuous hb hr (by rw [hset]; exact Nat.one_pos) (by
    intro k n hk
    rw [hset] at hk
    have : some 1 = some n := hk
    cases this
    decide) hres
  obtain ⟨h3, ef', h4, h5⟩ := h2 rs.a (by rw [hR]; rfl)
  rw [hef] at h4; cases h4
  refine ⟨by rw [h5, List.length_replicate], by omega, ?_⟩
  intro i k hk
  rw [h5] at hk
  exact List.eq_of_mem_replicate (List.mem_of_getElem? hk)

end TrussPy
