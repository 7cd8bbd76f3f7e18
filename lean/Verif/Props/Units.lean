import Verif.Lemmas.Units
import Verif.Lemmas.Run
import Verif.Lemmas.Trial
import Verif.Spec.Linear
import Verif.Props.Eval
import Verif.ExamplesExact
/-!
# C81: results do not depend on the units in which the structure is entered
-/

set_option linter.unusedSectionVars false

namespace TrussPy

/-- **C81** Entered in other units, the structure has the same stretches, and its stresses, forces, residual and state
variables are those of the original structure, converted. -/
theorem C81_residual {t : Units} {c c' : Ctx ℝ} {bars bars' : List (Bar ℝ)} (hB : c.Bars bars) (hB' : c'.Bars bars')
    (hc : Converted t c c' bars bars') {a b : Analysis ℝ} (hf : a.Fits c) (hf' : b.Fits c') (hab : a.Converted t b)
    {V V0 : List ℝ} (hV : V0.length = V.length) {w : Bool} {a1 : Analysis ℝ} {g : List ℝ}
    (h : equilibrium c a V V0 .G w = .ok (a1, g)) :
    ∃ b1, equilibrium c' b (convV t c.ndof1 V) (convV t c.ndof1 V0) .G w = .ok (b1, g.map (t.force * ·)) ∧
      a1.Converted t b1 ∧ b1.stretch = a1.stretch ∧ b1.elementStress = a1.elementStress.map (t.e * ·) ∧
      b1.elementForce = a1.elementForce.map (t.force * ·) ∧
      b1.r = a1.r.map (fun v d => t.force * v d) ∧ b1.g = a1.g.map (t.force * ·) := by
  obtain ⟨lpf, u, u0, U, U0, outs, ef, gg, p1, p2, p3, p4, p5, p6, p7, rfl⟩ := equilibrium_G hB hf h
  have hz : zeroR c'.nnodes = (zeroR c.nnodes : List (V3 ℝ)).map fun v d => t.force * v d := by
    rw [hc.nnodes]
    unfold zeroR
    simp
  have q1 := splitV_conv (t := t) hc.ndof1 hab.lpf hV p1
  have q2 := scatter_map (α := t.s) p2
  have q3 := scatter_map (α := t.s) p3
  have q4 := evalAll_conv (t := t) hc.nstatev hc.length hc.bar p4
  rw [← hab.U, ← hab.dofs] at q2
  rw [← hab.U0, ← hab.dofs] at q3
  rw [← hab.statev] at q4
  have q5 : b.extForces = some ⟨ef.forces.map (t.force * ·), ef.forcesConst.map (t.force * ·)⟩ := by
    rw [hab.loads, p5]; rfl
  have hr := addBars_conv (t := t) (outs := outs) (zeroR c.nnodes) hc.length hc.bar
  rw [← hz] at hr
  have q6 := residual_scaled (q := t.force) p6
  rw [← hr] at q6
  have q7 := npTake_map_ok (t.force * ·) p7
  rw [← hab.dofs] at q7
  refine ⟨_, equilibrium_G_ok hB' hf' q1 q2 q3 q4 q5 q6 q7, ?_, ?_⟩
  · have hw : (w && decide (0 < c'.nstatev) && !bars'.isEmpty) = (w && decide (0 < c.nstatev) && !bars.isEmpty) := by
      have : bars'.isEmpty = bars.isEmpty := by
        have := hc.length
        cases bars <;> cases bars' <;> simp_all
      rw [this, hc.nstatev]
    unfold afterG
    simp only [hw]
    split
    · refine ⟨hab.dofs, rfl, rfl, rfl, hab.loads, hab.loadsFree, ?_⟩
      simp only [Option.map_some, List.map_map]
      congr 2
      funext o
      simp only [Function.comp, TrussOut.conv]
      cases o.statev <;> rfl
    · exact ⟨hab.dofs, rfl, rfl, hab.lpf, hab.loads, hab.loadsFree, hab.statev⟩
  · have hfields : ∀ (c : Ctx ℝ) (U U0 u : List ℝ) (bars : List (Bar ℝ)) (outs : List (TrussOut ℝ)) (gg : List ℝ) (a : Analysis ℝ),
        (afterG c w lpf u U U0 bars outs gg a).stretch = outs.map (·.lam) ∧
        (afterG c w lpf u U U0 bars outs gg a).elementStress = outs.map (·.stress) ∧
        (afterG c w lpf u U U0 bars outs gg a).elementForce = outs.map (·.N) ∧
        (afterG c w lpf u U U0 bars outs gg a).r = (bars.zip outs).foldl addBar (zeroR c.nnodes) ∧
        (afterG c w lpf u U U0 bars outs gg a).g = gg := by
      intros
      unfold afterG
      simp only
      split <;> exact ⟨rfl, rfl, rfl, rfl, rfl⟩
    obtain ⟨f1, f2, f3, f4, f5⟩ := hfields c U U0 u bars outs gg a
    obtain ⟨g1, g2, g3, g4, g5⟩ := hfields c' (U.map (t.s * ·)) (U0.map (t.s * ·)) (u.map (t.s * ·)) bars'
      (outs.map (·.conv t)) (gg.map (t.force * ·)) b
    rw [f1, f2, f3, f4, f5, g1, g2, g3, g4, g5, hr]
    simp only [List.map_map]
    exact ⟨rfl, rfl, rfl, trivial, trivial⟩

/-- **C81** The stiffness is converted as force by length. -/
theorem C81_stiffness {t : Units} {c c' : Ctx ℝ} {bars bars' : List (Bar ℝ)} (hB : c.Bars bars) (hB' : c'.Bars bars')
    (hc : Converted t c c' bars bars') {a b : Analysis ℝ} (hf : a.Fits c) (hf' : b.Fits c') (hab : a.Converted t b)
    {V : List ℝ} {a1 : Analysis ℝ} {K : List (List ℝ)} (h : stiffness c a V = .ok (a1, K)) :
    ∃ b1, stiffness c' b (convV t c.ndof1 V) = .ok (b1, K.map (·.map (t.force / t.s * ·))) ∧ a1.Converted t b1 ∧
      b1.K = a1.K.map (·.map fun m i k => t.force / t.s * m i k) := by
  obtain ⟨lpf, u, u0, U, U0, outs, p1, p2, p3, p4, p5, rfl⟩ := stiffness_inv hB hf h
  have hz : zeroK c'.nnodes = (zeroK c.nnodes : List (List (M3 ℝ))).map (·.map fun m i k => t.stiff * m i k) := by
    rw [hc.nnodes]
    unfold zeroK
    simp
  have q1 := splitV_conv (t := t) hc.ndof1 hab.lpf rfl p1
  have q2 := scatter_map (α := t.s) p2
  have q3 := scatter_map (α := t.s) p3
  have q4 := evalAll_conv (t := t) hc.nstatev hc.length hc.bar p4
  rw [← hab.U, ← hab.dofs] at q2
  rw [← hab.U0, ← hab.dofs] at q3
  rw [← hab.statev] at q4
  have hr := addBarsK_conv (t := t) (outs := outs) (zeroK c.nnodes) hc.length hc.bar
  rw [← hz] at hr
  have hk := equilibrium_K_ok hB' hf' q1 q2 q3 q4
  have hred : (b.DOF1.map fun p => b.DOF1.map fun q =>
      kOut ((bars'.zip (outs.map (·.conv t))).foldl addBarK (zeroK c'.nnodes)) p q) = K.map (·.map (t.force / t.s * ·)) := by
    rw [hr, p5, hab.dofs, List.map_map]
    apply List.map_congr_left
    intro p _
    simp only [Function.comp, List.map_map]
    apply List.map_congr_left
    intro q _
    exact kOut_scaled _ _ _ _
  refine ⟨{ b with
    U := U.map (t.s * ·)
    U0 := U0.map (t.s * ·)
    K := (bars'.zip (outs.map (·.conv t))).foldl addBarK (zeroK c'.nnodes)
    Kred := K.map (·.map (t.force / t.s * ·)) }, ?_, ?_, ?_⟩
  · unfold stiffness
    rw [hk, py_bind_ok, ← hred]
    rfl
  · exact ⟨hab.dofs, rfl, rfl, hab.lpf, hab.loads, hab.loadsFree, hab.statev⟩
  · exact hr

/-- **C81** A state of the structure is in equilibrium in one system of units exactly if it is in the other. -/
theorem C81_equilibrium {t : Units} {c c' : Ctx ℝ} {bars bars' : List (Bar ℝ)} (hB : c.Bars bars) (hB' : c'.Bars bars')
    (hc : Converted t c c' bars bars') {a b : Analysis ℝ} (hf : a.Fits c) (hf' : b.Fits c') (hab : a.Converted t b)
    {V V0 : List ℝ} (hV : V0.length = V.length) {w : Bool} {a1 b1 : Analysis ℝ} {g g' : List ℝ}
    (h : equilibrium c a V V0 .G w = .ok (a1, g))
    (h' : equilibrium c' b (convV t c.ndof1 V) (convV t c.ndof1 V0) .G w = .ok (b1, g')) :
    (∀ x ∈ g', x = 0) ↔ ∀ x ∈ g, x = 0 := by
  obtain ⟨b2, h2, -⟩ := C81_residual hB hB' hc hf hf' hab hV h
  rw [h'] at h2
  cases h2
  have hq : t.force ≠ 0 := (mul_pos t.ha t.he).ne'
  simp [hq]

theorem dot_conv {row du : List ℝ} (hl : row.length = du.length) {s : ℝ} (hs : s ≠ 0) (q f l : ℝ) :
    (List.zipWith (· * ·) (row.map (q / s * ·) ++ [-(q * f)]) (du.map (s * ·) ++ [l])).sum =
      q * (List.zipWith (· * ·) (row ++ [-f]) (du ++ [l])).sum := by
  rw [List.zipWith_append (by simpa using hl), List.zipWith_append hl, List.sum_append, List.sum_append, mul_add]
  congr 1
  · clear f l
    induction row generalizing du with
    | nil => simp
    | cons x row ih =>
      match du, hl with
      | y :: du, hl =>
        simp only [List.map_cons, List.zipWith_cons_cons, List.sum_cons]
        rw [ih (by simpa using hl), mul_add]
        congr 1
        field_simp
  · simp
    ring

theorem dot_unit : ∀ {m i : Nat} {v : List ℝ} {x : ℝ}, v.length = m → v[i]? = some x →
    (List.zipWith (· * ·) ((List.replicate m (0 : ℝ)).set i 1) v).sum = x
  | 0, i, v, x, hm, hi => by rw [List.length_eq_zero_iff.1 hm] at hi; cases hi
  | m + 1, 0, y :: v, x, hm, hi => by
    cases hi
    rw [List.replicate_succ, List.set_cons_zero, List.zipWith_cons_cons, List.sum_cons, one_mul]
    have : ∀ (m : Nat) (v : List ℝ), (List.zipWith (· * ·) (List.replicate m (0 : ℝ)) v).sum = 0 := by
      intro m
      induction m with
      | zero => intro v; rfl
      | succ m ih =>
        intro v
        cases v with
        | nil => rfl
        | cons y v => rw [List.replicate_succ, List.zipWith_cons_cons, List.sum_cons, ih, zero_mul, add_zero]
    rw [this, add_zero]
  | m + 1, i + 1, y :: v, x, hm, hi => by
    rw [List.replicate_succ, List.set_cons_succ, List.zipWith_cons_cons, List.sum_cons, zero_mul, zero_add]
    exact dot_unit (by simpa using hm) hi
  | m + 1, 0, [], x, hm, hi => by cases hi
  | m + 1, i + 1, [], x, hm, hi => by cases hi

theorem convV_length (t : Units) (n : Nat) (V : List ℝ) : (convV t n V).length = V.length := by
  unfold convV
  simp only [List.length_append, List.length_map, List.length_take, List.length_drop]
  omega

theorem convV_get (t : Units) (n : Nat) (V : List ℝ) (i : Nat) : (convV t n V)[i]? = V[i]?.map (t.comp n i * ·) := by
  unfold convV Units.comp
  by_cases hi : i < n
  · by_cases hv : i < V.length
    · rw [List.getElem?_append_left (by simp; omega), List.getElem?_map, List.getElem?_take_of_lt hi, if_pos hi]
    · rw [List.getElem?_eq_none (by simp; omega), List.getElem?_eq_none (by omega)]
      rfl
  · rw [if_neg hi]
    by_cases hv : i < V.length
    · rw [List.getElem?_append_right (by simp; omega), List.getElem?_drop, List.length_map, List.length_take]
      rw [show n + (i - min n V.length) = i by omega]
      cases V[i]? <;> simp
    · rw [List.getElem?_eq_none (by simp; omega), List.getElem?_eq_none (by omega)]
      rfl

theorem convV_dropLast (t : Units) (n : Nat) (V : List ℝ) :
    (convV t n V).dropLast = convV t n V.dropLast := by
  apply List.ext_getElem?
  intro i
  rw [convV_get, List.getElem?_dropLast, List.getElem?_dropLast, convV_get, convV_length]
  split <;> rfl

theorem Analysis.Fits.setJ {c : Ctx ℝ} {a : Analysis ℝ} (h : a.Fits c) (j : Int) : ({ a with j := j } : Analysis ℝ).Fits c :=
  ⟨h.U, h.U0, h.r, h.K, h.Krow, h.stretch, h.force, h.stress, h.statev, h.dof, h.dofNodup⟩

theorem Analysis.Converted.setJ {t : Units} {a b : Analysis ℝ} (h : a.Converted t b) (j : Int) :
    ({ a with j := j } : Analysis ℝ).Converted t { b with j := j } :=
  ⟨h.dofs, h.U, h.U0, h.lpf, h.loads, h.loadsFree, h.statev⟩

/-- **C81** The system of equations of the solver in other units: the equilibrium equations are converted as forces, the control
equation as the controlled component. -/
theorem C81_extended_residual {t : Units} {c c' : Ctx ℝ} {bars bars' : List (Bar ℝ)} (hB : c.Bars bars) (hB' : c'.Bars bars')
    (hc : Converted t c c' bars bars') {a b : Analysis ℝ} (hf : a.Fits c) (hf' : b.Fits c') (hab : a.Converted t b)
    {V V0 : List ℝ} (hV : V0.length = V.length) {w : Bool} {j : Int} (hj : j ≠ 0) {Vmax : ℝ} {a1 : Analysis ℝ} {fx : List ℝ}
    (h : extF (modelProblem c) V0 j Vmax w a V = .ok (a1, fx)) :
    ∃ b1 g l, fx = g ++ [l] ∧
      extF (modelProblem c') (convV t c.ndof1 V0) j (t.comp c.ndof1 (j.natAbs - 1) * Vmax) w b (convV t c.ndof1 V) =
        .ok (b1, g.map (t.force * ·) ++ [t.comp c.ndof1 (j.natAbs - 1) * l]) ∧ a1.Converted t b1 := by
  unfold extF at h
  obtain ⟨⟨a2, gv⟩, h1, h⟩ := py_bind_eq_ok.1 h
  obtain ⟨vj, h2, h⟩ := py_bind_eq_ok.1 h
  cases h
  obtain ⟨b2, h3, h4, -⟩ := C81_residual hB hB' hc (hf.setJ j) (hf'.setJ j) (hab.setJ j) hV h1
  have hi : ((j.natAbs : Int) - 1) = ((j.natAbs - 1 : Nat) : Int) := by omega
  rw [hi] at h2
  have h2' := pyGet_ok_nat.1 h2
  have h5 : pyGet (convV t c.ndof1 V) ((j.natAbs - 1 : Nat) : Int) = .ok (t.comp c.ndof1 (j.natAbs - 1) * vj) := by
    rw [pyGet_ok_nat, convV_get, h2']
    rfl
  refine ⟨b2, _, _, rfl, ?_, h4⟩
  unfold extF
  have h3' : (modelProblem c').g { b with j := j } (convV t c.ndof1 V) (convV t c.ndof1 V0) w =
      .ok (b2, gv.map (t.force * ·)) := h3
  simp only [h3', py_bind_ok, hi, h5]
  show Except.ok (_, _) = Except.ok (_, _)
  congr 3
  · simp
  · rw [mul_sub]

/-- **C81** A Newton correction in one system of units is, converted, a Newton correction in the other. -/
theorem C81_newton {t : Units} {c c' : Ctx ℝ} {bars bars' : List (Bar ℝ)} (hB : c.Bars bars) (hB' : c'.Bars bars')
    (hc : Converted t c c' bars bars') {a b : Analysis ℝ} (hf : a.Fits c) (hf' : b.Fits c') (hab : a.Converted t b)
    (hd : a.DOF1.length = c.ndof1)
    {V V0 dx : List ℝ} (hV : V.length = c.ndof1 + 1) (hV0 : V0.length = c.ndof1 + 1) (hx : dx.length = c.ndof1 + 1) {w : Bool}
    {j : Int} (hj : j ≠ 0) {Vmax : ℝ} {a1 a2 : Analysis ℝ} {J : List (List ℝ)} {fx : List ℝ}
    (h1 : extDf (modelProblem c) j a V = .ok (a1, J)) (h2 : extF (modelProblem c) V0 j Vmax w a1 V = .ok (a2, fx))
    (hs : matVec J dx = fx.map fun v => -v) :
    ∃ b1 b2 J' fx', extDf (modelProblem c') j b (convV t c.ndof1 V) = .ok (b1, J') ∧
      extF (modelProblem c') (convV t c.ndof1 V0) j (t.comp c.ndof1 (j.natAbs - 1) * Vmax) w b1 (convV t c.ndof1 V) =
        .ok (b2, fx') ∧
      matVec J' (convV t c.ndof1 dx) = (fx'.map fun v => -v) ∧ a2.Converted t b2 := by
  have hsne : t.s ≠ 0 := t.hs.ne'
  unfold extDf at h1
  obtain ⟨qc, h3, h1⟩ := py_bind_eq_ok.1 h1
  obtain ⟨⟨a3, K⟩, h4, h1⟩ := py_bind_eq_ok.1 h1
  cases h1
  have hi : ((j.natAbs : Int) - 1) = ((j.natAbs - 1 : Nat) : Int) := by omega
  obtain ⟨b3, k1, k2, -⟩ := C81_stiffness hB hB' hc (hf.setJ j) (hf'.setJ j) (hab.setJ j) h4
  have fa := (stiffness_frame h4).fits (hf.setJ j)
  have fb := (stiffness_frame k1).fits (hf'.setJ j)
  obtain ⟨_, _, _, _, _, outs, -, -, -, -, hK, ha3⟩ := stiffness_inv hB (hf.setJ j) h4
  have hf3 : a3.f0red = a.f0red := by rw [ha3]
  have hfits : ∀ {c : Ctx ℝ} {a : Analysis ℝ} (h : a.Fits c) (K : List (List ℝ)), ({ a with Kmod := K } : Analysis ℝ).Fits c :=
    fun h K => ⟨h.U, h.U0, h.r, h.K, h.Krow, h.stretch, h.force, h.stress, h.statev, h.dof, h.dofNodup⟩
  have hconv : ∀ {a b : Analysis ℝ} (h : a.Converted t b) (K K' : List (List ℝ)),
      ({ a with Kmod := K } : Analysis ℝ).Converted t { b with Kmod := K' } :=
    fun h K K' => ⟨h.dofs, h.U, h.U0, h.lpf, h.loads, h.loadsFree, h.statev⟩
  set J' := List.zipWith (fun row f0 => row ++ [-f0]) (K.map (·.map (t.force / t.s * ·))) b3.f0red ++ [qc] with hJ'
  obtain ⟨b4, g, l, e1, e2, e3⟩ := C81_extended_residual hB hB' hc (hfits fa _) (hfits fb J') (hconv k2 _ J') (by omega) hj h2
  refine ⟨_, b4, J', _, ?_, e2, ?_, e3⟩
  · unfold extDf
    simp only [convV_length, h3, py_bind_ok, convV_dropLast]
    have k1' : (modelProblem c').dgdx { b with j := j } (convV t c.ndof1 V.dropLast) =
        .ok (b3, K.map (·.map (t.force / t.s * ·))) := k1
    rw [k1', py_bind_ok]
    rfl
  · rw [hi] at h3
    unfold pySet at h3
    simp only [List.length_replicate, Int.natCast_nonneg, if_true] at h3
    split at h3
    · cases h3
    next hlt =>
    have h3 := Except.ok.inj h3
    rw [Int.toNat_natCast] at h3
    have hlen : j.natAbs - 1 < V.length := by omega
    rw [e1] at hs
    unfold matVec at hs ⊢
    rw [hJ', List.map_append, List.map_append]
    rw [List.map_append, List.map_append] at hs
    obtain ⟨hs1, hs2⟩ := List.append_inj' hs rfl
    congr 1
    · have hdx : dx = dx.take c.ndof1 ++ [dx[c.ndof1]] := by
        apply List.ext_getElem?
        intro i
        rcases Nat.lt_trichotomy i c.ndof1 with h | h | h
        · rw [List.getElem?_append_left (by simp; omega), List.getElem?_take_of_lt h]
        · subst h
          rw [List.getElem?_append_right (by simp), List.length_take, show c.ndof1 - min c.ndof1 dx.length = 0 by omega]
          simp [hx]
        · rw [List.getElem?_eq_none (by omega), List.getElem?_eq_none (by simp; omega)]
      have hcdx : convV t c.ndof1 dx = (dx.take c.ndof1).map (t.s * ·) ++ [dx[c.ndof1]] := by
        unfold convV
        congr 1
        conv_lhs => rw [hdx]
        rw [List.drop_append_of_le_length (by simp; omega), List.drop_eq_nil_of_le (by simp), List.nil_append]
      rw [hcdx, k2.loadsFree, hf3]
      rw [hdx, hf3] at hs1
      have key : ∀ (K : List (List ℝ)) (f0 : List ℝ) (g : List ℝ), (∀ row ∈ K, row.length = c.ndof1) →
          (List.zipWith (fun row f0 => row ++ [-f0]) K f0).map
            (fun row => (List.zipWith (· * ·) row (dx.take c.ndof1 ++ [dx[c.ndof1]])).sum) = g.map (fun v => -v) →
          (List.zipWith (fun row f0 => row ++ [-f0]) (K.map (·.map (t.force / t.s * ·))) (f0.map (t.force * ·))).map
            (fun row => (List.zipWith (· * ·) row ((dx.take c.ndof1).map (t.s * ·) ++ [dx[c.ndof1]])).sum) =
            (g.map (t.force * ·)).map (fun v => -v) := by
        intro K
        induction K with
        | nil =>
          intro f0 g _ h
          have : g = [] := by simpa using h.symm
          subst this
          rfl
        | cons row K ih =>
          intro f0 g hrow h
          match f0, g with
          | [], g =>
            have : g = [] := by simpa using h.symm
            subst this
            rfl
          | f :: f0, [] => cases h
          | f :: f0, v :: g =>
            simp only [List.map_cons, List.zipWith_cons_cons, List.cons.injEq] at h ⊢
            refine ⟨?_, ih f0 g (fun r hr => hrow r (List.mem_cons_of_mem _ hr)) h.2⟩
            rw [dot_conv (by rw [hrow row List.mem_cons_self, List.length_take]; omega) hsne, h.1]
            ring
      have := key K a.f0red g ?_ hs1
      · exact this
      · intro row hrow
        rw [hK, List.mem_map] at hrow
        obtain ⟨p, -, rfl⟩ := hrow
        rw [List.length_map]
        exact hd
    · obtain ⟨y, hy⟩ : ∃ y, dx[j.natAbs - 1]? = some y := ⟨_, List.getElem?_eq_getElem (by omega)⟩
      have u1 := dot_unit (m := V.length) (by omega) hy
      have u2 := dot_unit (m := V.length) (v := convV t c.ndof1 dx) (i := j.natAbs - 1)
        (x := t.comp c.ndof1 (j.natAbs - 1) * y) (by rw [convV_length]; omega) (by rw [convV_get, hy]; rfl)
      rw [← h3] at hs2 ⊢
      simp only [List.map_cons, List.map_nil, List.cons.injEq, and_true] at hs2 ⊢
      rw [u1] at hs2
      rw [u2, hs2]
      ring

theorem vnorm_conv (q l : ℝ) (g : List ℝ) : Flt.vnorm (g.map (q * ·) ++ [l]) = √(q ^ 2 * (g.map fun v => v * v).sum + l ^ 2) := by
  show √((List.map (fun v => v * v) (g.map (q * ·) ++ [l])).sum) = _
  congr 1
  rw [List.map_append, List.sum_append, List.map_map]
  congr 1
  · rw [← List.sum_map_mul_left]
    congr 1
    apply List.map_congr_left
    intro x _
    simp only [Function.comp]
    ring
  · simp
    ring

theorem sum_sq_pos {g : List ℝ} (hg : ∃ x ∈ g, x ≠ 0) : 0 < (g.map fun v => v * v).sum := by
  obtain ⟨x, hx, hne⟩ := hg
  have h1 : 0 < x * x := mul_self_pos.2 hne
  have h2 : ∀ y ∈ g.map fun v => v * v, (0 : ℝ) ≤ y := by
    intro y hy
    obtain ⟨v, -, rfl⟩ := List.mem_map.1 hy
    exact mul_self_nonneg v
  exact lt_of_lt_of_le h1 (List.single_le_sum h2 _ (List.mem_map_of_mem hx))

/-- **C81** The convergence test is the exception: at every state which is not an exact equilibrium, whatever the tolerance,
there is a unit of force in which the residual of the structure does not pass the test; and one in which it passes, if the control
equation itself is met within the tolerance. (Lengths are kept, so the state is the same vector.) -/
theorem C81_tolerance_has_units {c : Ctx ℝ} {bars : List (Bar ℝ)} (hB : c.Bars bars) {a : Analysis ℝ} (hf : a.Fits c)
    {V V0 : List ℝ} (hV : V0.length = V.length) {w : Bool} {j : Int} (hj : j ≠ 0) {Vmax ftol : ℝ} (hpos : 0 < ftol)
    {a1 : Analysis ℝ} {g : List ℝ} {l : ℝ} (h : extF (modelProblem c) V0 j Vmax w a V = .ok (a1, g ++ [l]))
    (hg : ∃ x ∈ g, x ≠ 0) :
    (∃ t : Units, t.s = 1 ∧ ∀ c' bars' b, c'.Bars bars' → Converted t c c' bars bars' → b.Fits c' → a.Converted t b →
      ∃ b1 fx, extF (modelProblem c') V0 j Vmax w b V = .ok (b1, fx) ∧ Flt.lt (Flt.vnorm fx) ftol = false) ∧
    (|l| < ftol → ∃ t : Units, t.s = 1 ∧ ∀ c' bars' b, c'.Bars bars' → Converted t c c' bars bars' → b.Fits c' →
      a.Converted t b → ∃ b1 fx, extF (modelProblem c') V0 j Vmax w b V = .ok (b1, fx) ∧ Flt.lt (Flt.vnorm fx) ftol = true) := by
  set S := (g.map fun v => v * v).sum with hS
  have hS0 : 0 < S := sum_sq_pos hg
  have key : ∀ (q : ℝ) (hq : 0 < q), ∀ c' bars' b, c'.Bars bars' → Converted ⟨1, q, 1, one_pos, hq, one_pos⟩ c c' bars bars' →
      b.Fits c' → a.Converted ⟨1, q, 1, one_pos, hq, one_pos⟩ b →
      ∃ b1 fx, extF (modelProblem c') V0 j Vmax w b V = .ok (b1, fx) ∧ Flt.vnorm fx = √(q ^ 2 * S + l ^ 2) := by
    intro q hq c' bars' b hB' hc hf' hab
    obtain ⟨b1, g', l', e1, e2, -⟩ := C81_extended_residual hB hB' hc hf hf' hab hV hj h
    obtain ⟨hg', hl'⟩ := List.append_inj' e1 rfl
    have hl' : l = l' := List.singleton_inj.1 hl'
    subst hg' hl'
    have hconv : ∀ W, convV ⟨1, q, 1, one_pos, hq, one_pos⟩ c.ndof1 W = W := by
      intro W
      unfold convV
      simp
    have hcomp : ∀ n i, Units.comp ⟨1, q, 1, one_pos, hq, one_pos⟩ n i = 1 := by
      intro n i
      unfold Units.comp
      simp
    have hforce : Units.force ⟨1, q, 1, one_pos, hq, one_pos⟩ = q := by
      unfold Units.force
      simp
    rw [hconv, hconv, hcomp, one_mul, one_mul, hforce] at e2
    exact ⟨b1, _, e2, vnorm_conv q l g⟩
  constructor
  · have hq : 0 < ftol / √S := div_pos hpos (Real.sqrt_pos.2 hS0)
    refine ⟨⟨1, ftol / √S, 1, one_pos, hq, one_pos⟩, rfl, fun c' bars' b h1 h2 h3 h4 => ?_⟩
    obtain ⟨b1, fx, e1, e2⟩ := key _ hq c' bars' b h1 h2 h3 h4
    refine ⟨b1, fx, e1, ?_⟩
    rw [e2]
    apply decide_eq_false
    rw [not_lt]
    apply Real.le_sqrt_of_sq_le
    rw [div_pow, Real.sq_sqrt hS0.le, div_mul_cancel₀ _ hS0.ne']
    nlinarith [sq_nonneg l]
  · intro hl
    have hd : 0 < ftol ^ 2 - l ^ 2 := by
      have := sq_lt_sq' (neg_lt_of_abs_lt hl) (lt_of_abs_lt hl)
      linarith
    have hq : 0 < √((ftol ^ 2 - l ^ 2) / (2 * S)) := Real.sqrt_pos.2 (by positivity)
    refine ⟨⟨1, _, 1, one_pos, hq, one_pos⟩, rfl, fun c' bars' b h1 h2 h3 h4 => ?_⟩
    obtain ⟨b1, fx, e1, e2⟩ := key _ hq c' bars' b h1 h2 h3 h4
    refine ⟨b1, fx, e1, ?_⟩
    rw [e2]
    apply decide_eq_true
    rw [Real.sqrt_lt' hpos, Real.sq_sqrt (by positivity)]
    have : (ftol ^ 2 - l ^ 2) / (2 * S) * S = (ftol ^ 2 - l ^ 2) / 2 := by
      field_simp
    rw [this]
    linarith

/-! ## Concrete cases -/

/-- Lengths times `s`, areas times `a`, stresses times `e` in the tables of the example structure. -/
noncomputable def exCtxU (t : Units) : Ctx ℝ :=
  { exCtx fun q => (q : ℝ) with
    nodes := ⟨[1, 2, 3], ⟨3, [[0, 0, 0], [t.s * 4, 0, t.s * 3], [t.s * 8, 0, 0]]⟩⟩
    elems := { (exCtx fun q => (q : ℝ)).elems with
      mprop := ⟨false, 3, [[t.e, 0, 0], [t.e, t.e * (1/2), t.e * (1/10)]]⟩
      gprop := ⟨false, 1, [[t.a], [t.a]]⟩ } }

noncomputable def exBarsU (t : Units) : List (Bar ℝ) :=
  [⟨0, 1, vec3 0 0 0, vec3 (t.s * 4) 0 (t.s * 3), [t.e, 0, 0], [t.a], .el⟩,
   ⟨1, 2, vec3 (t.s * 4) 0 (t.s * 3), vec3 (t.s * 8) 0 0, [t.e, t.e * (1/2), t.e * (1/10)], [t.a], .elplast⟩]

def exAU (t : Units) : Analysis ℝ :=
  { Analysis.fresh 3 2 [0, 1, 2, 6, 7, 8] [3, 4, 5] 2 with
    extForces := some ⟨[0, 0, 0, 0, 0, -t.force, 0, 0, 0], List.replicate 9 0⟩
    f0red := [0, 0, -t.force]
    lpf := some 0 }

theorem exU_bars (t : Units) : (exCtxU t).Bars (exBarsU t) where
  nodes := by
    show ([1, 2, 3] : List Int).Nodup
    decide
  elems := by
    show ([1, 2] : List Int).Nodup
    decide
  length := rfl
  nnodes := rfl
  bar := by
    intro k b hb
    match k with
    | 0 =>
      cases hb
      exact ⟨⟨1, 2, rfl, rfl, rfl⟩, rfl, rfl, rfl, rfl, Or.inl ⟨rfl, rfl⟩, by simp⟩
    | 1 =>
      cases hb
      exact ⟨⟨2, 3, rfl, rfl, rfl⟩, rfl, rfl, rfl, rfl, Or.inr ⟨rfl, rfl⟩, by simp⟩
    | k + 2 => cases hb

theorem exU_fits (t : Units) : (exAU t).Fits (exCtxU t) :=
  have h := exA_fits fun q => (q : ℝ)
  ⟨h.U, h.U0, h.r, h.K, h.Krow, h.stretch, h.force, h.stress, h.statev, h.dof, h.dofNodup⟩

theorem exU_converted (t : Units) : Converted t (exCtx fun q => (q : ℝ)) (exCtxU t) (exBars fun q => (q : ℝ)) (exBarsU t) where
  nnodes := rfl
  ndof1 := rfl
  nstatev := rfl
  length := rfl
  bar := by
    intro k b b' hb hb'
    match k with
    | 0 =>
      cases hb
      cases hb'
      exact ⟨rfl, rfl, fun d => by fin_cases d <;> simp [vec3], fun d => by fin_cases d <;> simp [vec3], by simp, by simp, rfl⟩
    | 1 =>
      cases hb
      cases hb'
      exact ⟨rfl, rfl, fun d => by fin_cases d <;> simp [vec3], fun d => by fin_cases d <;> simp [vec3], by simp, by simp, rfl⟩
    | k + 2 => cases hb

theorem exU_state (t : Units) : (exA fun q => (q : ℝ)).Converted t (exAU t) where
  dofs := rfl
  U := by simp [exA, exAU, Analysis.fresh]
  U0 := by simp [exA, exAU, Analysis.fresh]
  lpf := by simp [exA, exAU]
  loads := by simp [exA, exAU]
  loadsFree := by simp [exA, exAU]
  statev := by simp [exA, exAU, Analysis.fresh, convRow, List.replicate]

/-- The example structure of an elastic and a plastic bar, pushed down so that the plastic bar yields: same stretches and converted
residual in every system of units. -/
example (t : Units) : ∃ a1 b1 g, equilibrium (exCtx fun q => (q : ℝ)) (exA fun q => (q : ℝ)) [0, 0, -3, 1/2] [0, 0, 0, 0] .G true = .ok (a1, g) ∧
    equilibrium (exCtxU t) (exAU t) [t.s * 0, t.s * 0, t.s * -3, 1/2] [t.s * 0, t.s * 0, t.s * 0, 0] .G true =
      .ok (b1, g.map (t.force * ·)) ∧ b1.stretch = a1.stretch := by
  obtain ⟨⟨a1, g⟩, h⟩ := (ex_total (fun q => (q : ℝ)) 0 0 (-3) (1/2) 0 0 0 0 true).1
  obtain ⟨b1, h1, -, h2, -⟩ := C81_residual (exCtx_bars _) (exU_bars t) (exU_converted t) (exA_fits _) (exU_fits t) (exU_state t)
    (V := [0, 0, -3, 1/2]) (V0 := [0, 0, 0, 0]) rfl h
  exact ⟨a1, b1, g, h, h1, h2⟩

/-- The bar of `ExamplesExact` in other units. -/
noncomputable def sbCtxU (t : Units) : Ctx ℝ :=
  { sbCtx with
    nodes := ⟨[1, 2], ⟨3, [[0, 0, 0], [t.s, 0, 0]]⟩⟩
    elems := { sbCtx.elems with mprop := ⟨false, 1, [[t.e]]⟩, gprop := ⟨false, 1, [[t.a]]⟩ } }

noncomputable def sbBarU (t : Units) : Bar ℝ := ⟨0, 1, fun _ => 0, fun i => if i = 0 then t.s else 0, [t.e], [t.a], .el⟩

noncomputable def sbAU (t : Units) : Analysis ℝ :=
  { sbA with
    extForces := some ⟨[0, 0, 0, t.force, 0, 0], [0, 0, 0, 0, 0, 0]⟩
    f0red := [t.force] }

theorem sbU_bars (t : Units) : (sbCtxU t).Bars [sbBarU t] where
  nodes := by
    show ([1, 2] : List Int).Nodup
    decide
  elems := by
    show ([1] : List Int).Nodup
    decide
  length := rfl
  nnodes := rfl
  bar := by
    intro k b hb
    match k with
    | 0 =>
      cases hb
      exact ⟨⟨1, 2, rfl, rfl, rfl⟩, rfl, by simp [CoordRow, sbCtxU, sbBarU], rfl, rfl, Or.inl ⟨rfl, rfl⟩, by simp [sbBarU]⟩
    | k + 1 => cases hb

theorem sbU_fits (t : Units) : (sbAU t).Fits (sbCtxU t) :=
  have h := sbEvaluable.fits
  ⟨h.U, h.U0, h.r, h.K, h.Krow, h.stretch, h.force, h.stress, h.statev, h.dof, h.dofNodup⟩

theorem sbU_converted (t : Units) : Converted t sbCtx (sbCtxU t) [sbBar] [sbBarU t] where
  nnodes := rfl
  ndof1 := rfl
  nstatev := rfl
  length := rfl
  bar := by
    intro k b b' hb hb'
    match k with
    | 0 =>
      cases hb
      cases hb'
      exact ⟨rfl, rfl, fun d => by simp [sbBar, sbBarU], fun d => by simp [sbBar, sbBarU], by simp [sbBar, sbBarU],
        by simp [sbBar, sbBarU], rfl⟩
    | k + 1 => cases hb

theorem sbU_state (t : Units) : sbA.Converted t (sbAU t) where
  dofs := rfl
  U := by simp [sbA, sbAU, Analysis.fresh]
  U0 := by simp [sbA, sbAU, Analysis.fresh]
  lpf := rfl
  loads := by simp [sbA, sbAU]
  loadsFree := by simp [sbA, sbAU]
  statev := by simp [sbA, sbAU, Analysis.fresh, List.replicate]

theorem sbExtended {u : ℝ} (hu : 0 ≤ u) (l m : ℝ) : ∃ a', extF (modelProblem sbCtx) [0, 0] 2 m false sbA [u, l] =
    .ok (a', [-(l - u)] ++ [l - m]) := by
  obtain ⟨a', h⟩ := sbResidual hu l (V0 := [0, 0]) rfl
  have h' : (modelProblem sbCtx).g { sbA with j := 2 } [u, l] [0, 0] false = .ok ({ a' with j := 2 }, [l - u]) := by
    obtain ⟨lpf, v, v0, U, U0, outs, ef, gg, p1, p2, p3, p4, p5, p6, p7, rfl⟩ := equilibrium_G sbEvaluable.tables sbEvaluable.fits h
    exact equilibrium_G_ok (a := { sbA with j := 2 }) sbEvaluable.tables (sbEvaluable.fits.setJ 2) p1 p2 p3 p4 p5 p6 p7
  refine ⟨{ a' with j := 2 }, ?_⟩
  unfold extF
  simp only [h', py_bind_ok]
  rfl

/-- `C81_tolerance_has_units` applies: the bar at displacement 0 under half the load. -/
example : ∃ t b1 fx, extF (modelProblem (sbCtxU t)) [0, 0] 2 (1/2) false (sbAU t) [0, 1/2] = .ok (b1, fx) ∧
    Flt.lt (Flt.vnorm fx) (1/100000000 : ℝ) = false := by
  obtain ⟨a', h⟩ := sbExtended le_rfl (1/2) (1/2)
  obtain ⟨t, -, ht⟩ := (C81_tolerance_has_units sbEvaluable.tables sbEvaluable.fits (V := [0, 1/2]) (V0 := [0, 0]) rfl (by decide)
    (show (0 : ℝ) < 1/100000000 by norm_num) h ⟨_, List.mem_singleton_self _, by norm_num⟩).1
  obtain ⟨b1, fx, e1, e2⟩ := ht _ _ _ (sbU_bars t) (sbU_converted t) (sbU_fits t) (sbU_state t)
  exact ⟨t, b1, fx, e1, e2⟩

/-- The same bar: the Newton correction towards load factor 1/2 is half the length in every system of units. -/
example (t : Units) : ∃ b1 b2 J fx, extDf (modelProblem (sbCtxU t)) 2 (sbAU t) [t.s * 0, 0] = .ok (b1, J) ∧
    extF (modelProblem (sbCtxU t)) [t.s * 0, 0] 2 (1 * (1/2)) false b1 [t.s * 0, 0] = .ok (b2, fx) ∧
    matVec J [t.s * (1/2), 1/2] = fx.map fun v => -v := by
  obtain ⟨a1, h1⟩ := sbMatrix_eq (u := 0) le_rfl 0
  have h1' : extDf (modelProblem sbCtx) 2 sbA [0, 0] = .ok (a1, [[1, -1], [0, 1]]) := by
    rw [← h1]
    simp [List.ofFn_succ]
  obtain ⟨a2, h2⟩ := sbExtended (u := 0) le_rfl 0 (1/2)
  have h2' : ∃ a3, extF (modelProblem sbCtx) [0, 0] 2 (1/2) false a1 [0, 0] = .ok (a3, [-(0 - 0)] ++ [0 - 1/2]) := by
    have ht := (extDf_trial h1').trans (Trial.book a1 2 a1.Kmod a1.dVmax)
    have hi : SameInputs { sbA with j := 2 } { a1 with j := 2 } :=
      ⟨ht.dof1.symm, ht.ext.symm, ht.statev.symm, ht.lpf.symm, fun i hi => (ht.Uout i hi).symm, fun i hi => (ht.U0out i hi).symm,
        ht.Ulen.symm, ht.U0len.symm, ht.rlen.symm, ht.Kshape.symm⟩
    have hk := (C31_depends_only (c := sbCtx) hi [0, 0] [0, 0] false).1
    obtain ⟨gv, vj, h4, h5, h6⟩ := extF_ok h2
    have h4' : equilibrium sbCtx { sbA with j := 2 } [0, 0] [0, 0] .G false = .ok (a2, gv) := h4
    rw [h4'] at hk
    cases hq : equilibrium sbCtx { a1 with j := 2 } [0, 0] [0, 0] .G false with
    | error e => rw [hq] at hk; cases hk
    | ok p =>
      rw [hq] at hk
      have hgv : gv = p.2 := congrArg Prod.fst (Except.ok.inj hk)
      refine ⟨p.1, ?_⟩
      have hq' : (modelProblem sbCtx).g { a1 with j := 2 } [0, 0] [0, 0] false = .ok (p.1, gv) := by
        rw [hgv]
        exact hq
      rw [h6]
      unfold extF
      simp only [hq', py_bind_ok]
      rw [h5]
      rfl
  obtain ⟨a3, h3⟩ := h2'
  obtain ⟨b1, b2, J, fx, e1, e2, e3, -⟩ := C81_newton (dx := [1/2, 1/2]) sbEvaluable.tables (sbU_bars t) (sbU_converted t)
    sbEvaluable.fits (sbU_fits t) (sbU_state t) rfl rfl rfl rfl (by decide) h1' h3 (by norm_num [matVec])
  exact ⟨b1, b2, J, fx, e1, e2, e3⟩

end TrussPy
