import Verif.Lemmas.Symmetry
import Verif.Spec.Symmetry
import Verif.Lemmas.Split
import Verif.Lemmas.Rigid
import Verif.Props.Jacobian
/-!
# Lemmas: path following keeps symmetric states
-/

set_option linter.unusedSectionVars false

namespace TrussPy

variable {N : Nat} {Q : M3 ℝ} {τ : Equiv.Perm (Fin N)} {π : Nat → Nat} {c : Ctx ℝ} {bars : List (Bar ℝ)} {dofs : List Nat}

/-- The displacements in an extended vector are symmetric. -/
def SymVec (Q : M3 ℝ) (τ : Equiv.Perm (Fin N)) (n : Nat) (dofs : List Nat) (V : List ℝ) : Prop :=
  V.length = n + 1 ∧ SymRows Q τ (expand N dofs fun m : Fin n => V.getD m 0)

theorem SymVec.factor {n : Nat} {V : List ℝ} (h : SymVec Q τ n dofs V) (l : ℝ) : SymVec Q τ n dofs (V.dropLast ++ [l]) := by
  refine ⟨by rw [List.length_append, List.length_dropLast, h.1]; rfl, ?_⟩
  have e : (fun m : Fin n => (V.dropLast ++ [l]).getD m 0) = fun m : Fin n => V.getD m 0 := by
    funext m
    have hm : (m : Nat) < V.dropLast.length := by rw [List.length_dropLast, h.1]; exact m.isLt
    rw [List.getD_eq_getElem?_getD, List.getD_eq_getElem?_getD, List.getElem?_append_left hm, List.dropLast_eq_take,
      List.getElem?_take_of_lt (by rw [List.length_dropLast] at hm; exact hm)]
  rw [e]
  exact h.2

/-- Everything the analysis object holds about nodes and elements is symmetric. -/
structure SymState (Q : M3 ℝ) (τ : Equiv.Perm (Fin N)) (π : Nat → Nat) (c : Ctx ℝ) (m : Nat) (dofs : List Nat) (a : Analysis ℝ) :
    Prop where
  dof : a.DOF1 = dofs
  off : Off dofs (rows3 N a.U)
  U : SymRows Q τ (rows3 N a.U)
  r : SymRows Q τ fun i : Fin N => a.r.getD i 0
  g : SymRows Q τ (rows3 N a.g)
  stretch : ∀ k, k < m → a.stretch[π k]? = a.stretch[k]?
  force : ∀ k, k < m → a.elementForce[π k]? = a.elementForce[k]?
  stress : ∀ k, k < m → a.elementStress[π k]? = a.elementStress[k]?
  state : ∀ k, k < m → stateRow c a.statev (π k) = stateRow c a.statev k
  red : SymVec Q τ c.ndof1 dofs (a.Ured ++ [0])
  stateless : c.nstatev = 0 → a.statev = none

/-- Also the loads are symmetric. -/
structure SymReady (Q : M3 ℝ) (τ : Equiv.Perm (Fin N)) (π : Nat → Nat) (c : Ctx ℝ) (m : Nat) (dofs : List Nat) (a : Analysis ℝ) :
    Prop where
  state : SymState Q τ π c m dofs a
  ready : a.Ready c
  loads : ∃ ef, a.extForces = some ef ∧ SymRows Q τ (rows3 N ef.forces) ∧ SymRows Q τ (rows3 N ef.forcesConst) ∧
    a.f0red = dofs.map fun p => ef.forces.getD p 0

theorem bordered_entries {n : Nat} {K0 J : List (List ℝ)} {f qc : List ℝ} (hK0 : K0.length = n)
    (hrow : ∀ row ∈ K0, row.length = n) (hf : f.length = n)
    (hJ : J = List.zipWith (fun row f0 => row ++ [-f0]) K0 f ++ [qc]) :
    (∀ i j : Fin n, matOf (n + 1) J i.castSucc j.castSucc = matOf n K0 i j) ∧
      ∀ i : Fin n, matOf (n + 1) J i.castSucc (Fin.last n) = -f.getD i 0 := by
  have hzl : (List.zipWith (fun row f0 => row ++ [-f0]) K0 f).length = n := by simp [hK0, hf]
  constructor
  · intro i j
    have hi : (i : Nat) < K0.length := by rw [hK0]; exact i.isLt
    have hif : (i : Nat) < f.length := by rw [hf]; exact i.isLt
    have hj : (j : Nat) < K0[(i : Nat)].length := by rw [hrow _ (List.getElem_mem hi)]; exact j.isLt
    unfold matOf
    rw [hJ]
    simp only [Fin.val_castSucc, List.getD_eq_getElem?_getD]
    rw [List.getElem?_append_left (by rw [hzl]; exact i.isLt), List.getElem?_zipWith, List.getElem?_eq_getElem hi,
      List.getElem?_eq_getElem hif]
    simp only [Option.getD_some]
    rw [List.getElem?_append_left hj]
  · intro i
    have hi : (i : Nat) < K0.length := by rw [hK0]; exact i.isLt
    have hif : (i : Nat) < f.length := by rw [hf]; exact i.isLt
    have hj : K0[(i : Nat)].length = n := hrow _ (List.getElem_mem hi)
    unfold matOf
    rw [hJ]
    simp only [Fin.val_castSucc, Fin.val_last, List.getD_eq_getElem?_getD]
    rw [List.getElem?_append_left (by rw [hzl]; exact i.isLt), List.getElem?_zipWith, List.getElem?_eq_getElem hi,
      List.getElem?_eq_getElem hif]
    simp only [Option.getD_some]
    rw [List.getElem?_append_right (by rw [hj]), hj]
    simp

/-- Displacements after writing the free ones. -/
theorem scatter_expand (hnd : dofs.Nodup) {n : Nat} (hn : dofs.length = n) {U U' u : List ℝ} (hlt : ∀ i ∈ dofs, i < U.length)
    (hoff : Off dofs (rows3 N U)) (hu : u.length = n) (h : scatter U dofs u = .ok U') :
    rows3 N U' = expand N dofs fun m : Fin n => u.getD m 0 := by
  subst hn
  funext i d
  show U'.getD (3 * (i : Nat) + (d : Nat)) 0 = _
  rw [scatter_getD h hu hnd hlt]
  have h0 : (if 3 * (i : Nat) + (d : Nat) ∈ dofs then (0 : ℝ) else U.getD (3 * (i : Nat) + (d : Nat)) 0) = 0 := by
    split
    · rfl
    · next hp => exact hoff i d hp
  rw [h0, zero_add]
  refine Finset.sum_congr rfl fun m _ => ?_
  have hg : dofs.getD m 0 = dofs[m] := by
    rw [List.getD_eq_getElem?_getD, List.getElem?_eq_getElem m.isLt]
    rfl
  rw [hg]

theorem image_eval (hQ : Orthogonal Q) {b b' : Bar ℝ} (h : b.Image Q τ b') {U U0 : List ℝ} (hU : SymRows Q τ (rows3 N U))
    {row : Option (List ℝ)} {o o' : TrussOut ℝ} (ho : b.eval U U0 row = .ok o) (ho' : b'.eval U U0 row = .ok o') :
    o'.lam = o.lam ∧ o'.stress = o.stress ∧ o'.N = o.N ∧ o'.statev = o.statev := by
  obtain ⟨r1, -⟩ := eval_real ho
  obtain ⟨r2, -⟩ := eval_real ho'
  have hres := (h.result hQ hU r2).unique r1
  have e1 : o'.lam = o.lam := congrArg BarRes.stretch hres
  refine ⟨e1, congrArg BarRes.stress hres, congrArg BarRes.force hres, ?_⟩
  unfold Bar.eval trussCore at ho ho'
  simp only at ho ho'
  obtain ⟨x, p1, ho⟩ := py_bind_eq_ok.1 ho
  obtain ⟨y, p2, ho⟩ := py_bind_eq_ok.1 ho
  obtain ⟨x', q1, ho'⟩ := py_bind_eq_ok.1 ho'
  obtain ⟨y', q2, ho'⟩ := py_bind_eq_ok.1 ho'
  cases ho
  cases ho'
  simp only at e1 ⊢
  rw [e1, h.mat, h.law, call_de, p1] at q1
  cases q1
  rfl

/-- Residual evaluations keep symmetric states. -/
theorem symmetric_g (hQ : Orthogonal Q) (hB : c.Bars bars) (hN : c.nnodes = N) (hS : SymBars Q τ π bars)
    (hC : ∀ b ∈ bars, b.Complete c.nstatev) (hnd : dofs.Nodup) {a a' : Analysis ℝ} {V V0 g : List ℝ} {w : Bool}
    (ha : SymReady Q τ π c bars.length dofs a) (hV : SymVec Q τ c.ndof1 dofs V) (hV0 : V0.length = c.ndof1 + 1)
    (h : equilibrium c a V V0 .G w = .ok (a', g)) :
    SymReady Q τ π c bars.length dofs a' ∧ g = dofs.map fun p => a'.g.getD p 0 := by
  have hst := ha.state
  have hf := ha.ready.base.fits
  obtain ⟨b1, r1, f1, f2, f3⟩ := (modelProblem_runs hB hC).g a V V0 w ha.ready hV.1 hV0
  rw [show (modelProblem c).g a V V0 w = .ok (a', g) from h] at f1
  cases f1
  obtain ⟨xs, x1, x2, x3, x4, x5, x6⟩ := C23_internal_forces hB hf h
  obtain ⟨lpf', ef', y1, y2, y3, y4⟩ := C23_residual hB hf h
  obtain ⟨lpf, u, u0, U, U0, outs, ef, gg, p1, p2, p3, p4, p5, p6, p7, hA⟩ := equilibrium_G hB hf h
  obtain ⟨ef0, l1, l2, l3, l4⟩ := ha.loads
  rw [l1] at p5 y2
  cases p5
  cases y2
  have hu : u = V.take c.ndof1 := by
    unfold splitV at p1
    rw [if_pos (by rw [hV.1]; omega)] at p1
    cases hl : V.getLast? with
    | none => rw [hl] at p1; cases p1
    | some l => rw [hl] at p1; cases p1; rfl
  obtain ⟨l, W, hl⟩ := afterG_state c w lpf u U U0 bars outs gg a
  rw [hl] at hA
  have hUa : a'.U = U := by rw [hA]
  rw [hst.dof] at p2
  have hdl : dofs.length = c.ndof1 := by rw [← hst.dof]; exact ha.ready.base.dofs
  have hexp : rows3 N U = expand N dofs fun m : Fin c.ndof1 => V.getD m 0 := by
    rw [scatter_expand hnd hdl (fun i hi => by rw [hf.U]; exact hf.dof i (by rw [hst.dof]; exact hi)) hst.off
      (by rw [hu, List.length_take, hV.1]; omega) p2, hu]
    congr 1
    funext m
    rw [List.getD_eq_getElem?_getD, List.getD_eq_getElem?_getD, List.getElem?_take_of_lt m.isLt]
  have hsymU : SymRows Q τ (rows3 N U) := by rw [hexp]; exact hV.2
  have hoff : Off dofs (rows3 N U) := by rw [hexp]; exact expand_off hdl _
  have hforce := symmetric_nodeForce hQ hS (by rw [hUa]; exact hsymU) hst.state x1
  have hr : SymRows Q τ fun i : Fin N => a'.r.getD i 0 := by
    have : (fun i : Fin N => a'.r.getD i 0) = fun i : Fin N => nodeForce bars xs a'.U i := by
      funext i
      rw [List.getD_eq_getElem?_getD, x6 i (by rw [hN]; exact i.isLt)]
      rfl
    rw [this]
    exact hforce
  have hgr : ∀ i : Fin N, rows3 N a'.g i = rows3 N ef'.forcesConst i + lpf' • rows3 N ef'.forces i - a'.r.getD i 0 := by
    intro i
    funext d
    have hd := d.isLt
    have hi := i.isLt
    show a'.g.getD (3 * (i : Nat) + (d : Nat)) 0 = _
    rw [List.getD_eq_getElem?_getD, y3 _ (by omega)]
    have e1 : (3 * (i : Nat) + (d : Nat)) / 3 = i := by omega
    have e2 : comp (3 * (i : Nat) + (d : Nat)) = d := by
      apply Fin.ext
      unfold comp
      simp only
      omega
    rw [e1, e2]
    rfl
  have hg : SymRows Q τ (rows3 N a'.g) := by
    intro i
    have hri : a'.r.getD (τ i) 0 = mulVec3 Q (a'.r.getD i 0) := hr i
    rw [hgr, hgr, l2, l3, hri]
    funext d
    simp only [mulVec3, Pi.sub_apply, Pi.add_apply, Pi.smul_apply, smul_eq_mul]
    ring
  have hres := fun k (hk : k < bars.length) => hS.results hQ (by rw [hUa]; exact hsymU) hst.state x1 hk
  have hframe := (equilibrium_frame h).1
  refine ⟨⟨⟨by rw [hframe.dof1]; exact hst.dof, by rw [hUa]; exact hoff, by rw [hUa]; exact hsymU, hr, hg, ?_, ?_, ?_, ?_,
    by rw [hframe.Ured]; exact hst.red, ?_⟩, f2,
    ⟨ef', by rw [hframe.ext]; exact l1, l2, l3, by rw [hframe.f0red]; exact l4⟩⟩, ?_⟩
  · intro k hk
    obtain ⟨b, b', x, -, -, k3, k4, -⟩ := hres k hk
    rw [x2, List.getElem?_map, List.getElem?_map, k3, k4]
  · intro k hk
    obtain ⟨b, b', x, -, -, k3, k4, -⟩ := hres k hk
    rw [x4, List.getElem?_map, List.getElem?_map, k3, k4]
  · intro k hk
    obtain ⟨b, b', x, -, -, k3, k4, -⟩ := hres k hk
    rw [x3, List.getElem?_map, List.getElem?_map, k3, k4]
  · intro k hk
    rw [hA]
    simp only
    split
    · next hw =>
      simp only [Bool.and_eq_true, decide_eq_true_eq] at hw
      obtain ⟨b, b', b1, b2, b3⟩ := hS.bar k hk
      obtain ⟨o, o1, o2⟩ := evalAll_get p4 b1
      obtain ⟨o', o1', o2'⟩ := evalAll_get p4 b2
      rw [Nat.zero_add] at o2 o2'
      rw [hst.state k hk] at o2'
      obtain ⟨-, -, -, e4⟩ := image_eval hQ b3 hsymU o2 o2'
      unfold stateRow
      simp only [if_pos hw.1.2, Option.bind_some, List.getElem?_map, o1, o1', Option.map_some, e4]
    · exact hst.state k hk
  · intro h0
    rw [hA]
    simp only
    split
    · next hw =>
      simp only [Bool.and_eq_true, decide_eq_true_eq] at hw
      omega
    · exact hst.stateless h0
  · rw [y4, hst.dof]
    refine List.map_congr_left fun p hp => ?_
    have h1 : a'.g.getD p 0 = ef'.forcesConst.getD p 0 + lpf' * ef'.forces.getD p 0 - a'.r.getD (p / 3) 0 (comp p) := by
      rw [List.getD_eq_getElem?_getD, y3 p (by rw [← hst.dof] at hp; exact hf.dof p hp)]
      rfl
    rw [h1]

/-- Stiffness evaluations keep symmetric states. -/
theorem symmetric_K (hB : c.Bars bars)
    (hC : ∀ b ∈ bars, b.Complete c.nstatev) (hnd : dofs.Nodup) {a a' : Analysis ℝ} {V : List ℝ} {K : List (List ℝ)}
    (ha : SymReady Q τ π c bars.length dofs a) (hV : SymVec Q τ c.ndof1 dofs V)
    (h : stiffness c a V.dropLast = .ok (a', K)) :
    SymReady Q τ π c bars.length dofs a' ∧ K.length = c.ndof1 ∧ ∀ row ∈ K, row.length = c.ndof1 := by
  have hst := ha.state
  have hf := ha.ready.base.fits
  have hVl : V.dropLast.length = c.ndof1 := by rw [List.length_dropLast, hV.1]; rfl
  obtain ⟨b1, r1, f1, f2, f3, f4⟩ := (modelProblem_runs hB hC).dgdx a V.dropLast ha.ready hVl
  rw [show (modelProblem c).dgdx a V.dropLast = .ok (a', K) from h] at f1
  cases f1
  obtain ⟨lpf, u, u0, U, U0, outs, p1, p2, p3, p4, p5, hA⟩ := stiffness_inv hB hf h
  have hu : u = V.dropLast := by
    unfold splitV at p1
    rw [if_neg (by rw [hVl]; omega)] at p1
    cases hl : a.lpf with
    | none => rw [hl] at p1; cases p1
    | some l => rw [hl] at p1; cases p1; rfl
  rw [hst.dof] at p2
  have hdl : dofs.length = c.ndof1 := by rw [← hst.dof]; exact ha.ready.base.dofs
  have hexp : rows3 N U = expand N dofs fun m : Fin c.ndof1 => V.getD m 0 := by
    rw [scatter_expand hnd hdl (fun i hi => by rw [hf.U]; exact hf.dof i (by rw [hst.dof]; exact hi)) hst.off
      (by rw [hu, hVl]) p2, hu]
    congr 1
    funext m
    rw [List.getD_eq_getElem?_getD, List.getD_eq_getElem?_getD, List.dropLast_eq_take,
      List.getElem?_take_of_lt (by rw [hV.1]; exact m.isLt)]
  obtain ⟨ef0, l1, l2, l3, l4⟩ := ha.loads
  have hUa : a'.U = U := by rw [hA]
  refine ⟨⟨⟨by rw [hA]; exact hst.dof, by rw [hUa, hexp]; exact expand_off hdl _, by rw [hUa, hexp]; exact hV.2, ?_, ?_, ?_, ?_, ?_, ?_, ?_, ?_⟩,
    f2, ⟨ef0, by rw [hA]; exact l1, l2, l3, by rw [hA]; exact l4⟩⟩, f3, f4⟩
  all_goals rw [hA]
  · exact hst.r
  · exact hst.g
  · exact hst.stretch
  · exact hst.force
  · exact hst.stress
  · exact hst.state
  · exact hst.red
  · exact hst.stateless

theorem SymReady.book {m : Nat} {a : Analysis ℝ} (h : SymReady Q τ π c m dofs a) (hB : c.Bars bars)
    (hC : ∀ b ∈ bars, b.Complete c.nstatev) (j : Int) (K : List (List ℝ)) (dV : Option (List ℝ)) :
    SymReady Q τ π c m dofs { a with j := j, Kmod := K, dVmax := dV } := by
  obtain ⟨s, r, l⟩ := h
  exact ⟨⟨s.dof, s.off, s.U, s.r, s.g, s.stretch, s.force, s.stress, s.state, s.red, s.stateless⟩, (modelProblem_runs hB hC).book a j K dV r, l⟩

/-- Path following keeps symmetric states, if the linear systems it solves have only one solution. -/
theorem modelProblem_symmetric (hQ : Orthogonal Q) (hB : c.Bars bars) (hN : c.nnodes = N) (hS : SymBars Q τ π bars)
    (hC : ∀ b ∈ bars, b.Complete c.nstatev) (hnd : dofs.Nodup) (hlt : ∀ i ∈ dofs, i < 3 * N) (hdl : dofs.length = c.ndof1)
    (hsup : KeepsSupports Q τ dofs) {env : Env ℝ} (henv : UniqueSolver env) :
    (modelProblem c).Keeps env.spsolve (SymReady Q τ π c bars.length dofs) (SymVec Q τ c.ndof1 dofs) where
  g a V V0 w a' r ha hV hV0 h := (symmetric_g hQ hB hN hS hC hnd ha hV hV0.1 h).1
  dgdx a V a' K ha hV h := (symmetric_K hB hC hnd ha hV h).1
  book a j K dV ha := ha.book hB hC j K dV
  save a V l ha hV hl := by
    obtain ⟨s, r, ld⟩ := ha
    exact ⟨⟨s.dof, s.off, s.U, s.r, s.g, s.stretch, s.force, s.stress, s.state, hV.factor 0, s.stateless⟩,
      (modelProblem_runs hB hC).save a V V.dropLast l r (by rw [List.length_dropLast, hV.1]; rfl), ld⟩
  shrink x y s hx hy := by
    refine ⟨by simp [vadd, vsub, hx.1, hy.1], ?_⟩
    have e : (expand N dofs fun m : Fin c.ndof1 => (vadd x ((vsub y x).map fun v => v / s)).getD m 0) =
        fun i => expand N dofs (fun m : Fin c.ndof1 => x.getD m 0) i +
          (1 / s) • (expand N dofs (fun m : Fin c.ndof1 => y.getD m 0) i - expand N dofs (fun m : Fin c.ndof1 => x.getD m 0) i) := by
      funext i d
      simp only [expand, Pi.add_apply, Pi.smul_apply, Pi.sub_apply, smul_eq_mul]
      rw [← Finset.sum_sub_distrib, Finset.mul_sum, ← Finset.sum_add_distrib]
      refine Finset.sum_congr rfl fun m _ => ?_
      have h1 : (m : Nat) < x.length := by rw [hx.1]; have := m.isLt; omega
      have h2 : (m : Nat) < y.length := by rw [hy.1]; have := m.isLt; omega
      have h3 : (vadd x ((vsub y x).map fun v => v / s)).getD m 0 = x.getD m 0 + 1 / s * (y.getD m 0 - x.getD m 0) := by
        rw [List.getD_eq_getElem?_getD, List.getD_eq_getElem?_getD, List.getD_eq_getElem?_getD]
        unfold vadd vsub
        rw [List.getElem?_zipWith, List.getElem?_map, List.getElem?_zipWith, List.getElem?_eq_getElem h1,
          List.getElem?_eq_getElem h2]
        show x[(m : Nat)] + (y[(m : Nat)] - x[(m : Nat)]) / s = x[(m : Nat)] + 1 / s * (y[(m : Nat)] - x[(m : Nat)])
        ring
      rw [h3]
      split <;> simp
    rw [e]
    intro i
    show expand N dofs _ (τ i) + _ • (expand N dofs _ (τ i) - expand N dofs _ (τ i)) = mulVec3 Q _
    rw [hx.2 i, hy.2 i]
    funext d
    simp only [mulVec3, Pi.sub_apply, Pi.add_apply, Pi.smul_apply, smul_eq_mul]
    ring
  step a V V0 j Vmax a1 J a2 fx dx ha hV hV0 h1 h2 h3 hl := by
    unfold extDf at h1
    obtain ⟨qc, k1, h1⟩ := py_bind_eq_ok.1 h1
    obtain ⟨⟨a3, K0⟩, k2, h1⟩ := py_bind_eq_ok.1 h1
    cases h1
    have k2 : stiffness c { a with j := j } V.dropLast = .ok (a3, K0) := k2
    have ha' := ha.book hB hC j a.Kmod a.dVmax
    obtain ⟨hK, K1, K2⟩ := symmetric_K hB hC hnd ha' hV k2
    unfold extF at h2
    obtain ⟨⟨a4, gr⟩, m1, h2⟩ := py_bind_eq_ok.1 h2
    obtain ⟨vj, -, h2⟩ := py_bind_eq_ok.1 h2
    cases h2
    obtain ⟨hg, hgr⟩ := symmetric_g hQ hB hN hS hC hnd (hK.book hB hC j _ a3.dVmax) hV hV0.1 m1
    obtain ⟨ef, l1, l2, l3, l4⟩ := hK.loads
    have hfl : a3.f0red.length = c.ndof1 := by rw [l4, List.length_map, hdl]
    obtain ⟨e1, e2⟩ := bordered_entries K1 K2 hfl rfl
    obtain ⟨k, q1, -⟩ := pySet_pyGet k1
    have hql : qc.length = c.ndof1 + 1 := by rw [q1, List.length_set, List.length_replicate, hV.1]
    have hJl : (List.zipWith (fun row f0 => row ++ [-f0]) K0 a3.f0red ++ [qc]).length = c.ndof1 + 1 := by simp [K1, hfl]
    have hJr : ∀ row ∈ List.zipWith (fun row f0 => row ++ [-f0]) K0 a3.f0red ++ [qc], row.length = c.ndof1 + 1 := by
      intro row hr
      rcases List.mem_append.1 hr with hr | hr
      · obtain ⟨i, hi⟩ := List.getElem?_of_mem hr
        rw [List.getElem?_zipWith] at hi
        cases hk0 : K0[i]? with
        | none => rw [hk0] at hi; simp at hi
        | some r =>
          cases hf0 : a3.f0red[i]? with
          | none => rw [hk0, hf0] at hi; simp at hi
          | some f =>
            rw [hk0, hf0] at hi
            have hi : r ++ [-f] = row := Option.some.inj hi
            rw [← hi, List.length_append, K2 r (List.mem_of_getElem? hk0)]
            rfl
      · rw [List.mem_singleton.1 hr, hql]
    generalize hJ : List.zipWith (fun row f0 => row ++ [-f0]) K0 a3.f0red ++ [qc] = J at *
    obtain ⟨s1, s2⟩ := henv _ _ _ h3
    rw [hV.1] at hl
    obtain ⟨x, rfl⟩ := exists_ofFn hl
    rw [matVec_ofFn hJl hJr] at s1
    have hdet : IsUnit (matOf (c.ndof1 + 1) J).det := by
      rw [regular_iff_injective]
      intro v hv
      have := s2 (List.ofFn (x + v)) (by simp) (by rw [matVec_ofFn hJl hJr, Matrix.mulVec_add, hv, add_zero, s1])
      have h4 : x + v = x := List.ofFn_injective this
      simpa using h4
    have hx : ∀ i : Fin c.ndof1, ((matOf (c.ndof1 + 1) J).mulVec x) i.castSucc = -(-(a2.g.getD (dofs.getD i 0) 0)) := by
      intro i
      have h5 : (List.ofFn ((matOf (c.ndof1 + 1) J).mulVec x))[(i : Nat)]? = _ :=
        congrArg (fun l : List ℝ => l[(i : Nat)]?) s1
      rw [List.getElem?_ofFn, dif_pos (by have := i.isLt; omega), List.map_append, List.map_map,
        List.getElem?_append_left (by rw [List.length_map, hgr, List.length_map, hdl]; exact i.isLt), List.getElem?_map, hgr,
        List.getElem?_map, dof_get hdl i] at h5
      simp only [Option.map_some, Option.some.injEq] at h5
      exact h5
    have hKt : (matOf c.ndof1 K0).transpose = matOf c.ndof1 K0 := by
      obtain ⟨-, -, t3⟩ := C25_symmetric hB ha'.ready.base.fits k2
      funext i k'
      have hd' : ({ a with j := j } : Analysis ℝ).DOF1.length = c.ndof1 := ha'.ready.base.dofs
      exact t3 k' i (by rw [hd']; exact k'.isLt) (by rw [hd']; exact i.isLt)
    have hdofa : ({ a with j := j } : Analysis ℝ).DOF1 = dofs := ha'.state.dof
    have hquad : ∀ v, dotProduct (turnRed Q τ dofs c.ndof1 v) ((matOf c.ndof1 K0).mulVec (turnRed Q τ dofs c.ndof1 v)) =
        dotProduct v ((matOf c.ndof1 K0).mulVec v) := by
      intro v
      have h6 := symmetric_quadratic hQ hS hB ha'.ready.base.fits (by rw [hdofa]; exact hsup) ha'.state.state k2 hK.state.U
        ha'.ready.base.dofs v
      rw [hdofa] at h6
      simp only [dotProduct, Matrix.mulVec, Finset.mul_sum, ← mul_assoc]
      exact h6
    have hff : ∀ i : Fin c.ndof1, a3.f0red.getD i 0 = ef.forces.getD (dofs.getD i 0) 0 := by
      intro i
      rw [l4, List.getD_eq_getElem?_getD, List.getElem?_map, dof_get hdl i]
      rfl
    have hT := symmetric_solution hdet (f := fun i => a3.f0red.getD i 0) e1 e2 hKt (turnRed_injective hQ hnd hlt hdl hsup) hquad
      (by
        intro v
        simp only [dotProduct, hff]
        exact dot_turnRed hQ hnd hlt hdl hsup l2 v)
      (by
        intro v
        simp only [dotProduct, neg_mul, Finset.sum_neg_distrib]
        rw [dot_turnRed hQ hnd hlt hdl hsup hg.state.g v]) hx
    rw [turnRed_fixed hnd hlt hdl hsup] at hT
    refine ⟨by simp [vadd, hV.1], ?_⟩
    have e : (expand N dofs fun m : Fin c.ndof1 => (vadd V (List.ofFn x)).getD m 0) =
        fun i => expand N dofs (fun m : Fin c.ndof1 => V.getD m 0) i + expand N dofs (fun m : Fin c.ndof1 => x m.castSucc) i := by
      funext i d
      simp only [expand, Pi.add_apply]
      rw [← Finset.sum_add_distrib]
      refine Finset.sum_congr rfl fun m _ => ?_
      have h1 : (m : Nat) < V.length := by rw [hV.1]; have := m.isLt; omega
      have h2 : (m : Nat) < c.ndof1 + 1 := by have := m.isLt; omega
      have h3 : (vadd V (List.ofFn x)).getD m 0 = V.getD m 0 + x m.castSucc := by
        rw [List.getD_eq_getElem?_getD, List.getD_eq_getElem?_getD]
        unfold vadd
        rw [List.getElem?_zipWith, List.getElem?_eq_getElem h1, List.getElem?_ofFn, dif_pos h2]
        rfl
      rw [h3]
      split <;> simp
    rw [e]
    intro i
    show expand N dofs _ (τ i) + expand N dofs _ (τ i) = mulVec3 Q _
    rw [hV.2 i, hT i, ← mulVec3_add]

end TrussPy
